import Verif.Spec.Layout
import Verif.Props.TensorGenericSum

/-!
# Arithmetic of the Tensors of one problem
-/

set_option linter.unusedSectionVars false

namespace Verif.Tens
open Verif.Params (Err)
open NDArray

variable {α : Type} [Field α] [DecidableEq α]

theorem Piece.nd {L : Layout} {t : Tensor α} (h : Piece L t) : t.values.ndim = t.xDim + t.yDim + L.n + t.dim := by
  rw [h.wf.nd, h.hn]

theorem Piece.ne {L : Layout} (hL : L.Ok) {t : Tensor α} (h : Piece L t) : t.values.ndim ≠ 0 := by
  have := h.nd
  have := hL.some
  omega

theorem Piece.neg {L : Layout} {t : Tensor α} (h : Piece L t) : Piece L t.neg :=
  ⟨h.wf.map _, h.inj, h.hx, h.hy, h.hn, h.hd, h.size, h.px, h.py⟩

theorem Piece.compat {L : Layout} {t o : Tensor α} (h : Piece L t) (h' : Piece L o) : Compat t o := by
  have a1 := h.hx
  have a2 := h'.hx
  have b1 := h.hy
  have b2 := h'.hy
  have c1 := h.hn
  have c2 := h'.hn
  have d1 := h.hd
  have d2 := h'.hd
  refine ⟨?_, ?_, ?_, ?_⟩ <;> omega

theorem Piece.xShape {L : Layout} {t : Tensor α} (h : Piece L t) {k : Nat} (hk : k < t.xDim) :
    (0 ≤ t.xMap.getD k (-1) ∧ t.values.shape k = 1) ∨ (t.xMap.getD k (-1) < 0 ∧ t.values.shape k = L.PX k) := by
  by_cases c : 0 ≤ t.xMap.getD k (-1)
  · exact Or.inl ⟨c, h.wf.xOne k (lt_of_getD_nonneg c) c⟩
  · exact Or.inr ⟨by omega, (h.px k hk).2 (by omega)⟩

theorem Piece.yShape {L : Layout} {t : Tensor α} (h : Piece L t) {k : Nat} (hk : k < t.yDim) :
    (0 ≤ t.yMap.getD k (-1) ∧ t.values.shape (t.xDim + k) = 1) ∨
      (t.yMap.getD k (-1) < 0 ∧ t.values.shape (t.xDim + k) = L.PY k) := by
  by_cases c : 0 ≤ t.yMap.getD k (-1)
  · exact Or.inl ⟨c, h.wf.yOne k (lt_of_getD_nonneg c) c⟩
  · exact Or.inr ⟨by omega, (h.py k hk).2 (by omega)⟩

theorem Piece.shapesFit {L : Layout} {t o : Tensor α} (h : Piece L t) (h' : Piece L o) :
    ShapesFit t t.values o o.values := by
  have a1 := h.hx
  have a2 := h'.hx
  have b1 := h.hy
  have b2 := h'.hy
  have c1 := h.hn
  have c2 := h'.hn
  have d1 := h.hd
  have d2 := h'.hd
  refine ⟨fun ht ho k hk => ?_, fun ht ho k hk => ?_, fun ht ho k hk => ?_, fun ht ho k hk => ?_⟩
  · have := h.xShape hk
    have := h'.xShape (k := k) (by omega)
    unfold Bcast; omega
  · have := h.yShape hk
    have := h'.yShape (k := k) (by omega)
    unfold Bcast; omega
  · have := h.size k (by omega)
    have := h'.size k (by omega)
    unfold Bcast; omega
  · have := h.size (L.n + k) (by omega)
    have := h'.size (L.n + k) (by omega)
    rw [c1, c2, Nat.add_assoc _ L.n, Nat.add_assoc _ L.n]
    unfold Bcast; omega

/-- All outcome axes are there, and the axes `K` (of the features and outcomes) are not broadcast. -/
def Tensor.FullOn {α : Type} (K : Nat → Prop) (L : Layout) (t : Tensor α) : Prop :=
  t.dim = L.d ∧ ∀ k < L.n + L.d, K k → t.values.shape (t.xDim + t.yDim + k) = L.S k

/-- The sizes of all axes of `values[l_idx] op values[r_idx]`. -/
theorem reshapedOp_shape {t o : Tensor α} (hnt : t.values.ndim = t.xDim + t.yDim + t.n + t.dim)
    (hno : o.values.ndim = o.xDim + o.yDim + o.n + o.dim)
    {X Y N D : Nat} (ht : Fits t X Y N D) (ho : Fits o X Y N D) (op : Op) {r : NDArray α}
    (hr : reshapedOp op t.values (t.reshapeIdx X Y N D) o.values (o.reshapeIdx X Y N D) = .ok r) :
    (∀ k < X, r.shape k = bsize (if t.xDim = 0 then 1 else t.values.shape k)
      (if o.xDim = 0 then 1 else o.values.shape k)) ∧
    (∀ k < Y, r.shape (X + k) = bsize (if t.yDim = 0 then 1 else t.values.shape (t.xDim + k))
      (if o.yDim = 0 then 1 else o.values.shape (o.xDim + k))) ∧
    (∀ k < N, r.shape (X + Y + k) = bsize (if t.n = 0 then 1 else t.values.shape (t.xDim + t.yDim + k))
      (if o.n = 0 then 1 else o.values.shape (o.xDim + o.yDim + k))) ∧
    (∀ k < D, r.shape (X + Y + N + k) = bsize (if t.dim = 0 then 1 else t.values.shape (t.xDim + t.yDim + t.n + k))
      (if o.dim = 0 then 1 else o.values.shape (o.xDim + o.yDim + o.n + k))) := by
  obtain ⟨l, hl, l1, l2, l3, l4, l5, l6⟩ := reshape_ok (v := t.values) hnt rfl ht
  obtain ⟨s, hs, s1, s2, s3, s4, s5, s6⟩ := reshape_ok (v := o.values) hno rfl ho
  unfold reshapedOp at hr
  rw [hl, hs] at hr
  obtain ⟨r1, r2, r3, r4⟩ := binary_ok hr (by rw [l1, s1])
  refine ⟨fun k hk => ?_, fun k hk => ?_, fun k hk => ?_, fun k hk => ?_⟩
  · rw [r2, l3 k hk, s3 k hk]
  · rw [r2, l4 k hk, s4 k hk]
  · rw [r2, l5 k hk, s5 k hk]
  · rw [r2, l6 k hk, s6 k hk]

/-- The map of the result is that of both operands, or that of the operand that has axes. -/
def MapCase (m m1 m2 : List Int) (d1 d2 : Nat) : Prop :=
  (m = m1 ∧ m = m2) ∨ (m = m1 ∧ d2 = 0) ∨ (m = m2 ∧ d1 = 0)

/-- The result of an operation on two Tensors of the problem is a Tensor of the problem. -/
theorem piece_result {L : Layout} {t o : Tensor α} (h : Piece L t) (h' : Piece L o) {op : Op} {v : NDArray α}
    {xm ym : List Int} (hxm : MapCase xm t.xMap o.xMap t.xDim o.xDim) (hym : MapCase ym t.yMap o.yMap t.yDim o.yDim)
    (hv : reshapedOp op t.values
        (t.reshapeIdx (max t.xDim o.xDim) (max t.yDim o.yDim) (max t.n o.n) (max t.dim o.dim)) o.values
        (o.reshapeIdx (max t.xDim o.xDim) (max t.yDim o.yDim) (max t.n o.n) (max t.dim o.dim)) = .ok v)
    (hw : (⟨v, max t.xDim o.xDim, max t.yDim o.yDim, max t.dim o.dim, xm, ym⟩ : Tensor α).WF) :
    Piece L ⟨v, max t.xDim o.xDim, max t.yDim o.yDim, max t.dim o.dim, xm, ym⟩ ∧
    (∀ {K : Nat → Prop}, (o.FullOn K L ∨ t.FullOn K L) →
      Tensor.FullOn K L (⟨v, max t.xDim o.xDim, max t.yDim o.yDim, max t.dim o.dim, xm, ym⟩ : Tensor α)) := by
  have hc := h.compat h'
  obtain ⟨f1, f2⟩ := hc.fits
  obtain ⟨v1, -⟩ := reshapedOp_ok h.wf.nd rfl h'.wf.nd rfl f1 f2 op hv
  obtain ⟨s1, s2, s3, s4⟩ := reshapedOp_shape h.wf.nd h'.wf.nd f1 f2 op hv
  have a1 := h.hx
  have a2 := h'.hx
  have b1 := h.hy
  have b2 := h'.hy
  have c1 := h.hn
  have c2 := h'.hn
  have d1 := h.hd
  have d2 := h'.hd
  have n0 : max t.n o.n = L.n := by omega
  rw [n0] at v1 s3 s4
  have hsz : ∀ k < L.n + max t.dim o.dim, ∃ p q, (p = L.S k ∨ p = 1) ∧ (q = L.S k ∨ q = 1) ∧
      v.shape (max t.xDim o.xDim + max t.yDim o.yDim + k) = bsize p q ∧
      (∀ {K : Nat → Prop}, t.FullOn K L → K k → p = L.S k) ∧
      (∀ {K : Nat → Prop}, o.FullOn K L → K k → q = L.S k) := by
    intro k hk
    by_cases hkn : k < L.n
    · refine ⟨_, _, ?_, ?_, s3 k hkn, ?_, ?_⟩
      · rw [if_neg (by omega)]; exact h.size k (by omega)
      · rw [if_neg (by omega)]; exact h'.size k (by omega)
      · intro K hf hK; rw [if_neg (by omega)]; exact hf.2 k (by omega) hK
      · intro K hf hK; rw [if_neg (by omega)]; exact hf.2 k (by omega) hK
    · obtain ⟨j, rfl⟩ : ∃ j, k = L.n + j := ⟨k - L.n, by omega⟩
      rw [← Nat.add_assoc]
      have hj : j < max t.dim o.dim := by omega
      refine ⟨_, _, ?_, ?_, s4 j hj, ?_, ?_⟩
      · split_ifs with g
        · exact Or.inr rfl
        · rw [c1, Nat.add_assoc]; exact h.size _ (by omega)
      · split_ifs with g
        · exact Or.inr rfl
        · rw [c2, Nat.add_assoc]; exact h'.size _ (by omega)
      · intro K hf hK
        have := hf.1
        rw [if_neg (by omega), c1, Nat.add_assoc]; exact hf.2 _ (by omega) hK
      · intro K hf hK
        have := hf.1
        rw [if_neg (by omega), c2, Nat.add_assoc]; exact hf.2 _ (by omega) hK
  have hnn : Tensor.n (⟨v, max t.xDim o.xDim, max t.yDim o.yDim, max t.dim o.dim, xm, ym⟩ : Tensor α) = L.n := by
    unfold Tensor.n; dsimp only; omega
  refine ⟨⟨hw, ⟨?_, ?_⟩, ?_, ?_, hnn, ?_, fun k hk => ?_, fun k hk => ?_, fun k hk => ?_⟩, fun hf => ⟨?_, fun k hk hK => ?_⟩⟩
  · show (xm.filter _).Nodup
    rcases hxm with ⟨rfl, -⟩ | ⟨rfl, -⟩ | ⟨rfl, -⟩
    · exact h.inj.1
    · exact h.inj.1
    · exact h'.inj.1
  · show (ym.filter _).Nodup
    rcases hym with ⟨rfl, -⟩ | ⟨rfl, -⟩ | ⟨rfl, -⟩
    · exact h.inj.2
    · exact h.inj.2
    · exact h'.inj.2
  · show max t.xDim o.xDim = 0 ∨ max t.xDim o.xDim = L.a; omega
  · show max t.yDim o.yDim = 0 ∨ max t.yDim o.yDim = L.b; omega
  · show max t.dim o.dim = 0 ∨ max t.dim o.dim = L.d; omega
  · obtain ⟨p, q, hp, hq, e, -, -⟩ := hsz k hk
    show v.shape _ = _ ∨ v.shape _ = _
    rw [e]; unfold bsize; split_ifs <;> omega
  · show (0 ≤ xm.getD k (-1) → L.S (xm.getD k (-1)).toNat = L.PX k) ∧ (xm.getD k (-1) < 0 → v.shape k = L.PX k)
    have hk' : k < max t.xDim o.xDim := hk
    rw [s1 k hk']
    constructor
    · intro h0
      rcases hxm with ⟨rfl, -⟩ | ⟨rfl, -⟩ | ⟨rfl, -⟩
      · have := lt_of_getD_nonneg h0; have := h.wf.xLen; exact (h.px k (by omega)).1 h0
      · have := lt_of_getD_nonneg h0; have := h.wf.xLen; exact (h.px k (by omega)).1 h0
      · have := lt_of_getD_nonneg h0; have := h'.wf.xLen; exact (h'.px k (by omega)).1 h0
    · intro h0
      by_cases ct : t.xDim = 0
      · rw [if_pos ct]
        have e1 : t.xMap = [] := List.eq_nil_of_length_eq_zero (by have := h.wf.xLen; omega)
        rw [if_neg (by omega)]
        show (if 1 = 1 then _ else _) = _
        rw [if_pos rfl]
        refine (h'.px k (by omega)).2 ?_
        rcases hxm with ⟨-, e⟩ | ⟨-, e⟩ | ⟨e, -⟩
        · rw [← e]; exact h0
        · omega
        · rw [← e]; exact h0
      · rw [if_neg ct]
        have e1 : xm = t.xMap := by
          rcases hxm with ⟨e, -⟩ | ⟨e, -⟩ | ⟨-, e⟩
          · exact e
          · exact e
          · omega
        have p1 := (h.px k (by omega)).2 (by rw [← e1]; exact h0)
        by_cases co : o.xDim = 0
        · rw [if_pos co, p1]; unfold bsize; split_ifs with g
          · exact g.symm
          · rfl
        · rw [if_neg co]
          have e2 : xm = o.xMap := by
            rcases hxm with ⟨-, e⟩ | ⟨-, e⟩ | ⟨e, -⟩
            · exact e
            · omega
            · exact e
          rw [p1, (h'.px k (by omega)).2 (by rw [← e2]; exact h0)]
          unfold bsize; split_ifs <;> rfl
  · show (0 ≤ ym.getD k (-1) → L.S (ym.getD k (-1)).toNat = L.PY k) ∧
      (ym.getD k (-1) < 0 → v.shape (max t.xDim o.xDim + k) = L.PY k)
    have hk' : k < max t.yDim o.yDim := hk
    rw [s2 k hk']
    constructor
    · intro h0
      rcases hym with ⟨rfl, -⟩ | ⟨rfl, -⟩ | ⟨rfl, -⟩
      · have := lt_of_getD_nonneg h0; have := h.wf.yLen; exact (h.py k (by omega)).1 h0
      · have := lt_of_getD_nonneg h0; have := h.wf.yLen; exact (h.py k (by omega)).1 h0
      · have := lt_of_getD_nonneg h0; have := h'.wf.yLen; exact (h'.py k (by omega)).1 h0
    · intro h0
      by_cases ct : t.yDim = 0
      · rw [if_pos ct]
        have e1 : t.yMap = [] := List.eq_nil_of_length_eq_zero (by have := h.wf.yLen; omega)
        rw [if_neg (by omega)]
        show (if 1 = 1 then _ else _) = _
        rw [if_pos rfl]
        refine (h'.py k (by omega)).2 ?_
        rcases hym with ⟨-, e⟩ | ⟨-, e⟩ | ⟨e, -⟩
        · rw [← e]; exact h0
        · omega
        · rw [← e]; exact h0
      · rw [if_neg ct]
        have e1 : ym = t.yMap := by
          rcases hym with ⟨e, -⟩ | ⟨e, -⟩ | ⟨-, e⟩
          · exact e
          · exact e
          · omega
        have p1 := (h.py k (by omega)).2 (by rw [← e1]; exact h0)
        by_cases co : o.yDim = 0
        · rw [if_pos co, p1]; unfold bsize; split_ifs with g
          · exact g.symm
          · rfl
        · rw [if_neg co]
          have e2 : ym = o.yMap := by
            rcases hym with ⟨-, e⟩ | ⟨-, e⟩ | ⟨e, -⟩
            · exact e
            · omega
            · exact e
          rw [p1, (h'.py k (by omega)).2 (by rw [← e2]; exact h0)]
          unfold bsize; split_ifs <;> rfl
  · show max t.dim o.dim = L.d
    rcases hf with hf | hf <;> have := hf.1 <;> omega
  · show v.shape _ = _
    have : L.n + L.d = L.n + max t.dim o.dim := by
      rcases hf with hf | hf <;> have := hf.1 <;> omega
    obtain ⟨p, q, hp, hq, e, ep, eq⟩ := hsz k (by omega)
    rw [e]
    show bsize p q = _
    unfold bsize
    rcases hf with hf | hf
    · have := eq hf hK; split_ifs <;> omega
    · have := ep hf hK; split_ifs <;> omega

theorem mulX_disjoint {t o : Tensor α} (ht : t.WF) (ho : o.WF) (hx : t.xDim = 0 ∨ o.xDim = 0) (l r : NDArray α) :
    t.mulX o l r = .ok (l, r, t.xMap ++ o.xMap) := by
  have a1 := ht.xLen
  have b1 := ho.xLen
  unfold Tensor.mulX
  dsimp only
  rcases hx with hx | hx
  · have e : t.xMap = [] := List.eq_nil_of_length_eq_zero (by omega)
    rw [if_neg (by rw [not_not]; exact e), if_neg (fun h => h.2 hx), e, List.nil_append]
  · have : o.xMap = [] := List.eq_nil_of_length_eq_zero (by omega)
    split_ifs with g1 g2 g3 g4
    · exact absurd hx g2.2
    · rw [this, List.zip_nil_right, List.append_nil]; rfl
    · exact absurd this g3.1
    · rw [not_not.1 g1, List.nil_append]

theorem mulY_disjoint {t o : Tensor α} (ht : t.WF) (ho : o.WF) (hy : t.yDim = 0 ∨ o.yDim = 0) (l r : NDArray α) :
    t.mulY o l r = .ok (l, r, t.yMap ++ o.yMap) := by
  have a1 := ht.yLen
  have b1 := ho.yLen
  unfold Tensor.mulY
  dsimp only
  rcases hy with hy | hy
  · have e : t.yMap = [] := List.eq_nil_of_length_eq_zero (by omega)
    rw [if_neg (by rw [not_not]; exact e), if_neg (fun h => h hy), e, List.nil_append]
  · have : o.yMap = [] := List.eq_nil_of_length_eq_zero (by omega)
    split_ifs with g1 g2 g3
    · exact absurd hy g2.2
    · rw [this, List.zip_nil_right, List.append_nil]; rfl
    · rw [not_not.1 g1, this]; rfl
    · rw [not_not.1 g1, List.nil_append]

theorem mapCase_append {m1 m2 : List Int} {d1 d2 : Nat} (h1 : m1.length ≤ d1) (h2 : m2.length ≤ d2)
    (h : d1 = 0 ∨ d2 = 0) : MapCase (m1 ++ m2) m1 m2 d1 d2 := by
  rcases h with h | h
  · have e : m1 = [] := List.eq_nil_of_length_eq_zero (by omega)
    exact Or.inr (Or.inr ⟨by rw [e, List.nil_append], h⟩)
  · have e : m2 = [] := List.eq_nil_of_length_eq_zero (by omega)
    exact Or.inr (Or.inl ⟨by rw [e, List.append_nil], h⟩)

/-- Product and quotient of two Tensors of the problem that do not share a parameter. -/
theorem piece_mul {L : Layout} (hL : L.Ok) {t o : Tensor α} (h : Piece L t) (h' : Piece L o)
    (hx : t.xDim = 0 ∨ o.xDim = 0) (hy : t.yDim = 0 ∨ o.yDim = 0) {op : Op} (hop : ¬ op.additive) :
    ∃ s, t.binTensor o op = .ok (.tensor s) ∧ Piece L s ∧ s.xDim = max t.xDim o.xDim ∧ s.yDim = max t.yDim o.yDim ∧
      s.dim = max t.dim o.dim ∧ (∀ {K : Nat → Prop}, (o.FullOn K L ∨ t.FullOn K L) → s.FullOn K L) ∧
      ∀ i, (op = .div → o.dense i ≠ 0) → (op = .rdiv → t.dense i ≠ 0) → s.dense i = op.app (t.dense i) (o.dense i) := by
  have hok : MulOk t o := by
    have h1 := h.wf.xLen
    have h2 := h.wf.yLen
    have h3 := h'.wf.xLen
    have h4 := h'.wf.yLen
    constructor
    · rcases hx with hx | hx
      · exact Or.inr (Or.inr ⟨List.eq_nil_of_length_eq_zero (by omega), Or.inl hx⟩)
      · exact Or.inr (Or.inl ⟨List.eq_nil_of_length_eq_zero (by omega), Or.inl hx⟩)
    · rcases hy with hy | hy
      · exact Or.inr (Or.inr ⟨List.eq_nil_of_length_eq_zero (by omega), Or.inl hy⟩)
      · exact Or.inr (Or.inl ⟨List.eq_nil_of_length_eq_zero (by omega), Or.inl hy⟩)
  obtain ⟨r, hr⟩ := C51_mul_div_succeeds h.wf h'.wf (h.compat h') hx hy (h.shapesFit h') hop
    (fun _ => h'.ne hL)
  have hr0 := hr
  obtain ⟨s, rfl, hw⟩ := C51_mul_div_storage h.wf h'.wf hok hop hr
  refine ⟨s, hr, ?_⟩
  have hc := h.compat h'
  unfold Tensor.binTensor at hr
  rw [if_neg (h'.ne hL), if_neg (h.ne hL)] at hr
  obtain ⟨k1, k2, k3, k4⟩ := hc
  rw [if_neg (fun h => h.elim (· k3) fun h => h.elim (· k4) fun h => h.elim (· k1) (· k2))] at hr
  dsimp only at hr
  rw [if_neg (fun h => hop (op.additive_iff.2 h)), mulX_disjoint h.wf h'.wf hx] at hr
  dsimp only at hr
  rw [mulY_disjoint h.wf h'.wf hy] at hr
  dsimp only at hr
  cases hv : reshapedOp op t.values
        (t.reshapeIdx (max t.xDim o.xDim) (max t.yDim o.yDim) (max t.n o.n) (max t.dim o.dim)) o.values
        (o.reshapeIdx (max t.xDim o.xDim) (max t.yDim o.yDim) (max t.n o.n) (max t.dim o.dim)) with
  | error e => rw [hv] at hr; cases hr
  | ok v =>
    rw [hv] at hr
    dsimp only at hr
    cases hk : mkTensor v (max t.xDim o.xDim) (max t.yDim o.yDim) (max t.dim o.dim) (t.xMap ++ o.xMap)
        (t.yMap ++ o.yMap) with
    | error e => rw [hk] at hr; cases hr
    | ok s' =>
      rw [hk] at hr
      cases hr
      obtain ⟨rfl, -⟩ := mkTensor_ok hk
      obtain ⟨p1, p2⟩ := piece_result h h' (mapCase_append h.wf.xLen h'.wf.xLen hx)
        (mapCase_append h.wf.yLen h'.wf.yLen hy) hv hw
      exact ⟨p1, rfl, rfl, rfl, p2, fun i hd hd' => C51_mul_div_partial h.wf h'.wf hok hop hr0 i hd hd'⟩

/-- Sum and difference of two Tensors of the problem. -/
theorem piece_add {L : Layout} (hL : L.Ok) {t o : Tensor α} (h : Piece L t) (h' : Piece L o) {op : Op}
    (hop : op.additive) :
    ∃ r, t.binTensor o op = .ok r ∧ (∀ i, r.dense i = op.app (t.dense i) (o.dense i)) ∧
      ((∃ s, r = .tensor s ∧ Piece L s ∧ s.xDim = max t.xDim o.xDim ∧ s.yDim = max t.yDim o.yDim ∧
        s.dim = max t.dim o.dim ∧ (∀ {K : Nat → Prop}, (o.FullOn K L ∨ t.FullOn K L) → s.FullOn K L)) ∨
       r = .generic ⟨max t.xDim o.xDim, max t.yDim o.yDim, L.n, max t.dim o.dim, addElems op t o⟩) := by
  obtain ⟨r, hr⟩ := C50_add_sub_succeeds h.wf h'.wf (h.compat h') (h.shapesFit h') hop
  refine ⟨r, hr, fun i => C50_add_sub_partial h.wf h'.wf (fun h0 => absurd h0 (h.ne hL)) hop hr i
    (fun h0 => absurd h0 (h'.ne hL)), ?_⟩
  have hw := C50_add_sub_storage h.wf h'.wf hop hr
  obtain ⟨-, ⟨v, m1, m2, hv, rfl, -⟩ | ⟨-, rfl⟩⟩ := Tensor.binTensor_additive hop (h'.ne hL) (h.ne hL) hr
  · left
    obtain ⟨p1, p2⟩ := piece_result h h' (Or.inl ⟨rfl, m1⟩) (Or.inl ⟨rfl, m2⟩) hv hw
    exact ⟨_, rfl, p1, rfl, rfl, rfl, p2⟩
  · right
    have := h.hn
    have := h'.hn
    rw [show max t.n o.n = L.n by omega]

theorem Tensor.IsZero.dims {t : Tensor α} (h : t.IsZero) :
    t.xDim = 0 ∧ t.yDim = 0 ∧ t.dim = 0 ∧ t.n = 0 ∧ t.xMap = [] ∧ t.yMap = [] := by
  have h1 := h.1.ndim
  have h2 := h.2.1
  have h3 := h.1.xLen
  have h4 := h.1.yLen
  exact ⟨by omega, by omega, by omega, by unfold Tensor.n; omega, List.eq_nil_of_length_eq_zero (by omega),
    List.eq_nil_of_length_eq_zero (by omega)⟩

theorem Tensor.IsZero.dense {t : Tensor α} (h : t.IsZero) (i : Idx) : t.dense i = 0 := by
  rw [Tensor.dense_zero h.1 h.2.1, h.2.2]

theorem Tensor.isZero_const : (Tensor.const (0 : α)).IsZero := ⟨Tensor.wf_nomap (by simp), rfl, rfl⟩

theorem Tensor.IsZero.neg {t : Tensor α} (h : t.IsZero) : t.neg.IsZero := by
  refine ⟨h.1.map _, h.2.1, ?_⟩
  have : t.neg.values.get (fun _ => 0) = - t.values.get (fun _ => 0) := by
    show (t.values.map (- ·)).get _ = _
    unfold NDArray.map NDArray.get
    dsimp only
    congr 2; funext k; split_ifs <;> rfl
  rw [this, h.2.2, neg_zero]

theorem Item.wf {L : Layout} {t : Tensor α} (h : Item L t) : t.WF := h.elim (·.wf) (·.1)

theorem Item.neg {L : Layout} {t : Tensor α} (h : Item L t) : Item L t.neg := h.imp (·.neg) (·.neg)

/-- A Tensor of the problem with all outcome axes in which the axes `K` are not broadcast. -/
def OnPiece (K : Nat → Prop) (L : Layout) (t : Tensor α) : Prop := Piece L t ∧ t.FullOn K L

theorem OnPiece.neg {K : Nat → Prop} {L : Layout} {t : Tensor α} (h : OnPiece K L t) : OnPiece K L t.neg := ⟨h.1.neg, h.2⟩

/-- A Tensor of the problem in which no axis is broadcast. -/
abbrev FullPiece (L : Layout) (t : Tensor α) : Prop := OnPiece (fun _ => True) L t

theorem OnPiece.full {L : Layout} {t : Tensor α} (h : FullPiece L t) : t.Full L :=
  ⟨h.2.1, fun k hk => h.2.2 k hk trivial⟩

theorem Tensor.Full.piece {L : Layout} {t : Tensor α} (h : t.Full L) (hp : Piece L t) : FullPiece L t :=
  ⟨hp, h.1, fun k hk _ => h.2 k hk⟩

theorem Op.app_zero_left {op : Op} (h : op.app (0 : α) 0 = 0) (P : Prop) [Decidable P] (c : α) :
    (if P then op.app 0 c else 0) = op.app 0 (if P then c else 0) := by
  split_ifs
  · rfl
  · exact h.symm

/-- `Tensor(0) op o` for a Tensor of the problem. -/
theorem zero_op_piece {L : Layout} (hL : L.Ok) {t o : Tensor α} (h : t.IsZero) (h' : Piece L o) (op : Op) :
    ∃ s, t.binTensor o op = .ok (.tensor s) ∧ Piece L s ∧ s.xDim = o.xDim ∧ s.yDim = o.yDim ∧ s.dim = o.dim ∧
      (∀ {K : Nat → Prop}, o.FullOn K L → s.FullOn K L) ∧ ∀ i, op.app (0 : α) 0 = 0 → s.dense i = op.app 0 (o.dense i) := by
  obtain ⟨v, hv, v1, v2, v3⟩ := Tensor.binTensor_zero_left (t := t) (op := op) h'.wf (h'.ne hL) h.2.1
  have hnn : Tensor.n (⟨v, o.xDim, o.yDim, o.dim, o.xMap, o.yMap⟩ : Tensor α) = o.n := by
    unfold Tensor.n; dsimp only; rw [v1]
  have hn := h'.nd
  have h2 := h'.wf.xLen
  have h3 := h'.wf.yLen
  refine ⟨_, hv, ⟨?_, h'.inj, h'.hx, h'.hy, by rw [hnn]; exact h'.hn, h'.hd, fun k hk => ?_, fun k hk => ?_,
    fun k hk => ?_⟩, rfl, rfl, rfl, fun hf => ⟨hf.1, fun k hk hK => ?_⟩, fun i h0 => ?_⟩
  · refine ⟨by rw [v1]; exact h'.wf.ndim, h'.wf.xLen, h'.wf.yLen, by rw [hnn]; exact h'.wf.xRange,
      by rw [hnn]; exact h'.wf.yRange, fun k hk h0 => ?_, fun k hk h0 => ?_⟩
    · show v.shape k = 1
      have hk' : k < o.xMap.length := hk
      rw [v2 k (by omega)]; exact h'.wf.xOne k hk h0
    · show v.shape (o.xDim + k) = 1
      have hk' : k < o.yMap.length := hk
      rw [v2 _ (by omega)]; exact h'.wf.yOne k hk h0
  · have hk' : k < L.n + o.dim := hk
    show v.shape (o.xDim + o.yDim + k) = _ ∨ v.shape (o.xDim + o.yDim + k) = _
    rw [v2 _ (by omega)]; exact h'.size k hk
  · have hk' : k < o.xDim := hk
    refine ⟨(h'.px k hk).1, fun h0 => ?_⟩
    show v.shape k = _
    rw [v2 _ (by omega)]; exact (h'.px k hk).2 h0
  · have hk' : k < o.yDim := hk
    refine ⟨(h'.py k hk).1, fun h0 => ?_⟩
    show v.shape (o.xDim + k) = _
    rw [v2 _ (by omega)]; exact (h'.py k hk).2 h0
  · show v.shape (o.xDim + o.yDim + k) = _
    have := hf.1
    rw [v2 _ (by omega)]; exact hf.2 k hk hK
  · unfold Tensor.dense
    dsimp only
    have hf : Tensor.flat (⟨v, o.xDim, o.yDim, o.dim, o.xMap, o.yMap⟩ : Tensor α) i = o.flat i := by
      unfold Tensor.flat Tensor.n
      dsimp only
      rw [v1]
    rw [v3, hf, h.2.2]
    exact Op.app_zero_left h0 _ _

/-- Product of two Tensors of the problem (or zeros) that do not share a parameter. -/
theorem item_mul {L : Layout} (hL : L.Ok) {t o : Tensor α} (h : Item L t) (h' : Item L o)
    (hx : t.xDim = 0 ∨ o.xDim = 0) (hy : t.yDim = 0 ∨ o.yDim = 0) :
    ∃ s, t.binTensor o .mul = .ok (.tensor s) ∧ Item L s ∧ s.xDim ≤ max t.xDim o.xDim ∧
      s.yDim ≤ max t.yDim o.yDim ∧ s.dim ≤ max t.dim o.dim ∧ (∀ {K : Nat → Prop}, OnPiece K L o → OnPiece K L s) ∧
      ∀ i, s.dense i = t.dense i * o.dense i := by
  have hop : ¬ (Op.mul).additive := by simp [Op.additive]
  rcases h' with h' | h'
  · rcases h with h | h
    · obtain ⟨s, e1, e2, e3, e4, e5, e6, e7⟩ := piece_mul hL h h' hx hy hop
      exact ⟨s, e1, Or.inl e2, e3.le, e4.le, e5.le, fun hf => ⟨e2, e6 (Or.inl hf.2)⟩,
        fun i => e7 i (by simp) (by simp)⟩
    · obtain ⟨s, e1, e2, e3, e4, e5, e6, e7⟩ := zero_op_piece hL h h' .mul
      refine ⟨s, e1, Or.inl e2, by omega, by omega, by omega, fun hf => ⟨e2, e6 hf.2⟩, fun i => ?_⟩
      rw [e7 i (by simp [Op.app]), h.dense]; rfl
  · refine ⟨Tensor.const 0, ?_, Or.inr Tensor.isZero_const, Nat.zero_le _, Nat.zero_le _, Nat.zero_le _,
      fun hf => absurd h'.2.1 (hf.1.ne hL), fun i => ?_⟩
    · unfold Tensor.binTensor
      rw [if_pos h'.2.1, h'.2.2]
      simp [Tensor.binScalar]
    · rw [h'.dense, mul_zero, Tensor.isZero_const.dense]

/-- Quotient of a Tensor of the problem (or zero) by values. -/
theorem item_div {L : Layout} (hL : L.Ok) {t o : Tensor α} (h : Item L t) (h' : Piece L o)
    (hx : t.xDim = 0 ∨ o.xDim = 0) (hy : t.yDim = 0 ∨ o.yDim = 0) :
    ∃ s, t.binTensor o .div = .ok (.tensor s) ∧ Item L s ∧ s.xDim ≤ max t.xDim o.xDim ∧
      s.yDim ≤ max t.yDim o.yDim ∧ s.dim ≤ max t.dim o.dim ∧ (∀ {K : Nat → Prop}, OnPiece K L o → OnPiece K L s) ∧
      ∀ i, o.dense i ≠ 0 → s.dense i = t.dense i / o.dense i := by
  have hop : ¬ (Op.div).additive := by simp [Op.additive]
  rcases h with h | h
  · obtain ⟨s, e1, e2, e3, e4, e5, e6, e7⟩ := piece_mul hL h h' hx hy hop
    exact ⟨s, e1, Or.inl e2, e3.le, e4.le, e5.le, fun hf => ⟨e2, e6 (Or.inl hf.2)⟩,
      fun i hi => e7 i (fun _ => hi) (by simp)⟩
  · obtain ⟨s, e1, e2, e3, e4, e5, e6, e7⟩ := zero_op_piece hL h h' .div
    refine ⟨s, e1, Or.inl e2, by omega, by omega, by omega, fun hf => ⟨e2, e6 hf.2⟩, fun i _ => ?_⟩
    rw [e7 i (by simp [Op.app]), h.dense]; rfl

/-- Sum and difference of two Tensors of the problem (or zeros). -/
theorem item_add {L : Layout} (hL : L.Ok) {t o : Tensor α} (h : Item L t) (h' : Item L o) {op : Op}
    (hop : op.additive) :
    ∃ r, t.binTensor o op = .ok r ∧ (∀ i, r.dense i = op.app (t.dense i) (o.dense i)) ∧
      ((∃ s, r = .tensor s ∧ Item L s ∧ s.xDim ≤ max t.xDim o.xDim ∧ s.yDim ≤ max t.yDim o.yDim ∧
        s.dim ≤ max t.dim o.dim ∧ (∀ {K : Nat → Prop}, OnPiece K L t → OnPiece K L o → OnPiece K L s)) ∨
       r = .generic ⟨max t.xDim o.xDim, max t.yDim o.yDim, L.n, max t.dim o.dim, addElems op t o⟩) := by
  have h00 : op.app (0 : α) 0 = 0 := Op.additive_zero hop
  rcases h' with h' | h'
  · rcases h with h | h
    · obtain ⟨r, e1, e2, ⟨s, rfl, e3, e4, e5, e6, e7⟩ | rfl⟩ := piece_add hL h h' hop
      · exact ⟨_, e1, e2, Or.inl ⟨s, rfl, Or.inl e3, e4.le, e5.le, e6.le, fun hf _ => ⟨e3, e7 (Or.inr hf.2)⟩⟩⟩
      · exact ⟨_, e1, e2, Or.inr rfl⟩
    · obtain ⟨s, e1, e2, e3, e4, e5, e6, e7⟩ := zero_op_piece hL h h' op
      refine ⟨_, e1, fun i => ?_, Or.inl ⟨s, rfl, Or.inl e2, by omega, by omega, by omega,
        fun _ hf => ⟨e2, e6 hf.2⟩⟩⟩
      rw [h.dense]; exact e7 i h00
  · have hz : ∃ s, t.binScalar 0 op = .ok s ∧ (s = t ∧ op ≠ .rsub ∨ s = t.neg ∧ op = .rsub) := by
      rcases op.additive_iff.1 hop with rfl | rfl | rfl <;> simp [Tensor.binScalar]
    obtain ⟨s, e1, e2⟩ := hz
    refine ⟨.tensor s, ?_, fun i => ?_, Or.inl ⟨s, rfl, ?_⟩⟩
    · unfold Tensor.binTensor
      rw [if_pos h'.2.1, h'.2.2, e1]
    · show s.dense i = _
      rw [h'.dense]
      rcases e2 with ⟨rfl, hne⟩ | ⟨rfl, rfl⟩
      · rcases op.additive_iff.1 hop with rfl | rfl | rfl
        · exact (add_zero _).symm
        · exact (sub_zero _).symm
        · exact absurd rfl hne
      · rw [Tensor.dense_neg]; exact (zero_sub _).symm
    · rcases e2 with ⟨rfl, -⟩ | ⟨rfl, -⟩
      · exact ⟨h, le_max_left _ _, le_max_left _ _, le_max_left _ _, fun hf _ => hf⟩
      · exact ⟨h.neg, le_max_left _ _, le_max_left _ _, le_max_left _ _, fun hf _ => hf.neg⟩

end Verif.Tens
