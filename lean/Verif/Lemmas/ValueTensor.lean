import Verif.Lemmas.NumPiece
import Verif.Model.LikeTensor
import Verif.Props.TensorStruct

/-!
# Arithmetic of the value arrays of one problem
-/

set_option linter.unusedSectionVars false

namespace Verif.Tens
open Verif.Params (Err)
open NDArray

variable {α : Type} [Field α] [DecidableEq α]

/-- Values of the problem (possibly broadcast), or a 0-dimensional Tensor. -/
structure IsVal (L : Layout) (t : Tensor α) : Prop where
  wf : t.WF
  hx : t.xDim = 0
  hy : t.yDim = 0
  ok : Piece L t ∨ t.values.ndim = 0

theorem IsVal.xMap {L : Layout} {t : Tensor α} (h : IsVal L t) : t.xMap = [] ∧ t.yMap = [] := by
  have h1 := h.wf.xLen
  have h2 := h.wf.yLen
  rw [h.hx] at h1
  rw [h.hy] at h2
  exact ⟨List.eq_nil_of_length_eq_zero (by omega), List.eq_nil_of_length_eq_zero (by omega)⟩

theorem IsVal.eta {L : Layout} {t : Tensor α} (h : IsVal L t) : t = ⟨t.values, 0, 0, t.dim, [], []⟩ := by
  obtain ⟨h1, h2⟩ := h.xMap
  have h3 := h.hx
  have h4 := h.hy
  cases t
  simp only at h1 h2 h3 h4
  subst h1 h2 h3 h4
  rfl

theorem IsVal.toarray {L : Layout} {t : Tensor α} (h : IsVal L t) : t.toarray = .ok t.values := by
  obtain ⟨h1, h2⟩ := h.xMap
  unfold Tensor.toarray
  rw [h1, h2]
  rfl

/-- Values with other entries. -/
theorem IsVal.map {L : Layout} {t : Tensor α} (h : IsVal L t) (f : α → α) :
    IsVal L ⟨t.values.map f, 0, 0, t.dim, [], []⟩ ∧
      (Piece L t → Piece L ⟨t.values.map f, 0, 0, t.dim, [], []⟩) ∧
      (∀ {K : Nat → Prop}, OnPiece K L t → OnPiece K L ⟨t.values.map f, 0, 0, t.dim, [], []⟩) ∧
      ∀ i, (⟨t.values.map f, 0, 0, t.dim, [], []⟩ : Tensor α).dense i = f (t.dense i) := by
  have e := h.eta
  have hw := h.wf
  have hp : Piece L t → Piece L ⟨t.values.map f, 0, 0, t.dim, [], []⟩ := by
    intro hp
    have e' := h.eta
    rw [e'] at hp
    exact ⟨hp.wf.map f, hp.inj, hp.hx, hp.hy, hp.hn, hp.hd, hp.size, hp.px, hp.py⟩
  refine ⟨⟨?_, rfl, rfl, ?_⟩, hp, ?_, ?_⟩
  · rw [e] at hw; exact hw.map f
  · rcases h.ok with h | h
    · exact Or.inl (hp h)
    · exact Or.inr h
  · intro K hf
    refine ⟨hp hf.1, ?_⟩
    have hf := hf.2
    rw [e] at hf
    exact hf
  · intro i
    rw [Tensor.dense_nomap, map_bget]
    congr 1
    rw [e, Tensor.dense_nomap]
    rfl

/-- `np.exp(t)` etc. -/
theorem val_ufunc {L : Layout} {t : Tensor α} (h : IsVal L t) (f : α → α) :
    ∃ s, (Num.tensor t).ufunc f = .ok (.tensor s) ∧ IsVal L s ∧ (Piece L t → Piece L s) ∧
      (∀ {K : Nat → Prop}, OnPiece K L t → OnPiece K L s) ∧ ∀ i, s.dense i = f (t.dense i) := by
  obtain ⟨h1, h2, h3, h4⟩ := h.map f
  refine ⟨_, ?_, h1, h2, h3, h4⟩
  have hn := h.wf.ndim
  have e : t.ufunc f = .ok ⟨t.values.map f, 0, 0, t.dim, [], []⟩ := by
    unfold Tensor.ufunc
    rw [if_neg (by rw [h.hx, h.hy]; simp), mkTensor_isOk (by rw [map_ndim]; omega)]
  unfold Num.ufunc
  dsimp only
  rw [e]

/-- `-t` -/
theorem val_neg {L : Layout} {t : Tensor α} (h : IsVal L t) :
    IsVal L t.neg ∧ (Piece L t → Piece L t.neg) ∧ (∀ {K : Nat → Prop}, OnPiece K L t → OnPiece K L t.neg) ∧ ∀ i, t.neg.dense i = - t.dense i := by
  obtain ⟨h1, h2, h3, h4⟩ := h.map (- ·)
  have e : t.neg = ⟨t.values.map (- ·), 0, 0, t.dim, [], []⟩ := by
    conv_lhs => rw [h.eta]
    rfl
  rw [e]
  exact ⟨h1, h2, h3, h4⟩

theorem isVal_const {L : Layout} (c : α) : IsVal L (Tensor.const c) := ⟨Tensor.wf_nomap (by simp), rfl, rfl, Or.inr rfl⟩

theorem const_dense (c : α) (i : Idx) : (Tensor.const c).dense i = c := by
  rw [Tensor.dense_zero (t := Tensor.const c) (Tensor.wf_nomap (by simp)) rfl]
  rfl

theorem Op.mulLike_zero {op : Op} (h : op = .mul ∨ op = .rdiv) (v : α) : op.app v (0 : α) = 0 := by
  rcases h with rfl | rfl
  · exact mul_zero _
  · exact zero_div _

/-- Scalar operand. -/
theorem val_scalar {L : Layout} {t : Tensor α} (h : IsVal L t) {op : Op} {c : α} (hc : op = .div → c ≠ 0) :
    ∃ s, t.binScalar c op = .ok s ∧ IsVal L s ∧ (c ≠ 0 ∨ op.additive → Piece L t → Piece L s) ∧
      (c ≠ 0 ∨ op.additive → ∀ {K : Nat → Prop}, OnPiece K L t → OnPiece K L s) ∧ ∀ i, s.dense i = op.app (t.dense i) c := by
  unfold Tensor.binScalar
  rw [h.toarray]
  split_ifs with h1 h2 h3 h4 h5 h6
  · refine ⟨t, rfl, h, fun _ h => h, fun _ _ h => h, fun i => ?_⟩
    obtain ⟨rfl, rfl | rfl⟩ := h1
    · exact (add_zero _).symm
    · exact (sub_zero _).symm
  · obtain ⟨n1, n2, n3, n4⟩ := val_neg h
    refine ⟨_, rfl, n1, fun _ => n2, fun _ => n3, fun i => ?_⟩
    obtain ⟨rfl, rfl⟩ := h2
    rw [n4]
    exact (zero_sub _).symm
  · have hno : ¬ (c ≠ 0 ∨ op.additive) := by
      rintro (h | h)
      · exact h h3.1
      · rcases op.additive_iff.1 h with rfl | rfl | rfl <;> simp at h3
    refine ⟨_, rfl, isVal_const 0, fun h => absurd h hno, fun h => absurd h hno, fun i => ?_⟩
    rw [const_dense, h3.1, Op.mulLike_zero h3.2]
  · exact absurd h4.1 (hc h4.2)
  · refine ⟨t, rfl, h, fun _ h => h, fun _ _ h => h, fun i => ?_⟩
    obtain ⟨rfl, rfl | rfl⟩ := h5
    · exact (mul_one _).symm
    · exact (div_one _).symm
  · obtain ⟨n1, n2, n3, n4⟩ := h.map fun v => op.app v c
    rw [h.hx, h.hy]
    exact ⟨_, rfl, n1, fun _ => n2, fun _ => n3, n4⟩
  · obtain ⟨n1, n2, n3, n4⟩ := h.map fun v => op.app v c
    obtain ⟨m1, m2⟩ := h.xMap
    refine ⟨_, rfl, ?_⟩
    rw [h.hx, h.hy, m1, m2]
    exact ⟨n1, fun _ => n2, fun _ => n3, n4⟩

/-- Scalar operand, for the result of an operation. -/
theorem num_scalar {L : Layout} {t : Tensor α} (h : IsVal L t) {op : Op} {c : α} (hc : op = .div → c ≠ 0) :
    ∃ s, (Num.tensor t).scalarOp op c = .ok (.tensor s) ∧ IsVal L s ∧ (c ≠ 0 ∨ op.additive → Piece L t → Piece L s) ∧
      (c ≠ 0 ∨ op.additive → ∀ {K : Nat → Prop}, OnPiece K L t → OnPiece K L s) ∧ ∀ i, s.dense i = op.app (t.dense i) c := by
  obtain ⟨s, e, r⟩ := val_scalar h (op := op) hc
  refine ⟨s, ?_, r⟩
  unfold Num.scalarOp
  dsimp only
  rw [e]

/-- The same axes with other entries. -/
theorem Piece.withValues {L : Layout} {o : Tensor α} (h' : Piece L o) {v : NDArray α} (v1 : v.ndim = o.values.ndim)
    (v2 : ∀ k < o.values.ndim, v.shape k = o.values.shape k) :
    Piece L ⟨v, o.xDim, o.yDim, o.dim, o.xMap, o.yMap⟩ ∧
      (∀ {K : Nat → Prop}, o.FullOn K L → (⟨v, o.xDim, o.yDim, o.dim, o.xMap, o.yMap⟩ : Tensor α).FullOn K L) := by
  have hnn : Tensor.n (⟨v, o.xDim, o.yDim, o.dim, o.xMap, o.yMap⟩ : Tensor α) = o.n := by
    unfold Tensor.n; dsimp only; rw [v1]
  have hn := h'.nd
  have h2 := h'.wf.xLen
  have h3 := h'.wf.yLen
  refine ⟨⟨?_, h'.inj, h'.hx, h'.hy, by rw [hnn]; exact h'.hn, h'.hd, fun k hk => ?_, fun k hk => ?_,
    fun k hk => ?_⟩, fun hf => ⟨hf.1, fun k hk => ?_⟩⟩
  · refine ⟨by rw [v1]; exact h'.wf.ndim, h'.wf.xLen, h'.wf.yLen, by rw [hnn]; exact h'.wf.xRange,
      by rw [hnn]; exact h'.wf.yRange, fun k hk h0 => ?_, fun k hk h0 => ?_⟩
    · show v.shape k = 1
      have hk' : k < o.xMap.length := hk
      rw [v2 k (by omega)]; exact h'.wf.xOne k hk h0
    · show v.shape (o.xDim + k) = 1
      have hk' : k < o.yMap.length := hk
      rw [v2 _ (by omega)]; exact h'.wf.yOne k hk h0
  · have hk' : k < L.n + o.dim := hk
    show v.shape (o.xDim + o.yDim + k) = _ ∨ v.shape (o.xDim + o.yDim + k) = _
    rw [v2 _ (by omega)]; exact h'.size k hk
  · have hk' : k < o.xDim := hk
    refine ⟨(h'.px k hk).1, fun h0 => ?_⟩
    show v.shape k = _
    rw [v2 _ (by omega)]; exact (h'.px k hk).2 h0
  · have hk' : k < o.yDim := hk
    refine ⟨(h'.py k hk).1, fun h0 => ?_⟩
    show v.shape (o.xDim + k) = _
    rw [v2 _ (by omega)]; exact (h'.py k hk).2 h0
  · intro hK
    show v.shape (o.xDim + o.yDim + k) = _
    have := hf.1
    rw [v2 _ (by omega)]; exact hf.2 k hk hK

/-- An operation on values. -/
theorem val_op {L : Layout} (hL : L.Ok) {t o : Tensor α} (h : IsVal L t) (h' : IsVal L o) {op : Op} (hr : op ≠ .rdiv)
    (hd : op = .div → ∃ i, o.dense i ≠ 0) :
    ∃ s, (Num.tensor t).bin (.tensor o) op = .ok (.tensor s) ∧ IsVal L s ∧ (Piece L o → Piece L s) ∧
      (Piece L t → (Piece L o ∨ op.additive ∨ ∃ i, o.dense i ≠ 0) → Piece L s) ∧
      (∀ {K : Nat → Prop}, OnPiece K L o → OnPiece K L s) ∧
      (∀ {K : Nat → Prop}, OnPiece K L t → (Piece L o ∨ op.additive ∨ ∃ i, o.dense i ≠ 0) → OnPiece K L s) ∧
      ∀ i, (op = .div → o.dense i ≠ 0) → s.dense i = op.app (t.dense i) (o.dense i) := by
  by_cases c1 : o.values.ndim = 0
  · have hden := fun i => Tensor.dense_zero h'.wf c1 i
    obtain ⟨s, e1, e2, e3, e4, e5⟩ := val_scalar h (op := op) (c := o.values.get fun _ => 0)
      (fun h => by obtain ⟨i, hi⟩ := hd h; rwa [hden i] at hi)
    have hno : ¬ Piece L o := fun hp => hp.ne hL c1
    have hcond : (Piece L o ∨ op.additive ∨ ∃ i, o.dense i ≠ 0) → (o.values.get fun _ => 0) ≠ 0 ∨ op.additive := by
      rintro (h | h | ⟨i, h⟩)
      · exact absurd h hno
      · exact Or.inr h
      · rw [hden i] at h; exact Or.inl h
    refine ⟨s, ?_, e2, fun h => absurd h hno, fun hp hc => e3 (hcond hc) hp, fun h => absurd h.1 hno,
      fun hf hc => e4 (hcond hc) hf, fun i _ => ?_⟩
    · show t.binTensor o op = _
      unfold Tensor.binTensor
      rw [if_pos c1, e1]
    · rw [e5, hden i]
  · have ho : Piece L o := h'.ok.resolve_right c1
    rcases h.ok with ht | ht
    · by_cases hop : op.additive
      · have hm := h.xMap
        have hm' := h'.xMap
        obtain ⟨r, e1, e2, ⟨s, rfl, e3, e4, e5, -, e6⟩ | rfl⟩ := piece_add hL ht ho hop
        · have := h.hx
          have := h'.hx
          have := h.hy
          have := h'.hy
          exact ⟨s, e1, ⟨e3.wf, by omega, by omega, Or.inl e3⟩, fun _ => e3, fun _ _ => e3,
            fun h => ⟨e3, e6 (Or.inl h.2)⟩, fun h _ => ⟨e3, e6 (Or.inr h.2)⟩, fun i _ => e2 i⟩
        · exfalso
          have e : t.xMap = o.xMap ∧ t.yMap = o.yMap := by
            rw [hm.1, hm'.1, hm.2, hm'.2]; exact ⟨rfl, rfl⟩
          unfold Tensor.binTensor at e1
          rw [if_neg c1, if_neg (ht.ne hL)] at e1
          split_ifs at e1 with k1 k2
          · dsimp only at e1
            repeat' split at e1
            all_goals cases e1
          · exact k2 (op.additive_iff.1 hop)
      · have := h.hx
        have := h'.hx
        have := h.hy
        have := h'.hy
        obtain ⟨s, e1, e2, e3, e4, -, e5, e6⟩ := piece_mul hL ht ho (Or.inl h.hx) (Or.inl h.hy) hop
        exact ⟨s, e1, ⟨e2.wf, by omega, by omega, Or.inl e2⟩, fun _ => e2, fun _ _ => e2,
          fun h => ⟨e2, e5 (Or.inl h.2)⟩, fun h _ => ⟨e2, e5 (Or.inr h.2)⟩, fun i hi => e6 i hi (fun h => absurd h hr)⟩
    · obtain ⟨v, e1, v1, v2, v3⟩ := Tensor.binTensor_zero_left (t := t) (op := op) h'.wf c1 ht
      obtain ⟨hp, hf⟩ := ho.withValues v1 v2
      have hm' := h'.xMap
      refine ⟨_, e1, ⟨hp.wf, h'.hx, h'.hy, Or.inl hp⟩, fun _ => hp, fun _ _ => hp, fun h => ⟨hp, hf h.2⟩,
        fun h => absurd ht (h.1.ne hL), fun i _ => ?_⟩
      rw [hm'.1, hm'.2, Tensor.dense_nomap, v3, Tensor.dense_zero h.wf ht, h'.eta, Tensor.dense_nomap, v1]

end Verif.Tens
