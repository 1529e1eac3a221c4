import Verif.Props.Tensor
import Verif.Lemmas.TensorReshape

/-!
# C50: addition and subtraction of Tensors
-/

set_option linter.unusedSectionVars false

namespace Verif.Tens
open Verif.Params (Err)
open NDArray

variable {α : Type} [Field α] [DecidableEq α]

/-- The three operations of C50. -/
def Op.additive : Op → Prop
  | .add | .sub | .rsub => True
  | _ => False

theorem Op.additive_iff (op : Op) : op.additive ↔ op = .add ∨ op = .sub ∨ op = .rsub := by
  cases op <;> simp [Op.additive]

theorem Op.additive_zero {op : Op} (h : op.additive) : op.app (0 : α) 0 = 0 := by
  cases op <;> simp [Op.additive, Op.app] at *

theorem agrees_nil (v n : Nat → Nat) : Agrees [] v n := by intro k hk; simp at hk

theorem Tensor.dense_nomap {v : NDArray α} {x y d : Nat} (i : Idx) :
    (⟨v, x, y, d, [], []⟩ : Tensor α).dense i = v.bget (Tens.flat x y (v.ndim - x - y - d) i) :=
  if_pos ⟨agrees_nil _ _, agrees_nil _ _⟩

theorem Tensor.dense_map (t : Tensor α) (f : α → α) (i : Idx) :
    (⟨t.values.map f, t.xDim, t.yDim, t.dim, t.xMap, t.yMap⟩ : Tensor α).dense i =
      if Agrees t.xMap i.x i.n ∧ Agrees t.yMap i.y i.n then f (t.values.bget (t.flat i)) else 0 := by
  unfold Tensor.dense
  dsimp only
  rw [map_bget]; rfl

theorem Tensor.dense_neg (t : Tensor α) (i : Idx) : t.neg.dense i = - t.dense i := by
  refine (t.dense_map (- ·) i).trans ?_
  unfold Tensor.dense
  split_ifs
  · rfl
  · exact neg_zero.symm

theorem elemDense_neg (e : Tensor α ⊕ NDArray α) (i : Idx) : elemDense (negElem e) i = - elemDense e i := by
  cases e with
  | inl t => exact t.dense_neg i
  | inr a => exact Tensor.dense_neg ⟨a, 0, 0, 0, [], []⟩ i

/-- A 0-dimensional Tensor has no maps and the same value everywhere. -/
theorem Tensor.dense_zero {t : Tensor α} (h : t.WF) (h0 : t.values.ndim = 0) (i : Idx) :
    t.dense i = t.values.get fun _ => 0 := by
  have h1 := h.ndim
  have h2 := h.xLen
  have h3 := h.yLen
  have e1 : t.xMap = [] := List.eq_nil_of_length_eq_zero (by omega)
  have e2 : t.yMap = [] := List.eq_nil_of_length_eq_zero (by omega)
  unfold Tensor.dense
  rw [e1, e2, if_pos ⟨agrees_nil _ _, agrees_nil _ _⟩]
  unfold bget
  apply get_congr
  intro k hk
  omega

/-- Scalar operand, at a position of the array. -/
theorem Tensor.binScalar_dense {t r : Tensor α} (h : t.WF) {c : α} {op : Op} (hop : op.additive)
    (hr : t.binScalar c op = .ok r) {i : Idx} (hi : t.InBox i) :
    r.dense i = op.app (t.dense i) c := by
  obtain ⟨a, ha, h2, h3, h4⟩ := Tensor.toarray_ok h
  have hir : InRange a (t.flat i) := fun k hk => by rw [h3]; exact hi k (by rw [← h2]; exact hk)
  unfold Tensor.binScalar at hr
  rw [ha] at hr
  have hop' := op.additive_iff.1 hop
  split_ifs at hr with h1 h2' h3' h4' h5
  · cases hr
    obtain ⟨rfl, rfl | rfl⟩ := h1 <;> simp [Op.app]
  · cases hr
    obtain ⟨rfl, rfl⟩ := h2'
    rw [Tensor.dense_neg]
    exact (zero_sub _).symm
  · exfalso; obtain ⟨-, rfl | rfl⟩ := h3' <;> simp at hop'
  · exfalso; obtain ⟨-, rfl | rfl⟩ := h5 <;> simp at hop'
  · cases hr
    rw [Tensor.dense_nomap]
    have : Tens.flat t.xDim t.yDim ((a.map fun v => op.app v c).ndim - t.xDim - t.yDim - t.dim) i = t.flat i := by
      show Tens.flat t.xDim t.yDim (a.ndim - t.xDim - t.yDim - t.dim) i = _
      rw [h2]; rfl
    rw [this, map_bget, ← get_eq_bget a hir, h4 i hir]

theorem Tensor.binScalar_wf {t r : Tensor α} (h : t.WF) {c : α} {op : Op}
    (hr : t.binScalar c op = .ok r) : r.WF := by
  obtain ⟨a, ha, h2, h3, h4⟩ := Tensor.toarray_ok h
  unfold Tensor.binScalar at hr
  rw [ha] at hr
  split_ifs at hr with h1 h2' h3' h4' h5 h6 <;> cases hr
  · exact h
  · exact h.map _
  · exact Tensor.wf_nomap (by simp [NDArray.scalar])
  · exact h
  · exact Tensor.wf_nomap (by rw [map_ndim, h2]; exact h.ndim)
  · exact h.map _

/-- A result whose elements are all in diagonal storage. -/
def Num.WF : Num α → Prop
  | .tensor t => t.WF
  | .generic g => ∀ e ∈ g.elements, ∃ t, e = .inl t ∧ t.WF

theorem mkTensor_ok {v : NDArray α} {x y d : Nat} {xm ym : List Int} {r : Tensor α}
    (h : mkTensor v x y d xm ym = .ok r) : r = ⟨v, x, y, d, xm, ym⟩ ∧ x + y + d ≤ v.ndim := by
  unfold mkTensor at h
  split_ifs at h with hc
  cases h
  exact ⟨rfl, by omega⟩

theorem mkTensor_isOk {v : NDArray α} {x y d : Nat} {xm ym : List Int} (h : x + y + d ≤ v.ndim) :
    mkTensor v x y d xm ym = .ok ⟨v, x, y, d, xm, ym⟩ := by
  unfold mkTensor; rw [if_neg (by omega)]

theorem padFront_zero_bget (a : NDArray α) (nd : Nat) (h0 : a.ndim = 0) (idx : Nat → Nat) :
    (a.padFront nd).bget idx = a.get fun _ => 0 := by
  unfold padFront
  rw [reaxis_bget]
  · apply get_congr; intro k hk; omega
  · intro j hj; omega
  · intro j hj; omega

/-- `scalar op array` for a 0-dimensional array. -/
theorem binary_zero_left {f : α → α → α} {a b : NDArray α} (h0 : a.ndim = 0) :
    ∃ r, binary f a b = .ok r ∧ r.ndim = b.ndim ∧ (∀ k < b.ndim, r.shape k = b.shape k) ∧
      ∀ idx, r.bget idx = f (a.get fun _ => 0) (b.bget idx) := by
  unfold binary
  rw [h0, Nat.zero_max]
  obtain ⟨p1, p2, p3⟩ := b.padFront_self
  have hs : ∀ k < b.ndim, (a.padFront b.ndim).shape k = 1 := by
    intro k hk
    show (if k < b.ndim - a.ndim then 1 else _) = 1
    rw [if_pos (by omega)]
  obtain ⟨r, hr⟩ := zipWith_isOk (f := f) (a := a.padFront b.ndim) (b := b.padFront b.ndim) (by
    intro k hk
    exact Or.inr (Or.inl (hs k hk)))
  obtain ⟨r1, r2, -, r4⟩ := zipWith_ok hr rfl
  refine ⟨r, hr, r1, fun k hk => ?_, fun idx => ?_⟩
  · rw [r2, if_pos (hs k hk), p2]
  · rw [r4, p3, padFront_zero_bget _ _ h0]

/-- The elements of the GenericTensor for an additive operation. -/
def addElems (op : Op) (t o : Tensor α) : List (Tensor α ⊕ NDArray α) :=
  match op with
  | .add => [.inl t, .inl o]
  | .sub => [.inl t, .inl o.neg]
  | _ => [.inl t.neg, .inl o]

/-- The branch of `bin_op` for two arrays and an additive operation. -/
theorem Tensor.binTensor_additive {t o : Tensor α} {op : Op} (hop : op.additive)
    (h1 : o.values.ndim ≠ 0) (h2 : t.values.ndim ≠ 0) {r : Num α} (hr : t.binTensor o op = .ok r) :
    Compat t o ∧
    ((∃ v, t.xMap = o.xMap ∧ t.yMap = o.yMap ∧ reshapedOp op t.values
        (t.reshapeIdx (max t.xDim o.xDim) (max t.yDim o.yDim) (max t.n o.n) (max t.dim o.dim)) o.values
        (o.reshapeIdx (max t.xDim o.xDim) (max t.yDim o.yDim) (max t.n o.n) (max t.dim o.dim)) = .ok v ∧
        r = .tensor ⟨v, max t.xDim o.xDim, max t.yDim o.yDim, max t.dim o.dim, t.xMap, t.yMap⟩ ∧
        max t.xDim o.xDim + max t.yDim o.yDim + max t.dim o.dim ≤ v.ndim) ∨
      (¬ (t.xMap = o.xMap ∧ t.yMap = o.yMap) ∧
        r = .generic ⟨max t.xDim o.xDim, max t.yDim o.yDim, max t.n o.n, max t.dim o.dim,
          addElems op t o⟩)) := by
  unfold Tensor.binTensor at hr
  rw [if_neg h1, if_neg h2] at hr
  by_cases c3 : ¬ (t.n = 0 ∨ o.n = 0 ∨ t.n = o.n) ∨ ¬ (t.dim = 0 ∨ o.dim = 0 ∨ t.dim = o.dim) ∨
      ¬ (t.xDim = 0 ∨ o.xDim = 0 ∨ t.xDim = o.xDim) ∨ ¬ (t.yDim = 0 ∨ o.yDim = 0 ∨ t.yDim = o.yDim)
  · rw [if_pos c3] at hr; cases hr
  rw [if_neg c3] at hr
  have hc : Compat t o :=
    ⟨not_not.1 fun h => c3 (Or.inr (Or.inr (Or.inl h))), not_not.1 fun h => c3 (Or.inr (Or.inr (Or.inr h))),
      not_not.1 fun h => c3 (Or.inl h), not_not.1 fun h => c3 (Or.inr (Or.inl h))⟩
  refine ⟨hc, ?_⟩
  dsimp only at hr
  rw [if_pos (op.additive_iff.1 hop)] at hr
  by_cases hm : t.xMap = o.xMap ∧ t.yMap = o.yMap
  · rw [if_pos hm] at hr
    left
    cases hv : reshapedOp op t.values
        (t.reshapeIdx (max t.xDim o.xDim) (max t.yDim o.yDim) (max t.n o.n) (max t.dim o.dim)) o.values
        (o.reshapeIdx (max t.xDim o.xDim) (max t.yDim o.yDim) (max t.n o.n) (max t.dim o.dim)) with
    | error e => rw [hv] at hr; cases hr
    | ok v =>
      rw [hv] at hr
      dsimp only at hr
      cases hk : mkTensor v (max t.xDim o.xDim) (max t.yDim o.yDim) (max t.dim o.dim) t.xMap t.yMap with
      | error e => rw [hk] at hr; cases hr
      | ok r' =>
        rw [hk] at hr
        obtain ⟨e1, e2⟩ := mkTensor_ok hk
        cases hr
        exact ⟨v, hm.1, hm.2, rfl, by rw [e1], e2⟩
  · rw [if_neg hm] at hr
    right
    cases hr
    exact ⟨hm, rfl⟩

theorem Tensor.flat_result {v : NDArray α} {X Y N D : Nat} {xm ym : List Int} (h : v.ndim = X + Y + N + D)
    (i : Idx) : Tensor.flat (⟨v, X, Y, D, xm, ym⟩ : Tensor α) i = Tens.flat X Y N i := by
  unfold Tensor.flat Tensor.n
  dsimp only
  rw [h]; congr 1; omega

theorem Tensor.binTensor_zero_right {t o : Tensor α} {op : Op} (h1 : o.values.ndim = 0) {r : Num α}
    (hr : t.binTensor o op = .ok r) :
    ∃ s, t.binScalar (o.values.get fun _ => 0) op = .ok s ∧ r = .tensor s := by
  unfold Tensor.binTensor at hr
  rw [if_pos h1] at hr
  cases hb : t.binScalar (o.values.get fun _ => 0) op with
  | error e => rw [hb] at hr; cases hr
  | ok s => rw [hb] at hr; cases hr; exact ⟨s, rfl, rfl⟩

theorem Tensor.binTensor_zero_left {t o : Tensor α} (ho : o.WF) {op : Op} (h1 : o.values.ndim ≠ 0)
    (h2 : t.values.ndim = 0) :
    ∃ v, t.binTensor o op = .ok (.tensor ⟨v, o.xDim, o.yDim, o.dim, o.xMap, o.yMap⟩) ∧
      v.ndim = o.values.ndim ∧ (∀ k < o.values.ndim, v.shape k = o.values.shape k) ∧
      ∀ idx, v.bget idx = op.app (t.values.get fun _ => 0) (o.values.bget idx) := by
  obtain ⟨v, hv, v1, v2, v3⟩ := binary_zero_left (f := op.app) (b := o.values) h2
  refine ⟨v, ?_, v1, v2, v3⟩
  unfold Tensor.binTensor
  rw [if_neg h1, if_pos h2, hv]
  dsimp only
  rw [mkTensor_isOk (by rw [v1]; exact ho.ndim)]

/-- **C50.** `a + b`, `a - b` and `b - a` of Tensors: whenever the operation returns, its result (a
Tensor, or a GenericTensor if the maps differ) represents the sum or difference, at every position — if
`b` is a scalar, at every position of the array `a`.  Excluded: a scalar `a` and a `b` with maps (see
`C50_scalar_left_counterexample`). -/
theorem C50_add_sub_partial {t o : Tensor α} (ht : t.WF) (ho : o.WF)
    (hs : t.values.ndim = 0 → o.xMap = [] ∧ o.yMap = []) {op : Op} (hop : op.additive)
    {r : Num α} (hr : t.binTensor o op = .ok r) (i : Idx) (hi : o.values.ndim = 0 → t.InBox i) :
    r.dense i = op.app (t.dense i) (o.dense i) := by
  by_cases c1 : o.values.ndim = 0
  · obtain ⟨s, hb, rfl⟩ := Tensor.binTensor_zero_right c1 hr
    rw [Tensor.dense_zero ho c1]
    exact Tensor.binScalar_dense ht hop hb (hi c1)
  by_cases c2 : t.values.ndim = 0
  · obtain ⟨v, hv, v1, v2, v3⟩ := Tensor.binTensor_zero_left (t := t) (op := op) ho c1 c2
    rw [hv] at hr
    cases hr
    obtain ⟨e1, e2⟩ := hs c2
    show Tensor.dense _ i = _
    rw [Tensor.dense_zero ht c2]
    unfold Tensor.dense
    dsimp only
    rw [e1, e2, if_pos ⟨agrees_nil _ _, agrees_nil _ _⟩, if_pos ⟨agrees_nil _ _, agrees_nil _ _⟩, v3]
    congr 1
    unfold Tensor.flat Tensor.n
    dsimp only
    rw [v1]
  obtain ⟨hc, ⟨v, m1, m2, hv, rfl, -⟩ | ⟨-, rfl⟩⟩ := Tensor.binTensor_additive hop c1 c2 hr
  · obtain ⟨f1, f2⟩ := hc.fits
    obtain ⟨v1, v2, -, -⟩ := reshapedOp_ok ht.nd rfl ho.nd rfl f1 f2 op hv
    show Tensor.dense _ i = _
    unfold Tensor.dense
    rw [Tensor.flat_result v1]
    dsimp only
    rw [v2, ← m1, ← m2]
    split_ifs
    · rfl
    · exact (Op.additive_zero hop).symm
  · rcases op.additive_iff.1 hop with rfl | rfl | rfl
    · show elemDense (.inl t) i + (elemDense (.inl o) i + 0) = t.dense i + o.dense i
      rw [add_zero]; rfl
    · show elemDense (.inl t) i + (elemDense (.inl o.neg) i + 0) = t.dense i - o.dense i
      rw [add_zero, sub_eq_add_neg, ← Tensor.dense_neg]; rfl
    · show elemDense (.inl t.neg) i + (elemDense (.inl o) i + 0) = o.dense i - t.dense i
      rw [add_zero, sub_eq_neg_add, ← Tensor.dense_neg]; rfl

/-- **C50.** Operands in diagonal storage give results in diagonal storage. -/
theorem C50_add_sub_storage {t o : Tensor α} (ht : t.WF) (ho : o.WF) {op : Op} (hop : op.additive)
    {r : Num α} (hr : t.binTensor o op = .ok r) : r.WF := by
  by_cases c1 : o.values.ndim = 0
  · obtain ⟨s, hb, rfl⟩ := Tensor.binTensor_zero_right c1 hr
    exact Tensor.binScalar_wf ht hb
  by_cases c2 : t.values.ndim = 0
  · obtain ⟨v, hv, v1, v2, v3⟩ := Tensor.binTensor_zero_left (t := t) (op := op) ho c1 c2
    rw [hv] at hr
    cases hr
    have hn : Tensor.n (⟨v, o.xDim, o.yDim, o.dim, o.xMap, o.yMap⟩ : Tensor α) = o.n := by
      unfold Tensor.n; dsimp only; rw [v1]
    have h1 := ho.ndim
    have h2 := ho.xLen
    have h3 := ho.yLen
    refine ⟨by rw [v1]; exact ho.ndim, ho.xLen, ho.yLen, by rw [hn]; exact ho.xRange,
      by rw [hn]; exact ho.yRange, fun k hk h0 => ?_, fun k hk h0 => ?_⟩
    · show v.shape k = 1
      have hk' : k < o.xMap.length := hk
      rw [v2 k (by omega)]; exact ho.xOne k hk h0
    · show v.shape (o.xDim + k) = 1
      have hk' : k < o.yMap.length := hk
      rw [v2 _ (by omega)]; exact ho.yOne k hk h0
  obtain ⟨hc, ⟨v, m1, m2, hv, rfl, -⟩ | ⟨-, rfl⟩⟩ := Tensor.binTensor_additive hop c1 c2 hr
  · obtain ⟨f1, f2⟩ := hc.fits
    obtain ⟨v1, v2, v3, v4⟩ := reshapedOp_ok ht.nd rfl ho.nd rfl f1 f2 op hv
    have hn : Tensor.n (⟨v, max t.xDim o.xDim, max t.yDim o.yDim, max t.dim o.dim, t.xMap, t.yMap⟩ :
        Tensor α) = max t.n o.n := by
      unfold Tensor.n; dsimp only; rw [v1]; unfold Tensor.n; omega
    have a1 := ht.xLen
    have a2 := ht.yLen
    have b1 := ho.xLen
    have b2 := ho.yLen
    refine ⟨?_, ?_, ?_, ?_, ?_, fun k hk h0 => ?_, fun k hk h0 => ?_⟩
    · show _ ≤ v.ndim; dsimp only; omega
    · show t.xMap.length ≤ max t.xDim o.xDim; omega
    · show t.yMap.length ≤ max t.yDim o.yDim; omega
    · rw [hn]; intro f hf; have := ht.xRange f hf; omega
    · rw [hn]; intro f hf; have := ht.yRange f hf; omega
    · have hk' : k < t.xMap.length := hk
      refine v3 k (by omega) (Or.inr (ht.xOne k hk h0)) (Or.inr (ho.xOne k ?_ ?_))
      · rw [← m1]; exact hk
      · rw [← m1]; exact h0
    · have hk' : k < t.yMap.length := hk
      refine v4 k (by omega) (Or.inr (ht.yOne k hk h0)) (Or.inr (ho.yOne k ?_ ?_))
      · rw [← m2]; exact hk
      · rw [← m2]; exact h0
  · intro e he
    rcases op.additive_iff.1 hop with rfl | rfl | rfl
    · rcases List.mem_pair.1 he with rfl | rfl
      · exact ⟨t, rfl, ht⟩
      · exact ⟨o, rfl, ho⟩
    · rcases List.mem_pair.1 he with rfl | rfl
      · exact ⟨t, rfl, ht⟩
      · exact ⟨_, rfl, ho.map _⟩
    · rcases List.mem_pair.1 he with rfl | rfl
      · exact ⟨_, rfl, ht.map _⟩
      · exact ⟨o, rfl, ho⟩

/-- **C50.** Operands with compatible numbers of axes and sizes do not raise. -/
theorem C50_add_sub_succeeds {t o : Tensor α} (ht : t.WF) (ho : o.WF) (hc : Compat t o)
    (hsh : ShapesFit t t.values o o.values) {op : Op} (hop : op.additive) :
    ∃ r, t.binTensor o op = .ok r := by
  unfold Tensor.binTensor
  by_cases c1 : o.values.ndim = 0
  · rw [if_pos c1]
    cases hb : t.binScalar (o.values.get fun _ => 0) op with
    | ok s => exact ⟨_, rfl⟩
    | error e =>
      obtain ⟨-, rfl⟩ := (C49_raises_iff ht _ op).1 ⟨e, hb⟩
      exact absurd hop (by simp [Op.additive])
  rw [if_neg c1]
  by_cases c2 : t.values.ndim = 0
  · obtain ⟨v, hv, -⟩ := Tensor.binTensor_zero_left (t := t) (op := op) ho c1 c2
    unfold Tensor.binTensor at hv
    rw [if_neg c1] at hv
    exact ⟨_, hv⟩
  rw [if_neg c2]
  obtain ⟨h1, h2, h3, h4⟩ := hc
  rw [if_neg (fun h => h.elim (· h3) fun h => h.elim (· h4) fun h => h.elim (· h1) (· h2))]
  dsimp only
  rw [if_pos (op.additive_iff.1 hop)]
  obtain ⟨f1, f2⟩ := Compat.fits ⟨h1, h2, h3, h4⟩
  by_cases hm : t.xMap = o.xMap ∧ t.yMap = o.yMap
  · rw [if_pos hm]
    obtain ⟨v, hv⟩ := reshapedOp_isOk ht.nd rfl ho.nd rfl f1 f2 op hsh
    obtain ⟨v1, -⟩ := reshapedOp_ok ht.nd rfl ho.nd rfl f1 f2 op hv
    rw [hv]
    dsimp only
    rw [mkTensor_isOk (by omega)]
    exact ⟨_, rfl⟩
  · rw [if_neg hm]
    exact ⟨_, rfl⟩

/-- **C50.** The same with `toarray()`: if the result is a Tensor, its array holds the sum or difference
of the entries of the operands' arrays. -/
theorem C50_toarray_partial {t o r : Tensor α} (ht : t.WF) (ho : o.WF)
    (hs : t.values.ndim = 0 → o.xMap = [] ∧ o.yMap = []) {op : Op} (hop : op.additive)
    (hr : t.binTensor o op = .ok (.tensor r)) :
    ∃ a b c, t.toarray = .ok a ∧ o.toarray = .ok b ∧ r.toarray = .ok c ∧
      ∀ i, InRange a (t.flat i) → InRange b (o.flat i) → InRange c (r.flat i) →
        c.get (r.flat i) = op.app (a.get (t.flat i)) (b.get (o.flat i)) := by
  obtain ⟨a, ha, a1, a2, a3⟩ := Tensor.toarray_ok ht
  obtain ⟨b, hb, b1, b2, b3⟩ := Tensor.toarray_ok ho
  have hw : r.WF := C50_add_sub_storage ht ho hop hr
  obtain ⟨c, hc, c1, c2, c3⟩ := Tensor.toarray_ok hw
  refine ⟨a, b, c, ha, hb, hc, fun i ia ib ic => ?_⟩
  rw [a3 i ia, b3 i ib, c3 i ic]
  refine C50_add_sub_partial ht ho hs hop hr i fun _ k hk => ?_
  rw [← a2]; exact ia k (by rw [a1]; exact hk)

/-- **C50.** `a + b` and `b + a` represent the same array, unless one operand is a scalar and the other
has maps. -/
theorem C50_commutative_partial {t o : Tensor α} (ht : t.WF) (ho : o.WF)
    (h1 : t.values.ndim ≠ 0 ∨ (o.xMap = [] ∧ o.yMap = []))
    (h2 : o.values.ndim ≠ 0 ∨ (t.xMap = [] ∧ t.yMap = []))
    {r r' : Num α} (hr : t.binTensor o .add = .ok r) (hr' : o.binTensor t .add = .ok r') (i : Idx)
    (hi : t.InBox i) (hi' : o.InBox i) : r.dense i = r'.dense i := by
  rw [C50_add_sub_partial (op := .add) ht ho (fun h => h1.resolve_left fun h' => h' h) trivial hr i fun _ => hi,
    C50_add_sub_partial (op := .add) ho ht (fun h => h2.resolve_left fun h' => h' h) trivial hr' i fun _ => hi']
  exact add_comm _ _

/-- A dense Tensor with one `x` axis and one value axis of size 3, all entries 10, over ℚ. -/
def full3 : Tensor ℚ := ⟨⟨2, fun _ => 3, fun _ => 10⟩, 1, 0, 0, [], []⟩

theorem full3_wf : full3.WF := Tensor.wf_nomap (by decide)

/-- The hypotheses of the theorems above hold for `diag3 + full3` (a GenericTensor) and
`diag3 - diag3` (a Tensor). -/
example : (∃ g, diag3.binTensor full3 .add = .ok (.generic g)) ∧
    (∃ r, diag3.binTensor diag3 .sub = .ok (.tensor r)) ∧
    ∀ r, diag3.binTensor full3 .add = .ok r →
      r.dense ⟨fun _ => 1, fun _ => 0, fun _ => 1, fun _ => 0⟩ = 12 ∧
      r.dense ⟨fun _ => 0, fun _ => 0, fun _ => 1, fun _ => 0⟩ = 10 := by
  refine ⟨?_, ?_, ?_⟩
  · obtain ⟨r, hr⟩ := C50_add_sub_succeeds (op := .add) diag3_wf full3_wf
      ⟨by decide, by decide, by decide, by decide⟩
      ⟨by decide, by decide, by decide, by decide⟩ trivial
    obtain ⟨-, ⟨v, m1, -⟩ | ⟨-, rfl⟩⟩ := Tensor.binTensor_additive (op := .add) trivial (by decide) (by decide) hr
    · exact absurd m1 (by decide)
    · exact ⟨_, hr⟩
  · obtain ⟨r, hr⟩ := C50_add_sub_succeeds (op := .sub) diag3_wf diag3_wf
      ⟨by decide, by decide, by decide, by decide⟩
      ⟨by decide, by decide, by decide, by decide⟩ trivial
    obtain ⟨-, ⟨v, -, -, -, rfl, -⟩ | ⟨m1, -⟩⟩ := Tensor.binTensor_additive (op := .sub) trivial (by decide) (by decide) hr
    · exact ⟨_, hr⟩
    · exact absurd ⟨rfl, rfl⟩ m1
  · intro r hr
    have := C50_add_sub_partial (op := .add) diag3_wf full3_wf (by decide) trivial hr
    constructor
    · rw [this _ fun h => absurd h (by decide)]
      show ((1 : ℕ) : ℚ) + 1 + 10 = 12; norm_num
    · rw [this _ fun h => absurd h (by decide)]
      show (0 : ℚ) + 10 = 10; norm_num

/-- **C50, counterexample.** A scalar Tensor on the left of a Tensor with maps is added to the stored
entries only: `Tensor(5) + t` is 0 off the diagonal, while `t + Tensor(5)` is 5 there. -/
theorem C50_scalar_left_counterexample : ∃ (t o : Tensor ℚ) (r r' : Num ℚ) (i : Idx),
    t.WF ∧ o.WF ∧ o.InBox i ∧ t.binTensor o .add = .ok r ∧ o.binTensor t .add = .ok r' ∧
      t.dense i + o.dense i = 5 ∧ r.dense i = 0 ∧ r'.dense i = 5 := by
  let i : Idx := ⟨fun _ => 1, fun _ => 0, fun _ => 2, fun _ => 0⟩
  have hi : diag3.InBox i := by
    intro k hk
    have : ∀ k < 2, diag3.flat i k < diag3.fullShape k := by decide
    exact this k hk
  have hc : (Tensor.const (5 : ℚ)).WF := Tensor.wf_nomap (by decide)
  have hcd : (Tensor.const (5 : ℚ)).dense i = 5 := Tensor.dense_zero hc rfl i
  have hd : diag3.dense i = 0 := if_neg (by decide)
  obtain ⟨v, hv, v1, v2, v3⟩ := Tensor.binTensor_zero_left (t := Tensor.const (5 : ℚ)) (op := .add)
    diag3_wf (by decide) rfl
  obtain ⟨r', hr'⟩ := C50_add_sub_succeeds (op := .add) diag3_wf hc
    ⟨by decide, by decide, by decide, by decide⟩
    ⟨fun _ h => absurd rfl h, fun _ h => absurd rfl h, fun _ h => absurd rfl h,
      fun _ h => absurd rfl h⟩ trivial
  refine ⟨Tensor.const 5, diag3, _, r', i, hc, diag3_wf, hi, hv, hr', ?_, ?_, ?_⟩
  · rw [hcd, hd, add_zero]
  · show Tensor.dense _ i = 0
    unfold Tensor.dense
    have : ¬ Agrees diag3.xMap i.x i.n := by decide
    exact if_neg fun h => this h.1
  · rw [C50_add_sub_partial (op := .add) diag3_wf hc (by decide) trivial hr' i fun _ => hi, hcd, hd]
    exact zero_add 5

end Verif.Tens
