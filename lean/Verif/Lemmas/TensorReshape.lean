import Verif.Lemmas.TensorExpand

/-!
# `__reshape_idx`: reading an operand in the axes of the result
-/

set_option linter.unusedSectionVars false

namespace Verif.Tens
open Verif.Params (Err)
open NDArray

variable {α : Type} [Field α] [DecidableEq α]

/-- Each space of the Tensor is empty or has the given number of axes. -/
def Fits (t : Tensor α) (X Y N D : Nat) : Prop :=
  (t.xDim = 0 ∨ t.xDim = X) ∧ (t.yDim = 0 ∨ t.yDim = Y) ∧ (t.n = 0 ∨ t.n = N) ∧
    (t.dim = 0 ∨ t.dim = D)

theorem reshapeIdx_count {t : Tensor α} {X Y N D : Nat} (h : Fits t X Y N D) :
    (t.reshapeIdx X Y N D).count true = t.xDim + t.yDim + t.n + t.dim ∧
    (t.reshapeIdx X Y N D).count false =
      (X - t.xDim) + (Y - t.yDim) + (N - t.n) + (D - t.dim) := by
  obtain ⟨h1, h2, h3, h4⟩ := h
  unfold Tensor.reshapeIdx
  simp only [List.count_append, count_block_true h1, count_block_true h2, count_block_true h3,
    count_block_true h4, count_block_false h1, count_block_false h2, count_block_false h3,
    count_block_false h4]
  exact ⟨trivial, trivial⟩

theorem reshapeIdx_pos {t : Tensor α} {X Y N D : Nat} (h : Fits t X Y N D) (j : Nat) :
    posOf (t.reshapeIdx X Y N D) j =
      if j < t.xDim then j
      else X + if j - t.xDim < t.yDim then j - t.xDim
      else Y + if j - t.xDim - t.yDim < t.n then j - t.xDim - t.yDim
      else N + if j - t.xDim - t.yDim - t.n < t.dim then j - t.xDim - t.yDim - t.n
      else D + (j - t.xDim - t.yDim - t.n - t.dim) := by
  obtain ⟨h1, h2, h3, h4⟩ := h
  unfold Tensor.reshapeIdx
  have h4' := posOf_block h4 []
  rw [List.append_nil] at h4'
  rw [List.append_assoc, List.append_assoc, posOf_block h1, posOf_block h2, posOf_block h3, h4']
  rfl

theorem flat_pos {t : Tensor α} (hnd : t.values.ndim = t.xDim + t.yDim + t.n + t.dim) {X Y N D : Nat}
    (h : Fits t X Y N D) (i : Idx) {j : Nat}
    (hj : j < t.values.ndim) : flat X Y N i (posOf (t.reshapeIdx X Y N D) j) = t.flat i j := by
  rw [reshapeIdx_pos h]
  obtain ⟨h1, h2, h3, h4⟩ := h
  unfold Tensor.flat flat
  by_cases c1 : j < t.xDim
  · rw [if_pos c1, if_pos (by omega), if_pos c1]
  · rw [if_neg c1, if_neg c1]
    by_cases c2 : j - t.xDim < t.yDim
    · rw [if_pos c2, if_neg (by omega), if_pos (by omega), if_pos (by omega)]
      congr 1; omega
    · rw [if_neg c2, if_neg (c := j < t.xDim + t.yDim) (by omega)]
      by_cases c3 : j - t.xDim - t.yDim < t.n
      · rw [if_pos c3, if_neg (by omega), if_neg (by omega), if_pos (by omega), if_pos (by omega)]
        congr 1; omega
      · rw [if_neg c3, if_neg (c := j < t.xDim + t.yDim + t.n) (by omega)]
        have c4 : j - t.xDim - t.yDim - t.n < t.dim := by omega
        rw [if_pos c4, if_neg (by omega), if_neg (by omega), if_neg (by omega)]
        congr 1; omega

/-- Reading `values[l_idx]`. -/
theorem reshape_ok {t : Tensor α} {v : NDArray α} (hnd : t.values.ndim = t.xDim + t.yDim + t.n + t.dim)
    (hv : v.ndim = t.values.ndim)
    {X Y N D : Nat} (h : Fits t X Y N D) :
    ∃ l, v.newAxes (t.reshapeIdx X Y N D) = .ok l ∧ l.ndim = X + Y + N + D ∧
      (∀ i, l.bget (flat X Y N i) = v.bget (t.flat i)) ∧
      (∀ k < X, l.shape k = if t.xDim = 0 then 1 else v.shape k) ∧
      (∀ k < Y, l.shape (X + k) = if t.yDim = 0 then 1 else v.shape (t.xDim + k)) ∧
      (∀ k < N, l.shape (X + Y + k) = if t.n = 0 then 1 else v.shape (t.xDim + t.yDim + k)) ∧
      (∀ k < D, l.shape (X + Y + N + k) = if t.dim = 0 then 1
        else v.shape (t.xDim + t.yDim + t.n + k)) := by
  obtain ⟨c1, c2⟩ := reshapeIdx_count h
  obtain ⟨l, hl⟩ := newAxes_isOk (a := v) (l := t.reshapeIdx X Y N D) (by omega)
  obtain ⟨l1, l2, l3, l4, l5, -⟩ := newAxes_ok hl
  have hpos := reshapeIdx_pos h
  have hf := h
  obtain ⟨h1, h2, h3, h4⟩ := h
  have hax : ∀ k, axisOf (t.reshapeIdx X Y N D) k =
      if k < X then (if t.xDim = 0 then none else some k)
      else ((if k - X < Y then (if t.yDim = 0 then none else some (k - X))
        else ((if k - X - Y < N then (if t.n = 0 then none else some (k - X - Y))
          else ((if k - X - Y - N < D then (if t.dim = 0 then none else some (k - X - Y - N))
            else (some (k - X - Y - N - D)).map (t.dim + ·)).map (t.n + ·))).map (t.yDim + ·))).map
              (t.xDim + ·)) := by
    intro k
    have h4' := axisOf_block h4 []
    rw [List.append_nil] at h4'
    unfold Tensor.reshapeIdx
    rw [List.append_assoc, List.append_assoc, axisOf_block h1, axisOf_block h2, axisOf_block h3, h4']
    rfl
  refine ⟨l, hl, ?_, ?_, ?_, ?_, ?_, ?_⟩
  · rw [l1, c2, hv, hnd]
    omega
  · intro i
    rw [l5]
    apply bget_congr'
    intro j hj
    exact flat_pos hnd hf i (by omega)
  · intro k hk
    have := hax k
    rw [if_pos hk] at this
    split_ifs at this ⊢ with hc
    · exact l3 _ this
    · exact l4 _ _ this
  · intro k hk
    have := hax (X + k)
    rw [if_neg (by omega), if_pos (by omega)] at this
    split_ifs at this ⊢ with hc
    · exact l3 _ this
    · rw [l4 _ _ this]; congr 1; dsimp only; omega
  · intro k hk
    have := hax (X + Y + k)
    rw [if_neg (by omega), if_neg (by omega), if_pos (by omega)] at this
    split_ifs at this ⊢ with hc
    · exact l3 _ this
    · rw [l4 _ _ this]; congr 1; dsimp only; omega
  · intro k hk
    have := hax (X + Y + N + k)
    rw [if_neg (by omega), if_neg (by omega), if_neg (by omega), if_pos (by omega)] at this
    split_ifs at this ⊢ with hc
    · exact l3 _ this
    · rw [l4 _ _ this]; congr 1; dsimp only; omega

end Verif.Tens

namespace Verif.Tens
open Verif.Params (Err)
open NDArray

variable {α : Type} [Field α] [DecidableEq α]

theorem reshapedOp_ok {t o : Tensor α} {v w : NDArray α}
    (hnt : t.values.ndim = t.xDim + t.yDim + t.n + t.dim) (hv : v.ndim = t.values.ndim)
    (hno : o.values.ndim = o.xDim + o.yDim + o.n + o.dim) (hw : w.ndim = o.values.ndim)
    {X Y N D : Nat} (ht : Fits t X Y N D) (ho : Fits o X Y N D) (op : Op) {r : NDArray α}
    (hr : reshapedOp op v (t.reshapeIdx X Y N D) w (o.reshapeIdx X Y N D) = .ok r) :
    r.ndim = X + Y + N + D ∧
    (∀ i, r.bget (flat X Y N i) = op.app (v.bget (t.flat i)) (w.bget (o.flat i))) ∧
    (∀ k < X, (t.xDim = 0 ∨ v.shape k = 1) → (o.xDim = 0 ∨ w.shape k = 1) → r.shape k = 1) ∧
    (∀ k < Y, (t.yDim = 0 ∨ v.shape (t.xDim + k) = 1) → (o.yDim = 0 ∨ w.shape (o.xDim + k) = 1) →
      r.shape (X + k) = 1) := by
  obtain ⟨l, hl, l1, l2, l3, l4, l5, l6⟩ := reshape_ok (v := v) hnt hv ht
  obtain ⟨s, hs, s1, s2, s3, s4, s5, s6⟩ := reshape_ok (v := w) hno hw ho
  unfold reshapedOp at hr
  rw [hl, hs] at hr
  obtain ⟨r1, r2, r3, r4⟩ := binary_ok hr (by rw [l1, s1])
  refine ⟨r1.trans l1, fun i => ?_, fun k hk ha hb => ?_, fun k hk ha hb => ?_⟩
  · rw [r4, l2, s2]
  · rw [r2, bcast_eq_one, l3 k hk, s3 k hk]
    constructor
    · split_ifs with h
      · rfl
      · exact ha.resolve_left h
    · split_ifs with h
      · rfl
      · exact hb.resolve_left h
  · rw [r2, bcast_eq_one, l4 k hk, s4 k hk]
    constructor
    · split_ifs with h
      · rfl
      · exact ha.resolve_left h
    · split_ifs with h
      · rfl
      · exact hb.resolve_left h

theorem reshapedOp_isOk {t o : Tensor α} {v w : NDArray α}
    (hnt : t.values.ndim = t.xDim + t.yDim + t.n + t.dim) (hv : v.ndim = t.values.ndim)
    (hno : o.values.ndim = o.xDim + o.yDim + o.n + o.dim) (hw : w.ndim = o.values.ndim)
    {X Y N D : Nat} (ht : Fits t X Y N D) (ho : Fits o X Y N D) (op : Op)
    (hsh : ShapesFit t v o w) :
    ∃ r, reshapedOp op v (t.reshapeIdx X Y N D) w (o.reshapeIdx X Y N D) = .ok r := by
  obtain ⟨l, hl, l1, l2, l3, l4, l5, l6⟩ := reshape_ok (v := v) hnt hv ht
  obtain ⟨s, hs, s1, s2, s3, s4, s5, s6⟩ := reshape_ok (v := w) hno hw ho
  unfold reshapedOp
  rw [hl, hs]
  apply binary_isOk (by rw [l1, s1])
  obtain ⟨hx, hy, hn, hd⟩ := hsh
  obtain ⟨t1, t2, t3, t4⟩ := ht
  intro k hk
  rw [l1] at hk
  by_cases c1 : k < X
  · rw [l3 k c1, s3 k c1]
    split_ifs with h1 h2
    · exact Or.inl rfl
    · exact Or.inr (Or.inl rfl)
    · exact Or.inr (Or.inr rfl)
    · exact hx h1 (by assumption) k (by omega)
  · by_cases c2 : k < X + Y
    · obtain ⟨m, rfl⟩ : ∃ m, k = X + m := ⟨k - X, by omega⟩
      rw [l4 m (by omega), s4 m (by omega)]
      split_ifs with h1 h2
      · exact Or.inl rfl
      · exact Or.inr (Or.inl rfl)
      · exact Or.inr (Or.inr rfl)
      · exact hy h1 (by assumption) m (by omega)
    · by_cases c3 : k < X + Y + N
      · obtain ⟨m, rfl⟩ : ∃ m, k = X + Y + m := ⟨k - X - Y, by omega⟩
        rw [l5 m (by omega), s5 m (by omega)]
        split_ifs with h1 h2
        · exact Or.inl rfl
        · exact Or.inr (Or.inl rfl)
        · exact Or.inr (Or.inr rfl)
        · exact hn h1 (by assumption) m (by omega)
      · obtain ⟨m, rfl⟩ : ∃ m, k = X + Y + N + m := ⟨k - X - Y - N, by omega⟩
        rw [l6 m (by omega), s6 m (by omega)]
        split_ifs with h1 h2
        · exact Or.inl rfl
        · exact Or.inr (Or.inl rfl)
        · exact Or.inr (Or.inr rfl)
        · exact hd h1 (by assumption) m (by omega)

theorem Compat.fits {t o : Tensor α} (h : Compat t o) :
    Fits t (max t.xDim o.xDim) (max t.yDim o.yDim) (max t.n o.n) (max t.dim o.dim) ∧
    Fits o (max t.xDim o.xDim) (max t.yDim o.yDim) (max t.n o.n) (max t.dim o.dim) := by
  obtain ⟨h1, h2, h3, h4⟩ := h
  refine ⟨⟨?_, ?_, ?_, ?_⟩, ?_, ?_, ?_, ?_⟩ <;> omega

end Verif.Tens
