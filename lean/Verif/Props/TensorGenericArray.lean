import Verif.Props.TensorGeneric
import Verif.Props.TensorDot
import Verif.Props.TensorSum

/-!
# C58: `GenericTensor.toarray`
-/

set_option linter.unusedSectionVars false

namespace Verif.Tens
open Verif.Params (Err)
open NDArray

variable {α : Type} [Field α] [DecidableEq α]

/-- All elements are Tensors in diagonal storage with the numbers of axes of the GenericTensor. -/
def Generic.Uniform (g : Generic α) : Prop :=
  ∀ e ∈ g.elements, ∃ t, e = .inl t ∧ t.WF ∧ t.xDim = g.xDim ∧ t.yDim = g.yDim ∧ t.n = g.n ∧ t.dim = g.dim

/-- The sizes of the represented arrays can be broadcast. -/
def Generic.ShapesFit (g : Generic α) : Prop :=
  ∀ t o, .inl t ∈ g.elements → .inl o ∈ g.elements →
    ∀ k < g.xDim + g.yDim + g.n + g.dim, Bcast (t.fullShape k) (o.fullShape k)

/-- No element stores a diagonal of size one where another element has a larger axis. -/
def Generic.DiagFits (g : Generic α) : Prop :=
  ∀ t o, .inl t ∈ g.elements → .inl o ∈ g.elements →
    (∀ k, 0 ≤ t.xMap.getD k (-1) → t.fullShape k = 1 →
      (o.xDim ≠ 0 → o.fullShape k = 1) ∧ o.values.shape (o.xDim + o.yDim + (t.xMap.getD k (-1)).toNat) = 1) ∧
    (∀ k, 0 ≤ t.yMap.getD k (-1) → t.fullShape (t.xDim + k) = 1 →
      (o.yDim ≠ 0 → o.fullShape (o.xDim + k) = 1) ∧
        o.values.shape (o.xDim + o.yDim + (t.yMap.getD k (-1)).toNat) = 1)

theorem binary_zero (r : NDArray α) : ∃ s, NDArray.binary (· + ·) (NDArray.scalar 0) r = .ok s ∧
    s.ndim = r.ndim ∧ (∀ k, s.shape k = r.shape k) ∧ ∀ idx, s.bget idx = r.bget idx := by
  unfold NDArray.binary
  have e : max (NDArray.scalar (0 : α)).ndim r.ndim = r.ndim := by
    show max 0 r.ndim = r.ndim
    omega
  rw [e]
  have hp := r.padFront_self
  have hs : ∀ k, ((NDArray.scalar (0 : α)).padFront r.ndim).shape k = 1 := by
    intro k
    show (if k < r.ndim - 0 then 1 else 1) = 1
    split_ifs <;> rfl
  obtain ⟨s, h⟩ := NDArray.zipWith_isOk (f := (· + ·)) (a := (NDArray.scalar (0 : α)).padFront r.ndim)
    (b := r.padFront r.ndim) fun k _ => Or.inr (Or.inl (hs k))
  obtain ⟨h1, h2, -, h4⟩ := NDArray.zipWith_ok h rfl
  refine ⟨s, h, h1, ?_, ?_⟩
  · intro k
    rw [h2, if_pos (hs k), hp.2.1]
  · intro idx
    rw [h4, hp.2.2]
    show (0 : α) + _ = _
    rw [zero_add]

/-- The position read in an axis of the element: axes of size 1 are read at 0. -/
def Tensor.clamp (t : Tensor α) (idx : Nat → Nat) (k : Nat) : Nat := if t.fullShape k = 1 then 0 else idx k

theorem Tensor.toarray_bget {t : Tensor α} (h : t.WF) : ∃ r, t.toarray = .ok r ∧ r.ndim = t.values.ndim ∧
    (∀ k, r.shape k = t.fullShape k) ∧
    ∀ idx, (∀ k < t.values.ndim, t.fullShape k = 1 ∨ idx k < t.fullShape k) →
      r.bget idx = t.dense (t.idxOf (t.clamp idx)) := by
  obtain ⟨r, h1, h2, h3, h4⟩ := t.toarray_ok h
  refine ⟨r, h1, h2, h3, ?_⟩
  intro idx hi
  rw [← h4 (t.idxOf (t.clamp idx))]
  · rw [Tensor.flat_idxOf]
    unfold NDArray.bget
    apply get_congr
    intro k _
    show (if r.shape k = 1 then 0 else idx k) = if t.fullShape k = 1 then 0 else idx k
    rw [h3]
  · rw [Tensor.flat_idxOf]
    intro k hk
    rw [h3]
    unfold Tensor.clamp
    rcases hi k (by omega) with h | h
    · rw [if_pos h, h]; omega
    · split_ifs <;> omega

/-- The loop of `sum`. -/
theorem sumArrays_ok {nd : Nat} (es : List (Tensor α ⊕ NDArray α)) (acc : NDArray α) (hacc : acc.ndim = nd)
    (hes : ∀ e ∈ es, ∃ t, e = .inl t ∧ t.WF ∧ t.values.ndim = nd)
    (hf : ∀ t o, .inl t ∈ es → .inl o ∈ es → ∀ k < nd, Bcast (t.fullShape k) (o.fullShape k))
    (hfa : ∀ t, .inl t ∈ es → ∀ k < nd, Bcast (acc.shape k) (t.fullShape k)) :
    ∃ a, sumArrays es acc = .ok a ∧ a.ndim = nd ∧
      (∀ k < nd, acc.shape k = 1 ∨ acc.shape k = a.shape k) ∧
      (∀ t, .inl t ∈ es → ∀ k < nd, t.fullShape k = 1 ∨ t.fullShape k = a.shape k) ∧
      (∀ k < nd, acc.shape k = 1 → (∀ t, .inl t ∈ es → t.fullShape k = 1) → a.shape k = 1) ∧
      ∀ idx, InRange a idx → a.bget idx = acc.bget idx +
        (es.map fun e => match e with
          | .inl t => t.dense (t.idxOf (t.clamp idx))
          | .inr _ => 0).sum := by
  induction es generalizing acc with
  | nil =>
    exact ⟨acc, rfl, hacc, fun k _ => Or.inr rfl, fun t ht => (by cases ht), fun k _ h _ => h,
      fun idx _ => by simp⟩
  | cons e es ih =>
    obtain ⟨t, rfl, hw, hnd⟩ := hes e List.mem_cons_self
    obtain ⟨r, h1, h2, h3, h4⟩ := t.toarray_bget hw
    obtain ⟨acc', hb⟩ := NDArray.binary_isOk (f := (· + ·)) (a := acc) (b := r) (by omega) (by
      intro k hk
      rw [h3]
      exact hfa t List.mem_cons_self k (by omega))
    obtain ⟨b1, b2, b3, b4⟩ := NDArray.binary_ok hb (by omega)
    obtain ⟨a, ha, a1, a2, a3, a4, a5⟩ := ih acc' (by omega) (fun e he => hes e (List.mem_cons_of_mem _ he))
      (fun t o ht ho => hf t o (List.mem_cons_of_mem _ ht) (List.mem_cons_of_mem _ ho)) (by
        intro o ho k hk
        rw [b2, h3]
        have e1 := hfa o (List.mem_cons_of_mem _ ho) k hk
        have e2 := hf t o List.mem_cons_self (List.mem_cons_of_mem _ ho) k hk
        split_ifs <;> assumption)
    refine ⟨a, ?_, a1, ?_, ?_, ?_, ?_⟩
    · unfold sumArrays
      simp only [h1, hb, ha]
    · intro k hk
      have e1 := a2 k hk
      have e2 := hfa t List.mem_cons_self k hk
      rw [b2, h3] at e1
      by_cases hc : acc.shape k = 1
      · exact Or.inl hc
      · rw [if_neg hc] at e1; exact e1
    · intro o ho k hk
      rcases List.mem_cons.1 ho with e | ho
      · cases e
        have e1 := a2 k hk
        have e2 := hfa t List.mem_cons_self k hk
        rw [b2, h3] at e1
        unfold Bcast at e2
        split_ifs at e1 with hc <;> omega
      · exact a3 o ho k hk
    · intro k hk hc hall
      apply a4 k hk
      · rw [b2, h3, if_pos hc]
        exact hall t List.mem_cons_self
      · exact fun o ho => hall o (List.mem_cons_of_mem _ ho)
    · intro idx hidx
      rw [a5 idx hidx, b4, List.map_cons, List.sum_cons, h4, add_assoc]
      intro k hk
      have e1 := a2 k (by omega)
      have e2 := hfa t List.mem_cons_self k (by omega)
      have e3 := hidx k (by omega)
      rw [b2, h3] at e1
      unfold Bcast at e2
      split_ifs at e1 with hc <;> omega

theorem Tensor.fullShape_x (t : Tensor α) (hw : t.WF) {k : Nat} (h0 : 0 ≤ t.xMap.getD k (-1)) :
    t.fullShape k = t.values.shape (t.xDim + t.yDim + (t.xMap.getD k (-1)).toNat) := by
  have hk : k < t.xMap.length := lt_of_getD_nonneg h0
  have := hw.xLen
  unfold Tensor.fullShape
  rw [if_pos (by omega), if_pos h0]

theorem Tensor.fullShape_y (t : Tensor α) (hw : t.WF) {k : Nat} (h0 : 0 ≤ t.yMap.getD k (-1)) :
    t.fullShape (t.xDim + k) = t.values.shape (t.xDim + t.yDim + (t.yMap.getD k (-1)).toNat) := by
  have hk : k < t.yMap.length := lt_of_getD_nonneg h0
  have := hw.yLen
  unfold Tensor.fullShape
  rw [if_neg (by omega), if_pos (by omega), show t.xDim + k - t.xDim = k by omega, if_pos h0]

/-- The stored size of an axis is 1 if the represented size is. -/
theorem Tensor.shape_one (t : Tensor α) (hw : t.WF) {k : Nat} (h : t.fullShape k = 1) : t.values.shape k = 1 := by
  unfold Tensor.fullShape at h
  split_ifs at h with h1 h2 h3 h4
  · exact hw.xOne k (lt_of_getD_nonneg h2) h2
  · exact h
  · have := hw.yOne (k - t.xDim) (lt_of_getD_nonneg h4) h4
    rwa [show t.xDim + (k - t.xDim) = k by omega] at this
  · exact h
  · exact h

/-- Positions that agree on the axes of size other than one read the same value, provided mapped axes of size
one are at 0. -/
theorem Tensor.dense_clamp {t : Tensor α} (hw : t.WF) {i j : Idx}
    (hij : ∀ k < t.values.ndim, t.fullShape k ≠ 1 → t.flat j k = t.flat i k)
    (hx : ∀ k, 0 ≤ t.xMap.getD k (-1) → t.fullShape k = 1 →
      i.x k = 0 ∧ i.n (t.xMap.getD k (-1)).toNat = 0 ∧ j.x k = 0 ∧ j.n (t.xMap.getD k (-1)).toNat = 0)
    (hy : ∀ k, 0 ≤ t.yMap.getD k (-1) → t.fullShape (t.xDim + k) = 1 →
      i.y k = 0 ∧ i.n (t.yMap.getD k (-1)).toNat = 0 ∧ j.y k = 0 ∧ j.n (t.yMap.getD k (-1)).toNat = 0) :
    t.dense j = t.dense i := by
  have hnd := hw.nd
  have hxl := hw.xLen
  have hyl := hw.yLen
  have hX : Agrees t.xMap j.x j.n ↔ Agrees t.xMap i.x i.n := by
    unfold Agrees
    refine forall_congr' fun k => forall_congr' fun hk => forall_congr' fun h0 => ?_
    have hr := hw.xR h0
    by_cases h1 : t.fullShape k = 1
    · obtain ⟨e1, e2, e3, e4⟩ := hx k h0 h1
      rw [e1, e2, e3, e4]
    · have e1 := hij k (by omega) h1
      have e2 := hij (t.xDim + t.yDim + (t.xMap.getD k (-1)).toNat) (by omega) (by
        rw [Tensor.fullShape_ge _ (by omega), ← t.fullShape_x hw h0]; exact h1)
      rw [t.flat_x _ (by omega), t.flat_x _ (by omega)] at e1
      rw [t.flat_n _ hr, t.flat_n _ hr] at e2
      rw [e1, e2]
  have hY : Agrees t.yMap j.y j.n ↔ Agrees t.yMap i.y i.n := by
    unfold Agrees
    refine forall_congr' fun k => forall_congr' fun hk => forall_congr' fun h0 => ?_
    have hr := hw.yR h0
    by_cases h1 : t.fullShape (t.xDim + k) = 1
    · obtain ⟨e1, e2, e3, e4⟩ := hy k h0 h1
      rw [e1, e2, e3, e4]
    · have e1 := hij (t.xDim + k) (by omega) h1
      have e2 := hij (t.xDim + t.yDim + (t.yMap.getD k (-1)).toNat) (by omega) (by
        rw [Tensor.fullShape_ge _ (by omega), ← t.fullShape_y hw h0]; exact h1)
      rw [t.flat_y _ (by omega), t.flat_y _ (by omega)] at e1
      rw [t.flat_n _ hr, t.flat_n _ hr] at e2
      rw [e1, e2]
  unfold Tensor.dense
  refine if_congr (and_congr hX hY) ?_ rfl
  apply bget_congr
  intro k hk h1
  exact hij k hk fun h => h1 (t.shape_one hw h)

/-- **C58 (partial).** If the elements have the numbers of axes of the GenericTensor, their shapes can be
broadcast and no diagonal of size one is broadcast, `g.toarray()` succeeds and is the array represented by `g`:
its axes are the common `x`, `y`, value and `dim` axes, each of the size of the elements that do not broadcast
it.  Missing: elements that lack some of the axes, see `C58_layout_counterexample`, and broadcast diagonals,
see `C58_broadcast_diagonal_counterexample`. -/
theorem C58_toarray_partial {g : Generic α} (hu : g.Uniform) (hne : g.elements ≠ []) (hs : g.ShapesFit)
    (hd : g.DiagFits) :
    ∃ a, g.toarray = .ok a ∧ a.ndim = g.xDim + g.yDim + g.n + g.dim ∧
      (∀ t, .inl t ∈ g.elements → ∀ k < a.ndim, t.fullShape k = 1 ∨ t.fullShape k = a.shape k) ∧
      (∀ k < a.ndim, a.shape k ≠ 1 → ∃ t, .inl t ∈ g.elements ∧ t.fullShape k = a.shape k) ∧
      ∀ i, InRange a (Tens.flat g.xDim g.yDim g.n i) → a.get (Tens.flat g.xDim g.yDim g.n i) = g.dense i := by
  obtain ⟨e, es, he⟩ := List.exists_cons_of_ne_nil hne
  obtain ⟨t, rfl, hw, t1, t2, t3, t4⟩ := hu e (by rw [he]; exact List.mem_cons_self)
  have hnd : ∀ e ∈ g.elements, ∃ t, e = .inl t ∧ t.WF ∧ t.values.ndim = g.xDim + g.yDim + g.n + g.dim := by
    intro e hm
    obtain ⟨t, rfl, hw, t1, t2, t3, t4⟩ := hu e hm
    exact ⟨t, rfl, hw, by rw [hw.nd, t1, t2, t3, t4]⟩
  -- the first element
  obtain ⟨r, r1, r2, r3, r4⟩ := t.toarray_bget hw
  have htnd : t.values.ndim = g.xDim + g.yDim + g.n + g.dim := by rw [hw.nd, t1, t2, t3, t4]
  obtain ⟨s, s1, s2, s3, s4⟩ := binary_zero r
  have hmem : ∀ e' ∈ es, e' ∈ g.elements := fun e' h => by rw [he]; exact List.mem_cons_of_mem _ h
  have hmt : Sum.inl t ∈ g.elements := by rw [he]; exact List.mem_cons_self
  obtain ⟨a, ha, a1, a2, a3, a4, a5⟩ := sumArrays_ok (nd := g.xDim + g.yDim + g.n + g.dim) es s (by omega)
    (fun e h => hnd e (hmem e h)) (fun t o ht ho => hs t o (hmem _ ht) (hmem _ ho))
    (fun o ho k hk => by rw [s3, r3]; exact hs t o hmt (hmem _ ho) k hk)
  have h5 : ∀ o, .inl o ∈ g.elements → ∀ k < a.ndim, o.fullShape k = 1 ∨ o.fullShape k = a.shape k := by
    intro o ho k hk
    rw [he] at ho
    rcases List.mem_cons.1 ho with e | ho
    · cases e
      have := a2 k (by omega)
      rwa [s3, r3] at this
    · exact a3 o ho k (by omega)
  have h6 : ∀ k < a.ndim, (∀ o, .inl o ∈ g.elements → o.fullShape k = 1) → a.shape k = 1 := by
    intro k hk h
    exact a4 k (by omega) (by rw [s3, r3]; exact h t hmt) fun o ho => h o (hmem _ ho)
  refine ⟨a, ?_, a1, h5, ?_, ?_⟩
  · unfold Generic.toarray
    rw [he]
    unfold sumArrays
    simp only [r1, s1, ha]
  · intro k hk h1
    by_contra hno
    push Not at hno
    exact h1 (h6 k hk fun o ho => (h5 o ho k hk).resolve_right (hno o ho))
  · intro i hi
    have hz : ∀ k < a.ndim, a.shape k = 1 → Tens.flat g.xDim g.yDim g.n i k = 0 := by
      intro k hk h1
      have := hi k hk
      omega
    have hval : ∀ o, .inl o ∈ g.elements →
        o.dense (o.idxOf (o.clamp (Tens.flat g.xDim g.yDim g.n i))) = o.dense i := by
      intro o ho
      obtain ⟨o', e, hwo, o1, o2, o3, o4⟩ := hu _ ho
      cases e
      have hfl : Tens.flat g.xDim g.yDim g.n i = o.flat i := by unfold Tensor.flat; rw [o1, o2, o3]
      have hond : o.values.ndim = a.ndim := by rw [hwo.nd, o1, o2, o3, o4, a1]
      have hxl := hwo.xLen
      have hyl := hwo.yLen
      have hwnd := hwo.nd
      rw [hfl] at hz ⊢
      apply Tensor.dense_clamp hwo
      · intro k hk h1
        rw [Tensor.flat_idxOf]
        exact if_neg h1
      · intro k h0 h1
        have hr := hwo.xR h0
        have hk : k < o.xMap.length := lt_of_getD_nonneg h0
        have hs1 : o.fullShape (o.xDim + o.yDim + (o.xMap.getD k (-1)).toNat) = 1 := by
          rw [Tensor.fullShape_ge _ (by omega), ← o.fullShape_x hwo h0, h1]
        have ax : a.shape k = 1 := h6 k (by omega) fun o' ho' => by
          have := (hd o o' ho ho').1 k h0 h1
          obtain ⟨o'', e, -, p1, -⟩ := hu _ ho'
          cases e
          exact this.1 (by omega)
        have an : a.shape (o.xDim + o.yDim + (o.xMap.getD k (-1)).toNat) = 1 := h6 _ (by omega) fun o' ho' => by
          have := ((hd o o' ho ho').1 k h0 h1).2
          obtain ⟨o'', e, -, p1, p2, -⟩ := hu _ ho'
          cases e
          rw [Tensor.fullShape_ge _ (by omega), o1, o2]
          rwa [p1, p2] at this
        have z1 := hz _ (by omega) ax
        have z2 := hz _ (by omega) an
        rw [o.flat_x _ (by omega)] at z1
        rw [o.flat_n _ hr] at z2
        have c1 := congrFun (o.flat_idxOf (o.clamp (o.flat i))) k
        have c2 := congrFun (o.flat_idxOf (o.clamp (o.flat i))) (o.xDim + o.yDim + (o.xMap.getD k (-1)).toNat)
        rw [o.flat_x _ (by omega)] at c1
        rw [o.flat_n _ hr] at c2
        refine ⟨z1, z2, ?_, ?_⟩
        · rw [c1]; exact if_pos h1
        · rw [c2]; exact if_pos hs1
      · intro k h0 h1
        have hr := hwo.yR h0
        have hk : k < o.yMap.length := lt_of_getD_nonneg h0
        have hs1 : o.fullShape (o.xDim + o.yDim + (o.yMap.getD k (-1)).toNat) = 1 := by
          rw [Tensor.fullShape_ge _ (by omega), ← o.fullShape_y hwo h0, h1]
        have ax : a.shape (o.xDim + k) = 1 := h6 _ (by omega) fun o' ho' => by
          have := (hd o o' ho ho').2 k h0 h1
          obtain ⟨o'', e, -, p1, p2, -⟩ := hu _ ho'
          cases e
          have := this.1 (by omega)
          rwa [p1, ← o1] at this
        have an : a.shape (o.xDim + o.yDim + (o.yMap.getD k (-1)).toNat) = 1 := h6 _ (by omega) fun o' ho' => by
          have := ((hd o o' ho ho').2 k h0 h1).2
          obtain ⟨o'', e, -, p1, p2, -⟩ := hu _ ho'
          cases e
          rw [Tensor.fullShape_ge _ (by omega), o1, o2]
          rwa [p1, p2] at this
        have z1 := hz _ (by omega) ax
        have z2 := hz _ (by omega) an
        rw [o.flat_y _ (by omega)] at z1
        rw [o.flat_n _ hr] at z2
        have c1 := congrFun (o.flat_idxOf (o.clamp (o.flat i))) (o.xDim + k)
        have c2 := congrFun (o.flat_idxOf (o.clamp (o.flat i))) (o.xDim + o.yDim + (o.yMap.getD k (-1)).toNat)
        rw [o.flat_y _ (by omega)] at c1
        rw [o.flat_n _ hr] at c2
        refine ⟨z1, z2, ?_, ?_⟩
        · rw [c1]; exact if_pos h1
        · rw [c2]; exact if_pos hs1
    rw [get_eq_bget a hi, a5 _ hi, s4, r4]
    · unfold Generic.dense
      rw [he, List.map_cons, List.sum_cons, hval t hmt]
      congr 2
      apply List.map_congr_left
      intro e' he'
      obtain ⟨o, rfl, -⟩ := hnd e' (hmem e' he')
      exact hval o (hmem _ he')
    · intro k hk
      rcases h5 t hmt k (by omega) with h | h
      · exact Or.inl h
      · right; rw [h]; exact hi k (by omega)

/-- **C58, counterexample.** `t + o` for a diagonal `t` with `x`, value and `dim` axes and an `o` without `dim`
axis is a GenericTensor that represents the sum; its `toarray()` aligns the trailing axes of the elements and
reads `o` at the value and `dim` positions instead of the `x` and value positions. -/
theorem C58_layout_counterexample : ∃ (t o : Tensor ℚ) (g : Generic ℚ) (a : NDArray ℚ) (i : Idx), t.WF ∧ o.WF ∧
    t.binTensor o .add = .ok (.generic g) ∧ g.toarray = .ok a ∧ a.ndim = g.xDim + g.yDim + g.n + g.dim ∧
    InRange a (Tens.flat g.xDim g.yDim g.n i) ∧ g.dense i = t.dense i + o.dense i ∧
    a.get (Tens.flat g.xDim g.yDim g.n i) ≠ g.dense i := by
  refine ⟨⟨⟨3, fun k => if k = 0 then 1 else 2, fun _ => 0⟩, 1, 0, 1, [0], []⟩,
    ⟨⟨2, fun _ => 2, fun idx => idx 0⟩, 1, 0, 0, [], []⟩, _, _,
    ⟨fun _ => 0, fun _ => 0, fun _ => 1, fun _ => 0⟩, ?_, Tensor.wf_nomap (by decide), rfl, rfl, rfl, ?_, ?_, ?_⟩
  · exact ⟨by decide, by decide, by decide, by decide, by decide, by decide, by decide⟩
  · unfold InRange; decide
  · simp [Generic.dense, elemDense]
  · show (0 + (0 : ℚ) * 0) + ((1 : ℕ) : ℚ) ≠ 0 + (((0 : ℕ) : ℚ) + 0)
    norm_num

/-- **C58, counterexample.** A diagonal of size one next to a larger element: `toarray()` repeats the stored
value on all positions. -/
theorem C58_broadcast_diagonal_counterexample : ∃ (t o : Tensor ℚ) (g : Generic ℚ) (a : NDArray ℚ) (i : Idx),
    t.WF ∧ o.WF ∧ t.binTensor o .add = .ok (.generic g) ∧ g.Uniform ∧ g.ShapesFit ∧ g.toarray = .ok a ∧
    InRange a (Tens.flat g.xDim g.yDim g.n i) ∧ g.dense i = t.dense i + o.dense i ∧
    a.get (Tens.flat g.xDim g.yDim g.n i) ≠ g.dense i := by
  have w1 : (⟨⟨2, fun _ => 1, fun _ => 7⟩, 1, 0, 0, [0], []⟩ : Tensor ℚ).WF :=
    ⟨by decide, by decide, by decide, by decide, by decide, by decide, by decide⟩
  have w2 : (⟨⟨2, fun _ => 2, fun _ => 0⟩, 1, 0, 0, [], []⟩ : Tensor ℚ).WF := Tensor.wf_nomap (by decide)
  refine ⟨⟨⟨2, fun _ => 1, fun _ => 7⟩, 1, 0, 0, [0], []⟩, ⟨⟨2, fun _ => 2, fun _ => 0⟩, 1, 0, 0, [], []⟩, _, _,
    ⟨fun _ => 1, fun _ => 0, fun _ => 0, fun _ => 0⟩, w1, w2, rfl, ?_, ?_, rfl, ?_, ?_, ?_⟩
  · intro e he
    rcases List.mem_cons.1 he with rfl | he
    · exact ⟨_, rfl, w1, rfl, rfl, rfl, rfl⟩
    · rw [List.mem_singleton.1 he]
      exact ⟨_, rfl, w2, rfl, rfl, rfl, rfl⟩
  · intro t o ht ho
    rcases List.mem_cons.1 ht with e | ht
    · cases e
      rcases List.mem_cons.1 ho with e | ho
      · cases e; decide
      · cases List.mem_singleton.1 ho; decide
    · cases List.mem_singleton.1 ht
      rcases List.mem_cons.1 ho with e | ho
      · cases e; decide
      · cases List.mem_singleton.1 ho; decide
  · unfold InRange; decide
  · simp [Generic.dense, elemDense]
  · show (0 + (7 : ℚ) * 1) + 0 ≠ 0 + (0 + 0)
    norm_num

/-- The hypotheses of `C58_toarray_partial` are met by the GenericTensor `diag3 + full3`. -/
example : ∃ g, diag3.binTensor full3 .add = .ok (.generic g) ∧ g.Uniform ∧ g.elements ≠ [] ∧ g.ShapesFit ∧
    g.DiagFits := by
  refine ⟨_, rfl, ?_, ?_, ?_, ?_⟩
  · intro e he
    rcases List.mem_cons.1 he with rfl | he
    · exact ⟨_, rfl, diag3_wf, rfl, rfl, rfl, rfl⟩
    · rw [List.mem_singleton.1 he]
      exact ⟨_, rfl, full3_wf, rfl, rfl, rfl, rfl⟩
  · exact List.cons_ne_nil _ _
  · intro t o ht ho
    rcases List.mem_cons.1 ht with e | ht
    · cases e
      rcases List.mem_cons.1 ho with e | ho
      · cases e; decide
      · cases List.mem_singleton.1 ho; decide
    · cases List.mem_singleton.1 ht
      rcases List.mem_cons.1 ho with e | ho
      · cases e; decide
      · cases List.mem_singleton.1 ho; decide
  · intro t o ht ho
    have hx : ∀ k, 0 ≤ t.xMap.getD k (-1) → t.fullShape k ≠ 1 := by
      intro k h0
      rcases List.mem_cons.1 ht with e | ht
      · cases e
        have : k < 1 := lt_of_getD_nonneg h0
        obtain rfl : k = 0 := by omega
        decide
      · cases List.mem_singleton.1 ht
        exact absurd (lt_of_getD_nonneg h0) (Nat.not_lt_zero k)
    have hy : ∀ k, ¬ 0 ≤ t.yMap.getD k (-1) := by
      intro k h0
      rcases List.mem_cons.1 ht with e | ht
      · cases e; exact absurd (lt_of_getD_nonneg h0) (Nat.not_lt_zero k)
      · cases List.mem_singleton.1 ht; exact absurd (lt_of_getD_nonneg h0) (Nat.not_lt_zero k)
    exact ⟨fun k h0 h1 => absurd h1 (hx k h0), fun k h0 => absurd h0 (hy k)⟩

end Verif.Tens
