import Verif.Props.TensorGenericSum

/-!
# C58: the other cases of `GenericTensor.sum`
-/

set_option linter.unusedSectionVars false

namespace Verif.Tens
open Verif.Params (Err)
open NDArray

variable {α : Type} [Field α] [DecidableEq α]

/-- Multiplication of a Tensor by a scalar that is not 0 keeps the storage. -/
theorem binScalar_mul {t : Tensor α} (hw : t.WF) {c : α} (hc : c ≠ 0) :
    ∃ r, t.binScalar c .mul = .ok r ∧ r.WF ∧ r.xDim = t.xDim ∧ r.yDim = t.yDim ∧ r.n = t.n ∧ r.dim = t.dim ∧
      r.xMap = t.xMap ∧ r.yMap = t.yMap ∧ ∀ i, r.dense i = t.dense i * c := by
  unfold Tensor.binScalar
  rw [if_neg (fun h => hc h.1), if_neg (fun h => hc h.1), if_neg (fun h => hc h.1), if_neg (fun h => hc h.1)]
  by_cases h1 : c = 1
  · rw [if_pos ⟨h1, Or.inl rfl⟩]
    exact ⟨t, rfl, hw, rfl, rfl, rfl, rfl, rfl, rfl, fun i => by rw [h1, mul_one]⟩
  · rw [if_neg (fun h => h1 h.1), if_neg (by decide)]
    refine ⟨_, rfl, hw.map _, rfl, rfl, rfl, rfl, rfl, rfl, fun i => ?_⟩
    unfold Tensor.dense
    by_cases h : Agrees t.xMap i.x i.n ∧ Agrees t.yMap i.y i.n
    · rw [if_pos h, if_pos h]
      rw [map_bget]
      rfl
    · rw [if_neg h, if_neg h, zero_mul]

/-- The sum of the array represented by `g` over all `dim` axes: elements whose axes have size 1 are repeated. -/
def Generic.sumDimDense (g : Generic α) (i : Idx) : α :=
  sumAt (fun k => g.size (g.n + k)) (List.range g.dim) (fun d => g.dense ⟨i.x, i.y, i.n, d⟩) i.d

theorem scaleAll_eq (sd : Bool) (size : Nat) (ts : List (Tensor α)) (sh : Tensor α → List Nat)
    (R : Tensor α → Tensor α)
    (h : ∀ t ∈ ts, ∃ r, t.sum .none sd = .ok r ∧
      r.binScalar ((size : α) / ((sh t).prod : Nat)) .mul = .ok (R t)) :
    scaleAll sd size (ts.map Sum.inl) (ts.map sh) = .ok (ts.map fun t => .inl (R t)) := by
  induction ts with
  | nil => rfl
  | cons t ts ih =>
    obtain ⟨r, r1, r2⟩ := h t List.mem_cons_self
    simp only [List.map_cons, scaleAll, r1, r2, ih fun t ht => h t (List.mem_cons_of_mem _ ht)]

theorem binScalar_mul_shape {t r : Tensor α} {c : α} (hc : c ≠ 0) (h : t.binScalar c .mul = .ok r) (k : Nat) :
    r.values.shape k = t.values.shape k := by
  unfold Tensor.binScalar at h
  rw [if_neg (fun h => hc h.1), if_neg (fun h => hc h.1), if_neg (fun h => hc h.1), if_neg (fun h => hc h.1)] at h
  by_cases h1 : c = 1
  · rw [if_pos ⟨h1, Or.inl rfl⟩] at h
    cases h
    rfl
  · rw [if_neg (fun h => h1 h.1), if_neg (by decide)] at h
    cases h
    rfl

/-- **C58.** `g.sum(False, True)` succeeds and returns a GenericTensor that represents the sum over the `dim` axes
of the array represented by `g`, whatever axes the elements broadcast. -/
theorem C58_sum_dim [CharZero α] {g : Generic α}
    (hr : ∀ e ∈ g.elements, ∃ t, e = .inl t ∧ t.WF ∧ t.n = g.n ∧ t.dim = g.dim)
    (hs : ∀ t o, .inl t ∈ g.elements → .inl o ∈ g.elements → ∀ k < g.dim,
      Bcast (t.values.shape (t.xDim + t.yDim + g.n + k)) (o.values.shape (o.xDim + o.yDim + g.n + k)))
    (hp : ∀ t, .inl t ∈ g.elements → ∀ k < g.dim, t.values.shape (t.xDim + t.yDim + g.n + k) ≠ 0) :
    ∃ r : Generic α, g.sum .none true = .ok (.generic r) ∧ r.xDim = g.xDim ∧ r.yDim = g.yDim ∧ r.n = g.n ∧
      r.dim = 0 ∧ r.elements.length = g.elements.length ∧
      (∀ e ∈ r.elements, ∃ t, e = .inl t ∧ t.WF ∧ t.n = g.n ∧ t.dim = 0 ∧
        ∃ u, .inl u ∈ g.elements ∧ t.xDim = u.xDim ∧ t.yDim = u.yDim ∧ t.xMap = u.xMap ∧ t.yMap = u.yMap ∧
          ∀ k < u.xDim + u.yDim + u.n, t.values.shape k = u.values.shape k) ∧
      ∀ i, r.dense i = g.sumDimDense i := by
  obtain ⟨ts, hts, P⟩ := exists_tensors hr
  have mem : ∀ t, .inl t ∈ g.elements ↔ t ∈ ts := by
    intro t
    rw [hts, List.mem_map]
    exact ⟨fun ⟨u, hu, e⟩ => by cases e; exact hu, fun h => ⟨t, h, rfl⟩⟩
  have hidx : g.sumIdx .none true = (List.range g.dim).map (g.n + ·) := by
    unfold Generic.sumIdx
    rw [if_pos rfl, List.nil_append]
  have hshapes := elemShapes_ok (g.sumIdx .none true) ts (by
    intro t ht j hj
    obtain ⟨hw, e1, e2⟩ := P t ht
    rw [hidx] at hj
    obtain ⟨k, hk, rfl⟩ := List.mem_map.1 hj
    have := List.mem_range.1 hk
    have := hw.nd
    omega)
  rw [← hts] at hshapes
  set sh : Tensor α → List Nat := fun t => (g.sumIdx .none true).map fun j => t.values.shape (t.xDim + t.yDim + j)
    with hsh
  have hsize : ((ts.map sh).foldl (List.zipWith max) (List.replicate (g.sumIdx .none true).length 1)) =
      (g.sumIdx .none true).map g.size := by
    have := foldl_zipWith_max (g.sumIdx .none true)
      (ts.map fun t j => t.values.shape (t.xDim + t.yDim + j)) fun _ => 1
    rw [List.map_map, List.map_const'] at this
    refine Eq.trans this ?_
    apply List.map_congr_left
    intro j _
    unfold Generic.size
    rw [hts, List.map_map, List.map_map]
    rfl
  set size := ((g.sumIdx .none true).map g.size).prod with hsz
  have hge : ∀ j, 1 ≤ g.size j := fun j => (foldl_max_ge _ 1).1
  have hszpos : size ≠ 0 := by
    rw [hsz]
    apply List.prod_ne_zero
    intro h0
    obtain ⟨j, -, hj⟩ := List.mem_map.1 h0
    have := hge j
    omega
  have hshe : ∀ t, sh t = (List.range g.dim).map fun k => t.values.shape (t.xDim + t.yDim + g.n + k) := by
    intro t
    rw [hsh]
    dsimp only
    rw [hidx, List.map_map]
    apply List.map_congr_left
    intro k _
    show t.values.shape (t.xDim + t.yDim + (g.n + k)) = _
    rw [← Nat.add_assoc]
  have hshpos : ∀ t ∈ ts, (sh t).prod ≠ 0 := by
    intro t ht
    rw [hshe]
    apply List.prod_ne_zero
    intro h0
    obtain ⟨k, hk, hj⟩ := List.mem_map.1 h0
    exact hp t ((mem t).2 ht) k (List.mem_range.1 hk) hj
  have hR : ∀ t : Tensor α, ∃ r' : Tensor α, t ∈ ts → ∃ r, t.sum .none true = .ok r ∧
      r.binScalar ((size : α) / ((sh t).prod : Nat)) .mul = .ok r' ∧ r'.WF ∧ r'.n = g.n ∧ r'.dim = 0 ∧
      (∀ i, r'.dense i = t.sumDense [] true i * ((size : α) / ((sh t).prod : Nat))) ∧
      r'.xDim = t.xDim ∧ r'.yDim = t.yDim ∧ r'.xMap = t.xMap ∧ r'.yMap = t.yMap ∧
          ∀ k < t.xDim + t.yDim + t.n, r'.values.shape k = t.values.shape k := by
    intro t
    by_cases ht : t ∈ ts
    · obtain ⟨hw, e1, e2⟩ := P t ht
      obtain ⟨r, a1, a2, a3, a4, a5, a6, a7, a8, a10, a9⟩ := C55_sum_dim hw
      have hc0 : (size : α) / ((sh t).prod : Nat) ≠ 0 :=
        div_ne_zero (Nat.cast_ne_zero.2 hszpos) (Nat.cast_ne_zero.2 (hshpos t ht))
      obtain ⟨r', b1, b2, b6, b7, b3, b4, b8, b9, b5⟩ := binScalar_mul a2 hc0
      exact ⟨r', fun _ => ⟨r, a1, b1, b2, by omega, by omega, fun i => by rw [b5, a9], by omega, by omega, by rw [b8, a7],
        by rw [b9, a8], fun k hk => by rw [binScalar_mul_shape hc0 b1, a10 k hk]⟩⟩
    · exact ⟨t, fun h => absurd h ht⟩
  choose R hR using hR
  have hscale : scaleAll true size g.elements (ts.map sh) = .ok (ts.map fun t => .inl (R t)) := by
    rw [hts]
    apply scaleAll_eq
    intro t ht
    obtain ⟨r, h1, h2, -⟩ := hR t ht
    exact ⟨r, h1, h2⟩
  refine ⟨⟨g.xDim, g.yDim, g.n, 0, ts.map fun t => .inl (R t)⟩, ?_, rfl, rfl, rfl, rfl, ?_, ?_, ?_⟩
  · unfold Generic.sum
    simp only [Bool.not_true, Bool.and_false, Bool.false_eq_true, if_false, hshapes, hsize, ← hsz, hscale]
  · rw [hts, List.length_map, List.length_map]
  · intro e he
    obtain ⟨t, ht, rfl⟩ := List.mem_map.1 he
    obtain ⟨r, -, -, h3, h4, h5, -, h6⟩ := hR t ht
    exact ⟨_, rfl, h3, h4, h5, t, (mem t).2 ht, h6⟩
  · intro i
    unfold Generic.sumDimDense Generic.dense
    simp only [sumAt_list]
    rw [hts, List.map_map, List.map_map]
    congr 1
    apply List.map_congr_left
    intro t ht
    obtain ⟨hw, e1, e2⟩ := P t ht
    obtain ⟨r, -, -, -, -, -, h6, -⟩ := hR t ht
    show (R t).dense i = sumAt _ _ (fun d => t.dense ⟨i.x, i.y, i.n, d⟩) i.d
    rw [h6]
    have := sumAt_bcast (α := α) (fun k => t.values.shape (t.xDim + t.yDim + g.n + k)) (fun k => g.size (g.n + k))
      (List.range g.dim) (F := fun d => t.dense ⟨i.x, i.y, i.n, d⟩)
      (fun k hk => hp t ((mem t).2 ht) k (List.mem_range.1 hk)) (by
        intro k hk
        have hk := List.mem_range.1 hk
        have hmem : t.values.shape (t.xDim + t.yDim + (g.n + k)) ∈ g.elements.map fun e => match e with
          | .inl t => t.values.shape (t.xDim + t.yDim + (g.n + k))
          | .inr a => a.shape (g.n + k) := List.mem_map.2 ⟨_, (mem t).2 ht, rfl⟩
        have hle : t.values.shape (t.xDim + t.yDim + (g.n + k)) ≤ g.size (g.n + k) :=
          (foldl_max_ge _ 1).2 _ hmem
        have hpos := hp t ((mem t).2 ht) k hk
        rw [← Nat.add_assoc] at hle
        rcases foldl_max_mem (g.elements.map fun e => match e with
          | .inl t => t.values.shape (t.xDim + t.yDim + (g.n + k))
          | .inr a => a.shape (g.n + k)) 1 with h | h
        · have h' : g.size (g.n + k) = 1 := h
          left; omega
        · have hdef : g.size (g.n + k) ∈ g.elements.map fun e => match e with
            | .inl t => t.values.shape (t.xDim + t.yDim + (g.n + k))
            | .inr a => a.shape (g.n + k) := h
          obtain ⟨e, he, h⟩ := List.mem_map.1 hdef
          obtain ⟨o, rfl, -⟩ := hr e he
          dsimp only at h
          have hb := hs t o ((mem t).2 ht) he k hk
          rw [← h, ← Nat.add_assoc]
          rw [← h, ← Nat.add_assoc] at hle
          rcases hb with h' | h' | h'
          · exact Or.inl h'
          · refine Or.inr ⟨h', fun d v => ?_⟩
            exact t.dense_update_d hw ⟨i.x, i.y, i.n, d⟩ (by rw [e1]; exact h') v
          · left; omega) i.d
    rw [this]
    have e3 : t.sumDense [] true i = sumAt (fun k => t.values.shape (t.xDim + t.yDim + g.n + k)) (List.range g.dim)
        (fun d => t.dense ⟨i.x, i.y, i.n, d⟩) i.d := by
      unfold Tensor.sumDense
      rw [if_pos rfl, ← e1, ← e2]
      rfl
    rw [e3, mul_comm, hshe, hsz, hidx, List.map_map]
    rfl

/-- **C58.** `g.sum()` and `g.sum(True, False)` raise `IndexError` when some element lacks value or `dim` axes
(for instance the sum of a diagonal Tensor and a Tensor with only `x` axes). -/
theorem C58_sum_raises {g : Generic α} (hr : ∀ e ∈ g.elements, ∃ t, e = .inl t ∧ t.WF) {t : Tensor α}
    (ht : .inl t ∈ g.elements) (sd : Bool) (h : t.n + t.dim < g.n + (if sd then g.dim else 0)) :
    g.sum .all sd = .error .indexError := by
  have key : ∀ es : List (Tensor α ⊕ NDArray α), (∀ e ∈ es, ∃ t, e = .inl t ∧ t.WF) → .inl t ∈ es →
      elemShapes (g.sumIdx .all sd) es = .error .indexError := by
    intro es
    induction es with
    | nil => intro _ h; cases h
    | cons e es ih =>
      intro h1 h2
      unfold elemShapes
      obtain ⟨u, rfl, -⟩ := h1 e List.mem_cons_self
      by_cases hu : ∃ j ∈ g.sumIdx .all sd, u.values.ndim ≤ u.xDim + u.yDim + j
      · simp only [elemShape, if_pos hu]
      · simp only [elemShape, if_neg hu]
        rcases List.mem_cons.1 h2 with h2 | h2
        · exfalso
          cases h2
          obtain ⟨_, e, hw⟩ := h1 _ List.mem_cons_self
          cases e
          have hnd := hw.nd
          apply hu
          by_cases hc : t.n + t.dim < g.n
          · refine ⟨t.n + t.dim, List.mem_append_left _ (List.mem_range.2 hc), by omega⟩
          · cases sd with
            | false => simp at h; omega
            | true =>
              simp only [if_true] at h
              refine ⟨g.n + (t.n + t.dim - g.n), List.mem_append_right _ ?_, by omega⟩
              rw [if_pos rfl]
              exact List.mem_map.2 ⟨_, List.mem_range.2 (by omega), rfl⟩
        · simp only [ih (fun e he => h1 e (List.mem_cons_of_mem _ he)) h2]
  unfold Generic.sum
  simp only [Bool.false_and, Bool.false_eq_true, if_false, key _ hr ht]

/-- A diagonal Tensor plus a Tensor with only an `x` axis: the sum is a GenericTensor and its `sum()` raises. -/
theorem C58_sum_raises_example : ∃ (t o : Tensor ℚ) (g : Generic ℚ), t.WF ∧ o.WF ∧
    t.binTensor o .add = .ok (.generic g) ∧ g.sum .all true = .error .indexError := by
  have w1 : (⟨⟨2, fun k => if k = 0 then 1 else 2, fun _ => 7⟩, 1, 0, 0, [0], []⟩ : Tensor ℚ).WF :=
    ⟨by decide, by decide, by decide, by decide, by decide, by decide, by decide⟩
  have w2 : (⟨⟨1, fun _ => 2, fun _ => 5⟩, 1, 0, 0, [], []⟩ : Tensor ℚ).WF := Tensor.wf_nomap (by decide)
  refine ⟨_, _, _, w1, w2, rfl, ?_⟩
  refine C58_sum_raises (t := ⟨⟨1, fun _ => 2, fun _ => 5⟩, 1, 0, 0, [], []⟩) ?_ ?_ true (by decide)
  · intro e he
    rcases List.mem_cons.1 he with rfl | he
    · exact ⟨_, rfl, w1⟩
    · rw [List.mem_singleton.1 he]
      exact ⟨_, rfl, w2⟩
  · exact List.mem_cons_of_mem _ List.mem_cons_self

/-- **C58, counterexample.** An element without value axes but with a `dim` axis: `g.sum(True, False)` takes the
size of its `dim` axis for the size of the value axis and repeats it the wrong number of times. -/
theorem C58_sum_missing_axis_counterexample : ∃ (t o : Tensor ℚ) (g : Generic ℚ) (r : Tensor ℚ) (i : Idx),
    t.WF ∧ o.WF ∧ t.binTensor o .add = .ok (.generic g) ∧ g.sum .all false = .ok (.tensor r) ∧ r.InBox i ∧
    r.dense i = 1 ∧
    sumAt (fun _ => 2) [0] (fun n => t.dense ⟨i.x, i.y, n, i.d⟩ + o.dense ⟨i.x, i.y, n, i.d⟩) i.n = 2 := by
  have w1 : (⟨⟨3, fun k => if k = 0 then 1 else if k = 1 then 2 else 3, fun _ => 0⟩, 1, 0, 1, [0], []⟩ :
      Tensor ℚ).WF := ⟨by decide, by decide, by decide, by decide, by decide, by decide, by decide⟩
  have w2 : (⟨⟨2, fun k => if k = 0 then 2 else 3, fun _ => 1⟩, 1, 0, 1, [], []⟩ : Tensor ℚ).WF :=
    Tensor.wf_nomap (by decide)
  refine ⟨_, _, _, _, ⟨fun _ => 0, fun _ => 0, fun _ => 0, fun _ => 0⟩, w1, w2, rfl, rfl, ?_, ?_, ?_⟩
  · unfold Tensor.InBox; decide
  · show ((0 : ℚ) + (0 + 0) * (((3 : ℕ) : ℚ) / ((2 : ℕ) : ℚ))) + 1 * (((3 : ℕ) : ℚ) / ((3 : ℕ) : ℚ)) = 1
    norm_num
  · have h0 : ∀ i, (⟨⟨3, fun k => if k = 0 then 1 else if k = 1 then 2 else 3, fun _ => 0⟩, 1, 0, 1, [0], []⟩ :
        Tensor ℚ).dense i = 0 := by
      intro i
      unfold Tensor.dense
      split_ifs <;> rfl
    have h1 : ∀ i, (⟨⟨2, fun k => if k = 0 then 2 else 3, fun _ => 1⟩, 1, 0, 1, [], []⟩ : Tensor ℚ).dense i = 1 := by
      intro i
      unfold Tensor.dense
      rw [if_pos ⟨fun k hk => absurd hk (Nat.not_lt_zero k), fun k hk => absurd hk (Nat.not_lt_zero k)⟩]
      rfl
    simp only [h0, h1]
    show ∑ v ∈ Finset.range 2, (0 + 1 : ℚ) = 2
    rw [Finset.sum_range_succ, Finset.sum_range_succ, Finset.sum_range_zero]
    norm_num

/-- **C58.** A list of value axes is ignored unless it is as long as the number of value axes: with `sum_dim` set,
`g.sum(l)` of a GenericTensor without `dim` axes returns a GenericTensor with all `n` value axes. -/
theorem C58_sum_list_keeps_axes {g : Generic α} {l : List Nat} (hl : l.length ≠ g.n) {r : Num α}
    (h : g.sum (.axes l) true = .ok r) : ∃ g' : Generic α, r = .generic g' ∧ g'.n = g.n := by
  unfold Generic.sum at h
  have e : (l.length == g.n) = false := by simpa using hl
  simp only [Bool.not_true, Bool.and_false, Bool.false_eq_true, if_false, e] at h
  split at h
  · cases h
  · split at h
    · cases h
    · cases h
      exact ⟨_, rfl, rfl⟩

/-- **C58.** `g.sum(0, False)` returns `g` unchanged: the integer 0 is taken for `False`. -/
theorem C58_sum_axis_zero (g : Generic α) : g.sumInt 0 false = .ok (.generic g) := by
  unfold Generic.sumInt
  exact if_pos ⟨rfl, rfl⟩

/-- A diagonal Tensor with a `dim` axis and a Tensor that broadcasts it: their sum meets the hypotheses of
`C58_sum_all_partial` and of `C58_sum_dim`. -/
example : ∃ (t o : Tensor ℚ) (g : Generic ℚ), t.binTensor o .add = .ok (.generic g) ∧ g.Regular ∧
    g.elements ≠ [] ∧ g.SizesFit ∧ g.DiagFits ∧ g.size 0 = 2 ∧ g.size 1 = 3 ∧
    o.values.shape 1 = 1 ∧ o.values.shape 2 = 1 := by
  have w1 : (⟨⟨3, fun k => if k = 0 then 1 else if k = 1 then 2 else 3, fun _ => 5⟩, 1, 0, 1, [0], []⟩ :
      Tensor ℚ).WF := ⟨by decide, by decide, by decide, by decide, by decide, by decide, by decide⟩
  have w2 : (⟨⟨3, fun k => if k = 0 then 2 else 1, fun _ => 7⟩, 1, 0, 1, [], []⟩ : Tensor ℚ).WF :=
    Tensor.wf_nomap (by decide)
  refine ⟨⟨⟨3, fun k => if k = 0 then 1 else if k = 1 then 2 else 3, fun _ => 5⟩, 1, 0, 1, [0], []⟩,
    ⟨⟨3, fun k => if k = 0 then 2 else 1, fun _ => 7⟩, 1, 0, 1, [], []⟩, _, rfl, ?_, List.cons_ne_nil _ _, ?_, ?_,
    rfl, rfl, rfl, rfl⟩
  · intro e he
    rcases List.mem_cons.1 he with rfl | he
    · exact ⟨_, rfl, w1, by unfold Tensor.MapsInjective; decide, Or.inr rfl, Or.inl rfl, rfl, rfl⟩
    · rw [List.mem_singleton.1 he]
      exact ⟨_, rfl, w2, by unfold Tensor.MapsInjective; decide, Or.inr rfl, Or.inl rfl, rfl, rfl⟩
  · intro t o ht ho
    rcases List.mem_cons.1 ht with e | ht
    · cases e
      rcases List.mem_cons.1 ho with e | ho
      · cases e; decide
      · cases List.mem_singleton.1 ho; decide
    · cases List.mem_singleton.1 ht
      rcases List.mem_cons.1 ho with e | ho
      · cases e; decide
      · cases List.mem_singleton.1 ho; decide
  · intro t o ht ho
    have hx : ∀ k, 0 ≤ t.xMap.getD k (-1) → t.fullShape k ≠ 1 := by
      intro k h0
      rcases List.mem_cons.1 ht with e | ht
      · cases e
        have : k < 1 := lt_of_getD_nonneg h0
        obtain rfl : k = 0 := by omega
        decide
      · cases List.mem_singleton.1 ht
        exact absurd (lt_of_getD_nonneg h0) (Nat.not_lt_zero k)
    have hy : ∀ k, ¬ 0 ≤ t.yMap.getD k (-1) := by
      intro k h0
      rcases List.mem_cons.1 ht with e | ht
      · cases e; exact absurd (lt_of_getD_nonneg h0) (Nat.not_lt_zero k)
      · cases List.mem_singleton.1 ht; exact absurd (lt_of_getD_nonneg h0) (Nat.not_lt_zero k)
    exact ⟨fun k h0 h1 => absurd h1 (hx k h0), fun k h0 => absurd h0 (hy k)⟩

end Verif.Tens
