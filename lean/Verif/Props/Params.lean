import Verif.Lemmas.Params

/-!
# Properties C01, C03, C04, C05, C06: parameters, flat layout, standard errors, add_param
-/

namespace Verif.Params

variable {α : Type}

/-- A concrete parameter list used to show that hypotheses are satisfiable: a 2x2 parameter with
its second and third entries fixed, a fully fixed scalar and a fully free vector. -/
def exParams : List (Param Int) :=
  [⟨[2, 2], [1, 2, 3, 4], [false, true, true, false]⟩, ⟨[], [7], [true]⟩,
   ⟨[3], [5, 6, 8], [false, false, false]⟩]

theorem exParams_wf : ∀ p ∈ exParams, p.WF := by
  intro p hp
  simp [exParams] at hp
  rcases hp with rfl | rfl | rfl <;> simp [Param.WF]

/-! ## C01 -/

/-- C01, first half: flattening the free entries and rebuilding gives back the same parameters. -/
theorem C01_rebuild_flatten (params : List (Param α)) (hne : params ≠ [])
    (hwf : ∀ p ∈ params, p.WF) :
    (do let flat ← flatParams params; reshapeParams params flat) = .ok params := by
  have hne1 : (params.map Param.compressed).isEmpty = false := by simpa using hne
  have hne2 : (params.map (fun p => sel p.mask p.values)).isEmpty = false := by simpa using hne
  simp only [flatParams, npConcatenate, reshapeParams, hne1, hne2, reshapeArray, bind, Except.bind,
    Bool.false_eq_true, if_false]
  rw [reshapeArrayFrom_array _ _ _ _ _ hwf (by rw [flatten_length _ hwf]; omega)
    (by rw [fixed_length _ hwf]; omega)]
  simp only [List.drop_zero]
  rw [place_self _ hwf]

/-- C01, second half: rebuilding from any flat vector of the right length succeeds, and flattening
the result gives back that vector; shapes and masks are those of `params`, the fixed entries keep
their values. -/
theorem C01_flatten_rebuild (params : List (Param α)) (hne : params ≠ [])
    (hwf : ∀ p ∈ params, p.WF) (flat : List α) (hlen : flat.length = totalFree params) :
    ∃ rs, reshapeParams params flat = .ok rs ∧ flatParams rs = .ok flat ∧ SameLayout rs params ∧
      (∀ p ∈ rs, p.WF) ∧ ∀ i j, isFixed params i j → entry rs i j = entry params i j := by
  have hne2 : (params.map (fun p => sel p.mask p.values)).isEmpty = false := by simpa using hne
  refine ⟨place params flat (params.map (fun p => sel p.mask p.values)).flatten, ?_, ?_,
    place_layout _ _ _, ?_, ?_⟩
  · simp only [npConcatenate, reshapeParams, hne2, reshapeArray, bind, Except.bind,
      Bool.false_eq_true, if_false]
    rw [reshapeArrayFrom_array _ _ _ _ _ hwf (by omega) (by rw [fixed_length _ hwf]; omega)]
    simp
  · simp only [flatParams, npConcatenate]
    rw [if_neg]
    · rw [place_free _ _ _ hlen (fixed_length _ hwf)]
    · cases params with
      | nil => exact absurd rfl hne
      | cons p ps => simp [place]
  · exact place_wf _ _ _ hwf (by omega) (by rw [fixed_length _ hwf]; omega)
  · intro i j h
    exact place_entry_fixed_self _ _ hwf (by omega) i j h

/-- C01, error branch: a flat vector that is too short is rejected, never silently padded. -/
theorem C01_short_vector_rejected (params : List (Param α)) (hwf : ∀ p ∈ params, p.WF)
    (flat : List α) (hlen : flat.length < totalFree params) :
    ∃ e, reshapeParams params flat = .error e := by
  cases h : reshapeParams params flat with
  | error e => exact ⟨e, rfl⟩
  | ok rs =>
    exfalso
    simp only [reshapeParams, npConcatenate, bind, Except.bind] at h
    split at h
    · cases h
    · rename_i hok
      have := reshapeArrayFrom_ok_length _ _ 0 0 params rs hwf (by omega) h
      omega

example : exParams ≠ [] ∧ (∀ p ∈ exParams, p.WF) ∧
    ([10, 20, 30, 40, 50] : List Int).length = totalFree exParams :=
  ⟨by decide, exParams_wf, by decide⟩

example : reshapeParams exParams [10, 20, 30, 40, 50] =
    .ok [⟨[2, 2], [10, 2, 3, 20], [false, true, true, false]⟩, ⟨[], [7], [true]⟩,
      ⟨[3], [30, 40, 50], [false, false, false]⟩] := by rfl

/-! ## C03 -/

/-- C03: an array of free-parameter quantities is laid out so that each free entry receives the flat
value whose index is the number of free entries before it (row-major, parameters in order), and each
fixed entry receives the fill value. -/
theorem C03_layout (params : List (Param α)) (hwf : ∀ p ∈ params, p.WF) (flat : List α) (fill : α)
    (hlen : totalFree params ≤ flat.length) :
    ∃ rs, reshapeArray params flat (.scalar fill) = .ok rs ∧ SameLayout rs params ∧
      (∀ i j, isFree params i j → entry rs i j = flat[freeRank params i j]?) ∧
      (∀ i j, isFixed params i j → entry rs i j = some fill) := by
  refine ⟨place params flat (List.replicate (totalFixed params) fill), ?_, place_layout _ _ _,
    ?_, ?_⟩
  · unfold reshapeArray
    rw [reshapeArrayFrom_scalar _ _ _ _ _ hwf (by omega)]
    simp
  · intro i j h
    exact place_entry_free _ _ _ hlen (by simp) i j h
  · intro i j h
    exact place_entry_fixed_const _ _ _ hlen i j h

/-- The rank of a free entry is a valid index of the flat vector, and ranks of distinct free entries
differ, so the layout of C03 loses nothing. -/
theorem freeRank_lt (params : List (Param α)) (i j : Nat) (h : isFree params i j) :
    freeRank params i j < totalFree params := by
  obtain ⟨p, hp, hj⟩ := h
  induction params generalizing i with
  | nil => simp at hp
  | cons q ps ih =>
    cases i with
    | zero =>
      simp only [List.getElem?_cons_zero, Option.some.injEq] at hp
      subst hp
      have hlt : j < q.mask.length := (List.getElem?_eq_some_iff.mp hj).1
      have hj' : q.mask[j] = false := (List.getElem?_eq_some_iff.mp hj).2
      have : (q.mask.take j).count false < q.mask.count false := by
        conv => rhs; rw [← List.take_append_drop j q.mask]
        rw [List.count_append, List.drop_eq_getElem_cons hlt, hj']; simp
      simp [freeRank, totalFree]; omega
    | succ i =>
      simp only [List.getElem?_cons_succ] at hp
      have := ih i hp
      simp only [freeRank, totalFree, List.take_succ_cons, List.map_cons, List.sum_cons,
        List.getElem?_cons_succ] at this ⊢
      omega

theorem count_take_lt (m : List Bool) (j j' : Nat) (hjj : j < j') (hj : m[j]? = some false) :
    (m.take j).count false < (m.take j').count false := by
  have hlt : j < m.length := (List.getElem?_eq_some_iff.mp hj).1
  have hjv : m[j] = false := (List.getElem?_eq_some_iff.mp hj).2
  have e : m.take j' = m.take j ++ (m.drop j).take (j' - j) := by
    rw [← List.take_add]; congr 1; omega
  obtain ⟨d, hd⟩ : ∃ d, j' - j = d + 1 := ⟨j' - j - 1, by omega⟩
  rw [e, List.count_append, List.drop_eq_getElem_cons hlt, hjv, hd]
  simp

theorem freeRank_injective (params : List (Param α)) (i j i' j' : Nat) (h : isFree params i j)
    (h' : isFree params i' j') (heq : freeRank params i j = freeRank params i' j') :
    i = i' ∧ j = j' := by
  -- a free entry of an earlier parameter has a smaller rank
  have aux : ∀ (ps : List (Param α)) (i i' j j' : Nat), i < i' → isFree ps i j →
      i' < ps.length → freeRank ps i j < totalFree (ps.take i') := by
    intro ps
    induction ps with
    | nil => intro i i' j j' _ _ h; simp at h
    | cons q ps ih =>
      intro i i' j j' hlt hf hl
      cases i' with
      | zero => omega
      | succ i' =>
        have hpos : isFree ((q :: ps).take (i' + 1)) i j := by
          obtain ⟨p, hp, hj⟩ := hf
          exact ⟨p, by rw [List.getElem?_take, if_pos hlt]; exact hp, hj⟩
        have := freeRank_lt _ i j hpos
        have e : freeRank ((q :: ps).take (i' + 1)) i j = freeRank (q :: ps) i j := by
          unfold freeRank
          rw [List.take_take, List.getElem?_take, if_pos hlt, Nat.min_eq_left (by omega)]
        omega
  obtain ⟨p, hp, hj⟩ := h
  obtain ⟨p', hp', hj'⟩ := h'
  have hi : i < params.length := (List.getElem?_eq_some_iff.mp hp).1
  have hi' : i' < params.length := (List.getElem?_eq_some_iff.mp hp').1
  rcases Nat.lt_trichotomy i i' with hlt | he | hgt
  · have := aux params i i' j j' hlt ⟨p, hp, hj⟩ hi'
    rw [heq] at this; unfold freeRank at this; omega
  · subst he
    refine ⟨rfl, ?_⟩
    rw [hp] at hp'; cases hp'
    unfold freeRank at heq
    rw [hp] at heq
    simp only [Option.map_some, Option.getD_some] at heq
    rcases Nat.lt_trichotomy j j' with hlt | he | hgt
    · have := count_take_lt p.mask j j' hlt hj; omega
    · exact he
    · have := count_take_lt p.mask j' j hgt hj'; omega
  · have := aux params i' i j' j hgt ⟨p', hp', hj'⟩ hi
    rw [← heq] at this; unfold freeRank at this; omega

example : (∀ p ∈ exParams, p.WF) ∧ totalFree exParams ≤ ([1, 2, 3, 4, 5] : List Int).length ∧
    isFree exParams 2 1 ∧ freeRank exParams 2 1 = 3 ∧ isFixed exParams 0 2 :=
  ⟨exParams_wf, by decide, ⟨_, rfl, rfl⟩, by decide, ⟨_, rfl, rfl⟩⟩

/-! ## C04 -/

/-- C04: for a square flat matrix with one row per free entry plus any number `c` of constraint
rows, `_reshape_matrix` (hence `fisher_matrix` with fill 0 and `error_matrix` with fill NaN)
succeeds; block `(i, j)` holds at entries `(x, y)` the flat matrix entry at the two free ranks, and
the fill value when one of the two entries is fixed.  Only rows/columns `< totalFree` are read. -/
theorem C04_blocks (params : List (Param α)) (matrix : List (List α)) (val : α)
    (c : Nat) (hlen : matrix.length = totalFree params + c)
    (hsq : ∀ r ∈ matrix, r.length = matrix.length) :
    ∃ bs, reshapeMatrix params matrix val = .ok bs ∧ bs.length = params.length ∧
      ∀ i pi j pj, params[i]? = some pi → params[j]? = some pj →
        ∃ b, (bs[i]?.bind (·[j]?)) = some b ∧ b.length = pi.mask.length ∧
          (∀ r ∈ b, r.length = pj.mask.length) ∧
          ∀ x y, x < pi.mask.length → y < pj.mask.length →
            (isFree params i x → isFree params j y →
              (b[x]?.bind (·[y]?)) =
                matrix[freeRank params i x]?.bind (·[freeRank params j y]?)) ∧
            (isFixed params i x ∨ isFixed params j y → (b[x]?.bind (·[y]?)) = some val) := by
  have hany : matrix.any (fun r => r.length ≠ matrix.length) = false := by
    rw [List.any_eq_false]
    intro r hr
    simp [hsq r hr]
  have hsplit : ∀ (ps : List (Param α)) (i : Nat) (p : Param α), ps[i]? = some p →
      totalFree (ps.take (i + 1)) = totalFree (ps.take i) + p.mask.count false ∧
      totalFree (ps.take (i + 1)) ≤ totalFree ps := by
    intro ps
    induction ps with
    | nil => intro i p h; simp at h
    | cons q ps ih =>
      intro i p h
      cases i with
      | zero =>
        simp only [List.getElem?_cons_zero, Option.some.injEq] at h
        subst h
        simp [totalFree]
      | succ i =>
        simp only [List.getElem?_cons_succ] at h
        have := ih i p h
        simp only [totalFree, List.take_succ_cons, List.map_cons, List.sum_cons] at this ⊢
        omega
  -- one block
  have blk : ∀ i pi j pj, params[i]? = some pi → params[j]? = some pj →
      ∃ b, reshapeBlock matrix ((offsets 0 params).getD i 0) ((offsets 0 params).getD (i + 1) 0)
        ((offsets 0 params).getD j 0) ((offsets 0 params).getD (j + 1) 0) pi.mask pj.mask val
          = .ok b ∧ b.length = pi.mask.length ∧
          (∀ r ∈ b, r.length = pj.mask.length) ∧
          ∀ x y, x < pi.mask.length → y < pj.mask.length →
            (isFree params i x → isFree params j y →
              (b[x]?.bind (·[y]?)) =
                matrix[freeRank params i x]?.bind (·[freeRank params j y]?)) ∧
            (isFixed params i x ∨ isFixed params j y → (b[x]?.bind (·[y]?)) = some val) := by
    intro i pi j pj hpi hpj
    have hil : i < params.length := (List.getElem?_eq_some_iff.mp hpi).1
    have hjl : j < params.length := (List.getElem?_eq_some_iff.mp hpj).1
    rw [offsets_getD _ _ _ (by omega), offsets_getD _ _ _ (by omega),
      offsets_getD _ _ _ (by omega), offsets_getD _ _ _ (by omega)]
    have hsi := hsplit params i pi hpi
    have hsj := hsplit params j pj hpj
    rw [hsi.1, hsj.1]
    obtain ⟨b, hb, hb1, hb2, hb3⟩ := reshapeBlock_ok matrix (totalFree (params.take i))
      (totalFree (params.take j)) pi.mask pj.mask val matrix.length rfl hsq (by omega) (by omega)
    refine ⟨b, ?_, hb1, hb2, ?_⟩
    · simpa only [Nat.zero_add] using hb
    · intro x y hx hy
      constructor
      · rintro ⟨p, hp, hpx⟩ ⟨q, hq, hqy⟩
        rw [hpi] at hp; cases hp
        rw [hpj] at hq; cases hq
        rw [hb3, hpx, hqy]
        simp [freeRank, hpi, hpj]
      · intro h
        rw [hb3]
        rw [List.getElem?_eq_getElem hx, List.getElem?_eq_getElem hy]
        simp only [Option.bind_some]
        rw [if_neg]
        rintro ⟨h1, h2⟩
        rcases h with ⟨p, hp, hpx⟩ | ⟨p, hp, hpx⟩
        · rw [hpi] at hp; cases hp
          rw [List.getElem?_eq_getElem hx, h1] at hpx; simp at hpx
        · rw [hpj] at hp; cases hp
          rw [List.getElem?_eq_getElem hy, h2] at hpx; simp at hpx
  -- choose the blocks
  let F : Nat → Param α → Nat → Param α → List (List α) := fun i pi j pj =>
    match reshapeBlock matrix ((offsets 0 params).getD i 0) ((offsets 0 params).getD (i + 1) 0)
        ((offsets 0 params).getD j 0) ((offsets 0 params).getD (j + 1) 0) pi.mask pj.mask val with
    | .ok b => b
    | .error _ => []
  refine ⟨params.zipIdx.map (fun (pi, i) => params.zipIdx.map (fun (pj, j) => F i pi j pj)),
    ?_, by simp, ?_⟩
  · unfold reshapeMatrix
    rw [hany]
    simp only [Bool.false_eq_true, if_false]
    apply mapM_ok_of
    rintro ⟨pi, i⟩ hi
    apply mapM_ok_of
    rintro ⟨pj, j⟩ hj
    have hpi := List.mem_zipIdx_iff_getElem?.mp hi
    have hpj := List.mem_zipIdx_iff_getElem?.mp hj
    obtain ⟨b, hb, -⟩ := blk i pi j pj hpi hpj
    simp only [F, hb]
  · intro i pi j pj hpi hpj
    obtain ⟨b, hb, hrest⟩ := blk i pi j pj hpi hpj
    refine ⟨b, ?_, hrest⟩
    have hF : F i pi j pj = b := by simp only [F, hb]
    simp [List.getElem?_map, List.getElem?_zipIdx, hpi, hpj, hF]

example : ∃ m : List (List Int), m.length = totalFree exParams + 1 ∧
    ∀ r ∈ m, r.length = m.length :=
  ⟨List.replicate 6 (List.replicate 6 0), by decide, by decide⟩

/-! ## C05 -/

/-- C05 is false of the code: without constraints, `std_error()` raises `TypeError` for every model,
whatever the Hessian (unless inverting it already raises). -/
theorem C05_std_error_counterexample (params : List (Param α)) (d : List α) (sqrt : α → α)
    (nan : α) : stdError params 0 (.ok d) sqrt nan = .error .typeError := rfl

/-- C05, the part that holds: with at least one constraint, `std_error()` returns the square root
of the diagonal of minus the inverse Hessian at each free entry and NaN at each fixed entry.
Missing: the case of no constraint, where the code fails (`C05_std_error_counterexample`). -/
theorem C05_std_error_partial (params : List (Param α)) (hwf : ∀ p ∈ params, p.WF) (c : Nat)
    (hc : 1 ≤ c) (d : List α) (hd : d.length = totalFree params + c) (sqrt : α → α) (nan : α) :
    ∃ rs, stdError params c (.ok d) sqrt nan = .ok rs ∧ SameLayout rs params ∧
      (∀ i j, isFree params i j → entry rs i j = d[freeRank params i j]?.map sqrt) ∧
      (∀ i j, isFixed params i j → entry rs i j = some nan) := by
  have hlen : totalFree params ≤ ((d.take (d.length - c)).map sqrt).length := by
    simp; omega
  obtain ⟨rs, h1, h2, h3, h4⟩ := C03_layout params hwf ((d.take (d.length - c)).map sqrt) nan hlen
  refine ⟨rs, ?_, h2, ?_, h4⟩
  · simp only [stdError, bind, Except.bind]
    rw [if_neg (by omega)]
    exact h1
  · intro i j h
    rw [h3 i j h, List.getElem?_map, List.getElem?_take, if_pos]
    have := freeRank_lt params i j h
    omega

example : ([1, 2, 3, 4, 5, 9] : List Int).length = totalFree exParams + 1 := by decide

/-! ## C06 -/

/-- Calls on the parameter list, with the forms of arguments for which the code behaves as
documented: values of any form without `fixed`, or both given as arrays. -/
inductive ParamOp (α : Type) where
  | addFree (values : Arg α)
  | addMasked (shape : List Nat) (values : List α) (mshape : List Nat) (mask : List Bool)
  | reset

/-- The code's effect of a call (exceptions are raised to the caller; we record the state). -/
def ParamOp.run (depth : Nat) (st : ParamsAttr α) : ParamOp α → ParamsAttr α
  | .addFree v => (addParam depth st v none).2
  | .addMasked s v ms m => (addParam depth st (.array s v) (some (.array ms m))).2
  | .reset => resetParams st

/-- Specification: a successful call appends, a rejected one changes nothing, `reset` empties. -/
def ParamOp.spec (ps : List (Param α)) : ParamOp α → List (Param α)
  | .addFree v => ps ++ [⟨v.data.1, v.data.2, List.replicate v.data.2.length false⟩]
  | .addMasked s v ms m => if ms = s then ps ++ [⟨s, v, m⟩] else ps
  | .reset => []

/-- C06, success: the new parameter is appended after those already present. -/
theorem C06_append_partial (depth : Nat) (st : ParamsAttr α) (values : Arg α) (s : List Nat)
    (vs : List α) (m : List Bool) :
    addParam (depth + 2) st values none =
      (.ok (), some (st.getD [] ++
        [⟨values.data.1, values.data.2, List.replicate values.data.2.length false⟩])) ∧
    addParam (depth + 2) st (.array s vs) (some (.array s m)) =
      (.ok (), some (st.getD [] ++ [⟨s, vs, m⟩])) := by
  constructor
  · cases st <;> simp [addParam, mkParam]
  · cases st <;>
      simp [addParam, mkParam, Arg.shapeAttr, Arg.data, bind, Except.bind, pure, Except.pure]

/-- C06, rejection: a mask array of the wrong shape raises `AssertionError` and leaves the
parameters unchanged. -/
theorem C06_rejected_unchanged_partial (depth : Nat) (ps : List (Param α)) (s ms : List Nat)
    (vs : List α) (m : List Bool) (h : ms ≠ s) :
    addParam (depth + 1) (some ps) (.array s vs) (some (.array ms m)) =
      (.error .assertion, some ps) := by
  simp [addParam, mkParam, Arg.shapeAttr, bind, Except.bind, h, throw, throwThe,
    MonadExceptOf.throw]

/-- C06 over histories: after any sequence of calls (of the documented array forms) the parameters
are exactly those the specification gives.  Missing: list-valued arguments, see the
counterexample. -/
theorem C06_history_partial (depth : Nat) (ops : List (ParamOp α)) (st : ParamsAttr α) :
    (ops.foldl (ParamOp.run (depth + 2)) st).getD [] = ops.foldl ParamOp.spec (st.getD []) := by
  induction ops generalizing st with
  | nil => rfl
  | cons op ops ih =>
    rw [List.foldl_cons, List.foldl_cons, ih]
    congr 1
    cases op with
    | addFree v =>
      simp only [ParamOp.run, ParamOp.spec, (C06_append_partial depth st v [] [] []).1]
      rfl
    | addMasked s v ms m =>
      simp only [ParamOp.run, ParamOp.spec]
      by_cases h : ms = s
      · subst h
        rw [(C06_append_partial depth st (.array ms v) ms v m).2, if_pos rfl]; rfl
      · rw [if_neg h]
        cases st with
        | none =>
          rw [addParam, C06_rejected_unchanged_partial depth [] s ms v m h]; rfl
        | some ps =>
          rw [C06_rejected_unchanged_partial (depth + 1) ps s ms v m h]
    | reset => rfl

/-- C06 is false of the code for list arguments: whatever parameters were present, passing `fixed`
as a list erases all of them and the call dies of unbounded recursion, at every recursion limit. -/
theorem C06_list_fixed_counterexample (depth : Nat) (ps : List (Param α)) (values : Arg α)
    (s : List Nat) (m : List Bool) :
    addParam (depth + 1) (some ps) values (some (.plain s m)) = (.error .recursion, some []) := by
  induction depth generalizing ps with
  | zero => simp [addParam, mkParam, Arg.shapeAttr, bind, Except.bind]
  | succ d ih =>
    rw [addParam]
    simp only [mkParam, Arg.shapeAttr, bind, Except.bind]
    exact ih []

/-- The same for `values` given as a list together with a mask array. -/
theorem C06_list_values_counterexample (depth : Nat) (ps : List (Param α)) (s ms : List Nat)
    (vs : List α) (m : List Bool) :
    addParam (depth + 1) (some ps) (.plain s vs) (some (.array ms m)) =
      (.error .recursion, some []) := by
  induction depth generalizing ps with
  | zero => simp [addParam, mkParam, Arg.shapeAttr, bind, Except.bind]
  | succ d ih =>
    rw [addParam]
    simp only [mkParam, Arg.shapeAttr, bind, Except.bind]
    exact ih []

end Verif.Params
