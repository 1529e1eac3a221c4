import Verif.Spec.Session
import Verif.Props.Params
import Verif.Props.FitFull
import Verif.Props.TwoFactor

/-!
# C74: a session means what its calls say
-/

namespace Verif.Tens
open Verif.Params

set_option linter.unusedSectionVars false

theorem dim_eq (k : Kind) : k.dim = k.axes := by cases k <;> rfl

/-- The object after a sequence of calls. -/
noncomputable def Session.run (depth : Nat) (k : Kind) (ops : List SessionOp) : Session := ops.foldl (Session.step depth) (Session.new k)

theorem run_snoc (depth : Nat) (k : Kind) (ops : List SessionOp) (op : SessionOp) :
    Session.run depth k (ops ++ [op]) = (Session.run depth k ops).step depth op := by
  simp [Session.run]

/-- The object with the data of the keyword arguments. -/
def Session.withData (s : Session) (kw : List (Name × NDArray ℝ)) : Session :=
  { s with data := fun k => match (kw.filterMap fun x => if x.1 = k then some x.2 else none).getLast? with
      | some v => some ⟨v, 0, 0, s.kind.dim, [], []⟩
      | none => s.data k }

theorem setData_ok : ∀ {kw : List (Name × NDArray ℝ)} {s : Session}, (∀ x ∈ kw, s.kind.dim ≤ x.2.ndim) →
    s.setData kw = (.ok (), s.withData kw)
  | [], s, _ => rfl
  | (k, v) :: kw, s, h => by
    have h1 : mkTensor v 0 0 s.kind.dim [] [] = .ok ⟨v, 0, 0, s.kind.dim, [], []⟩ := by
      unfold mkTensor
      have := h (k, v) (List.mem_cons_self ..)
      rw [if_neg (by dsimp only at this; omega)]
    unfold Session.setData
    rw [h1]
    dsimp only
    rw [setData_ok (s := { s with data := Function.update s.data k (some ⟨v, 0, 0, s.kind.dim, [], []⟩) }) fun x hx => h x (List.mem_cons_of_mem _ hx)]
    unfold Session.withData
    dsimp only
    congr 2
    funext k'
    by_cases c : k = k'
    · subst c
      rw [List.filterMap_cons_some (b := v) (by simp)]
      cases hl : (kw.filterMap fun x => if x.1 = k then some x.2 else none) with
      | nil => simp
      | cons a l =>
        rw [List.getLast?_cons_cons, List.getLast?_eq_some_getLast (List.cons_ne_nil a l)]
    · rw [List.filterMap_cons_none (by simp [c])]
      cases (kw.filterMap fun x => if x.1 = k' then some x.2 else none).getLast? with
      | none => simp [Function.update_of_ne (Ne.symm c)]
      | some w => rfl

theorem fit_none {s : Session} {a : FitArgs} (hd : ∀ x ∈ a.kwargs, s.kind.dim ≤ x.2.ndim) (hs : s.params = none) :
    s.fit a = (.error .attribute, s.withData a.kwargs) := by
  unfold Session.fit
  rw [setData_ok hd]
  dsimp only
  rw [show (s.withData a.kwargs).params = none from hs]

/-- The result of the fit loop. -/
noncomputable def Session.loop (s : Session) (a : FitArgs) (ps : List (Param ℝ)) : Fit.Result ℝ (List (List ℝ)) :=
  Fit.fit ((s.withData a.kwargs).problem.env a.pinvh a.tol) ⟨ps, s.flatHess, s.converged⟩ a.maxSteps a.verbose a.method

theorem fit_some {s : Session} {a : FitArgs} (hd : ∀ x ∈ a.kwargs, s.kind.dim ≤ x.2.ndim) {ps : List (Param ℝ)} (hs : s.params = some ps) :
    s.fit a = ((s.loop a ps).outcome, { s.withData a.kwargs with params := some (s.loop a ps).obj.params, flatHess := (s.loop a ps).obj.flatHess, converged := (s.loop a ps).obj.converged }) := by
  unfold Session.fit
  rw [setData_ok hd]
  dsimp only
  rw [show (s.withData a.kwargs).params = some ps from hs]
  rfl

theorem keeps_append {ps qs : List (Param ℝ)} {p : Param ℝ} (h : Fit.Keeps ps qs) (hp : p.WF) : Fit.Keeps (ps ++ [p]) (qs ++ [p]) := by
  have hl : qs.length = ps.length := by
    have := congrArg List.length h.layout
    simpa using this
  refine ⟨?_, fun i j hf => ?_, fun q hq => ?_⟩
  · have := h.layout
    unfold SameLayout at this ⊢
    rw [List.map_append, List.map_append, this]
  · obtain ⟨q, q1, q2⟩ := hf
    unfold entry
    by_cases c : i < ps.length
    · have := h.fixed i j ⟨q, by rwa [List.getElem?_append_left c] at q1, q2⟩
      unfold entry at this
      rw [List.getElem?_append_left c, List.getElem?_append_left (by omega), this]
    · rw [List.getElem?_append_right (by omega), List.getElem?_append_right (by omega), hl]
  · rcases List.mem_append.1 hq with hq | hq
    · exact h.wf q hq
    · rw [List.mem_singleton] at hq
      subst hq
      exact hp

/-- **C74.** After any sequence of calls the object has: the model that was assigned last; the constraints and regularisations in the order in which they were added, an
integer `i` meaning `[i]`; for each name the data given last to `fit`, whether that `fit` succeeded or not; parameters with the shapes and masks with which they were added
since the last reset, the fixed entries unchanged. -/
theorem C74_history (depth : Nat) (k : Kind) (ops : List SessionOp) (hops : ∀ op ∈ ops, op.Proper k.axes) :
    (Session.run (depth + 2) k ops).kind = k ∧
    (Session.run (depth + 2) k ops).model = lastModel ops ∧
    (Session.run (depth + 2) k ops).constraint = constraintsOf ops ∧
    (Session.run (depth + 2) k ops).reg = regularizationsOf ops ∧
    (∀ n, (Session.run (depth + 2) k ops).data n = (lastData ops n).map fun v => ⟨v, 0, 0, k.axes, [], []⟩) ∧
    SameLayout ((Session.run (depth + 2) k ops).params.getD []) (initialParams ops) ∧
    (∀ i j, isFixed (initialParams ops) i j → entry ((Session.run (depth + 2) k ops).params.getD []) i j = entry (initialParams ops) i j) ∧
    ∀ p ∈ (Session.run (depth + 2) k ops).params.getD [], p.WF := by
  suffices h : (Session.run (depth + 2) k ops).kind = k ∧
      (Session.run (depth + 2) k ops).model = lastModel ops ∧
      (Session.run (depth + 2) k ops).constraint = constraintsOf ops ∧
      (Session.run (depth + 2) k ops).reg = regularizationsOf ops ∧
      (∀ n, (Session.run (depth + 2) k ops).data n = (lastData ops n).map fun v => ⟨v, 0, 0, k.axes, [], []⟩) ∧
      Fit.Keeps (initialParams ops) ((Session.run (depth + 2) k ops).params.getD []) by
    obtain ⟨h1, h2, h3, h4, h5, h6⟩ := h
    exact ⟨h1, h2, h3, h4, h5, h6.layout, h6.fixed, h6.wf⟩
  induction ops using List.reverseRecOn with
  | nil =>
    refine ⟨rfl, rfl, rfl, rfl, fun n => rfl, ⟨rfl, ?_, ?_⟩⟩
    · rintro i j ⟨p, hp, -⟩
      simp [initialParams] at hp
    · simp [Session.run, Session.new]
  | append_singleton ops op ih =>
    obtain ⟨h1, h2, h3, h4, h5, h6⟩ := ih fun o ho => hops o (List.mem_append_left _ ho)
    have hop := hops op (by simp)
    rw [run_snoc]
    revert h1 h2 h3 h4 h5 h6
    generalize Session.run (depth + 2) k ops = s
    intro h1 h2 h3 h4 h5 h6
    cases op with
    | setModel f =>
      refine ⟨h1, ?_, ?_, ?_, ?_, ?_⟩
      · simp [lastModel, Session.step]
      · simpa [constraintsOf, Session.step] using h3
      · simpa [regularizationsOf, Session.step] using h4
      · simpa [lastData, arraysOf, Session.step] using h5
      · simpa [initialParams, Session.step] using h6
    | addFree v =>
      refine ⟨h1, ?_, ?_, ?_, ?_, ?_⟩
      · simpa [lastModel, Session.step] using h2
      · simpa [constraintsOf, Session.step] using h3
      · simpa [regularizationsOf, Session.step] using h4
      · simpa [lastData, arraysOf, Session.step] using h5
      · have : initialParams (ops ++ [.addFree v]) = initialParams ops ++ [⟨v.data.1, v.data.2, List.replicate v.data.2.length false⟩] := by simp [initialParams]
        rw [this]
        show Fit.Keeps _ ((addParam (depth + 2) s.params v none).2.getD [])
        rw [(C06_append_partial depth s.params v [] [] []).1]
        have hop' : v.data.2.length = v.data.1.prod := hop
        exact keeps_append h6 ⟨hop', by simpa using hop'⟩
    | addMasked sh v ms m =>
      refine ⟨h1, ?_, ?_, ?_, ?_, ?_⟩
      · simpa [lastModel, Session.step] using h2
      · simpa [constraintsOf, Session.step] using h3
      · simpa [regularizationsOf, Session.step] using h4
      · simpa [lastData, arraysOf, Session.step] using h5
      · have : initialParams (ops ++ [.addMasked sh v ms m]) = if ms = sh then initialParams ops ++ [⟨sh, v, m⟩] else initialParams ops := by simp [initialParams]
        rw [this]
        show Fit.Keeps _ ((addParam (depth + 2) s.params (.array sh v) (some (.array ms m))).2.getD [])
        split_ifs with c
        · subst c
          rw [(C06_append_partial depth s.params (.array ms v) ms v m).2]
          exact keeps_append h6 ⟨hop.1, hop.2⟩
        · cases hs : s.params with
          | none =>
            rw [hs] at h6
            show Fit.Keeps _ ((addParam (depth + 1) (some []) (.array sh v) (some (.array ms m))).2.getD [])
            rw [C06_rejected_unchanged_partial depth [] sh ms v m c]
            exact h6
          | some ps =>
            rw [C06_rejected_unchanged_partial (depth + 1) ps sh ms v m c]
            rw [hs] at h6
            exact h6
    | resetParams =>
      refine ⟨h1, ?_, ?_, ?_, ?_, ?_⟩
      · simpa [lastModel, Session.step] using h2
      · simpa [constraintsOf, Session.step] using h3
      · simpa [regularizationsOf, Session.step] using h4
      · simpa [lastData, arraysOf, Session.step] using h5
      · have : initialParams (ops ++ [.resetParams]) = [] := by simp [initialParams]
        rw [this]
        refine ⟨rfl, ?_, ?_⟩
        · rintro i j ⟨p, hp, -⟩
          simp at hp
        · simp [Session.step, Params.resetParams]
    | addConstraint pm g =>
      refine ⟨h1, ?_, ?_, ?_, ?_, ?_⟩
      · simpa [lastModel, Session.step, Session.addConstraint] using h2
      · cases pm <;> simp [constraintsOf, Session.step, Session.addConstraint, h3, PMap.toList]
      · simpa [regularizationsOf, Session.step, Session.addConstraint] using h4
      · simpa [lastData, arraysOf, Session.step, Session.addConstraint] using h5
      · simpa [initialParams, Session.step, Session.addConstraint] using h6
    | addRegularization pm h =>
      refine ⟨h1, ?_, ?_, ?_, ?_, ?_⟩
      · simpa [lastModel, Session.step, Session.addRegularization] using h2
      · simpa [constraintsOf, Session.step, Session.addRegularization] using h3
      · cases pm <;> simp [regularizationsOf, Session.step, Session.addRegularization, h4, PMap.toList]
      · simpa [lastData, arraysOf, Session.step, Session.addRegularization] using h5
      · simpa [initialParams, Session.step, Session.addRegularization] using h6
    | fit a =>
      have hd : ∀ x ∈ a.kwargs, s.kind.dim ≤ x.2.ndim := by rw [h1, dim_eq]; exact hop
      have e1 : lastModel (ops ++ [.fit a]) = lastModel ops := by simp [lastModel]
      have e2 : constraintsOf (ops ++ [.fit a]) = constraintsOf ops := by simp [constraintsOf]
      have e3 : regularizationsOf (ops ++ [.fit a]) = regularizationsOf ops := by simp [regularizationsOf]
      have e4 : initialParams (ops ++ [.fit a]) = initialParams ops := by simp [initialParams]
      have e5 : ∀ n, lastData (ops ++ [.fit a]) n = ((a.kwargs.filterMap fun x => if x.1 = n then some x.2 else none).getLast?).or (lastData ops n) := by
        intro n
        simp [lastData, arraysOf, List.getLast?_append]
      rw [e1, e2, e3, e4]
      have hdata : ∀ n, (match (a.kwargs.filterMap fun x => if x.1 = n then some x.2 else none).getLast? with
          | some v => some (⟨v, 0, 0, s.kind.dim, [], []⟩ : Tensor ℝ)
          | none => s.data n) = (lastData (ops ++ [.fit a]) n).map fun v => ⟨v, 0, 0, k.axes, [], []⟩ := by
        intro n
        rw [e5]
        cases (a.kwargs.filterMap fun x => if x.1 = n then some x.2 else none).getLast? with
        | none => simpa using h5 n
        | some v => simp [h1, dim_eq]
      show (s.fit a).2.kind = k ∧ (s.fit a).2.model = _ ∧ (s.fit a).2.constraint = _ ∧ (s.fit a).2.reg = _ ∧ (∀ n, (s.fit a).2.data n = _) ∧
        Fit.Keeps _ ((s.fit a).2.params.getD [])
      cases hs : s.params with
      | none =>
        rw [fit_none hd hs]
        exact ⟨h1, h2, h3, h4, hdata, h6⟩
      | some ps =>
        rw [fit_some hd hs]
        rw [hs] at h6
        have h6' : Fit.Keeps (initialParams ops) ps := h6
        refine ⟨h1, h2, h3, h4, hdata, ?_⟩
        have hc := Fit.C02_fixed_unchanged ((s.withData a.kwargs).problem.env a.pinvh a.tol) ⟨ps, s.flatHess, s.converged⟩ a.maxSteps a.verbose a.method h6'.wf
        exact Fit.Keeps.trans h6' ⟨hc.1, hc.2.1, hc.2.2⟩


theorem problem_congr {s s' : Session} (h1 : s.kind = s'.kind) (h2 : s.model = s'.model) (h3 : s.constraint = s'.constraint) (h4 : s.reg = s'.reg) (h5 : s.data = s'.data) :
    s.problem = s'.problem := by
  unfold Session.problem
  rw [h1, h2, h3, h4, h5]

theorem withData_nil (s : Session) : s.withData [] = s := rfl

theorem lastData_fit (ops : List SessionOp) (a : FitArgs) (n : Name) :
    lastData (ops ++ [.fit a]) n = ((a.kwargs.filterMap fun x => if x.1 = n then some x.2 else none).getLast?).or (lastData ops n) := by
  simp [lastData, arraysOf, List.getLast?_append]

theorem problem_of_run (depth : Nat) (k : Kind) (ops : List SessionOp) (a : FitArgs) (hops : ∀ op ∈ ops, op.Proper k.axes) :
    ((Session.run (depth + 2) k ops).withData a.kwargs).problem = problemOf k (ops ++ [.fit a]) := by
  obtain ⟨h1, h2, h3, h4, h5, -⟩ := C74_history depth k ops hops
  refine problem_congr h1 ?_ ?_ ?_ ?_
  · rw [show lastModel (ops ++ [.fit a]) = lastModel ops by simp [lastModel]]; exact h2
  · rw [show constraintsOf (ops ++ [.fit a]) = constraintsOf ops by simp [constraintsOf]]; exact h3
  · rw [show regularizationsOf (ops ++ [.fit a]) = regularizationsOf ops by simp [regularizationsOf]]; exact h4
  · funext n
    show (match (a.kwargs.filterMap fun x => if x.1 = n then some x.2 else none).getLast? with
          | some v => some (⟨v, 0, 0, (Session.run (depth + 2) k ops).kind.dim, [], []⟩ : Tensor ℝ)
          | none => (Session.run (depth + 2) k ops).data n) = (lastData (ops ++ [.fit a]) n).map fun v => ⟨v, 0, 0, k.axes, [], []⟩
    rw [lastData_fit]
    cases (a.kwargs.filterMap fun x => if x.1 = n then some x.2 else none).getLast? with
    | none => simpa using h5 n
    | some v => simp [h1, dim_eq]

/-- **C74.** `get_params()` after any sequence of calls in which a parameter was added (since the last reset): masked arrays with the shapes and masks as added, the fixed
entries with the values as added. -/
theorem C74_get_params (depth : Nat) (k : Kind) (ops : List SessionOp) (hops : ∀ op ∈ ops, op.Proper k.axes) (hne : initialParams ops ≠ []) :
    ∃ l, (Session.run (depth + 2) k ops).getParams = .ok l ∧ l.length = (initialParams ops).length ∧
      ∀ (i : Nat) p, (initialParams ops)[i]? = some p → ∃ v, l[i]? = some (p.shape, v, p.mask) ∧ v.length = p.shape.prod ∧
        ∀ (j : Nat), p.mask[j]? = some true → v[j]? = p.values[j]? := by
  obtain ⟨-, -, -, -, -, h6, h7, h8⟩ := C74_history depth k ops hops
  revert h6 h7 h8
  unfold Session.getParams
  cases (Session.run (depth + 2) k ops).params with
  | none =>
    intro h6
    have := congrArg List.length h6
    simp at this
    exact absurd this.symm (by simpa using hne)
  | some ps =>
    intro h6 h7 h8
    simp only [Option.getD_some] at h6 h7 h8
    have hlen : ps.length = (initialParams ops).length := by simpa using congrArg List.length h6
    refine ⟨_, rfl, by simpa using hlen, fun i p hp => ?_⟩
    have hi : i < ps.length := by rw [hlen]; exact (List.getElem?_eq_some_iff.1 hp).1
    have hl : (ps.map fun p => (p.shape, p.mask))[i]? = some (p.shape, p.mask) := by rw [h6, List.getElem?_map, hp]; rfl
    rw [List.getElem?_map, List.getElem?_eq_getElem hi, Option.map_some, Option.some.injEq, Prod.mk.injEq] at hl
    refine ⟨ps[i].values, ?_, ?_, fun j hj => ?_⟩
    · rw [List.getElem?_map, List.getElem?_eq_getElem hi, Option.map_some, hl.1, hl.2]
    · rw [(h8 _ (List.getElem_mem hi)).1, hl.1]
    · have := h7 i j ⟨p, hp, hj⟩
      unfold entry at this
      rw [List.getElem?_eq_getElem hi, hp] at this
      exact this

/-- **C74.** A call of `fit` solves the problem that the calls so far, including its own arguments, describe: it does what the fit loop (C02-C14, C68, C71) does with that problem. -/
theorem C74_fit (depth : Nat) (k : Kind) (ops : List SessionOp) (a : FitArgs) (hops : ∀ op ∈ ops, op.Proper k.axes) (ha : (SessionOp.fit a).Proper k.axes) (hne : initialParams ops ≠ []) :
    ∃ o : Fit.Obj ℝ (List (List ℝ)), (Session.run (depth + 2) k ops).params = some o.params ∧ SameLayout o.params (initialParams ops) ∧
      ((Session.run (depth + 2) k ops).fit a).1 = (Fit.fit ((problemOf k (ops ++ [.fit a])).env a.pinvh a.tol) o a.maxSteps a.verbose a.method).outcome ∧
      (Session.run (depth + 2) k (ops ++ [.fit a])).params = some (Fit.fit ((problemOf k (ops ++ [.fit a])).env a.pinvh a.tol) o a.maxSteps a.verbose a.method).obj.params := by
  obtain ⟨h1, -, -, -, -, h6, -⟩ := C74_history depth k ops hops
  have hp := problem_of_run depth k ops a hops
  have hd : ∀ x ∈ a.kwargs, (Session.run (depth + 2) k ops).kind.dim ≤ x.2.ndim := by rw [h1, dim_eq]; exact ha
  rw [run_snoc]
  revert h6 hp hd
  generalize Session.run (depth + 2) k ops = s
  intro h6 hp hd
  cases hs : s.params with
  | none =>
    rw [hs] at h6
    have := congrArg List.length h6
    simp at this
    exact absurd this.symm (by simpa using hne)
  | some ps =>
    rw [hs] at h6
    refine ⟨⟨ps, s.flatHess, s.converged⟩, rfl, h6, ?_, ?_⟩
    · rw [fit_some hd hs, ← hp]
      rfl
    · show (s.fit a).2.params = _
      rw [fit_some hd hs, ← hp]
      rfl

section
variable {pr : Problem} {m : Nat} {L : Theta → ℝ} {gs : List Con} {φs : List Pen} {T : ℝ}

/-- **C74.** Repeated Newton fits, some of which may fail: with the model, terms and data of the calls `ops`, the log-likelihood minus the penalties is never smaller than
before, and the fixed entries have the values with which they were added. -/
theorem C74_refits (depth : Nat) (k : Kind) (ops : List SessionOp) (hops : ∀ op ∈ ops, op.Proper k.axes) {θ0 : Theta} (hini : AtPoint pr m θ0 (initialParams ops))
    (hF : 1 ≤ totalFree (initialParams ops)) (hS : Solver pr m (fun _ => True) (problemOf k ops) L gs φs T) (hT : 0 < T) (fits : List FitArgs)
    (hfits : ∀ a ∈ fits, a.kwargs = [] ∧ a.method = .newton) {θ : Theta} (hθ : AtPoint pr m θ ((Session.run (depth + 2) k ops).params.getD [])) :
    ∃ θ', AtPoint pr m θ' ((Session.run (depth + 2) k (ops ++ fits.map .fit)).params.getD []) ∧ penalised L φs θ ≤ penalised L φs θ' ∧
      ∀ i a, isFixed (initialParams ops) i a → θ' i a = θ0 i a := by
  have hent : ∀ {θ' : Theta} {ps : List (Param ℝ)}, AtPoint pr m θ' ps → SameLayout ps (initialParams ops) →
      (∀ i j, isFixed (initialParams ops) i j → entry ps i j = entry (initialParams ops) i j) → ∀ i a, isFixed (initialParams ops) i a → θ' i a = θ0 i a := by
    intro θ' ps hat hl hf i a hfix
    obtain ⟨p, p1, p2⟩ := id hfix
    have hi : i < m := by rw [← hini.len]; exact (List.getElem?_eq_some_iff.1 p1).1
    obtain ⟨q, q1, q2, q3, q4, q5⟩ := hini.each i hi
    obtain ⟨q', r1, r2, r3, r4, r5⟩ := hat.each i hi
    rw [p1] at q1
    cases q1
    have ha : a < p.shape.prod := by rw [← q3]; exact (List.getElem?_eq_some_iff.1 p2).1
    have ha' : a < q'.shape.prod := by rw [r2, ← q2]; exact ha
    have := hf i a hfix
    unfold entry at this
    rw [r1, p1] at this
    simp only [Option.bind_some] at this
    rw [← r5 a ha', ← q5 a ha, List.getD_eq_getElem?_getD, List.getD_eq_getElem?_getD, this]
  induction fits using List.reverseRecOn with
  | nil =>
    obtain ⟨-, -, -, -, -, h6, h7, -⟩ := C74_history depth k ops hops
    simp only [List.map_nil, List.append_nil]
    exact ⟨θ, hθ, le_refl _, hent hθ h6 h7⟩
  | append_singleton fits a ih =>
    obtain ⟨θ1, a1, a2, a3⟩ := ih fun b hb => hfits b (List.mem_append_left _ hb)
    obtain ⟨k1, k2⟩ := hfits a (by simp)
    have hini' : initialParams (ops ++ fits.map .fit) = initialParams ops := by
      unfold initialParams
      rw [List.foldl_append]
      generalize List.foldl _ [] ops = z
      clear hfits ih a1 a2 a3
      induction fits generalizing z with
      | nil => rfl
      | cons b l ihl => simpa using ihl z
    have hprob : problemOf k ((ops ++ fits.map .fit) ++ [.fit a]) = problemOf k ops := by
      have d : ∀ n, lastData ((ops ++ fits.map .fit) ++ [.fit a]) n = lastData ops n := by
        intro n
        have : arraysOf ((ops ++ fits.map .fit) ++ [.fit a]) = arraysOf ops := by
          have e : ∀ l l', arraysOf (l ++ l') = arraysOf l ++ arraysOf l' := fun l l' => by unfold arraysOf; exact List.flatMap_append ..
          have : arraysOf (fits.map SessionOp.fit) = [] := by
            unfold arraysOf
            rw [List.flatMap_eq_nil_iff]
            intro x hx
            obtain ⟨b, hb, rfl⟩ := List.mem_map.1 hx
            exact (hfits b (List.mem_append_left _ hb)).1
          rw [e, e, this]
          simp [arraysOf, k1]
        unfold lastData
        rw [this]
      refine problem_congr rfl ?_ ?_ ?_ (funext fun n => congrArg (Option.map _) (d n))
      · show lastModel _ = lastModel _
        have e : ∀ l b, lastModel (l ++ [SessionOp.fit b]) = lastModel l := fun l b => by simp [lastModel]
        rw [e]
        clear hfits ih a1 a2 a3 hini' d
        induction fits using List.reverseRecOn with
        | nil => simp
        | append_singleton l b ihl => rw [List.map_append, ← List.append_assoc, List.map_singleton, e]; exact ihl
      · have : constraintsOf (fits.map SessionOp.fit) = [] := by
          unfold constraintsOf
          rw [List.filterMap_eq_nil_iff]; intro x hx; obtain ⟨b, hb, rfl⟩ := List.mem_map.1 hx; rfl
        show constraintsOf _ = constraintsOf _
        have e : ∀ l l', constraintsOf (l ++ l') = constraintsOf l ++ constraintsOf l' := fun l l' => by unfold constraintsOf; exact List.filterMap_append ..
        rw [e, e, this]
        simp [constraintsOf]
      · have : regularizationsOf (fits.map SessionOp.fit) = [] := by
          unfold regularizationsOf
          rw [List.filterMap_eq_nil_iff]; intro x hx; obtain ⟨b, hb, rfl⟩ := List.mem_map.1 hx; rfl
        show regularizationsOf _ = regularizationsOf _
        have e : ∀ l l', regularizationsOf (l ++ l') = regularizationsOf l ++ regularizationsOf l' := fun l l' => by unfold regularizationsOf; exact List.filterMap_append ..
        rw [e, e, this]
        simp [regularizationsOf]
    have hops' : ∀ op ∈ ops ++ fits.map SessionOp.fit, op.Proper k.axes := by
      intro op hop
      rcases List.mem_append.1 hop with h | h
      · exact hops op h
      · obtain ⟨b, hb, rfl⟩ := List.mem_map.1 h
        show ∀ x ∈ b.kwargs, _
        rw [(hfits b (List.mem_append_left _ hb)).1]
        simp
    have hne : initialParams (ops ++ fits.map .fit) ≠ [] := by
      rw [hini']
      intro e
      rw [e] at hF
      simp [totalFree] at hF
    obtain ⟨o, o1, o2, o3, o4⟩ := C74_fit depth k (ops ++ fits.map .fit) a hops' (by show ∀ x ∈ a.kwargs, _; rw [k1]; simp) hne
    rw [hprob, k2] at o3 o4
    rw [hini'] at o2
    rw [o1] at a1
    have a1' : AtPoint pr m θ1 o.params := a1
    rw [List.map_append, ← List.append_assoc, List.map_singleton, o4, Option.getD_some]
    cases hout : (Fit.fit ((problemOf k ops).env a.pinvh a.tol) o a.maxSteps a.verbose .newton).outcome with
    | error e =>
      rw [Fit.C07_newton_atomic _ o a.maxSteps a.verbose .newton (by simp) e hout]
      exact ⟨θ1, a1', a2, a3⟩
    | ok b =>
      have hF' : 1 ≤ totalFree o.params := by rw [Flat.SameLayout.totalFree o2]; exact hF
      obtain ⟨θ', -, b2, b3, b4⟩ := C68_never_decreases hS hT trivial a1' hF'
        (tried_dom (dom := fun _ => True) hS.pos (fun _ => trivial) _ a1') hout
      refine ⟨θ', b2, a2.trans b3, fun i j hf => ?_⟩
      rw [b4 i j, a3 i j hf]
      obtain ⟨p, p1, p2⟩ := hf
      have hi : i < o.params.length := by
        have := congrArg List.length o2
        simp only [List.length_map] at this
        rw [this]
        exact (List.getElem?_eq_some_iff.1 p1).1
      have hl : (o.params.map fun p => (p.shape, p.mask))[i]? = some (p.shape, p.mask) := by
        have o2' : o.params.map (fun p => (p.shape, p.mask)) = (initialParams ops).map (fun p => (p.shape, p.mask)) := o2
        rw [o2', List.getElem?_map, p1]; rfl
      rw [List.getElem?_map, List.getElem?_eq_getElem hi, Option.map_some, Option.some.injEq, Prod.mk.injEq] at hl
      exact ⟨o.params[i], List.getElem?_eq_getElem hi, by rw [hl.2]; exact p2⟩

end


/-- The array with the values `x`. -/
def twoArray (s t : Nat) (x : Nat → Nat → ℝ) : NDArray ℝ := ⟨2, (twoFactor s t).S, fun i => x (i 0) (i 1)⟩

/-- A session: `ml = Poisson()`, `ml.model = Sum(2).add(X(), 0, 0).add(X(), 1, 1)`, two parameters, the first entry of the second fixed, the constraint that all entries sum
to 0, a penalty on the first parameter (given as an integer), and a first fit with the data `x0`, `w0`; then a fit with new counts `x`. -/
noncomputable def exSession (s t : Nat) (x0 w x : Nat → Nat → ℝ) (b : List ℝ) (first second : FitArgs) : List SessionOp :=
  [.setModel addModel, .addFree (.array [s] (List.replicate s 0)), .addMasked [t + 1] (0 :: b) [t + 1] (true :: List.replicate t false),
    .addConstraint (.list [0, 1]) (linearT [1, 1]), .addRegularization (.int 0) (quadraticT 0 1),
    .fit { first with kwargs := [(.X, twoArray s (t + 1) x0), (.N, twoArray s (t + 1) w)] }, .fit { second with kwargs := [(.X, twoArray s (t + 1) x)] }]

/-- An instance of the hypotheses and of C74: after these calls any number of Newton fits, successful or not, never decreases the log-likelihood of the data `x` with the
weights `w` of the first fit, minus the penalty; the fixed entry remains 0. -/
theorem C74_example (depth : Nat) {s t : Nat} (hs : s ≠ 0) (x0 w x : Nat → Nat → ℝ) {b : List ℝ} (hb : b.length = t) (first second : FitArgs)
    (hT : 0 < ∑ i ∈ Finset.range s, ∑ j ∈ Finset.range (t + 1), w i j) (fits : List FitArgs) (hfits : ∀ a ∈ fits, a.kwargs = [] ∧ a.method = .newton) :
    ∃ θ θ', AtPoint (twoFactor s (t + 1)) 2 θ ((Session.run (depth + 2) .poisson (exSession s t x0 w x b first second)).params.getD []) ∧
      AtPoint (twoFactor s (t + 1)) 2 θ' ((Session.run (depth + 2) .poisson (exSession s t x0 w x b first second ++ fits.map .fit)).params.getD []) ∧
      (∑ i ∈ Finset.range s, ∑ j ∈ Finset.range (t + 1), (x i j * (θ 0 i + θ 1 j) - w i j * Real.exp (θ 0 i + θ 1 j) - Like.gammaln (x i j + 1))) -
          ∑ i ∈ Finset.range s, (θ 0 i) ^ 2 ≤
        (∑ i ∈ Finset.range s, ∑ j ∈ Finset.range (t + 1), (x i j * (θ' 0 i + θ' 1 j) - w i j * Real.exp (θ' 0 i + θ' 1 j) - Like.gammaln (x i j + 1))) -
          ∑ i ∈ Finset.range s, (θ' 0 i) ^ 2 ∧
      θ' 1 0 = 0 := by
  have hpr : (twoFactor s (t + 1)).Ok := ⟨by simp [twoFactor], fun k _ => by simp only [twoFactor]; split_ifs <;> omega⟩
  have hops : ∀ op ∈ exSession s t x0 w x b first second, op.Proper (Kind.axes .poisson) := by
    intro op hop
    simp only [exSession, List.mem_cons, List.not_mem_nil, or_false] at hop
    rcases hop with rfl | rfl | rfl | rfl | rfl | rfl | rfl
    · trivial
    · simp [SessionOp.Proper, Arg.data]
    · simp [SessionOp.Proper, hb]
    · trivial
    · trivial
    · intro x _; exact Nat.zero_le _
    · intro x _; exact Nat.zero_le _
  have hpar : initialParams (exSession s t x0 w x b first second) =
      [⟨[s], List.replicate s 0, List.replicate s false⟩, ⟨[t + 1], 0 :: b, true :: List.replicate t false⟩] := by
    simp [initialParams, exSession, Arg.data]
  have hini : AtPoint (twoFactor s (t + 1)) 2 (pointOf (initialParams (exSession s t x0 w x b first second))) (initialParams (exSession s t x0 w x b first second)) := by
    rw [hpar]
    refine ⟨rfl, fun p hp => ?_⟩
    have : p = 0 ∨ p = 1 := by omega
    rcases this with rfl | rfl
    · exact ⟨_, rfl, rfl, by simp, by simp, fun a _ => rfl⟩
    · exact ⟨_, rfl, rfl, by simp, by simp [hb], fun a _ => rfl⟩
  have hprob : problemOf .poisson (exSession s t x0 w x b first second) = ⟨addModel, PoissonT.like (twoData s (t + 1) x) (twoData s (t + 1) w),
      PoissonT.gradLike (twoData s (t + 1) x) (twoData s (t + 1) w), PoissonT.hessLike (twoData s (t + 1) x) (twoData s (t + 1) w), twoData s (t + 1) w,
      [⟨[0, 1], linearT [1, 1]⟩], [⟨[0], quadraticT 0 1⟩]⟩ := rfl
  have hsum : ∑ c, (twoFactor s (t + 1)).val (twoData s (t + 1) w) c = ∑ i ∈ Finset.range s, ∑ j ∈ Finset.range (t + 1), w i j := by
    rw [← two_sum]
    simp only [two_data_val]
  have hS : Solver (twoFactor s (t + 1)) 2 (fun _ => True) (problemOf .poisson (exSession s t x0 w x b first second))
      (fun θ => Like.Poisson.like ((twoFactor s (t + 1)).val (twoData s (t + 1) x)) ((twoFactor s (t + 1)).val (twoData s (t + 1) w))
        (valCell (twoFactor s (t + 1)) (fun θ n _ => θ 0 (n 0) + θ 1 (n 1)) θ)) [linCon (twoFactor s (t + 1)) [0, 1] [1, 1]] [quadPen (twoFactor s (t + 1)) [0] 0 1]
      (∑ c, (twoFactor s (t + 1)).val (twoData s (t + 1) w) c) := by
    rw [hprob]
    exact C68_solver_poisson hpr (two_isData s (t + 1) x) (two_isData s (t + 1) w) (by omega) (add_computes hs (by omega)) rfl trivial (fun _ _ => trivial)
      (by rw [hsum]; exact hT.ne') (.cons (C67_linear (by simp) (by simp) (by simp) (by simp)) .nil) (.cons (C67_quadratic (by simp) (by simp) one_ne_zero) .nil)
  have hL : ∀ θ : Theta, penalised (fun θ => Like.Poisson.like ((twoFactor s (t + 1)).val (twoData s (t + 1) x)) ((twoFactor s (t + 1)).val (twoData s (t + 1) w))
        (valCell (twoFactor s (t + 1)) (fun θ n _ => θ 0 (n 0) + θ 1 (n 1)) θ)) [quadPen (twoFactor s (t + 1)) [0] 0 1] θ =
      (∑ i ∈ Finset.range s, ∑ j ∈ Finset.range (t + 1), (x i j * (θ 0 i + θ 1 j) - w i j * Real.exp (θ 0 i + θ 1 j) - Like.gammaln (x i j + 1))) -
          ∑ i ∈ Finset.range s, (θ 0 i) ^ 2 := by
    intro θ
    unfold penalised
    congr 1
    · rw [← two_sum s (t + 1) fun i j => x i j * (θ 0 i + θ 1 j) - w i j * Real.exp (θ 0 i + θ 1 j) - Like.gammaln (x i j + 1)]
      unfold Like.Poisson.like
      refine Finset.sum_congr rfl fun c _ => ?_
      rw [two_data_val, two_data_val]
      rfl
    · simp [quadPen, Problem.sizes, twoFactor]
  obtain ⟨-, -, -, -, -, h6, -, h8⟩ := C74_history depth .poisson (exSession s t x0 w x b first second) hops
  have hat := hini.layout h6 h8
  obtain ⟨θ', a1, a2, a3⟩ := C74_refits depth .poisson _ hops hini (by rw [hpar]; simp [totalFree]; omega) hS (by rw [hsum]; exact hT) fits hfits hat
  refine ⟨_, θ', hat, a1, ?_, ?_⟩
  · rw [hL, hL] at a2
    exact a2
  · rw [a3 1 0 ?_, hpar]
    · rfl
    · rw [hpar]
      exact ⟨_, rfl, rfl⟩

/-- The calls do not undo each other: a `fit` that raises has stored its data, and they are used by the next one.  Here: `fit(X=x)` before any parameter was added. -/
theorem C74_failed_fit_counterexample (depth : Nat) (k : Kind) (hk : k.axes = 0) (x : NDArray ℝ) (a : FitArgs) (ha : a.kwargs = [(.X, x)]) :
    ((Session.new k).fit a).1 = .error .attribute ∧ (Session.new k).data .X = none ∧ (Session.run (depth + 2) k [.fit a]).data .X = some ⟨x, 0, 0, 0, [], []⟩ := by
  have hd : ∀ y ∈ a.kwargs, (Session.new k).kind.dim ≤ y.2.ndim := fun y _ => by rw [show (Session.new k).kind = k from rfl, dim_eq, hk]; omega
  refine ⟨by rw [fit_none hd rfl], rfl, ?_⟩
  obtain ⟨-, -, -, -, h5, -⟩ := C74_history depth k [.fit a] (by
    intro op hop
    rw [List.mem_singleton] at hop
    subst hop
    show ∀ y ∈ a.kwargs, _
    rw [← dim_eq]
    exact hd)
  rw [h5, hk]
  simp [lastData, arraysOf, ha]

end Verif.Tens
