import Verif.Props.Fit

/-!
# Properties C09, C10, C11, C59: budget, honesty, the `converged` flag, verbosity, stored Hessian
-/

namespace Verif.Fit
open Verif.Params
set_option linter.unusedSectionVars false

variable {α G Y D H M : Type} [Add α] [Sub α] [Mul α]

/-! ## C09 -/

theorem newtonLoop_budget (env : Env α G Y D H M) (verbose : Nat) (o : Obj α M) (k : Nat)
    (ps : List (Param α)) (flat : List α) :
    (newtonLoop env verbose o k ps flat).trace.length ≤ k ∧
    ∀ tr ∈ (newtonLoop env verbose o k ps flat).trace, tr.length ≤ 5 := by
  induction k generalizing ps flat with
  | zero => simp [newtonLoop]
  | succ k ih =>
    simp only [newtonLoop]
    split
    · simp
    · rename_i step prevG gr hess hs
      have hl := inner_trace_length env verbose o.params flat step prevG 5 env.one
      split
      · rename_i h; rw [h] at hl; simpa using hl
      · rename_i h; rw [h] at hl; simpa using hl
      · rename_i h; rw [h] at hl
        split
        · simpa using hl
        · simpa using hl
        · refine ⟨?_, ?_⟩
          · simpa using (ih _ _).1
          · intro t ht
            simp only [List.mem_cons] at ht
            rcases ht with rfl | ht
            · exact hl
            · exact (ih _ _).2 t ht

theorem broydenLoop_budget (env : Env α G Y D H M) (verbose : Nat) (o : Obj α M) (i1 k : Nat)
    (flat grad : List α) (J : M) (g : G) :
    (broydenLoop env o verbose i1 k flat grad J g).trace.length ≤ k ∧
    ∀ tr ∈ (broydenLoop env o verbose i1 k flat grad J g).trace, tr.length ≤ 1 := by
  induction k generalizing flat grad J g with
  | zero => simp [broydenLoop]
  | succ k ih =>
    simp only [broydenLoop]
    split
    · simp
    · split
      · simp
      · split
        · simp
        · split
          · simp
          · split
            · simp
            · split
              · simp
              · split <;> simp
              · split
                · simp
                · refine ⟨?_, ?_⟩
                  · simpa using (ih _ _ _ _).1
                  · intro t ht
                    simp only [List.mem_cons] at ht
                    rcases ht with rfl | ht
                    · simp
                    · exact (ih _ _ _ _).2 t ht

/-- C09, budget: whatever the model, `fit` makes at most `max_steps` outer steps; each Newton step
tries the objective at most five times, each Broyden step once. -/
theorem C09_budget (env : Env α G Y D H M) (o : Obj α M) (maxSteps verbose : Nat) (m : Method) :
    (fit env o maxSteps verbose m).trace.length ≤ maxSteps ∧
    ∀ tr ∈ (fit env o maxSteps verbose m).trace,
      tr.length ≤ (match m with | .newton => 5 | _ => 1) := by
  simp only [fit]
  split
  · simp
  · cases m with
    | newton => exact newtonLoop_budget _ _ _ _ _ _
    | invalid => simp
    | broyden =>
      simp only [broyden]
      split
      · simp
      · split
        · simp
        · split
          · simp
          · split
            · simp
            · exact broydenLoop_budget _ _ _ _ _ _ _ _ _

/-- The convergence test of a run passed on the stored parameters. -/
def TestPassed (env : Env α G Y D H M) (r : Result α M) : Prop :=
  r.outcome = .ok true ∧
  ∃ prev g, env.conv prev g = .ok true ∧ objective env r.obj.params = .ok g ∧
    r.trace.getLast?.bind List.getLast? = some r.obj.params

theorem getLast?_cons_ne {β : Type} (a : β) (l : List β) (h : l ≠ []) :
    (a :: l).getLast? = l.getLast? := by
  cases l with
  | nil => exact absurd rfl h
  | cons b l => rfl

theorem inner_last (env : Env α G Y D H M) (vb : Nat) (ps0 : List (Param α))
    (flat step : List α) (prevG : G)
    (n : Nat) (mult : α) (flat' : List α) (ps' : List (Param α)) (g : G)
    (h : (inner env vb ps0 flat step prevG n mult).1 = .ok (some (flat', ps', g))) :
    (inner env vb ps0 flat step prevG n mult).2.1.getLast? = some ps' := by
  induction n generalizing mult with
  | zero => simp [inner] at h
  | succ n ih =>
    simp only [inner] at h ⊢
    split at h
    · cases h
    · split at h
      · cases h
      · split at h
        · cases h
        · rename_i hg
          split at h
          · rename_i hge
            simp only [Except.ok.injEq, Option.some.injEq, Prod.mk.injEq] at h
            simp [hge, h.2.1]
          · rename_i hge
            have := ih _ h
            rw [if_neg hge]
            rw [getLast?_cons_ne _ _ (by intro h0; rw [h0] at this; simp at this), this]

/-- C09, honesty: when `fit` returns, it returns `True` and its convergence test has just passed
with the objective of the stored parameters, which are the last ones tried. -/
theorem C09_returns_true_only_converged (env : Env α G Y D H M) (o : Obj α M)
    (maxSteps verbose : Nat) (m : Method) (b : Bool)
    (h : (fit env o maxSteps verbose m).outcome = .ok b) :
    b = true ∧ TestPassed env (fit env o maxSteps verbose m) := by
  have newton : ∀ k ps flat, (newtonLoop env verbose o k ps flat).outcome = .ok b →
      b = true ∧ TestPassed env (newtonLoop env verbose o k ps flat) ∧
      (newtonLoop env verbose o k ps flat).trace ≠ [] := by
    intro k
    induction k with
    | zero => intro ps flat hk; simp [newtonLoop] at hk
    | succ k ih =>
      intro ps flat hk
      simp only [newtonLoop] at hk ⊢
      split at hk
      · cases hk
      · rename_i step prevG gr hess hs
        split at hk
        · cases hk
        · cases hk
        · rename_i flat' ps' g tr pr hin
          have hi := inner_some (h := by rw [hin])
          have hlast := inner_last (h := by rw [hin])
          rw [hin] at hlast
          split at hk
          · cases hk
          · rename_i hc
            cases hk
            unfold TestPassed
            refine ⟨rfl, ⟨rfl, prevG, g, hc, hi.2.1, ?_⟩, by simp⟩
            simpa using hlast
          · rename_i hc
            obtain ⟨hb, ht, hne⟩ := ih _ _ hk
            simp only [TestPassed] at ht ⊢
            obtain ⟨h1, pv, g', h2, h3, h4⟩ := ht
            refine ⟨hb, ⟨h1, pv, g', h2, h3, ?_⟩, by simp⟩
            rw [getLast?_cons_ne _ _ hne, h4]
  have broy : ∀ (o : Obj α M) i1 k flat grad J g,
      (broydenLoop env o verbose i1 k flat grad J g).outcome = .ok b →
      b = true ∧ TestPassed env (broydenLoop env o verbose i1 k flat grad J g) ∧
      (broydenLoop env o verbose i1 k flat grad J g).trace ≠ [] := by
    intro o i1 k
    induction k with
    | zero => intro flat grad J g hk; simp [broydenLoop] at hk
    | succ k ih =>
      intro flat grad J g hk
      simp only [broydenLoop] at hk ⊢
      split at hk
      · cases hk
      · split at hk
        · cases hk
        · split at hk
          · cases hk
          · split at hk
            · cases hk
            · rename_i g' hg
              split at hk
              · cases hk
              · rename_i hv
                split at hk
                · cases hk
                · rename_i hc
                  split at hk
                  · cases hk
                  · cases hk
                    unfold TestPassed
                    rw [if_neg hv]
                    refine ⟨rfl, ⟨rfl, g, g', hc, hg, ?_⟩, by simp⟩
                    simp
                · rename_i hc
                  split at hk
                  · cases hk
                  · obtain ⟨hb, ht, hne⟩ := ih _ _ _ _ hk
                    simp only [TestPassed] at ht ⊢
                    rw [if_neg hv]
                    obtain ⟨h1, pv, g', h2, h3, h4⟩ := ht
                    refine ⟨hb, ⟨h1, pv, g', h2, h3, ?_⟩, by simp⟩
                    rw [getLast?_cons_ne _ _ hne, h4]
  simp only [fit] at h ⊢
  split at h
  · cases h
  · cases m with
    | newton => exact ⟨(newton _ _ _ h).1, (newton _ _ _ h).2.1⟩
    | invalid => cases h
    | broyden =>
      simp only [broyden] at h ⊢
      split at h
      · cases h
      · split at h
        · cases h
        · split at h
          · cases h
          · split at h
            · cases h
            · have := broy _ _ _ _ _ _ _ h
              exact ⟨this.1, this.2.1⟩

/-- An environment none of whose callbacks raises and whose linear solver returns vectors of the
size of the system (`n` free entries plus the constraints). -/
structure Total (env : Env α G Y D H M) (n : Nat) : Prop where
  modelEval : ∀ ps, ∃ r, env.modelEval ps = .ok r
  modelCall : ∀ ps, ∃ r, env.modelCall ps = .ok r
  modelGrad : ∀ ps, ∃ r, env.modelGrad ps = .ok r
  obj : ∀ ps y, ∃ r, env.obj ps y = .ok r
  flatGrad : ∀ ps y d, ∃ r, env.flatGrad ps y d = .ok r ∧ r.length = n + env.nConstraints
  flatHess : ∀ ps y d h, ∃ r, env.flatHess ps y d h = .ok r
  solve : ∀ m g, g.length = n + env.nConstraints → ∃ r, env.solve m g = .ok r ∧ r.length = g.length
  pinvh : ∀ m, ∃ r, env.pinvh m = .ok r
  direction : ∀ m g, g.length = n + env.nConstraints →
    ∃ r, env.direction m g = .ok r ∧ r.length = g.length
  update : ∀ m a b c, ∃ r, env.update m a b c = .ok r
  conv : ∀ a b, ∃ r, env.conv a b = .ok r

theorem objective_total {env : Env α G Y D H M} {n : Nat} (ht : Total env n)
    (ps : List (Param α)) : ∃ g, objective env ps = .ok g := by
  obtain ⟨y, hy⟩ := ht.modelCall ps
  obtain ⟨g, hg⟩ := ht.obj ps y
  exact ⟨g, by simp [objective, hy, hg, bind, Except.bind]⟩

theorem newtonStep_total {env : Env α G Y D H M} {n : Nat} (ht : Total env n) (hn : 1 ≤ n)
    (ps : List (Param α)) :
    ∃ step g gr h, newtonStep env ps = .ok (step, g, gr, h) ∧ step.length = n := by
  obtain ⟨⟨y, d, h⟩, h1⟩ := ht.modelEval ps
  obtain ⟨g, h2⟩ := ht.obj ps y
  obtain ⟨gr, h3, h3l⟩ := ht.flatGrad ps y d
  obtain ⟨m, h4⟩ := ht.flatHess ps y d h
  obtain ⟨s, h5, h5l⟩ := ht.solve m gr h3l
  refine ⟨s.take n, g, gr, m, ?_, ?_⟩
  · simp [newtonStep, h1, h2, h3, h4, h5, bind, Except.bind, pure, Except.pure,
      h5l.trans h3l, C12_step_cut n _ hn]
  · simp; omega

theorem inner_total {env : Env α G Y D H M} {n : Nat} (ht : Total env n) (vb : Nat)
    (ps0 : List (Param α)) (hne : ps0 ≠ []) (hwf : ∀ p ∈ ps0, p.WF) (hfree : totalFree ps0 = n)
    (flat step : List α) (hflat : flat.length = n) (hstep : step.length = n) (prevG : G)
    (k : Nat) (mult : α) :
    ((inner env vb ps0 flat step prevG k mult).1 = .ok none ∧
      (inner env vb ps0 flat step prevG k mult).2.1.length = k) ∨
    ∃ f ps g, (inner env vb ps0 flat step prevG k mult).1 = .ok (some (f, ps, g)) ∧
      f.length = n := by
  induction k generalizing mult with
  | zero => left; simp [inner]
  | succ k ih =>
    simp only [inner]
    have h1 : bzip (· - ·) flat (step.map (mult * ·)) =
        .ok (List.zipWith (· - ·) flat (step.map (mult * ·))) := by
      unfold bzip; rw [if_pos (by simp; omega)]
    have hl : (List.zipWith (· - ·) flat (step.map (mult * ·))).length = n := by simp; omega
    obtain ⟨rs, h2, -⟩ := C01_flatten_rebuild ps0 hne hwf _ (hl.trans hfree.symm)
    obtain ⟨g, h3⟩ := objective_total ht rs
    simp only [h1, h2, h3]
    split
    · right; exact ⟨_, _, _, rfl, hl⟩
    · rcases ih (mult * env.half) with h | h
      · left; exact ⟨h.1, by simp [h.2]⟩
      · right; exact h

/-- C09, exceptions: when no callback raises, a Newton `fit` with at least one free entry can only
return `True`, raise the "did not increase" `ConvergenceError` after exactly five trials in the last
step, or raise the "did not converge" `ConvergenceError` after exactly `max_steps` steps. -/
theorem C09_newton_outcomes (env : Env α G Y D H M) (o : Obj α M) (maxSteps verbose n : Nat)
    (ht : Total env n) (hn : 1 ≤ n) (hne : o.params ≠ []) (hwf : ∀ p ∈ o.params, p.WF)
    (hfree : totalFree o.params = n) :
    let r := fit env o maxSteps verbose .newton
    r.outcome = .ok true ∨
    (r.outcome = .error .convergenceStep ∧ ∃ tr, r.trace.getLast? = some tr ∧ tr.length = 5) ∨
    (r.outcome = .error .convergence ∧ r.trace.length = maxSteps) := by
  have loop : ∀ k ps flat, flat.length = n →
      let r := newtonLoop env verbose o k ps flat
      (r.outcome = .ok true ∨
      (r.outcome = .error .convergenceStep ∧
        ∃ tr, r.trace.getLast? = some tr ∧ tr.length = 5) ∨
      (r.outcome = .error .convergence ∧ r.trace.length = k)) := by
    intro k
    induction k with
    | zero => intro ps flat _; right; right; exact ⟨rfl, rfl⟩
    | succ k ih =>
      intro ps flat hfl
      obtain ⟨step, g0, gr, h, hs, hsl⟩ := newtonStep_total ht hn ps
      simp only [newtonLoop, hs]
      rcases inner_total ht verbose o.params hne hwf hfree flat step hfl hsl g0 5 env.one with
        hi | ⟨f, ps', g, hi, hfl'⟩
      · right; left
        generalize inner env verbose o.params flat step g0 5 env.one = r at hi
        obtain ⟨r1, r2, r3⟩ := r
        simp only at hi
        obtain ⟨rfl, h5⟩ := hi
        exact ⟨rfl, r2, rfl, h5⟩
      · generalize inner env verbose o.params flat step g0 5 env.one = r at hi
        obtain ⟨r1, r2, r3⟩ := r
        simp only at hi
        subst hi
        obtain ⟨cb, hc⟩ := ht.conv g0 g
        simp only [hc]
        cases cb with
        | true => left; rfl
        | false =>
          simp only
          rcases ih ps' f hfl' with h | ⟨h1, tr, h2, h3⟩ | ⟨h1, h2⟩
          · left; exact h
          · right; left
            refine ⟨h1, tr, ?_, h3⟩
            rw [getLast?_cons_ne _ _ (by intro h0; rw [h0] at h2; simp at h2), h2]
          · right; right; exact ⟨h1, by simp [h2]⟩
  have hf : flatParams o.params = .ok (o.params.map Param.compressed).flatten := by
    unfold flatParams npConcatenate
    rw [if_neg (by simpa using hne)]
  simp only [fit, hf]
  exact loop _ _ _ ((flatten_length _ hwf).trans hfree)

/-- C09, exceptions, Broyden: when no callback raises and nothing is printed, a Broyden `fit` with at
least one free entry returns `True` or raises `ConvergenceError` after exactly `max_steps`
steps. -/
theorem C09_broyden_outcomes (env : Env α G Y D H M) (o : Obj α M) (maxSteps n : Nat)
    (ht : Total env n) (hn : 1 ≤ n) (hne : o.params ≠ []) (hwf : ∀ p ∈ o.params, p.WF)
    (hfree : totalFree o.params = n) :
    let r := fit env o maxSteps 0 .broyden
    r.outcome = .ok true ∨ (r.outcome = .error .convergence ∧ r.trace.length = maxSteps) := by
  have loop : ∀ (o : Obj α M), o.params ≠ [] → (∀ p ∈ o.params, p.WF) → totalFree o.params = n →
      ∀ k flat grad J g, flat.length = n → grad.length = n + env.nConstraints →
      let r := broydenLoop env o 0 n k flat grad J g
      (r.outcome = .ok true ∨ (r.outcome = .error .convergence ∧ r.trace.length = k)) := by
    intro o hne hwf hfree k
    induction k with
    | zero => intro flat grad J g _ _; right; exact ⟨rfl, rfl⟩
    | succ k ih =>
      intro flat grad J g hfl hgl
      obtain ⟨step, hs, hsl⟩ := ht.direction J grad hgl
      have h1 : inplaceAdd flat (step.take n) = .ok (List.zipWith (· + ·) flat (step.take n)) := by
        unfold inplaceAdd bzip
        rw [if_pos (by simp; omega)]
        simp only [bind, Except.bind]
        rw [if_pos (by simp; omega)]
        rfl
      have hl : (List.zipWith (· + ·) flat (step.take n)).length = n := by simp; omega
      obtain ⟨rs, h2, -⟩ := C01_flatten_rebuild o.params hne hwf _ (hl.trans hfree.symm)
      obtain ⟨g', h3⟩ := objective_total ht rs
      obtain ⟨cb, hc⟩ := ht.conv g g'
      simp only [broydenLoop, hs, h1, h2, h3, hc]
      cases cb with
      | true =>
        obtain ⟨h, hp⟩ := ht.pinvh J
        simp [hp]
      | false =>
        obtain ⟨y, hy⟩ := ht.modelCall rs
        obtain ⟨d, hd⟩ := ht.modelGrad rs
        obtain ⟨gr, hgr, hgrl⟩ := ht.flatGrad rs y d
        obtain ⟨J', hJ⟩ := ht.update J step gr grad
        simp only [hy, hd, hgr, hJ, bind, Except.bind, pure, Except.pure]
        rcases ih _ gr J' g' hl hgrl with h | ⟨h4, h5⟩
        · left; simpa using h
        · right; exact ⟨by simpa using h4, by simpa using h5⟩
  have hf : flatParams o.params = .ok (o.params.map Param.compressed).flatten := by
    unfold flatParams npConcatenate
    rw [if_neg (by simpa using hne)]
  have hfl := (flatten_length _ hwf).trans hfree
  obtain ⟨g, hg⟩ := objective_total ht o.params
  obtain ⟨⟨y, d, h⟩, he⟩ := ht.modelEval o.params
  obtain ⟨gr, hgr, hgrl⟩ := ht.flatGrad o.params y d
  have hcut : stepCut env.nConstraints gr.length = .ok n := by rw [hgrl]; exact C12_step_cut n _ hn
  simp only [fit, hf, broyden, hg, he, hgr, bind, Except.bind, pure, Except.pure, hcut]
  split
  · -- reused or computed Hessian raised: impossible
    rename_i e hh
    split at hh
    · cases hh
    · obtain ⟨m, hm⟩ := ht.flatHess o.params y d h
      rw [hm] at hh; cases hh
  · rename_i fh hh
    have hsome : ∃ m, fh = some m := by
      split at hh
      · rename_i hr
        cases hh
        unfold reuseHess at hr
        cases hfh : o.flatHess with
        | none => rw [hfh] at hr; simp at hr
        | some m => exact ⟨m, rfl⟩
      · obtain ⟨m, hm⟩ := ht.flatHess o.params y d h
        rw [hm] at hh; cases hh; exact ⟨m, rfl⟩
    obtain ⟨m, rfl⟩ := hsome
    obtain ⟨J, hJ⟩ := ht.pinvh m
    simp only [hJ]
    exact loop { o with flatHess := some m } hne hwf hfree _ _ _ _ _ hfl hgrl

/-- The concrete environment of `Props/Fit.lean` satisfies `Total` once its convergence test is
made total. -/
def exEnvTotal : Env Rat Rat Rat Unit Unit Rat :=
  { exEnv with conv := fun a b => .ok (decide (a - b < 1 / 100 ∧ b - a < 1 / 100)) }

example : exObj.params ≠ [] ∧ (∀ p ∈ exObj.params, p.WF) ∧ totalFree exObj.params = 1 ∧
    Total { exEnvTotal with flatGrad := fun _ _ _ => .ok [1] } 1 := by
  refine ⟨by simp [exObj], ?_, by decide, ?_⟩
  · intro p hp
    simp [exObj] at hp
    subst hp
    simp [Param.WF]
  · constructor <;> simp [exEnvTotal, exEnv]

/-! ## C10 -/

/-- C10 is false of the code: a Newton `fit` that returns `True` leaves the flag as it was, so a
freshly constructed model that has just been fitted successfully says `converged = False`. -/
theorem C10_newton_flag_counterexample (env : Env α G Y D H M) (o : Obj α M)
    (maxSteps verbose : Nat) (b : Bool)
    (h : (fit env o maxSteps verbose .newton).outcome = .ok b) :
    (fit env o maxSteps verbose .newton).obj.converged = o.converged := by
  have loop : ∀ k ps flat, (newtonLoop env verbose o k ps flat).outcome = .ok b →
      (newtonLoop env verbose o k ps flat).obj.converged = o.converged := by
    intro k
    induction k with
    | zero => intro ps flat hk; simp [newtonLoop] at hk
    | succ k ih =>
      intro ps flat hk
      simp only [newtonLoop] at hk ⊢
      split at hk
      · cases hk
      · split at hk
        · cases hk
        · cases hk
        · split at hk
          · cases hk
          · rfl
          · exact ih _ _ hk
  simp only [fit] at h ⊢
  split at h
  · cases h
  · exact loop _ _ _ h

/-- A concrete run: `fit` returns `True` and `converged` is `False`. -/
theorem C10_newton_concrete_counterexample :
    (fit exEnv exObj 5 0 .newton).outcome = .ok true ∧
    (fit exEnv exObj 5 0 .newton).obj.converged = false := by
  constructor <;> decide +kernel

/-- A second violation: after a successful Broyden fit, a call that raises (invalid method) leaves
`converged = True`. -/
theorem C10_stale_flag_counterexample :
    let o1 := (fit exEnv exObj 5 0 .broyden).obj
    (fit exEnv o1 5 0 .invalid).outcome = .error .valueError ∧
    (fit exEnv o1 5 0 .invalid).obj.converged = true := by
  constructor <;> decide +kernel

/-- C10, the part that holds: a Broyden fit that gets past its first evaluation of the objective
sets the flag exactly when it returns `True`; and a Newton fit that raises `ConvergenceError` clears
it (stated for callbacks that do not themselves raise it).  Missing: see the counterexamples. -/
theorem C10_broyden_flag_partial (env : Env α G Y D H M) (o : Obj α M) (maxSteps verbose : Nat)
    (hne : o.params ≠ []) (g : G) (hg : objective env o.params = .ok g) :
    (fit env o maxSteps verbose .broyden).obj.converged = true ↔
      (fit env o maxSteps verbose .broyden).outcome = .ok true := by
  have loop : ∀ (o : Obj α M) i1 k flat grad J g,
      (broydenLoop env o verbose i1 k flat grad J g).obj.converged = true ↔
      (broydenLoop env o verbose i1 k flat grad J g).outcome = .ok true := by
    intro o i1 k
    induction k with
    | zero => intro flat grad J g; simp [broydenLoop]
    | succ k ih =>
      intro flat grad J g
      simp only [broydenLoop]
      split
      · simp
      · split
        · simp
        · split
          · simp
          · split
            · simp
            · split
              · simp
              · split
                · simp
                · split <;> simp
                · split
                  · simp
                  · exact ih _ _ _ _
  have hf : flatParams o.params = .ok (o.params.map Param.compressed).flatten := by
    unfold flatParams npConcatenate
    rw [if_neg (by simpa using hne)]
  simp only [fit, hf, broyden, hg]
  split
  · simp
  · split
    · simp
    · split
      · simp
      · exact loop _ _ _ _ _ _ _

example : exObj.params ≠ [] ∧ ∃ g, objective exEnv exObj.params = .ok g :=
  ⟨by simp [exObj], _, rfl⟩

/-! ## C11 -/

theorem inner_verbose (env : Env α G Y D H M) (v v' : Nat) (ps0 : List (Param α))
    (flat step : List α) (prevG : G) (n : Nat) (mult : α) :
    (inner env v ps0 flat step prevG n mult).1 = (inner env v' ps0 flat step prevG n mult).1 ∧
    (inner env v ps0 flat step prevG n mult).2.1 =
      (inner env v' ps0 flat step prevG n mult).2.1 := by
  induction n generalizing mult with
  | zero => simp [inner]
  | succ n ih =>
    simp only [inner]
    split
    · simp
    · split
      · simp
      · split
        · simp
        · split
          · simp
          · exact ⟨(ih _).1, by simp [(ih (mult * env.half)).2]⟩

/-- C11 for Newton (and an invalid method): outcome, object and the points tried do not depend on
the verbosity (only the number of printed lines does).  Missing: Broyden, where it is false. -/
theorem C11_newton_verbosity_partial (env : Env α G Y D H M) (o : Obj α M)
    (maxSteps v v' : Nat) (m : Method) (hm : m ≠ .broyden) :
    (fit env o maxSteps v m).outcome = (fit env o maxSteps v' m).outcome ∧
    (fit env o maxSteps v m).obj = (fit env o maxSteps v' m).obj ∧
    (fit env o maxSteps v m).trace = (fit env o maxSteps v' m).trace := by
  have loop : ∀ k ps flat,
      (newtonLoop env v o k ps flat).outcome = (newtonLoop env v' o k ps flat).outcome ∧
      (newtonLoop env v o k ps flat).obj = (newtonLoop env v' o k ps flat).obj ∧
      (newtonLoop env v o k ps flat).trace = (newtonLoop env v' o k ps flat).trace := by
    intro k
    induction k with
    | zero => intros; exact ⟨rfl, rfl, rfl⟩
    | succ k ih =>
      intro ps flat
      simp only [newtonLoop]
      split
      · simp
      · rename_i step prevG gr hess hs
        have hv := inner_verbose env v v' o.params flat step prevG 5 env.one
        generalize inner env v o.params flat step prevG 5 env.one = r at hv
        generalize inner env v' o.params flat step prevG 5 env.one = r' at hv
        obtain ⟨r1, r2, r3⟩ := r
        obtain ⟨r1', r2', r3'⟩ := r'
        simp only at hv
        obtain ⟨rfl, rfl⟩ := hv
        cases r1 with
        | error e => simp
        | ok x =>
          cases x with
          | none => simp
          | some x =>
            obtain ⟨f, p, g⟩ := x
            simp only
            split
            · simp
            · simp
            · have := ih p f
              exact ⟨this.1, this.2.1, by simp [this.2.2]⟩
  simp only [fit]
  split
  · exact ⟨rfl, rfl, rfl⟩
  · cases m with
    | newton => exact loop _ _ _
    | broyden => exact absurd rfl hm
    | invalid => exact ⟨rfl, rfl, rfl⟩

/-- C11 is false of the code for Broyden: a fit that succeeds silently raises `NameError` as soon as
`verbose >= 1`; with any positive verbosity a Broyden fit never succeeds, whatever the model. -/
theorem C11_broyden_verbose_counterexample (env : Env α G Y D H M) (o : Obj α M)
    (maxSteps v : Nat) (hv : 1 ≤ v) (b : Bool) :
    (fit env o maxSteps v .broyden).outcome ≠ .ok b := by
  have loop : ∀ (o : Obj α M) i1 k flat grad J g,
      (broydenLoop env o v i1 k flat grad J g).outcome ≠ .ok b := by
    intro o i1 k flat grad J g
    cases k with
    | zero => simp [broydenLoop]
    | succ k =>
      simp only [broydenLoop]
      split
      · simp
      · split
        · simp
        · split
          · simp
          · split
            · simp
            · rw [if_pos (by omega)]; simp
  simp only [fit]
  split
  · simp
  · simp only [broyden]
    split
    · simp
    · split
      · simp
      · split
        · simp
        · split
          · simp
          · exact loop _ _ _ _ _ _ _

theorem C11_broyden_concrete_counterexample :
    (fit exEnv exObj 5 0 .broyden).outcome = .ok true ∧
    (fit exEnv exObj 5 1 .broyden).outcome = .error .nameError := by
  constructor <;> decide +kernel

/-! ## C59: the Hessian kept after a fit -/

/-- C59, what holds: after a successful Newton fit the stored Hessian is the one assembled at an
iterate `ps` of this fit from which the stored parameters were reached by one accepted step.
Missing: it is in general not the Hessian at the stored parameters (counterexample below). -/
theorem C59_newton_hessian_partial (env : Env α G Y D H M) (o : Obj α M) (maxSteps verbose : Nat)
    (b : Bool) (h : (fit env o maxSteps verbose .newton).outcome = .ok b) :
    ∃ ps step prev gr hess flat pr,
      newtonStep env ps = .ok (step, prev, gr, hess) ∧
      (fit env o maxSteps verbose .newton).obj.flatHess = some hess ∧
      (ps = o.params ∨ ∃ f, reshapeParams o.params f = .ok ps) ∧
      (∃ flat' g tr, inner env verbose o.params flat step prev 5 env.one =
        (.ok (some (flat', (fit env o maxSteps verbose .newton).obj.params, g)), tr, pr)) := by
  have loop : ∀ k ps flat, (ps = o.params ∨ ∃ f, reshapeParams o.params f = .ok ps) →
      ∀ r, r = newtonLoop env verbose o k ps flat → r.outcome = .ok b →
      ∃ ps step prev gr hess flat pr,
      newtonStep env ps = .ok (step, prev, gr, hess) ∧
      r.obj.flatHess = some hess ∧
      (ps = o.params ∨ ∃ f, reshapeParams o.params f = .ok ps) ∧
      (∃ flat' g tr, inner env verbose o.params flat step prev 5 env.one =
        (.ok (some (flat', r.obj.params, g)), tr, pr)) := by
    intro k
    induction k with
    | zero => intro ps flat _ r hr hk; subst hr; simp [newtonLoop] at hk
    | succ k ih =>
      intro ps flat hps r hr hk
      simp only [newtonLoop] at hr
      split at hr
      · subst hr; cases hk
      · rename_i step prevG gr hess hs
        split at hr
        · subst hr; cases hk
        · subst hr; cases hk
        · rename_i flat' ps' g tr pr hin
          split at hr
          · subst hr; cases hk
          · subst hr
            exact ⟨ps, step, prevG, gr, hess, flat, pr, hs, rfl, hps, flat', g, tr, hin⟩
          · have hi := inner_some (h := by rw [hin])
            subst hr
            have := ih ps' flat' (.inr ⟨flat', hi.1⟩) _ rfl hk
            exact this
  simp only [fit] at h ⊢
  split at h
  · cases h
  · rename_i flat hf
    exact loop _ _ _ (.inl rfl) _ rfl h

/-- Same environment with a Hessian depending on the parameters: `-2 + x / 100`. -/
def exEnvHess : Env Rat Rat Rat Unit Unit Rat :=
  { exEnv with flatHess := fun ps _ _ _ => .ok (-2 + exX ps / 100) }

/-- C59 is false of the code: the stored Hessian is not the Hessian at the fitted parameters. -/
theorem C59_newton_hessian_stale_counterexample :
    let r := fit exEnvHess exObj 9 0 .newton
    r.outcome = .ok true ∧
    (do let (y, d, h) ← exEnvHess.modelEval r.obj.params
        exEnvHess.flatHess r.obj.params y d h) ≠
      (match r.obj.flatHess with | some h => .ok h | none => .error .attribute) := by
  constructor <;> decide +kernel

end Verif.Fit
