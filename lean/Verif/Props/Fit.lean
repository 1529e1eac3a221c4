import Verif.Lemmas.Fit
import Verif.Props.Params

/-!
# Properties C02, C07-C12: the control flow of `fit`
-/

namespace Verif.Fit
set_option linter.unusedSectionVars false
open Verif.Params

variable {α G Y D H M : Type} [Add α] [Sub α] [Mul α]

/-! ## C12: the slice `step[:(-(c_len + 1) % L) + 1]` -/

/-- C12: for a solved step of `nfree + c` components (`nfree >= 1` free entries, `c` constraints)
the slice bound is exactly `nfree`: the free part is kept and exactly the `c` multipliers are
dropped. -/
theorem C12_step_cut (nfree c : Nat) (h : 1 ≤ nfree) : stepCut c (nfree + c) = .ok nfree := by
  unfold stepCut
  rw [if_neg (by omega)]
  congr 1
  have h1 : (-((c : Int) + 1)) % ((nfree + c : Nat) : Int) = (nfree : Int) - 1 := by
    have : -((c : Int) + 1) = ((nfree : Int) - 1) + ((nfree + c : Nat) : Int) * (-1) := by
      push_cast; omega
    rw [this, Int.add_mul_emod_self_left]
    apply Int.emod_eq_of_lt <;> push_cast <;> omega
  rw [h1]; omega

/-- C12 in terms of the step itself. -/
theorem C12_step_slice (stepFree mult : List α) (h : stepFree ≠ []) :
    (do let i ← stepCut mult.length (stepFree ++ mult).length
        pure ((stepFree ++ mult).take i)) = (.ok stepFree : Except Err (List α)) := by
  have : 1 ≤ stepFree.length := by cases stepFree <;> simp_all
  rw [List.length_append, C12_step_cut _ _ this]
  simp [bind, Except.bind, pure, Except.pure]

/-- With no free entry at all (outside the quantifier of C12) the cut is wrong: the whole solved
vector is kept, multipliers included. -/
theorem C12_no_free_edge (c : Nat) (h : 1 ≤ c) : stepCut c (0 + c) = .ok c := by
  unfold stepCut
  rw [if_neg (by omega)]
  congr 1
  have h1 : (-((c : Int) + 1)) % ((0 + c : Nat) : Int) = (c : Int) - 1 := by
    have : -((c : Int) + 1) = ((c : Int) - 1) + ((0 + c : Nat) : Int) * (-2) := by
      push_cast; omega
    rw [this, Int.add_mul_emod_self_left]
    apply Int.emod_eq_of_lt <;> push_cast <;> omega
  rw [h1]; omega

example : stepCut 2 5 = .ok 3 := by rfl

/-! ## C02 -/

theorem Keeps.refl (ps : List (Param α)) (hwf : ∀ p ∈ ps, p.WF) : Keeps ps ps :=
  ⟨rfl, fun _ _ _ => rfl, hwf⟩

theorem SameLayout.isFixed {ps qs : List (Param α)} (h : SameLayout ps qs) {i j : Nat}
    (hf : isFixed qs i j) : isFixed ps i j := by
  obtain ⟨q, hq, hj⟩ := hf
  have : (qs.map (fun p => (p.shape, p.mask)))[i]? = some (q.shape, q.mask) := by simp [hq]
  rw [← h] at this
  simp only [List.getElem?_map, Option.map_eq_some_iff, Prod.mk.injEq] at this
  obtain ⟨p, hp, -, hm⟩ := this
  exact ⟨p, hp, by rw [hm]; exact hj⟩

theorem Keeps.trans {a b c : List (Param α)} (h1 : Keeps a b) (h2 : Keeps b c) : Keeps a c :=
  ⟨h2.layout.trans h1.layout,
   fun i j hf => (h2.fixed i j (SameLayout.isFixed h1.layout hf)).trans (h1.fixed i j hf), h2.wf⟩

theorem newtonLoop_params (env : Env α G Y D H M) (verbose : Nat) (o : Obj α M) (k : Nat) (ps : List (Param α))
    (flat : List α) :
    (newtonLoop env verbose o k ps flat).obj.params = o.params ∨
    ∃ f, reshapeParams o.params f = .ok (newtonLoop env verbose o k ps flat).obj.params := by
  induction k generalizing ps flat with
  | zero => left; rfl
  | succ k ih =>
    simp only [newtonLoop]
    split
    · left; rfl
    · split
      · left; rfl
      · left; rfl
      · rename_i heq
        have hin := inner_some (h := by rw [heq])
        split
        · left; rfl
        · right; exact ⟨_, hin.1⟩
        · exact ih _ _

theorem broydenLoop_params (env : Env α G Y D H M) (o : Obj α M) (v i1 k : Nat)
    (flat grad : List α) (J : M) (g : G) :
    (broydenLoop env o v i1 k flat grad J g).obj.params = o.params ∨
    ∃ f, reshapeParams o.params f = .ok (broydenLoop env o v i1 k flat grad J g).obj.params := by
  induction k generalizing flat grad J g with
  | zero => left; rfl
  | succ k ih =>
    simp only [broydenLoop]
    split
    · left; rfl
    · split
      · left; rfl
      · split
        · left; rfl
        · rename_i hps
          split
          · left; rfl
          · split
            · left; rfl
            · split
              · left; rfl
              · split
                · right; exact ⟨_, hps⟩
                · right; exact ⟨_, hps⟩
              · split
                · left; rfl
                · exact ih _ _ _ _

/-- Every call of `fit`, with any outcome, either leaves the parameters alone or stores parameters
rebuilt from them. -/
theorem fit_params (env : Env α G Y D H M) (o : Obj α M) (maxSteps verbose : Nat) (m : Method) :
    (fit env o maxSteps verbose m).obj.params = o.params ∨
    ∃ f, reshapeParams o.params f = .ok (fit env o maxSteps verbose m).obj.params := by
  simp only [fit]
  split
  · left; rfl
  · cases m with
    | newton => exact newtonLoop_params _ _ _ _ _ _
    | broyden =>
      simp only [broyden]
      split
      · left; rfl
      · split
        · left; rfl
        · split
          · left; rfl
          · rename_i fh _
            split
            · left; rfl
            · exact broydenLoop_params env { o with flatHess := fh } verbose _ maxSteps _ _ _ _
    | invalid => left; rfl

/-- C02: whatever the model, the callbacks, the method, the budget and the outcome, a call of `fit`
leaves the number, order, shapes and masks of the parameters and every fixed entry unchanged. -/
theorem C02_fixed_unchanged (env : Env α G Y D H M) (o : Obj α M) (maxSteps verbose : Nat)
    (m : Method) (hwf : ∀ p ∈ o.params, p.WF) :
    SameLayout (fit env o maxSteps verbose m).obj.params o.params ∧
    (∀ i j, isFixed o.params i j →
      entry (fit env o maxSteps verbose m).obj.params i j = entry o.params i j) ∧
    ∀ p ∈ (fit env o maxSteps verbose m).obj.params, p.WF := by
  rcases fit_params env o maxSteps verbose m with h | ⟨f, h⟩
  · rw [h]; exact ⟨rfl, fun _ _ _ => rfl, hwf⟩
  · have := reshapeParams_keeps _ _ _ hwf h
    exact ⟨this.layout, this.fixed, this.wf⟩

/-- One call of `fit` in a history: the environment may differ at each call (new data, new
regularisations ...). -/
structure Call (α G Y D H M : Type) where
  env : Env α G Y D H M
  maxSteps : Nat
  verbose : Nat
  method : Method

/-- The object after a history of calls. -/
def runCalls (o : Obj α M) (cs : List (Call α G Y D H M)) : Obj α M :=
  cs.foldl (fun o c => (fit c.env o c.maxSteps c.verbose c.method).obj) o

/-- C02 over every history of calls of `fit`. -/
theorem C02_fixed_unchanged_history (cs : List (Call α G Y D H M)) (o : Obj α M)
    (hwf : ∀ p ∈ o.params, p.WF) :
    SameLayout (runCalls o cs).params o.params ∧
    ∀ i j, isFixed o.params i j → entry (runCalls o cs).params i j = entry o.params i j := by
  have : Keeps o.params (runCalls o cs).params := by
    induction cs generalizing o with
    | nil => exact Keeps.refl _ hwf
    | cons c cs ih =>
      have h := C02_fixed_unchanged c.env o c.maxSteps c.verbose c.method hwf
      exact Keeps.trans ⟨h.1, h.2.1, h.2.2⟩ (ih _ h.2.2)
  exact ⟨this.layout, this.fixed⟩

/-! ### A concrete environment

One free number `x` and one fixed number; objective `-(x-3)^2`, gradient and Hessian exact; numbers
are rationals so that everything computes. -/

/-- Objective of the concrete environments: minus the squared distance of the free entry to 3. -/
def exY : List (Param Rat) → Rat
  | ⟨_, x :: _, _⟩ :: _ => -(x - 3) * (x - 3)
  | _ => 0

/-- First entry. -/
def exX : List (Param Rat) → Rat
  | ⟨_, x :: _, _⟩ :: _ => x
  | _ => 0

/-- The concrete environment. -/
def exEnv : Env Rat Rat Rat Unit Unit Rat where
  modelEval ps := .ok (exY ps, (), ())
  modelCall ps := .ok (exY ps)
  modelGrad _ := .ok ()
  obj _ y := .ok (y - 1)
  flatGrad ps _ _ := .ok [-2 * (exX ps - 3)]
  flatHess _ _ _ _ := .ok (-2)
  solve m g := .ok (g.map (· / m))
  pinvh m := .ok (1 / m)
  dim _ := 1
  direction m g := .ok (g.map (fun x => -(m * x)))
  update m _ _ _ := .ok m
  nConstraints := 0
  ge a b := decide (b ≤ a)
  conv a b := if b = 0 then .error .zeroDivision else
    .ok (decide (a / b - 1 < 1 / 100 ∧ -(1 / 100) < a / b - 1))
  one := 1
  half := 1 / 2

/-- The concrete starting object: `[10, 7]` with the second entry fixed. -/
def exObj : Obj Rat Rat := ⟨[⟨[2], [10, 7], [false, true]⟩], none, false⟩

example : (∀ p ∈ exObj.params, p.WF) ∧ isFixed exObj.params 0 1 ∧
    (fit exEnv exObj 5 0 .newton).outcome = .ok true ∧
    (fit exEnv exObj 5 0 .newton).obj.params = [⟨[2], [3, 7], [false, true]⟩] ∧
    (fit exEnv exObj 5 0 .broyden).outcome = .ok true := by
  refine ⟨?_, ⟨_, rfl, rfl⟩, by decide +kernel, by decide +kernel, by decide +kernel⟩
  intro p hp
  simp [exObj] at hp
  subst hp
  simp [Param.WF]

/-! ## C07 -/

/-- C07 for Newton and for an invalid method: whenever `fit` raises, at whatever point, the
parameters are exactly those before the call. -/
theorem C07_newton_atomic (env : Env α G Y D H M) (o : Obj α M) (maxSteps verbose : Nat)
    (m : Method) (hm : m ≠ .broyden) (e : Err)
    (h : (fit env o maxSteps verbose m).outcome = .error e) :
    (fit env o maxSteps verbose m).obj.params = o.params := by
  have loop : ∀ k ps flat, (newtonLoop env verbose o k ps flat).outcome = .error e →
      (newtonLoop env verbose o k ps flat).obj.params = o.params := by
    intro k
    induction k with
    | zero => intros; rfl
    | succ k ih =>
      intro ps flat hk
      simp only [newtonLoop] at hk ⊢
      split
      · rfl
      · split
        · rfl
        · rfl
        · split
          · rfl
          · rename_i h1 _ _ _ _ _ _ h2 _ h3
            simp only [h1, h2, h3] at hk
            cases hk
          · rename_i h1 _ _ _ _ _ _ h2 _ h3
            simp only [h1, h2, h3] at hk
            exact ih _ _ hk
  simp only [fit] at h ⊢
  split
  · rfl
  · rename_i flat hf
    rw [hf] at h
    cases m with
    | newton => exact loop _ _ _ h
    | broyden => exact absurd rfl hm
    | invalid => rfl

/-- C07 for Broyden, the part that holds: if the final `pinvh` does not raise, a raising `fit`
leaves the parameters unchanged.  Missing: line 542 stores the parameters before line 543 calls
`pinvh`, so an exception there leaves them changed (`C07_broyden_counterexample`). -/
theorem C07_broyden_atomic_partial (env : Env α G Y D H M) (o : Obj α M) (maxSteps verbose : Nat)
    (hp : ∀ J, ∃ h, env.pinvh J = .ok h) (e : Err)
    (h : (fit env o maxSteps verbose .broyden).outcome = .error e) :
    (fit env o maxSteps verbose .broyden).obj.params = o.params := by
  have loop : ∀ (o : Obj α M) i1 k flat grad J g,
      (broydenLoop env o verbose i1 k flat grad J g).outcome = .error e →
      (broydenLoop env o verbose i1 k flat grad J g).obj.params = o.params := by
    intro o i1 k
    induction k with
    | zero => intros; rfl
    | succ k ih =>
      intro flat grad J g hk
      simp only [broydenLoop] at hk ⊢
      split
      · rfl
      · rename_i h1
        simp only [h1] at hk
        split
        · rfl
        · rename_i h2
          simp only [h2] at hk
          split
          · rfl
          · rename_i h3
            simp only [h3] at hk
            split
            · rfl
            · rename_i h4
              simp only [h4] at hk
              split
              · rfl
              · rename_i h5
                rw [if_neg h5] at hk
                split
                · rfl
                · rename_i h6
                  simp only [h6] at hk
                  obtain ⟨hh, hhe⟩ := hp J
                  simp only [hhe] at hk
                  cases hk
                · rename_i h6
                  simp only [h6] at hk
                  split
                  · rfl
                  · rename_i h7
                    simp only [h7] at hk
                    exact ih _ _ _ _ hk
  simp only [fit] at h ⊢
  split
  · rfl
  · rename_i flat hf
    simp only [hf] at h
    simp only [broyden] at h ⊢
    split
    · rfl
    · rename_i h1
      simp only [h1] at h
      split
      · rfl
      · rename_i h2
        simp only [h2] at h
        split
        · rfl
        · rename_i fh h3
          simp only [h3] at h
          split
          · rfl
          · rename_i h4
            simp only [h4] at h
            exact loop _ _ _ _ _ _ _ h

/-- The environment of the counterexamples: `pinvh` succeeds on the initial Hessian but raises on
the final `J`. -/
def exEnvPinv : Env Rat Rat Rat Unit Unit Rat :=
  { exEnv with pinvh := fun m => if m = -2 then .ok (-1 / 2) else .error .linAlg }

/-- C07 is false of the code: a Broyden `fit` whose last `pinvh` raises has already replaced the
parameters. -/
theorem C07_broyden_counterexample :
    (fit exEnvPinv exObj 5 0 .broyden).outcome = .error .linAlg ∧
    (fit exEnvPinv exObj 5 0 .broyden).obj.params ≠ exObj.params := by
  constructor
  · decide +kernel
  · decide +kernel

example : ∀ J, ∃ h, exEnv.pinvh J = .ok h := fun J => ⟨1 / J, rfl⟩

/-! ## C08 -/

/-- C08: if comparing objective values is transitive and reflexive and evaluating the model
(`eval`) agrees with calling it, then a successful Newton fit ends with an objective at least
that of the start. -/
theorem C08_newton_never_decreases_partial (env : Env α G Y D H M) (o : Obj α M) (maxSteps verbose : Nat)
    (htrans : ∀ a b c, env.ge a b = true → env.ge b c = true → env.ge a c = true)
    (hcons : ∀ ps y d h, env.modelEval ps = .ok (y, d, h) → env.modelCall ps = .ok y)
    (b : Bool) (h : (fit env o maxSteps verbose .newton).outcome = .ok b) :
    ∃ g0 g1, objective env o.params = .ok g0 ∧
      objective env (fit env o maxSteps verbose .newton).obj.params = .ok g1 ∧
      env.ge g1 g0 = true := by
  have stepg : ∀ ps step g gr he, newtonStep env ps = .ok (step, g, gr, he) →
      objective env ps = .ok g := by
    intro ps step g gr he hs
    simp only [newtonStep, bind, Except.bind, pure, Except.pure] at hs
    split at hs
    · cases hs
    · rename_i v hv
      obtain ⟨y, d, hh⟩ := v
      simp only at hs
      split at hs
      · cases hs
      · rename_i g' hg'
        have : g' = g := by
          split at hs
          · cases hs
          · split at hs
            · cases hs
            · split at hs
              · cases hs
              · split at hs
                · cases hs
                · simp only [Except.ok.injEq, Prod.mk.injEq] at hs
                  exact hs.2.1
        subst this
        simp only [objective, hcons _ _ _ _ hv, bind, Except.bind]
        exact hg'
  have loop : ∀ k ps flat, (newtonLoop env verbose o k ps flat).outcome = .ok b →
      ∃ g0 g1, objective env ps = .ok g0 ∧
        objective env (newtonLoop env verbose o k ps flat).obj.params = .ok g1 ∧ env.ge g1 g0 = true := by
    intro k
    induction k with
    | zero => intro ps flat hk; simp [newtonLoop] at hk
    | succ k ih =>
      intro ps flat hk
      simp only [newtonLoop] at hk ⊢
      split at hk
      · cases hk
      · rename_i step prevG gr hess hstep
        have hg0 := stepg _ _ _ _ _ hstep
        split at hk
        · cases hk
        · cases hk
        · rename_i flat' ps' g tr pr hin
          have hi := inner_some (h := by rw [hin])
          split at hk
          · cases hk
          · rename_i hc
            exact ⟨prevG, g, hg0, hi.2.1, hi.2.2⟩
          · rename_i hc
            obtain ⟨g0', g1, h1, h2, h3⟩ := ih ps' flat' hk
            have : g0' = g := by rw [hi.2.1] at h1; cases h1; rfl
            subst this
            exact ⟨prevG, g1, hg0, h2, htrans _ _ _ h3 hi.2.2⟩
  simp only [fit] at h ⊢
  split at h
  · cases h
  · exact loop _ _ _ h

example : (∀ a b c, exEnv.ge a b = true → exEnv.ge b c = true → exEnv.ge a c = true) ∧
    (∀ ps y d h, exEnv.modelEval ps = .ok (y, d, h) → exEnv.modelCall ps = .ok y) ∧
    (fit exEnv exObj 5 0 .newton).outcome = .ok true := by
  refine ⟨?_, ?_, by decide +kernel⟩
  · intro a b c h1 h2
    simp only [exEnv, decide_eq_true_eq] at *
    exact Rat.le_trans h2 h1
  · intro ps y d h hh
    simp only [exEnv, Except.ok.injEq, Prod.mk.injEq] at hh ⊢
    exact hh.1

/-- An environment whose `eval` disagrees with its `__call__` (as happens for a model built with
`Sum` and a non-zero offset, see `C25`): `eval` sees an objective lower by 100. -/
def exEnvBad : Env Rat Rat Rat Unit Unit Rat :=
  { exEnv with
    modelEval := fun ps => .ok (exY ps - 100, (), ())
    flatGrad := fun _ _ _ => .ok [2]
    conv := fun _ _ => .ok true }

/-- C08 really needs the agreement of `eval` and `__call__`: without it a "successful" Newton fit
can decrease the objective. -/
theorem C08_needs_eval_consistency_counterexample :
    (fit exEnvBad ⟨[⟨[1], [3], [false]⟩], none, false⟩ 5 0 .newton).outcome = .ok true ∧
    objective exEnvBad [⟨[1], [3], [false]⟩] = .ok (-1) ∧
    objective exEnvBad (fit exEnvBad ⟨[⟨[1], [3], [false]⟩], none, false⟩ 5 0 .newton).obj.params
      = .ok (-2) := by
  refine ⟨by decide +kernel, by decide +kernel, by decide +kernel⟩

end Verif.Fit
