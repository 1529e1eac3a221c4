import Verif.Props.Broyden
import Verif.Props.ConcaveExamples

/-!
# C71: examples and counterexamples
-/

set_option linter.unusedSectionVars false

namespace Verif.Tens
open Verif.Params

variable {pr : Problem} {m : Nat} {dom : Theta → Prop} {tol : ℝ}

theorem broydenLoop_tried {G Y D H N : Type} (env : Fit.Env ℝ G Y D H N) (vb : Nat) (o : Fit.Obj ℝ N) (i1 : Nat) : ∀ (k : Nat) (flat grad : List ℝ) (J : N) (g : G),
    ∀ tr ∈ (Fit.broydenLoop env o vb i1 k flat grad J g).trace, ∀ q ∈ tr, ∃ f, reshapeParams o.params f = .ok q := by
  intro k
  induction k with
  | zero => intro flat grad J g; simp [Fit.broydenLoop]
  | succ k ih =>
    intro flat grad J g
    simp only [Fit.broydenLoop]
    split
    · simp
    · split
      · simp
      · split
        · simp
        · rename_i f _ q hq
          have hx : ∀ tr ∈ [[q]], ∀ q' ∈ tr, ∃ f, reshapeParams o.params f = .ok q' := by
            intro tr h1 q' h2
            rw [List.mem_singleton.1 h1] at h2
            rw [List.mem_singleton.1 h2]
            exact ⟨_, hq⟩
          split
          · exact hx
          · split
            · exact hx
            · split
              · exact hx
              · split <;> exact hx
              · split
                · exact hx
                · intro tr ht
                  rcases List.mem_cons.1 ht with rfl | ht
                  · exact hx _ (List.mem_singleton.2 rfl)
                  · exact ih _ _ _ _ tr ht

/-- If the log-likelihood is defined everywhere, then it is defined at the points that Broyden's method tries. -/
theorem broyden_dom {G Y D H N : Type} (hm : 0 < m) (hd : ∀ θ, dom θ) (env : Fit.Env ℝ G Y D H N) {θ : Theta} {o : Fit.Obj ℝ N} (hat : AtPoint pr m θ o.params)
    {maxSteps verbose : Nat} : ∀ tr ∈ (Fit.fit env o maxSteps verbose .broyden).trace, ∀ q ∈ tr, ∃ θ', dom θ' ∧ AtPoint pr m θ' q := by
  intro tr ht q hq
  have : ∃ f, reshapeParams o.params f = .ok q := by
    unfold Fit.fit at ht
    rw [flatParams_ok (hat.ne hm)] at ht
    dsimp only at ht
    unfold Fit.broyden at ht
    split at ht
    · simp at ht
    · dsimp only at ht
      split at ht
      · simp at ht
      · split at ht
        · simp at ht
        · split at ht
          · simp at ht
          · exact broydenLoop_tried _ _ _ _ _ _ _ _ _ tr ht q hq
  obtain ⟨f, hf⟩ := this
  have := Fit.reshapeParams_keeps _ _ _ hat.wf hf
  exact ⟨_, hd _, hat.layout this.layout this.wf⟩

/-- **C71.** The fit of test_poisson_sum with a constraint and a penalty by Broyden's method, for all data with positive total weight, from any start point with a free
entry: it converges, or raises `ConvergenceError`, or the penalised log-likelihood is exactly 0 at a point tried; unless it converges the parameters are as they were. -/
theorem C71_example {s : Nat} (hs : s ≠ 0) {X Nw : Num ℝ} (hX : (square s).IsData X) (hN : (square s).IsData Nw) (hT : 0 < ∑ c, (square s).val Nw c)
    {θ : Theta} {o : Fit.Obj ℝ (List (List ℝ))} (hat : AtPoint (square s) 3 θ o.params) (hF : 1 ≤ totalFree o.params) (hfr : o.converged = false) {maxSteps : Nat}
    {r : Fit.Result ℝ (List (List ℝ))} (hr : r = Fit.fit (MaxLikeT.env ⟨composeT logT [bothModel], PoissonT.like X Nw, PoissonT.gradLike X Nw, PoissonT.hessLike X Nw, Nw,
        [⟨[0, 1], linearT [1, 1]⟩], [⟨[0, 1], quadraticT 0 10⟩]⟩ exactPinvh tol) o maxSteps 0 .broyden) :
    (r.outcome = .ok true ∧ r.obj.converged = true) ∨
      ((r.outcome = .error .convergence ∨ r.outcome = .error .zeroDivision) ∧ r.obj.converged = false ∧ r.obj.params = o.params) := by
  obtain ⟨D, H, -, hrun⟩ := C71_run (C68_example hs hX hN hT)
  have hd := broyden_dom (dom := fun _ => True) (by omega : 0 < 3) (fun _ => trivial) (MaxLikeT.env ⟨composeT logT [bothModel], PoissonT.like X Nw, PoissonT.gradLike X Nw, PoissonT.hessLike X Nw, Nw,
    [⟨[0, 1], linearT [1, 1]⟩], [⟨[0, 1], quadraticT 0 10⟩]⟩ exactPinvh tol) hat (maxSteps := maxSteps) (verbose := 0)
  rw [← hr] at hd
  obtain ⟨Hs, n, q, v, sg, J, -, -, -, -, -, he⟩ := hrun tol θ trivial o hat hF (Or.inl hfr) maxSteps 0 r hr hd
  cases he with
  | returns θ₀ θ₁ B k hn hv h h₀ h₁ at₀ at₁ ne close params flag stored sq inv => exact Or.inl ⟨h, flag⟩
  | divisionByZero θ₁ hv h h₁ at₁ zero params flag => exact Or.inr ⟨Or.inr h, flag, params⟩
  | exhausted h hn params flag => exact Or.inr ⟨Or.inl h, flag, params⟩
  | stuck θ₁ k hv hn h h₁ at₁ same params flag => exact Or.inr ⟨Or.inl h, flag, params⟩
  | verbose hn hv' h params flag => omega

/-- **C71.** Broyden's method from the maximum of a concave, well posed problem (C70) returns `True` and leaves the parameters as they are, unless the penalised
log-likelihood is exactly 0 there. -/
theorem C71_concave_maximum_kept {M : MaxLikeT ℝ} {L : Theta → ℝ} {cs : List (List Nat × List ℝ)} {qs : List (List Nat × ℝ × ℝ)} {T : ℝ} {y : Theta → pr.Cell → ℝ}
    {x : pr.Cell → Nat → Nat → ℝ} {seen : pr.Cell → Prop} (hP : ConcaveProblem pr m M L cs qs T y x seen) {θ : Theta} {o : Fit.Obj ℝ (List (List ℝ))} (hat : AtPoint pr m θ o.params)
    (hF : 1 ≤ totalFree o.params) (hw : WellPosed pr o.params cs qs x seen) (hfr : o.converged = false ∨ o.flatHess = none)
    (hk : FirstOrder o.params (penalised L (quadPens pr qs)) (linCons pr cs) θ) (h0 : penalised L (quadPens pr qs) θ ≠ 0) (ht : 0 < tol) {maxSteps : Nat} (hs : 1 ≤ maxSteps) :
    (Fit.fit (M.env exactPinvh tol) o maxSteps 0 .broyden).outcome = .ok true ∧ (Fit.fit (M.env exactPinvh tol) o maxSteps 0 .broyden).obj.params = o.params := by
  obtain ⟨D, H, hD, hkeep⟩ := C71_optimum_kept hP.solver
  obtain ⟨D', H', hD', hst⟩ := C69_step_exists hP.solver
  have hc := (hP.concave hD' hat hw).2
  have hi : Independent o.params ((linCons pr cs).map fun c => c.der θ) := by
    rw [conDers_eq]
    exact hw.independent
  obtain ⟨step, v, J, e⟩ := hst exactPinvh tol θ trivial o.params hat hF hc hi
  exact hkeep tol θ trivial o hat hF hfr hk h0 ht (Or.inr ⟨(hP.concave hD hat hw).1, _, e⟩) maxSteps hs

/-- **C71.** test_poisson_broyden (tests.py:218-250) for all sizes, start points, masks and data with positive weights: the fit converges, or raises `ConvergenceError`, or the
log-likelihood is exactly 0 at a point tried; unless it converges the parameters are as they were. -/
theorem C71_example_broyden {s t u : Nat} {vector : NDArray ℝ} (hs : s ≠ 0) (ht : t ≠ 0) (hu : u ≠ 0) (h1 : vector.ndim = 1) (h2 : vector.shape 0 = u) {X Nw : Num ℝ}
    (hX : (threeFactor s t u).IsData X) (hN : (threeFactor s t u).IsData Nw) (hpos : ∀ c, 0 < (threeFactor s t u).val Nw c) {θ : Theta}
    {o : Fit.Obj ℝ (List (List ℝ))} (hat : AtPoint (threeFactor s t u) 3 θ o.params) (hF : 1 ≤ totalFree o.params) (hfr : o.converged = false ∨ o.flatHess = none)
    {maxSteps : Nat} {r : Fit.Result ℝ (List (List ℝ))}
    (hr : r = Fit.fit (MaxLikeT.env ⟨fooModel vector, PoissonT.like X Nw, PoissonT.gradLike X Nw, PoissonT.hessLike X Nw, Nw, [⟨[0, 1], linearT [1, 1]⟩], []⟩ exactPinvh tol) o
      maxSteps 0 .broyden) :
    (r.outcome = .ok true ∧ r.obj.converged = true) ∨
      ((r.outcome = .error .convergence ∨ r.outcome = .error .zeroDivision) ∧ r.obj.converged = false ∧ r.obj.params = o.params) := by
  have hM := C68_example_poisson hs ht hu h1 h2 hX hN (foo_total hs ht hu hpos)
  obtain ⟨D, H, -, hrun⟩ := C71_run hM
  have hd := broyden_dom (dom := fun _ => True) (by omega : 0 < 3) (fun _ => trivial) (MaxLikeT.env ⟨fooModel vector, PoissonT.like X Nw, PoissonT.gradLike X Nw, PoissonT.hessLike X Nw, Nw,
    [⟨[0, 1], linearT [1, 1]⟩], []⟩ exactPinvh tol) hat (maxSteps := maxSteps) (verbose := 0)
  rw [← hr] at hd
  obtain ⟨Hs, n, q, v, sg, J, -, -, -, -, -, he⟩ := hrun tol θ trivial o hat hF hfr maxSteps 0 r hr hd
  cases he with
  | returns θ₀ θ₁ B k hn hv h h₀ h₁ at₀ at₁ ne close params flag stored sq inv => exact Or.inl ⟨h, flag⟩
  | divisionByZero θ₁ hv h h₁ at₁ zero params flag => exact Or.inr ⟨Or.inr h, flag, params⟩
  | exhausted h hn params flag => exact Or.inr ⟨Or.inl h, flag, params⟩
  | stuck θ₁ k hv hn h h₁ at₁ same params flag => exact Or.inr ⟨Or.inl h, flag, params⟩
  | verbose hn hv' h params flag => omega

/-! ### counterexamples -/

/-- The number in a list of one scalar parameter. -/
def oneValue : List (Param ℚ) → ℚ
  | [⟨_, [x], _⟩] => x
  | _ => 0

/-- `pinvh` of an invertible matrix with at most two rows: the inverse of the symmetric matrix with its lower triangle. -/
def smallPinvh : List (List ℚ) → Except Err (List (List ℚ))
  | [[a]] => .ok [[1 / a]]
  | [[a, _], [b, d]] => .ok [[d / (a * d - b * b), -b / (a * d - b * b)], [-b / (a * d - b * b), a / (a * d - b * b)]]
  | _ => .error .valueError

/-- The callbacks for one scalar parameter, with the objective `g`, its derivatives `g1` and `g2`, and the values and derivatives of the constraints. -/
def oneEnv (g g1 g2 : ℚ → ℚ) (cs : List ((ℚ → ℚ) × (ℚ → ℚ))) (tol : ℚ) : Fit.Env ℚ ℚ Unit Unit Unit (List (List ℚ)) where
  modelEval _ := .ok ((), (), ())
  modelCall _ := .ok ()
  modelGrad _ := .ok ()
  obj ps _ := .ok (g (oneValue ps))
  flatGrad ps _ _ := .ok (g1 (oneValue ps) :: cs.map fun c => c.1 (oneValue ps))
  flatHess ps _ _ _ := .ok ((g2 (oneValue ps) :: cs.map fun c => c.2 (oneValue ps)) :: cs.map fun c => c.2 (oneValue ps) :: cs.map fun _ => 0)
  solve _ _ := .error .linAlg
  pinvh := smallPinvh
  dim J := J.length
  direction := Flat.broydenDirection
  update := Flat.broydenUpdate
  nConstraints := cs.length
  ge a b := decide (a ≥ b)
  conv a b := if b = 0 then .error .zeroDivision else .ok (decide (|a / b - 1| < tol))
  one := 1
  half := 1 / 2

/-- "A Broyden fit that returns `True` has not decreased the objective" is false: for the objective `θ ^ 2 - 1000` it goes from 1 to the minimum at 0. -/
theorem C71_decreases_counterexample :
    let r := Fit.fit (oneEnv (fun x => x ^ 2 - 1000) (fun x => 2 * x) (fun _ => 2) [] (1 / 100)) ⟨[⟨[], [1], [false]⟩], none, false⟩ 10 0 .broyden
    r.outcome = .ok true ∧ r.obj.params = [⟨[], [0], [false]⟩] ∧ (0 : ℚ) ^ 2 - 1000 < 1 ^ 2 - 1000 := by
  refine ⟨?_, ?_, by norm_num⟩ <;> decide +kernel

/-- "After a Broyden fit that returns `True`, `fisher_matrix()` has the second derivatives of the objective" is false, already for the objective
`-(θ - 3) ^ 2 / 2 - 1` with the constraint `θ - 1 = 0`, where the bordered matrix of second derivatives is the same at all points.  The fit converges to the right point,
but `J` is updated with the step of the multipliers, although the derivatives of the objective do not depend on the multipliers; and `pinvh` reads only the lower triangle of
`J`, which is not symmetric any more. -/
theorem C71_stored_hessian_counterexample :
    let env := oneEnv (fun x => -(x - 3) ^ 2 / 2 - 1) (fun x => 3 - x) (fun _ => -1) [(fun x => x - 1, fun _ => 1)] (1 / 100)
    let r := Fit.fit env ⟨[⟨[], [0], [false]⟩], none, false⟩ 10 0 .broyden
    r.outcome = .ok true ∧ r.obj.params = [⟨[], [1], [false]⟩] ∧ r.obj.flatHess = some [[0, 1 / 2], [1 / 2, 0]] ∧
      env.flatHess r.obj.params () () () = .ok [[-1, 1], [1, 0]] ∧
      reshapeMatrix r.obj.params (r.obj.flatHess.getD []) 0 = .ok [[[[0]]]] ∧
      reshapeMatrix r.obj.params [[-1, 1], [1, 0]] (0 : ℚ) = .ok [[[[-1]]]] := by
  refine ⟨?_, ?_, ?_, ?_, ?_, ?_⟩ <;> decide +kernel

end Verif.Tens
