import Verif.Spec.ErrorsTensor
import Verif.Model.Fit

/-!
# Specification: Broyden's method
-/

namespace Verif.Tens
open Verif.Params

/-- `q'` is `q` after adding `step` (one number for each free entry, in order, and possibly more numbers, which are ignored) to the free entries. -/
structure MovedBy {n : Nat} (q q' : List (Param ℝ)) (step : Fin n → ℝ) : Prop where
  layout : SameLayout q' q
  free : ∀ i a, isFree q i a → ∃ (x : ℝ) (h : freeRank q i a < n), entry q i a = some x ∧ entry q' i a = some (x + step ⟨freeRank q i a, h⟩)
  fixed : ∀ i a, isFixed q i a → entry q' i a = entry q i a

/-- A run of Broyden's method of `k` steps on the constrained problem with gradient `D` and constraints `gs`: the points `q 0, …, q k`, the vectors `v` of the first
derivatives (free entries) and the values of the constraints at these points, the matrices `J` (approximations of the inverse of the bordered Hessian) and the steps
`s`.  Each step is `-J v`; each matrix maps the last change of `v` to the last step, and agrees with the matrix before it on the directions that are orthogonal to this
change. -/
structure BroydenRun (pr : Problem) (m : Nat) (dom : Theta → Prop) (D : Theta → Nat → Nat → ℝ) (gs : List Con) {n : Nat} (k : Nat)
    (q : Nat → List (Param ℝ)) (v s : Nat → Fin n → ℝ) (J : Nat → Matrix (Fin n) (Fin n) ℝ) : Prop where
  grad : ∀ i < k, ∃ θ, dom θ ∧ AtPoint pr m θ (q i) ∧ FlatGradIs (q i) (D θ) (gs.map fun c => c.val θ) (List.ofFn (v i))
  step : ∀ i < k, s i = -(J i).mulVec (v i)
  move : ∀ i < k, MovedBy (q i) (q (i + 1)) (s i)
  secant : ∀ i, i + 1 < k → v (i + 1) ≠ v i ∧ (J (i + 1)).mulVec (v (i + 1) - v i) = s i
  keep : ∀ i, i + 1 < k → ∀ z, dotProduct (v (i + 1) - v i) z = 0 → (J (i + 1)).mulVec z = (J i).mulVec z

/-- How Broyden's method can end after it has tried the points `q 1, …, q n`; `P` is the penalised log-likelihood.
* It returns `True`: the last two values of `P` agree to within `tol`; the last point and the pseudo-inverse of (the lower triangle of) the last `J` are stored.
* It raises, and the parameters of the object are as they were: `ZeroDivisionError` if `P` is 0 at the last point; `ConvergenceError` after `maxSteps` steps, or if the last
step did not change the derivatives and the constraints; `NameError` in the first step if `verbose` is positive. -/
inductive BroydenEnd (pr : Problem) (m : Nat) (dom : Theta → Prop) (P : Theta → ℝ) (D : Theta → Nat → Nat → ℝ) (gs : List Con) (tol : ℝ) (o : Fit.Obj ℝ (List (List ℝ)))
    {N : Nat} (maxSteps verbose n : Nat) (q : Nat → List (Param ℝ)) (v : Nat → Fin N → ℝ) (J : Nat → Matrix (Fin N) (Fin N) ℝ) (r : Fit.Result ℝ (List (List ℝ))) : Prop
  | returns (θ₀ θ₁ : Theta) (B : List (List ℝ)) (k : Nat) (hn : n = k + 1) (hv : verbose = 0) (h : r.outcome = .ok true) (h₀ : dom θ₀) (h₁ : dom θ₁)
      (at₀ : AtPoint pr m θ₀ (q k)) (at₁ : AtPoint pr m θ₁ (q (k + 1))) (ne : P θ₁ ≠ 0) (close : |P θ₀ / P θ₁ - 1| < tol) (params : r.obj.params = q (k + 1))
      (flag : r.obj.converged = true) (stored : r.obj.flatHess = some B) (sq : Square N B) (inv : IsPinv (lowerOf (J k)) (toMat N B)) : BroydenEnd ..
  | divisionByZero (θ₁ : Theta) (hv : verbose = 0) (h : r.outcome = .error .zeroDivision) (h₁ : dom θ₁) (at₁ : AtPoint pr m θ₁ (q n)) (zero : P θ₁ = 0) (params : r.obj.params = o.params)
      (flag : r.obj.converged = false) : BroydenEnd ..
  | exhausted (h : r.outcome = .error .convergence) (hn : n = maxSteps) (params : r.obj.params = o.params) (flag : r.obj.converged = false) : BroydenEnd ..
  | stuck (θ₁ : Theta) (k : Nat) (hv : verbose = 0) (hn : n = k + 1) (h : r.outcome = .error .convergence) (h₁ : dom θ₁) (at₁ : AtPoint pr m θ₁ (q (k + 1)))
      (same : FlatGradIs (q (k + 1)) (D θ₁) (gs.map fun c => c.val θ₁) (List.ofFn (v k))) (params : r.obj.params = o.params) (flag : r.obj.converged = false) : BroydenEnd ..
  | verbose (hn : n = 1) (hv : 0 < verbose) (h : r.outcome = .error .nameError) (params : r.obj.params = o.params) (flag : r.obj.converged = false) : BroydenEnd ..

end Verif.Tens
