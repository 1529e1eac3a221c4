import Verif.Model.FitFull
import Verif.Spec.FlatTensor

/-!
# Specification: a parameter that does not occur in the model
-/

namespace Verif.Tens
open Verif.Params (Err Param)

/-- `flat_grad` raises `IndexError` at all parameters in `dom`, and so does `fit`, with both methods and all options that allow at least one step; the parameters of
the object remain as they are (and with Newton's method the whole object). -/
def CannotFit (pr : Problem) (m : Nat) (dom : Theta → Prop) (M : MaxLikeT ℝ) : Prop :=
  ∀ θ, dom θ → ∀ o : Fit.Obj ℝ (List (List ℝ)), AtPoint pr m θ o.params →
    flatGradM (modelGrad M.model M.gradLike) o.params M.constraint M.reg = .error .indexError ∧
    ∀ pinvh tol maxSteps verbose, 1 ≤ maxSteps →
      (Fit.fit (M.env pinvh tol) o maxSteps verbose .newton).outcome = .error .indexError ∧
      (Fit.fit (M.env pinvh tol) o maxSteps verbose .newton).obj = o ∧
      (Fit.fit (M.env pinvh tol) o maxSteps verbose .broyden).outcome = .error .indexError ∧
      (Fit.fit (M.env pinvh tol) o maxSteps verbose .broyden).obj.params = o.params

end Verif.Tens
