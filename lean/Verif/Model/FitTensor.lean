import Verif.Model.FuncOpTensor

/-!
# Model of maxlike_base.py: the likelihood of a model given as a function

The likelihood classes take the values and derivatives of the model as arguments (`Model/LikeTensor.lean`);
`MaxLike` computes them with the methods of the function `model`.
-/

namespace Verif.Tens
open Verif.Params (Err)

section
variable {α : Type}

/-- The methods of the likelihoods are modelled for arrays; that a model returns a number (a `Sum` without atoms) is not. -/
def Py.toNum : Py α → Except Err (Num α)
  | .num _ => .error .attribute
  | .arr v => .ok v

/-- `self.like(params, self.model(params))` (maxlike_base.py:98-100) -/
def modelLike (f : TFunc α) (like : Num α → Except Err (Num α)) (ps : List (Tensor α)) : Except Err (Num α) := do
  let y ← f.call ps
  let y ← y.toNum
  like y

/-- `self.grad_like(params, y, der)` with `y, der, hess = self.model.eval(params)` (maxlike_base.py:420-423, 324) -/
def modelGrad (f : TFunc α) (grad : Num α → List (Num α) → Except Err (List (Num α))) (ps : List (Tensor α)) :
    Except Err (List (Num α)) := do
  let e ← f.eval ps
  let y ← e.val.toNum
  let der ← e.grad.mapM Py.toNum
  grad y der

/-- `self.grad_like(params, y, der)` with `y, der = self.model(params), self.model.grad(params)` (maxlike_base.py:547-548, 324) -/
def modelGradCall (f : TFunc α) (grad : Num α → List (Num α) → Except Err (List (Num α))) (ps : List (Tensor α)) :
    Except Err (List (Num α)) := do
  let y ← f.call ps
  let y ← y.toNum
  let der ← f.grads ps
  let der ← der.mapM Py.toNum
  grad y der

/-- `self.hess_like(params, y, der, hess)` with `y, der, hess = self.model.eval(params)` (maxlike_base.py:420-424, 352) -/
def modelHess (f : TFunc α) (hess : Num α → List (Num α) → List (List (Num α)) → Except Err (List (List (Num α))))
    (ps : List (Tensor α)) : Except Err (List (List (Num α))) := do
  let e ← f.eval ps
  let y ← e.val.toNum
  let der ← e.grad.mapM Py.toNum
  let h ← e.hess.mapM fun l => l.mapM Py.toNum
  hess y der h

end

end Verif.Tens
