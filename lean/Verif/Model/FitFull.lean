import Verif.Model.Fit
import Verif.Model.FlatTensor
import Mathlib.Data.Real.Basic
import Mathlib.Algebra.Order.Group.Unbundled.Abs
import Verif.Spec.Flat

/-!
# Model of `fit` with a model on Tensors

`Model/Fit.lean` has the control flow of `fit` and `newton_step` with the calculations as callbacks; here the callbacks are the methods of
`maxlike/maxlike_base.py` on Tensors: `g` (94-104), `flat_grad` (321-343), `flat_hess` (345-416), and `model.eval`, `model.__call__`, `model.grad`.
The numbers are real numbers, so `np.linalg.solve` is exact.  `scipy.linalg.pinvh` (Broyden only) is a parameter.
-/

namespace Verif.Tens
open Verif.Params (Err Param)

section
variable {α : Type} [Field α] [DecidableEq α]

/-- A `MaxLike` object: the model, the methods `like`, `grad_like` and `hess_like` of its class for the data that it holds, the weights `N`, the constraints and
the regularisations (maxlike_base.py:60-71). -/
structure MaxLikeT (α : Type) where
  model : TFunc α
  like : Num α → Except Err (Num α)
  gradLike : Num α → List (Num α) → Except Err (List (Num α))
  hessLike : Num α → List (Num α) → List (List (Num α)) → Except Err (List (List (Num α)))
  N : Num α
  constraint : List (TTerm α)
  reg : List (TTerm α)

/-- `x / y` (tensor.py:204-208); the division of two numbers of Python is not needed. -/
def Py.div : Py α → Num α → Except Err (Py α)
  | .num a, v => (v.scalarOp .rdiv a).map .arr
  | .arr v, w => (v.bin w .div).map .arr

/-- `float(x)` (tensor.py:925-928); a GenericTensor has no `__float__`. -/
def Py.float : Py α → Except Err α
  | .num c => .ok c
  | .arr (.tensor t) => if t.values.ndim = 0 then .ok (t.values.get fun _ => 0) else .error .valueError
  | .arr (.generic _) => .error .typeError

/-- The loop `for param_map, h in self.reg: g -= h(…)` (maxlike_base.py:101-102). -/
def subRegs (ps : List (Tensor α)) : List (TTerm α) → Py α → Except Err (Py α)
  | [], g => .ok g
  | t :: ts, g => do
    let args ← t.paramMap.mapM (pick ps)
    let v ← t.f.call args
    let g ← g.sub v
    subRegs ps ts g

/-- `g(params, y)` (maxlike_base.py:94-104) for a given `y`. -/
def objT (M : MaxLikeT α) (params : List (Param α)) (y : Num α) : Except Err α := do
  let g ← M.like y
  let g ← subRegs (params.map paramTensor) M.reg (.arr g)
  let n ← M.N.sumAll
  let r ← g.div n
  r.float

/-- `self.model.eval(params)` (maxlike_base.py:420, 515) -/
def evalT (M : MaxLikeT α) (params : List (Param α)) : Except Err (Num α × List (Num α) × List (List (Num α))) := do
  let e ← M.model.eval (params.map paramTensor)
  let y ← e.val.toNum
  let der ← e.grad.mapM Py.toNum
  let h ← e.hess.mapM fun l => l.mapM Py.toNum
  pure (y, der, h)

/-- `self.model(params)` (maxlike_base.py:99, 547) -/
def callT (M : MaxLikeT α) (params : List (Param α)) : Except Err (Num α) := do
  let y ← M.model.call (params.map paramTensor)
  y.toNum

/-- `self.model.grad(params)` (maxlike_base.py:547): the list of the gradients (func_base.py:88-103) -/
def gradsT (M : MaxLikeT α) (params : List (Param α)) : Except Err (List (Num α)) := do
  let l ← M.model.grads (params.map paramTensor)
  l.mapM Py.toNum

end

open scoped Classical in
/-- `np.linalg.solve(M, b)` in exact arithmetic: `LinAlgError` unless the solution exists and is unique. -/
noncomputable def exactSolve (M : List (List ℝ)) (b : List ℝ) : Except Err (List ℝ) :=
  if h : ∃! x, Flat.Solves M x b then .ok h.choose else .error .linAlg

open scoped Classical in
/-- The callbacks of `fit` (maxlike_base.py:418-562) for a `MaxLike` object with the tolerance `tol`. -/
noncomputable def MaxLikeT.env (M : MaxLikeT ℝ) (pinvh : List (List ℝ) → Except Err (List (List ℝ))) (tol : ℝ) :
    Fit.Env ℝ ℝ (Num ℝ) (List (Num ℝ)) (List (List (Num ℝ))) (List (List ℝ)) where
  modelEval := evalT M
  modelCall := callT M
  modelGrad := gradsT M
  obj := objT M
  flatGrad params y der := do
    let gl ← M.gradLike y der
    flatGradT params gl M.constraint M.reg
  flatHess params y der hess := do
    let hl ← M.hessLike y der hess
    flatHessT params hl M.constraint M.reg
  solve := exactSolve
  pinvh := pinvh
  dim J := J.length
  direction := Flat.broydenDirection
  -- if the gradient has not changed then Python divides 0 by 0: all the numbers are NaN from here on, no test succeeds, and `ConvergenceError` is raised after the
  -- last step
  update J step grad gradPrev := if (List.zipWith (· - ·) grad gradPrev).all (fun x => decide (x = 0)) then .error .convergence else Flat.broydenUpdate J step grad gradPrev
  nConstraints := M.constraint.length
  ge a b := decide (a ≥ b)
  conv a b := if b = 0 then .error .zeroDivision else .ok (decide (|a / b - 1| < tol))
  one := 1
  half := 1 / 2

end Verif.Tens
