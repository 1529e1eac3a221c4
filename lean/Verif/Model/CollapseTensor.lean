import Verif.Model.Markov
import Verif.Model.ComposeTensor

/-!
# Model of `CollapseMatrix` (maxlike/func/matrix.py:7-56) in terms of Tensors
-/

namespace Verif.Tens
open Verif.Params (Err)
open Verif.Markov (Cond collapseInit)

section
variable {α : Type} [Field α] [DecidableEq α]

/-- `np.stack(val, -1)` for arrays of one shape; `ValueError` for an empty list (matrix.py:36, 49). -/
def stackLast : List (NDArray α) → Except Err (NDArray α)
  | [] => .error .valueError
  | a :: l => .ok ⟨a.ndim + 1, fun k => if k < a.ndim then a.shape k else l.length + 1, fun s => ((a :: l).getD (s a.ndim) a).get s⟩

/-- `arr * filt` (matrix.py:31-34, 44-47): `filt` has the sizes of the last two axes of `arr`, so that no axis is broadcast to a larger size. -/
def maskLast (arr : NDArray α) (q : Cond) : NDArray α :=
  ⟨arr.ndim, arr.shape, fun s => arr.get s * if q.holds (s (arr.ndim - 2)) (s (arr.ndim - 1)) then 1 else 0⟩

/-- `self.conditions`; the attribute is missing if conditions were given (matrix.py:16-21). -/
def conditionsOf (conditions : Option (List Cond)) : Except Err (List Cond) :=
  match collapseInit conditions with
  | none => .error .attribute
  | some qs => .ok qs

/-- `arr.shape[-2]` and `arr.shape[-1]` raise `IndexError` for arrays with fewer than two axes (matrix.py:29-30, 41-42). -/
def twoAxes (arr : NDArray α) : Except Err Unit := if arr.ndim < 2 then .error .indexError else .ok ()

/-- `CollapseMatrix.__call__` (matrix.py:23-37) -/
def collapseCallT (conditions : Option (List Cond)) (ps : List (Tensor α)) : Except Err (Py α) := do
  let p ← pick ps 0
  twoAxes p.values
  let qs ← conditionsOf conditions
  let v ← stackLast (qs.map fun q => (maskLast p.values q).sumAxes [p.values.ndim - 2, p.values.ndim - 1])
  ofArray v 1

/-- `CollapseMatrix.grad` (matrix.py:39-56) -/
def collapseGradT (conditions : Option (List Cond)) (ps : List (Tensor α)) : Except Err (Py α) := do
  let p ← pick ps 0
  let ones := p.values.map fun _ => (1 : α)
  twoAxes ones
  let qs ← conditionsOf conditions
  let v ← stackLast (qs.map fun q => maskLast ones q)
  let v := v.swapaxes 0 (ones.ndim - 2)
  let v := v.swapaxes 1 (ones.ndim - 1)
  let v ← v.newAxes (List.replicate (ones.ndim - 2) false)
  let t ← mkTensor v ones.ndim 0 1 ((List.range (ones.ndim - 2)).map (Nat.cast : Nat → Int) ++ [-1, -1]) []
  .ok (.arr (.tensor t))

/-- `CollapseMatrix(conditions)` (matrix.py:7-56); `hess = null_func` -/
def collapseMatrixT (conditions : Option (List Cond)) : TFunc α :=
  .ofMethods (collapseCallT conditions) (fun ps _ => collapseGradT conditions ps) (fun _ _ _ => nullFunc) false true

end

end Verif.Tens
