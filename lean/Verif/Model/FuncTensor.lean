import Verif.Model.Tensor

/-!
# Model of maxlike/func/func_base.py: derivatives as Tensors

`grad_tensor` and `hess_tensor` build the Tensors that the functions return as derivatives.
-/

namespace Verif.Tens
open Verif.Params (Err)
open NDArray

/-- The arguments `x_map`, `y_map`: `None`, `True` or a list (func_base.py:24-34).  Other values, which raise
`ValueError`, are not modelled. -/
inductive MapArg where
  | none
  | diag
  | list (l : List Int)

/-- `x_map is None` -/
def MapArg.isNone : MapArg → Bool
  | .none => true
  | _ => false

/-- The map passed to the Tensor, for `d` axes (func_base.py:24-34, 49-67) -/
def MapArg.map (d : Nat) : MapArg → List Int
  | .none => []
  | .diag => (List.range d).map (Nat.cast : Nat → Int)
  | .list l => l

variable {α : Type}

/-- `grad_tensor(values, params, i, x_map, dim)` (func_base.py:21-37); `xd` is `np.asarray(params[i]).ndim`. -/
def gradTensor (values : NDArray α) (xd : Nat) (xm : MapArg) (dim : Nat) : Except Err (Tensor α) :=
  match values.newAxes (if xm.isNone then [] else List.replicate xd false) with
  | .error e => .error e
  | .ok v => mkTensor v xd 0 dim (xm.map xd) []

/-- `hess_tensor(values, params, i, j, x_map, y_map, dim)` (func_base.py:40-69); `xd` and `yd` are the numbers of axes
of `params[i]` and `params[j]`. -/
def hessTensor (values : NDArray α) (xd yd : Nat) (xm ym : MapArg) (dim : Nat) : Except Err (Tensor α) :=
  match values.newAxes (List.replicate xd xm.isNone ++ List.replicate yd ym.isNone) with
  | .error e => .error e
  | .ok v => mkTensor v xd yd dim (xm.map xd) (ym.map yd)

end Verif.Tens
