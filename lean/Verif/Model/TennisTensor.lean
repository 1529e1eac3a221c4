import Verif.Model.Leaves
import Verif.Model.ComposeTensor
import Verif.Model.LikeTensor

/-!
# Model of `Game`, `TieBreak`, `Set` (maxlike/func/tennis.py) and `Collapse` (maxlike/func/func_op.py:113-142) in terms of Tensors

The functions of one number are those of `Model/Leaves.lean`.  Arithmetic is that of the real numbers.
-/

namespace Verif.Tens
open Verif.Params (Err)
open Verif.Func

section
variable {α : Type} [Field α] [DecidableEq α]

/-- `np.stack(g)` for arrays of one shape; `ValueError` for an empty list. -/
def stackFirst : List (NDArray α) → Except Err (NDArray α)
  | [] => .error .valueError
  | a :: l => .ok ⟨a.ndim + 1, fun k => if k = 0 then l.length + 1 else a.shape (k - 1), fun s => ((a :: l).getD (s 0) a).get fun j => s (j + 1)⟩

/-- `np.stack(g).swapaxes(0, -1)` (tennis.py:20, 31, 44, 65, 79, 95, 118, 140, 166) -/
def stackSwap (g : List (NDArray α)) : Except Err (NDArray α) := do
  let v ← stackFirst g
  .ok (v.swapaxes 0 (v.ndim - 1))

/-- `Game` and `TieBreak` (tennis.py:6-45, 48-96): `row`, `row1` and `row2` are the lists that `__call__`, `grad` and `hess` compute for one number, with
`size` elements. -/
def pointT (row row1 row2 : α → List α) (size : Nat) : TFunc α := .ofMethods
  (fun ps => do
    let p ← pick ps 0
    let v ← stackSwap ((List.range size).map fun k => p.values.map fun x => (row x).getD k 0)
    ofArray v 1)
  (fun ps i => do
    let p ← pick ps 0
    let v ← stackSwap ((List.range size).map fun k => p.values.map fun x => (row1 x).getD k 0)
    let q ← pick ps i
    (gradTensor v q.values.ndim .diag 1).map fun t => .arr (.tensor t))
  (fun ps i j => do
    let p ← pick ps 0
    let v ← stackSwap ((List.range size).map fun k => p.values.map fun x => (row2 x).getD k 0)
    let q ← pick ps i
    let r ← pick ps j
    (hessTensor v q.values.ndim r.values.ndim .diag .diag 1).map fun t => .arr (.tensor t))
  false false

/-- An elementwise function of two arrays.  Simplification: it is the one computed by numpy and by the Tensors if the arrays have the same shape. -/
def zipSame (f : α → α → α) (a b : NDArray α) : NDArray α := ⟨a.ndim, a.shape, fun s => f (a.get s) (b.get s)⟩

/-- `p, t = params` (tennis.py:106, 121, 144) -/
def unpack2 (ps : List (Tensor α)) : Except Err (Tensor α × Tensor α) :=
  match ps with
  | [p, t] => .ok (p, t)
  | _ => .error .valueError

end

/-- `Game` (tennis.py:6-45) -/
noncomputable def gameT : TFunc ℝ := pointT gameVals gameGrad gameHess 4

/-- `TieBreak` (tennis.py:48-96) -/
noncomputable def tieT : TFunc ℝ := pointT tieVals tieGrad tieHess 7

/-- The list of arrays that `Set` stacks: the elements of `f p t`, for parameters of one shape. -/
noncomputable def setArrays (f : ℝ → ℝ → List ℝ) (p t : Tensor ℝ) : List (NDArray ℝ) :=
  (List.range 7).map fun k => zipSame (fun x y => (f x y).getD k 0) p.values t.values

/-- The elements of a list that `grad` or `hess` compute if they do not raise an error. -/
def elems (x : Except Err (List ℝ)) : List ℝ := x.toOption.getD []

/-- `Set.grad` (tennis.py:120-141) -/
noncomputable def setGradT (ps : List (Tensor ℝ)) (i : Nat) : Except Err (Py ℝ) := do
  let (p, t) ← unpack2 ps
  if 2 ≤ i then .error .valueError
  else do
    let v ← stackSwap (setArrays (fun x y => elems (setGrad x y i)) p t)
    let q ← pick ps i
    (gradTensor v q.values.ndim .diag 1).map fun t => .arr (.tensor t)

/-- `Set.hess` (tennis.py:143-167) -/
noncomputable def setHessT (ps : List (Tensor ℝ)) (i j : Nat) : Except Err (Py ℝ) := do
  let (p, t) ← unpack2 ps
  if 2 ≤ i ∨ i < j then .error .valueError
  else do
    let v ← stackSwap (setArrays (fun x y => elems (setHess x y i j)) p t)
    let q ← pick ps i
    let r ← pick ps j
    (hessTensor v q.values.ndim r.values.ndim .diag .diag 1).map fun t => .arr (.tensor t)

/-- `Set` (tennis.py:99-167), for parameters of one shape -/
noncomputable def setT : TFunc ℝ := .ofMethods
  (fun ps => do
    let (p, t) ← unpack2 ps
    let v ← stackSwap (setArrays setVals p t)
    ofArray v 1) setGradT setHessT false false

section
variable {α : Type} [Field α] [DecidableEq α]

/-- `x.sum(sum_val, sum_dim)`; numbers have no such method. -/
def Py.sumOver (sumVal : SumVal) (sumDim : Bool) : Py α → Except Err (Py α)
  | .num _ => .error .attribute
  | .arr v => (v.sum sumVal sumDim).map .arr

/-- `Collapse(foo, sum_val, sum_dim)` (func_op.py:113-142) -/
def collapseT (f : TFunc α) (sumVal : SumVal) (sumDim : Bool) : TFunc α where
  call ps := do
    let v ← f.call ps
    v.sumOver sumVal sumDim
  grad ps i := do
    let v ← f.grad ps i
    v.sumOver sumVal sumDim
  hess ps i j := do
    let v ← f.hess ps i j
    v.sumOver sumVal sumDim
  eval ps := do
    let e ← f.eval ps
    let v ← e.val.sumOver sumVal sumDim
    let g ← e.grad.mapM (Py.sumOver sumVal sumDim)
    let h ← e.hess.mapM fun l => l.mapM (Py.sumOver sumVal sumDim)
    .ok ⟨v, g, h⟩
  gradNull := false
  hessNull := false

end

end Verif.Tens
