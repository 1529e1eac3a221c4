import Verif.Model.ComposeTensor

/-!
# Model of `Product` (maxlike/func/func_op.py:223-300) in terms of Tensor operations
-/

namespace Verif.Tens
open Verif.Params (Err)

section
variable {α : Type} [Field α] [DecidableEq α]

/-- `reduce(lambda x, y: x * y, l)` (func_op.py:258-260, 265-266): TypeError for an empty list. -/
def reduceMul : List (Py α) → Except Err (Py α)
  | [] => .error .typeError
  | v :: l => l.foldlM Py.mul v

/-- `(el for i, el in enumerate(arr) if i not in except_idx)` (func_op.py:259-260) -/
def exceptIdx (arr : List (Py α)) (ex : List Nat) : List (Py α) :=
  (List.range arr.length).filterMap fun i => if i ∈ ex then none else arr[i]?

/-- `Product._prod(arr, except_idx)` (func_op.py:255-262): the number 1.0 for an empty product, and if a TypeError is raised. -/
def prodExcept (arr : List (Py α)) (ex : List Nat) : Except Err (Py α) :=
  match reduceMul (exceptIdx arr ex) with
  | .error .typeError => .ok (.num 1)
  | r => r

/-- `[atom(params) for atom in self.atoms]` (func_op.py:269, 274) -/
def atomVals (atoms : List (TFunc α × Wrap)) (ps : List (Tensor α)) : Except Err (List (Py α)) :=
  atoms.mapM fun a => a.2.call a.1 ps

/-- The expression for `hess[i][j]` in the loop of `eval` (func_op.py:291-295). -/
def prodHessEntry (acc e : Ev3 α) (i j : Nat) : Except Err (Py α) := do
  let eh ← pick2 e.hess i j
  let x ← Py.mul acc.val eh
  let ah ← pick2 acc.hess i j
  let y ← Py.mul e.val ah
  let x ← Py.add x y
  let gi ← pick acc.grad i
  let ej ← pick e.grad j
  let ej ← ej.transpose
  let y ← Py.mul gi ej
  let x ← Py.add x y
  let ei ← pick e.grad i
  let gj ← pick acc.grad j
  let gj ← gj.transpose
  let y ← Py.mul ei gj
  Py.add x y

/-- The expression for `grad[i]` (func_op.py:296-297). -/
def prodGradEntry (acc e : Ev3 α) (i : Nat) : Except Err (Py α) := do
  let ei ← pick e.grad i
  let x ← Py.mul acc.val ei
  let gi ← pick acc.grad i
  let y ← Py.mul e.val gi
  Py.add x y

/-- One pass of the loop of `Product.eval` (func_op.py:288-298).  (`hess[i][j]` only depends on its own old value, and on the
gradients, which are replaced afterwards.) -/
def prodStep (m : Nat) (acc : Ev3 α) (a : TFunc α × Wrap) (ps : List (Tensor α)) : Except Err (Ev3 α) := do
  let e ← a.2.eval a.1 ps
  let h ← (List.range m).mapM fun i => (List.range (i + 1)).mapM fun j => prodHessEntry acc e i j
  let g ← (List.range m).mapM fun i => prodGradEntry acc e i
  let v ← Py.mul acc.val e.val
  .ok ⟨v, g, h⟩

/-- `Product._prod(f_val, [k, l]) * a_k.grad(params, i) * a_l.grad(params, j).transpose()` (func_op.py:277-279) -/
def prodCross (vs : List (Py α)) (a b : TFunc α × Wrap) (ps : List (Tensor α)) (i j k l : Nat) : Except Err (Py α) := do
  let p ← prodExcept vs [k, l]
  let x ← a.2.grad a.1 ps i
  let x ← Py.mul p x
  let y ← b.2.grad b.1 ps j
  let y ← y.transpose
  Py.mul x y

/-- One pass of the loop of `Product.hess` (func_op.py:277-281) -/
def prodHessStep (atoms : List (TFunc α × Wrap)) (vs : List (Py α)) (ps : List (Tensor α)) (i j : Nat) (h : Py α) (k : Nat) :
    Except Err (Py α) := do
  let a ← pick atoms k
  let terms ← ((List.range atoms.length).filter fun l => decide (k ≠ l)).mapM fun l => do
    let b ← pick atoms l
    prodCross vs a b ps i j k l
  let s ← pySum terms
  let h ← Py.add h s
  let p ← prodExcept vs [k]
  let x ← a.2.hess a.1 ps i j
  let x ← Py.mul p x
  Py.add h x

/-- `Product` (func_op.py:223-300) with the given atoms.  (In `__call__` the values of the atoms are computed and multiplied in turn;
here they are all computed first.) -/
def productT (atoms : List (TFunc α × Wrap)) : TFunc α where
  call ps := do
    let vs ← atomVals atoms ps
    reduceMul vs
  grad ps i := do
    let vs ← atomVals atoms ps
    let l ← (List.range atoms.length).mapM fun k => do
      let a ← pick atoms k
      let p ← prodExcept vs [k]
      let x ← a.2.grad a.1 ps i
      Py.mul p x
    pySum l
  hess ps i j := do
    let vs ← atomVals atoms ps
    (List.range atoms.length).foldlM (prodHessStep atoms vs ps i j) (.num 0)
  eval ps := atoms.foldlM (fun acc a => prodStep ps.length acc a ps)
    ⟨.num 1, List.replicate ps.length zeroT, (List.range ps.length).map fun i => List.replicate (i + 1) zeroT⟩
  gradNull := false
  hessNull := false

end

end Verif.Tens
