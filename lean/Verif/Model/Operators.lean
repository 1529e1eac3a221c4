import Verif.Model.ComposeTensor
import Verif.Model.LikeTensor
import Mathlib.Analysis.SpecialFunctions.Pow.Real

/-!
# Operators and numpy functions applied to Tensors

How Python's operators and numpy's functions reach `bin_op` (tensor.py:186-208, 426-438, 772-776, 933-963), and the
dispatch of `dot` (tensor.py:306-319, 630-667).  numpy's rule for a call such as `np.add(x, y)` with operands that define
`__array_ufunc__`: the method of the leftmost such operand is called with the same inputs (the classes here are not
subclasses of each other).  `ndarray + t` is `np.add(ndarray, t)`.
-/

namespace Verif.Tens
open Verif.Params (Err)
open NDArray

section
variable {α : Type} [Field α] [DecidableEq α]

/-- What can stand beside a Tensor or GenericTensor: a number, an array, a Tensor or a GenericTensor. -/
inductive Arg (α : Type) where
  | prim (p : Prim α)
  | generic (g : Generic α)

/-- `+`, `-`, `*`, `/`, and `np.add`, `np.subtract`, `np.multiply`, `np.divide`. -/
inductive Arith where
  | add | sub | mul | div
  deriving DecidableEq

/-- The operation of `__add__`, `__sub__`, `__mul__`, `__truediv__` (tensor.py:186-205). -/
def Arith.op : Arith → Op
  | .add => .add
  | .sub => .sub
  | .mul => .mul
  | .div => .div

/-- The operation of `__radd__`, `__rsub__`, `__rmul__`, `__rtruediv__` (tensor.py:189-208). -/
def Arith.rop : Arith → Op
  | .add => .add
  | .sub => .rsub
  | .mul => .mul
  | .div => .rdiv

/-- The table of `__array_ufunc__` (tensor.py:428-435, 952-959). -/
def Arith.ufuncOp : Arith → Op
  | .add => .add
  | .sub => .rsub
  | .mul => .mul
  | .div => .rdiv

/-- `self.bin_op(other, op)` (tensor.py:356-424, 778-923) -/
def Num.binOp (self : Num α) (other : Arg α) (op : Op) : Except Err (Num α) :=
  match self, other with
  | .tensor t, .prim p => t.binPrim p op
  | .tensor t, .generic g =>
    match t.binGeneric g op with
    | .error e => .error e
    | .ok r => .ok (.generic r)
  | .generic g, .prim p =>
    match g.binPrim p op with
    | .error e => .error e
    | .ok r => .ok (.generic r)
  | .generic g, .generic h =>
    match g.binGeneric h op with
    | .error e => .error e
    | .ok r => .ok (.generic r)

/-- A Tensor or GenericTensor as an operand. -/
def Num.arg : Num α → Arg α
  | .tensor t => .prim (.tensor t)
  | .generic g => .generic g

/-- `self.__array_ufunc__(ufunc, '__call__', x, y)` for the four arithmetic functions (tensor.py:426-438, 951-963):
only `inputs[0]` is used. -/
def Num.arrayUfunc (self : Num α) (f : Arith) (x _y : Arg α) : Except Err (Num α) := self.binOp x f.ufuncOp

/-- A number or an array that is not a Tensor. -/
inductive Operand (α : Type) where
  /-- a Python number -/
  | number (c : α)
  /-- a numpy array or numpy scalar -/
  | array (a : NDArray α)

/-- The same as an operand of `bin_op`. -/
def Operand.prim : Operand α → Prim α
  | .number c => .scalar c
  | .array a => .array a

/-- `a op other`: the method of the left operand (tensor.py:186-205). -/
def opLeft (f : Arith) (a : Num α) (other : Arg α) : Except Err (Num α) := a.binOp other f.op

/-- `p op a`: for a Python number the reflected method of `a` (tensor.py:189-208), for an array
`np.add(p, a)`, …, which calls `a.__array_ufunc__` (tensor.py:426-438, 951-963). -/
def opRight (f : Arith) (p : Operand α) (a : Num α) : Except Err (Num α) :=
  match p with
  | .number c => a.binOp (.prim (.scalar c)) f.rop
  | .array v => a.arrayUfunc f (.prim (.array v)) a.arg

/-- `np.add(p, a)`, … with a number or an array on the left. -/
def npRight (f : Arith) (p : Operand α) (a : Num α) : Except Err (Num α) := a.arrayUfunc f (.prim p.prim) a.arg

/-- `np.add(a, other)`, … with a Tensor or GenericTensor on the left. -/
def npLeft (f : Arith) (a : Num α) (other : Arg α) : Except Err (Num α) := a.arrayUfunc f a.arg other

/-- `np.maximum(x, y)`, `np.minimum(x, y)` where `x` or `y` is a Tensor (tensor.py:944-950), with a call stack of the
given depth.  `inputs[1]` is used as it is: if it is a Tensor, `ufunc(self.values, inputs[1])` comes back to
`__array_ufunc__`. -/
def npExtremum (f : α → α → α) : Nat → Prim α → Prim α → Except Err (Tensor α)
  | 0, _, _ => .error .recursion
  | depth + 1, x, y =>
    match (match x, y with
      | .tensor t, _ => some t
      | _, .tensor t => some t
      | _, _ => none) with
    | none => .error (.other "no Tensor among the operands")
    | some self =>
      if 0 < self.xDim ∨ 0 < self.yDim then .error .invalidOperation
      else
        match y with
        | .scalar c => mkTensor (self.values.map fun v => f v c) 0 0 self.dim [] []
        | .array a =>
          match NDArray.binary f self.values a with
          | .error e => .error e
          | .ok v => mkTensor v 0 0 self.dim [] []
        | .tensor _ =>
          match npExtremum f depth (.array self.values) y with
          | .error e => .error e
          | .ok r => mkTensor r.values 0 0 self.dim [] []

/-- `t ** a` for a number `a` (tensor.py:772-776), for any function `x ↦ x ** a` of numbers. -/
def Tensor.powBy (pow : α → α) (t : Tensor α) : Tensor α := { t with values := t.values.map pow }

/-! ### dot -/

/-- `t.dot(other)` for Tensors (tensor.py:630-667).  `none` is the number 0. -/
def Tensor.dot (t other : Tensor α) : Except Err (Option (Tensor α)) :=
  if t.values.ndim = 0 ∧ t.values.get (fun _ => 0) = 0 then .ok (some t)
  else if ¬ (t.dim = 0 ∨ other.dim = 0 ∨ t.dim = other.dim) then .error .assertion
  else if 0 < other.xDim ∧ 0 < other.yDim then
    if 0 < t.xDim then t.dotRight other
    else if 0 < t.yDim then
      match t.transpose.dotRight other.transpose with
      | .error e => .error e
      | .ok none => .error .attribute
      | .ok (some r) => .ok (some r.transpose)
    else .error .valueError
  else if 0 < other.xDim then (t.dotLeft other).map some
  else if 0 < other.yDim then (t.transpose.dotLeft other.transpose).map fun r => some r.transpose
  else if other.n = t.xDim then (t.dotLeft other).map some
  else if 0 < other.n ∧ other.n = t.yDim then (t.transpose.dotLeft other).map some
  else if other.values.ndim = 0 ∧ other.values.get (fun _ => 0) = 0 then .ok none
  else .error .valueError

/-- `g.dot(o)` for a GenericTensor and a Tensor (tensor.py:306-311) -/
def Generic.dotTensor (g : Generic α) (o : Tensor α) : Except Err (Generic α) :=
  g.elements.foldlM (fun (gt : Generic α) (e : Tensor α ⊕ NDArray α) => match e with
    | .inl t => do
      match ← t.dot o with
      | none => gt.binPrim (.scalar 0) .add
      | some r => gt.binPrim (.tensor r) .add
    | .inr _ => .error .attribute) Generic.empty

end

/-- `t ** a` for a number `a`, over the reals -/
noncomputable def Tensor.pow (t : Tensor ℝ) (a : ℝ) : Tensor ℝ := t.powBy fun v => v ^ a

end Verif.Tens
