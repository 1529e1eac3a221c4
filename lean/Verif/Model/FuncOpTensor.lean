import Verif.Model.LikeTensor
import Verif.Model.FuncTensor

/-!
# Model of the functions (maxlike/func) in terms of Tensor operations

`Model/Func.lean` models the combinators with dense arrays.  Here they are modelled with the Tensors that the code
computes with.  Parameters are Tensors: an array given by the user is a Tensor with value axes only (the functions read it
with `np.asarray` or `Tensor(…)`, which give the same values).
-/

namespace Verif.Tens
open Verif.Params (Err)
open NDArray

/-- What a function returns: an array or, where Python's `sum` starts from the number 0, a number. -/
inductive Py (α : Type) where
  | num (c : α)
  | arr (v : Num α)

/-- What `eval` returns: value, gradients, lower triangle of second derivatives. -/
structure Ev3 (α : Type) where
  val : Py α
  grad : List (Py α)
  hess : List (List (Py α))

/-- A `Func` object: `__call__`, `grad(params, i)`, `hess(params, i, j)`, `eval(params)` and whether `grad` and `hess` are
`null_func` (func_base.py:9-18, 170-200). -/
structure TFunc (α : Type) where
  call : List (Tensor α) → Except Err (Py α)
  grad : List (Tensor α) → Nat → Except Err (Py α)
  hess : List (Tensor α) → Nat → Nat → Except Err (Py α)
  eval : List (Tensor α) → Except Err (Ev3 α)
  gradNull : Bool
  hessNull : Bool
  /-- the constructor has replaced `grad` by `null_method(self)` (func_base.py:12-13): `grad(params)` is one `Tensor(0)`, not a list -/
  gradOne : Bool := false
  /-- the same for `hess` -/
  hessOne : Bool := false

section
variable {α : Type} [Field α] [DecidableEq α]

/-- `Tensor(0)` -/
def zeroT : Py α := .arr (.tensor (Tensor.const 0))

/-- `x + y` (numbers: Python; otherwise `__add__`, `__radd__`, tensor.py:186-190) -/
def Py.add : Py α → Py α → Except Err (Py α)
  | .num a, .num b => .ok (.num (a + b))
  | .num a, .arr v | .arr v, .num a => (v.scalarOp .add a).map .arr
  | .arr v, .arr w => (v.bin w .add).map .arr

/-- `x * y` (tensor.py:198-202) -/
def Py.mul : Py α → Py α → Except Err (Py α)
  | .num a, .num b => .ok (.num (a * b))
  | .num a, .arr v | .arr v, .num a => (v.scalarOp .mul a).map .arr
  | .arr v, .arr w => (v.bin w .mul).map .arr

/-- `sum(l)`: starts from the number 0 -/
def pySum (l : List (Py α)) : Except Err (Py α) := l.foldlM Py.add (.num 0)

/-- `x.expand(where, newsize, dim)` (tensor.py:284-289, 536-581) -/
def Num.expand (v : Num α) (wher : List Nat) (newsize : Nat) (dim : Bool) : Except Err (Num α) :=
  match v with
  | .tensor t => (t.expand wher newsize dim).map .tensor
  | .generic g => (g.expand wher newsize dim).map .generic

/-- `x.flip(where)` (tensor.py:291-294, 583-615) -/
def Num.flip (v : Num α) (wher : List Nat) : Except Err (Num α) :=
  match v with
  | .tensor t => (t.flip wher false).map .tensor
  | .generic g => (g.flip wher false).map .generic

/-! ### `eval` when a class does not define it -/

/-- `[g(obj, params, k) for k in range(len(params))]` (func_base.py:88-103) -/
def gradAll (grad : List (Tensor α) → Nat → Except Err (Py α)) (ps : List (Tensor α)) : Except Err (List (Py α)) :=
  (List.range ps.length).mapM (grad ps)

/-- `[[h(obj, params, k, l) for l in range(k + 1)] for k in range(len(params))]` (func_base.py:106-122) -/
def hessAll (hess : List (Tensor α) → Nat → Nat → Except Err (Py α)) (ps : List (Tensor α)) :
    Except Err (List (List (Py α))) :=
  (List.range ps.length).mapM fun i => (List.range (i + 1)).mapM (hess ps i)

/-- `f.grad(params)` used as a list (func_base.py:88-103).  If the constructor has replaced the method by `null_method(self)`
(func_base.py:12-13, 210-214, 257-259; func_op.py:44-45) it is one `Tensor(0)`, which has no items: `TypeError`. -/
def TFunc.grads (f : TFunc α) (ps : List (Tensor α)) : Except Err (List (Py α)) :=
  if f.gradOne then .error .typeError else gradAll f.grad ps

/-- `f.hess(params)` used as a list of lists (func_base.py:106-122, 210-214, 257-259; func_op.py:47-61). -/
def TFunc.hesses (f : TFunc α) (ps : List (Tensor α)) : Except Err (List (List (Py α))) :=
  if f.hessOne then .error .typeError else hessAll f.hess ps

/-- The three methods called one after the other (func_base.py:156-160). -/
def TFunc.sep (f : TFunc α) (ps : List (Tensor α)) : Except Err (Ev3 α) := do
  let v ← f.call ps
  let g ← gradAll f.grad ps
  let h ← hessAll f.hess ps
  .ok ⟨v, g, h⟩

/-- A class without `eval` (func_base.py:155-160). -/
def TFunc.ofMethods (call : List (Tensor α) → Except Err (Py α)) (grad : List (Tensor α) → Nat → Except Err (Py α))
    (hess : List (Tensor α) → Nat → Nat → Except Err (Py α)) (gradNull hessNull : Bool) : TFunc α :=
  ⟨call, grad, hess, fun ps => do
    let v ← call ps
    let g ← gradAll grad ps
    let h ← hessAll hess ps
    .ok ⟨v, g, h⟩, gradNull, hessNull, false, false⟩

/-! ### elementary functions -/

/-- `Tensor(values)` as the value of a function -/
def ofArray (v : NDArray α) (dim : Nat) : Except Err (Py α) := (mkTensor v 0 0 dim [] []).map fun t => .arr (.tensor t)

/-- `null_func` (func_base.py:9-10) -/
def nullFunc : Except Err (Py α) := .ok zeroT

/-- `X` (func.py:54-62): the parameter itself.  (`np.ones_like` of a parameter without dim axes.) -/
def xT : TFunc α := .ofMethods (fun ps => do let p ← pick ps 0; ofArray p.values 0)
  (fun ps i => do
    let p ← pick ps 0
    let q ← pick ps i
    (gradTensor (p.values.map fun _ => 1) q.values.ndim .diag 0).map fun t => .arr (.tensor t))
  (fun _ _ _ => nullFunc) false true

/-- `Constant(vector)` (func.py:65-74) -/
def constantT (vector : NDArray α) : TFunc α :=
  .ofMethods (fun _ => ofArray vector 0) (fun _ _ => nullFunc) (fun _ _ _ => nullFunc) true true

/-- `Scalar` (func.py:77-85) -/
def scalarT : TFunc α := .ofMethods (fun ps => do let p ← pick ps 0; ofArray p.values 0)
  (fun _ _ => .ok (.arr (.tensor (Tensor.const 1)))) (fun _ _ _ => nullFunc) false true

/-- `Vector(vector)` (func.py:88-99) -/
def vectorT (vector : NDArray α) : TFunc α := .ofMethods
  (fun ps => do
    let p ← pick ps 0
    let v ← NDArray.binary (· * ·) p.values vector
    ofArray v 0)
  (fun ps i => do
    let q ← pick ps i
    (gradTensor vector q.values.ndim .none 0).map fun t => .arr (.tensor t))
  (fun _ _ _ => nullFunc) false true

/-- The functions of one array that act on each entry: `Exp`, `Log` (func.py:102-133), `Logistic`, `ArcTan`
(sigmoid.py:16-51); `φ1` and `φ2` are the functions computed by `grad` and `hess`.  The `eval` of `Exp` and `Logistic` computes the
same three Tensors for one parameter.  `Exp` and `Log` pass the number of `dim` axes of the parameter on (`dim=f.dim`); the
gradients of the other two do not, so for them the model holds for parameters without `dim` axes. -/
def entryT (φ φ1 φ2 : α → α) : TFunc α := .ofMethods
  (fun ps => do let p ← pick ps 0; ofArray (p.values.map φ) p.dim)
  (fun ps i => do
    let p ← pick ps 0
    let q ← pick ps i
    (gradTensor (p.values.map φ1) q.values.ndim .diag p.dim).map fun t => .arr (.tensor t))
  (fun ps i j => do
    let p ← pick ps 0
    let q ← pick ps i
    let r ← pick ps j
    (hessTensor (p.values.map φ2) q.values.ndim r.values.ndim .diag .diag p.dim).map fun t => .arr (.tensor t))
  false false

/-- `np.asarray(p)[..., None]` combined with `np.arange(size)`: one more axis, with the entries of `row` (func_proba.py:18-20). -/
def addAxis (row : α → List α) (size : Nat) (v : NDArray α) : NDArray α :=
  ⟨v.ndim + 1, fun k => if k < v.ndim then v.shape k else size, fun idx => (row (v.get idx)).getD (idx v.ndim) 0⟩

/-- The functions of one array whose values have an outcome axis: `Poisson`, `LogNegativeBinomial` (func_proba.py:8-107).
`row`, `row1` and `row2` are what `__call__`, `grad` and `hess` compute for one number (`Model/Leaves.lean`); `eval` computes
the same three Tensors for one parameter. -/
def rowT (row row1 row2 : α → List α) (size : Nat) : TFunc α := .ofMethods
  (fun ps => do let p ← pick ps 0; ofArray (addAxis row size p.values) 1)
  (fun ps i => do
    let p ← pick ps 0
    let q ← pick ps i
    (gradTensor (addAxis row1 size p.values) q.values.ndim .diag 1).map fun t => .arr (.tensor t))
  (fun ps i j => do
    let p ← pick ps 0
    let q ← pick ps i
    let r ← pick ps j
    (hessTensor (addAxis row2 size p.values) q.values.ndim r.values.ndim .diag .diag 1).map fun t => .arr (.tensor t))
  false false

/-! ### combinators -/

/-- `FuncWrap` (func_op.py:21-62): `feat_flip=None` is the empty list; `param_map`, `feat_map` and `dim_map` are
lists (the constructor turns an integer or `None` into one). -/
structure Wrap where
  pm : List Nat
  fm : List Nat
  nFeat : Nat
  dm : List Nat
  nDim : Nat
  flip : List Nat

/-- `_expand` (func_op.py:64-66); numbers have no such method. -/
def Wrap.expand (w : Wrap) : Py α → Except Err (Py α)
  | .num _ => .error .attribute
  | .arr v => do
    let a ← v.expand w.fm w.nFeat false
    let b ← a.flip w.flip
    let c ← b.expand w.dm w.nDim true
    .ok (.arr c)

/-- `self.param_map(params)` (func_op.py:17-18) -/
def Wrap.params (w : Wrap) (ps : List (Tensor α)) : Except Err (List (Tensor α)) := w.pm.mapM fun k => pick ps k

/-- `self.param_map.index(i)` -/
def Wrap.index (w : Wrap) (i : Nat) : Except Err Nat :=
  match w.pm.findIdx? (· == i) with
  | none => .error .valueError
  | some k => .ok k

/-- `try: … except ValueError: return Tensor(0)` -/
def catchValue (x : Except Err (Py α)) : Except Err (Py α) :=
  match x with
  | .error .valueError => .ok zeroT
  | r => r

/-- `FuncWrap.__call__` (func_op.py:68-69) -/
def Wrap.call (w : Wrap) (f : TFunc α) (ps : List (Tensor α)) : Except Err (Py α) := do
  let qs ← w.params ps
  let v ← f.call qs
  w.expand v

/-- `FuncWrap.grad` (func_op.py:45-46, 71-77) -/
def Wrap.grad (w : Wrap) (f : TFunc α) (ps : List (Tensor α)) (i : Nat) : Except Err (Py α) :=
  if f.gradNull then nullFunc
  else catchValue do
    let qs ← w.params ps
    let k ← w.index i
    let v ← f.grad qs k
    w.expand v

/-- `FuncWrap.hess` (func_op.py:48, 61, 79-86) -/
def Wrap.hess (w : Wrap) (f : TFunc α) (ps : List (Tensor α)) (i j : Nat) : Except Err (Py α) :=
  if f.hessNull then nullFunc
  else catchValue do
    let qs ← w.params ps
    let k ← w.index i
    let l ← w.index j
    let v ← f.hess qs k l
    w.expand v

/-- One pass of the loop of `eval` for a function with null `hess` (func_op.py:55-59). -/
def Wrap.evalGrad (w : Wrap) (g : List (Py α)) (i : Nat) : Except Err (Py α) :=
  catchValue do
    let k ← w.index i
    let v ← pick g k
    w.expand v

/-- The line `i` of the Hessian in `eval` when `i` is in the map at `idx`, for the earlier indices `idxs`
(func_op.py:98-104). -/
def Wrap.hessLine (w : Wrap) (h : List (List (Py α))) (idx : Nat) : List (Option Nat) → Except Err (List (Py α))
  | [] => do
    let v ← pick2 h idx idx
    let v ← w.expand v
    .ok [v]
  | none :: l => do
    let r ← w.hessLine h idx l
    .ok (zeroT :: r)
  | some k :: l => do
    let v ← pick2 h idx k
    let v ← w.expand v
    let r ← w.hessLine h idx l
    .ok (v :: r)

/-- The loop of `eval` (func_op.py:93-109): `i` of `m` parameters are done, with the indices `idxs`.  A ValueError
in the body is handled as if the parameter were not in the map; as `grad.append` comes before the Hessian is computed, a ValueError
raised by the latter leaves two gradients for one parameter.  (`_expand` raises one if `feat_flip` has an axis that the array does not have.) -/
def Wrap.evalLoop (w : Wrap) (g : List (Py α)) (h : List (List (Py α))) (i : Nat) (idxs : List (Option Nat)) :
    Nat → Except Err (List (Py α) × List (List (Py α)))
  | 0 => .ok ([], [])
  | m + 1 =>
    let skip (gs0 : List (Py α)) : Except Err (List (Py α) × List (List (Py α))) := do
      let (gs, hs) ← w.evalLoop g h (i + 1) (idxs ++ [none]) m
      .ok (gs0 ++ zeroT :: gs, List.replicate (i + 1) zeroT :: hs)
    match w.index i with
    | .ok idx => do
      let v ← pick g idx
      match w.expand v with
      | .error .valueError => skip []
      | .error e => .error e
      | .ok v =>
        match w.hessLine h idx idxs with
        | .error .valueError => skip [v]
        | .error e => .error e
        | .ok line => do
          let (gs, hs) ← w.evalLoop g h (i + 1) (idxs ++ [some idx]) m
          .ok (v :: gs, line :: hs)
    | .error _ => skip []

/-- `FuncWrap.eval` (func_op.py:48-62, 88-110) -/
def Wrap.eval (w : Wrap) (f : TFunc α) (ps : List (Tensor α)) : Except Err (Ev3 α) := do
  let qs ← w.params ps
  let e ← f.eval qs
  let v ← w.expand e.val
  if f.hessNull then
    let g ← (List.range ps.length).mapM (w.evalGrad e.grad)
    .ok ⟨v, g, (List.range ps.length).map fun i => List.replicate (i + 1) zeroT⟩
  else
    let (gs, hs) ← w.evalLoop e.grad e.hess 0 [] ps.length
    .ok ⟨v, gs, hs⟩

/-- `FuncWrap(foo, …)` (func_op.py:21-110).  `null_method(self)` is marked as null like the method it replaces. -/
def wrapT (f : TFunc α) (w : Wrap) : TFunc α :=
  ⟨w.call f, w.grad f, w.hess f, w.eval f, f.gradNull, f.hessNull, f.gradNull, f.hessNull⟩

/-- `Affine(base, a, b)` (func_base.py:203-240), for a `base` that is not itself an `Affine` (then the constructor multiplies out
the two maps). -/
def affineT (f : TFunc α) (a b : α) : TFunc α where
  call ps := do
    let v ← f.call ps
    let v ← Py.mul (.num a) v
    Py.add v (.num b)
  grad ps i := if f.gradNull then nullFunc else do
    let v ← f.grad ps i
    Py.mul (.num a) v
  hess ps i j := if f.hessNull then nullFunc else do
    let v ← f.hess ps i j
    Py.mul (.num a) v
  eval ps := do
    let e ← f.eval ps
    let v ← Py.mul (.num a) e.val
    let v ← Py.add v (.num b)
    let g ← e.grad.mapM (Py.mul (.num a))
    let h ← e.hess.mapM fun l => l.mapM (Py.mul (.num a))
    .ok ⟨v, g, h⟩
  gradNull := f.gradNull
  hessNull := f.hessNull
  gradOne := f.gradNull
  hessOne := f.hessNull

/-- The `atoms` of a `Sum` (func_op.py:143-197): weights and wrapped functions. -/
abbrev Atoms (α : Type) := List (α × TFunc α × Wrap)

/-- One pass of the loop of `Sum.eval` (func_op.py:213-219) -/
def sumStep (m : Nat) (acc : Ev3 α) (a : α × TFunc α × Wrap) (ps : List (Tensor α)) : Except Err (Ev3 α) := do
  let e ← a.2.2.eval a.2.1 ps
  let v ← Py.mul (.num a.1) e.val
  let v ← Py.add acc.val v
  let g ← (List.range m).mapM fun i => do
    let x ← pick acc.grad i
    let y ← pick e.grad i
    let y ← Py.mul (.num a.1) y
    Py.add x y
  let h ← (List.range m).mapM fun i => (List.range (i + 1)).mapM fun j => do
    let x ← pick2 acc.hess i j
    let y ← pick2 e.hess i j
    let y ← Py.mul (.num a.1) y
    Py.add x y
  .ok ⟨v, g, h⟩

/-- `Sum` (func_op.py:143-220): `b` is the offset, which `eval` ignores.  In `eval` the additions for the gradients and
for the Hessian are interleaved; they are independent of each other. -/
def sumT (atoms : Atoms α) (b : α) : TFunc α where
  call ps := do
    let l ← atoms.mapM fun a => do
      let v ← a.2.2.call a.2.1 ps
      Py.mul (.num a.1) v
    let s ← pySum l
    Py.add s (.num b)
  grad ps i := do
    let l ← atoms.mapM fun a => do
      let v ← a.2.2.grad a.2.1 ps i
      Py.mul (.num a.1) v
    pySum l
  hess ps i j := do
    let l ← atoms.mapM fun a => do
      let v ← a.2.2.hess a.2.1 ps i j
      Py.mul (.num a.1) v
    pySum l
  eval ps := atoms.foldlM (fun acc a => sumStep ps.length acc a ps)
    ⟨zeroT, List.replicate ps.length zeroT, (List.range ps.length).map fun i => List.replicate (i + 1) zeroT⟩
  gradNull := false
  hessNull := false

end

end Verif.Tens
