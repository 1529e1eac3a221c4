import Verif.Model.FuncOpTensor

/-!
# Model of `Compose` (maxlike/func/func_base.py:242-347) in terms of Tensor operations
-/

namespace Verif.Tens
open Verif.Params (Err)
open NDArray

section
variable {α : Type} [Field α] [DecidableEq α]

/-! ### contractions of Tensors and GenericTensors -/

/-- `GenericTensor()` (tensor.py:219-227) -/
def Generic.empty : Generic α := ⟨0, 0, 0, 0, []⟩

/-- `t.dot_left(other)` for a Tensor `t` (tensor.py:669-711). -/
def Tensor.dotLeftNum (t : Tensor α) : Num α → Except Err (Num α)
  | .tensor o => (t.dotLeft o).map .tensor
  | .generic g =>
    let s := if t.xDim ≠ g.n ∧ t.yDim = g.n then t.transpose else t
    (mapElems (fun o => s.dotLeft o) g.elements).map fun els =>
      .generic ⟨g.xDim, s.yDim, s.n, max t.dim g.dim, els⟩

/-- `g.dot_left(o)` for a GenericTensor and a Tensor (tensor.py:321-325); arrays have no such method. -/
def Generic.dotLeftTensor (g : Generic α) (o : Tensor α) : Except Err (Generic α) :=
  g.elements.foldlM (fun (gt : Generic α) (e : Tensor α ⊕ NDArray α) => match e with
    | .inl t => do
      let r ← t.dotLeft o
      gt.binPrim (.tensor r) .add
    | .inr _ => .error .attribute) Generic.empty

/-- `v.dot_left(w)` (tensor.py:320-334, 669-711) -/
def Num.dotLeft (v w : Num α) : Except Err (Num α) :=
  match v, w with
  | .tensor t, w => t.dotLeftNum w
  | .generic g, .tensor o => (g.dotLeftTensor o).map .generic
  | .generic g, .generic h =>
    (h.elements.foldlM (fun (gt : Generic α) (e : Tensor α ⊕ NDArray α) => match e with
      | .inl o => do
        let r ← g.dotLeftTensor o
        gt.binGeneric r .add
      | .inr _ => .error .attribute) Generic.empty).map .generic

/-- One element of `[self.dot_right(el) for el in other.elements]`: the number 0 for `Tensor(0)` (tensor.py:737-740). -/
def Tensor.dotRightElem (t : Tensor α) : Tensor α ⊕ NDArray α → Except Err (Tensor α ⊕ NDArray α)
  | .inl o => do
    match ← t.dotRight o with
    | none => .ok (.inr (NDArray.scalar 0))
    | some r => .ok (.inl r)
  | .inr _ => .error .attribute

/-- `t.dot_right(other)` for a Tensor `t` (tensor.py:713-764) -/
def Tensor.dotRightNum (t : Tensor α) : Num α → Except Err (Py α)
  | .tensor o => do
    match ← t.dotRight o with
    | none => .ok (.num 0)
    | some r => .ok (.arr (.tensor r))
  | .generic g =>
    if t.yDim ≠ 0 ∨ t.xDim ≠ g.n then .error .assertion
    else do
      let els ← g.elements.mapM t.dotRightElem
      .ok (.arr (.generic ⟨g.xDim, g.yDim, t.n, max t.dim g.dim, els⟩))

/-- `g.dot_right(o)` for a GenericTensor and a Tensor (tensor.py:337-341) -/
def Generic.dotRightTensor (g : Generic α) (o : Tensor α) : Except Err (Generic α) :=
  g.elements.foldlM (fun (gt : Generic α) (e : Tensor α ⊕ NDArray α) => match e with
    | .inl t => do
      match ← t.dotRight o with
      | none => gt.binPrim (.scalar 0) .add
      | some r => gt.binPrim (.tensor r) .add
    | .inr _ => .error .attribute) Generic.empty

/-- `v.dot_right(w)` (tensor.py:336-349, 713-764) -/
def Num.dotRight (v w : Num α) : Except Err (Py α) :=
  match v, w with
  | .tensor t, w => t.dotRightNum w
  | .generic g, .tensor o => (g.dotRightTensor o).map fun r => .arr (.generic r)
  | .generic g, .generic h =>
    (h.elements.foldlM (fun (gt : Generic α) (e : Tensor α ⊕ NDArray α) => match e with
      | .inl o => do
        let r ← g.dotRightTensor o
        gt.binGeneric r .add
      | .inr _ => .error .attribute) Generic.empty).map fun r => .arr (.generic r)

/-- `v.drop_dim()` (tensor.py:301-304, 625-628) -/
def Num.dropDim : Num α → Except Err (Num α)
  | .tensor t => .ok (.tensor t.dropDim)
  | .generic g => g.dropDim.map .generic

/-! ### the same for what functions return: numbers have no such methods -/

def Py.dropDim : Py α → Except Err (Num α)
  | .num _ => .error .attribute
  | .arr v => v.dropDim

def Py.transpose : Py α → Except Err (Py α)
  | .num _ => .error .attribute
  | .arr v => .ok (.arr v.transpose)

def Py.dotLeft : Py α → Num α → Except Err (Py α)
  | .num _, _ => .error .attribute
  | .arr v, w => (v.dotLeft w).map .arr

def Py.dotRight : Py α → Num α → Except Err (Py α)
  | .num _, _ => .error .attribute
  | .arr v, w => v.dotRight w

/-- A value that is passed to a function as a parameter.  (`np.asarray` of a GenericTensor is an array of objects, with which
the functions cannot compute; the error they raise depends on the function.) -/
def Py.param : Py α → Except Err (Tensor α)
  | .num c => .ok (Tensor.const c)
  | .arr (.tensor t) => .ok t
  | .arr (.generic _) => .error .attribute

/-! ### Compose -/

/-- `g_val = [g(params) for g in self.g_list]` (func_base.py:286) -/
def composeVal (gs : List (TFunc α)) (ps : List (Tensor α)) : Except Err (List (Tensor α)) :=
  gs.mapM fun g => do
    let v ← g.call ps
    v.param

/-- `[g.grad(params, i).drop_dim() for g in self.g_list]` (func_base.py:301-308) -/
def composeGrads (gs : List (TFunc α)) (ps : List (Tensor α)) (i : Nat) : Except Err (List (Num α)) :=
  gs.mapM fun g => do
    let v ← g.grad ps i
    v.dropDim

/-- `h.dot_left(a).transpose().dot_left(b).transpose()` (func_base.py:316-317, 343-344) -/
def quad (h : Py α) (a b : Num α) : Except Err (Py α) := do
  let x ← h.dotLeft a
  let x ← x.transpose
  let x ← x.dotLeft b
  x.transpose

/-- `Compose.grad` (func_base.py:257-258, 289-293) -/
def composeGrad (f : TFunc α) (gs : List (TFunc α)) (ps : List (Tensor α)) (i : Nat) : Except Err (Py α) :=
  if f.gradNull then nullFunc
  else do
    let us ← composeVal gs ps
    let l ← (List.range gs.length).mapM fun k => do
      let g ← pick gs k
      let a ← f.grad us k
      let b ← g.grad ps i
      let b ← b.dropDim
      a.dotLeft b
    pySum l

/-- `sum((f.grad(g_val, k).dot_right(g.hess(params, i, j).drop_dim()) …))`: `Compose.hess` when `f.hess` is null
(func_base.py:262-267) -/
def composeHessNull (f : TFunc α) (gs : List (TFunc α)) (ps : List (Tensor α)) (i j : Nat) : Except Err (Py α) := do
  let us ← composeVal gs ps
  let l ← (List.range gs.length).mapM fun k => do
    let g ← pick gs k
    let a ← f.grad us k
    let b ← g.hess ps i j
    let b ← b.dropDim
    a.dotRight b
  pySum l

/-- `Compose.hess` otherwise (func_base.py:295-321) -/
def composeHess (f : TFunc α) (gs : List (TFunc α)) (ps : List (Tensor α)) (i j : Nat) : Except Err (Py α) := do
  let us ← composeVal gs ps
  let di ← composeGrads gs ps i
  let dj ← if i ≠ j then composeGrads gs ps j else .ok di
  (List.range gs.length).foldlM (fun h k => do
    let h ← (List.range gs.length).foldlM (fun h l => do
      let fh ← if k < l then do
          let x ← f.hess us l k
          x.transpose
        else f.hess us k l
      let a ← pick di k
      let b ← pick dj l
      let x ← quad fh a b
      h.add x) h
    let a ← f.grad us k
    let g ← pick gs k
    let b ← g.hess ps i j
    let b ← b.dropDim
    let x ← a.dotRight b
    h.add x) zeroT

/-- One entry of the gradient in `Compose.eval` (func_base.py:274-276, 332-334); `dg` are the lists `g_grad`. -/
def evalGradEntry (r : Nat) (fg : List (Py α)) (dg : List (List (Num α))) (i : Nat) : Except Err (Py α) := do
  let l ← (List.range r).mapM fun k => do
    let a ← pick fg k
    let b ← pick2 dg k i
    a.dotLeft b
  pySum l

/-- One entry of the Hessian in `Compose.eval` when `f.hess` is null (func_base.py:277-279); `hg` are the lists `g_hess`. -/
def evalHessNullEntry (r : Nat) (fg : List (Py α)) (hg : List (List (List (Py α)))) (i j : Nat) : Except Err (Py α) := do
  let l ← (List.range r).mapM fun k => do
    let a ← pick fg k
    let h ← pick hg k
    let b ← pick2 h i j
    let b ← b.dropDim
    a.dotRight b
  pySum l

/-- One entry of the Hessian in `Compose.eval` (func_base.py:338-344) -/
def evalHessEntry (r : Nat) (fg : List (Py α)) (fh : List (List (Py α))) (dg : List (List (Num α)))
    (hg : List (List (List (Py α)))) (i j : Nat) : Except Err (Py α) :=
  (List.range r).foldlM (fun h k => do
    let a ← pick fg k
    let hk ← pick hg k
    let b ← pick2 hk i j
    let b ← b.dropDim
    let x ← a.dotRight b
    let h ← h.add x
    (List.range r).foldlM (fun h l => do
      let y ← if k < l then do
          let x ← pick2 fh l k
          x.transpose
        else pick2 fh k l
      let a ← pick2 dg k i
      let b ← pick2 dg l j
      let x ← quad y a b
      h.add x) h) zeroT

/-- `Compose.eval` (func_base.py:269-280, 324-347): `zip(*…)` of an empty list cannot be unpacked. -/
def composeEval (f : TFunc α) (gs : List (TFunc α)) (ps : List (Tensor α)) : Except Err (Ev3 α) :=
  if gs = [] then .error .valueError
  else do
    let es ← gs.mapM fun g => g.eval ps
    let dg ← es.mapM fun e => e.grad.mapM Py.dropDim
    let us ← es.mapM fun e => e.val.param
    let e ← f.eval us
    let grad ← (List.range ps.length).mapM (evalGradEntry gs.length e.grad dg)
    let hess ← (List.range ps.length).mapM fun i => (List.range (i + 1)).mapM fun j =>
      if f.gradNull = false ∧ f.hessNull = true then evalHessNullEntry gs.length e.grad (es.map (·.hess)) i j
      else evalHessEntry gs.length e.grad e.hess dg (es.map (·.hess)) i j
    .ok ⟨e.val, grad, hess⟩

/-- `Compose(f, g_list)` (func_base.py:242-347); a single function `g` is the list `[g]`.  `null_method` replaces both `grad`
and `hess` if `f.grad` is null; the Hessian built for a null `f.hess` is not marked as null. -/
def composeT (f : TFunc α) (gs : List (TFunc α)) : TFunc α where
  call ps := do
    let us ← composeVal gs ps
    f.call us
  grad := composeGrad f gs
  hess ps i j :=
    if f.gradNull then nullFunc
    else if f.hessNull then composeHessNull f gs ps i j
    else composeHess f gs ps i j
  eval := composeEval f gs
  gradNull := f.gradNull
  hessNull := f.gradNull
  gradOne := f.gradNull
  hessOne := f.gradNull

end

end Verif.Tens
