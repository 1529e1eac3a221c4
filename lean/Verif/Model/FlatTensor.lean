import Verif.Model.COrder
import Verif.Model.Flat
import Verif.Model.FitTensor

/-!
# Model of `flat_grad` and `flat_hess` on Tensors, and of `Linear` and `Quadratic`

Models `maxlike/maxlike_base.py`: `flat_grad` (321-343), `flat_hess` (345-416) as they compute with the Tensors that `grad_like`,
`hess_like` and the constraint and regularisation functions return (`Model/Flat.lean` has the same methods on dense blocks);
`maxlike/func/func.py`: `Linear` (6-27), `Quadratic` (30-50).
-/

namespace Verif.Tens
open Verif.Params (Err Param)
open NDArray

section
variable {α : Type} [Field α] [DecidableEq α]

/-- `np.asarray(p)` for a `Param` (maxlike_base.py:41-42) -/
def paramArray (p : Param α) : NDArray α :=
  ⟨p.shape.length, fun k => p.shape.getD k 1, fun x => p.values.getD (ravel p.shape x) 0⟩

/-- A `Param` as an argument of a function. -/
def paramTensor (p : Param α) : Tensor α := ⟨paramArray p, 0, 0, 0, [], []⟩

/-- A constraint or a regularisation: `param_map` and the function (maxlike_base.py:138-141, 154-157).  The multiplier `gamma` that
`add_constraint` stores is 0. -/
structure TTerm (α : Type) where
  paramMap : List Nat
  f : TFunc α

/-- `x - y` (tensor.py:192-196) -/
def Py.sub : Py α → Py α → Except Err (Py α)
  | .num a, .num b => .ok (.num (a - b))
  | .num a, .arr v => (v.scalarOp .rsub a).map .arr
  | .arr v, .num a => (v.scalarOp .sub a).map .arr
  | .arr v, .arr w => (v.bin w .sub).map .arr

/-- `x.values`: only Tensors have it. -/
def Py.values : Py α → Except Err (NDArray α)
  | .arr (.tensor t) => .ok t.values
  | _ => .error .attribute

/-- `x.sum()`: numbers of Python do not have it. -/
def Py.sum : Py α → Except Err (Py α)
  | .arr v => v.sumAll.map .arr
  | .num _ => .error .attribute

/-- `l[i] = f(l[i])`: `IndexError` when out of range -/
def updateAt {β : Type} (l : List β) (i : Nat) (f : β → Except Err β) : Except Err (List β) :=
  match l[i]? with
  | none => .error .indexError
  | some x => (f x).map fun y => l.set i y

/-- `v[~p.mask]` (maxlike_base.py:340, 401): `IndexError` unless `v` has the shape of the mask; the selected entries in C order.
(If `v` had more axes than the mask, the result would have more than one axis and `np.concatenate` would raise `ValueError`: also
modelled as `IndexError`.) -/
def maskSelect (v : NDArray α) (p : Param α) : Except Err (List α) :=
  if v.ndim = p.shape.length ∧ ∀ k < p.shape.length, v.shape k = p.shape.getD k 0 then
    .ok ((Flat.freeOf p).map fun a => v.get (unravel p.shape a))
  else .error .indexError

/-- `v[np.multiply.outer(~p.mask, ~q.mask)].reshape((p.count(), q.count()))` (maxlike_base.py:391-393), for the same errors: the pairs
of selected entries. -/
def outerSelect (v : NDArray α) (p q : Param α) : Except Err (List (List α)) :=
  if v.ndim = p.shape.length + q.shape.length ∧ (∀ k < p.shape.length, v.shape k = p.shape.getD k 0) ∧
      ∀ k < q.shape.length, v.shape (p.shape.length + k) = q.shape.getD k 0 then
    .ok ((Flat.freeOf p).map fun a => (Flat.freeOf q).map fun b =>
      v.get fun k => if k < p.shape.length then unravel p.shape a k else unravel q.shape b (k - p.shape.length))
  else .error .indexError

/-- `np.zeros_like(p)` (maxlike_base.py:356) -/
def zerosLike (p : Param α) : NDArray α := ⟨p.shape.length, fun k => p.shape.getD k 1, fun _ => 0⟩

/-- `c += v` for arrays: `ValueError` if the shape of the result is not the shape of `c`. -/
def addInto (c v : NDArray α) : Except Err (NDArray α) := do
  let r ← NDArray.binary (· + ·) c v
  if r.ndim = c.ndim ∧ ∀ k < c.ndim, r.shape k = c.shape k then .ok r else .error .valueError

/-- `[g(args)]` as one of the arrays that are concatenated: a number or a Tensor without axes (`Tensor.__array__`, tensor.py:930-931).
(A GenericTensor would give an array of objects: modelled as `TypeError`.) -/
def residual : Py α → Except Err (List α)
  | .num c => .ok [c]
  | .arr (.tensor t) => if t.values.ndim = 0 then .ok [t.values.get fun _ => 0] else .error .valueError
  | .arr (.generic _) => .error .typeError

/-- The loop over the constraints of `flat_grad` (maxlike_base.py:327-332): `grad` and the residuals.  An empty `param_map` leaves the
number 0 in place of the residual, which `np.concatenate` rejects.  (The code keeps the residuals at the end of the list `grad`.) -/
def gradCons (ps : List (Tensor α)) : List (TTerm α) → List (Py α) → Except Err (List (Py α) × List (List α))
  | [], g => .ok (g, [])
  | t :: ts, g => do
    let args ← t.paramMap.mapM (pick ps)
    let gg ← t.f.grads args
    let g' ← t.paramMap.zipIdx.foldlM (fun g x => updateAt g x.1 fun y => do
      let d ← pick gg x.2
      let z ← Py.mul (.num 0) d
      y.add z) g
    if t.paramMap.isEmpty then throw .valueError
    let v ← t.f.call args
    let c ← residual v
    let (g'', rs) ← gradCons ps ts g'
    pure (g'', c :: rs)

/-- The loop over the regularisations of `flat_grad` (maxlike_base.py:334-338). -/
def gradRegs (ps : List (Tensor α)) : List (TTerm α) → List (Py α) → Except Err (List (Py α))
  | [], g => .ok g
  | t :: ts, g => do
    let args ← t.paramMap.mapM (pick ps)
    let gg ← t.f.grads args
    let g' ← t.paramMap.zipIdx.foldlM (fun g x => updateAt g x.1 fun y => do
      let d ← pick gg x.2
      y.sub d) g
    gradRegs ps ts g'

/-- `flat_grad` (maxlike_base.py:321-343); `gl` is what `grad_like` returns. -/
def flatGradT (params : List (Param α)) (gl : List (Num α)) (cs rs : List (TTerm α)) : Except Err (List α) := do
  let ps := params.map paramTensor
  let (g, res) ← gradCons ps cs (gl.map .arr)
  let g ← gradRegs ps rs g
  let fl ← (g.zip params).mapM fun x => do
    let v ← x.1.values
    maskSelect v x.2
  Params.npConcatenate (fl ++ res)

/-- `for i, idx in enumerate(param_map): for j in range(i + 1): hess[idx][param_map[j]] = op(…, hess_g[i][j])`
(maxlike_base.py:365-368, 373-375) -/
def updateBlocks (pm : List Nat) (hg : List (List (Py α))) (op : Py α → Py α → Except Err (Py α)) (h : List (List (Py α))) :
    Except Err (List (List (Py α))) :=
  pm.zipIdx.foldlM (fun h x => (pm.take (x.2 + 1)).zipIdx.foldlM (fun h y => updateAt h x.1 fun row => updateAt row y.1 fun z => do
    let line ← pick hg x.2
    let d ← pick line y.2
    op z d) h) h

/-- `hess_c[k]` (maxlike_base.py:356, 366) -/
def borderRow (params : List (Param α)) (pm : List Nat) (gg : List (Py α)) : Except Err (List (NDArray α)) :=
  pm.zipIdx.foldlM (fun c x => updateAt c x.1 fun y => do
    let d ← pick gg x.2
    let s ← d.sum
    let v ← s.values
    addInto y v) (params.map zerosLike)

/-- The loop over the constraints of `flat_hess` (maxlike_base.py:361-368).  (The code updates the border and the blocks in one loop; the
two do not depend on each other.) -/
def hessCons (params : List (Param α)) : List (TTerm α) → List (List (Py α)) → Except Err (List (List (Py α)) × List (List (NDArray α)))
  | [], h => .ok (h, [])
  | t :: ts, h => do
    let args ← t.paramMap.mapM (pick (params.map paramTensor))
    let gg ← t.f.grads args
    let hg ← t.f.hesses args
    let c ← borderRow params t.paramMap gg
    let h' ← updateBlocks t.paramMap hg (fun z d => do
      let d0 ← Py.mul (.num 0) d
      z.add d0) h
    let (h'', cs) ← hessCons params ts h'
    pure (h'', c :: cs)

/-- The loop over the regularisations of `flat_hess` (maxlike_base.py:370-375). -/
def hessRegs (ps : List (Tensor α)) : List (TTerm α) → List (List (Py α)) → Except Err (List (List (Py α)))
  | [], h => .ok h
  | t :: ts, h => do
    let args ← t.paramMap.mapM (pick ps)
    let hg ← t.f.hesses args
    let h' ← updateBlocks t.paramMap hg Py.sub h
    hessRegs ps ts h'

/-- `hess[i][j].values[np.multiply.outer(…)].reshape(…)` (maxlike_base.py:391-395) -/
def selectBlock (params : List (Param α)) (h : List (List (Py α))) (i j : Nat) : Except Err (List (List α)) := do
  let line ← pick h i
  let x ← pick line j
  let v ← x.values
  let p ← pick params i
  let q ← pick params j
  outerSelect v p q

/-- The transposed matrix; `c` is its number of rows. -/
def transposeRows (c : Nat) (M : List (List α)) : List (List α) := (List.range c).map fun s => M.map fun row => row.getD s 0

/-- `flat_hess` (maxlike_base.py:345-416); `hl` is what `hess_like` returns.  `np.vstack` of an empty list raises `ValueError`. -/
def flatHessT (params : List (Param α)) (hl : List (List (Num α))) (cs rs : List (TTerm α)) : Except Err (List (List α)) := do
  let (h, bs) ← hessCons params cs (hl.map fun l => l.map .arr)
  let h ← hessRegs (params.map paramTensor) rs h
  let n := params.length
  let blocks ← (List.range n).mapM fun i => (List.range (i + 1)).mapM fun j => selectBlock params h i j
  let block (i j : Nat) : List (List α) := (blocks.getD i []).getD j []
  let border ← bs.mapM fun c => (c.zip params).mapM fun x => maskSelect x.1 x.2
  if params.isEmpty then throw .valueError
  let count (i : Nat) : Nat := ((params[i]?.map fun p => (Flat.freeOf p).length).getD 0)
  let rows := ((List.range n).map fun i => Flat.hstack (count i) ((List.range n).map fun j =>
    if j < i then block i j else transposeRows (count i) (block j i))).flatten
  let lines : List (List α) := border.map List.flatten
  if cs.isEmpty then pure rows
  else
    pure (rows.zipIdx.map (fun x => x.1 ++ lines.map fun b => b.getD x.2 0) ++
      lines.map fun b => b ++ List.replicate cs.length 0)

/-- `flat_grad(params)` (maxlike_base.py:321-343) with `grad_like` applied to the parameters (line 325). -/
def flatGradM (grad : List (Tensor α) → Except Err (List (Num α))) (params : List (Param α)) (cs rs : List (TTerm α)) : Except Err (List α) := do
  let gl ← grad (params.map paramTensor)
  flatGradT params gl cs rs

/-- `flat_hess(params)` (maxlike_base.py:345-416) with `hess_like` applied to the parameters (line 353). -/
def flatHessM (hess : List (Tensor α) → Except Err (List (List (Num α)))) (params : List (Param α)) (cs rs : List (TTerm α)) :
    Except Err (List (List α)) := do
  let hl ← hess (params.map paramTensor)
  flatHessT params hl cs rs

/-! ### `Linear` and `Quadratic` -/

/-- `np.sum` of an array -/
def arraySum (v : NDArray α) : α := (v.sumAxes (List.range v.ndim)).get fun _ => 0

/-- `Linear` (func.py:6-27): the weighted sum of the entries.  `__call__` pairs the parameters with the weights and returns a number.  An
`IndexError` is raised by `grad` for a parameter without weight. -/
def linearT (weights : List α) : TFunc α := .ofMethods
  (fun ps => .ok (.num ((ps.zip weights).map fun x => arraySum (x.1.values.map fun v => v * x.2)).sum))
  (fun ps i => do
    let w ← pick weights i
    let p ← pick ps i
    (gradTensor ⟨p.values.ndim, fun _ => 1, fun _ => w⟩ p.values.ndim .diag 0).map fun t => .arr (.tensor t))
  (fun ps i j => do
    let q ← pick ps j
    let p ← pick ps i
    (hessTensor ⟨q.values.ndim + p.values.ndim, fun _ => 1, fun _ => 0⟩ p.values.ndim q.values.ndim .diag .diag 0).map
      fun t => .arr (.tensor t)) false false

/-- `Quadratic(u, s)` (func.py:30-50): the sum of `((p - u) / s) ** 2` over the entries of all parameters. -/
def quadraticT (u s : α) : TFunc α := .ofMethods
  (fun ps => .ok (.arr (.tensor (Tensor.const (ps.map fun p =>
    arraySum (p.values.map fun v => (v - u) / s * ((v - u) / s))).sum))))
  (fun ps i => do
    let p ← pick ps i
    let t ← gradTensor (p.values.map fun v => 2 * ((v - u) / s) / s) p.values.ndim .diag 0
    ((Num.tensor t).sumAll).map .arr)
  (fun ps i j => if i ≠ j then .ok zeroT else do
    let p ← pick ps i
    let t ← hessTensor (p.values.map fun _ => 2 / s / s) p.values.ndim p.values.ndim .diag .diag 0
    ((Num.tensor t).sumAll).map .arr) false false

end
end Verif.Tens
