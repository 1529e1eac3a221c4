import Verif.Model.Params
import Mathlib.Data.Real.Basic
import Mathlib.Algebra.BigOperators.Group.Finset.Basic
import Mathlib.Data.Finset.Lattice.Basic

/-!
# Model of the Func layer (maxlike/func/func_base.py, maxlike/func/func_op.py)

Dense semantics.  `ι` is a finite set of positions (multi-indices of a grid that is large enough for
all arrays involved; smaller arrays are constant along the axes they do not have, which is numpy's
broadcasting).  Parameters and values are functions of positions.  A function object is the record
of its methods, `call`, `grad`, `hess`, `eval`, and the two flags read by `isnull`.

The Tensor operations (`dot_left`, `dot_right`, `transpose`, `expand`, `flip`, `sum`, `drop_dim`)
enter with their dense meaning (contraction, exchange of the two parameter indices, change of
position); the Tensor class itself is modelled in `Model/Tensor.lean`.

`params` is the assignment of the parameter arrays, of which the first `n` exist.  Errors of
`param_map` indices out of range are not modelled (such indices are excluded by hypotheses where
they matter); `IndexError`s in `FuncWrap.eval` are.
-/

namespace Verif.Func
open Verif.Params (Err)
open Finset

/-- Parameter arrays: number of the parameter, position. -/
abbrev Prm (ι : Type) := Nat → ι → ℝ
/-- An array of values. -/
abbrev Val (ι : Type) := ι → ℝ
/-- `grad(params, i)`: derivative of the value at cell `c` with respect to entry `e`. -/
abbrev GradT (ι : Type) := ι → ι → ℝ
/-- `hess(params, i, j)`: entries `e` of parameter `i`, `e'` of parameter `j`, cell `c`. -/
abbrev HessT (ι : Type) := ι → ι → ι → ℝ

/-- Result of `eval`: value, list of gradients, lower triangle of Hessians. -/
structure Ev (ι : Type) where
  val : Val ι
  grad : Nat → GradT ι
  hess : Nat → Nat → HessT ι

/-- A Func object. -/
structure Fn (ι : Type) where
  call : Prm ι → Val ι
  grad : Prm ι → Nat → GradT ι
  hess : Prm ι → Nat → Nat → HessT ι
  /-- `eval(params)` with `n = len(params)` -/
  eval : Nat → Prm ι → Except Err (Ev ι)
  /-- `isnull(f.grad)` -/
  gradNull : Bool
  /-- `isnull(f.hess)` -/
  hessNull : Bool

variable {ι : Type} [Fintype ι]

/-- `f_hess[k][l]` read from a lower triangle: `transpose` of `[l][k]` when `l > k`
(func_base.py:312-315, 342). -/
def lowerGet (h : Nat → Nat → HessT ι) (k l : Nat) : HessT ι :=
  if l > k then fun e e' c => h l k e' e c else h k l

/-- A leaf whose `eval` is the default one of `FuncMeta` (func_base.py:156-161). -/
def leaf (call : Prm ι → Val ι) (grad : Prm ι → Nat → GradT ι)
    (hess : Prm ι → Nat → Nat → HessT ι) (gradNull hessNull : Bool) : Fn ι where
  call := call
  grad := grad
  hess := hess
  eval _ θ := .ok ⟨call θ, grad θ, hess θ⟩
  gradNull := gradNull
  hessNull := hessNull

/-- `Affine` on a base that is not itself an `Affine` (func_base.py:203-239).  The flattening done by
`__init__` is modelled in `Expr.affine` below. -/
def affine (f : Fn ι) (a b : ℝ) : Fn ι where
  call θ c := a * f.call θ c + b
  grad θ i e c := if f.gradNull then 0 else a * f.grad θ i e c
  hess θ i j e e' c := if f.hessNull then 0 else a * f.hess θ i j e e' c
  eval n θ := do
    let r ← f.eval n θ
    pure ⟨fun c => a * r.val c + b, fun i e c => a * r.grad i e c,
      fun i j e e' c => a * r.hess i j e e' c⟩
  gradNull := f.gradNull
  hessNull := f.hessNull

/-- The parameters of `f` in `Compose(f, g_list)`: the values of the `g`s. -/
def gVals (gs : List (Fn ι)) (θ : Prm ι) : Prm ι :=
  fun k => match gs[k]? with
    | some g => g.call θ
    | none => fun _ => 0

/-- Entry `k` of a list of gradients/Hessians of the `g`s. -/
def gGet (gs : List (Fn ι)) (k : Nat) (sel : Fn ι → ℝ) : ℝ :=
  match gs[k]? with
  | some g => sel g
  | none => 0

/-- Contraction `h.dot_left(d_k).transpose().dot_left(d_l).transpose()`. -/
def contract2 (h : HessT ι) (dk dl : GradT ι) : HessT ι :=
  fun e e' c => ∑ p, ∑ q, dk e p * dl e' q * h p q c

/-- `f_grad.dot_left(d)` -/
def contract1 (g d : GradT ι) : GradT ι := fun e c => ∑ p, d e p * g p c

/-- `f_grad.dot_right(h)` -/
def contractH (g : GradT ι) (h : HessT ι) : HessT ι := fun e e' c => ∑ p, h e e' p * g p c

/-- `[g.eval(params) for g in g_list]` -/
def evalAll (n : Nat) (θ : Prm ι) : List (Fn ι) → Except Err (List (Ev ι))
  | [] => .ok []
  | g :: gs => do
    let r ← g.eval n θ
    let rs ← evalAll n θ gs
    pure (r :: rs)

/-- The default for list accesses that are in range by construction. -/
def Ev.zero : Ev ι := ⟨fun _ => 0, fun _ _ _ => 0, fun _ _ _ _ _ => 0⟩

/-- `Compose` (func_base.py:242-347), including the two special cases of `__init__`. -/
def compose (f : Fn ι) (gs : List (Fn ι)) : Fn ι where
  call θ := f.call (gVals gs θ)
  grad θ i e c :=
    if f.gradNull then 0
    else ∑ k ∈ range gs.length,
      contract1 (f.grad (gVals gs θ) k) (fun e p => gGet gs k fun g => g.grad θ i e p) e c
  hess θ i j e e' c :=
    if f.gradNull then 0
    else if f.hessNull then
      ∑ k ∈ range gs.length, contractH (f.grad (gVals gs θ) k)
        (fun e e' p => gGet gs k fun g => g.hess θ i j e e' p) e e' c
    else
      ∑ k ∈ range gs.length,
        ((∑ l ∈ range gs.length, contract2
            (if l > k then fun e e' c => f.hess (gVals gs θ) l k e' e c else f.hess (gVals gs θ) k l)
            (fun e p => gGet gs k fun g => g.grad θ i e p)
            (fun e p => gGet gs l fun g => g.grad θ j e p) e e' c) +
          contractH (f.grad (gVals gs θ) k)
            (fun e e' p => gGet gs k fun g => g.hess θ i j e e' p) e e' c)
  eval n θ := do
    let rs ← evalAll n θ gs
    let r ← f.eval gs.length (fun k => (rs.getD k Ev.zero).val)
    let grad : Nat → GradT ι := fun i e c => ∑ k ∈ range gs.length,
      contract1 (r.grad k) ((rs.getD k Ev.zero).grad i) e c
    if f.gradNull = false ∧ f.hessNull = true then
      pure ⟨r.val, grad, fun i j e e' c => ∑ k ∈ range gs.length,
        contractH (r.grad k) ((rs.getD k Ev.zero).hess i j) e e' c⟩
    else
      pure ⟨r.val, grad, fun i j e e' c => ∑ k ∈ range gs.length,
        (contractH (r.grad k) ((rs.getD k Ev.zero).hess i j) e e' c +
          ∑ l ∈ range gs.length, contract2 (lowerGet r.hess k l)
            ((rs.getD k Ev.zero).grad i) ((rs.getD l Ev.zero).grad j) e e' c)⟩
  gradNull := f.gradNull
  hessNull := f.gradNull

/-- `IndexMap.__call__` on the parameters (func_op.py:17-18): parameter `k` of `foo` is parameter
`param_map[k]` (the tuple has `len(param_map)` entries; beyond them the model says 0). -/
def selectParams (pm : List Nat) (θ : Prm ι) : Prm ι :=
  fun k => match pm[k]? with
    | some j => θ j
    | none => fun _ => 0

/-- `param_map.index(i)` (first occurrence; `ValueError` when absent). -/
def indexOf? (pm : List Nat) (i : Nat) : Option Nat := pm.findIdx? (· == i)

/-- Check of all accesses `foo_hess[idx][jdx]` in `FuncWrap.eval`: row `idx` of the lower triangle
has the columns `0..idx` only. -/
def wrapAccessOk (pm : List Nat) (n : Nat) : Bool :=
  (List.range n).all fun i => (List.range i).all fun j =>
    match indexOf? pm i, indexOf? pm j with
    | some idx, some jdx => decide (jdx ≤ idx)
    | _, _ => true

/-- `FuncWrap` (func_op.py:21-110).  `ρ` is the effect of `_expand` on positions: cell `c` of the
result is cell `ρ c` of the wrapped function's value. -/
def wrap (f : Fn ι) (pm : List Nat) (ρ : ι → ι) : Fn ι where
  call θ c := f.call (selectParams pm θ) (ρ c)
  grad θ i e c :=
    if f.gradNull then 0 else
    match indexOf? pm i with
    | some idx => f.grad (selectParams pm θ) idx e (ρ c)
    | none => 0
  hess θ i j e e' c :=
    if f.hessNull then 0 else
    match indexOf? pm i, indexOf? pm j with
    | some idx, some jdx => f.hess (selectParams pm θ) idx jdx e e' (ρ c)
    | _, _ => 0
  eval n θ := do
    let r ← f.eval pm.length (selectParams pm θ)
    let grad : Nat → GradT ι := fun i e c => match indexOf? pm i with
      | some idx => r.grad idx e (ρ c)
      | none => 0
    if f.hessNull then
      pure ⟨fun c => r.val (ρ c), grad, fun _ _ _ _ _ => 0⟩
    else if wrapAccessOk pm n then
      pure ⟨fun c => r.val (ρ c), grad, fun i j e e' c => match indexOf? pm i, indexOf? pm j with
        | some idx, some jdx => r.hess idx jdx e e' (ρ c)
        | _, _ => 0⟩
    else throw .indexError
  gradNull := f.gradNull
  hessNull := f.hessNull

/-- `Collapse` (func_op.py:113-140): every cell becomes the sum over the set of cells it
collapses. -/
def collapse (f : Fn ι) (fib : ι → Finset ι) : Fn ι where
  call θ c := ∑ c' ∈ fib c, f.call θ c'
  grad θ i e c := ∑ c' ∈ fib c, f.grad θ i e c'
  hess θ i j e e' c := ∑ c' ∈ fib c, f.hess θ i j e e' c'
  eval n θ := do
    let r ← f.eval n θ
    pure ⟨fun c => ∑ c' ∈ fib c, r.val c', fun i e c => ∑ c' ∈ fib c, r.grad i e c',
      fun i j e e' c => ∑ c' ∈ fib c, r.hess i j e e' c'⟩
  gradNull := false
  hessNull := false

/-- The loop of `Sum.eval` (func_op.py:208-220). -/
def sumEval (n : Nat) (θ : Prm ι) : List (ℝ × Fn ι) → Ev ι → Except Err (Ev ι)
  | [], acc => .ok acc
  | (w, f) :: fs, acc => do
    let r ← f.eval n θ
    sumEval n θ fs ⟨fun c => acc.val c + w * r.val c, fun i e c => acc.grad i e c + w * r.grad i e c,
      fun i j e e' c => acc.hess i j e e' c + w * r.hess i j e e' c⟩

/-- `Sum` with the given atoms and offset (func_op.py:143-220). -/
def sum (atoms : List (ℝ × Fn ι)) (b : ℝ) : Fn ι where
  call θ c := (atoms.map fun x => x.1 * x.2.call θ c).sum + b
  grad θ i e c := (atoms.map fun x => x.1 * x.2.grad θ i e c).sum
  hess θ i j e e' c := (atoms.map fun x => x.1 * x.2.hess θ i j e e' c).sum
  -- `self.b` does not occur in `eval`
  eval n θ := sumEval n θ atoms Ev.zero
  gradNull := false
  hessNull := false

/-- Atom `k` of a product (in range where used). -/
def pGet (fs : List (Fn ι)) (k : Nat) (sel : Fn ι → ℝ) : ℝ :=
  match fs[k]? with
  | some f => sel f
  | none => 0

/-- The loop of `Product.eval` (func_op.py:284-300). -/
def prodEval (n : Nat) (θ : Prm ι) : List (Fn ι) → Ev ι → Except Err (Ev ι)
  | [], acc => .ok acc
  | f :: fs, acc => do
    let r ← f.eval n θ
    prodEval n θ fs ⟨fun c => acc.val c * r.val c,
      fun i e c => acc.val c * r.grad i e c + r.val c * acc.grad i e c,
      fun i j e e' c => acc.val c * r.hess i j e e' c + r.val c * acc.hess i j e e' c +
        acc.grad i e c * r.grad j e' c + r.grad i e c * acc.grad j e' c⟩

/-- `Product` of the given atoms (func_op.py:223-300); `_prod(f_val, except_idx)` is the product of
the values at the other indices (1 if there is none).  With no atoms `__call__` raises; such
products are excluded where it matters. -/
def product (fs : List (Fn ι)) : Fn ι where
  call θ c := ∏ k ∈ range fs.length, pGet fs k fun f => f.call θ c
  grad θ i e c := ∑ k ∈ range fs.length,
    (∏ m ∈ (range fs.length).erase k, pGet fs m fun f => f.call θ c) *
      pGet fs k fun f => f.grad θ i e c
  hess θ i j e e' c := ∑ k ∈ range fs.length,
    ((∑ l ∈ (range fs.length).erase k,
        (∏ m ∈ ((range fs.length).erase k).erase l, pGet fs m fun f => f.call θ c) *
          (pGet fs k fun f => f.grad θ i e c) * pGet fs l fun f => f.grad θ j e' c) +
      (∏ m ∈ (range fs.length).erase k, pGet fs m fun f => f.call θ c) *
        pGet fs k fun f => f.hess θ i j e e' c)
  eval n θ := prodEval n θ fs ⟨fun _ => 1, fun _ _ _ => 0, fun _ _ _ _ _ => 0⟩
  gradNull := false
  hessNull := false

/-! ### Object level: `Affine` flattening, `Sum.add`, `Product.add` -/

/-- A cell of a value array: feature coordinates and dimension coordinates. -/
abbrev Pos := (Nat → Nat) × (Nat → Nat)

/-- The effect of `expand(feat_map)` on coordinates (tensor.py `expand`): coordinate `k` of the
inner array is coordinate `feat_map[k]` of the outer one. -/
def pull (m : List Nat) (x : Nat → Nat) : Nat → Nat :=
  fun k => match m[k]? with
    | some j => x j
    | none => 0

mutual
/-- A Func object as `isinstance` sees it: an `Affine`, a `Sum`, a `Product`, or anything else. -/
inductive Obj where
  | other (f : Fn Pos)
  | affine (base : Obj) (a b : ℝ)
  | sum (atoms : Atoms) (b : ℝ)
  | prod (atoms : Atoms)
/-- The list `atoms` of a `Sum` or `Product`: weight (1 in a `Product`, whose atoms have none),
`atom.foo`, `atom.param_map`, `atom.feat_map`, `atom.dim_map`. -/
inductive Atoms where
  | nil
  | cons (w : ℝ) (foo : Obj) (pm fm dm : List Nat) (rest : Atoms)
end

/-- `atoms.append(...)` -/
def Atoms.append : Atoms → ℝ → Obj → List Nat → List Nat → List Nat → Atoms
  | .nil, w, f, pm, fm, dm => .cons w f pm fm dm .nil
  | .cons w' f' pm' fm' dm' rest, w, f, pm, fm, dm =>
    .cons w' f' pm' fm' dm' (rest.append w f pm fm dm)

mutual
/-- `__call__` of an object: `Affine` (func_base.py:225-226), `Sum` (func_op.py:199-200), `Product`
(func_op.py:264-266).  A `Product` without atoms raises in Python; here its value is 1. -/
noncomputable def Obj.call : Obj → Prm Pos → Pos → ℝ
  | .other f, θ, x => f.call θ x
  | .affine base a b, θ, x => a * base.call θ x + b
  | .sum atoms b, θ, x => atoms.sumCall θ x + b
  | .prod atoms, θ, x => atoms.prodCall θ x
/-- `sum(w * atom(params) for w, atom in self.atoms)`, `atom` a `FuncWrap` -/
noncomputable def Atoms.sumCall : Atoms → Prm Pos → Pos → ℝ
  | .nil, _, _ => 0
  | .cons w foo pm fm dm rest, θ, x =>
    w * foo.call (selectParams pm θ) (pull fm x.1, pull dm x.2) + rest.sumCall θ x
/-- `reduce(mul, (atom(params) for atom in self.atoms))` -/
noncomputable def Atoms.prodCall : Atoms → Prm Pos → Pos → ℝ
  | .nil, _, _ => 1
  | .cons _ foo pm fm dm rest, θ, x =>
    foo.call (selectParams pm θ) (pull fm x.1, pull dm x.2) * rest.prodCall θ x
end

/-- `Affine.__init__` (func_base.py:208-223). -/
def Obj.mkAffine : Obj → ℝ → ℝ → Obj
  | .affine base a₀ b₀, a, b => .affine base (a * a₀) (a * b₀ + b)
  | f, a, b => .affine f a b

/-- `f + b`, `b + f` (func_base.py:175-179) -/
def Obj.add (f : Obj) (b : ℝ) : Obj := f.mkAffine 1 b
/-- `f - b` (func_base.py:181-182) -/
def Obj.sub (f : Obj) (b : ℝ) : Obj := f.mkAffine 1 (-b)
/-- `b - f` (func_base.py:184-185) -/
def Obj.rsub (f : Obj) (b : ℝ) : Obj := f.mkAffine (-1) b
/-- `-f` (func_base.py:187-188) -/
def Obj.neg (f : Obj) : Obj := f.mkAffine (-1) 0
/-- `f * a`, `a * f` (func_base.py:190-194) -/
def Obj.mul (f : Obj) (a : ℝ) : Obj := f.mkAffine a 0

/-- `IndexMap.__call__(m)` for an `IndexMap` `idx` (func_op.py:17-18): `[m[k] for k in idx]`. -/
def mapThrough (idx m : List Nat) : Except Err (List Nat) :=
  match idx with
  | [] => .ok []
  | k :: ks =>
    match m[k]? with
    | none => .error .indexError
    | some j => do
      let r ← mapThrough ks m
      pure (j :: r)

mutual
/-- `Sum.add(foo, param_map, feat_map, dim_map, weight)` (func_op.py:151-197) on the state
`(self.atoms, self.b)`. -/
noncomputable def sumAdd (st : Atoms × ℝ) :
    Obj → List Nat → List Nat → List Nat → ℝ → Except Err (Atoms × ℝ)
  | .affine base a b, pm, fm, dm, w => sumAdd (st.1, st.2 + b) base pm fm dm (w * a)
  | .sum atoms b, pm, fm, dm, w => sumAddAll (st.1, st.2 + b) atoms pm fm dm w
  | .other f, pm, fm, dm, w => .ok (st.1.append w (.other f) pm fm dm, st.2)
  | .prod atoms, pm, fm, dm, w => .ok (st.1.append w (.prod atoms) pm fm dm, st.2)
/-- the loop over `foo.atoms` -/
noncomputable def sumAddAll (st : Atoms × ℝ) :
    Atoms → List Nat → List Nat → List Nat → ℝ → Except Err (Atoms × ℝ)
  | .nil, _, _, _, _ => .ok st
  | .cons w' foo pm' fm' dm' rest, pm, fm, dm, w => do
    let p ← mapThrough pm' pm
    let f ← mapThrough fm' fm
    let d ← mapThrough dm' dm
    let st' ← sumAdd st foo p f d (w' * w)
    sumAddAll st' rest pm fm dm w
end

mutual
/-- `Product.add(foo, param_map, feat_map, dim_map)` (func_op.py:230-253) on `self.atoms`. -/
noncomputable def prodAdd (st : Atoms) :
    Obj → List Nat → List Nat → List Nat → Except Err Atoms
  | .prod atoms, pm, fm, dm => prodAddAll st atoms pm fm dm
  | .affine base a b, pm, fm, dm => .ok (st.append 1 (.affine base a b) pm fm dm)
  | .sum atoms b, pm, fm, dm => .ok (st.append 1 (.sum atoms b) pm fm dm)
  | .other f, pm, fm, dm => .ok (st.append 1 (.other f) pm fm dm)
/-- the loop over `foo.atoms` -/
noncomputable def prodAddAll (st : Atoms) :
    Atoms → List Nat → List Nat → List Nat → Except Err Atoms
  | .nil, _, _, _ => .ok st
  | .cons _ foo pm' fm' dm' rest, pm, fm, dm => do
    let p ← mapThrough pm' pm
    let f ← mapThrough fm' fm
    let d ← mapThrough dm' dm
    let st' ← prodAdd st foo p f d
    prodAddAll st' rest pm fm dm
end

end Verif.Func
