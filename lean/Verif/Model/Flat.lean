import Verif.Model.Params
import Mathlib.Algebra.Ring.Defs
import Mathlib.Analysis.SpecialFunctions.Log.Basic

/-!
# Model of `MaxLike.flat_grad`, `MaxLike.flat_hess`, `Linear`, the information criteria

Models `maxlike/maxlike_base.py`: `add_constraint`/`add_regularization` (127-157), `flat_grad`
(321-343), `flat_hess` (345-416), the information criteria (159-211); `maxlike/func/func.py`:
`Linear` (6-27).

Dense blocks are functions of row-major indices: `grad i a` is entry `a` of the gradient block of
parameter `i`; `hess i j a b` (for `j <= i`, lower triangle) is entry `(a, b)` of block `(i, j)`.
It is assumed that every block has the full shape of its parameters (the tensors returned by
`grad_like`/`hess_like` and by the functions' `grad`/`hess` after their `.sum()`); a
`GenericTensor`, which has no `.values`, is outside of this model.
-/

namespace Verif.Flat
open Verif.Params

variable {R : Type}

/-- A constraint or regularisation: the indices of its parameters, and the function: its value,
gradient blocks (position in the list, entry) and lower-triangular Hessian blocks, as functions of
the argument list `[params[k] for k in param_map]`. -/
structure Term (R : Type) where
  paramMap : List Nat
  val : List (Param R) → R
  grad : List (Param R) → Nat → Nat → R
  hess : List (Param R) → Nat → Nat → Nat → Nat → R

/-- `[params[k] for k in param_map]`: `IndexError` when out of range. -/
def getArgs (params : List (Param R)) (pm : List Nat) : Except Err (List (Param R)) :=
  pm.mapM fun k => match params[k]? with
    | some p => .ok p
    | none => .error .indexError

/-- `block[i] += v` on a list of vectors. -/
def addAt [Add R] (g : Nat → Nat → R) (i : Nat) (v : Nat → R) : Nat → Nat → R :=
  fun i' a => if i' = i then g i' a + v a else g i' a

/-- `block[i] -= v`. -/
def subAt [Sub R] (g : Nat → Nat → R) (i : Nat) (v : Nat → R) : Nat → Nat → R :=
  fun i' a => if i' = i then g i' a - v a else g i' a

/-- Indices of the free entries of a parameter: `arr[~p.mask]` lists the entries at these
indices. -/
def freeOf (p : Param R) : List Nat := sel (notMask p.mask) (List.range p.mask.length)

/-- The constraint loop of `flat_grad` (maxlike_base.py:327-332) with `gamma = 0` (the value stored
by `add_constraint`, line 142): adds `0 * grad_g[i]`, and stores `[g(args)]`.  The residual is
stored inside the loop over `param_map`; an empty `param_map` leaves the integer `0`, which
`np.concatenate` rejects (`ValueError`). -/
def gradConstraints [Add R] [Mul R] [Zero R] (params : List (Param R)) :
    List (Term R) → (Nat → Nat → R) → Except Err ((Nat → Nat → R) × List R)
  | [], g => .ok (g, [])
  | t :: ts, g => do
    let args ← getArgs params t.paramMap
    let g' := t.paramMap.zipIdx.foldl
      (fun g (idx, i) => addAt g idx (fun a => 0 * t.grad args i a)) g
    if t.paramMap.isEmpty then throw .valueError
    let (g'', rs) ← gradConstraints params ts g'
    pure (g'', t.val args :: rs)

/-- The regularisation loop of `flat_grad` (maxlike_base.py:334-338). -/
def gradRegs [Sub R] (params : List (Param R)) :
    List (Term R) → (Nat → Nat → R) → Except Err (Nat → Nat → R)
  | [], g => .ok g
  | t :: ts, g => do
    let args ← getArgs params t.paramMap
    gradRegs params ts (t.paramMap.zipIdx.foldl
      (fun g (idx, i) => subAt g idx (t.grad args i)) g)

/-- `flat_grad` (maxlike_base.py:321-343); `gradLike` is the result of `grad_like`. -/
def flatGrad [Add R] [Sub R] [Mul R] [Zero R] (params : List (Param R))
    (gradLike : Nat → Nat → R) (constraints regs : List (Term R)) : Except Err (List R) := do
  let (g, res) ← gradConstraints params constraints gradLike
  let g ← gradRegs params regs g
  npConcatenate (params.zipIdx.map (fun (p, i) => (freeOf p).map (g i)) ++ res.map (fun r => [r]))

/-- `hess[i][j] += v` on the lower-triangular list of lists: row `i` has the columns `0..i` only,
so `j > i` is an `IndexError`. -/
def addBlock [Add R] (h : Nat → Nat → Nat → Nat → R) (i j : Nat) (v : Nat → Nat → R) :
    Except Err (Nat → Nat → Nat → Nat → R) :=
  if j ≤ i then
    .ok (fun i' j' a b => if i' = i ∧ j' = j then h i' j' a b + v a b else h i' j' a b)
  else .error .indexError

/-- `for i, idx in enumerate(param_map): for j in range(i + 1): hess[idx][param_map[j]] += ...`
(maxlike_base.py:365-368 and 373-375). -/
def addBlocks [Add R] (pm : List Nat) (v : Nat → Nat → Nat → Nat → R)
    (h : Nat → Nat → Nat → Nat → R) : Except Err (Nat → Nat → Nat → Nat → R) :=
  pm.zipIdx.foldlM (fun h (idx, i) =>
    (pm.take (i + 1)).zipIdx.foldlM (fun h (jdx, j) => addBlock h idx jdx (v i j)) h) h

/-- `hess_c[k]` of one constraint (maxlike_base.py:356, 366): zeros, plus the gradient blocks. -/
def borderOf [Add R] [Zero R] (t : Term R) (args : List (Param R)) : Nat → Nat → R :=
  t.paramMap.zipIdx.foldl (fun (c : Nat → Nat → R) (x : Nat × Nat) =>
    addAt c x.1 (t.grad args x.2)) (fun _ _ => (0 : R))

/-- The constraint loop of `flat_hess` (maxlike_base.py:361-368): border rows `hess_c` and
`0 * hess_g`. -/
def hessConstraints [Add R] [Mul R] [Zero R] (params : List (Param R)) :
    List (Term R) → (Nat → Nat → Nat → Nat → R) →
    Except Err ((Nat → Nat → Nat → Nat → R) × List (Nat → Nat → R))
  | [], h => .ok (h, [])
  | t :: ts, h => do
    let args ← getArgs params t.paramMap
    let border : Nat → Nat → R := borderOf t args
    let h' ← addBlocks t.paramMap (fun i j a b => 0 * t.hess args i j a b) h
    let (h'', cs) ← hessConstraints params ts h'
    pure (h'', border :: cs)

/-- The regularisation loop of `flat_hess` (maxlike_base.py:370-375). -/
def hessRegs [Add R] [Neg R] (params : List (Param R)) :
    List (Term R) → (Nat → Nat → Nat → Nat → R) → Except Err (Nat → Nat → Nat → Nat → R)
  | [], h => .ok h
  | t :: ts, h => do
    let args ← getArgs params t.paramMap
    let h' ← addBlocks t.paramMap (fun i j a b => -(t.hess args i j a b)) h
    hessRegs params ts h'

/-- The block `(i, j)` of the completed matrix (maxlike_base.py:391-399), restricted to free
entries: `hess[i][j]` for `j < i`, `hess[j][i].transpose()` for `j >= i`.  Selecting with
`np.multiply.outer(~p_i.mask, ~p_j.mask)` and reshaping to `(count_i, count_j)` lists, row-major,
the pairs of free entries. -/
def fullBlock (h : Nat → Nat → Nat → Nat → R) (i j : Nat) (pi pj : Param R) : List (List R) :=
  if j < i then (freeOf pi).map fun a => (freeOf pj).map fun b => h i j a b
  else (freeOf pi).map fun a => (freeOf pj).map fun b => h j i b a

/-- `np.hstack` of matrices with `nrows` rows each. -/
def hstack (nrows : Nat) (blocks : List (List (List R))) : List (List R) :=
  (List.range nrows).map fun r => (blocks.map fun b => b.getD r []).flatten

/-- `np.concatenate([hess_c[i][j][~p_j.mask] for j, p_j in enumerate(params)])`
(maxlike_base.py:401-402, 410). -/
def concatFree (params : List (Param R)) (c : Nat → Nat → R) : List R :=
  (params.zipIdx.map fun (p, i) => (freeOf p).map (c i)).flatten

/-- `flat_hess` (maxlike_base.py:345-416); `hessLike` is the (lower-triangular) result of
`hess_like`. `np.vstack` of an empty list raises `ValueError`. -/
def flatHess [Add R] [Mul R] [Neg R] [Zero R] (params : List (Param R))
    (hessLike : Nat → Nat → Nat → Nat → R) (constraints regs : List (Term R)) :
    Except Err (List (List R)) := do
  let (h, cs) ← hessConstraints params constraints hessLike
  let h ← hessRegs params regs h
  if params.isEmpty then throw .valueError
  let rows := (params.zipIdx.map fun (pi, i) =>
    hstack (freeOf pi).length (params.zipIdx.map fun (pj, j) => fullBlock h i j pi pj)).flatten
  let border : List (List R) := cs.map (concatFree params)
  if cs.isEmpty then pure rows
  else
    -- `np.hstack([hess, hess_c.transpose()])` on top of `np.hstack([hess_c, zeros])`
    pure (rows.zipIdx.map (fun (row, r) => row ++ border.map fun b => b.getD r 0) ++
      border.map (fun b => b ++ List.replicate cs.length 0))

/-- `Linear` (func.py:6-27) as a term: value `sum(w * p)`, gradient `weights[i]` at every entry
(after the `.sum()` of the gradient tensor), zero Hessian.  `weights` are scalars, one per listed
parameter. -/
def linearTerm [Add R] [Mul R] [Zero R] (paramMap : List Nat) (weights : List R) : Term R where
  paramMap := paramMap
  val args := ((args.zip weights).map fun (p, w) => (p.values.map fun x => x * w).sum).sum
  grad _ i _ := weights.getD i 0
  hess _ _ _ _ _ := 0

/-! ### Information criteria -/

/-- `sum(map(np.ma.count, self.params))`: `np.ma.count` turns a `Param` into a plain array through
`Param.__array__` (maxlike_base.py:41-42), which drops the mask, so every entry is counted. -/
def maCount (params : List (Param R)) : Nat := (params.map fun p => p.values.length).sum

/-- `k` of both criteria (maxlike_base.py:183-185, 206-208), an integer that may be negative. -/
def dof (params : List (Param R)) (extra : Int) (nConstraints : Nat) : Int :=
  (maCount params : Int) + extra - nConstraints

/-- `g` (maxlike_base.py:94-104): `(like - sum of the regularisations) / N.sum()`; `logL` is the
value of `like`, `n` the value of `N.sum()`. -/
noncomputable def objectiveG (params : List (Param ℝ)) (logL : ℝ) (regs : List (Term ℝ)) (n : ℝ) :
    Except Err ℝ := do
  let vals ← regs.mapM fun t => do
    let args ← getArgs params t.paramMap
    pure (t.val args)
  pure ((vals.foldl (· - ·) logL) / n)

/-- `akaine_information_criterion(nb_extra_params)` (maxlike_base.py:159-188). -/
noncomputable def aic (params : List (Param ℝ)) (logL : ℝ) (regs : List (Term ℝ)) (n : ℝ)
    (extra : Int) (nConstraints : Nat) : Except Err ℝ := do
  let l ← objectiveG params logL regs n
  let k : ℝ := (dof params extra nConstraints : Int)
  pure (2 * k / (n - k - 1) - 2 * l)

/-- `bayesian_information_criterion(nb_extra_params)` (maxlike_base.py:190-211). -/
noncomputable def bic (params : List (Param ℝ)) (logL : ℝ) (regs : List (Term ℝ)) (n : ℝ)
    (extra : Int) (nConstraints : Nat) : Except Err ℝ := do
  let l ← objectiveG params logL regs n
  let k : ℝ := (dof params extra nConstraints : Int)
  pure (k * Real.log n / n - 2 * l)

/-! ### Broyden's inner linear algebra -/

/-- Dot product of two vectors (lists). -/
def dot [Add R] [Mul R] [Zero R] (u v : List R) : R := (List.zipWith (· * ·) u v).sum

/-- `np.dot(J, v)`; `ValueError` when the lengths differ. -/
def matVec [Add R] [Mul R] [Zero R] (J : List (List R)) (v : List R) : Except Err (List R) :=
  if J.all (fun row => row.length == v.length) then .ok (J.map fun row => dot row v)
  else .error .valueError

/-- `-np.dot(J, grad)` (maxlike_base.py:533). -/
def broydenDirection [Add R] [Mul R] [Neg R] [Zero R] (J : List (List R)) (grad : List R) :
    Except Err (List R) := do
  let v ← matVec J grad
  pure (v.map (- ·))

/-- `dgrad = grad - grad_prev; J += np.outer(step - np.dot(J, dgrad), dgrad) / (dgrad*dgrad).sum()`
(maxlike_base.py:549-551).  Vectors of different lengths are `ValueError` (broadcasting of vectors
of length one is not modelled). -/
def broydenUpdate [Add R] [Sub R] [Mul R] [Div R] [Zero R] (J : List (List R))
    (step grad gradPrev : List R) : Except Err (List (List R)) :=
  if grad.length = gradPrev.length ∧ step.length = J.length then do
    let dgrad := List.zipWith (· - ·) grad gradPrev
    let Jd ← matVec J dgrad
    let ss := dot dgrad dgrad
    let u := List.zipWith (· - ·) step Jd
    pure (List.zipWith (fun row ui => List.zipWith (fun x d => x + ui * d / ss) row dgrad) J u)
  else .error .valueError

end Verif.Flat
