import Verif.Model.Flat
import Verif.Spec.Params


/-!
Specification vocabulary for the flat gradient and Hessian, constraints and regularisations.
-/

namespace Verif.Flat
open Verif.Params

variable {R : Type}

/-- All indices of a term are valid. -/
def Term.Valid (params : List (Param R)) (t : Term R) : Prop := ∀ k ∈ t.paramMap, k < params.length

/-- The arguments of a term (for valid terms: `[params[k] for k in param_map]`). -/
def argsOf (params : List (Param R)) (pm : List Nat) : List (Param R) :=
  pm.filterMap fun k => params[k]?

/-- Sum of the gradient contributions of a term to entry `a` of parameter `i`. -/
def termGrad [AddCommMonoid R] (params : List (Param R)) (t : Term R) (i a : Nat) : R :=
  (t.paramMap.zipIdx.map fun x =>
    if x.1 = i then t.grad (argsOf params t.paramMap) x.2 a else 0).sum

/-- `param_map` without a decrease: every earlier index is at most every later one. -/
def NonDecreasing (pm : List Nat) : Prop := pm.Pairwise (· ≤ ·)

/-- Every earlier index is smaller than every later one. -/
def StrictlyIncreasing (pm : List Nat) : Prop := pm.Pairwise (· < ·)

/-- The symmetric matrix of blocks stored as lower triangle: block `(k, l)` for `l <= k` is stored,
the others are the transposes. -/
def symBlocks (h : Nat → Nat → Nat → Nat → R) (k l a b : Nat) : R :=
  if l ≤ k then h k l a b else h l k b a

/-- Second derivative of a term with respect to entry `a` of parameter `i` and entry `b` of
parameter `j`: all pairs of argument positions holding these parameters contribute. -/
def termHessFull [AddCommMonoid R] (params : List (Param R)) (t : Term R) (i a j b : Nat) : R :=
  (t.paramMap.zipIdx.map fun x => (t.paramMap.zipIdx.map fun y =>
    if x.1 = i ∧ y.1 = j then symBlocks (t.hess (argsOf params t.paramMap)) x.2 y.2 a b
    else 0).sum).sum

/-- Entry `(r, s)` of a matrix given by its rows. -/
def mat (M : List (List R)) (r s : Nat) : Option R := M[r]?.bind fun row => row[s]?

/-- `t'` is `t` with its parameters listed in another order: argument `p` of `t'` is argument
`σ p` of `t`, and the function takes its arguments accordingly. -/
structure PermutedTerm {n : Nat} (σ : Equiv.Perm (Fin n)) (t t' : Term R) : Prop where
  len : t.paramMap.length = n
  map : t'.paramMap = List.ofFn fun p : Fin n => t.paramMap[(σ p).val]'(len ▸ (σ p).isLt)
  val : ∀ A : Fin n → Param R, t'.val (List.ofFn (A ∘ σ)) = t.val (List.ofFn A)
  grad : ∀ (A : Fin n → Param R) (p : Fin n) (a : Nat),
    t'.grad (List.ofFn (A ∘ σ)) p a = t.grad (List.ofFn A) (σ p) a
  hess : ∀ (A : Fin n → Param R) (p q : Fin n) (a b : Nat),
    symBlocks (t'.hess (List.ofFn (A ∘ σ))) p q a b = symBlocks (t.hess (List.ofFn A)) (σ p) (σ q) a b

/-- `s` solves the linear system `M x = g` (the specification of `np.linalg.solve`). -/
structure Solves [Add R] [Mul R] [Zero R] (M : List (List R)) (s g : List R) : Prop where
  len : s.length = M.length
  glen : g.length = M.length
  rows : ∀ (r : Nat) (row : List R) (gr : R), M[r]? = some row → g[r]? = some gr → dot row s = gr

/-- A linear constraint: parameters `idx` with scalar weights. -/
structure LinCon (R : Type) where
  idx : List Nat
  weights : List R

/-- The left-hand side of the constraint: the weighted sum of all entries of the listed
parameters. -/
def LinCon.residual [Add R] [Mul R] [Zero R] (c : LinCon R) (params : List (Param R)) : R :=
  ((c.idx.zip c.weights).map fun x =>
    ((params[x.1]?.map fun p => p.values.sum).getD 0) * x.2).sum

end Verif.Flat
