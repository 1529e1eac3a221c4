import Verif.Model.Func
import Mathlib.Analysis.SpecialFunctions.Exp
import Mathlib.Analysis.SpecialFunctions.Log.Basic
import Mathlib.Analysis.SpecialFunctions.Trigonometric.Arctan
import Mathlib.Analysis.SpecialFunctions.Gamma.Basic

/-!
# Model of the elementary functions
(maxlike/func/func.py, sigmoid.py, func_proba.py, tennis.py)

Positions as in `Model/Func.lean`.  Most of these functions compute cell `c` of the value from one
entry `src c` of parameter 0; `cellwise` is the dense form of `grad_tensor(..., x_map=True)` and
`hess_tensor(..., x_map=True, y_map=True)` (func_base.py:21-69): the gradient is diagonal in the
entry and the cell it is copied to.
-/

namespace Verif.Func
open Verif.Params (Err)
open Finset

variable {ι : Type} [Fintype ι] [DecidableEq ι]

/-- A function of one parameter, cell by cell. -/
def cellwise (src : ι → ι) (φ φ' φ'' : ι → ℝ → ℝ) (gradNull hessNull : Bool) : Fn ι :=
  leaf (fun θ c => φ c (θ 0 (src c)))
    (fun θ _ e c => if e = src c then φ' c (θ 0 (src c)) else 0)
    (fun θ _ _ e e' c => if e = src c ∧ e' = src c then φ'' c (θ 0 (src c)) else 0)
    gradNull hessNull

/-- `X` (func.py:54-62) -/
def xFn : Fn ι := cellwise id (fun _ y => y) (fun _ _ => 1) (fun _ _ => 0) false true

/-- `Constant(vector)` (func.py:65-74) -/
def constantFn (vec : ι → ℝ) : Fn ι :=
  leaf (fun _ c => vec c) (fun _ _ _ _ => 0) (fun _ _ _ _ _ _ => 0) true true

/-- `Scalar` (func.py:77-85); the parameter is a scalar, whose only entry is `e₀`. -/
def scalarFn (e₀ : ι) : Fn ι :=
  cellwise (fun _ => e₀) (fun _ y => y) (fun _ _ => 1) (fun _ _ => 0) false true

/-- `Vector(vector)` (func.py:88-99) -/
def vectorFn (e₀ : ι) (vec : ι → ℝ) : Fn ι :=
  cellwise (fun _ => e₀) (fun c y => y * vec c) (fun c _ => vec c) (fun _ _ => 0) false true

/-- `Exp` (func.py:102-119) -/
noncomputable def expFn : Fn ι :=
  cellwise id (fun _ => Real.exp) (fun _ => Real.exp) (fun _ => Real.exp) false false

/-- `Log` (func.py:122-133) -/
noncomputable def logFn : Fn ι :=
  cellwise id (fun _ => Real.log) (fun _ y => 1 / y) (fun _ y => -1 / y ^ 2) false false

/-- `scipy.special.expit` -/
noncomputable def expit (y : ℝ) : ℝ := 1 / (1 + Real.exp (-y))

/-- `Logistic` (sigmoid.py:16-34) -/
noncomputable def logisticFn : Fn ι :=
  cellwise id (fun _ => expit) (fun _ y => expit y * (1 - expit y))
    (fun _ y => expit y * (1 - expit y) * (1 - 2 * expit y)) false false

/-- `ArcTan` (sigmoid.py:38-51) -/
noncomputable def arctanFn : Fn ι :=
  cellwise id (fun _ => Real.arctan) (fun _ y => 1 / (1 + y * y))
    (fun _ y => -2 * y / (1 + y * y) ^ 2) false false

/-- `Sigmoid(name)` (sigmoid.py:7-13) for a lower-case name. -/
noncomputable def sigmoid (name : String) : Except Err (Fn ι) :=
  if name = "logistic" then .ok logisticFn
  else if name = "arctan" then .ok (affine arctanFn (1 / Real.pi) 0.5)
  else .error .valueError

/-- `Linear(weights)` (func.py:6-27) with scalar weights; `supp k` are the entries of parameter
`k`.  `zip` stops at the shorter list.  The gradient has size-1 axes holding `weights[i]`. -/
def linearFn (weights : List ℝ) (supp : Nat → Finset ι) : Fn ι :=
  leaf (fun θ _ => ∑ k ∈ range weights.length, ∑ e ∈ supp k, θ k e * weights.getD k 0)
    (fun _ i e _ => if e ∈ supp i then weights.getD i 0 else 0)
    (fun _ _ _ _ _ _ => 0) false false

/-- `Quadratic(u, s)` (func.py:29-51) called with `n` parameters. -/
noncomputable def quadraticFn (n : Nat) (u s : ℝ) (supp : Nat → Finset ι) : Fn ι :=
  leaf (fun θ _ => ∑ k ∈ range n, ∑ e ∈ supp k, (θ k e - u) / s * ((θ k e - u) / s))
    (fun θ i e _ => if e ∈ supp i then 2 * ((θ i e - u) / s) / s else 0)
    (fun _ i j e e' _ => if i = j ∧ e = e' ∧ e ∈ supp i then 2 * 1 / s / s else 0) false false

/-! ### func_proba.py, one row of the last axis -/

/-- `np.insert(vec[..., :-1], 0, 0, -1)`: shift right, filling with 0. -/
def shiftRight (v : List ℝ) : List ℝ := 0 :: v.dropLast

/-- `(a ** x) / factorial(x)` for `x = arange(size)` (func_proba.py:17-21). -/
noncomputable def poissonRow (size : Nat) (a : ℝ) : List ℝ :=
  (List.range size).map fun (x : Nat) => a ^ x / (x.factorial : ℝ)

/-- `Poisson.grad` (func_proba.py:23-28) -/
noncomputable def poissonGradRow (size : Nat) (a : ℝ) : List ℝ := shiftRight (poissonRow size a)

/-- `Poisson.hess` (func_proba.py:30-36) -/
noncomputable def poissonHessRow (size : Nat) (a : ℝ) : List ℝ :=
  shiftRight (shiftRight (poissonRow size a))

/-- `Poisson.eval` (func_proba.py:38-47) -/
noncomputable def poissonEvalRow (size : Nat) (a : ℝ) : List ℝ × List ℝ × List ℝ :=
  let vec := poissonRow size a
  let vec' := shiftRight vec
  (vec, vec', shiftRight vec')

/-- `LogNegativeBinomial.__call__` (func_proba.py:56-69), `gammaln = log Γ`. -/
noncomputable def logNegBinRow (size : Nat) (r m : ℝ) : List ℝ :=
  (List.range size).map fun (x : Nat) =>
    (x : ℝ) * Real.log m + Real.log (Real.Gamma (r + x)) - Real.log (Real.Gamma r) +
      r * Real.log r - Real.log (x.factorial : ℝ) - ((x : ℝ) + r) * Real.log (r + m)

/-- `LogNegativeBinomial.grad` (func_proba.py:71-79) -/
noncomputable def logNegBinGradRow (size : Nat) (r m : ℝ) : List ℝ :=
  (List.range size).map fun (x : Nat) => (x : ℝ) / m - ((x : ℝ) + r) / (r + m)

/-- `LogNegativeBinomial.hess` (func_proba.py:81-89) -/
noncomputable def logNegBinHessRow (size : Nat) (r m : ℝ) : List ℝ :=
  (List.range size).map fun (x : Nat) => ((x : ℝ) + r) / (r + m) ^ 2 - (x : ℝ) / m ^ 2

/-- `Poisson(size)` as a Func object: `k c` is the index of cell `c` on the last axis, `src c` the
parameter entry of its row. -/
noncomputable def poissonFn (size : Nat) (src : ι → ι) (k : ι → Nat) : Fn ι :=
  cellwise src (fun c a => (poissonRow size a).getD (k c) 0)
    (fun c a => (poissonGradRow size a).getD (k c) 0)
    (fun c a => (poissonHessRow size a).getD (k c) 0) false false

/-- `LogNegativeBinomial(size, r)` as a Func object. -/
noncomputable def logNegBinFn (size : Nat) (r : ℝ) (src : ι → ι) (k : ι → Nat) : Fn ι :=
  cellwise src (fun c a => (logNegBinRow size r a).getD (k c) 0)
    (fun c a => (logNegBinGradRow size r a).getD (k c) 0)
    (fun c a => (logNegBinHessRow size r a).getD (k c) 0) false false

/-- `NegativeBinomial(size, r) = Exp() @ LogNegativeBinomial(size, r)` (func_proba.py:110-111) -/
noncomputable def negBinFn (size : Nat) (r : ℝ) (src : ι → ι) (k : ι → Nat) : Fn ι :=
  compose expFn [logNegBinFn size r src k]

/-! ### tennis.py -/

/-- `Game.__call__` (tennis.py:12-20), the list `g` for one point probability. -/
noncomputable def gameVals (p : ℝ) : List ℝ :=
  let q := 1 - p
  [p ^ 4, 4 * p ^ 4 * q, 10 * p ^ 4 * q ^ 2, 20 * p ^ 5 * q ^ 3 / (1 - 2 * p * q)]

/-- `Game.grad` (tennis.py:22-32) -/
noncomputable def gameGrad (p : ℝ) : List ℝ :=
  let q := 1 - p
  [4 * p ^ 3, 4 * (4 - 5 * p) * p ^ 3, 20 * (2 - 3 * p) * q * p ^ 3,
   -20 * (12 * p ^ 3 - 20 * p ^ 2 + 16 * p - 5) * q ^ 2 * p ^ 4 / (1 - 2 * p * q) ^ 2]

/-- `Game.hess` (tennis.py:34-45) -/
noncomputable def gameHess (p : ℝ) : List ℝ :=
  let q := 1 - p
  [12 * p ^ 2, 16 * (3 - 5 * p) * p ^ 2, 20 * (5 * (1 - 3 * p) * q + 1) * p ^ 2,
   40 * (60 * p ^ 6 - 200 * p ^ 5 + 322 * p ^ 4 - 308 * p ^ 3 + 184 * p ^ 2 - 65 * p + 10) *
     q * p ^ 3 / (1 - 2 * p * q) ^ 3]

/-- `TieBreak.__call__` (tennis.py:54-65) -/
noncomputable def tieVals (p : ℝ) : List ℝ :=
  let q := 1 - p
  [p ^ 7, 7 * p ^ 7 * q, 28 * p ^ 7 * q ^ 2, 84 * p ^ 7 * q ^ 3, 210 * p ^ 7 * q ^ 4,
   462 * p ^ 7 * q ^ 5, 924 * p ^ 8 * q ^ 6 / (1 - 2 * p * q)]

/-- `TieBreak.grad` (tennis.py:67-80) -/
noncomputable def tieGrad (p : ℝ) : List ℝ :=
  let q := 1 - p
  [7 * p ^ 6, 7 * (7 - 8 * p) * p ^ 6, 28 * (7 - 9 * p) * q * p ^ 6,
   84 * (7 - 10 * p) * q ^ 2 * p ^ 6, 210 * (7 - 11 * p) * q ^ 3 * p ^ 6,
   462 * (7 - 12 * p) * q ^ 4 * p ^ 6,
   -1848 * (12 * p ^ 3 - 19 * p ^ 2 + 14 * p - 4) * q ^ 5 * p ^ 7 / (1 - 2 * p * q) ^ 2]

/-- `TieBreak.hess` (tennis.py:82-96) -/
noncomputable def tieHess (p : ℝ) : List ℝ :=
  let q := 1 - p
  [42 * p ^ 5, 98 * (3 - 4 * p) * p ^ 5, 56 * (36 * p ^ 2 - 56 * p + 21) * p ^ 5,
   504 * (15 * p ^ 2 - 21 * p + 7) * q * p ^ 5, 420 * (55 * p ^ 2 - 70 * p + 21) * q ^ 2 * p ^ 5,
   924 * (66 * p ^ 2 - 77 * p + 21) * q ^ 3 * p ^ 5,
   1848 * (264 * p ^ 6 - 836 * p ^ 5 + 1270 * p ^ 4 - 1136 * p ^ 3 + 625 * p ^ 2 - 200 * p + 28) *
     q ^ 4 * p ^ 6 / (1 - 2 * p * q) ^ 3]

/-- The clipping in `Set.__call__` (tennis.py:107-109); absent from `grad` and `hess`. -/
noncomputable def setClip (p : ℝ) : ℝ := max (min p (1 - 1 / 10 ^ 10)) (1 / 10 ^ 10)

/-- The list `s` of `Set.__call__` for a clipped game probability (tennis.py:110-118). -/
noncomputable def setPoly (p t : ℝ) : List ℝ :=
  let q := 1 - p
  [p ^ 6, 6 * p ^ 6 * q, 21 * p ^ 6 * q ^ 2, 56 * p ^ 6 * q ^ 3, 126 * p ^ 6 * q ^ 4,
   252 * p ^ 7 * q ^ 5, 504 * p ^ 6 * q ^ 6 * t]

/-- `Set.__call__` (tennis.py:105-118) -/
noncomputable def setVals (p t : ℝ) : List ℝ := setPoly (setClip p) t

/-- `Set.grad(i)` (tennis.py:120-141) -/
noncomputable def setGrad (p t : ℝ) (i : Nat) : Except Err (List ℝ) :=
  let q := 1 - p
  if i = 0 then
    .ok [6 * p ^ 5, 6 * (6 - 7 * p) * p ^ 5, 42 * (3 - 4 * p) * q * p ^ 5,
     168 * (2 - 3 * p) * q ^ 2 * p ^ 5, 252 * (3 - 5 * p) * q ^ 3 * p ^ 5,
     252 * (7 - 12 * p) * q ^ 4 * p ^ 6, 3024 * (1 - 2 * p) * q ^ 5 * p ^ 5 * t]
  else if i = 1 then
    .ok (List.replicate 6 0 ++ [504 * q ^ 6 * p ^ 6])
  else .error .valueError

/-- `Set.hess(i, j)` (tennis.py:143-167) -/
noncomputable def setHess (p t : ℝ) (i j : Nat) : Except Err (List ℝ) :=
  let q := 1 - p
  if i = 0 ∧ j = 0 then
    .ok [30 * p ^ 4, 36 * (5 - 7 * p) * p ^ 4, 42 * (28 * p ^ 2 - 42 * p + 15) * p ^ 4,
     336 * (5 - 6 * p) * (1 - 2 * p) * q * p ^ 4,
     756 * (15 * p ^ 2 - 18 * p + 5) * q ^ 2 * p ^ 4,
     504 * (66 * p ^ 2 - 77 * p + 21) * q ^ 3 * p ^ 5,
     3024 * (22 * p ^ 2 - 22 * p + 5) * q ^ 4 * p ^ 4 * t]
  else if i = 1 ∧ j = 0 then
    .ok (List.replicate 6 0 ++ [3024 * (1 - 2 * p) * q ^ 5 * p ^ 5])
  else if i = 1 ∧ j = 1 then
    .ok (List.replicate 7 0)
  else .error .valueError

/-- An array of any shape, as a function of its multi-index. -/
abbrev NArr := List Nat → ℝ

/-- `np.stack(g)` for arrays `g[0], g[1], ...`: the first index selects the array. -/
def npStack (g : Nat → NArr) : NArr
  | [] => 0
  | k :: idx => g k idx

/-- `swapaxes(0, -1)`: first and last index exchanged. -/
def swapFirstLast (idx : List Nat) : List Nat :=
  match idx with
  | [] => []
  | [a] => [a]
  | a :: b :: rest => (b :: rest).getLast (by simp) :: (b :: rest).dropLast ++ [a]

/-- `np.stack(g).swapaxes(0, -1)` -/
def npSwapaxes0 (x : NArr) : NArr := fun idx => x (swapFirstLast idx)

/-- The array returned by `Game`, `TieBreak` and (for fixed `t`) `Set`: `kernel p` is the list of
outcomes of one point probability, `p` the parameter array. -/
noncomputable def tennisArr (kernel : ℝ → List ℝ) (p : NArr) : NArr :=
  npSwapaxes0 (npStack fun k idx => (kernel (p idx)).getD k 0)

end Verif.Func
