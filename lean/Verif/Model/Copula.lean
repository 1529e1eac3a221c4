import Verif.Model.Params
import Mathlib.Analysis.SpecialFunctions.Pow.Real
import Mathlib.Analysis.SpecialFunctions.Log.Basic
import Mathlib.Algebra.BigOperators.Group.Finset.Basic

/-!
# Model of maxlike/func/copula.py

One frame: the leading axes of the marginals are carried along unchanged by every operation.  An
array axis is a length and a function of the index.  Real arithmetic.  `Gaussian` calls compiled
numerical routines (`ndtri`, `mvnun`) and is modelled in `Model/CopulaGaussian`.
-/

namespace Verif.Copula
open Verif.Params (Err)
open Finset

/-- `a.cumsum(-1)` -/
def cumsum (p : Nat → ℝ) : Nat → ℝ := fun i => ∑ k ∈ range (i + 1), p k

/-- `np.insert(F, 0, 0, axis)` along one axis: a zero in front. -/
def insertZero (f : Nat → ℝ) : Nat → ℝ
  | 0 => 0
  | i + 1 => f i

/-- `np.diff(F, 1, axis)` along one axis. -/
def npDiff (f : Nat → ℝ) : Nat → ℝ := fun i => f (i + 1) - f i

/-- `x = params[k].cumsum(-1); x /= x[..., -1][..., None]` (copula.py:35-38), `n` the length. -/
noncomputable def normCdf (n : Nat) (p : Nat → ℝ) : Nat → ℝ := fun i => cumsum p i / cumsum p (n - 1)

/-- `copulaWrap(C)` (copula.py:28-46): marginals `p`, `q` of lengths `n`, `m`; the result has `n` rows
and `m` columns.  An empty marginal raises `IndexError` at `x[..., -1]`. -/
noncomputable def copulaWrap (C : ℝ → ℝ → ℝ) (n m : Nat) (p q : Nat → ℝ) :
    Except Err (Nat → Nat → ℝ) :=
  if n = 0 ∨ m = 0 then .error .indexError
  else
    let x := normCdf n p
    let y := normCdf m q
    let F : Nat → Nat → ℝ := fun i j => C (x i) (y j)
    let F : Nat → Nat → ℝ := fun i => insertZero (F i)
    let F : Nat → Nat → ℝ := fun i j => insertZero (fun i => F i j) i
    let G : Nat → Nat → ℝ := fun i => npDiff (F i)
    .ok fun i j => npDiff (fun i => G i j) i

/-- `Clayton.__call__` (copula.py:104-108).  numpy's `power(0, -a)` is `inf` and `power(inf, -1/a)` is
0, so the value is 0 when an argument is 0. -/
noncomputable def clayton (a x y : ℝ) : ℝ :=
  if x = 0 ∨ y = 0 then 0 else (x ^ (-a) + y ^ (-a) - 1) ^ (-1 / a)

/-- `Gumbel.__call__` (copula.py:128-133).  numpy's `log(0)` is `-inf` and `exp(-inf)` is 0. -/
noncomputable def gumbel (a x y : ℝ) : ℝ :=
  if x = 0 ∨ y = 0 then 0
  else Real.exp (-(((-Real.log x) ^ a + (-Real.log y) ^ a) ^ (1 / a)))

/-- `Frank.__call__` (copula.py:146-150). -/
noncomputable def frank (a x y : ℝ) : ℝ :=
  (-1 / a) * Real.log (1 + (Real.exp (-a * x) - 1) * (Real.exp (-a * y) - 1) / (Real.exp (-a) - 1))

/-- `AkiMikhailHaq.__call__` (copula.py:167-168).  The denominator vanishes only for `rho = 1` and
`x = y = 0`, where numpy returns `nan`; the theorems exclude that case. -/
noncomputable def amh (rho x y : ℝ) : ℝ := x * y / (1 - rho * (1 - x) * (1 - y))

/-- The classes. -/
inductive Kind | clayton | gumbel | frank | amh
deriving DecidableEq, Repr

/-- The assertions of the constructors (copula.py:100-102, 124-126, 142-144, 162-165). -/
def admissible : Kind → ℝ → Prop
  | .clayton, a => 0 < a
  | .gumbel, a => 1 ≤ a
  | .frank, a => a ≠ 0
  | .amh, a => a ≤ 1 ∧ -1 ≤ a

/-- The wrapped `__call__` of a class. -/
noncomputable def kindFn : Kind → ℝ → ℝ → ℝ → ℝ
  | .clayton => clayton
  | .gumbel => gumbel
  | .frank => frank
  | .amh => amh

open Classical in
/-- `Kind(rho)([p, q])`. -/
noncomputable def copula (k : Kind) (rho : ℝ) (n m : Nat) (p q : Nat → ℝ) :
    Except Err (Nat → Nat → ℝ) :=
  if admissible k rho then copulaWrap (kindFn k rho) n m p q else .error .assertion

end Verif.Copula
