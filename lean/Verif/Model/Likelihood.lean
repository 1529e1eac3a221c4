import Mathlib.Analysis.SpecialFunctions.Log.Basic
import Mathlib.Analysis.SpecialFunctions.Gamma.Basic
import Mathlib.Algebra.BigOperators.Group.Finset.Basic

/-!
# Model of the six likelihood classes (maxlike/maxlike.py)

Arrays are dense: `ι` is the (finite) set of feature cells; for `Finite`/`NormalizedFinite` the
values have cells `κ × υ`, `υ` being the outcome ("dim") axes.  `der i a k` is the entry of `der[i]`
for entry `a` of parameter `i` at cell `k`; `hess i j a b k` that of `hess[i][j]`.  The data arrays
`X`, `N`, `Z` are assumed to have the full shape of the cells.  The Tensor operations used
(elementwise arithmetic, `transpose`, `sum`) are taken with their dense meaning; the Tensor class
itself is modelled in `Model/Tensor.lean`.
-/

namespace Verif.Like
open Finset

/-- Gradient blocks of the model values. -/
abbrev Der (ι : Type) := Nat → Nat → ι → ℝ
/-- Hessian blocks of the model values. -/
abbrev Hess (ι : Type) := Nat → Nat → Nat → Nat → ι → ℝ

variable {ι κ υ : Type} [Fintype ι] [Fintype κ] [Fintype υ]

/-- `scipy.special.gammaln` on positive arguments. -/
noncomputable def gammaln (x : ℝ) : ℝ := Real.log (Real.Gamma x)

/-- `[(d * delta).sum() for d in der]` -/
def gradSum (der : Der ι) (delta : ι → ℝ) (i a : Nat) : ℝ := ∑ k, der i a k * delta k

/-- `(hess[i][j] * delta - der[i] * der[j].transpose() * delta2).sum()` -/
def hessSum (der : Der ι) (hess : Hess ι) (delta delta2 : ι → ℝ) (i j a b : Nat) : ℝ :=
  ∑ k, (hess i j a b k * delta k - der i a k * der j b k * delta2 k)

namespace Poisson
/-- maxlike.py:15-17 -/
noncomputable def like (X N : ι → ℝ) (y : ι → ℝ) : ℝ :=
  ∑ k, (X k * y k - N k * Real.exp (y k) - gammaln (X k + 1))
/-- maxlike.py:20 -/
noncomputable def delta (X N : ι → ℝ) (y : ι → ℝ) (k : ι) : ℝ := X k - N k * Real.exp (y k)
/-- maxlike.py:24 -/
noncomputable def delta2 (N : ι → ℝ) (y : ι → ℝ) (k : ι) : ℝ := N k * Real.exp (y k)
/-- maxlike.py:19-21 -/
noncomputable def gradLike (X N : ι → ℝ) (y : ι → ℝ) (der : Der ι) (i a : Nat) : ℝ :=
  gradSum der (delta X N y) i a
/-- maxlike.py:23-28 -/
noncomputable def hessLike (X N : ι → ℝ) (y : ι → ℝ) (der : Der ι) (hess : Hess ι)
    (i j a b : Nat) : ℝ := hessSum der hess (fun k => X k - delta2 N y k) (delta2 N y) i j a b
end Poisson

namespace ZeroInflatedPoisson
/-- maxlike.py:45-48 -/
noncomputable def like (s : ℝ) (X N Z : ι → ℝ) (y : ι → ℝ) : ℝ :=
  ∑ k, (X k * y k + Z k * Real.log s - N k * Real.log (Real.exp (Real.exp (y k)) + s - 1)
    - gammaln (X k + 1))
/-- maxlike.py:50-53 -/
noncomputable def gradLike (s : ℝ) (X N : ι → ℝ) (y : ι → ℝ) (der : Der ι) (i a : Nat) : ℝ :=
  gradSum der (fun k => X k - N k * Real.exp (y k) / (1 + (s - 1) * Real.exp (-Real.exp (y k)))) i a
/-- `t` of maxlike.py:57 -/
noncomputable def tOf (s y : ℝ) : ℝ := Real.exp y / (1 + (s - 1) * Real.exp (-Real.exp y))
/-- maxlike.py:55-62 -/
noncomputable def hessLike (s : ℝ) (X N : ι → ℝ) (y : ι → ℝ) (der : Der ι) (hess : Hess ι)
    (i j a b : Nat) : ℝ :=
  hessSum der hess (fun k => X k - N k * tOf s (y k))
    (fun k => N k * tOf s (y k) * (1 + tOf s (y k) * (s - 1) * Real.exp (-Real.exp (y k)))) i j a b
end ZeroInflatedPoisson

namespace Logistic
/-- maxlike.py:74-81 -/
noncomputable def like (X N : ι → ℝ) (y : ι → ℝ) : ℝ :=
  -∑ k, (N k * Real.log (1 + Real.exp (-y k)) + (N k - X k) * y k)
/-- maxlike.py:83-86 -/
noncomputable def gradLike (X N : ι → ℝ) (y : ι → ℝ) (der : Der ι) (i a : Nat) : ℝ :=
  gradSum der (fun k => X k - N k / (1 + Real.exp (-y k))) i a
/-- maxlike.py:90 -/
noncomputable def p (y : ι → ℝ) (k : ι) : ℝ := 1 / (1 + Real.exp (-y k))
/-- maxlike.py:88-96 -/
noncomputable def hessLike (X N : ι → ℝ) (y : ι → ℝ) (der : Der ι) (hess : Hess ι)
    (i j a b : Nat) : ℝ :=
  hessSum der hess (fun k => X k - p y k * N k) (fun k => p y k * (1 - p y k) * N k) i j a b
end Logistic

namespace NegativeBinomial
/-- maxlike.py:204-212 -/
noncomputable def like (r : ℝ) (X N : ι → ℝ) (y : ι → ℝ) : ℝ :=
  ∑ k, (gammaln (X k + r) - gammaln (X k + 1) + r * Real.log r - gammaln r + X k * y k
    - (X k + r * N k) * Real.log (r + Real.exp (y k)))
/-- maxlike.py:214-221 -/
noncomputable def gradLike (r : ℝ) (X N : ι → ℝ) (y : ι → ℝ) (der : Der ι) (i a : Nat) : ℝ :=
  gradSum der (fun k => X k - (X k + r * N k) * Real.exp (y k) / (Real.exp (y k) + r)) i a
/-- maxlike.py:229 -/
noncomputable def sOf (r y : ℝ) : ℝ := Real.exp y / (Real.exp y + r)
/-- maxlike.py:223-234 (here the second term is added). -/
noncomputable def hessLike (r : ℝ) (X N : ι → ℝ) (y : ι → ℝ) (der : Der ι) (hess : Hess ι)
    (i j a b : Nat) : ℝ :=
  ∑ k, (hess i j a b k * (X k - (X k + r * N k) * sOf r (y k)) +
    der i a k * der j b k * ((X k + r * N k) * sOf r (y k) * sOf r (y k) - X k +
      (X k - (X k + r * N k) * sOf r (y k))))
end NegativeBinomial

namespace NormalizedFinite
/-- maxlike.py:170-177 -/
noncomputable def like (N : κ × υ → ℝ) (y : κ × υ → ℝ) : ℝ := ∑ c, N c * Real.log (y c)
/-- maxlike.py:179-180 -/
noncomputable def gradLike (N : κ × υ → ℝ) (y : κ × υ → ℝ) (der : Der (κ × υ)) (i a : Nat) : ℝ :=
  ∑ c, N c * der i a c / y c
/-- maxlike.py:182-190 -/
noncomputable def hessLike (N : κ × υ → ℝ) (y : κ × υ → ℝ) (der : Der (κ × υ))
    (hess : Hess (κ × υ)) (i j a b : Nat) : ℝ :=
  ∑ c, N c * ((hess i j a b c - der i a c * der j b c / y c) / y c)
end NormalizedFinite

namespace Finite
/-- `y.sum(False)`: sum over the outcome axes (broadcast back over the outcomes when used). -/
noncomputable def sumDim (y : κ × υ → ℝ) (k : κ) : ℝ := ∑ u, y (k, u)
/-- maxlike.py:116-125 -/
noncomputable def like (N : κ × υ → ℝ) (y : κ × υ → ℝ) : ℝ :=
  ∑ c, N c * (Real.log (y c) - Real.log (sumDim y c.1))
/-- maxlike.py:127-139 -/
noncomputable def gradLike (N : κ × υ → ℝ) (y : κ × υ → ℝ) (der : Der (κ × υ)) (i a : Nat) : ℝ :=
  ∑ c, N c * (der i a c / y c - sumDim (der i a) c.1 / sumDim y c.1)
/-- maxlike.py:141-154 -/
noncomputable def hessLike (N : κ × υ → ℝ) (y : κ × υ → ℝ) (der : Der (κ × υ))
    (hess : Hess (κ × υ)) (i j a b : Nat) : ℝ :=
  ∑ c, N c * ((hess i j a b c - der i a c * der j b c / y c) / y c -
    (sumDim (hess i j a b) c.1 - sumDim (der i a) c.1 * sumDim (der j b) c.1 / sumDim y c.1) /
      sumDim y c.1)
end Finite

end Verif.Like
