import Verif.Model.Copula
import Mathlib.Probability.Distributions.Gaussian.Multivariate
import Mathlib.Probability.CDF
import Mathlib.Topology.Instances.EReal.Lemmas

/-!
# Model of `Gaussian` (maxlike/func/copula.py:60-86)

The two compiled routines it calls are replaced by the mathematical functions they compute: `scipy.special.ndtri` by the quantile function of the standard normal distribution
(with its values -inf at 0 and inf at 1), `scipy.stats.mvn.mvnun` by the probability that a normal vector with the given mean and covariance lies in the given box
(Mathlib's `multivariateGaussian`).  `no_divwarn`, `vectorize` (np.frompyfunc) only apply this to every entry.
-/

namespace Verif.Copula
open Verif.Params (Err)
open MeasureTheory ProbabilityTheory

/-- The standard normal distribution function. -/
noncomputable def normalCdf : ℝ → ℝ := cdf (gaussianReal 0 1)

/-- `scipy.special.ndtri` on [0, 1] (called at copula.py:84-85). -/
noncomputable def ndtri (u : ℝ) : EReal := if u ≤ 0 then ⊥ else if 1 ≤ u then ⊤ else ((Function.invFun normalCdf u : ℝ) : EReal)

/-- `np.clip(z, -999, 999)` (copula.py:84-85). -/
noncomputable def clip999 (z : EReal) : ℝ := (max ((-999 : ℝ) : EReal) (min z ((999 : ℝ) : EReal))).toReal

/-- `mvnun(lower, upper, mean, cov)[0]` (called at copula.py:25). -/
noncomputable def mvnun (lower upper mean : Fin 2 → ℝ) (cov : Matrix (Fin 2) (Fin 2) ℝ) : ℝ :=
  (multivariateGaussian (WithLp.toLp 2 mean) cov).real {z | ∀ i, lower i ≤ z i ∧ z i ≤ upper i}

/-- `gauss_bivar(x, y, rho)` (copula.py:22-25). -/
noncomputable def gaussBivar (x y rho : ℝ) : ℝ := mvnun ![-999, -999] ![x, y] ![0, 0] !![1, rho; rho, 1]

/-- `Gaussian.__call__` before wrapping (copula.py:82-86). -/
noncomputable def gaussianC (rho x y : ℝ) : ℝ := gaussBivar (clip999 (ndtri x)) (clip999 (ndtri y)) rho

open Classical in
/-- `Gaussian(rho)([p, q])` (copula.py:77-86, 28-46). -/
noncomputable def gaussianCopula (rho : ℝ) (n m : Nat) (p q : Nat → ℝ) : Except Err (Nat → Nat → ℝ) :=
  if rho ≤ 1 ∧ -1 ≤ rho then copulaWrap (gaussianC rho) n m p q else .error .assertion

end Verif.Copula
