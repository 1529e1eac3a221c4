import Verif.Spec.Observations

/-!
# Specification: the residuals of the observations
-/

namespace Verif.Tens

/-- The mean of an observation when the model has the value `t`, for the classes with a log-concave probability.  `Poisson`, `NegativeBinomial`: `exp t`.  `Logistic`: the probability
of success.  `ZeroInflatedPoisson(s)`: the mean of the Poisson probabilities with mean `exp t`, the first one multiplied by `s`, normalised. -/
noncomputable def Kind.mean (k : Kind) (t : ℝ) : ℝ :=
  match k with
  | .poisson => Real.exp t
  | .zeroInflatedPoisson s => Real.exp t * Real.exp (Real.exp t) / (Real.exp (Real.exp t) + s - 1)
  | .logistic => 1 / (1 + Real.exp (-t))
  | .negativeBinomial _ => Real.exp t
  | _ => 0

/-- The weight of a residual: the ratio of the derivative of the mean to the variance; it is 1 when the link of the class is the canonical one. -/
noncomputable def Kind.linkWeight (k : Kind) (t : ℝ) : ℝ :=
  match k with
  | .negativeBinomial r => r / (r + Real.exp t)
  | _ => 1

end Verif.Tens
