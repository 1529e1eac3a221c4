import Verif.Spec.SessionLike
import Mathlib.Analysis.SpecialFunctions.Pow.Real

/-!
# Specification: the log-probability of one observation
-/

namespace Verif.Tens

/-- The logarithm of the probability that the class gives to the observation `v` in the cell `c` when the model has the values `y`.
`Poisson`: mean `exp y`.  `ZeroInflatedPoisson(s)`: as Poisson, the probability of 0 multiplied by `s`, normalised.  `Logistic`: success (`v = 1`) has log-odds `y`.
`NegativeBinomial(r)`: `r` failures, mean `exp y`.  `Finite`, `NormalizedFinite`: the cell includes the outcome, and `v` is not used. -/
noncomputable def Kind.logProb {κ υ : Type} [Fintype υ] (k : Kind) (y : κ × υ → ℝ) (c : κ × υ) (v : ℕ) : ℝ :=
  match k with
  | .poisson => Real.log (Real.exp (-Real.exp (y c)) * Real.exp (y c) ^ v / v.factorial)
  | .zeroInflatedPoisson s => Real.log ((if v = 0 then s else Real.exp (y c) ^ v / v.factorial) / (Real.exp (Real.exp (y c)) + s - 1))
  | .logistic => Real.log (if v = 0 then 1 - 1 / (1 + Real.exp (-y c)) else 1 / (1 + Real.exp (-y c)))
  | .finite _ => Real.log (y c) - Real.log (∑ u, y (c.1, u))
  | .normalizedFinite _ => Real.log (y c)
  | .negativeBinomial r => Real.log (Real.Gamma (v + r) / (Real.Gamma r * v.factorial) * (r / (r + Real.exp (y c))) ^ r * (Real.exp (y c) / (r + Real.exp (y c))) ^ v)

/-- The constructors' arguments and the observations for which these are probabilities. -/
def Kind.Admits : Kind → ℕ → Prop
  | .zeroInflatedPoisson s, _ => 0 < s
  | .negativeBinomial r, _ => 0 < r
  | .logistic, v => v ≤ 1
  | _, _ => True

/-- The classes whose log-probability is a concave function of the value of the model. -/
def Kind.IsConcave : Kind → Prop
  | .poisson => True
  | .zeroInflatedPoisson _ => True
  | .logistic => True
  | .negativeBinomial _ => True
  | _ => False

/-- The sum of `h` over the observations in the cell `c`. -/
def cellSum {ρ C : Type} [DecidableEq C] (rows : List ρ) (pos : ρ → C) (h : ρ → ℝ) (c : C) : ℝ := ((rows.filter fun r => pos r = c).map h).sum

end Verif.Tens
