import Verif.Spec.Session
import Verif.Spec.Layout
import Verif.Model.Likelihood

/-!
# Specification: the log-likelihood of each class, as a function of the data of the session
-/

namespace Verif.Tens

/-- The data that a class reads. -/
def Kind.reads : Kind → List Name
  | .poisson => [.X, .N]
  | .zeroInflatedPoisson _ => [.X, .N, .Z]
  | .logistic => [.X, .N]
  | .finite _ => [.N]
  | .normalizedFinite _ => [.N]
  | .negativeBinomial _ => [.X, .N]

/-- The arguments of the constructors for which the log-likelihood is defined everywhere. -/
def Kind.Ok : Kind → Prop
  | .zeroInflatedPoisson s => 0 ≤ s
  | .negativeBinomial r => 0 < r
  | _ => True

/-- The classes whose model values are probabilities. -/
def Kind.IsProbability : Kind → Prop
  | .finite _ => True
  | .normalizedFinite _ => True
  | _ => False

/-- The class whose derivatives sum over the outcomes. -/
def Kind.SumsOutcomes : Kind → Prop
  | .finite _ => True
  | _ => False

theorem Kind.SumsOutcomes.isProbability {k : Kind} (h : k.SumsOutcomes) : k.IsProbability := by
  cases k <;> first | exact h.elim | trivial

/-- The log-likelihood of the observations at the value `y` of the model; `x` are the data by name.  Cells are pairs of features and outcomes. -/
noncomputable def Kind.logLike {κ υ : Type} [Fintype κ] [Fintype υ] (k : Kind) (x : Name → κ × υ → ℝ) (y : κ × υ → ℝ) : ℝ :=
  match k with
  | .poisson => ∑ c, (x .X c * y c - x .N c * Real.exp (y c) - Like.gammaln (x .X c + 1))
  | .zeroInflatedPoisson s => ∑ c, (x .X c * y c + x .Z c * Real.log s - x .N c * Real.log (Real.exp (Real.exp (y c)) + s - 1) - Like.gammaln (x .X c + 1))
  | .logistic => -∑ c, (x .N c * Real.log (1 + Real.exp (-y c)) + (x .N c - x .X c) * y c)
  | .finite _ => ∑ c, x .N c * (Real.log (y c) - Real.log (∑ u, y (c.1, u)))
  | .normalizedFinite _ => ∑ c, x .N c * Real.log (y c)
  | .negativeBinomial r => ∑ c, (Like.gammaln (x .X c + r) - Like.gammaln (x .X c + 1) + r * Real.log r - Like.gammaln r + x .X c * y c
      - (x .X c + r * x .N c) * Real.log (r + Real.exp (y c)))

end Verif.Tens
