import Verif.Spec.Concave

/-!
# Specification: regular cells (C78)
-/

namespace Verif.Tens
open Verif.Params

/-- The log-likelihood is a sum of concave functions of the numbers `y θ c` whose second derivatives are continuous, and each is 0 everywhere or nowhere. -/
def RegularCells (pr : Problem) (L : Theta → ℝ) (y : Theta → pr.Cell → ℝ) : Prop :=
  ∃ l l1 w, ConcaveCells l l1 w ∧ (∀ θ, L θ = ∑ c, l c (y θ c)) ∧ (∀ c, Continuous (w c)) ∧ ∀ c t t', w c t = 0 → w c t' = 0

/-- The entries of `θ` and `θ'` differ by at most `ρ`. -/
def Close (pr : Problem) (m : Nat) (ρ : ℝ) (θ θ' : Theta) : Prop := ∀ p < m, ∀ a < (pr.sizes p).prod, |θ' p a - θ p a| ≤ ρ

end Verif.Tens
