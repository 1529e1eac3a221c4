import Verif.Spec.Reparam

/-!
# Vocabulary for C85: fixing entries and constraining them
-/

namespace Verif.Tens
open Verif.Params

/-- The constraint `g` says that the entry `x` of the parameters is `c` (in any units). -/
def Pins (x : Nat × Nat) (c : ℝ) (g : Con) : Prop := ∃ w : ℝ, w ≠ 0 ∧ ∀ θ, g.val θ = w * (θ x.1 x.2 - c)

/-- The entries in `S` are fixed in `ps` and free in `ps'`; of the others, the same ones are free in both. -/
structure Released (S : List (Nat × Nat)) (ps ps' : List (Param ℝ)) : Prop where
  nodup : S.Nodup
  fixed : ∀ x ∈ S, isFixed ps x.1 x.2
  free : ∀ i a, isFree ps' i a ↔ isFree ps i a ∨ (i, a) ∈ S

/-- The two parameter lists have the same values. -/
def SameValues (pr : Problem) (m : Nat) (params params' : List (Param ℝ)) : Prop := ∃ θ : Theta, AtPoint pr m θ params ∧ AtPoint pr m θ params'

open scoped Classical in
/-- The covariances `E`, and 0 for the entries in `S`. -/
noncomputable def pinnedCov (S : List (Nat × Nat)) (E : Nat → Nat → Nat → Nat → ℝ) (i a j b : Nat) : ℝ := if (i, a) ∈ S ∨ (j, b) ∈ S then 0 else E i a j b

end Verif.Tens
