import Verif.Spec.FitFull
import Verif.Spec.Calculus

/-!
# Vocabulary for C79: the same problem, written down in another way

`e` says where each entry of the parameters of the second problem is in the first one.
-/

namespace Verif.Tens
open Verif.Params

/-- Parameter `x.1` has an entry `x.2`. -/
def Problem.HasEntry (pr : Problem) (m : Nat) (x : Nat × Nat) : Prop := x.1 < m ∧ x.2 < (pr.sizes x.1).prod

/-- The parameters `θ`, arranged as `e` says. -/
def pull (e : Nat × Nat ≃ Nat × Nat) (θ : Theta) : Theta := fun i a => θ (e (i, a)).1 (e (i, a)).2

/-- The two problems are the same up to the arrangement of the parameters: the second one has the same objective and the same constraints, as functions of the
rearranged parameters. -/
structure SameProblem (e : Nat × Nat ≃ Nat × Nat) (pr : Problem) (m : Nat) (P : Theta → ℝ) (gs : List Con) (pr' : Problem) (m' : Nat) (P' : Theta → ℝ) (gs' : List Con) :
    Prop where
  entries : ∀ x, pr'.HasEntry m' x ↔ pr.HasEntry m (e x)
  objective : ∀ θ : Theta, P' (pull e θ) = P θ
  constraints : List.Forall₂ (fun g g' : Con => ∀ θ : Theta, g'.val (pull e θ) = g.val θ) gs gs'

/-- The second problem is the first one with the parameters rearranged and all the weights multiplied by `c`: its objective is `c` times that of the first one
plus a constant `k`, the constraints are the same. -/
structure ScaledProblem (e : Nat × Nat ≃ Nat × Nat) (c k : ℝ) (pr : Problem) (m : Nat) (P : Theta → ℝ) (gs : List Con) (pr' : Problem) (m' : Nat) (P' : Theta → ℝ)
    (gs' : List Con) : Prop where
  entries : ∀ x, pr'.HasEntry m' x ↔ pr.HasEntry m (e x)
  objective : ∀ θ : Theta, P' (pull e θ) = c * P θ + k
  constraints : List.Forall₂ (fun g g' : Con => ∀ θ : Theta, g'.val (pull e θ) = g.val θ) gs gs'

/-- The same entries are free. -/
def SameFree (e : Nat × Nat ≃ Nat × Nat) (params params' : List (Param ℝ)) : Prop := ∀ x : Nat × Nat, isFree params' x.1 x.2 ↔ isFree params (e x).1 (e x).2

/-- The same values, rearranged. -/
def SamePoint (e : Nat × Nat ≃ Nat × Nat) (pr : Problem) (m : Nat) (pr' : Problem) (m' : Nat) (params params' : List (Param ℝ)) : Prop :=
  ∃ θ : Theta, AtPoint pr m θ params ∧ AtPoint pr' m' (pull e θ) params'

/-- The two lists of points are the same as far as both go. -/
def SamePath (e : Nat × Nat ≃ Nat × Nat) (pr : Problem) (m : Nat) (pr' : Problem) (m' : Nat) (tr tr' : List (List (List (Param ℝ)))) : Prop :=
  ∀ n ≤ tr.length, n ≤ tr'.length → List.Forall₂ (List.Forall₂ (SamePoint e pr m pr' m')) (tr.take n) (tr'.take n)

end Verif.Tens
