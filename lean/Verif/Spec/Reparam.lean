import Verif.Spec.FitFull
import Verif.Spec.Calculus
import Mathlib.Analysis.Calculus.ContDiff.Operations
import Mathlib.Algebra.Module.Pi
import Mathlib.Algebra.Module.Equiv.Basic

/-!
# Vocabulary for C83: a change of parameters

`B` and `b` say how the parameters of the second problem are computed from those of the first: `B θ + b`, with `B` linear and invertible.
-/

namespace Verif.Tens
open Verif.Params

/-- `θ` with the entries in `s` moved by `t`. -/
noncomputable def shiftBy (θ : Theta) (s : Finset (Nat × Nat)) (t : s → ℝ) : Theta := fun i a => if h : (i, a) ∈ s then θ i a + t ⟨(i, a), h⟩ else θ i a

/-- `F` is twice continuously differentiable at `θ` as a function of any finite set of entries. -/
def SmoothAt (F : Theta → ℝ) (θ : Theta) : Prop := ∀ s : Finset (Nat × Nat), ContDiffAt ℝ 2 (fun t : s → ℝ => F (shiftBy θ s t)) 0

/-- The direction `u` moves free entries only. -/
def OnFree (params : List (Param ℝ)) (u : Theta) : Prop := ∀ i a, ¬isFree params i a → u i a = 0

/-- The direction that moves the entry `x` by 1. -/
noncomputable def unitDir (x : Nat × Nat) : Theta := Theta.set 0 x.1 x.2 1

/-- The coefficient of the entry `y` of the old parameters in the entry `x` of the new ones. -/
noncomputable def coef (B : Theta ≃ₗ[ℝ] Theta) (x y : Nat × Nat) : ℝ := B (unitDir y) x.1 x.2

/-- `B E Bᵀ`: the covariances of the new parameters, from those of the old ones (`params` are the old ones). -/
noncomputable def changedCov (B : Theta ≃ₗ[ℝ] Theta) (params : List (Param ℝ)) (E : Nat → Nat → Nat → Nat → ℝ) (i a j b : Nat) : ℝ :=
  freeSum params fun k c => freeSum params fun l d => coef B (i, a) (k, c) * E k c l d * coef B (j, b) (l, d)

/-- `Bᵀ F B`: the information about the old parameters, from that about the new ones (`params'` are the new ones). -/
noncomputable def changedInfo (B : Theta ≃ₗ[ℝ] Theta) (params' : List (Param ℝ)) (F : Nat → Nat → Nat → Nat → ℝ) (i a j b : Nat) : ℝ :=
  freeSum params' fun k c => freeSum params' fun l d => coef B (k, c) (i, a) * F k c l d * coef B (l, d) (j, b)

/-- The second problem is the first one with other parameters: the same objective and the same constraints, as functions of the new parameters. -/
structure Reparametrised (B : Theta ≃ₗ[ℝ] Theta) (b : Theta) (P : Theta → ℝ) (gs : List Con) (P' : Theta → ℝ) (gs' : List Con) : Prop where
  objective : ∀ θ : Theta, P' (B θ + b) = P θ
  constraints : List.Forall₂ (fun g g' : Con => ∀ θ : Theta, g'.val (B θ + b) = g.val θ) gs gs'

/-- The directions in which the parameters are free correspond to each other. -/
def SameDirections (B : Theta ≃ₗ[ℝ] Theta) (params params' : List (Param ℝ)) : Prop := ∀ u : Theta, OnFree params' (B u) ↔ OnFree params u

/-- The same point, in the old and in the new parameters. -/
def ChangedPoint (B : Theta ≃ₗ[ℝ] Theta) (b : Theta) (pr : Problem) (m : Nat) (pr' : Problem) (m' : Nat) (params params' : List (Param ℝ)) : Prop :=
  ∃ θ : Theta, AtPoint pr m θ params ∧ AtPoint pr' m' (B θ + b) params'

end Verif.Tens
