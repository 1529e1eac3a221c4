import Verif.Model.ErrorsTensor
import Verif.Spec.FitFull

/-!
# Specification: standard errors of the constrained problem
-/

namespace Verif.Tens
open Verif.Params

/-- The second derivatives `H` applied to two directions `u` and `w` of the free entries. -/
noncomputable def curvature (params : List (Param ℝ)) (H : Nat → Nat → Nat → Nat → ℝ) (u w : Nat → Nat → ℝ) : ℝ :=
  freeSum params fun i a => freeSum params fun j b => bothSides H i a j b * u i a * w j b

/-- The direction `u` of the free entries keeps the constraints with derivatives `ders`, to first order. -/
def Tangent (params : List (Param ℝ)) (ders : List (Nat → Nat → ℝ)) (u : Nat → Nat → ℝ) : Prop :=
  ∀ d ∈ ders, freeSum params (fun i a => d i a * u i a) = 0

/-- The second derivatives with respect to two entries do not depend on the order. -/
def SymmetricHess (params : List (Param ℝ)) (H : Nat → Nat → Nat → Nat → ℝ) : Prop :=
  ∀ i a b, isFree params i a → isFree params i b → H i i a b = H i i b a

/-- The function with second derivatives `H` curves downwards in every direction that keeps the constraints. -/
def Concave (params : List (Param ℝ)) (H : Nat → Nat → Nat → Nat → ℝ) (ders : List (Nat → Nat → ℝ)) : Prop :=
  ∀ u, Tangent params ders u → (∃ i a, isFree params i a ∧ u i a ≠ 0) → curvature params H u u < 0

/-- The constraints are independent on the free entries. -/
def Independent (params : List (Param ℝ)) (ders : List (Nat → Nat → ℝ)) : Prop :=
  ∀ μ : List ℝ, μ.length = ders.length → (∀ i a, isFree params i a → ((ders.zip μ).map fun x => x.1 i a * x.2).sum = 0) → ∀ x ∈ μ, x = 0

/-- `E` is the covariance matrix of the constrained estimate: the inverse of the information (minus the second derivatives `H`) on the directions that keep the
constraints.  `E i a j b` is the covariance of entry `a` of parameter `i` and entry `b` of parameter `j`. -/
structure IsCovariance (params : List (Param ℝ)) (H : Nat → Nat → Nat → Nat → ℝ) (ders : List (Nat → Nat → ℝ)) (E : Nat → Nat → Nat → Nat → ℝ) : Prop where
  tangent : ∀ j b, isFree params j b → Tangent params ders fun i a => E i a j b
  inverse : ∀ j b, isFree params j b → ∀ u, Tangent params ders u → -curvature params H u (fun i a => E i a j b) = u j b

/-- `bs` has one block for each two parameters, with one row for each entry of the first and one column for each entry of the second: at two free entries the value
`F`, elsewhere `fill`. -/
structure IsBlocks (params : List (Param ℝ)) (F : Nat → Nat → Nat → Nat → ℝ) (fill : ℝ) (bs : List (List (List (List ℝ)))) : Prop where
  length : bs.length = params.length
  block : ∀ i pi j pj, params[i]? = some pi → params[j]? = some pj → ∃ b, (bs[i]?.bind fun l => l[j]?) = some b ∧ b.length = pi.mask.length ∧
    (∀ r ∈ b, r.length = pj.mask.length) ∧
    (∀ x y : Nat, isFree params i x → isFree params j y → Flat.mat b x y = some (F i x j y)) ∧
    ∀ x y : Nat, x < pi.mask.length → y < pj.mask.length → isFixed params i x ∨ isFixed params j y → Flat.mat b x y = some fill

/-- `rs` has the standard errors of the constrained estimate: NaN for the fixed entries; for a free entry the largest value that it takes among the directions that keep
the constraints and have information (minus the curvature) at most 1. -/
structure StdErrors (params : List (Param ℝ)) (H : Nat → Nat → Nat → Nat → ℝ) (ders : List (Nat → Nat → ℝ)) (nan : ℝ) (rs : List (Param ℝ)) : Prop where
  layout : SameLayout rs params
  fixed : ∀ i a, isFixed params i a → entry rs i a = some nan
  free : ∀ i a, isFree params i a → ∃ s, entry rs i a = some s ∧
    IsGreatest {x | ∃ u, Tangent params ders u ∧ -curvature params H u u ≤ 1 ∧ x = u i a} s

end Verif.Tens
