import Verif.Spec.ErrorsTensor

/-!
# Specification: concave problems
-/

namespace Verif.Tens
open Verif.Params

/-- The sum of `F` over all the entries of the parameters. -/
def allSum (pr : Problem) (m : Nat) (F : Nat → Nat → ℝ) : ℝ := ∑ p ∈ Finset.range m, ∑ a ∈ Finset.range (pr.sizes p).prod, F p a

/-- The number `y θ c` that the model calculates for cell `c` is linear in the parameters, with coefficients `x c` and constant `k c`. -/
def LinearModel (pr : Problem) (m : Nat) (y : Theta → pr.Cell → ℝ) (k : pr.Cell → ℝ) (x : pr.Cell → Nat → Nat → ℝ) : Prop :=
  ∀ θ c, y θ c = k c + allSum pr m fun p a => x c p a * θ p a

/-- For each cell `c` the function `l c` has the first derivative `l1 c` and the second derivative `-w c`, which is not positive. -/
structure ConcaveCells {ι : Type} (l l1 w : ι → ℝ → ℝ) : Prop where
  first : ∀ c t, HasDerivAt (l c) (l1 c t) t
  second : ∀ c t, HasDerivAt (l1 c) (-w c t) t
  nonneg : ∀ c t, 0 ≤ w c t

/-- The penalty is a convex function of the parameters. -/
structure ConvexPen (pr : Problem) (m : Nat) (φ : Pen) : Prop where
  above : ∀ θ θ', φ.val θ + allSum pr m (fun p a => φ.der θ p a * (θ' p a - θ p a)) ≤ φ.val θ'
  symm : ∀ θ p a b, φ.hes θ p p a b = φ.hes θ p p b a
  nonneg : ∀ θ params u, AtPoint pr m θ params → 0 ≤ curvature params (φ.hes θ) u u

/-- The direction 0 is the only direction of the free entries that keeps the constraints with derivatives `ders` and changes neither the numbers that the linear model
calculates for the cells in `seen`, nor the entries of the parameters with a quadratic penalty. -/
def Identified (pr : Problem) (params : List (Param ℝ)) (ders : List (Nat → Nat → ℝ)) (x : pr.Cell → Nat → Nat → ℝ) (seen : pr.Cell → Prop) (pen : Nat → Prop) : Prop :=
  ∀ u, Tangent params ders u → (∀ c, seen c → freeSum params (fun i a => x c i a * u i a) = 0) → (∀ i a, isFree params i a → pen i → u i a = 0) →
    ∀ i a, isFree params i a → u i a = 0

/-- The list of the quadratic penalties: parameters, centre and scale of each. -/
noncomputable def quadPens (pr : Problem) (qs : List (List Nat × ℝ × ℝ)) : List Pen := qs.map fun q => quadPen pr q.1 q.2.1 q.2.2

/-- The list of the linear constraints: parameters and weights of each. -/
noncomputable def linCons (pr : Problem) (cs : List (List Nat × List ℝ)) : List Con := cs.map fun c => linCon pr c.1 c.2

/-- A problem with a concave log-likelihood: the model is linear in the parameters (`y θ c`, with coefficients `x c`), the log-likelihood is a sum of concave functions of
these numbers, strictly concave for the cells in `seen`, the constraints are linear and the penalties quadratic. -/
structure ConcaveProblem (pr : Problem) (m : Nat) (M : MaxLikeT ℝ) (L : Theta → ℝ) (cs : List (List Nat × List ℝ)) (qs : List (List Nat × ℝ × ℝ)) (T : ℝ)
    (y : Theta → pr.Cell → ℝ) (x : pr.Cell → Nat → Nat → ℝ) (seen : pr.Cell → Prop) : Prop where
  solver : Solver pr m (fun _ => True) M L (linCons pr cs) (quadPens pr qs) T
  linear : ∃ k, LinearModel pr m y k x
  cells : ∃ l l1 w, ConcaveCells l l1 w ∧ (∀ θ, L θ = ∑ c, l c (y θ c)) ∧ ∀ c t, seen c → w c t ≠ 0
  cons : ∀ c ∈ cs, c.1.Nodup ∧ ∀ p ∈ c.1, p < m
  pens : ∀ q ∈ qs, q.1.Nodup ∧ (∀ p ∈ q.1, p < m) ∧ q.2.2 ≠ 0

/-- The derivatives of the constraints. -/
noncomputable def conDers (pr : Problem) (cs : List (List Nat × List ℝ)) : List (Nat → Nat → ℝ) := (linCons pr cs).map fun c => c.der fun _ _ => 0

/-- The constraints and the data determine the free entries of the parameters (the constraints are independent on the free entries). -/
structure WellPosed (pr : Problem) (params : List (Param ℝ)) (cs : List (List Nat × List ℝ)) (qs : List (List Nat × ℝ × ℝ))
    (x : pr.Cell → Nat → Nat → ℝ) (seen : pr.Cell → Prop) : Prop where
  identified : Identified pr params (conDers pr cs) x seen fun p => ∃ q ∈ qs, p ∈ q.1
  independent : Independent params (conDers pr cs)

/-- The points that satisfy the constraints and have the same fixed entries as `θ`. -/
def Feasible (pr : Problem) (params : List (Param ℝ)) (cs : List (List Nat × List ℝ)) (θ θ' : Theta) : Prop :=
  (∀ c ∈ linCons pr cs, c.val θ' = 0) ∧ ∀ i a, isFixed params i a → θ' i a = θ i a

end Verif.Tens
