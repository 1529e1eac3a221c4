import Verif.Model.FitFull
import Verif.Spec.FlatTensor

/-!
# Specification: the problem that `fit` solves
-/

namespace Verif.Tens
open Verif.Params

/-- The object `M` is the maximum likelihood problem: maximise `penalised L φs`, the log-likelihood minus the penalties, subject to `c.val θ = 0` for the constraints
`c` in `gs`; `T` is the total weight of the data. -/
structure Solver (pr : Problem) (m : Nat) (dom : Theta → Prop) (M : MaxLikeT ℝ) (L : Theta → ℝ) (gs : List Con) (φs : List Pen) (T : ℝ) : Prop where
  pos : 0 < m
  fit : FitReturns pr (cOrder pr m) dom L (modelLike M.model M.like) (modelGrad M.model M.gradLike) (modelHess M.model M.hessLike)
  whole : FitWhole pr (cOrder pr m) dom (modelGrad M.model M.gradLike) (modelHess M.model M.hessLike)
  /-- the value that `eval` returns has the same likelihood as the value of the call -/
  same : ∀ θ, dom θ → ∀ ps, (cOrder pr m).IsParams θ ps → ∃ e y v, M.model.eval ps = .ok e ∧ e.val = .arr y ∧ M.like y = .ok v ∧ IsNumber v (L θ)
  /-- the same gradients from `model(params)` and `model.grad(params)` in place of `model.eval(params)` -/
  separate : ∃ hess, FitReturns pr (cOrder pr m) dom L (modelLike M.model M.like) (modelGradCall M.model M.gradLike) hess ∧
    FitWhole pr (cOrder pr m) dom (modelGradCall M.model M.gradLike) hess
  constraints : List.Forall₂ (fun t g => IsConstraint (cOrder pr m) t g.val g.der) M.constraint gs
  penalties : List.Forall₂ (fun t φ => IsPenalty (cOrder pr m) t φ.val φ.der φ.hes) M.reg φs
  total : ∃ n, M.N.sumAll = .ok n ∧ IsNumber n T
  ne : T ≠ 0

open scoped Classical in
/-- The sum of `F` over the free entries of the parameters. -/
noncomputable def freeSum (params : List (Param ℝ)) (F : Nat → Nat → ℝ) : ℝ :=
  ∑ i ∈ Finset.range params.length, ∑ a ∈ Finset.range ((params.map fun p => p.shape.prod).getD i 0), if isFree params i a then F i a else 0

/-- The second derivatives, from the lower triangle `H`. -/
def bothSides (H : Nat → Nat → Nat → Nat → ℝ) (i a j b : Nat) : ℝ := if j < i then H i j a b else H j i b a

/-- `step` (the free entries, in order) is the Newton step of the problem with gradient `D`, second derivatives `H`, constraints with derivatives `ders` and values
`res`: with multipliers `μ`, `H step + Σ μ ders = D` and `ders step = res`. -/
structure NewtonStep (params : List (Param ℝ)) (D : Nat → Nat → ℝ) (H : Nat → Nat → Nat → Nat → ℝ) (ders : List (Nat → Nat → ℝ)) (res step μ : List ℝ) : Prop where
  len : step.length = totalFree params
  multipliers : μ.length = ders.length
  stationary : ∀ i a, isFree params i a →
    freeSum params (fun j b => bothSides H i a j b * step.getD (freeRank params j b) 0) + ((ders.zip μ).map fun x => x.1 i a * x.2).sum = D i a
  feasible : ∀ (k : Nat) d r, ders[k]? = some d → res[k]? = some r → freeSum params (fun j b => d j b * step.getD (freeRank params j b) 0) = r

/-- The first order conditions for a maximum of `P` over the free entries, subject to the constraints: they hold, and the derivatives of the Lagrangian are 0. -/
def FirstOrder (params : List (Param ℝ)) (P : Theta → ℝ) (gs : List Con) (θ : Theta) : Prop :=
  (∀ c ∈ gs, c.val θ = 0) ∧ ∃ μ : List ℝ, μ.length = gs.length ∧
    ∀ i a, isFree params i a → HasPartial (fun θ => P θ - ((gs.zip μ).map fun x => x.1.val θ * x.2).sum) θ i a 0

end Verif.Tens
