import Verif.Spec.FuncTensor

/-!
# Specification: a likelihood with its derivatives
-/

namespace Verif.Tens
open Verif.Params (Err)

/-- The features of a cell, as a position. -/
def Problem.cellN (pr : Problem) (c : pr.Cell) : Nat → Nat := fun k => if h : k < pr.n then c.1 ⟨k, h⟩ else 0

/-- Its outcomes. -/
def Problem.cellD (pr : Problem) (c : pr.Cell) : Nat → Nat := fun k => if h : k < pr.d then c.2 ⟨k, h⟩ else 0

/-- The values of a function in all cells. -/
def valCell (pr : Problem) (val : Val) (θ : Theta) : pr.Cell → ℝ := fun c => val θ (pr.cellN c) (pr.cellD c)

/-- The methods of a likelihood, for all parameters in `dom`: `like` returns `L θ`, `grad` its first derivatives (one array per
parameter) and `hess` the lower triangle of its second derivatives. -/
def FitReturns (pr : Problem) {m : Nat} (N : Numbering pr m) (dom : Theta → Prop) (L : Theta → ℝ)
    (like : List (Tensor ℝ) → Except Err (Num ℝ)) (grad : List (Tensor ℝ) → Except Err (List (Num ℝ)))
    (hess : List (Tensor ℝ) → Except Err (List (List (Num ℝ)))) : Prop :=
  ∃ (g : Theta → Nat → Nat → ℝ) (h : Theta → Nat → Nat → Nat → Nat → ℝ),
    (∀ θ, dom θ → ∀ ps, N.IsParams θ ps →
      (∃ v, like ps = .ok v ∧ IsNumber v (L θ)) ∧
      (∃ G, grad ps = .ok (row m G) ∧ ∀ p < m, pr.IsGrad N.e p (G p) (g θ p)) ∧
      ∃ H, hess ps = .ok (triangle m H) ∧ ∀ p < m, ∀ q ≤ p, pr.IsBlock N.e p q (H p q) (h θ p q)) ∧
    (∀ θ, dom θ → ∀ p < m, ∀ a, pr.Entry p (N.e p a) → HasPartial L θ p a (g θ p a)) ∧
    ∀ θ, dom θ → ∀ p < m, ∀ q ≤ p, ∀ a b, pr.Entry p (N.e p a) → pr.Entry q (N.e q b) →
      HasPartial (fun θ => g θ p a) θ q b (h θ p q a b)

/-- The arrays that `grad` and `hess` return have the shapes of the parameters: no axis is missing or broadcast. -/
def FitWhole (pr : Problem) {m : Nat} (N : Numbering pr m) (dom : Theta → Prop) (grad : List (Tensor ℝ) → Except Err (List (Num ℝ)))
    (hess : List (Tensor ℝ) → Except Err (List (List (Num ℝ)))) : Prop :=
  ∀ θ, dom θ → ∀ ps, N.IsParams θ ps → (∃ G, grad ps = .ok (row m G) ∧ ∀ p < m, pr.Whole p (G p)) ∧
    ∃ H, hess ps = .ok (triangle m H) ∧ ∀ p < m, ∀ q ≤ p, pr.Whole2 p q (H p q)

end Verif.Tens
