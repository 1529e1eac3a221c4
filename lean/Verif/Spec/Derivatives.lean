import Verif.Spec.Layout
import Verif.Spec.Calculus

/-!
# Specification: methods that return a function and its derivatives, as Tensors
-/

namespace Verif.Tens
open Verif.Params (Err)

/-- A model with `m` parameters: for all parameters `θ`, `f θ` are its values, `der θ p` the Tensor with its
derivatives with respect to parameter `p`, and `hess θ p q` (for `q ≤ p`) the Tensor with its second derivatives.  Entry
number `a` of parameter `p` is at the position `e p a`. -/
structure TensorModel (pr : Problem) (e : Nat → Nat → Nat → Nat) (m : Nat) (f : Theta → Num ℝ)
    (der : Theta → Nat → Num ℝ) (hess : Theta → Nat → Nat → Num ℝ) : Prop where
  isDer : ∀ θ, ∀ p < m, pr.IsDer p (der θ p)
  isHess : ∀ θ, ∀ p < m, ∀ q ≤ p, pr.IsHess p q (hess θ p q)
  hd : ∀ θ, ∀ p < m, ∀ a, pr.Entry p (e p a) → ∀ c,
    HasPartial (fun θ => pr.val (f θ) c) θ p a ((der θ p).dense (pr.at (e p a) (fun _ => 0) c))
  hh : ∀ θ, ∀ p < m, ∀ q ≤ p, ∀ a b, pr.Entry p (e p a) → pr.Entry q (e q b) → ∀ c,
    HasPartial (fun θ => (der θ p).dense (pr.at (e p a) (fun _ => 0) c)) θ q b
      ((hess θ p q).dense (pr.at (e p a) (e q b) c))

/-- For all parameters, `like` returns a number, `grad` a list of arrays with its first derivatives (one array per
parameter) and `hess` the lower triangle of arrays with its second derivatives. -/
def ReturnsDerivatives (pr : Problem) (e : Nat → Nat → Nat → Nat) (m : Nat) (like : Theta → Except Err (Num ℝ))
    (grad : Theta → Except Err (List (Num ℝ))) (hess : Theta → Except Err (List (List (Num ℝ)))) : Prop :=
  ∃ (l : Theta → ℝ) (g : Theta → Nat → Nat → ℝ) (h : Theta → Nat → Nat → Nat → Nat → ℝ),
    (∀ θ, ∃ v, like θ = .ok v ∧ IsNumber v (l θ)) ∧
    (∀ θ, ∃ G, grad θ = .ok (row m G) ∧ ∀ p < m, pr.IsGrad e p (G p) (g θ p)) ∧
    (∀ θ, ∃ H, hess θ = .ok (triangle m H) ∧ ∀ p < m, ∀ q ≤ p, pr.IsBlock e p q (H p q) (h θ p q)) ∧
    (∀ θ, ∀ p < m, ∀ a, pr.Entry p (e p a) → HasPartial l θ p a (g θ p a)) ∧
    ∀ θ, ∀ p < m, ∀ q ≤ p, ∀ a b, pr.Entry p (e p a) → pr.Entry q (e q b) →
      HasPartial (fun θ => g θ p a) θ q b (h θ p q a b)

end Verif.Tens
