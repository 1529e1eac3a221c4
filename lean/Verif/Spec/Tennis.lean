import Verif.Spec.Acts

/-!
# Specification: the arrays returned by the tennis functions
-/

namespace Verif.Tens
open Verif.Params (Err)

/-- `x` consists of Tensors with the entries `A` (values), `B k` (derivatives) and `C k l` (second derivatives) at the positions in `len` axes with the
sizes `R`, the last `dd` of which are `dim` axes.  The `q` parameter axes of the derivatives are mapped to the first `q` of these axes. -/
def GivesSheets (m q len dd : Nat) (R : Nat → Nat) (A : (Nat → Nat) → ℝ) (B : Nat → (Nat → Nat) → ℝ) (C : Nat → Nat → (Nat → Nat) → ℝ) (x : Except Err (Ev3 ℝ)) : Prop :=
  ∃ (V : Tensor ℝ) (D : Nat → Tensor ℝ) (H : Nat → Nat → Tensor ℝ), x = .ok ⟨.arr (.tensor V), row m fun k => .arr (.tensor (D k)), triangle m fun k l => .arr (.tensor (H k l))⟩ ∧
    Sheet R 0 0 len dd [] [] V A ∧ (∀ k < m, Sheet R q 0 len dd (idMap q) [] (D k) (B k)) ∧
    ∀ k < m, ∀ l ≤ k, Sheet R q q len dd (idMap q) (idMap q) (H k l) (C k l)

/-- The position `(s 1, …, s (q - 1), s 0)`. -/
def rot (q : Nat) (s : Nat → Nat) : Nat → Nat := fun j => if j + 1 = q then s 0 else s (j + 1)

/-- The sum over the outcomes. -/
noncomputable def sumOutcome (δ : Nat) (T : Nat → Nat) (φ : (Nat → Nat) → ℝ) : ℝ := sumAt T (List.range δ) φ fun _ => 0

end Verif.Tens
