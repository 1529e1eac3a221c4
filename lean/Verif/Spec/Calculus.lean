import Mathlib.Analysis.Calculus.Deriv.Basic

/-!
Partial derivatives with respect to parameter entries.
-/

namespace Verif

/-- Parameter values: entry `a` (row-major) of parameter `i`. -/
abbrev Theta := Nat → Nat → ℝ

/-- `θ` with entry `a` of parameter `i` replaced by `t`. -/
def Theta.set (θ : Theta) (i a : Nat) (t : ℝ) : Theta :=
  fun i' a' => if i' = i ∧ a' = a then t else θ i' a'

/-- `d` is the partial derivative of `F` at `θ` with respect to entry `a` of parameter `i`. -/
def HasPartial (F : Theta → ℝ) (θ : Theta) (i a : Nat) (d : ℝ) : Prop :=
  HasDerivAt (fun t => F (θ.set i a t)) d (θ i a)

theorem Theta.set_self (θ : Theta) (i a : Nat) : θ.set i a (θ i a) = θ := by
  funext i' a'
  unfold Theta.set
  split
  · rename_i h; rw [h.1, h.2]
  · rfl

end Verif
