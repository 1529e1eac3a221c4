import Mathlib.Order.Basic

/-!
# Pairs that are linked by observations
-/

namespace Verif.Tens

/-- `x` (on the first axis) and `y` (on the second) are linked by a chain of observed pairs: `x` with `y₁`, `x₁` with `y₁`, `x₁` with `y₂`, …, `xₙ` with `y`. -/
inductive Linked {α β : Type} (R : α → β → Prop) : α → β → Prop where
  | pair {x : α} {y : β} (h : R x y) : Linked R x y
  | chain {x x' : α} {y y' : β} (h : Linked R x y) (h1 : R x' y) (h2 : R x' y') : Linked R x y'

end Verif.Tens
