/-
C64, C67: `Collapse(f)` when derivatives of `f` are broadcast along an axis that is summed.
The methods are executed by the kernel on arrays of rational numbers.
-/
import Verif.Props.ComposeCounterexamples

namespace Verif.Tens

open Verif.Params (Err)
open ComposeCex

namespace ComposeCex

/-- `Sum(2).add(X(), 0, 0).add(X(), 1, 1)`: the table `a_i + b_j` of the test suite's models. -/
def twoWay : TFunc ℚ := sumT [(1, xT, atom 0 [0] 2), (1, xT, atom 1 [1] 2)] 0

/-- The parameters `[1, 2]` and `[1, 2, 3]` with `t` added to the first entry of the first one. -/
def moved (t : ℚ) : List (Tensor ℚ) := [vec 2 fun a => (a : ℚ) + 1 + if a = 0 then t else 0, vec 3 fun a => (a : ℚ) + 1]

/-- The derivative with respect to parameter `p` in what `eval` returns. -/
def evalGrad (p : Nat) (r : Except Err (Ev3 ℚ)) : Except Err (Py ℚ) := r.bind fun e => pick e.grad p

/-- `Sum(3, 1).add(Compose(CollapseMatrix(), [frames3]), [0, 1, 2], [0, 1, 2], [0])` -/
def hidden : TFunc ℚ := sumT [(1, composeT (collapseMatrixT none) [frames3], ⟨[0, 1, 2], [0, 1, 2], 3, [0], 1, []⟩)] 0

/-- `Sum(2).add(FuncWrap(S, [0, 1], [0, 1], 2, feat_flip=[1]), [0, 1], [0, 1])` with `S = Sum(2).add(X(), 0, 0).add(X(), 1, 0)` -/
def reflected : TFunc ℚ :=
  sumT [(1, wrapT (sumT [(1, xT, atom 0 [0] 2), (1, xT, atom 1 [0] 2)] 0) ⟨[0, 1], [0, 1], 2, [], 0, [1]⟩, ⟨[0, 1], [0, 1], 2, [], 0, []⟩)] 0

/-- `threeVectors` with `t` added to the first entry of the first parameter. -/
def threeMoved (t : ℚ) : List (Tensor ℚ) :=
  [vec 2 fun a => (a : ℚ) + 1 + if a = 0 then t else 0, vec 3 fun a => (a : ℚ) + 1, vec 4 fun a => (a : ℚ) + 1]

end ComposeCex

/-- **C64 is false for functions whose gradient raises ValueError**: `FuncWrap.grad` (func_op.py:71-77) takes every ValueError as "the parameter is not in the map" and returns
`Tensor(0)`.  A `Sum` with the atom `CollapseMatrix() @ frames3`, whose `grad` raises ValueError (C65_three_features_counterexample), reports the derivative 0, although the
value changes by 12 when 1 is added to the parameter; `eval` raises ValueError. -/
theorem C64_swallowed_error_counterexample :
    entry (hidden.call (threeMoved 0)) (at4 0 2 3 1) = some (1 * 3 * 4) ∧
      entry (hidden.call (threeMoved 1)) (at4 0 2 3 1) = some (2 * 3 * 4) ∧
      raised ((composeT (collapseMatrixT none) [frames3]).grad (threeMoved 0) 0) = some .valueError ∧
      shapeOf (hidden.grad (threeMoved 0) 0) = some [] ∧ entry (hidden.grad (threeMoved 0) 0) (fun _ => 0) = some 0 ∧
      raised (hidden.eval (threeMoved 0)) = some .valueError := by
  decide +kernel

/-- **C64 is false for `feat_flip` on an axis that the function stores with size 1**: `eval` and `grad` disagree.  `reflected` is `a_i + b_i` with the second of two features, on which nothing
depends, reversed.  `grad` reports the derivative 1 for both parameters.  In `eval` (func_op.py:88-110) the derivative is appended first, then the ValueError
raised by flipping the Hessian, `Tensor(0)`, makes it append `Tensor(0)` as well; so the second entry of the list, which `Sum` takes as the derivative by `b`, is 0. -/
theorem C64_flip_eval_counterexample :
    entry (reflected.grad [vec 2 fun a => a, vec 2 fun a => a] 0) (at4 0 0 0 0) = some 1 ∧
      entry (reflected.grad [vec 2 fun a => a, vec 2 fun a => a] 1) (at4 0 0 0 0) = some 1 ∧
      entry (reflected.call [vec 2 fun a => a, vec 2 fun a => a + 1]) (at4 0 0 0 0) = some 1 ∧
      entry (reflected.call [vec 2 fun a => a, vec 2 fun a => a]) (at4 0 0 0 0) = some 0 ∧
      entry (evalGrad 0 (reflected.eval [vec 2 fun a => a, vec 2 fun a => a])) (at4 0 0 0 0) = some 1 ∧
      entry (evalGrad 1 (reflected.eval [vec 2 fun a => a, vec 2 fun a => a])) (at4 0 0 0 0) = some 0 := by
  decide +kernel

/-- **C64 is false for `Collapse` of a function whose derivatives are broadcast.**  `Collapse(a_i + b_j)` for 2 and 3 entries is
`3·(a₀ + a₁) + 2·(b₀ + b₁ + b₂)`: `call` returns this, and adding 1 to `a₀` adds 3.  But `grad` and `eval` report the derivative 1:
the derivative of `a_i + b_j` with respect to `a` is stored with an axis of size 1 for `j`, and `Tensor.sum`
(tensor.py:484-520) counts this axis once. -/
theorem C64_collapse_broadcast_counterexample :
    entry ((collapseT twoWay .all true).call (moved 0)) (fun _ => 0) = some (3 * (1 + 2) + 2 * (1 + 2 + 3)) ∧
      entry ((collapseT twoWay .all true).call (moved 1)) (fun _ => 0) = some (3 * (2 + 2) + 2 * (1 + 2 + 3)) ∧
      entry ((collapseT twoWay .all true).grad (moved 0) 0) (fun _ => 0) = some 1 ∧
      entry ((collapseT twoWay .all true).grad (moved 1) 0) (fun _ => 0) = some 1 ∧
      entry (evalGrad 0 ((collapseT twoWay .all true).eval (moved 0))) (fun _ => 0) = some 1 := by
  decide +kernel

end Verif.Tens
