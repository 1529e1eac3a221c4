/-
C67 outside its hypotheses: `flat_grad` and `flat_hess` with the regularisation `Linear`, with a term that names one parameter
twice, with `Collapse` of a broadcast function, and with a regularised parameter that does not occur in the model.
The methods are executed by the kernel on arrays of rational numbers; the arrays that stand for the results of `grad_like` and `hess_like` have the
axes of the parameters, as the six likelihoods return them (C67_whole_*, C68_unused_*).
-/
import Verif.Props.CollapseCounterexamples

namespace Verif.Tens

open Verif.Params (Err Param)
open ComposeCex

namespace ComposeCex

/-- `Param(v)` without fixed entries. -/
def free (v : List ℚ) : Param ℚ := ⟨[v.length], v, v.map fun _ => false⟩

/-- What `grad_like` returns for a parameter with one axis: the array `v`. -/
def likeGrad (v : List ℚ) : Num ℚ := .tensor ⟨⟨1, fun _ => v.length, fun i => v.getD (i 0) 0⟩, 1, 0, 0, [], []⟩

/-- What `hess_like` returns for two parameters with one axis: an array with `n` rows and `m` columns, here with `c` everywhere. -/
def likeHess (n m : Nat) (c : ℚ) : Num ℚ := .tensor ⟨⟨2, fun k => if k = 0 then n else m, fun _ => c⟩, 1, 1, 0, [], []⟩

/-- What both return for a parameter that does not occur in the model. -/
def likeZero : Num ℚ := .tensor (Tensor.const 0)

/-- The function `(a, b) ↦ ∑ a_i * b_i` -/
def inner : TFunc ℚ := collapseT (productT [(xT, atom 0 [0] 1), (xT, atom 1 [0] 1)]) .all true

end ComposeCex

/-- **C67 is false for the regularisation `Linear`**, the weighted sum of the entries, which works as a constraint: `flat_grad` and `flat_hess` raise
AttributeError (the gradient of `Linear` has value axes, so that the difference is a GenericTensor). -/
theorem C67_linear_penalty_counterexample :
    flatGradT [free [1, 2]] [likeGrad [5, 7]] [⟨[0], linearT [1]⟩] [] = .ok [5, 7, 3] ∧
      flatGradT [free [1, 2]] [likeGrad [5, 7]] [] [⟨[0], linearT [1]⟩] = .error .attribute ∧
      flatHessT [free [1, 2]] [[likeHess 2 2 5]] [] [⟨[0], linearT [1]⟩] = .error .attribute := by
  decide +kernel

/-- **C67 is false for a term that names a parameter twice.**  The penalty `∑ a_i * b_i` with `param_map=[0, 0]` is `∑ θ_i²`: `flat_grad` subtracts its
derivatives `2 θ_i` (with `[1, 2]`: 2 and 4), but `flat_hess` subtracts 1 from the diagonal instead of 2.  With the penalty `Quadratic(0, 1)`, which is the
same function, 2 is subtracted. -/
theorem C67_repeated_counterexample :
    entry (inner.call [vec 2 fun a => (a : ℚ) + 1, vec 2 fun a => (a : ℚ) + 1]) (fun _ => 0) = some (1 ^ 2 + 2 ^ 2) ∧
      flatGradT [free [1, 2]] [likeGrad [5, 7]] [] [⟨[0, 0], inner⟩] = .ok [5 - 2 * 1, 7 - 2 * 2] ∧
      flatHessT [free [1, 2]] [[likeHess 2 2 9]] [] [⟨[0, 0], inner⟩] = .ok [[9 - 1, 9], [9, 9 - 1]] ∧
      flatGradT [free [1, 2]] [likeGrad [5, 7]] [] [⟨[0], quadraticT 0 1⟩] = .ok [5 - 2 * 1, 7 - 2 * 2] ∧
      flatHessT [free [1, 2]] [[likeHess 2 2 9]] [] [⟨[0], quadraticT 0 1⟩] = .ok [[9 - 2, 9], [9, 9 - 2]] := by
  decide +kernel

/-- **C67 is false for terms with broadcast derivatives.**  The constraint or penalty `Collapse(a_i + b_j)`, which is
`3·(a₀ + a₁) + 2·(b₀ + b₁ + b₂)`, enters the border of `flat_hess` and `flat_grad` with the derivatives 1 instead of 3 and 2 (C64). -/
theorem C67_collapse_broadcast_counterexample :
    flatGradT [free [1, 2], free [1, 2, 3]] [likeGrad [5, 7], likeGrad [8, 8, 8]] [] [⟨[0, 1], collapseT twoWay .all true⟩] =
        .ok [5 - 1, 7 - 1, 8 - 1, 8 - 1, 8 - 1] ∧
      (flatHessT [free [1, 2], free [1, 2, 3]] [[likeHess 2 2 9], [likeHess 3 2 9, likeHess 3 3 9]] [⟨[0, 1], collapseT twoWay .all true⟩] []).map (fun M => M.getLast?) =
        .ok (some [1, 1, 1, 1, 1, 0]) := by
  decide +kernel

/-- **C67 is false for a regularised parameter that does not occur in the model**: `flat_grad` returns the derivatives of the penalised objective (the
regularisation supplies the missing axes), but `flat_hess` raises IndexError, because the blocks beside the diagonal are stored as `Tensor(0)`. -/
theorem C67_unused_penalty_counterexample :
    flatGradT [free [1, 2], free [1, 2, 3]] [likeGrad [5, 7], likeZero] [] [⟨[1], quadraticT 0 1⟩] = .ok [5, 7, -(2 * 1), -(2 * 2), -(2 * 3)] ∧
      flatHessT [free [1, 2], free [1, 2, 3]] [[likeHess 2 2 9], [likeZero, likeZero]] [] [⟨[1], quadraticT 0 1⟩] = .error .indexError := by
  decide +kernel

end Verif.Tens
