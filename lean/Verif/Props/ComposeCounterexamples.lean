/-
C65 outside its hypotheses: `Compose` with an inner function that leaves a parameter axis unmapped, with an inner
function in which a parameter does not occur, with a linear outer function, and with `CollapseMatrix()` on three
features.  The methods are executed by the kernel on arrays of rational numbers.
-/
import Verif.Props.CollapseTerm
import Verif.Props.CollapseTensor

namespace Verif.Tens

open Verif.Params (Err)

namespace ComposeCex

/-! ### What is observed -/

/-- The entry at position `i` of a returned Tensor, or the number that was returned in place of one. -/
def entry (p : Except Err (Py ℚ)) (i : Nat → Nat) : Option ℚ :=
  match p with
  | .ok (.arr (.tensor t)) => some (t.values.bget i)
  | .ok (.num x) => some x
  | _ => none

/-- The shape of the array of a returned Tensor. -/
def shapeOf (p : Except Err (Py ℚ)) : Option (List Nat) :=
  match p with
  | .ok (.arr (.tensor t)) => some ((List.range t.values.ndim).map t.values.shape)
  | _ => none

/-- The exception that was raised. -/
def raised {β : Type} : Except Err β → Option Err
  | .error e => some e
  | .ok _ => none

/-- The returned value is the number `x` instead of a Tensor. -/
def isNumber (p : Except Err (Py ℚ)) (x : ℚ) : Bool :=
  match p with
  | .ok (.num y) => y == x
  | _ => false

/-- Entry `(i, j)` of the second derivatives returned by `eval`, for the only parameter. -/
def evalHess (p : Except Err (Ev3 ℚ)) : Except Err (Py ℚ) :=
  p.bind fun e => match e.hess with
    | [[h]] => .ok h
    | _ => .error .indexError

/-- The position `(a, b, c, d)`. -/
def at4 (a b c d : Nat) (k : Nat) : Nat := if k = 0 then a else if k = 1 then b else if k = 2 then c else d

/-- `Param([x 0, ..., x (n - 1)])` -/
def vec (n : Nat) (x : Nat → ℚ) : Tensor ℚ := ⟨⟨1, fun _ => n, fun i => x (i 0)⟩, 0, 0, 0, [], []⟩

/-- `Param([[x 0, x 1], [x 2, x 3]])` -/
def matrix22 (x : Nat → ℚ) : Tensor ℚ := ⟨⟨2, fun _ => 2, fun i => x (i 0 * 2 + i 1)⟩, 0, 0, 0, [], []⟩

/-- The atom `(f, param_map=p, feat_map=fm)` among `n` features. -/
def atom (p : Nat) (fm : List Nat) (n : Nat) : Wrap := ⟨[p], fm, n, [], 0, []⟩

/-! ### A parameter with two axes, both summed away -/

/-- `[[0, 1], [2, 3]]` -/
def weights22 : NDArray ℚ := ⟨2, fun _ => 2, fun i => ((i 0 * 2 + i 1 : Nat) : ℚ)⟩

/-- `Compose(Quadratic(0, 1), [Collapse(Product(Constant(weights22), X()))])`: the square of
`0·θ₀₀ + 1·θ₀₁ + 2·θ₁₀ + 3·θ₁₁` (func_base.py:242-347, func_op.py, tensor.py) -/
def formSq : TFunc ℚ :=
  composeT (quadraticT 0 1)
    [collapseT (productT [(constantT weights22, ⟨[], [0, 1], 2, [], 0, []⟩), (xT, atom 0 [0, 1] 2)]) .all true]

/-- The parameter `[[1, 2], [3, 4]]`, and the same after adding 1 to the entry `(1, 0)`. -/
def here : Tensor ℚ := matrix22 fun a => (a : ℚ) + 1

def there : Tensor ℚ := matrix22 fun a => (a : ℚ) + 1 + if a = 2 then 1 else 0

/-! ### Two parameters, one in each inner function -/

/-- `Compose(Product(X, X), [Sum(X on parameter 0), Sum(X on parameter 1)])`: the product `a_i * b_j` -/
def outerProduct : TFunc ℚ :=
  composeT (productT [(xT, atom 0 [0, 1] 2), (xT, atom 1 [0, 1] 2)])
    [sumT [(1, xT, atom 0 [0] 2)] 0, sumT [(1, xT, atom 1 [1] 2)] 0]

/-- The parameters `[1, 2]` and `[1, 2, 3]`. -/
def twoVectors : List (Tensor ℚ) := [vec 2 fun a => (a : ℚ) + 1, vec 3 fun a => (a : ℚ) + 1]

/-! ### Three features -/

/-- A frame of scores for every triple of features: the product of three parameters. -/
def frames3 : TFunc ℚ :=
  productT [(xT, ⟨[0], [0], 3, [], 2, []⟩), (xT, ⟨[1], [1], 3, [], 2, []⟩), (xT, ⟨[2], [2], 3, [], 2, []⟩)]

/-- Parameters of sizes 2, 3 and 4. -/
def threeVectors : List (Tensor ℚ) :=
  [vec 2 fun a => (a : ℚ) + 1, vec 3 fun a => (a : ℚ) + 1, vec 4 fun a => (a : ℚ) + 1]

end ComposeCex

open ComposeCex

/-- **C65 is false for inner functions that sum over the axes of a parameter.**  `formSq` is `(Σ w θ)²` with weights
0, 1, 2, 3.  Its value and its gradient are right; adding 1 to `θ₁₀` changes the derivative by `θ₀₁` by
`2·w₀₁·w₁₀ = 4` (`formSq` is quadratic, so this difference is the second derivative).  `hess` and `eval` report 0 in
that entry, which is `2·w₀₀·w₁₁`, and 4 in the entry `(00, 11)`, where 0 is right: `Tensor.transpose`
(tensor.py:617-623) permutes the two axes of the parameter wrongly (C52). -/
theorem C65_matrix_parameter_counterexample :
    entry (formSq.call [here]) (fun _ => 0) = some ((1 * 2 + 2 * 3 + 3 * 4) ^ 2) ∧
      entry (formSq.grad [here] 0) (at4 0 1 0 0) = some (2 * (1 * 2 + 2 * 3 + 3 * 4) * 1) ∧
      entry (formSq.grad [there] 0) (at4 0 1 0 0) = some (2 * (1 * 2 + 2 * 4 + 3 * 4) * 1) ∧
      entry (formSq.hess [here] 0 0) (at4 0 1 1 0) = some 0 ∧
      entry (evalHess (formSq.eval [here])) (at4 0 1 1 0) = some 0 ∧
      entry (formSq.hess [here] 0 0) (at4 0 0 1 1) = some (2 * 1 * 2) := by
  decide +kernel

/-- **C65 is false when a parameter does not occur in one of the inner functions.**  The composite `a_i * b_j` can be
called, but its second derivatives and `eval` raise AssertionError: the gradient of an inner function with respect to
the parameter it does not use is the number 0 as a Tensor, and `dot_left` rejects it. -/
theorem C65_separate_counterexample :
    entry (outerProduct.call twoVectors) (at4 1 2 0 0) = some (2 * 3) ∧
      raised (outerProduct.hess twoVectors 0 0) = some .assertion ∧
      raised (outerProduct.hess twoVectors 1 0) = some .assertion ∧
      raised (outerProduct.eval twoVectors) = some .assertion := by
  decide +kernel

/-- **C65 is false for a linear outer function**: the Hessian of `Compose(X(), [X()])` is the number 0 instead of a
Tensor, and a `Sum` with this function as an atom cannot be evaluated (AttributeError), although its value and gradient
are right. -/
theorem C65_linear_outer_counterexample :
    entry ((composeT xT [xT]).call [vec 2 fun a => (a : ℚ) + 1]) (at4 1 0 0 0) = some 2 ∧
      entry ((composeT xT [xT]).grad [vec 2 fun a => (a : ℚ) + 1] 0) (at4 0 1 0 0) = some 1 ∧
      isNumber ((composeT xT [xT]).hess [vec 2 fun a => (a : ℚ) + 1] 0 0) 0 = true ∧
      entry ((sumT [(1, composeT xT [xT], atom 0 [0] 1)] 0).call [vec 2 fun a => (a : ℚ) + 1]) (at4 1 0 0 0) = some 2 ∧
      raised ((sumT [(1, composeT xT [xT], atom 0 [0] 1)] 0).eval [vec 2 fun a => (a : ℚ) + 1]) = some .attribute := by
  decide +kernel

/-- **C65 is false for `CollapseMatrix()` on three features** (matrix.py:39-56): the two `swapaxes` of `grad` move the
features to the order (third, first, second).  With 2, 3 and 4 items the model can be called, but its gradient and
`eval` raise ValueError. -/
theorem C65_three_features_counterexample :
    shapeOf ((composeT (collapseMatrixT none) [frames3]).call threeVectors) = some [2, 3, 4, 3] ∧
      entry ((composeT (collapseMatrixT none) [frames3]).call threeVectors) (at4 1 2 3 1) = some (2 * 3 * 4) ∧
      raised ((composeT (collapseMatrixT none) [frames3]).grad threeVectors 0) = some .valueError ∧
      raised ((composeT (collapseMatrixT none) [frames3]).eval threeVectors) = some .valueError := by
  decide +kernel

/-- **`Vector` takes one number as its parameter**: called on a parameter with two entries a vector of three values
raises ValueError, and the array returned by `grad` has no axis for the feature and none for the values. -/
theorem C65_vector_counterexample :
    raised ((vectorT ⟨1, fun _ => 3, fun i => ((i 0 : Nat) : ℚ)⟩).call [vec 2 fun a => (a : ℚ) + 1]) = some .valueError ∧
      shapeOf ((vectorT ⟨1, fun _ => 3, fun i => ((i 0 : Nat) : ℚ)⟩).grad [vec 2 fun a => (a : ℚ) + 1] 0) = some [3] := by
  decide +kernel

end Verif.Tens
