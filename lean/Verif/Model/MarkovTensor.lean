import Verif.Model.Markov
import Verif.Model.ComposeTensor
import Mathlib.Data.Real.Basic

/-!
# Model of `MarkovMatrix` and `MarkovVector` (maxlike/func/matrix.py:59-295) in terms of Tensors

The loops are those of `Model/Markov.lean`: they act on each position of the parameter arrays separately.  Here the arrays are
assembled from them, and the Tensors from the arrays.  Arithmetic is that of the real numbers.
-/

namespace Verif.Tens
open Verif.Params (Err)
open Verif.Markov (VState Mat Vec mmFrame mmEvalFrame mvFrame mvEvalFrame)

/-- The assertions on `s1 = params[0] / steps` and `s2 = params[1] / steps` (matrix.py:69-74, 102-107, 183-188, 213-218). -/
def stepsOk (steps : Nat) (a b : NDArray ℝ) : Prop :=
  (a.ndim = b.ndim ∧ ∀ k < a.ndim, a.shape k = b.shape k) ∧
  (∀ s : Nat → Nat, (∀ k < a.ndim, s k < a.shape k) → 0 < a.get s / steps) ∧
  (∀ s : Nat → Nat, (∀ k < a.ndim, s k < a.shape k) → 0 < b.get s / steps) ∧
  ∀ s : Nat → Nat, (∀ k < a.ndim, s k < a.shape k) → a.get s / steps + b.get s / steps < 1

/-- An array with the axes of `a` and, after them, `δ` axes of the sizes `T`; its entries are functions of the entries of `a` and `b`
(`np.zeros(s1.shape + (size, size))` and `np.zeros(s1.shape + (2 * size - 1,))` after the loops). -/
def frames (δ : Nat) (T : Nat → Nat) (a b : NDArray ℝ) (F : ℝ → ℝ → (Nat → Nat) → ℝ) : NDArray ℝ :=
  ⟨a.ndim + δ, fun k => if k < a.ndim then a.shape k else T (k - a.ndim), fun s => F (a.get s) (b.get s) fun j => s (a.ndim + j)⟩

open Classical in
/-- `eval` of the two classes (matrix.py:101-169, 212-295): `δ` outcome axes of the sizes `T`; `ψ` gives the six numbers for one entry of
each parameter. -/
noncomputable def pairEval (steps δ : Nat) (T : Nat → Nat) (ψ : ℝ → ℝ → (Nat → Nat) → VState ℝ) (ps : List (Tensor ℝ)) : Except Err (Ev3 ℝ) := do
  let p ← pick ps 0
  let q ← pick ps 1
  let a := p.values
  let b := q.values
  if stepsOk steps a b then do
    let v ← ofArray (frames δ T a b fun x y o => (ψ x y o).M) δ
    let d1 ← gradTensor (frames δ T a b fun x y o => (ψ x y o).D1) a.ndim .diag δ
    let d2 ← gradTensor (frames δ T a b fun x y o => (ψ x y o).D2) b.ndim .diag δ
    let h11 ← hessTensor (frames δ T a b fun x y o => (ψ x y o).H11) a.ndim a.ndim .diag .diag δ
    let h12 ← hessTensor (frames δ T a b fun x y o => (ψ x y o).H12) a.ndim b.ndim .diag .diag δ
    let h22 ← hessTensor (frames δ T a b fun x y o => (ψ x y o).H22) b.ndim b.ndim .diag .diag δ
    .ok ⟨v, [.arr (.tensor d1), .arr (.tensor d2)], [[.arr (.tensor h11)], [.arr (.tensor h12), .arr (.tensor h22)]]⟩
  else .error .assertion

open Classical in
/-- The two classes as `Func` objects: `grad` and `hess` select an element of what `eval` returns (matrix.py:95-99, 206-210). -/
noncomputable def pairT (steps δ : Nat) (T : Nat → Nat) (φ : ℝ → ℝ → (Nat → Nat) → ℝ) (ψ : ℝ → ℝ → (Nat → Nat) → VState ℝ) : TFunc ℝ where
  call ps := do
    let p ← pick ps 0
    let q ← pick ps 1
    if stepsOk steps p.values q.values then ofArray (frames δ T p.values q.values φ) δ else .error .assertion
  grad ps i := do
    let e ← pairEval steps δ T ψ ps
    pick e.grad i
  hess ps i j := do
    let e ← pairEval steps δ T ψ ps
    pick2 e.hess i j
  eval := pairEval steps δ T ψ
  gradNull := false
  hessNull := false

/-- `MarkovMatrix(size, steps, skew)` (matrix.py:59-169), for `size > 0` -/
noncomputable def markovMatrixT (size steps : Nat) (skew : Mat ℝ) : TFunc ℝ :=
  pairT steps 2 (fun _ => size) (fun x y o => mmFrame size steps skew x y (o 0) (o 1))
    fun x y o => (mmEvalFrame size steps skew x y).at (o 0) (o 1)

/-- `MarkovVector(size, steps, skew)` (matrix.py:172-295), for `size > 0` (the constructor asserts it) -/
noncomputable def markovVectorT (size steps : Nat) (skew : Vec ℝ) : TFunc ℝ :=
  pairT steps 1 (fun _ => 2 * size - 1) (fun x y o => mvFrame size steps skew x y (o 0))
    fun x y o => (mvEvalFrame size steps skew x y).at (o 0)

end Verif.Tens
