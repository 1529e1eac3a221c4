import Verif.Model.Func
import Mathlib.Analysis.Calculus.Deriv.Basic
import Mathlib.Analysis.Calculus.Deriv.Add
import Mathlib.Analysis.Calculus.Deriv.Mul

/-!
# What a user expects of a Func object

`EvalAgrees`, `GradCorrectAt`, `HessCorrectAt` are stated for any record of methods and mention no
combinator.
-/

namespace Verif.Func
open Verif.Params (Err)
open Finset

variable {ι : Type} [Fintype ι]

omit [Fintype ι] in
/-- `eval` called with `n` parameters succeeds and returns what `__call__`, `grad(i)` and
`hess(i, j)`, `j ≤ i`, return. -/
def EvalAgrees (n : Nat) (f : Fn ι) : Prop :=
  ∀ θ, ∃ r, f.eval n θ = .ok r ∧ (∀ c, r.val c = f.call θ c) ∧
    (∀ i < n, ∀ e c, r.grad i e c = f.grad θ i e c) ∧
    (∀ i < n, ∀ j ≤ i, ∀ e e' c, r.hess i j e e' c = f.hess θ i j e e' c)

/-- A curve through `θ` with velocity `v` in the first `n` parameters. -/
def CurveAt (n : Nat) (γ : ℝ → Prm ι) (v : Prm ι) (t : ℝ) (θ : Prm ι) : Prop :=
  γ t = θ ∧ ∀ i < n, ∀ e, HasDerivAt (fun s => γ s i e) (v i e) t

/-- `grad` is the derivative of `__call__` at `θ`: along every differentiable curve of parameters
the value moves with velocity `Σ_i Σ_e grad(i)[e] * v_i[e]`.  (In particular the partial derivative
with respect to entry `e` of parameter `i` is `grad(i)[e]`, see `GradCorrectAt.partial`.) -/
def GradCorrectAt (n : Nat) (f : Fn ι) (θ : Prm ι) : Prop :=
  ∀ γ v t, CurveAt n γ v t θ → ∀ c,
    HasDerivAt (fun s => f.call (γ s) c) (∑ i ∈ range n, ∑ e, f.grad θ i e c * v i e) t

/-- The full Hessian read off the lower triangle the library computes: `hess(i, j)` for `j ≤ i`,
its transpose otherwise. -/
def fullHess (f : Fn ι) (θ : Prm ι) (i j : Nat) (e e' c : ι) : ℝ :=
  if j ≤ i then f.hess θ i j e e' c else f.hess θ j i e' e c

/-- `hess` is the derivative of `grad` at `θ`, and its diagonal blocks are symmetric. -/
def HessCorrectAt (n : Nat) (f : Fn ι) (θ : Prm ι) : Prop :=
  (∀ γ v t, CurveAt n γ v t θ → ∀ i < n, ∀ e c,
    HasDerivAt (fun s => f.grad (γ s) i e c)
      (∑ j ∈ range n, ∑ e', fullHess f θ i j e e' c * v j e') t) ∧
  (∀ i < n, ∀ e e' c, f.hess θ i i e e' c = f.hess θ i i e' e c)

/-- The flags `isnull(f.grad)`, `isnull(f.hess)` tell the truth. -/
def NullHonest (f : Fn ι) : Prop :=
  (f.gradNull = true → (∀ θ i e c, f.grad θ i e c = 0) ∧ ∀ θ i j e e' c, f.hess θ i j e e' c = 0) ∧
  (f.hessNull = true → ∀ θ i j e e' c, f.hess θ i j e e' c = 0)

/-- Parameters with entry `e` of parameter `i` replaced by `t`. -/
def setEntry [DecidableEq ι] (θ : Prm ι) (i : Nat) (e : ι) (t : ℝ) : Prm ι :=
  fun i' e' => if i' = i ∧ e' = e then t else θ i' e'

/-- The partial derivative in the usual sense. -/
theorem GradCorrectAt.partial [DecidableEq ι] {n : Nat} {f : Fn ι} {θ : Prm ι}
    (h : GradCorrectAt n f θ) {i : Nat} (hi : i < n) (e c : ι) :
    HasDerivAt (fun t => f.call (setEntry θ i e t) c) (f.grad θ i e c) (θ i e) := by
  have := h (fun t => setEntry θ i e t) (fun i' e' => if i' = i ∧ e' = e then 1 else 0) (θ i e)
    ⟨by
      funext i' e'
      unfold setEntry
      dsimp only
      split
      · rename_i h; rw [h.1, h.2]
      · rfl, fun i' _ e' => by
      unfold setEntry
      by_cases hh : i' = i ∧ e' = e
      · simp only [hh, and_self, if_true]; exact hasDerivAt_id _
      · simp only [if_neg hh]; exact hasDerivAt_const _ _⟩ c
  refine HasDerivAt.congr_deriv this ?_
  rw [Finset.sum_eq_single i, Finset.sum_eq_single e]
  · simp
  · intro b _ hb; simp [hb]
  · simp
  · intro b _ hb; simp [hb]
  · intro hh; exact absurd (Finset.mem_range.2 hi) hh

/-- The second partial derivatives in the usual sense. -/
theorem HessCorrectAt.partial [DecidableEq ι] {n : Nat} {f : Fn ι} {θ : Prm ι}
    (h : HessCorrectAt n f θ) {i j : Nat} (hi : i < n) (hj : j ≤ i) (e e' c : ι) :
    HasDerivAt (fun t => f.grad (setEntry θ j e' t) i e c) (f.hess θ i j e e' c) (θ j e') := by
  have hjn : j < n := lt_of_le_of_lt hj hi
  have := h.1 (fun t => setEntry θ j e' t) (fun i' a => if i' = j ∧ a = e' then 1 else 0) (θ j e')
    ⟨by
      funext i' a
      unfold setEntry
      dsimp only
      split
      · rename_i h; rw [h.1, h.2]
      · rfl, fun i' _ a => by
      unfold setEntry
      by_cases hh : i' = j ∧ a = e'
      · simp only [hh, and_self, if_true]; exact hasDerivAt_id _
      · simp only [if_neg hh]; exact hasDerivAt_const _ _⟩ i hi e c
  refine HasDerivAt.congr_deriv this ?_
  rw [Finset.sum_eq_single j, Finset.sum_eq_single e']
  · simp [fullHess, hj]
  · intro b _ hb; simp [hb]
  · simp
  · intro b _ hb; simp [hb]
  · intro hh; exact absurd (Finset.mem_range.2 hjn) hh

end Verif.Func
