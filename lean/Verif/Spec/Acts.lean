import Verif.Spec.FuncTensor
import Verif.Spec.Sheet

/-!
# Specification: functions that act on each position separately

The function `f` in `f @ [g_1, …, g_r]` is called with arrays as parameters.  What is needed of it: the numbers that it returns at a
position (and, for the functions with outcome axes, at an outcome) depend on the numbers in the arrays at that position only.
-/

namespace Verif.Tens
open Verif.Params (Err)

/-- `F1 u k o` and `F2 u k l o` are the first and second derivatives of `F u o`, a function of the `r` numbers `u`, for `u` in `U` and
the outcomes `o` in `O`: along every differentiable curve, the derivative of `F` is the sum of the `F1 k` times the derivatives of the
coordinates, and in the same way for `F1 k`. -/
structure Curves (r : Nat) (U : (Nat → ℝ) → Prop) (O : (Nat → Nat) → Prop) (F : (Nat → ℝ) → (Nat → Nat) → ℝ)
    (F1 : (Nat → ℝ) → Nat → (Nat → Nat) → ℝ) (F2 : (Nat → ℝ) → Nat → Nat → (Nat → Nat) → ℝ) : Prop where
  h1 : ∀ (γ : ℝ → Nat → ℝ) (v : Nat → ℝ) (t : ℝ), (∀ k < r, HasDerivAt (fun s => γ s k) (v k) t) → U (γ t) → ∀ o, O o →
    HasDerivAt (fun s => F (γ s) o) (∑ k ∈ Finset.range r, F1 (γ t) k o * v k) t
  h2 : ∀ (γ : ℝ → Nat → ℝ) (v : Nat → ℝ) (t : ℝ), (∀ k < r, HasDerivAt (fun s => γ s k) (v k) t) → U (γ t) → ∀ o, O o →
    ∀ k < r, HasDerivAt (fun s => F1 (γ s) k o) (∑ l ∈ Finset.range r, F2 (γ t) k l o * v l) t
  symm : ∀ u, U u → ∀ o, O o → ∀ k < r, ∀ l < r, F2 u k l o = F2 u l k o

/-- The outcomes: `δ` axes with the sizes `T`. -/
def Outcome (δ : Nat) (T : Nat → Nat) (o : Nat → Nat) : Prop := (∀ j < δ, o j < T j) ∧ ∀ j ≥ δ, o j = 0

/-- The first `r` numbers. -/
def upto (r : Nat) (u : Nat → ℝ) : Nat → ℝ := fun k => if k < r then u k else 0

/-- The entries of the `r` arrays `v` at the position `s`. -/
def entriesAt (r : Nat) (v : Nat → NDArray ℝ) (s : Nat → Nat) : Nat → ℝ := upto r fun k => (v k).get s

/-- `x` consists of Tensors with the values of `F`, `F1` and `F2` at the entries of the arrays `v`, which have `q` axes with the sizes `S`,
the last `d` of which are `dim` axes.  The Tensors have `δ` more `dim` axes, with the sizes `T`.  The parameter axes of the derivatives are
mapped to the axes of the arrays. -/
def GivesEntries (r δ : Nat) (T : Nat → Nat) (q d : Nat) (S : Nat → Nat) (v : Nat → NDArray ℝ) (F : (Nat → ℝ) → (Nat → Nat) → ℝ)
    (F1 : (Nat → ℝ) → Nat → (Nat → Nat) → ℝ) (F2 : (Nat → ℝ) → Nat → Nat → (Nat → Nat) → ℝ) (x : Except Err (Ev3 ℝ)) : Prop :=
  ∃ (V : Tensor ℝ) (D : Nat → Tensor ℝ) (H : Nat → Nat → Tensor ℝ), x = .ok ⟨.arr (.tensor V), row r fun k => .arr (.tensor (D k)), triangle r fun k l => .arr (.tensor (H k l))⟩ ∧
    Sheet (joinAt q S T) 0 0 (q + δ) (d + δ) [] [] V (fun s => F (entriesAt r v s) fun j => s (q + j)) ∧
    (∀ k < r, Sheet (joinAt q S T) q 0 (q + δ) (d + δ) (idMap q) [] (D k) fun s => F1 (entriesAt r v s) k fun j => s (q + j)) ∧
    ∀ k < r, ∀ l ≤ k, Sheet (joinAt q S T) q q (q + δ) (d + δ) (idMap q) (idMap q) (H k l) fun s => F2 (entriesAt r v s) k l fun j => s (q + j)

/-- `f` is a function of `r` arrays, with entries in `U`, that returns the values of `F` with its first and second derivatives at every
position; the results have `δ` more outcome axes, with the sizes `T`.  The arrays have `q` axes, `d` of which are `dim` axes, with `P q d`. -/
structure Acts (f : TFunc ℝ) (r δ : Nat) (T : Nat → Nat) (P : Nat → Nat → Prop) (U : (Nat → ℝ) → Prop) (F : (Nat → ℝ) → (Nat → Nat) → ℝ) : Prop where
  gnull : f.gradNull = false
  hnull : f.hessNull = false
  ok : ∃ F1 F2, Curves r U (Outcome δ T) F F1 F2 ∧ ∀ (q d : Nat) (S : Nat → Nat) (v : Nat → NDArray ℝ), 0 < q → d ≤ q → P q d →
    (∀ k < r, (v k).ndim = q ∧ ∀ j < q, (v k).shape j = S j) →
    (∀ s, (∀ j < q, s j < S j) → U (entriesAt r v s)) →
    GivesEntries r δ T q d S v F F1 F2 (f.eval (row r fun k => ⟨v k, 0, 0, d, [], []⟩)) ∧
    GivesEntries r δ T q d S v F F1 F2 (f.sep (row r fun k => ⟨v k, 0, 0, d, [], []⟩))

/-- The problem `pr'` is the problem `pr` with `δ` more outcomes, with the sizes `T`, and the entries of the parameters are numbered in the
same way. -/
structure Longer {pr : Problem} {m : Nat} (N : Numbering pr m) (δ : Nat) (T : Nat → Nat) {pr' : Problem} (N' : Numbering pr' m) : Prop where
  n : pr'.n = pr.n
  d : pr'.d = pr.d + δ
  S : ∀ k < pr.n + pr.d, pr'.S k = pr.S k
  T : ∀ j < δ, pr'.S (pr.n + pr.d + j) = T j
  nd : ∀ p < m, pr'.nd p = pr.nd p
  P : ∀ p < m, ∀ k < pr.nd p, pr'.P p k = pr.P p k
  e : ∀ p < m, ∀ a, N'.e p a = N.e p a

/-- The value of `f @ [g_1, …, g_r]`, where `val k` is the value of `g_k` (with `d` outcomes). -/
def composeAt (r d : Nat) (F : (Nat → ℝ) → (Nat → Nat) → ℝ) (val : Nat → Val) : Val :=
  fun θ n o => F (upto r fun k => val k θ n (cut d o)) fun j => o (d + j)

end Verif.Tens
