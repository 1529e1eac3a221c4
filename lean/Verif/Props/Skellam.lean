import Verif.Model.Skellam
import Mathlib.Analysis.SpecialFunctions.ExpDeriv
import Mathlib.Analysis.Calculus.Deriv.Pow
import Mathlib.Analysis.Calculus.Deriv.Mul
import Mathlib.Analysis.Complex.Exponential
import Mathlib.Analysis.SpecialFunctions.Exponential
import Mathlib.Algebra.BigOperators.Field
import Mathlib.Algebra.Order.BigOperators.Group.Finset
import Mathlib.Tactic.FieldSimp
import Mathlib.Tactic.Positivity
import Mathlib.Tactic.Linarith
import Mathlib.Tactic.Ring

/-!
# Poisson and Skellam functions: C40 – C44
-/

namespace Verif.Skellam
open Verif.Params (Err)
open Finset

/-! ## C40 -/

theorem hasDerivAt_curve_succ (a : ℝ) (u : Nat) :
    HasDerivAt (fun t => curve t (u + 1)) (curve a u) a := by
  unfold curve
  refine HasDerivAt.congr_deriv ((hasDerivAt_pow (u + 1) a).div_const _) ?_
  rw [Nat.factorial_succ]
  have h1 : (u.factorial : ℝ) ≠ 0 := by exact_mod_cast u.factorial_ne_zero
  have h2 : ((u : ℝ) + 1) ≠ 0 := by positivity
  push_cast
  field_simp

/-- The probability of `u` under the Poisson distribution with mean `a`. -/
noncomputable def poissonPmf (a : ℝ) (u : Nat) : ℝ := Real.exp (-a) * a ^ u / (u.factorial : ℝ)

theorem poi_eq (a : ℝ) (u : Nat) : poi a u = poissonPmf a u := by
  unfold poi poissonPmf curve; ring

theorem hasDerivAt_poi (a : ℝ) (u : Nat) : HasDerivAt (fun t => poi t u) (dpoi a u) a := by
  have he : HasDerivAt (fun t : ℝ => Real.exp (-t)) (-Real.exp (-a)) a := by
    refine HasDerivAt.congr_deriv ((Real.hasDerivAt_exp (-a)).comp a (hasDerivAt_neg a)) ?_
    ring
  cases u with
  | zero =>
    unfold poi dpoi dcurve curve
    simp only [pow_zero, Nat.factorial_zero, Nat.cast_one, div_one, mul_one, mul_neg]
    exact he
  | succ u =>
    unfold poi dpoi dcurve
    refine HasDerivAt.congr_deriv (he.fun_mul (hasDerivAt_curve_succ a u)) ?_
    ring

/-- C40: `poisson_vector(a, size)` returns two rows of length `size`: the Poisson probabilities and
their derivatives in `a`. -/
theorem C40_poisson_vector (a : ℝ) {size : Nat} (hs : 0 < size) :
    ∃ P D, poissonVector a size = .ok (P, D) ∧ P.length = size ∧ D.length = size ∧
      ∀ u < size, P.getD u 0 = poissonPmf a u ∧
        HasDerivAt (fun t => poissonPmf t u) (D.getD u 0) a := by
  have h0 : ¬ ((size : Int) ≤ 0) := by omega
  refine ⟨_, _, if_neg h0, by simp, by simp, fun u hu => ⟨?_, ?_⟩⟩
  · simp [List.getD, hu, poi_eq]
  · have := hasDerivAt_poi a u
    simp only [poi_eq] at this
    simpa [List.getD, hu] using this

/-- C40: `poisson_cdf` returns the distribution function and its derivative. -/
theorem C40_poisson_cdf (a : ℝ) (n : Nat) :
    (poissonCdf a n).1 = ∑ u ∈ range (n + 1), poissonPmf a u ∧
    HasDerivAt (fun t => (poissonCdf t n).1) (poissonCdf a n).2 a := by
  refine ⟨?_, ?_⟩
  · show ∑ u ∈ range (n + 1), poi a u = _
    exact Finset.sum_congr rfl fun u _ => poi_eq a u
  show HasDerivAt (fun t => ∑ u ∈ range (n + 1), poi t u) (∑ u ∈ range (n + 1), dpoi a u) a
  exact HasDerivAt.fun_sum fun u _ => hasDerivAt_poi a u

/-- C40: `poisson_mid_cdf` returns the mid distribution function and its derivative. -/
theorem C40_poisson_mid_cdf (a : ℝ) (n : Nat) :
    (poissonMidCdf a n).1 = ∑ u ∈ range n, poissonPmf a u + poissonPmf a n / 2 ∧
    HasDerivAt (fun t => (poissonMidCdf t n).1) (poissonMidCdf a n).2 a := by
  constructor
  · unfold poissonMidCdf
    simp only [poi_eq]
    ring
  · exact (HasDerivAt.fun_sum fun u _ => hasDerivAt_poi a u).fun_add
      ((hasDerivAt_poi a n).const_mul _)

theorem sum_dpoi (a : ℝ) (n : Nat) : ∑ u ∈ range (n + 1), dpoi a u = -poi a n := by
  induction n with
  | zero => simp [dpoi, dcurve, poi, curve]
  | succ n ih =>
    rw [Finset.sum_range_succ, ih]
    unfold dpoi dcurve poi
    ring

/-- C40: the derivative of the distribution function is minus the last probability; the distribution
function of a non-negative mean lies in `[0, 1]`. -/
theorem C40_cdf_bounds {a : ℝ} (ha : 0 ≤ a) (n : Nat) :
    0 ≤ (poissonCdf a n).1 ∧ (poissonCdf a n).1 ≤ 1 ∧ (poissonCdf a n).2 = -poissonPmf a n := by
  refine ⟨?_, ?_, ?_⟩
  · show 0 ≤ ∑ u ∈ range (n + 1), poi a u
    refine Finset.sum_nonneg fun u _ => ?_
    unfold poi curve; positivity
  · show ∑ u ∈ range (n + 1), poi a u ≤ 1
    unfold poi
    rw [← Finset.mul_sum]
    have h := Real.sum_le_exp_of_nonneg ha (n + 1)
    have : ∑ u ∈ range (n + 1), curve a u ≤ Real.exp a := h
    calc Real.exp (-a) * ∑ u ∈ range (n + 1), curve a u ≤ Real.exp (-a) * Real.exp a :=
          mul_le_mul_of_nonneg_left this (Real.exp_pos _).le
      _ = 1 := by rw [← Real.exp_add]; simp
  · rw [← poi_eq]; exact sum_dpoi a n

example : ∃ P D, poissonVector 2.5 10 = .ok (P, D) ∧ P.length = 10 :=
  let ⟨P, D, h, hl, _⟩ := C40_poisson_vector 2.5 (size := 10) (by norm_num)
  ⟨P, D, h, hl⟩

/-! ## C41 -/

/-- Total of a table. -/
def tableSum (size : Nat) (v : Nat → Nat → ℝ) : ℝ := ∑ i ∈ range size, ∑ j ∈ range size, v i j

theorem maskSum_add (r c : Nat) (v : Nat → Nat → ℝ) (P Q R : Int → Prop)
    (h : ∀ d, (R d ↔ P d ∨ Q d) ∧ ¬ (P d ∧ Q d)) :
    maskSum r c v P + maskSum r c v Q = maskSum r c v R := by
  unfold maskSum
  rw [← Finset.sum_add_distrib]
  refine Finset.sum_congr rfl fun i _ => ?_
  rw [← Finset.sum_add_distrib]
  refine Finset.sum_congr rfl fun j _ => ?_
  obtain ⟨h1, h2⟩ := h ((j : Int) - i)
  by_cases hp : P ((j : Int) - i) <;> by_cases hq : Q ((j : Int) - i) <;>
    simp_all

/-- C41: for each of the three tables (value, derivative in `a`, derivative in `b`) the `≤ n` part and
the `≥ n + 1` part add up to the table total. -/
theorem C41_complement (a b : ℝ) (n : Int) (size k : Nat) (hk : k < 3) :
    (skellamCdfSize a b n false size).getD k 0 + (skellamCdfSize a b (n + 1) true size).getD k 0 =
      tableSum size ((skFrame a b).getD k fun _ _ => 0) := by
  have key : ∀ v : Nat → Nat → ℝ,
      (maskSum size size v fun d => if false = true then n ≤ d else d ≤ n) +
      (maskSum size size v fun d => if true = true then n + 1 ≤ d else d ≤ n + 1) =
        tableSum size v := by
    intro v
    rw [maskSum_add (R := fun _ => True)]
    · simp [maskSum, tableSum]
    · intro d
      simp only [Bool.false_eq_true, if_false, if_true]
      constructor
      · exact ⟨fun _ => by omega, fun _ => trivial⟩
      · omega
  have : k = 0 ∨ k = 1 ∨ k = 2 := by omega
  rcases this with rfl | rfl | rfl <;> exact key _

/-- C41: the same for the public function: both calls use the same table. -/
theorem C41_complement_call (ndtri : ℝ → ℝ) (a b tol : ℝ) (n : Int) {r r' : List ℝ}
    (h : skellamCdf ndtri a b n tol false = .ok r) (h' : skellamCdf ndtri a b (n + 1) tol true = .ok r') :
    ∃ size : Nat, 0 < size ∧ ∀ k < 3, r.getD k 0 + r'.getD k 0 =
      tableSum size ((skFrame a b).getD k fun _ _ => 0) := by
  unfold skellamCdf at h h'
  dsimp only at h h'
  split_ifs at h with h0
  rw [if_neg h0] at h'
  cases h
  cases h'
  exact ⟨_, by omega, fun k hk => C41_complement a b n _ k hk⟩

/-- The probability, in a table of `size` rows and columns, of the pairs `(x, y)` with `R x y`, for
independent Poisson `x` (mean `a`) and `y` (mean `b`). -/
noncomputable def tableProb (size : Nat) (a b : ℝ) (R : Int → Int → Prop) [∀ x y, Decidable (R x y)] :
    ℝ :=
  ∑ x ∈ range size, ∑ y ∈ range size, if R x y then poissonPmf a x * poissonPmf b y else 0

/-- C41: what `skellam_cdf` and `skellam_cdf_pair` return as values: the distribution of `Y - X` (the
second minus the first variable). -/
theorem C41_values (a b : ℝ) (n : Int) (size : Nat) :
    (skellamCdfSize a b n false size).getD 0 0 = tableProb size a b (fun x y => y - x ≤ n) ∧
    (skellamCdfSize a b n true size).getD 0 0 = tableProb size a b (fun x y => n ≤ y - x) ∧
    ((skellamPairSize a b n size).getD 0 []).getD 0 0 = tableProb size a b (fun x y => y - x < n) ∧
    ((skellamPairSize a b n size).getD 1 []).getD 0 0 = tableProb size a b (fun x y => n < y - x) := by
  simp [skellamCdfSize, skellamPairSize, skFrame, maskSum, tableProb, poi_eq]

theorem hasDerivAt_maskSum (r c : Nat) {v : ℝ → Nat → Nat → ℝ} {v' : Nat → Nat → ℝ} {t : ℝ}
    (h : ∀ i j, HasDerivAt (fun s => v s i j) (v' i j) t) (P : Int → Prop) :
    HasDerivAt (fun s => maskSum r c (v s) P) (maskSum r c v' P) t := by
  unfold maskSum
  refine HasDerivAt.fun_sum fun i _ => HasDerivAt.fun_sum fun j _ => ?_
  by_cases hp : P ((j : Int) - i)
  · simp only [if_pos hp]; exact h i j
  · simp only [if_neg hp]; exact hasDerivAt_const _ _

/-- C41: components 1 and 2 are the derivatives of component 0 in `a` and `b`, for the table size in
use, for `skellam_cdf` and both rows of `skellam_cdf_pair`. -/
theorem C41_derivatives (a b : ℝ) (n : Int) (inverse : Bool) (size k : Nat) (hk : k < 2) :
    HasDerivAt (fun t => (skellamCdfSize t b n inverse size).getD 0 0)
      ((skellamCdfSize a b n inverse size).getD 1 0) a ∧
    HasDerivAt (fun t => (skellamCdfSize a t n inverse size).getD 0 0)
      ((skellamCdfSize a b n inverse size).getD 2 0) b ∧
    HasDerivAt (fun t => ((skellamPairSize t b n size).getD k []).getD 0 0)
      (((skellamPairSize a b n size).getD k []).getD 1 0) a ∧
    HasDerivAt (fun t => ((skellamPairSize a t n size).getD k []).getD 0 0)
      (((skellamPairSize a b n size).getD k []).getD 2 0) b := by
  have ha : ∀ i j, HasDerivAt (fun t => poi t i * poi b j) (dpoi a i * poi b j) a :=
    fun i j => (hasDerivAt_poi a i).mul_const _
  have hb : ∀ i j, HasDerivAt (fun t => poi a i * poi t j) (poi a i * dpoi b j) b :=
    fun i j => (hasDerivAt_poi b j).const_mul _
  have : k = 0 ∨ k = 1 := by omega
  rcases this with rfl | rfl <;>
  simp only [skellamCdfSize, skellamPairSize, skFrame, List.map_cons, List.map_nil,
    List.getD_cons_zero, List.getD_cons_succ] <;>
  exact ⟨hasDerivAt_maskSum (v := fun t i j => poi t i * poi b j) _ _ ha _,
    hasDerivAt_maskSum (v := fun t i j => poi a i * poi t j) _ _ hb _,
    hasDerivAt_maskSum (v := fun t i j => poi t i * poi b j) _ _ ha _,
    hasDerivAt_maskSum (v := fun t i j => poi a i * poi t j) _ _ hb _⟩

/-- C41: the quantities do not refer to `X - Y` as documented (`skellam_cdf_root`: "target1 =
P(X-Y < n)"): for `a = 1`, `b = 2`, `n = 0` and a table of size 2 the first value of
`skellam_cdf_pair` is not the probability of `X - Y < 0`. -/
theorem C41_sign_counterexample :
    ((skellamPairSize 1 2 0 2).getD 0 []).getD 0 0 ≠ tableProb 2 1 2 (fun x y => x - y < 0) := by
  rw [(C41_values 1 2 0 2).2.2.1]
  have he : Real.exp (-1) * Real.exp (-2) ≠ 0 := (mul_pos (Real.exp_pos _) (Real.exp_pos _)).ne'
  simp only [tableProb, Finset.sum_range_succ, Finset.sum_range_zero, poissonPmf]
  norm_num

/-- C41: it is the documented quantity with the two means exchanged. -/
theorem C41_exchanged (a b : ℝ) (n : Int) (size : Nat) :
    ((skellamPairSize b a n size).getD 0 []).getD 0 0 = tableProb size a b (fun x y => x - y < n) ∧
    ((skellamPairSize b a n size).getD 1 []).getD 0 0 = tableProb size a b (fun x y => n < x - y) := by
  rw [(C41_values b a n size).2.2.1, (C41_values b a n size).2.2.2]
  unfold tableProb
  constructor <;>
  · rw [Finset.sum_comm]
    refine Finset.sum_congr rfl fun x _ => Finset.sum_congr rfl fun y _ => ?_
    rw [mul_comm]

/-- The condition on `Y - X` of the row `k` of `skellam_cdf_pair`: below `n`, above `n`. -/
def below (k : Nat) (n x y : Int) : Prop := if k = 0 then y - x < n else n < y - x

instance (k : Nat) (n x y : Int) : Decidable (below k n x y) := by unfold below; infer_instance

/-- C41: the public `skellam_cdf_pair`: two rows, each with the weight in the table of the size that the tolerance gives, and its two derivatives in the means, at
this size. -/
theorem C41_pair_call {ndtri : ℝ → ℝ} {a b tol : ℝ} {n : Int} {r : List (List ℝ)} (h : skellamPair ndtri a b n tol = .ok r) :
    ∃ size : Nat, 0 < size ∧ (size : Int) = tol2size ndtri tol [a, b] ∧ (∀ k < 2, (r.getD k []).getD 0 0 = tableProb size a b (below k n) ∧
      HasDerivAt (fun t => tableProb size t b (below k n)) ((r.getD k []).getD 1 0) a ∧
      HasDerivAt (fun t => tableProb size a t (below k n)) ((r.getD k []).getD 2 0) b) ∧ r.length = 2 := by
  unfold skellamPair at h
  dsimp only at h
  split_ifs at h with h0
  cases h
  have val : ∀ (size : Nat) (a b : ℝ) (k : Nat), k < 2 → ((skellamPairSize a b n size).getD k []).getD 0 0 = tableProb size a b (below k n) := by
    intro size a b k hk
    have : k = 0 ∨ k = 1 := by omega
    rcases this with rfl | rfl
    · rw [(C41_values a b n size).2.2.1]; rfl
    · rw [(C41_values a b n size).2.2.2]; rfl
  refine ⟨_, by omega, Int.toNat_of_nonneg (by omega), fun k hk => ⟨val _ a b k hk, ?_, ?_⟩, rfl⟩
  · simpa only [val _ _ _ k hk] using (C41_derivatives a b n false _ k hk).2.2.1
  · simpa only [val _ _ _ k hk] using (C41_derivatives a b n false _ k hk).2.2.2

/-- With the means 1 and 1 and the quantile 0 of the tolerance the table has 3 rows and columns. -/
example (tol : ℝ) : ∃ r, skellamPair (fun _ => 0) 1 1 0 tol = .ok r := by
  refine ⟨skellamPairSize 1 1 0 3, ?_⟩
  have h : tol2size (fun _ => 0) tol [1, 1] = 3 := by
    norm_num [tol2size, pyInt]
  unfold skellamPair
  rw [h]
  rfl

/-- C41: the public `skellam_cdf`: the weight of `Y - X ≤ n` (of `n ≤ Y - X` with `inverse`) in the table of the size that the tolerance gives, and its two derivatives
in the means, at this size. -/
theorem C41_cdf_call {ndtri : ℝ → ℝ} {a b tol : ℝ} {n : Int} {inverse : Bool} {r : List ℝ} (h : skellamCdf ndtri a b n tol inverse = .ok r) :
    ∃ size : Nat, 0 < size ∧ (size : Int) = tol2size ndtri tol [a, b] ∧
      r.getD 0 0 = tableProb size a b (fun x y => if inverse then n ≤ y - x else y - x ≤ n) ∧
      HasDerivAt (fun t => tableProb size t b (fun x y => if inverse then n ≤ y - x else y - x ≤ n)) (r.getD 1 0) a ∧
      HasDerivAt (fun t => tableProb size a t (fun x y => if inverse then n ≤ y - x else y - x ≤ n)) (r.getD 2 0) b := by
  unfold skellamCdf at h
  dsimp only at h
  split_ifs at h with h0
  cases h
  have val : ∀ (size : Nat) (a b : ℝ), (skellamCdfSize a b n inverse size).getD 0 0 = tableProb size a b (fun x y => if inverse then n ≤ y - x else y - x ≤ n) := by
    intro size a b
    cases inverse
    · rw [(C41_values a b n size).1]; simp [tableProb]
    · rw [(C41_values a b n size).2.1]; simp [tableProb]
  refine ⟨_, by omega, Int.toNat_of_nonneg (by omega), val _ a b, ?_, ?_⟩
  · simpa only [val] using (C41_derivatives a b n inverse _ 0 (by norm_num)).1
  · simpa only [val] using (C41_derivatives a b n inverse _ 0 (by norm_num)).2.1

/-- C41: everything but the sign of the difference. -/
theorem C41_tables_partial (a b : ℝ) (n : Int) (size : Nat) :
    (skellamCdfSize a b n false size).getD 0 0 + (skellamCdfSize a b (n + 1) true size).getD 0 0 =
      tableProb size a b (fun _ _ => True) ∧
    ((skellamPairSize a b n size).getD 0 []).getD 0 0 = tableProb size a b (fun x y => y - x < n) ∧
    ((skellamPairSize a b n size).getD 1 []).getD 0 0 = tableProb size a b (fun x y => n < y - x) ∧
    (skellamPairSize a b n size).length = 2 := by
  refine ⟨?_, (C41_values a b n size).2.2.1, (C41_values a b n size).2.2.2, rfl⟩
  rw [C41_complement a b n size 0 (by norm_num)]
  simp [tableProb, tableSum, skFrame, poi_eq]

/-! ## loops -/

theorem whileLoop_invariant {σ ρ : Type} {cond : σ → Prop} {body : σ → Except ρ σ} (I : σ → Prop)
    (hstep : ∀ s s', I s → cond s → body s = .ok s' → I s') {fuel : Nat} {s s' : σ} (h0 : I s)
    (h : whileLoop cond body fuel s = some (.ok s')) : I s' ∧ ¬ cond s' := by
  induction fuel generalizing s with
  | zero => simp [whileLoop] at h
  | succ fuel ih =>
    unfold whileLoop at h
    split_ifs at h with hc
    · cases hb : body s with
      | error r => simp [hb] at h
      | ok t =>
        simp only [hb] at h
        exact ih (hstep s t h0 hc hb) h
    · simp only [Option.some.injEq, Except.ok.injEq] at h
      subst h
      exact ⟨h0, hc⟩

/-- A loop whose body counts and leaves when the count exceeds `limit` finishes. -/
theorem whileLoop_terminates {σ ρ : Type} {cond : σ → Prop} {body : σ → Except ρ σ}
    (count : σ → Nat) (limit : Nat)
    (hstep : ∀ s s', body s = .ok s' → count s' = count s + 1 ∧ count s' ≤ limit)
    (fuel : Nat) (s : σ) (hf : limit + 2 ≤ fuel + count s) (hs : count s ≤ limit) :
    whileLoop cond body fuel s ≠ none := by
  induction fuel generalizing s with
  | zero => omega
  | succ fuel ih =>
    unfold whileLoop
    split_ifs with hc
    · cases hb : body s with
      | error r => simp
      | ok t =>
        simp only
        have := hstep s t hb
        exact ih t (by omega) this.2
    · simp

/-- A state that the body reproduces and that satisfies the condition is never left. -/
theorem whileLoop_diverges {σ ρ : Type} {cond : σ → Prop} {body : σ → Except ρ σ} (I : σ → Prop)
    (h : ∀ s, I s → cond s ∧ ∃ s', body s = .ok s' ∧ I s') {s : σ} (h0 : I s) (fuel : Nat) :
    whileLoop cond body fuel s = none := by
  induction fuel generalizing s with
  | zero => rfl
  | succ fuel ih =>
    obtain ⟨hc, s', hb, hI⟩ := h s h0
    unfold whileLoop
    rw [if_pos hc, hb]
    exact ih hI

/-! ## C42 -/

theorem pTry_spec (cdf : ℝ → ℝ) (target a step absE : ℝ) (k : Nat) (newA newE scale : ℝ)
    (h : newE = |target - cdf newA| ∨ ¬ newE < absE) :
    pTry cdf target a step absE k newA newE scale = a ∨
    (0 < pTry cdf target a step absE k newA newE scale ∧
      |target - cdf (pTry cdf target a step absE k newA newE scale)| < absE) := by
  induction k generalizing newA newE scale with
  | zero => left; rfl
  | succ k ih =>
    unfold pTry
    split_ifs with hc
    · right
      rcases h with h | h
      · exact ⟨hc.1, h ▸ hc.2⟩
      · exact absurd hc.2 h
    · exact ih _ _ _ (Or.inl rfl)

/-- What holds of `a` and `e` after each iteration. -/
def PInv (target : ℝ) (n : Nat) (s : PState) : Prop :=
  0 < s.a ∧ |target - (poissonCdf s.a n).1| ≤ |s.e|

theorem pBody_inv {target : ℝ} {n : Nat} {s s' : PState} (h : PInv target n s)
    (hb : pBody target n s = .ok s') : PInv target n s' := by
  unfold pBody at hb
  dsimp only at hb
  split_ifs at hb
  cases hb
  rcases pTry_spec (fun x => (poissonCdf x n).1) target s.a
    ((target - (poissonCdf s.a n).1) / (poissonCdf s.a n).2) |target - (poissonCdf s.a n).1| 10
    (s.a + 1 * ((target - (poissonCdf s.a n).1) / (poissonCdf s.a n).2))
    |target - (poissonCdf s.a n).1| 1 (Or.inr (lt_irrefl _)) with he | he
  · refine ⟨?_, ?_⟩
    · show 0 < pTry _ _ _ _ _ _ _ _ _
      rw [he]; exact h.1
    · show |target - (poissonCdf (pTry _ _ _ _ _ _ _ _ _) n).1| ≤ _
      rw [he]
  · exact ⟨he.1, he.2.le⟩

/-- C42: a number returned by `poisson_cdf_root` is positive and its distribution function is within
the tolerance of the target. -/
theorem C42_returns_root_partial {ndtri : ℝ → ℝ} {target tol a : ℝ} {n fuel : Nat}
    (h : poissonCdfRoot ndtri target n tol fuel = some (.num a)) :
    0 < a ∧ |(poissonCdf a n).1 - target| ≤ |tol| := by
  unfold poissonCdfRoot at h
  split_ifs at h with h0
  · cases h
  dsimp only at h
  have ht : 0 < target ∧ target < 1 := by
    rw [not_or, not_le, not_le] at h0
    exact ⟨h0.2, h0.1⟩
  set a0 := max (((ndtri target * ndtri target + 4 * n + 2) ^ (0.5 : ℝ) - ndtri target) ^ 2 / 4) 1e-3
    with ha0
  have ha0pos : 0 < a0 := lt_of_lt_of_le (by norm_num) (le_max_right _ _)
  cases hw : whileLoop (fun s => |s.e| > |tol|) (pBody target n) fuel ⟨a0, 1, 0⟩ with
  | none => simp [hw] at h
  | some r =>
    cases r with
    | error v =>
      rw [hw] at h
      simp only [Option.some.injEq] at h
      -- an early exit never returns a number
      exfalso
      have : ∀ fuel s, whileLoop (fun s => |s.e| > |tol|) (pBody target n) fuel s = some (.error v) →
          v = .cls .convergence := by
        intro fuel
        induction fuel with
        | zero => intro s hs; simp [whileLoop] at hs
        | succ fuel ih =>
          intro s hs
          unfold whileLoop at hs
          split_ifs at hs
          swap
          · cases hs
          cases hb : pBody target n s with
          | error w =>
            simp only [hb, Option.some.injEq, Except.error.injEq] at hs
            subst hs
            unfold pBody at hb
            dsimp only at hb
            split_ifs at hb
            cases hb; rfl
          | ok t =>
            simp only [hb] at hs
            exact ih t hs
      rw [this fuel _ hw] at h
      cases h
    | ok s =>
      rw [hw] at h
      simp only [Option.some.injEq, PyVal.num.injEq] at h
      subst h
      have hinit : PInv target n ⟨a0, 1, 0⟩ := by
        refine ⟨ha0pos, ?_⟩
        have hb := C40_cdf_bounds ha0pos.le n
        simp only [abs_one]
        rw [abs_le]
        constructor <;> linarith [hb.1, hb.2.1, ht.1, ht.2]
      have := whileLoop_invariant (PInv target n) (fun s s' hI _ hb => pBody_inv hI hb) hinit hw
      refine ⟨this.1.1, ?_⟩
      rw [abs_sub_comm]
      have hn := this.2
      simp only [gt_iff_lt, not_lt] at hn
      exact this.1.2.trans hn

/-- C42: it always finishes, after at most 51 iterations. -/
theorem C42_terminates (ndtri : ℝ → ℝ) (target tol : ℝ) (n : Nat) :
    poissonCdfRoot ndtri target n tol 52 ≠ none := by
  unfold poissonCdfRoot
  split_ifs
  · simp
  · dsimp only
    have := whileLoop_terminates (cond := fun s : PState => |s.e| > |tol|) (body := pBody target n)
      PState.count 50 (fun s s' hb => by
        unfold pBody at hb
        dsimp only at hb
        split_ifs at hb with hc
        cases hb
        exact ⟨rfl, by simpa using hc⟩) 52
      ⟨max (((ndtri target * ndtri target + 4 * n + 2) ^ (0.5 : ℝ) - ndtri target) ^ 2 / 4) 1e-3, 1, 0⟩
      (by norm_num) (by norm_num)
    generalize whileLoop (fun s : PState => |s.e| > |tol|) (pBody target n) 52 _ = w at this ⊢
    cases w with
    | none => exact absurd rfl this
    | some r => cases r <;> simp

/-- C42: an invalid target is not signalled: the exception class `ValueError` is *returned*, for every
invalid target. -/
theorem C42_invalid_target_counterexample (ndtri : ℝ → ℝ) {target : ℝ} (h : target ≤ 0 ∨ 1 ≤ target)
    (tol : ℝ) (n fuel : Nat) :
    poissonCdfRoot ndtri target n tol fuel = some (.cls .valueError) := by
  unfold poissonCdfRoot
  rw [if_pos (by rcases h with h | h; exacts [Or.inr h, Or.inl h])]

/-- C42: the only results: a number as above, or one of two exception classes as a value. -/
theorem C42_results {ndtri : ℝ → ℝ} {target tol : ℝ} {n fuel : Nat} {v : PyVal}
    (h : poissonCdfRoot ndtri target n tol fuel = some v) :
    (∃ a, v = .num a) ∨ v = .cls .valueError ∨ v = .cls .convergence := by
  unfold poissonCdfRoot at h
  split_ifs at h
  · cases h; exact Or.inr (Or.inl rfl)
  · dsimp only at h
    have key : ∀ fuel s, (∃ w, whileLoop (fun s : PState => |s.e| > |tol|) (pBody target n) fuel s =
        some (.error w) ∧ w ≠ .cls .convergence) → False := by
      intro fuel
      induction fuel with
      | zero => rintro s ⟨w, hs, -⟩; simp [whileLoop] at hs
      | succ fuel ih =>
        rintro s ⟨w, hs, hw⟩
        unfold whileLoop at hs
        split_ifs at hs
        swap
        · cases hs
        cases hb : pBody target n s with
        | error w' =>
          simp only [hb, Option.some.injEq, Except.error.injEq] at hs
          subst hs
          unfold pBody at hb
          dsimp only at hb
          split_ifs at hb
          cases hb; exact hw rfl
        | ok t =>
          simp only [hb] at hs
          exact ih t ⟨w, hs, hw⟩
    split at h
    · cases h
    · rename_i w hw
      cases h
      right; right
      by_contra hne
      exact key _ _ ⟨_, hw, hne⟩
    · cases h; exact Or.inl ⟨_, rfl⟩

/-- The success case is reachable: with a tolerance of at least 1 the first guess is returned. -/
example (ndtri : ℝ → ℝ) : ∃ a, poissonCdfRoot ndtri 0.3 2 1 1 = some (.num a) := by
  unfold poissonCdfRoot
  rw [if_neg (by norm_num)]
  dsimp only
  unfold whileLoop
  rw [if_neg (by norm_num)]
  exact ⟨_, rfl⟩

/-! ## C43 -/

/-- The error of a pair of means: distance of `skellam_cdf_pair(a, b, n, tol)[:, 0]` from the
targets. -/
def PairWithin (ndtri : ℝ → ℝ) (t1 t2 : ℝ) (n : Int) (tol : ℝ) (ab : ℝ × ℝ) (e : ℝ) : Prop :=
  ∃ s, pairValue ndtri n tol ab = .ok s ∧ norm2 (s.1 - t1) (s.2 - t2) ≤ e

theorem norm2_comm (a b c d : ℝ) : norm2 (a - b) (c - d) = norm2 (b - a) (d - c) := by
  unfold norm2; congr 1; ring

theorem sTry_spec {ndtri : ℝ → ℝ} {t1 t2 : ℝ} {n : Int} {tol : ℝ} {ab step : ℝ × ℝ} {e : ℝ}
    (k : Nat) (newAb : ℝ × ℝ) (newE scale : ℝ) {r : ℝ × ℝ}
    (hpos : 0 < newAb.1 ∧ 0 < newAb.2)
    (h : (∃ s, pairValue ndtri n tol newAb = .ok s ∧ norm2 (s.1 - t1) (s.2 - t2) = newE) ∨
      ¬ newE < e)
    (hr : sTry (pairValue ndtri n tol) t1 t2 ab step e k newAb newE scale = .ok r) :
    r = ab ∨ ((0 < r.1 ∧ 0 < r.2) ∧ PairWithin ndtri t1 t2 n tol r e) := by
  induction k generalizing newAb newE scale with
  | zero => simp only [sTry, Except.ok.injEq] at hr; left; exact hr.symm
  | succ k ih =>
    unfold sTry at hr
    split_ifs at hr with hc
    · simp only [Except.ok.injEq] at hr
      subst hr
      right
      rcases h with ⟨s, hs, he⟩ | h
      · exact ⟨hpos, s, hs, by rw [he]; exact hc.le⟩
      · exact absurd hc h
    · simp only [bind, Except.bind] at hr
      have hpos' : ∀ x : ℝ, 0 < max x (1e-6 : ℝ) := fun x =>
        lt_of_lt_of_le (by norm_num) (le_max_right _ _)
      split at hr
      · cases hr
      · rename_i newS hs
        exact ih _ _ _ ⟨hpos' _, hpos' _⟩ (Or.inl ⟨newS, hs, rfl⟩) hr

/-- What holds after at least one iteration. -/
def SInv (ndtri : ℝ → ℝ) (t1 t2 : ℝ) (n : Int) (tol : ℝ) (s : SState) : Prop :=
  (0 < s.ab.1 ∧ 0 < s.ab.2) ∧
    ((s.count = 0 ∧ s.e = 1) ∨ PairWithin ndtri t1 t2 n tol s.ab s.e)

theorem sBody_inv {ndtri : ℝ → ℝ} {t1 t2 : ℝ} {n : Int} {tol : ℝ} {s s' : SState}
    (h : 0 < s.ab.1 ∧ 0 < s.ab.2) (hb : sBody ndtri t1 t2 n tol s = .ok s') :
    (0 < s'.ab.1 ∧ 0 < s'.ab.2) ∧ PairWithin ndtri t1 t2 n tol s'.ab s'.e := by
  unfold sBody at hb
  simp only [bind, Except.bind] at hb
  split at hb
  · cases hb
  · rename_i r hr
    split at hb
    · cases hb
    · rename_i step hstep
      split at hb
      · cases hb
      · rename_i ab hab
        split_ifs at hb
        cases hb
        have hpv : pairValue ndtri n tol s.ab =
            .ok ((r.getD 0 []).getD 0 0, (r.getD 1 []).getD 0 0) := by
          unfold pairValue; rw [hr]
        have hpos' : ∀ x : ℝ, 0 < max x (1e-6 : ℝ) := fun x =>
          lt_of_lt_of_le (by norm_num) (le_max_right _ _)
        rcases sTry_spec _ _ _ _ ⟨hpos' _, hpos' _⟩
          (Or.inr (by rw [norm2_comm]; exact lt_irrefl _)) hab with he | he
        · subst he
          exact ⟨h, _, hpv, by simp only; rw [norm2_comm]⟩
        · exact he

theorem root_pairValue {ndtri : ℝ → ℝ} {t1 t2 tol : ℝ} {n : Int} {fuel : Nat} {a b : ℝ}
    (htol : |tol| < 1) (h : skellamCdfRoot ndtri t1 t2 n tol fuel = some (.ok (a, b))) :
    0 < a ∧ 0 < b ∧ ∃ s1 s2, pairValue ndtri n tol (a, b) = .ok (s1, s2) ∧
      Real.sqrt ((s1 - t1) ^ 2 + (s2 - t2) ^ 2) ≤ |tol| := by
  unfold skellamCdfRoot at h
  split_ifs at h
  · cases h
  dsimp only at h
  split at h
  · cases h
  · cases h
  · rename_i s hs
    simp only [Option.some.injEq, Except.ok.injEq] at h
    have hpos' : ∀ x : ℝ, 0 < max x (1e-6 : ℝ) := fun x =>
      lt_of_lt_of_le (by norm_num) (le_max_right _ _)
    have := whileLoop_invariant (SInv ndtri t1 t2 n tol)
      (fun s s' hI _ hb => by
        have := sBody_inv hI.1 hb
        exact ⟨this.1, Or.inr this.2⟩) (by exact ⟨⟨hpos' _, hpos' _⟩, Or.inl ⟨rfl, rfl⟩⟩) hs
    obtain ⟨⟨hp, hor⟩, hn⟩ := this
    simp only [gt_iff_lt, not_lt] at hn
    rw [h] at hp hor
    rcases hor with ⟨-, he⟩ | ⟨v, hv, hle⟩
    · rw [he] at hn; linarith
    · exact ⟨hp.1, hp.2, v.1, v.2, hv, hle.trans hn⟩

/-- C43: a pair returned by `skellam_cdf_root` is positive and its two weights, below `n` and above `n`, in the table of the size that the tolerance gives,
are within the tolerance of the targets (in Euclidean norm).  Tolerances of 1 and more, for which the loop is never
entered and the first guess is returned, are excluded. -/
theorem C43_returns_root {ndtri : ℝ → ℝ} {t1 t2 tol : ℝ} {n : Int} {fuel : Nat} {a b : ℝ}
    (htol : |tol| < 1) (h : skellamCdfRoot ndtri t1 t2 n tol fuel = some (.ok (a, b))) :
    0 < a ∧ 0 < b ∧ ∃ size : Nat, 0 < size ∧ (size : Int) = tol2size ndtri tol [a, b] ∧
      Real.sqrt ((tableProb size a b (fun x y => y - x < n) - t1) ^ 2 + (tableProb size a b (fun x y => n < y - x) - t2) ^ 2) ≤ |tol| := by
  obtain ⟨h1, h2, s1, s2, h3, h4⟩ := root_pairValue htol h
  refine ⟨h1, h2, ?_⟩
  unfold pairValue at h3
  cases hr : skellamPair ndtri a b n tol with
  | error e => simp [hr] at h3
  | ok r =>
    simp only [hr, Except.ok.injEq, Prod.mk.injEq] at h3
    obtain ⟨size, k1, k2, k3, k4⟩ := C41_pair_call hr
    refine ⟨size, k1, k2, ?_⟩
    have e0 : s1 = tableProb size a b (fun x y => y - x < n) := h3.1 ▸ (k3 0 (by norm_num)).1
    have e1 : s2 = tableProb size a b (fun x y => n < y - x) := h3.2 ▸ (k3 1 (by norm_num)).1
    rw [← e0, ← e1]
    exact h4

/-- C43: it always finishes, after at most 51 iterations. -/
theorem C43_terminates (ndtri : ℝ → ℝ) (t1 t2 tol : ℝ) (n : Int) :
    skellamCdfRoot ndtri t1 t2 n tol 52 ≠ none := by
  unfold skellamCdfRoot
  split_ifs
  · simp
  · dsimp only
    have := fun s hs => whileLoop_terminates (cond := fun s : SState => s.e > |tol|)
      (body := sBody ndtri t1 t2 n tol)
      SState.count 50 (fun s s' hb => by
        unfold sBody at hb
        simp only [bind, Except.bind] at hb
        split at hb
        · cases hb
        · split at hb
          · cases hb
          · split at hb
            · cases hb
            · split_ifs at hb with hc
              cases hb
              exact ⟨rfl, by simpa using hc⟩) 52 s (by omega) hs
    generalize hst : (SState.mk _ _ _ : SState) = st
    have h2 := this st (by rw [← hst]; simp)
    generalize whileLoop (fun s : SState => s.e > |tol|) (sBody ndtri t1 t2 n tol) 52 st = w at h2 ⊢
    cases w with
    | none => exact absurd rfl h2
    | some r => cases r <;> simp

/-- C43: invalid targets raise `ValueError`. -/
theorem C43_invalid_targets (ndtri : ℝ → ℝ) {t1 t2 : ℝ} (h : 1 ≤ t1 + t2 ∨ t1 ≤ 0 ∨ t2 ≤ 0)
    (tol : ℝ) (n : Int) (fuel : Nat) :
    skellamCdfRoot ndtri t1 t2 n tol fuel = some (.error .valueError) := by
  unfold skellamCdfRoot
  rw [if_pos]
  rcases h with h | h | h
  · exact Or.inl h
  · exact Or.inr (min_le_iff.2 (Or.inl h))
  · exact Or.inr (min_le_iff.2 (Or.inr h))

/-! ## C44 -/

theorem cTry_spec (val : ℝ → ℝ) (target a step e : ℝ) (k : Nat) (newA newE scale : ℝ)
    (h : newE = |target - val newA| ∨ ¬ newE < e) :
    cTry val target a step e k newA newE scale = a ∨
      |target - val (cTry val target a step e k newA newE scale)| < e := by
  induction k generalizing newA newE scale with
  | zero => left; rfl
  | succ k ih =>
    unfold cTry
    split_ifs with hc
    · right
      rcases h with h | h
      · exact h ▸ hc
      · exact absurd hc h
    · exact ih _ _ _ (Or.inl rfl)

/-- C44: a value returned by `conditional_skellam_cdf_root` is within the tolerance of the target, for
the table the last iteration used (tolerances below 1).  Missing: the table size of the last
iteration is that of the previous `a`; and termination, which is false. -/
theorem C44_returns_root_partial {ndtri : ℝ → ℝ} {b target tol a : ℝ} {fuel : Nat}
    (htol : |tol| < 1) (h : conditionalRoot ndtri b target tol fuel = some (.ok a)) :
    ∃ a' : ℝ, 0 < tol2size ndtri tol [a', b] ∧ 0 < tol2size ndtri (0.5 * tol) [b] ∧
      |condValue (tol2size ndtri tol [a', b]).toNat (tol2size ndtri (0.5 * tol) [b]).toNat a b -
        target| ≤ |tol| := by
  unfold conditionalRoot at h
  split_ifs at h with h0
  · cases h
  dsimp only at h
  split_ifs at h with h1
  · cases h
  split at h
  · cases h
  · cases h
  · rename_i s hs
    simp only [Option.some.injEq, Except.ok.injEq] at h
    subst h
    set cols := (tol2size ndtri (0.5 * tol) [b]).toNat with hcols
    have := whileLoop_invariant
      (fun s : CState => s.e = 1 ∨ ∃ a' : ℝ, 0 < tol2size ndtri tol [a', b] ∧
        |target - condValue (tol2size ndtri tol [a', b]).toNat cols s.a b| ≤ s.e)
      (fun s s' _ _ hb => by
        unfold cBody at hb
        dsimp only at hb
        split_ifs at hb with hsz hcnt
        cases hb
        right
        refine ⟨s.a, by omega, ?_⟩
        dsimp only
        rcases cTry_spec (fun x => condValue (tol2size ndtri tol [s.a, b]).toNat cols x b) target s.a
          ((target - condValue (tol2size ndtri tol [s.a, b]).toNat cols s.a b) /
            condDeriv (tol2size ndtri tol [s.a, b]).toNat cols s.a b)
          |target - condValue (tol2size ndtri tol [s.a, b]).toNat cols s.a b| 10 _
          |target - condValue (tol2size ndtri tol [s.a, b]).toNat cols s.a b| 1
          (Or.inr (lt_irrefl _)) with he | he
        · rw [he]
        · exact he.le) (by exact Or.inl rfl) hs
    obtain ⟨hor, hn⟩ := this
    simp only [gt_iff_lt, not_lt] at hn
    rcases hor with he | ⟨rows, hr, hle⟩
    · rw [he] at hn; linarith
    · refine ⟨rows, hr, by omega, ?_⟩
      rw [abs_sub_comm]
      exact hle.trans hn

/-- C44: invalid targets raise. -/
theorem C44_invalid_target (ndtri : ℝ → ℝ) {target : ℝ} (h : target ≤ 0 ∨ 1 ≤ target) (b tol : ℝ)
    (fuel : Nat) : conditionalRoot ndtri b target tol fuel = some (.error .valueError) := by
  unfold conditionalRoot
  rw [if_pos h]

theorem tol2size_zero (ndtri : ℝ → ℝ) (tol : ℝ) (l : List ℝ) (h : ∀ x ∈ l, x = 0) :
    tol2size ndtri tol l = 1 := by
  have h1 : (l.map fun x => x ^ (0.5 : ℝ)).sum = 0 := by
    induction l with
    | nil => rfl
    | cons x l ih =>
      rw [List.map_cons, List.sum_cons, ih fun y hy => h y (List.mem_cons_of_mem _ hy),
        h x (List.mem_cons_self ..)]
      norm_num
  have h2 : l.sum = 0 := List.sum_eq_zero h
  unfold tol2size
  rw [h1, h2]
  simp [pyInt]

theorem condValue_one (a b : ℝ) : condValue 1 1 a b = 0.5 * (Real.exp (-a) * Real.exp (-b)) := by
  simp [condValue, condSum, maskSum, poi, curve]

theorem condDeriv_one (a b : ℝ) : condDeriv 1 1 a b = -(0.5 * (Real.exp (-a) * Real.exp (-b))) := by
  simp [condDeriv, condSum, maskSum, poi, dpoi, curve, dcurve]

/-- C44: it does not always terminate: for `b = 0` and every target above one half (a root exists,
`C44_root_exists`) and tolerance below `target - 1/2` the loop runs for ever; the step counter is
never incremented. -/
theorem C44_diverges_counterexample (ndtri : ℝ → ℝ) {target tol : ℝ} (ht : 1 / 2 < target)
    (ht1 : target < 1) (htol : |tol| < target - 1 / 2) (fuel : Nat) :
    conditionalRoot ndtri 0 target tol fuel = none := by
  unfold conditionalRoot
  rw [if_neg (by rw [not_or, not_le, ge_iff_le, not_le]; exact ⟨by linarith, ht1⟩)]
  dsimp only
  rw [tol2size_zero ndtri _ [0] (by simp), if_neg (by norm_num)]
  have hloop : whileLoop (fun s : CState => s.e > |tol|)
      (cBody ndtri 0 target tol ((1 : Int)).toNat) fuel ⟨0, 1, 0⟩ = none := by
    refine whileLoop_diverges (fun s : CState => s.a = 0 ∧ s.count = 0 ∧ |tol| < s.e) ?_ ?_ fuel
    · rintro ⟨a, e, count⟩ ⟨ha, hc, he⟩
      dsimp only at ha hc he
      subst ha; subst hc
      refine ⟨he, ?_⟩
      have hv : condValue 1 1 0 0 = 1 / 2 := by rw [condValue_one]; norm_num
      have hd : condDeriv 1 1 0 0 = -(1 / 2) := by rw [condDeriv_one]; norm_num
      -- every candidate is the floor, and it is worse
      have hstep : (target - 1 / 2) / -(1 / 2 : ℝ) < 0 :=
        div_neg_of_pos_of_neg (by linarith) (by norm_num)
      have htry : ∀ (k : Nat) (newA newE scale : ℝ), 0 < scale → ¬ newE < |target - 1 / 2| →
          cTry (fun x => condValue 1 1 x 0) target 0 ((target - 1 / 2) / -(1 / 2 : ℝ))
            |target - 1 / 2| k newA newE scale = 0 := by
        intro k
        induction k with
        | zero => intro _ _ _ _ _; rfl
        | succ k ih =>
          intro newA newE scale hs hne
          unfold cTry
          rw [if_neg hne]
          dsimp only
          refine ih _ _ _ (by positivity) ?_
          have hmax : max (0 + scale * 0.5 * ((target - 1 / 2) / -(1 / 2 : ℝ))) (1e-6 : ℝ) = 1e-6 := by
            refine max_eq_right ?_
            have : scale * 0.5 * ((target - 1 / 2) / -(1 / 2 : ℝ)) ≤ 0 :=
              mul_nonpos_of_nonneg_of_nonpos (by positivity) hstep.le
            linarith
          rw [hmax, condValue_one, not_lt]
          have h1 : Real.exp (-(1e-6 : ℝ)) ≤ 1 := Real.exp_le_one_iff.2 (by norm_num)
          have h2 : Real.exp (-(0 : ℝ)) = 1 := by simp
          rw [h2, mul_one, abs_of_pos (by linarith), abs_of_pos (by linarith)]
          linarith
      refine ⟨⟨0, |target - 1 / 2|, 0⟩, ?_, rfl, rfl, ?_⟩
      · unfold cBody
        dsimp only
        rw [tol2size_zero ndtri tol [0, 0] (by simp)]
        rw [if_neg (by norm_num), if_neg (by norm_num)]
        have h1 : (1 : Int).toNat = 1 := rfl
        rw [h1, hv, hd, htry 10 _ _ 1 one_pos (lt_irrefl _)]
      · show |tol| < |target - 1 / 2|
        rw [abs_of_pos (by linarith : 0 < target - 1 / 2)]
        exact htol
    · refine ⟨rfl, rfl, ?_⟩
      show |tol| < 1
      linarith
  rw [hloop]

/-- For these inputs the equation the function is documented to solve has a solution: with `Y = 0`
the probability of `X > 0` plus half that of `X = 0` is `1 - exp(-a)/2`. -/
theorem C44_root_exists {target : ℝ} (ht : 1 / 2 < target) (ht1 : target < 1) :
    ∃ a : ℝ, 0 < a ∧ (1 - poissonPmf a 0) + 1 / 2 * poissonPmf a 0 = target := by
  refine ⟨-Real.log (2 * (1 - target)), ?_, ?_⟩
  · have := Real.log_neg (by linarith : (0 : ℝ) < 2 * (1 - target)) (by linarith)
    linarith
  · simp only [poissonPmf, neg_neg, pow_zero, Nat.factorial_zero, Nat.cast_one, mul_one, div_one]
    rw [Real.exp_log (by linarith)]
    ring

example (ndtri : ℝ → ℝ) (fuel : Nat) : conditionalRoot ndtri 0 0.75 1e-8 fuel = none :=
  C44_diverges_counterexample ndtri (by norm_num) (by norm_num) (by rw [abs_of_pos] <;> norm_num) fuel

end Verif.Skellam
