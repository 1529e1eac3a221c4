import Verif.Lemmas.MarkovDeriv
import Verif.Props.Leaves
import Mathlib.Data.Rat.Cast.CharZero
import Mathlib.Data.List.Rotate

/-!
# MarkovMatrix, MarkovVector, CollapseMatrix: C34 – C37
-/

set_option linter.unusedSectionVars false

namespace Verif.Markov
open Verif.Params (Err)
open Verif.Func (AtomOk CurveAt GradCorrectAt HessCorrectAt Prm Fn)
open Verif.MarkovSpec Finset

section basic
variable {K : Type} [Field K] [LinearOrder K] [IsStrictOrderedRing K]

/-! ## C34 -/

/-- C34: every frame returned by `MarkovMatrix` is a probability distribution. -/
theorem C34_markovMatrix_distribution {size steps : Nat} {skew : Mat K} {sh1 sh2 : List Nat}
    {p1 p2 : List Nat → K} {R : List Nat → Mat K}
    (hf : ∀ x < size, ∀ y < size, 0 ≤ skew x y ∧ skew x y ≤ 1)
    (h : markovMatrix size steps skew sh1 sh2 p1 p2 = .ok R) :
    ∀ ix ∈ indices sh1, (∀ x < size, ∀ y < size, 0 ≤ R ix x y) ∧
      ∑ x ∈ range size, ∑ y ∈ range size, R ix x y = 1 := by
  unfold markovMatrix at h
  split_ifs at h with ha hs
  cases h
  intro ix hix
  obtain ⟨-, h1, h2, h3⟩ := ha
  refine ⟨fun x hx y hy => ?_, ?_⟩
  · have e : mmFrame size steps skew (p1 ix) (p2 ix) x y = _ := mm_dist _ _ _ _ _ hx hy
    show 0 ≤ mmFrame size steps skew (p1 ix) (p2 ix) x y
    rw [e]
    exact walk2Dist_nonneg (h1 ix hix) (h2 ix hix) (h3 ix hix) hf _ _ _
  · rw [← walk2Dist_sum (Nat.pos_of_ne_zero hs) skew (p1 ix / steps) (p2 ix / steps) steps]
    refine Finset.sum_congr rfl fun x hx => Finset.sum_congr rfl fun y hy => ?_
    exact mm_dist _ _ _ _ _ (mem_range.1 hx) (mem_range.1 hy)

/-- C34: every frame returned by `MarkovVector` is a probability distribution. -/
theorem C34_markovVector_distribution {size steps : Nat} {skew : Vec K} {sh1 sh2 : List Nat}
    {p1 p2 : List Nat → K} {R : List Nat → Vec K}
    (hf : ∀ x < 2 * size - 1, 0 ≤ skew x ∧ skew x ≤ 1)
    (h : markovVector size steps skew sh1 sh2 p1 p2 = .ok R) :
    ∀ ix ∈ indices sh1, (∀ x < 2 * size - 1, 0 ≤ R ix x) ∧
      ∑ x ∈ range (2 * size - 1), R ix x = 1 := by
  unfold markovVector at h
  split_ifs at h with hs ha
  cases h
  intro ix hix
  obtain ⟨-, h1, h2, h3⟩ := ha
  have hs := Nat.pos_of_ne_zero hs
  refine ⟨fun x hx => ?_, ?_⟩
  · have e : mvFrame size steps skew (p1 ix) (p2 ix) x = _ := mv_dist hs _ _ _ _ hx
    show 0 ≤ mvFrame size steps skew (p1 ix) (p2 ix) x
    rw [e]
    exact walk1Dist_nonneg (h1 ix hix) (h2 ix hix) (h3 ix hix) hf _ _
  · rw [← walk1Dist_sum hs skew (p1 ix / steps) (p2 ix / steps) steps]
    refine Finset.sum_congr rfl fun x hx => ?_
    exact mv_dist hs _ _ _ _ (mem_range.1 hx)

/-- C34: which parameters are accepted: same shape, positive, and sum below `steps`, entry by entry
(and at least one step, a frame of at least one cell). -/
theorem C34_accepted_iff {size steps : Nat} {skew : Mat K} {sh1 sh2 : List Nat}
    {p1 p2 : List Nat → K} (hne : indices sh1 ≠ []) :
    (∃ R, markovMatrix size steps skew sh1 sh2 p1 p2 = .ok R) ↔
      0 < size ∧ 0 < steps ∧ sh1 = sh2 ∧
        ∀ ix ∈ indices sh1, 0 < p1 ix ∧ 0 < p2 ix ∧ p1 ix + p2 ix < steps := by
  have hacc : accepted steps sh1 sh2 p1 p2 ↔ 0 < steps ∧ sh1 = sh2 ∧
      ∀ ix ∈ indices sh1, 0 < p1 ix ∧ 0 < p2 ix ∧ p1 ix + p2 ix < steps := by
    rcases Nat.eq_zero_or_pos steps with h0 | hpos
    · subst h0
      simp only [accepted, Nat.cast_zero, div_zero, lt_irrefl, false_and, iff_false, not_and]
      intro _ h
      obtain ⟨ix, hix⟩ := List.exists_mem_of_ne_nil _ hne
      exact absurd (h ix hix) (by simp)
    · have hp : (0 : K) < steps := by exact_mod_cast hpos
      have e1 : ∀ a : K, 0 < a / steps ↔ 0 < a := fun a => by
        rw [lt_div_iff₀ hp, zero_mul]
      have e2 : ∀ a b : K, a / steps + b / steps < 1 ↔ a + b < steps := fun a b => by
        rw [← add_div, div_lt_one hp]
      simp only [accepted, e1, e2, hpos, true_and]
      constructor
      · rintro ⟨a, b, c, d⟩; exact ⟨a, fun ix h => ⟨b ix h, c ix h, d ix h⟩⟩
      · rintro ⟨a, b⟩
        exact ⟨a, fun ix h => (b ix h).1, fun ix h => (b ix h).2.1, fun ix h => (b ix h).2.2⟩
  unfold markovMatrix
  by_cases ha : accepted steps sh1 sh2 p1 p2
  · by_cases hs : size = 0
    · simp [ha, hs]
    · simp only [ha, hs, if_true, if_false]
      exact ⟨fun _ => ⟨Nat.pos_of_ne_zero hs, hacc.1 ha⟩, fun _ => ⟨_, rfl⟩⟩
  · simp only [ha, if_false]
    exact ⟨fun ⟨R, h⟩ => by simp at h, fun h => absurd (hacc.2 h.2) ha⟩

/-- A call that is accepted: 3×3 frames, 4 steps, uneven skew, two parameter entries. -/
example : ∃ R, markovMatrix (K := ℚ) 3 4 (fun x y => if x = 1 ∧ y = 0 then 1 / 2 else 1) [2] [2]
    (fun ix => if ix = [0] then 1 else 2) (fun _ => 3 / 2) = .ok R :=
  (C34_accepted_iff (by decide)).2 (by decide +kernel)

example : ∃ R, markovVector (K := ℚ) 3 4 (fun x => if x = 1 then 1 / 2 else 1) [2] [2]
    (fun ix => if ix = [0] then 1 else 2) (fun _ => 3 / 2) = .ok R := by
  refine ⟨_, if_neg (by decide) |>.trans (if_pos (by decide +kernel))⟩

end basic

/-! ## C35 -/

section steps
variable {K : Type} [Field K]

/-- C35: one sweep of the in-place loops of `MarkovMatrix` is one step of the walk in which both
counters see the state at the beginning of the step. -/
theorem C35_matrix_sweep_is_one_step (size : Nat) (skew : Mat K) (s1 s2 : K) (M : Mat K)
    {a b : Nat} (ha : a < size) (hb : b < size) :
    mmSweep size (mmCell size skew s1 s2) M a b = walk2Step size skew s1 s2 M a b :=
  mmSweep_step size skew s1 s2 M ha hb

/-- C35: the value returned by `MarkovMatrix` is the distribution of the walk after `steps` steps. -/
theorem C35_matrix_is_walk (size steps : Nat) (skew : Mat K) (p1 p2 : K)
    {a b : Nat} (ha : a < size) (hb : b < size) :
    mmFrame size steps skew p1 p2 a b =
      walk2Dist size skew (p1 / steps) (p2 / steps) steps a b :=
  mm_dist _ _ _ _ _ ha hb

/-- C35: one sweep of `MarkovVector` (with its carried variable). -/
theorem C35_vector_sweep_is_one_step {size : Nat} (hs : 0 < size) (skew : Vec K) (s1 s2 : K)
    (M : Vec K) {a : Nat} (ha : a < 2 * size - 1) :
    mvSweep size skew s1 s2 M a = walk1Step size skew s1 s2 M a :=
  mvSweep_step hs skew s1 s2 M ha

/-- C35: the value returned by `MarkovVector`. -/
theorem C35_vector_is_walk {size : Nat} (hs : 0 < size) (steps : Nat) (skew : Vec K) (p1 p2 : K)
    {a : Nat} (ha : a < 2 * size - 1) :
    mvFrame size steps skew p1 p2 a =
      walk1Dist size skew (p1 / steps) (p2 / steps) steps a :=
  mv_dist hs _ _ _ _ ha

/-- C35: and the frames of both functions are those. -/
theorem C35_frames [LinearOrder K] {size steps : Nat} {sh1 sh2 : List Nat} {p1 p2 : List Nat → K} :
    (∀ {skew : Mat K} {R}, markovMatrix size steps skew sh1 sh2 p1 p2 = .ok R →
      ∀ ix, ∀ a < size, ∀ b < size, R ix a b =
        walk2Dist size skew (p1 ix / steps) (p2 ix / steps) steps a b) ∧
    (∀ {skew : Vec K} {R}, markovVector size steps skew sh1 sh2 p1 p2 = .ok R →
      ∀ ix, ∀ a < 2 * size - 1, R ix a =
        walk1Dist size skew (p1 ix / steps) (p2 ix / steps) steps a) := by
  constructor
  · intro skew R h ix a ha b hb
    unfold markovMatrix at h
    split_ifs at h
    cases h
    exact C35_matrix_is_walk _ _ _ _ _ ha hb
  · intro skew R h ix a ha
    unfold markovVector at h
    split_ifs at h with hs
    cases h
    exact C35_vector_is_walk (Nat.pos_of_ne_zero hs) _ _ _ _ ha

/-- The order of the loops matters: sweeping the cells of a 2×2 frame in increasing order moves
probability twice in one sweep. -/
example : [(0, 0), (0, 1), (1, 0), (1, 1)].foldl
      (fun M (c : Nat × Nat) => mmCell (K := ℚ) 2 (fun _ _ => 1) (1 / 4) (1 / 4) M c.1 c.2) mmStart 1 1 ≠
    walk2Step 2 (fun _ _ => 1) (1 / 4) (1 / 4) mmStart 1 1 := by
  decide +kernel

end steps

/-! ## C36 -/

theorem scale_deriv {n : ℝ} {S : ℝ → VState ℝ} {v1 v2 t : ℝ} (h : NDeriv S (v1 / n) (v2 / n) t) :
    NDeriv (fun t => ⟨(S t).M, (S t).D1 / n, (S t).D2 / n, (S t).H11 / (n * n), (S t).H12 / (n * n),
      (S t).H22 / (n * n)⟩) v1 v2 t := by
  refine ⟨h.M.congr_deriv ?_, (h.D1.div_const n).congr_deriv ?_, (h.D2.div_const n).congr_deriv ?_⟩ <;>
  · simp only [div_eq_mul_inv, mul_inv]
    ring

/-- C36: along every differentiable curve of parameters the arrays returned by `MarkovMatrix.eval`
are the value and its first and second derivatives, when `skew[x, y] = skew[y, x]` (in particular for
the default skew). -/
theorem C36_matrix_curve_partial {size steps : Nat} {skew : Mat ℝ}
    (hsym : ∀ x < size, ∀ y < size, skew x y = skew y x)
    {p1 p2 : ℝ → ℝ} {v1 v2 t : ℝ} (h1 : HasDerivAt p1 v1 t) (h2 : HasDerivAt p2 v2 t) (x y : Nat) :
    NDeriv (fun t => (mmEvalFrame size steps skew (p1 t) (p2 t)).at x y) v1 v2 t := by
  have := fixedLoop_deriv (size := size) (steps := steps) (skew := skew)
    (h1.div_const (steps : ℝ)) (h2.div_const (steps : ℝ)) x y
  simp only [← mmEvalLoop_eq_fixed _ _ _ _ _ hsym] at this
  exact scale_deriv this

/-- C36: `MarkovVector.eval`, every skew. -/
theorem C36_vector_curve {size steps : Nat} {skew : Vec ℝ}
    {p1 p2 : ℝ → ℝ} {v1 v2 t : ℝ} (h1 : HasDerivAt p1 v1 t) (h2 : HasDerivAt p2 v2 t) (x : Nat) :
    NDeriv (fun t => (mvEvalFrame size steps skew (p1 t) (p2 t)).at x) v1 v2 t :=
  scale_deriv (mvEvalLoop_deriv (size := size) (steps := steps) (skew := skew)
    (h1.div_const (steps : ℝ)) (h2.div_const (steps : ℝ)) x)

/-- C36: the first derivatives and the two pure second derivatives of `MarkovMatrix.eval` are right
for every skew. -/
theorem C36_matrix_grad_and_diagonal (size steps : Nat) (skew : Mat ℝ) (p1 p2 : ℝ) (x y : Nat) :
    HasDerivAt (fun t => mmFrame size steps skew t p2 x y)
      ((mmEvalFrame size steps skew p1 p2).D1 x y) p1 ∧
    HasDerivAt (fun t => mmFrame size steps skew p1 t x y)
      ((mmEvalFrame size steps skew p1 p2).D2 x y) p2 ∧
    HasDerivAt (fun t => (mmEvalFrame size steps skew t p2).D1 x y)
      ((mmEvalFrame size steps skew p1 p2).H11 x y) p1 ∧
    HasDerivAt (fun t => (mmEvalFrame size steps skew p1 t).D2 x y)
      ((mmEvalFrame size steps skew p1 p2).H22 x y) p2 := by
  have k1 := scale_deriv (fixedLoop_deriv (size := size) (steps := steps) (skew := skew)
    ((hasDerivAt_id p1).div_const (steps : ℝ)) ((hasDerivAt_const p1 p2).div_const (steps : ℝ)) x y)
  have k2 := scale_deriv (fixedLoop_deriv (size := size) (steps := steps) (skew := skew)
    ((hasDerivAt_const p2 p1).div_const (steps : ℝ)) ((hasDerivAt_id p2).div_const (steps : ℝ)) x y)
  have hs := fun a b => mmEvalLoop_sameBut size steps skew a b
  have hM : ∀ a b : ℝ, mmFrame size steps skew a b =
      (fixedLoop size steps skew (a / steps) (b / steps)).M := fun a b => by
    rw [← (hs _ _).1, mmEvalLoop_M]; rfl
  simp only [hM, mmEvalFrame, (hs _ _).2.1, (hs _ _).2.2.1, (hs _ _).2.2.2.1, (hs _ _).2.2.2.2]
  refine ⟨k1.M.congr_deriv ?_, k2.M.congr_deriv ?_, k1.D1.congr_deriv ?_, k2.D2.congr_deriv ?_⟩ <;>
  simp [MState.at]

/-- C36: the value returned by `eval` is the one returned by the call. -/
theorem C36_eval_value {K : Type} [Field K] (size steps : Nat) (p1 p2 : K) :
    (∀ skew, (mmEvalFrame size steps skew p1 p2).M = mmFrame size steps skew p1 p2) ∧
    (∀ skew, (mvEvalFrame size steps skew p1 p2).M = mvFrame size steps skew p1 p2) :=
  ⟨fun skew => mmEvalLoop_M size steps skew _ _, fun skew => mvEvalLoop_M size steps skew _ _⟩

theorem pairwise_ok {ι : Type} [Fintype ι] [DecidableEq ι] {src : ι → ι} {φ : ι → ℝ → ℝ → ℝ}
    {ψ : ι → ℝ → ℝ → VState ℝ} (hφ : ∀ c a b, φ c a b = (ψ c a b).M)
    (h : ∀ c (p1 p2 : ℝ → ℝ) v1 v2 t, HasDerivAt p1 v1 t → HasDerivAt p2 v2 t →
      NDeriv (fun t => ψ c (p1 t) (p2 t)) v1 v2 t) (θ : Prm ι) :
    AtomOk 2 (pairwise src φ ψ) θ := by
  have hcurve : ∀ {γ : ℝ → Prm ι} {v : Prm ι} {t : ℝ}, CurveAt 2 γ v t θ → ∀ c,
      NDeriv (fun t => ψ c (γ t 0 (src c)) (γ t 1 (src c))) (v 0 (src c)) (v 1 (src c)) t :=
    fun hγ c => h c _ _ _ _ _ (hγ.2 0 (by omega) (src c)) (hγ.2 1 (by omega) (src c))
  refine ⟨fun γ v t hγ c => ?_, ⟨fun γ v t hγ i hi e c => ?_, fun i _ e e' c => ?_⟩,
    ⟨fun hg => by simp [pairwise] at hg, fun hg => by simp [pairwise] at hg⟩, fun θ' => ?_⟩
  · have hN := (hcurve hγ c).M
    simp only [pairwise, hφ]
    refine hN.congr_deriv ?_
    simp [Finset.sum_range_succ, hγ.1]
  · have hN := hcurve hγ c
    by_cases he : e = src c
    · simp only [pairwise, he, if_true]
      have hi' : i = 0 ∨ i = 1 := by omega
      rcases hi' with rfl | rfl
      · refine hN.D1.congr_deriv ?_
        simp [Finset.sum_range_succ, Verif.Func.fullHess, hγ.1]
      · simp only [Nat.one_ne_zero, if_false]
        refine hN.D2.congr_deriv ?_
        simp [Finset.sum_range_succ, Verif.Func.fullHess, hγ.1]
    · simp only [pairwise, he, if_false]
      refine (hasDerivAt_const t (0 : ℝ)).congr_deriv ?_
      simp [Verif.Func.fullHess, he]
  · simp only [pairwise, and_comm]
  · exact ⟨_, rfl, fun c => (hφ ..).symm, fun _ _ _ _ => rfl, fun _ _ _ _ _ _ _ => rfl⟩

/-- C36: `MarkovVector` is a correct Func of two parameters (gradients, Hessians, `eval`). -/
theorem C36_vector_atom {ι : Type} [Fintype ι] [DecidableEq ι] (size steps : Nat) (skew : Vec ℝ)
    (src : ι → ι) (pos : ι → Nat) (θ : Prm ι) :
    AtomOk 2 (markovVectorFn size steps skew src pos) θ :=
  pairwise_ok (fun c a b => by
      simp only [VState.at]; rw [(C36_eval_value size steps a b).2])
    (fun c p1 p2 v1 v2 t h1 h2 => C36_vector_curve h1 h2 _) θ

/-- C36: `MarkovMatrix` with a symmetric skew is a correct Func of two parameters.  (For an
asymmetric skew the mixed second derivative is wrong, `C36_matrix_mixed_counterexample`.) -/
theorem C36_matrix_atom_partial {ι : Type} [Fintype ι] [DecidableEq ι] {size : Nat} (steps : Nat)
    {skew : Mat ℝ} (hsym : ∀ x < size, ∀ y < size, skew x y = skew y x)
    (src : ι → ι) (row col : ι → Nat) (θ : Prm ι) :
    AtomOk 2 (markovMatrixFn size steps skew src row col) θ :=
  pairwise_ok (fun c a b => by
      simp only [MState.at]; rw [(C36_eval_value size steps a b).1])
    (fun c p1 p2 v1 v2 t h1 h2 => C36_matrix_curve_partial hsym h1 h2 _ _) θ

/-- Default skew, positions `(entry, x, y)` of a 2-entry parameter and 3×3 frames. -/
example : AtomOk 2 (markovMatrixFn (ι := Fin 2 × Fin 3 × Fin 3) 3 18 (fun _ _ => 1)
    (fun c => (c.1, 0, 0)) (fun c => c.2.1) (fun c => c.2.2)) (fun _ _ => 2) :=
  C36_matrix_atom_partial 18 (fun _ _ _ _ => rfl) _ _ _ _

/-- The mixed second derivative of the value is what the corrected loop computes. -/
theorem mixed_true (size steps : Nat) (skew : Mat ℝ) (p1 p2 : ℝ) (x y : Nat) :
    HasDerivAt (fun t => (mmEvalFrame size steps skew p1 t).D1 x y)
      ((fixedLoop size steps skew (p1 / steps) (p2 / steps)).H12 x y / (steps * steps)) p2 := by
  have k2 := (scale_deriv (fixedLoop_deriv (size := size) (steps := steps) (skew := skew)
    ((hasDerivAt_const p2 p1).div_const (steps : ℝ)) ((hasDerivAt_id p2).div_const (steps : ℝ)) x y)).D1
  have hs := fun a b => mmEvalLoop_sameBut size steps skew a b
  simp only [mmEvalFrame, (hs _ _).2.1]
  refine k2.congr_deriv ?_
  simp [MState.at]

/-- C36: when the mixed second derivative returned by `MarkovMatrix.eval` is right. -/
theorem C36_matrix_mixed_iff {size steps : Nat} (h : 0 < steps) (skew : Mat ℝ) (p1 p2 : ℝ)
    (x y : Nat) :
    HasDerivAt (fun t => (mmEvalFrame size steps skew p1 t).D1 x y)
      ((mmEvalFrame size steps skew p1 p2).H12 x y) p2 ↔
    (mmEvalLoop size steps skew (p1 / steps) (p2 / steps)).H12 x y =
      (fixedLoop size steps skew (p1 / steps) (p2 / steps)).H12 x y := by
  have ht := mixed_true size steps skew p1 p2 x y
  have hne : (steps : ℝ) * steps ≠ 0 := by
    have : (steps : ℝ) ≠ 0 := by exact_mod_cast h.ne'
    exact mul_ne_zero this this
  constructor
  · intro hb
    have := hb.unique ht
    exact (div_left_inj' hne).1 this
  · intro he
    refine ht.congr_deriv ?_
    rw [← he]; rfl

/-- The skew of the counterexample: zero at `(1, 0)`, one elsewhere. -/
def badSkew (K : Type) [Field K] : Mat K := fun x y => if x = 1 ∧ y = 0 then 0 else 1

theorem badSkew_cast : badSkew ℝ = fun a b => (Rat.castHom ℝ) (badSkew ℚ a b) := by
  funext a b
  unfold badSkew
  split_ifs <;> simp

/-- C36: for an asymmetric skew the mixed second derivative returned by `MarkovMatrix.eval` is not
the derivative of the returned gradient: 3×3 frames, 3 steps, `skew` zero at `(1, 0)`, one elsewhere,
parameters `3/4, 3/4`, cell `(0, 1)`. -/
theorem C36_matrix_mixed_counterexample :
    ¬ HasDerivAt (fun t => (mmEvalFrame 3 3 (badSkew ℝ) (3 / 4) t).D1 0 1)
      ((mmEvalFrame 3 3 (badSkew ℝ) (3 / 4) (3 / 4)).H12 0 1) (3 / 4) := by
  rw [C36_matrix_mixed_iff (by norm_num)]
  have h34 : (3 / 4 : ℝ) / ((3 : ℕ) : ℝ) = Rat.castHom ℝ (1 / 4) := by
    simp; norm_num
  rw [h34, badSkew_cast]
  unfold mmEvalLoop fixedLoop
  rw [loop_map (Rat.castHom ℝ) _ _ (fun S x y => mmEvalCell_map (Rat.castHom ℝ) 3
      (badSkew ℚ) (1 / 4) (1 / 4) S x y) 3 3,
    loop_map (Rat.castHom ℝ) _ _ (fun S x y => fixedCell_map (Rat.castHom ℝ) 3
      (badSkew ℚ) (1 / 4) (1 / 4) S x y) 3 3]
  have hne : (mmEvalLoop 3 3 (badSkew ℚ) (1 / 4 : ℚ) (1 / 4)).H12 0 1 ≠
      (fixedLoop 3 3 (badSkew ℚ) (1 / 4 : ℚ) (1 / 4)).H12 0 1 := by
    decide +kernel
  intro h
  exact hne ((Rat.castHom ℝ).injective h)

/-- C36: the update that would be right for every skew (`f1 * dm2 + f2 * dm1` on the diagonal). -/
theorem C36_matrix_repaired {size steps : Nat} {skew : Mat ℝ} {s1 s2 : ℝ → ℝ} {v1 v2 t : ℝ}
    (h1 : HasDerivAt s1 v1 t) (h2 : HasDerivAt s2 v2 t) (x y : Nat) :
    NDeriv (fun t => (fixedLoop size steps skew (s1 t) (s2 t)).at x y) v1 v2 t :=
  fixedLoop_deriv h1 h2 x y

/-! ## C37 -/

section collapse
variable {K : Type} [Field K]

/-- C37: `CollapseMatrix()` returns the weight below (row > column), on and above (row < column) the
diagonal. -/
theorem C37_default_three_sums (h w : Nat) (arr : Mat K) :
    collapseCall none h w arr = .ok
      [∑ i ∈ range h, ∑ j ∈ range w with j < i, arr i j,
       ∑ i ∈ range h, ∑ j ∈ range w with j = i, arr i j,
       ∑ i ∈ range h, ∑ j ∈ range w with i < j, arr i j] := by
  simp only [collapseCall, collapseInit, List.map_cons, List.map_nil, collapseSum, Finset.sum_filter]
  have key : ∀ (q : Cond) (P : Nat → Nat → Prop) [∀ i j, Decidable (P i j)],
      (∀ i j, q.holds i j = true ↔ P i j) →
      ∑ i ∈ range h, ∑ j ∈ range w, arr i j * (if q.holds i j then 1 else 0) =
      ∑ i ∈ range h, ∑ j ∈ range w, if P i j then arr i j else 0 := by
    intro q P _ hq
    refine Finset.sum_congr rfl fun i _ => Finset.sum_congr rfl fun j _ => ?_
    by_cases hp : P i j
    · rw [if_pos hp, if_pos ((hq i j).2 hp), mul_one]
    · rw [if_neg hp, if_neg (fun h => hp ((hq i j).1 h)), mul_zero]
  rw [key ⟨1, -1, 0, 1⟩ (fun i j => j < i), key ⟨1, -1, 0, 0⟩ (fun i j => j = i),
    key ⟨1, -1, 0, -1⟩ (fun i j => i < j)]
  · intro i j
    simp only [Cond.holds, beq_iff_eq, Int.sign_eq_neg_one_iff_neg]
    omega
  · intro i j
    simp only [Cond.holds, beq_iff_eq, Int.sign_eq_zero_iff_zero]
    omega
  · intro i j
    simp only [Cond.holds, beq_iff_eq, Int.sign_eq_one_iff_pos]
    omega

/-- C37: the three values sum to the total of the frame. -/
theorem C37_default_total {h w : Nat} {arr : Mat K} {r : List K}
    (hr : collapseCall none h w arr = .ok r) :
    r.sum = ∑ i ∈ range h, ∑ j ∈ range w, arr i j := by
  rw [C37_default_three_sums] at hr
  cases hr
  simp only [List.sum_cons, List.sum_nil, add_zero, Finset.sum_filter, ← Finset.sum_add_distrib]
  refine Finset.sum_congr rfl fun i _ => Finset.sum_congr rfl fun j _ => ?_
  rcases Nat.lt_trichotomy i j with h | h | h
  · simp [h, h.ne', Nat.lt_asymm h]
  · simp [h]
  · simp [h, h.ne, Nat.lt_asymm h]

/-- C37: the gradient is right: changing the frame changes each of the three values by the gradient
times the change (the function is linear, and its Hessian is null). -/
theorem C37_default_grad (h w : Nat) (arr d : Mat K) :
    ∃ g r r', collapseGrad (K := K) none = .ok g ∧ collapseCall none h w arr = .ok r ∧
      collapseCall none h w (fun i j => arr i j + d i j) = .ok r' ∧ g.length = 3 ∧
      ∀ (k : Nat), k < 3 → r'.getD k 0 - r.getD k 0 =
        ∑ i ∈ range h, ∑ j ∈ range w, g.getD k (fun _ _ => 0) i j * d i j := by
  refine ⟨_, _, _, rfl, rfl, rfl, rfl, fun k hk => ?_⟩
  have hlin : ∀ q : Cond, collapseSum h w (fun i j => arr i j + d i j) q - collapseSum h w arr q =
      ∑ i ∈ range h, ∑ j ∈ range w, (1 * if q.holds i j then 1 else 0) * d i j := by
    intro q
    unfold collapseSum
    rw [← Finset.sum_sub_distrib]
    refine Finset.sum_congr rfl fun i _ => ?_
    rw [← Finset.sum_sub_distrib]
    refine Finset.sum_congr rfl fun j _ => ?_
    ring
  have : k = 0 ∨ k = 1 ∨ k = 2 := by omega
  rcases this with rfl | rfl | rfl <;> exact hlin _

/-- C37: user supplied conditions are not honoured: `__init__` does not store them and every call
raises `AttributeError`. -/
theorem C37_custom_conditions_counterexample (qs : List Cond) (h w : Nat) (arr : Mat K) :
    collapseCall (some qs) h w arr = .error .attribute ∧
      collapseGrad (K := K) (some qs) = .error .attribute :=
  ⟨rfl, rfl⟩

/-- C37, the part of the claim that holds. -/
theorem C37_partition_partial (h w : Nat) (arr : Mat K) :
    ∃ a b c, collapseCall none h w arr = .ok [a, b, c] ∧
      a = ∑ i ∈ range h, ∑ j ∈ range w with j < i, arr i j ∧
      b = ∑ i ∈ range h, ∑ j ∈ range w with j = i, arr i j ∧
      c = ∑ i ∈ range h, ∑ j ∈ range w with i < j, arr i j ∧
      a + b + c = ∑ i ∈ range h, ∑ j ∈ range w, arr i j := by
  refine ⟨_, _, _, C37_default_three_sums h w arr, rfl, rfl, rfl, ?_⟩
  have := C37_default_total (C37_default_three_sums h w arr)
  simpa [add_assoc] using this

example : collapseCall (K := ℚ) none 3 3 (fun i j => 1 + i + 10 * j) = .ok [18, 36, 54] := by
  norm_num [collapseCall, collapseInit, collapseSum, Finset.sum_range_succ, Cond.holds]

/-- C37: for at most two feature axes the gradient has one size-1 axis per feature, the two frame
axes, the features in order, and the three conditions. -/
theorem C37_grad_layout {features : List Nat} (hf : features.length ≤ 2) (h w k : Nat) :
    collapseGradShape features h w k =
      List.replicate features.length 1 ++ [h, w] ++ features ++ [k] := by
  match features, hf with
  | [], _ => rfl
  | [a], _ => rfl
  | [a, b], _ => rfl

/-- C37: with more feature axes they come out rotated by two positions, so the gradient does not
match the parameters (unless the sizes happen to agree). -/
theorem C37_grad_layout_rotated (a b : Nat) (rest : List Nat) (h w k : Nat) :
    collapseGradShape (a :: b :: rest) h w k =
      List.replicate (rest.length + 2) 1 ++ [h, w] ++ (a :: b :: rest).rotate 2 ++ [k] := by
  have hr : (a :: b :: rest).rotate 2 = rest ++ [a, b] := by
    rw [List.rotate_eq_drop_append_take (by simp)]
    rfl
  rw [hr]
  unfold collapseGradShape swapaxesShape
  simp [List.getD, List.set_append_right]

example : collapseGradShape [2, 3, 5] 4 4 3 = [1, 1, 1, 4, 4, 5, 2, 3, 3] := by decide

end collapse

end Verif.Markov
