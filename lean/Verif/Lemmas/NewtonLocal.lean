import Verif.Spec.Concave
import Mathlib.Analysis.Calculus.Deriv.MeanValue
import Mathlib.Topology.Order.Basic

/-!
# Lemmas for C78: one Newton step near the maximum, cell by cell
-/

namespace Verif.Tens

/-- The mean value theorem from `t` to `t + d`. -/
theorem mean_value {f f' : ℝ → ℝ} (h : ∀ t, HasDerivAt f (f' t) t) (t d : ℝ) : ∃ s, 0 ≤ s ∧ s ≤ 1 ∧ f (t + d) - f t = f' (t + s * d) * d := by
  have hg : ∀ s : ℝ, HasDerivAt (fun s => f (t + s * d)) (f' (t + s * d) * d) s := by
    intro s
    have h1 : HasDerivAt (fun s : ℝ => t + s * d) d s := by
      have := ((hasDerivAt_id s).mul_const d).const_add t
      simpa using this
    exact (h (t + s * d)).comp s h1
  obtain ⟨s, ⟨s1, s2⟩, e⟩ := exists_hasDerivAt_eq_slope (fun s => f (t + s * d)) (fun s => f' (t + s * d) * d) zero_lt_one
    (fun s _ => (hg s).continuousAt.continuousWithinAt) fun s _ => hg s
  refine ⟨s, s1.le, s2.le, ?_⟩
  rw [e]
  simp

section
variable {ι : Type} {l l1 w : ι → ℝ → ℝ}

/-- The first derivative from `t` to `t + d`. -/
theorem slope_change (hl : ConcaveCells l l1 w) (c : ι) (t d : ℝ) : ∃ s, 0 ≤ s ∧ s ≤ 1 ∧ l1 c t - l1 c (t + d) = w c (t + s * d) * d := by
  obtain ⟨s, s1, s2, e⟩ := mean_value (hl.second c) t d
  exact ⟨s, s1, s2, by linarith⟩

/-- The gap between the tangent at `t` and the function, at `t + d`. -/
theorem gap_bounds (hl : ConcaveCells l l1 w) (c : ι) (t d : ℝ) {lo hi : ℝ} (h : ∀ s, 0 ≤ s → s ≤ 1 → lo ≤ w c (t + s * d) ∧ w c (t + s * d) ≤ hi) :
    lo / 2 * d ^ 2 ≤ l c t + l1 c t * d - l c (t + d) ∧ l c t + l1 c t * d - l c (t + d) ≤ hi / 2 * d ^ 2 := by
  have key : ∀ κ : ℝ, ∃ s s', 0 ≤ s ∧ s ≤ 1 ∧ 0 ≤ s' ∧ s' ≤ 1 ∧ l c t + l1 c t * d - l c (t + d) - κ / 2 * d ^ 2 = (w c (t + s' * d) - κ) * (s * d ^ 2) := by
    intro κ
    have hf : ∀ x, HasDerivAt (fun x => l c t + l1 c t * (x - t) - l c x - κ / 2 * (x - t) ^ 2) (l1 c t - l1 c x - κ * (x - t)) x := by
      intro x
      have h0 : HasDerivAt (fun x : ℝ => x - t) 1 x := (hasDerivAt_id x).sub_const t
      have h1 := ((h0.const_mul (l1 c t)).const_add (l c t)).sub (hl.first c x)
      have h2 := h1.sub ((h0.pow 2).const_mul (κ / 2))
      refine h2.congr_deriv ?_
      norm_num
      ring
    obtain ⟨s, s1, s2, e⟩ := mean_value hf t d
    obtain ⟨s', q1, q2, e'⟩ := slope_change hl c t (s * d)
    refine ⟨s, s' * s, s1, s2, mul_nonneg q1 s1, ?_, ?_⟩
    · nlinarith
    · rw [show t + s' * s * d = t + s' * (s * d) by ring]
      have e1 : l c t + l1 c t * d - l c (t + d) - κ / 2 * d ^ 2 = (l1 c t - l1 c (t + s * d) - κ * (s * d)) * d := by
        have := e
        simp only [add_sub_cancel_left, sub_self, mul_zero, add_zero] at this
        simpa using this
      rw [e1, e']
      ring
  constructor
  · obtain ⟨s, s', s1, s2, q1, q2, e⟩ := key lo
    have h1 := (h s' q1 q2).1
    have : 0 ≤ (w c (t + s' * d) - lo) * (s * d ^ 2) := mul_nonneg (by linarith) (by positivity)
    linarith
  · obtain ⟨s, s', s1, s2, q1, q2, e⟩ := key hi
    have h1 := (h s' q1 q2).2
    have : (w c (t + s' * d) - hi) * (s * d ^ 2) ≤ 0 := mul_nonpos_of_nonpos_of_nonneg (by linarith) (by positivity)
    linarith

/-- `r` bounds a neighbourhood of the numbers `ys` in which the second derivatives differ from those at `ys` by at most a tenth. -/
def Near (w : ι → ℝ → ℝ) (ys : ι → ℝ) (r : ℝ) : Prop := ∀ c t, (t - ys c) ^ 2 * w c (ys c) ≤ r → |w c t - w c (ys c)| ≤ w c (ys c) / 10

theorem near_exists [Finite ι] (hl : ConcaveCells l l1 w) (hc : ∀ c, Continuous (w c)) (hz : ∀ c t t', w c t = 0 → w c t' = 0) (ys : ι → ℝ) : ∃ r, 0 < r ∧ Near w ys r := by
  have h1 : ∀ c, ∃ r, 0 < r ∧ ∀ t, (t - ys c) ^ 2 * w c (ys c) ≤ r → |w c t - w c (ys c)| ≤ w c (ys c) / 10 := by
    intro c
    by_cases h0 : w c (ys c) = 0
    · refine ⟨1, one_pos, fun t _ => ?_⟩
      rw [h0, hz c _ t h0]
      simp
    · have hp : 0 < w c (ys c) := lt_of_le_of_ne (hl.nonneg c _) (Ne.symm h0)
      obtain ⟨δ, hδ, hd⟩ := Metric.continuous_iff.1 (hc c) (ys c) (w c (ys c) / 10) (by linarith)
      refine ⟨(δ / 2) ^ 2 * w c (ys c), by positivity, fun t ht => ?_⟩
      have : (t - ys c) ^ 2 ≤ (δ / 2) ^ 2 := le_of_mul_le_mul_right ht hp
      have h2 : |t - ys c| ≤ δ / 2 := abs_le_of_sq_le_sq this (by linarith)
      have := hd t (by rw [Real.dist_eq]; linarith)
      rw [Real.dist_eq] at this
      exact this.le
  choose r hr using h1
  cases isEmpty_or_nonempty ι with
  | inl h => exact ⟨1, one_pos, fun c => h.elim c⟩
  | inr h =>
    obtain ⟨c0, h0⟩ := Finite.exists_min r
    exact ⟨r c0, (hr c0).1, fun c t ht => (hr c).2 t (ht.trans (h0 c))⟩

theorem Near.mono {ys : ι → ℝ} {r r' : ℝ} (h : Near w ys r) (hr : r' ≤ r) : Near w ys r' := fun c t ht => h c t (ht.trans hr)

/-- All the points of the segment are near. -/
theorem Near.segment (hl : ConcaveCells l l1 w) {ys : ι → ℝ} {r : ℝ} (h : Near w ys r) {c : ι} {d : ℝ} (hd : w c (ys c) * d ^ 2 ≤ r) {s : ℝ} (h0 : 0 ≤ s) (h1 : s ≤ 1) :
    9 / 10 * w c (ys c) ≤ w c (ys c + s * d) ∧ w c (ys c + s * d) ≤ 11 / 10 * w c (ys c) := by
  have hw := hl.nonneg c (ys c)
  have : (ys c + s * d - ys c) ^ 2 * w c (ys c) ≤ r := by
    have e : (ys c + s * d - ys c) ^ 2 * w c (ys c) = s ^ 2 * (w c (ys c) * d ^ 2) := by ring
    rw [e]
    have : s ^ 2 ≤ 1 := by nlinarith
    have h2 : 0 ≤ w c (ys c) * d ^ 2 := by positivity
    nlinarith
  have := abs_le.1 (h c _ this)
  constructor <;> linarith

variable [Fintype ι]

/-- The second order form of the cells at `ys`. -/
def cellForm (w : ι → ℝ → ℝ) (ys d : ι → ℝ) : ℝ := ∑ c, w c (ys c) * d c ^ 2

theorem cellForm_nonneg (hl : ConcaveCells l l1 w) (ys d : ι → ℝ) : 0 ≤ cellForm w ys d :=
  Finset.sum_nonneg fun c _ => mul_nonneg (hl.nonneg c _) (sq_nonneg _)

theorem cellForm_le (hl : ConcaveCells l l1 w) (ys d : ι → ℝ) (c : ι) : w c (ys c) * d c ^ 2 ≤ cellForm w ys d :=
  Finset.single_le_sum (f := fun c => w c (ys c) * d c ^ 2) (fun c _ => mul_nonneg (hl.nonneg c _) (sq_nonneg _)) (Finset.mem_univ c)

/-- The log-likelihood near `ys`. -/
theorem cells_gap (hl : ConcaveCells l l1 w) {ys : ι → ℝ} {r : ℝ} (h : Near w ys r) {d : ι → ℝ} (hd : cellForm w ys d ≤ r) :
    9 / 20 * cellForm w ys d ≤ ∑ c, (l c (ys c) + l1 c (ys c) * d c - l c (ys c + d c)) ∧
      ∑ c, (l c (ys c) + l1 c (ys c) * d c - l c (ys c + d c)) ≤ 11 / 20 * cellForm w ys d := by
  unfold cellForm
  rw [Finset.mul_sum, Finset.mul_sum]
  have key : ∀ c, _ := fun c => gap_bounds hl c (ys c) (d c) (lo := 9 / 10 * w c (ys c)) (hi := 11 / 10 * w c (ys c)) fun s h0 h1 =>
    h.segment hl ((cellForm_le hl ys d c).trans hd) h0 h1
  constructor
  · exact Finset.sum_le_sum fun c _ => by have := (key c).1; linarith
  · exact Finset.sum_le_sum fun c _ => by have := (key c).2; linarith

/-- One Newton step: from the differences `a` to the differences `v` (`R` is the form of the penalties, at `v`). -/
theorem cells_step (hl : ConcaveCells l l1 w) {ys : ι → ℝ} {r : ℝ} (h : Near w ys r) {a v : ι → ℝ} (ha : cellForm w ys a ≤ r) {R : ℝ} (hR : 0 ≤ R)
    (hN : ∑ c, w c (ys c + a c) * (a c - v c) * (-v c) + 2 * R = ∑ c, (l1 c (ys c) - l1 c (ys c + a c)) * (-v c)) :
    cellForm w ys v + 2 * R ≤ 1 / 8 * cellForm w ys a := by
  have key : ∀ c, 8 / 10 * (w c (ys c) * v c ^ 2) - 1 / 10 * (w c (ys c) * a c ^ 2) ≤
      w c (ys c + a c) * (a c - v c) * (-v c) - (l1 c (ys c) - l1 c (ys c + a c)) * (-v c) := by
    intro c
    have hd := (cellForm_le hl ys a c).trans ha
    obtain ⟨s, s0, s1, e⟩ := slope_change hl c (ys c) (a c)
    have h1 := h.segment hl hd (zero_le_one) (le_refl 1)
    have h2 := h.segment hl hd s0 s1
    rw [one_mul] at h1
    rw [e]
    set W := w c (ys c)
    set W1 := w c (ys c + a c)
    set W2 := w c (ys c + s * a c)
    have hW : 0 ≤ W := hl.nonneg c _
    have e1 : W1 * (a c - v c) * (-v c) - W2 * a c * (-v c) = W1 * v c ^ 2 - (W1 - W2) * (a c * v c) := by ring
    rw [e1]
    have e2 : (W1 - W2) * (a c * v c) ≤ 1 / 10 * W * (a c ^ 2 + v c ^ 2) := by
      have b1 : |W1 - W2| ≤ 2 / 10 * W := abs_le.2 ⟨by linarith, by linarith⟩
      have b2 : |a c * v c| ≤ (a c ^ 2 + v c ^ 2) / 2 := by
        rw [abs_le]
        constructor <;> nlinarith [sq_nonneg (a c + v c), sq_nonneg (a c - v c)]
      calc (W1 - W2) * (a c * v c) ≤ |(W1 - W2) * (a c * v c)| := le_abs_self _
        _ = |W1 - W2| * |a c * v c| := abs_mul _ _
        _ ≤ 2 / 10 * W * ((a c ^ 2 + v c ^ 2) / 2) := mul_le_mul b1 b2 (abs_nonneg _) (by linarith)
        _ = _ := by ring
    nlinarith [sq_nonneg (v c), h1.1]
  have hs := Finset.sum_le_sum fun c (_ : c ∈ Finset.univ) => key c
  rw [Finset.sum_sub_distrib, Finset.sum_sub_distrib, ← Finset.mul_sum, ← Finset.mul_sum] at hs
  unfold cellForm
  have hv : 0 ≤ ∑ c, w c (ys c) * v c ^ 2 := cellForm_nonneg hl ys v
  linarith

end

end Verif.Tens
