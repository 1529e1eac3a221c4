import Verif.Props.Observations
import Mathlib.Analysis.Analytic.Binomial
import Mathlib.Analysis.SpecialFunctions.Exponential
import Mathlib.Tactic.FinCases

/-!
# C75: the probabilities of the specification add up to 1
-/

namespace Verif.Tens

section
variable {κ υ : Type} [Fintype κ] [Fintype υ]

theorem hasSum_exp (x : ℝ) : HasSum (fun n : ℕ => x ^ n / n.factorial) (Real.exp x) := by
  rw [Real.exp_eq_exp_ℝ]
  exact NormedSpace.expSeries_div_hasSum_exp (𝔸 := ℝ) x

theorem gamma_rising {r : ℝ} (hr : 0 < r) (n : ℕ) : Real.Gamma (n + r) = (ascPochhammer ℝ n).eval r * Real.Gamma r := by
  induction n with
  | zero => simp
  | succ n ih =>
    rw [ascPochhammer_succ_eval, show ((n + 1 : ℕ) : ℝ) + r = (n + r) + 1 by push_cast; ring, Real.Gamma_add_one (by positivity), ih]
    ring

theorem choose_gamma {r : ℝ} (hr : 0 < r) (n : ℕ) : Ring.choose (r + n - 1) n = Real.Gamma (n + r) / (Real.Gamma r * n.factorial) := by
  have h1 : Ring.choose (r + n - 1) n = Ring.multichoose r n := by
    unfold Ring.choose
    congr 1; ring
  have h2 := Ring.factorial_nsmul_multichoose_eq_ascPochhammer r n
  rw [Polynomial.ascPochhammer_smeval_eq_eval, nsmul_eq_mul] at h2
  have h3 : (n.factorial : ℝ) ≠ 0 := by exact_mod_cast n.factorial_ne_zero
  have h4 : Real.Gamma r ≠ 0 := (Real.Gamma_pos_of_pos hr).ne'
  rw [h1, gamma_rising hr, ← h2]
  field_simp

theorem hasSum_nb {r : ℝ} (hr : 0 < r) {q : ℝ} (h0 : 0 ≤ q) (h1 : q < 1) :
    HasSum (fun n : ℕ => Real.Gamma (n + r) / (Real.Gamma r * n.factorial) * q ^ n) (1 / (1 - q) ^ r) := by
  have h := (Real.one_div_one_sub_rpow_hasFPowerSeriesOnBall_zero r).hasSum (y := q) (by
    simp [enorm_eq_nnnorm]
    rw [← NNReal.coe_lt_coe]
    simpa [abs_of_nonneg h0] using h1)
  simp only [zero_add] at h
  refine (congrArg (fun f => HasSum f _) (funext fun n => ?_)).mp h
  rw [FormalMultilinearSeries.ofScalars_apply_eq, smul_eq_mul, choose_gamma hr]

/-- **C75.** The log-probabilities of the specification are logarithms of probabilities: of the counts 0, 1, … for `Poisson`, `ZeroInflatedPoisson(s)` with `s > 0` and
`NegativeBinomial(r)` with `r > 0`, of 0 and 1 for `Logistic`, of the outcomes for `Finite` (for `NormalizedFinite` if the values of the model are probabilities). -/
theorem C75_probabilities (y : κ × υ → ℝ) (c : κ × υ) :
    HasSum (fun v => Real.exp (Kind.logProb .poisson y c v)) 1 ∧
    (∀ s, 0 < s → HasSum (fun v => Real.exp (Kind.logProb (.zeroInflatedPoisson s) y c v)) 1) ∧
    (∀ r, 0 < r → HasSum (fun v => Real.exp (Kind.logProb (.negativeBinomial r) y c v)) 1) ∧
    Real.exp (Kind.logProb .logistic y c 0) + Real.exp (Kind.logProb .logistic y c 1) = 1 ∧
    ((∀ u, 0 < y (c.1, u)) → ∀ d, ∑ u, Real.exp (Kind.logProb (.finite d) y (c.1, u) 0) = 1) ∧
    ((∀ u, 0 < y (c.1, u)) → ∑ u, y (c.1, u) = 1 → ∀ d, ∑ u, Real.exp (Kind.logProb (.normalizedFinite d) y (c.1, u) 0) = 1) := by
  refine ⟨?_, fun s hs => ?_, fun r hr => ?_, ?_, fun hy d => ?_, fun hy h1 d => ?_⟩
  · have h := (hasSum_exp (Real.exp (y c))).mul_left (Real.exp (-Real.exp (y c)))
    rw [← Real.exp_add, neg_add_cancel, Real.exp_zero] at h
    refine (congrArg (fun f => HasSum f (1 : ℝ)) (funext fun v => ?_)).mp h
    have : (0 : ℝ) < v.factorial := by exact_mod_cast v.factorial_pos
    unfold Kind.logProb
    dsimp only
    rw [Real.exp_log (by positivity)]
    ring
  · have hz := zip_pos hs.le (y c)
    have h := ((hasSum_exp (Real.exp (y c))).update 0 s).div_const (Real.exp (Real.exp (y c)) + s - 1)
    have e : (s - Real.exp (y c) ^ 0 / (Nat.factorial 0 : ℕ) + Real.exp (Real.exp (y c))) / (Real.exp (Real.exp (y c)) + s - 1) = 1 := by
      rw [div_eq_one_iff_eq hz.ne']; simp; ring
    rw [e] at h
    refine (congrArg (fun f => HasSum f (1 : ℝ)) (funext fun v => ?_)).mp h
    have : (0 : ℝ) < v.factorial := by exact_mod_cast v.factorial_pos
    unfold Kind.logProb
    dsimp only
    rw [Real.exp_log (by split_ifs <;> positivity)]
    by_cases hv : v = 0
    · subst hv; simp
    · rw [if_neg hv, Function.update_of_ne hv]
  · have h0 : 0 < r + Real.exp (y c) := by positivity
    have hq : Real.exp (y c) / (r + Real.exp (y c)) < 1 := by rw [div_lt_one h0]; linarith
    have h := (hasSum_nb hr (q := Real.exp (y c) / (r + Real.exp (y c))) (by positivity) hq).mul_left ((r / (r + Real.exp (y c))) ^ r)
    have e : 1 - Real.exp (y c) / (r + Real.exp (y c)) = r / (r + Real.exp (y c)) := by field_simp; ring
    rw [e, mul_one_div_cancel (by positivity)] at h
    refine (congrArg (fun f => HasSum f (1 : ℝ)) (funext fun v => ?_)).mp h
    have h3 : (0 : ℝ) < v.factorial := by exact_mod_cast v.factorial_pos
    have h4 : 0 < Real.Gamma (v + r) := Real.Gamma_pos_of_pos (by positivity)
    have h5 : 0 < Real.Gamma r := Real.Gamma_pos_of_pos hr
    unfold Kind.logProb
    dsimp only
    rw [Real.exp_log (by positivity)]
    ring
  · unfold Kind.logProb
    dsimp only
    have h0 : 0 < 1 + Real.exp (-y c) := by positivity
    have h1 : 1 - 1 / (1 + Real.exp (-y c)) = Real.exp (-y c) / (1 + Real.exp (-y c)) := by field_simp; ring
    rw [if_pos rfl, if_neg one_ne_zero, Real.exp_log (by rw [h1]; positivity), Real.exp_log (by positivity)]
    ring
  · have hs : 0 < ∑ u, y (c.1, u) := Finset.sum_pos (fun u _ => hy u) ⟨c.2, Finset.mem_univ _⟩
    unfold Kind.logProb
    dsimp only
    simp only [Real.exp_sub, Real.exp_log hs, Real.exp_log (hy _)]
    rw [← Finset.sum_div, div_self hs.ne']
  · unfold Kind.logProb
    dsimp only
    simp only [Real.exp_log (hy _)]
    exact h1

end

end Verif.Tens
