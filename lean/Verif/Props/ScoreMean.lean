import Verif.Props.ObservationsProb
import Verif.Spec.Score

/-!
# C86: the means of the specification are the means of the probabilities
-/

namespace Verif.Tens

section
variable {κ υ : Type} [Fintype κ] [Fintype υ]

/-- The mean of numbers with the weights `f`, from those of the numbers after the first. -/
theorem hasSum_mean {f g : ℕ → ℝ} {a : ℝ} (h : HasSum g a) (e : ∀ n, ((n + 1 : ℕ) : ℝ) * f (n + 1) = g n) : HasSum (fun n : ℕ => (n : ℝ) * f n) a := by
  rw [← hasSum_nat_add_iff' 1]
  have : (fun n : ℕ => ((n + 1 : ℕ) : ℝ) * f (n + 1)) = g := funext e
  rw [this]
  simpa using h

/-- **C86.** `Kind.mean` is the mean of the observation with the probabilities of the class. -/
theorem C86_mean (y : κ × υ → ℝ) (c : κ × υ) :
    HasSum (fun v : ℕ => v * Real.exp (Kind.logProb .poisson y c v)) (Kind.mean .poisson (y c)) ∧
    (∀ s, 0 < s → HasSum (fun v : ℕ => v * Real.exp (Kind.logProb (.zeroInflatedPoisson s) y c v)) (Kind.mean (.zeroInflatedPoisson s) (y c))) ∧
    (∀ r, 0 < r → HasSum (fun v : ℕ => v * Real.exp (Kind.logProb (.negativeBinomial r) y c v)) (Kind.mean (.negativeBinomial r) (y c))) ∧
    0 * Real.exp (Kind.logProb .logistic y c 0) + 1 * Real.exp (Kind.logProb .logistic y c 1) = Kind.mean .logistic (y c) := by
  have fac : ∀ n : ℕ, (0 : ℝ) < n.factorial := fun n => by exact_mod_cast n.factorial_pos
  refine ⟨?_, fun s hs => ?_, fun r hr => ?_, ?_⟩
  · have h := (hasSum_exp (Real.exp (y c))).mul_left (Real.exp (-Real.exp (y c)) * Real.exp (y c))
    have e : Real.exp (-Real.exp (y c)) * Real.exp (y c) * Real.exp (Real.exp (y c)) = Kind.mean .poisson (y c) := by
      unfold Kind.mean
      rw [mul_right_comm, ← Real.exp_add, neg_add_cancel, Real.exp_zero, one_mul]
    rw [e] at h
    refine hasSum_mean h fun n => ?_
    have := fac n
    unfold Kind.logProb
    dsimp only
    rw [Real.exp_log (by positivity), Nat.factorial_succ]
    push_cast
    field_simp
    ring
  · have hz := zip_pos hs.le (y c)
    have h := (hasSum_exp (Real.exp (y c))).mul_left (Real.exp (y c) / (Real.exp (Real.exp (y c)) + s - 1))
    have e : Real.exp (y c) / (Real.exp (Real.exp (y c)) + s - 1) * Real.exp (Real.exp (y c)) = Kind.mean (.zeroInflatedPoisson s) (y c) := by
      unfold Kind.mean
      ring
    rw [e] at h
    refine hasSum_mean h fun n => ?_
    have := fac n
    unfold Kind.logProb
    dsimp only
    rw [if_neg (Nat.succ_ne_zero n), Real.exp_log (by positivity), Nat.factorial_succ]
    push_cast
    field_simp
    ring
  · have h0 : 0 < r + Real.exp (y c) := by positivity
    have hq : Real.exp (y c) / (r + Real.exp (y c)) < 1 := by rw [div_lt_one h0]; linarith
    have h := (hasSum_nb (r := r + 1) (by positivity) (q := Real.exp (y c) / (r + Real.exp (y c))) (by positivity) hq).mul_left
      ((r / (r + Real.exp (y c))) ^ (r + 1) * Real.exp (y c))
    have e : 1 - Real.exp (y c) / (r + Real.exp (y c)) = r / (r + Real.exp (y c)) := by field_simp; ring
    rw [e, mul_right_comm, mul_one_div_cancel (by positivity), one_mul] at h
    refine hasSum_mean h fun n => ?_
    have h3 := fac n
    have h4 : 0 < Real.Gamma ((n + 1 : ℕ) + r) := Real.Gamma_pos_of_pos (by positivity)
    have h5 : 0 < Real.Gamma r := Real.Gamma_pos_of_pos hr
    unfold Kind.logProb
    dsimp only
    rw [Real.exp_log (by positivity), Nat.factorial_succ, Real.Gamma_add_one hr.ne', Real.rpow_add_one (by positivity),
      show ((n + 1 : ℕ) : ℝ) + r = n + (r + 1) by push_cast; ring]
    push_cast
    field_simp
    rw [pow_succ]
    field_simp
  · unfold Kind.logProb Kind.mean
    dsimp only
    have : 0 < 1 + Real.exp (-y c) := by positivity
    rw [zero_mul, zero_add, if_neg one_ne_zero, Real.exp_log (by positivity)]
    ring

end

end Verif.Tens
