import Verif.Spec.Observations
import Mathlib.Analysis.SpecialFunctions.Gamma.Basic
import Mathlib.Tactic.Positivity
import Mathlib.Tactic.Linarith
import Mathlib.Tactic.FieldSimp

/-!
# C75: the likelihood of aggregated data is the probability of the observations
-/

namespace Verif.Tens

section
variable {κ υ ρ : Type} [Fintype κ] [Fintype υ] [DecidableEq κ] [DecidableEq υ]

theorem sum_cellSum {C : Type} [Fintype C] [DecidableEq C] (pos : ρ → C) (h : ρ → ℝ) (g : C → ℝ) : ∀ rows : List ρ,
    ∑ c, cellSum rows pos h c * g c = (rows.map fun r => h r * g (pos r)).sum
  | [] => by simp [cellSum]
  | r :: rows => by
    rw [List.map_cons, List.sum_cons, ← sum_cellSum pos h g rows]
    have : ∀ c, cellSum (r :: rows) pos h c * g c = (if pos r = c then h r * g c else 0) + cellSum rows pos h c * g c := by
      intro c
      unfold cellSum
      rw [List.filter_cons]
      by_cases e : pos r = c
      · simp [e]; ring
      · simp [e]
    rw [Finset.sum_congr rfl fun c _ => this c, Finset.sum_add_distrib]
    simp

theorem logProb_poisson (y : κ × υ → ℝ) (c : κ × υ) (v : ℕ) : Kind.logProb .poisson y c v = v * y c - Real.exp (y c) - Real.log v.factorial := by
  unfold Kind.logProb
  have : (0 : ℝ) < v.factorial := by exact_mod_cast v.factorial_pos
  rw [Real.log_div (by positivity) this.ne', Real.log_mul (by positivity) (by positivity), Real.log_exp, Real.log_pow, Real.log_exp]
  ring

theorem zip_pos {s : ℝ} (hs : 0 ≤ s) (y : ℝ) : 0 < Real.exp (Real.exp y) + s - 1 := by
  have : 1 < Real.exp (Real.exp y) := Real.one_lt_exp_iff.2 (Real.exp_pos y)
  linarith

theorem logProb_zip {s : ℝ} (hs : 0 < s) (y : κ × υ → ℝ) (c : κ × υ) (v : ℕ) :
    Kind.logProb (.zeroInflatedPoisson s) y c v = v * y c + (if v = 0 then Real.log s else 0) - Real.log (Real.exp (Real.exp (y c)) + s - 1) - Real.log v.factorial := by
  unfold Kind.logProb
  have : (0 : ℝ) < v.factorial := by exact_mod_cast v.factorial_pos
  dsimp only
  split_ifs with h
  · rw [Real.log_div hs.ne' (zip_pos hs.le _).ne']
    simp [h]
  · rw [Real.log_div (by positivity) (zip_pos hs.le _).ne', Real.log_div (by positivity) this.ne', Real.log_pow, Real.log_exp]
    ring

theorem logProb_logistic (y : κ × υ → ℝ) (c : κ × υ) {v : ℕ} (hv : v ≤ 1) : Kind.logProb .logistic y c v = v * y c - (Real.log (1 + Real.exp (-y c)) + y c) := by
  unfold Kind.logProb
  have h0 : 0 < 1 + Real.exp (-y c) := by positivity
  dsimp only
  split_ifs with h
  · have : 1 - 1 / (1 + Real.exp (-y c)) = Real.exp (-y c) / (1 + Real.exp (-y c)) := by field_simp; ring
    rw [this, Real.log_div (by positivity) h0.ne', Real.log_exp, h]
    push_cast; ring
  · have : v = 1 := by omega
    rw [one_div, Real.log_inv, this]
    push_cast; ring

theorem logProb_nb {r : ℝ} (hr : 0 < r) (y : κ × υ → ℝ) (c : κ × υ) (v : ℕ) :
    Kind.logProb (.negativeBinomial r) y c v = v * (y c - Real.log (r + Real.exp (y c))) - r * Real.log (r + Real.exp (y c)) +
      (Real.log (Real.Gamma (v + r) / (Real.Gamma r * v.factorial)) + r * Real.log r) := by
  unfold Kind.logProb
  have h0 : 0 < r + Real.exp (y c) := by positivity
  have h1 : 0 < Real.Gamma (v + r) := Real.Gamma_pos_of_pos (by positivity)
  have h2 : 0 < Real.Gamma r := Real.Gamma_pos_of_pos hr
  have h3 : (0 : ℝ) < v.factorial := by exact_mod_cast v.factorial_pos
  dsimp only
  rw [Real.log_mul (by positivity) (by positivity), Real.log_mul (by positivity) (by positivity), Real.log_rpow (by positivity), Real.log_pow,
    Real.log_div hr.ne' h0.ne', Real.log_div (by positivity) h0.ne', Real.log_exp]
  ring

/-- **C75.** The log-likelihood that is maximised is the sum of the logarithms of the probabilities of the observations (multiplied by their weights), up to a constant that
does not depend on the values of the model, if `X`, `N` and `Z` are the (weighted) sums of the observations, numbers of observations and numbers of zeros of each cell. -/
theorem C75_aggregate (k : Kind) (rows : List ρ) (pos : ρ → κ × υ) (w : ρ → ℝ) (v : ρ → ℕ) (hv : ∀ r ∈ rows, k.Admits (v r)) (x : Name → κ × υ → ℝ)
    (hX : .X ∈ k.reads → ∀ c, x .X c = cellSum rows pos (fun r => w r * v r) c) (hN : ∀ c, x .N c = cellSum rows pos w c)
    (hZ : .Z ∈ k.reads → ∀ c, x .Z c = cellSum rows pos (fun r => if v r = 0 then w r else 0) c) :
    ∃ K : ℝ, ∀ y : κ × υ → ℝ, k.logLike x y = (rows.map fun r => w r * k.logProb y (pos r) (v r)).sum + K := by
  have key : ∀ (A B : ℝ → ℝ) (C : ℝ) (a : ℕ → ℝ) (D : κ × υ → ℝ), (∀ y, ∀ r ∈ rows, k.logProb y (pos r) (v r) = v r * A (y (pos r)) + B (y (pos r)) + (if v r = 0 then C else 0) + a (v r)) →
      (∀ y, k.logLike x y = ∑ c, (cellSum rows pos (fun r => w r * v r) c * A (y c) + cellSum rows pos w c * B (y c) +
        cellSum rows pos (fun r => if v r = 0 then w r else 0) c * C + D c)) →
      ∃ K : ℝ, ∀ y : κ × υ → ℝ, k.logLike x y = (rows.map fun r => w r * k.logProb y (pos r) (v r)).sum + K := by
    intro A B C a D h1 h2
    refine ⟨∑ c, D c - (rows.map fun r => w r * a (v r)).sum, fun y => ?_⟩
    rw [h2, Finset.sum_add_distrib, Finset.sum_add_distrib, Finset.sum_add_distrib, sum_cellSum pos _ fun c => A (y c), sum_cellSum pos _ fun c => B (y c), sum_cellSum pos _ fun _ => C]
    have e : (rows.map fun r => w r * k.logProb y (pos r) (v r)) =
        rows.map fun r => w r * (v r * A (y (pos r)) + B (y (pos r)) + (if v r = 0 then C else 0) + a (v r)) := List.map_congr_left fun r hr => by rw [h1 y r hr]
    rw [e]
    have : ∀ l : List ρ, (l.map fun r => w r * (v r * A (y (pos r)) + B (y (pos r)) + (if v r = 0 then C else 0) + a (v r))).sum =
        (l.map fun r => w r * v r * A (y (pos r))).sum + (l.map fun r => w r * B (y (pos r))).sum + (l.map fun r => (if v r = 0 then w r else 0) * C).sum +
          (l.map fun r => w r * a (v r)).sum := by
      intro l
      induction l with
      | nil => simp
      | cons r l ih =>
        simp only [List.map_cons, List.sum_cons, ih]
        split_ifs <;> ring
    rw [this]
    ring
  cases k with
  | poisson =>
    refine key (fun y => y) (fun y => -Real.exp y) 0 (fun n => -Real.log n.factorial) (fun c => -Like.gammaln (x .X c + 1)) (fun y r hr => ?_) fun y => ?_
    · rw [logProb_poisson]; split_ifs <;> ring
    · unfold Kind.logLike
      refine Finset.sum_congr rfl fun c _ => ?_
      rw [← hX (by simp [Kind.reads]), ← hN]; ring
  | zeroInflatedPoisson s =>
    refine key (fun y => y) (fun y => -Real.log (Real.exp (Real.exp y) + s - 1)) (Real.log s) (fun n => -Real.log n.factorial) (fun c => -Like.gammaln (x .X c + 1))
      (fun y r hr => ?_) fun y => ?_
    · rw [logProb_zip (hv r hr)]; ring
    · unfold Kind.logLike
      refine Finset.sum_congr rfl fun c _ => ?_
      rw [← hX (by simp [Kind.reads]), ← hN, ← hZ (by simp [Kind.reads])]; ring
  | logistic =>
    refine key (fun y => y) (fun y => -(Real.log (1 + Real.exp (-y)) + y)) 0 (fun _ => 0) (fun _ => 0) (fun y r hr => ?_) fun y => ?_
    · rw [logProb_logistic y _ (hv r hr)]; split_ifs <;> ring
    · unfold Kind.logLike
      dsimp only
      rw [← Finset.sum_neg_distrib]
      refine Finset.sum_congr rfl fun c _ => ?_
      rw [← hX (by simp [Kind.reads]), ← hN]; ring
  | negativeBinomial r =>
    refine key (fun y => y - Real.log (r + Real.exp y)) (fun y => -(r * Real.log (r + Real.exp y))) 0
      (fun n => Real.log (Real.Gamma (n + r) / (Real.Gamma r * n.factorial)) + r * Real.log r)
      (fun c => Like.gammaln (x .X c + r) - Like.gammaln (x .X c + 1) + r * Real.log r - Like.gammaln r) (fun y z hz => ?_) fun y => ?_
    · rw [logProb_nb (hv z hz)]; split_ifs <;> ring
    · unfold Kind.logLike
      refine Finset.sum_congr rfl fun c _ => ?_
      rw [← hX (by simp [Kind.reads]), ← hN]; ring
  | finite d =>
    refine ⟨0, fun y => ?_⟩
    unfold Kind.logLike Kind.logProb
    dsimp only
    rw [add_zero, ← sum_cellSum pos w fun c => Real.log (y c) - Real.log (∑ u, y (c.1, u))]
    exact Finset.sum_congr rfl fun c _ => by rw [hN]
  | normalizedFinite d =>
    refine ⟨0, fun y => ?_⟩
    unfold Kind.logLike Kind.logProb
    dsimp only
    rw [add_zero, ← sum_cellSum pos w fun c => Real.log (y c)]
    exact Finset.sum_congr rfl fun c _ => by rw [hN]

end

end Verif.Tens
