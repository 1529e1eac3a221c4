import Mathlib.Data.Real.Basic
import Mathlib.Algebra.BigOperators.Group.Finset.Basic
import Mathlib.Algebra.BigOperators.Ring.Finset
import Mathlib.Tactic.Ring

/-!
# Derivatives of a product: the sum over the factors
-/

namespace Verif.Tens

/-- The factors `0, …, r - 1` without those in `ex`. -/
def keep (r : Nat) (ex : List Nat) : List Nat := (List.range r).filter fun i => decide (i ∉ ex)

theorem mem_keep {r l : Nat} {ex : List Nat} : l ∈ keep r ex ↔ l < r ∧ l ∉ ex := by
  unfold keep
  rw [List.mem_filter, List.mem_range, decide_eq_true_iff]

theorem keep_succ_in {r : Nat} {ex : List Nat} (h : r ∈ ex) : keep (r + 1) ex = keep r ex := by
  unfold keep
  rw [List.range_succ, List.filter_append]
  simp [h]

theorem keep_succ_out {r : Nat} {ex : List Nat} (h : r ∉ ex) : keep (r + 1) ex = keep r ex ++ [r] := by
  unfold keep
  rw [List.range_succ, List.filter_append]
  simp [h]

theorem keep_congr {r : Nat} {ex ex' : List Nat} (h : ∀ l < r, l ∈ ex ↔ l ∈ ex') : keep r ex = keep r ex' := by
  unfold keep
  refine List.filter_congr fun l hl => ?_
  have := h l (List.mem_range.1 hl)
  simp [this]

/-- Their product. -/
def PR (v : Nat → ℝ) (ex : List Nat) (r : Nat) : ℝ := ((keep r ex).map v).prod

theorem PR_in (v : Nat → ℝ) {ex : List Nat} {r : Nat} (h : r ∈ ex) : PR v ex (r + 1) = PR v ex r := by
  unfold PR
  rw [keep_succ_in h]

theorem PR_out (v : Nat → ℝ) {ex : List Nat} {r : Nat} (h : r ∉ ex) : PR v ex (r + 1) = PR v ex r * v r := by
  unfold PR
  rw [keep_succ_out h]
  simp

theorem PR_congr (v : Nat → ℝ) {ex ex' : List Nat} {r : Nat} (h : ∀ l < r, l ∈ ex ↔ l ∈ ex') : PR v ex r = PR v ex' r := by
  unfold PR
  rw [keep_congr h]

theorem PR_nil (v : Nat → ℝ) (r : Nat) : PR v [] r = ∏ i ∈ Finset.range r, v i := by
  induction r with
  | zero => simp [PR, keep]
  | succ r ih => rw [PR_out v (by simp), ih, Finset.prod_range_succ]

/-- The derivative of a product. -/
def S1 (v d : Nat → ℝ) (r : Nat) : ℝ := ∑ k ∈ Finset.range r, PR v [k] r * d k

/-- The second derivative. -/
def S2 (v d e h : Nat → ℝ) (r : Nat) : ℝ :=
  ∑ k ∈ Finset.range r, ((∑ l ∈ Finset.range r, if k ≠ l then PR v [k, l] r * d k * e l else 0) + PR v [k] r * h k)

theorem S1_succ (v d : Nat → ℝ) (s : Nat) : S1 v d (s + 1) = PR v [] s * d s + v s * S1 v d s := by
  unfold S1
  rw [Finset.sum_range_succ, Finset.mul_sum, PR_in v (by simp), PR_congr v (ex' := []) (fun l hl => by simp; omega), add_comm]
  congr 1
  refine Finset.sum_congr rfl fun k hk => ?_
  have hk := Finset.mem_range.1 hk
  rw [PR_out v (by simp; omega)]
  ring

theorem S2_succ (v d e h : Nat → ℝ) (s : Nat) :
    S2 v d e h (s + 1) = PR v [] s * h s + v s * S2 v d e h s + S1 v d s * e s + d s * S1 v e s := by
  have e1 : ∀ k < s, (∑ l ∈ Finset.range (s + 1), if k ≠ l then PR v [k, l] (s + 1) * d k * e l else 0) =
      v s * (∑ l ∈ Finset.range s, if k ≠ l then PR v [k, l] s * d k * e l else 0) + PR v [k] s * d k * e s := by
    intro k hk
    rw [Finset.sum_range_succ, if_pos (by omega), PR_in v (by simp), PR_congr v (ex' := [k]) (fun l hl => by simp; omega), Finset.mul_sum]
    congr 1
    refine Finset.sum_congr rfl fun l hl => ?_
    have hl := Finset.mem_range.1 hl
    by_cases hkl : k ≠ l
    · rw [if_pos hkl, if_pos hkl, PR_out v (by simp; omega)]
      ring
    · rw [if_neg hkl, if_neg hkl, mul_zero]
  have e2 : (∑ l ∈ Finset.range (s + 1), if s ≠ l then PR v [s, l] (s + 1) * d s * e l else 0) = d s * S1 v e s := by
    rw [Finset.sum_range_succ, if_neg (by simp), add_zero]
    unfold S1
    rw [Finset.mul_sum]
    refine Finset.sum_congr rfl fun l hl => ?_
    have hl := Finset.mem_range.1 hl
    rw [if_pos (by omega), PR_in v (by simp), PR_congr v (ex' := [l]) (fun j hj => by simp; omega)]
    ring
  unfold S2
  rw [Finset.sum_range_succ, e2, PR_in v (ex := [s]) (by simp), PR_congr v (ex := [s]) (ex' := []) (fun l hl => by simp; omega)]
  have e3 : (∑ k ∈ Finset.range s, ((∑ l ∈ Finset.range (s + 1), if k ≠ l then PR v [k, l] (s + 1) * d k * e l else 0) +
      PR v [k] (s + 1) * h k)) = v s * (∑ k ∈ Finset.range s,
        ((∑ l ∈ Finset.range s, if k ≠ l then PR v [k, l] s * d k * e l else 0) + PR v [k] s * h k)) + S1 v d s * e s := by
    unfold S1
    rw [Finset.mul_sum, Finset.sum_mul, ← Finset.sum_add_distrib]
    refine Finset.sum_congr rfl fun k hk => ?_
    have hk := Finset.mem_range.1 hk
    rw [e1 k hk, PR_out v (by simp; omega)]
    ring
  rw [e3]
  ring

theorem PR_val {v v' : Nat → ℝ} {ex : List Nat} {r : Nat} (h : ∀ l < r, v l = v' l) : PR v ex r = PR v' ex r := by
  unfold PR
  congr 1
  exact List.map_congr_left fun l hl => h l (mem_keep.1 hl).1

theorem S1_congr {v v' d d' : Nat → ℝ} {r : Nat} (h : ∀ l < r, v l = v' l) (hd : ∀ l < r, d l = d' l) : S1 v d r = S1 v' d' r := by
  unfold S1
  refine Finset.sum_congr rfl fun k hk => ?_
  rw [PR_val h, hd k (Finset.mem_range.1 hk)]

theorem S2_congr {v v' d d' e e' k k' : Nat → ℝ} {r : Nat} (h : ∀ l < r, v l = v' l) (hd : ∀ l < r, d l = d' l) (he : ∀ l < r, e l = e' l)
    (hk : ∀ l < r, k l = k' l) : S2 v d e k r = S2 v' d' e' k' r := by
  unfold S2
  refine Finset.sum_congr rfl fun i hi => ?_
  have hi := Finset.mem_range.1 hi
  rw [PR_val h, hk i hi]
  congr 1
  refine Finset.sum_congr rfl fun l hl => ?_
  rw [PR_val h, hd i hi, he l (Finset.mem_range.1 hl)]

end Verif.Tens
