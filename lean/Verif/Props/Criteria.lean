import Verif.Spec.Flat
import Verif.Model.Flat
import Mathlib.Tactic.FieldSimp
import Mathlib.Tactic.Ring
import Mathlib.Tactic.Linarith
import Mathlib.Tactic.NormNum
import Mathlib.Algebra.Order.BigOperators.Group.List
import Mathlib.Tactic.Positivity

/-!
# C14 (Broyden's update) and C18 (information criteria)
-/

namespace Verif.Flat
open Verif.Params

variable {R : Type}

theorem dot_update [Field R] (row d v : List R) (c ss : R) (h1 : row.length = d.length) :
    dot (List.zipWith (fun x d => x + c * d / ss) row d) v = dot row v + c * dot d v / ss := by
  induction row generalizing d v with
  | nil =>
    have : d = [] := List.length_eq_zero_iff.mp (by simpa using h1.symm)
    subst this; simp [dot]
  | cons x row ih =>
    cases d with
    | nil => simp at h1
    | cons e d =>
      cases v with
      | nil => simp [dot]
      | cons w v =>
        have := ih d v (by simpa using h1)
        simp only [dot] at this
        simp only [dot, List.zipWith_cons_cons, List.sum_cons, this]
        ring

theorem dot_self_pos [Field R] [LinearOrder R] [IsStrictOrderedRing R] (d : List R) :
    0 ≤ dot d d ∧ ((∃ x ∈ d, x ≠ 0) → 0 < dot d d) := by
  induction d with
  | nil => simp [dot]
  | cons x d ih =>
    simp only [dot, List.zipWith_cons_cons, List.sum_cons] at ih ⊢
    refine ⟨add_nonneg (mul_self_nonneg x) ih.1, ?_⟩
    rintro ⟨y, hy, hne⟩
    rcases List.mem_cons.mp hy with rfl | hy
    · exact add_pos_of_pos_of_nonneg (mul_self_pos.mpr hne) ih.1
    · exact add_pos_of_nonneg_of_pos (mul_self_nonneg x) (ih.2 ⟨y, hy, hne⟩)

/-- C14.  When the update succeeds and the gradient changed, the new matrix maps the observed change
of the gradient to the step taken, and acts as the old one on every vector orthogonal to that
change. -/
theorem C14_broyden_secant [Field R] [LinearOrder R] [IsStrictOrderedRing R] (J J' : List (List R))
    (step grad gradPrev : List R) (h : broydenUpdate J step grad gradPrev = .ok J')
    (hne : ∃ x ∈ List.zipWith (· - ·) grad gradPrev, x ≠ 0) :
    matVec J' (List.zipWith (· - ·) grad gradPrev) = .ok step ∧
    ∀ v : List R, v.length = grad.length → dot (List.zipWith (· - ·) grad gradPrev) v = 0 →
      matVec J' v = matVec J v := by
  unfold broydenUpdate at h
  split at h
  · rename_i hl
    set d := List.zipWith (· - ·) grad gradPrev with hd
    have hdl : d.length = grad.length := by simp [hd, hl.1]
    have hss : dot d d ≠ 0 := ne_of_gt ((dot_self_pos d).2 hne)
    unfold matVec at h
    dsimp only at h
    by_cases hall : (J.all fun row => row.length == d.length) = true
    · rw [if_pos hall] at h
      have hrow : ∀ row ∈ J, row.length = d.length := by simpa using hall
      simp only [bind, Except.bind, pure, Except.pure, Except.ok.injEq] at h
      subst h
      have hlen : ∀ row ∈ List.zipWith (fun row ui => List.zipWith
          (fun x d_1 => x + ui * d_1 / dot d d) row d) J
          (List.zipWith (· - ·) step (J.map fun row => dot row d)), row.length = d.length := by
        intro row hr
        obtain ⟨n, hn, rfl⟩ := List.mem_iff_getElem.mp hr
        simp only [List.length_zipWith, List.length_map] at hn
        simp only [List.getElem_zipWith, List.length_zipWith]
        rw [hrow _ (List.getElem_mem _)]
        simp
      constructor
      · unfold matVec
        rw [if_pos (by simpa using hlen)]
        congr 1
        apply List.ext_getElem
        · simp [hl.2]
        · intro n h1 h2
          simp only [List.length_map, List.length_zipWith] at h1
          simp only [List.getElem_map, List.getElem_zipWith]
          rw [dot_update _ _ _ _ _ (hrow _ (List.getElem_mem _))]
          field_simp
          ring
      · intro v hv hort
        unfold matVec
        rw [if_pos (by
            simp only [List.all_eq_true, beq_iff_eq]
            intro r hr; rw [hlen r hr, hdl, hv]),
          if_pos (by
            simp only [List.all_eq_true, beq_iff_eq]
            intro r hr; rw [hrow r hr, hdl, hv])]
        congr 1
        apply List.ext_getElem
        · simp [hl.2]
        · intro n h1 h2
          simp only [List.getElem_map, List.getElem_zipWith]
          rw [dot_update _ _ _ _ _ (hrow _ (List.getElem_mem _)), hort]
          simp
    · rw [if_neg hall] at h; cases h
  · cases h

/-- The update succeeds for square matrices of the right size. -/
theorem broydenUpdate_ok [Field R] (J : List (List R)) (step grad gradPrev : List R)
    (h1 : grad.length = J.length) (h2 : gradPrev.length = J.length) (h3 : step.length = J.length)
    (h4 : ∀ row ∈ J, row.length = J.length) :
    ∃ J', broydenUpdate J step grad gradPrev = .ok J' := by
  unfold broydenUpdate
  rw [if_pos ⟨by omega, h3⟩]
  unfold matVec
  dsimp only
  rw [if_pos (by
    simp only [List.all_eq_true, beq_iff_eq]
    intro r hr
    rw [h4 r hr]; simp; omega)]
  exact ⟨_, rfl⟩

example : broydenUpdate [[1, 0], [0, (1 : Rat)]] [3, 1] [2, 5] [1, 3] = .ok [[7/5, 4/5], [-1/5, 3/5]] ∧
    (∃ x ∈ List.zipWith (· - ·) [2, 5] [1, (3 : Rat)], x ≠ 0) := by
  refine ⟨by decide +kernel, 1, by norm_num, by norm_num⟩

/-! ## C18 -/

/-- Number of degrees of freedom as documented: free entries plus extra parameters minus
constraints. -/
def freeDof (params : List (Param R)) (extra : Int) (nConstraints : Nat) : Int :=
  (totalFree params : Int) + extra - nConstraints

theorem dof_eq_freeDof (params : List (Param R)) (hwf : ∀ p ∈ params, p.WF)
    (hfree : ∀ p ∈ params, ∀ b ∈ p.mask, b = false) (extra : Int) (nc : Nat) :
    dof params extra nc = freeDof params extra nc := by
  unfold dof freeDof
  congr 3
  unfold maCount totalFree
  congr 1
  apply List.map_congr_left
  intro p hp
  rw [(hwf p hp).1, ← (hwf p hp).2]
  exact (List.count_eq_length.mpr (fun b hb => (hfree p hp b hb).symm)).symm

/-- C18, the part that holds: with no fixed entries and no regularisations,
`n * AIC = 2k - 2 ln L + 2k(k+1)/(n-k-1)` and `n * BIC = k ln n - 2 ln L` with `k` the number of free
entries plus extra parameters minus constraints.  Missing (false, see below): models with fixed
entries; and with regularisations `ln L` is the penalised log-likelihood. -/
theorem C18_information_criteria_partial (params : List (Param ℝ)) (hwf : ∀ p ∈ params, p.WF)
    (hfree : ∀ p ∈ params, ∀ b ∈ p.mask, b = false) (logL n : ℝ) (extra : Int) (nc : Nat)
    (hn : n ≠ 0) (hk : n - (freeDof params extra nc : Int) - 1 ≠ 0) :
    (∃ v, aic params logL [] n extra nc = .ok v ∧
      n * v = 2 * (freeDof params extra nc : Int) - 2 * logL +
        2 * (freeDof params extra nc : Int) * ((freeDof params extra nc : Int) + 1) /
          (n - (freeDof params extra nc : Int) - 1)) ∧
    (∃ v, bic params logL [] n extra nc = .ok v ∧
      n * v = (freeDof params extra nc : Int) * Real.log n - 2 * logL) := by
  constructor
  · refine ⟨_, rfl, ?_⟩
    rw [dof_eq_freeDof params hwf hfree]
    simp only [List.reverse_nil, List.foldl_nil]
    generalize ((freeDof params extra nc : Int) : ℝ) = k at *
    field_simp
    ring
  · refine ⟨_, rfl, ?_⟩
    rw [dof_eq_freeDof params hwf hfree]
    simp only [List.reverse_nil, List.foldl_nil]
    generalize ((freeDof params extra nc : Int) : ℝ) = k at *
    field_simp

/-- C18 is false of the code with fixed entries: they are counted as degrees of freedom.  One
parameter `[1, 2]` whose second entry is fixed, `n = 10`, `ln L = -5`: the value returned is that of
two free parameters. -/
theorem C18_fixed_entries_counterexample :
    let params : List (Param ℝ) := [⟨[2], [1, 2], [false, true]⟩]
    freeDof params 0 0 = 1 ∧
    aic params (-5) [] 10 0 0 = .ok (2 * 2 / (10 - 2 - 1) - 2 * (-5 / 10)) ∧
    (10 : ℝ) * (2 * 2 / (10 - 2 - 1) - 2 * (-5 / 10)) ≠
      2 * 1 - 2 * (-5) + 2 * 1 * (1 + 1) / (10 - 1 - 1) := by
  refine ⟨by decide, ?_, by norm_num⟩
  simp only [aic, objectiveG, List.mapM_nil, dof, maCount, bind, Except.bind, pure, Except.pure]
  norm_num

/-- C18: with a regularisation the criterion uses the penalised log-likelihood: a constant penalty
of 1 changes the value although neither the likelihood nor the number of parameters changes. -/
theorem C18_regularisation_counterexample :
    let params : List (Param ℝ) := [⟨[1], [1], [false]⟩]
    let t : Term ℝ := ⟨[0], fun _ => 1, fun _ _ _ => 0, fun _ _ _ _ _ => 0⟩
    aic params (-5) [] 10 0 0 = .ok (2 / 8 + 1) ∧ aic params (-5) [t] 10 0 0 = .ok (2 / 8 + 12 / 10) := by
  constructor
  · simp only [aic, objectiveG, List.mapM_nil, dof, maCount, bind, Except.bind, pure, Except.pure]
    norm_num
  · simp only [aic, objectiveG, List.mapM_cons, List.mapM_nil, dof, maCount, getArgs, bind,
      Except.bind, pure, Except.pure]
    norm_num

example : ∃ params : List (Param ℝ), (∀ p ∈ params, p.WF) ∧
    (∀ p ∈ params, ∀ b ∈ p.mask, b = false) ∧ freeDof params 1 1 = 2 ∧ (20 : ℝ) - (2 : Int) - 1 ≠ 0 :=
  ⟨[⟨[2], [1, 2], [false, false]⟩], by simp [Param.WF], by simp, by decide, by norm_num⟩

end Verif.Flat
