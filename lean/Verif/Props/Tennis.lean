import Verif.Props.Leaves
import Mathlib.Analysis.Calculus.Deriv.Polynomial
import Mathlib.Tactic.LinearCombination

/-!
# Tennis functions: C31 – C33
-/

set_option linter.unusedSectionVars false
set_option linter.unusedSimpArgs false
set_option linter.style.longLine false

namespace Verif.Func
open Verif.Params (Err)
open Finset
open Polynomial (X)

/-! ## C31  Derivatives -/

theorem denom_pos (p : ℝ) : 0 < 1 - 2 * p * (1 - p) := by nlinarith [sq_nonneg (2 * p - 1)]

theorem hasDerivAt_denom (p : ℝ) : HasDerivAt (fun p : ℝ => 1 - 2 * p * (1 - p)) (4 * p - 2) p := by
  have h := (1 - 2 * X * (1 - X) : Polynomial ℝ).hasDerivAt p
  simp at h
  refine HasDerivAt.congr_deriv h ?_
  ring

/-- polynomial components -/
macro "poly_deriv" P:term "," p:term : tactic => `(tactic|
  (have h := ($P : Polynomial ℝ).hasDerivAt $p
   simp [Polynomial.derivative_pow] at h
   refine HasDerivAt.congr_deriv (h.congr_of_eventuallyEq
     (Filter.Eventually.of_forall fun x => by ring)) ?_
   ring))

/-- C31: `Game.grad` is the derivative of `Game`, component by component, for every `p`. -/
theorem C31_game_grad (p : ℝ) {k : Nat} (hk : k < 4) :
    HasDerivAt (fun p => (gameVals p).getD k 0) ((gameGrad p).getD k 0) p := by
  interval_cases k
  · show HasDerivAt (fun p : ℝ => p ^ 4)
      (4 * p ^ 3) p
    poly_deriv (X ^ 4), p
  · show HasDerivAt (fun p : ℝ => 4 * p ^ 4 * (1 - p))
      (4 * (4 - 5 * p) * p ^ 3) p
    poly_deriv (4 * X ^ 4 * (1 - X)), p
  · show HasDerivAt (fun p : ℝ => 10 * p ^ 4 * (1 - p) ^ 2)
      (20 * (2 - 3 * p) * (1 - p) * p ^ 3) p
    poly_deriv (10 * X ^ 4 * (1 - X) ^ 2), p
  · show HasDerivAt (fun p : ℝ => 20 * p ^ 5 * (1 - p) ^ 3 / (1 - 2 * p * (1 - p)))
      (-20 * (12 * p ^ 3 - 20 * p ^ 2 + 16 * p - 5) * (1 - p) ^ 2 * p ^ 4 / (1 - 2 * p * (1 - p)) ^ 2) p
    have h := (20 * X ^ 5 * (1 - X) ^ 3 : Polynomial ℝ).hasDerivAt p
    simp [Polynomial.derivative_pow] at h
    have h' := h.congr_of_eventuallyEq (f₁ := fun p : ℝ => 20 * p ^ 5 * (1 - p) ^ 3)
      (Filter.Eventually.of_forall fun x => by ring)
    have hd := (denom_pos p).ne'
    refine HasDerivAt.congr_deriv (h'.fun_div (hasDerivAt_denom p) hd) ?_
    rw [div_eq_div_iff (by positivity) (by positivity)]
    ring

/-- C31: `Game.hess` is the derivative of `Game.grad`. -/
theorem C31_game_hess (p : ℝ) {k : Nat} (hk : k < 4) :
    HasDerivAt (fun p => (gameGrad p).getD k 0) ((gameHess p).getD k 0) p := by
  interval_cases k
  · show HasDerivAt (fun p : ℝ => 4 * p ^ 3)
      (12 * p ^ 2) p
    poly_deriv (4 * X ^ 3), p
  · show HasDerivAt (fun p : ℝ => 4 * (4 - 5 * p) * p ^ 3)
      (16 * (3 - 5 * p) * p ^ 2) p
    poly_deriv (4 * (4 - 5 * X) * X ^ 3), p
  · show HasDerivAt (fun p : ℝ => 20 * (2 - 3 * p) * (1 - p) * p ^ 3)
      (20 * (5 * (1 - 3 * p) * (1 - p) + 1) * p ^ 2) p
    poly_deriv (20 * (2 - 3 * X) * (1 - X) * X ^ 3), p
  · show HasDerivAt (fun p : ℝ => -20 * (12 * p ^ 3 - 20 * p ^ 2 + 16 * p - 5) * (1 - p) ^ 2 * p ^ 4 / (1 - 2 * p * (1 - p)) ^ 2)
      (40 * (60 * p ^ 6 - 200 * p ^ 5 + 322 * p ^ 4 - 308 * p ^ 3 + 184 * p ^ 2 - 65 * p + 10) * (1 - p) * p ^ 3 / (1 - 2 * p * (1 - p)) ^ 3) p
    have h := (-20 * (12 * X ^ 3 - 20 * X ^ 2 + 16 * X - 5) * (1 - X) ^ 2 * X ^ 4 : Polynomial ℝ).hasDerivAt p
    simp [Polynomial.derivative_pow] at h
    have h' := h.congr_of_eventuallyEq (f₁ := fun p : ℝ => -20 * (12 * p ^ 3 - 20 * p ^ 2 + 16 * p - 5) * (1 - p) ^ 2 * p ^ 4)
      (Filter.Eventually.of_forall fun x => by ring)
    have hd := (denom_pos p).ne'
    refine HasDerivAt.congr_deriv (h'.fun_div ((hasDerivAt_denom p).fun_pow 2) (pow_ne_zero 2 hd)) ?_
    rw [div_eq_div_iff (by positivity) (by positivity)]
    ring

/-- C31: `TieBreak.grad`. -/
theorem C31_tiebreak_grad (p : ℝ) {k : Nat} (hk : k < 7) :
    HasDerivAt (fun p => (tieVals p).getD k 0) ((tieGrad p).getD k 0) p := by
  interval_cases k
  · show HasDerivAt (fun p : ℝ => p ^ 7)
      (7 * p ^ 6) p
    poly_deriv (X ^ 7), p
  · show HasDerivAt (fun p : ℝ => 7 * p ^ 7 * (1 - p))
      (7 * (7 - 8 * p) * p ^ 6) p
    poly_deriv (7 * X ^ 7 * (1 - X)), p
  · show HasDerivAt (fun p : ℝ => 28 * p ^ 7 * (1 - p) ^ 2)
      (28 * (7 - 9 * p) * (1 - p) * p ^ 6) p
    poly_deriv (28 * X ^ 7 * (1 - X) ^ 2), p
  · show HasDerivAt (fun p : ℝ => 84 * p ^ 7 * (1 - p) ^ 3)
      (84 * (7 - 10 * p) * (1 - p) ^ 2 * p ^ 6) p
    poly_deriv (84 * X ^ 7 * (1 - X) ^ 3), p
  · show HasDerivAt (fun p : ℝ => 210 * p ^ 7 * (1 - p) ^ 4)
      (210 * (7 - 11 * p) * (1 - p) ^ 3 * p ^ 6) p
    poly_deriv (210 * X ^ 7 * (1 - X) ^ 4), p
  · show HasDerivAt (fun p : ℝ => 462 * p ^ 7 * (1 - p) ^ 5)
      (462 * (7 - 12 * p) * (1 - p) ^ 4 * p ^ 6) p
    poly_deriv (462 * X ^ 7 * (1 - X) ^ 5), p
  · show HasDerivAt (fun p : ℝ => 924 * p ^ 8 * (1 - p) ^ 6 / (1 - 2 * p * (1 - p)))
      (-1848 * (12 * p ^ 3 - 19 * p ^ 2 + 14 * p - 4) * (1 - p) ^ 5 * p ^ 7 / (1 - 2 * p * (1 - p)) ^ 2) p
    have h := (924 * X ^ 8 * (1 - X) ^ 6 : Polynomial ℝ).hasDerivAt p
    simp [Polynomial.derivative_pow] at h
    have h' := h.congr_of_eventuallyEq (f₁ := fun p : ℝ => 924 * p ^ 8 * (1 - p) ^ 6)
      (Filter.Eventually.of_forall fun x => by ring)
    have hd := (denom_pos p).ne'
    refine HasDerivAt.congr_deriv (h'.fun_div (hasDerivAt_denom p) hd) ?_
    rw [div_eq_div_iff (by positivity) (by positivity)]
    ring

/-- C31: `TieBreak.hess`. -/
theorem C31_tiebreak_hess (p : ℝ) {k : Nat} (hk : k < 7) :
    HasDerivAt (fun p => (tieGrad p).getD k 0) ((tieHess p).getD k 0) p := by
  interval_cases k
  · show HasDerivAt (fun p : ℝ => 7 * p ^ 6)
      (42 * p ^ 5) p
    poly_deriv (7 * X ^ 6), p
  · show HasDerivAt (fun p : ℝ => 7 * (7 - 8 * p) * p ^ 6)
      (98 * (3 - 4 * p) * p ^ 5) p
    poly_deriv (7 * (7 - 8 * X) * X ^ 6), p
  · show HasDerivAt (fun p : ℝ => 28 * (7 - 9 * p) * (1 - p) * p ^ 6)
      (56 * (36 * p ^ 2 - 56 * p + 21) * p ^ 5) p
    poly_deriv (28 * (7 - 9 * X) * (1 - X) * X ^ 6), p
  · show HasDerivAt (fun p : ℝ => 84 * (7 - 10 * p) * (1 - p) ^ 2 * p ^ 6)
      (504 * (15 * p ^ 2 - 21 * p + 7) * (1 - p) * p ^ 5) p
    poly_deriv (84 * (7 - 10 * X) * (1 - X) ^ 2 * X ^ 6), p
  · show HasDerivAt (fun p : ℝ => 210 * (7 - 11 * p) * (1 - p) ^ 3 * p ^ 6)
      (420 * (55 * p ^ 2 - 70 * p + 21) * (1 - p) ^ 2 * p ^ 5) p
    poly_deriv (210 * (7 - 11 * X) * (1 - X) ^ 3 * X ^ 6), p
  · show HasDerivAt (fun p : ℝ => 462 * (7 - 12 * p) * (1 - p) ^ 4 * p ^ 6)
      (924 * (66 * p ^ 2 - 77 * p + 21) * (1 - p) ^ 3 * p ^ 5) p
    poly_deriv (462 * (7 - 12 * X) * (1 - X) ^ 4 * X ^ 6), p
  · show HasDerivAt (fun p : ℝ => -1848 * (12 * p ^ 3 - 19 * p ^ 2 + 14 * p - 4) * (1 - p) ^ 5 * p ^ 7 / (1 - 2 * p * (1 - p)) ^ 2)
      (1848 * (264 * p ^ 6 - 836 * p ^ 5 + 1270 * p ^ 4 - 1136 * p ^ 3 + 625 * p ^ 2 - 200 * p + 28) * (1 - p) ^ 4 * p ^ 6 / (1 - 2 * p * (1 - p)) ^ 3) p
    have h := (-1848 * (12 * X ^ 3 - 19 * X ^ 2 + 14 * X - 4) * (1 - X) ^ 5 * X ^ 7 : Polynomial ℝ).hasDerivAt p
    simp [Polynomial.derivative_pow] at h
    have h' := h.congr_of_eventuallyEq (f₁ := fun p : ℝ => -1848 * (12 * p ^ 3 - 19 * p ^ 2 + 14 * p - 4) * (1 - p) ^ 5 * p ^ 7)
      (Filter.Eventually.of_forall fun x => by ring)
    have hd := (denom_pos p).ne'
    refine HasDerivAt.congr_deriv (h'.fun_div ((hasDerivAt_denom p).fun_pow 2) (pow_ne_zero 2 hd)) ?_
    rw [div_eq_div_iff (by positivity) (by positivity)]
    ring

/-- The list computed by `Set.grad(0)`. -/
noncomputable def setGradP (p t : ℝ) : List ℝ :=
  [6 * p ^ 5,
   6 * (6 - 7 * p) * p ^ 5,
   42 * (3 - 4 * p) * (1 - p) * p ^ 5,
   168 * (2 - 3 * p) * (1 - p) ^ 2 * p ^ 5,
   252 * (3 - 5 * p) * (1 - p) ^ 3 * p ^ 5,
   252 * (7 - 12 * p) * (1 - p) ^ 4 * p ^ 6,
   3024 * (1 - 2 * p) * (1 - p) ^ 5 * p ^ 5 * t]

theorem setGrad_zero (p t : ℝ) : setGrad p t 0 = .ok (setGradP p t) := rfl

/-- The list computed by `Set.hess(0, 0)`. -/
noncomputable def setHessPP (p t : ℝ) : List ℝ :=
  [30 * p ^ 4,
   36 * (5 - 7 * p) * p ^ 4,
   42 * (28 * p ^ 2 - 42 * p + 15) * p ^ 4,
   336 * (5 - 6 * p) * (1 - 2 * p) * (1 - p) * p ^ 4,
   756 * (15 * p ^ 2 - 18 * p + 5) * (1 - p) ^ 2 * p ^ 4,
   504 * (66 * p ^ 2 - 77 * p + 21) * (1 - p) ^ 3 * p ^ 5,
   3024 * (22 * p ^ 2 - 22 * p + 5) * (1 - p) ^ 4 * p ^ 4 * t]

theorem setHess_zero (p t : ℝ) : setHess p t 0 0 = .ok (setHessPP p t) := rfl

/-- The unclipped `Set` in `p`. -/
theorem setPoly_dp (p t : ℝ) {k : Nat} (hk : k < 7) :
    HasDerivAt (fun p => (setPoly p t).getD k 0) ((setGradP p t).getD k 0) p := by
  interval_cases k
  · show HasDerivAt (fun p : ℝ => p ^ 6)
      (6 * p ^ 5) p
    poly_deriv (X ^ 6), p
  · show HasDerivAt (fun p : ℝ => 6 * p ^ 6 * (1 - p))
      (6 * (6 - 7 * p) * p ^ 5) p
    poly_deriv (6 * X ^ 6 * (1 - X)), p
  · show HasDerivAt (fun p : ℝ => 21 * p ^ 6 * (1 - p) ^ 2)
      (42 * (3 - 4 * p) * (1 - p) * p ^ 5) p
    poly_deriv (21 * X ^ 6 * (1 - X) ^ 2), p
  · show HasDerivAt (fun p : ℝ => 56 * p ^ 6 * (1 - p) ^ 3)
      (168 * (2 - 3 * p) * (1 - p) ^ 2 * p ^ 5) p
    poly_deriv (56 * X ^ 6 * (1 - X) ^ 3), p
  · show HasDerivAt (fun p : ℝ => 126 * p ^ 6 * (1 - p) ^ 4)
      (252 * (3 - 5 * p) * (1 - p) ^ 3 * p ^ 5) p
    poly_deriv (126 * X ^ 6 * (1 - X) ^ 4), p
  · show HasDerivAt (fun p : ℝ => 252 * p ^ 7 * (1 - p) ^ 5)
      (252 * (7 - 12 * p) * (1 - p) ^ 4 * p ^ 6) p
    poly_deriv (252 * X ^ 7 * (1 - X) ^ 5), p
  · show HasDerivAt (fun p : ℝ => 504 * p ^ 6 * (1 - p) ^ 6 * t)
      (3024 * (1 - 2 * p) * (1 - p) ^ 5 * p ^ 5 * t) p
    poly_deriv (504 * X ^ 6 * (1 - X) ^ 6 * Polynomial.C t), p

/-- second derivative -/
theorem setGradP_dp (p t : ℝ) {k : Nat} (hk : k < 7) :
    HasDerivAt (fun p => (setGradP p t).getD k 0) ((setHessPP p t).getD k 0) p := by
  interval_cases k
  · show HasDerivAt (fun p : ℝ => 6 * p ^ 5)
      (30 * p ^ 4) p
    poly_deriv (6 * X ^ 5), p
  · show HasDerivAt (fun p : ℝ => 6 * (6 - 7 * p) * p ^ 5)
      (36 * (5 - 7 * p) * p ^ 4) p
    poly_deriv (6 * (6 - 7 * X) * X ^ 5), p
  · show HasDerivAt (fun p : ℝ => 42 * (3 - 4 * p) * (1 - p) * p ^ 5)
      (42 * (28 * p ^ 2 - 42 * p + 15) * p ^ 4) p
    poly_deriv (42 * (3 - 4 * X) * (1 - X) * X ^ 5), p
  · show HasDerivAt (fun p : ℝ => 168 * (2 - 3 * p) * (1 - p) ^ 2 * p ^ 5)
      (336 * (5 - 6 * p) * (1 - 2 * p) * (1 - p) * p ^ 4) p
    poly_deriv (168 * (2 - 3 * X) * (1 - X) ^ 2 * X ^ 5), p
  · show HasDerivAt (fun p : ℝ => 252 * (3 - 5 * p) * (1 - p) ^ 3 * p ^ 5)
      (756 * (15 * p ^ 2 - 18 * p + 5) * (1 - p) ^ 2 * p ^ 4) p
    poly_deriv (252 * (3 - 5 * X) * (1 - X) ^ 3 * X ^ 5), p
  · show HasDerivAt (fun p : ℝ => 252 * (7 - 12 * p) * (1 - p) ^ 4 * p ^ 6)
      (504 * (66 * p ^ 2 - 77 * p + 21) * (1 - p) ^ 3 * p ^ 5) p
    poly_deriv (252 * (7 - 12 * X) * (1 - X) ^ 4 * X ^ 6), p
  · show HasDerivAt (fun p : ℝ => 3024 * (1 - 2 * p) * (1 - p) ^ 5 * p ^ 5 * t)
      (3024 * (22 * p ^ 2 - 22 * p + 5) * (1 - p) ^ 4 * p ^ 4 * t) p
    poly_deriv (3024 * (1 - 2 * X) * (1 - X) ^ 5 * X ^ 5 * Polynomial.C t), p

theorem setClip_of_mem {p : ℝ} (h0 : 1 / 10 ^ 10 ≤ p) (h1 : p ≤ 1 - 1 / 10 ^ 10) :
    setClip p = p := by
  unfold setClip
  rw [min_eq_left h1, max_eq_left h0]

/-- C31: `Set.grad(0)` is the derivative of `Set` in the game probability, strictly inside the
clipping interval.  (Outside it is not: `C31_set_clip_counterexample`.) -/
theorem C31_set_grad_p_partial {p : ℝ} (t : ℝ) (h0 : 1 / 10 ^ 10 < p) (h1 : p < 1 - 1 / 10 ^ 10)
    {k : Nat} (hk : k < 7) : ∃ d, setGrad p t 0 = .ok d ∧
      HasDerivAt (fun p => (setVals p t).getD k 0) (d.getD k 0) p := by
  refine ⟨_, setGrad_zero p t, ?_⟩
  refine (setPoly_dp p t hk).congr_of_eventuallyEq ?_
  filter_upwards [Ioo_mem_nhds h0 h1] with x hx
  simp only [setVals, setClip_of_mem hx.1.le hx.2.le]

/-- C31: `Set.grad(1)` is the derivative in the tie-break probability, inside the clipping
interval. -/
theorem C31_set_grad_t_partial {p : ℝ} (t : ℝ) (h0 : 1 / 10 ^ 10 ≤ p) (h1 : p ≤ 1 - 1 / 10 ^ 10)
    {k : Nat} (hk : k < 7) : ∃ d, setGrad p t 1 = .ok d ∧
      HasDerivAt (fun t => (setVals p t).getD k 0) (d.getD k 0) t := by
  refine ⟨_, rfl, ?_⟩
  simp only [setVals, setClip_of_mem h0 h1]
  interval_cases k
  iterate 6 exact hasDerivAt_const t _
  show HasDerivAt (fun t : ℝ => 504 * p ^ 6 * (1 - p) ^ 6 * t) (504 * (1 - p) ^ 6 * p ^ 6) t
  refine HasDerivAt.congr_deriv ((hasDerivAt_id t).const_mul _) ?_
  ring

/-- C31: the blocks of `Set.hess` are the derivatives of `Set.grad`: `(0,0)` for every `p`, `t`. -/
theorem C31_set_hess_pp (p t : ℝ) {k : Nat} (hk : k < 7) : ∃ h, setHess p t 0 0 = .ok h ∧
    HasDerivAt (fun p => ((setGradP p t)).getD k 0) (h.getD k 0) p ∧
    ∀ p, setGrad p t 0 = .ok (setGradP p t) :=
  ⟨_, setHess_zero p t, setGradP_dp p t hk, fun p => setGrad_zero p t⟩

/-- C31: `Set.hess(1, 0)` is the derivative of `Set.grad(1)` in `p` and of `Set.grad(0)` in `t`. -/
theorem C31_set_hess_tp (p t : ℝ) {k : Nat} (hk : k < 7) : ∃ h, setHess p t 1 0 = .ok h ∧
    HasDerivAt (fun p => ((setGrad p t 1).toOption.getD []).getD k 0) (h.getD k 0) p ∧
    HasDerivAt (fun t => ((setGrad p t 0).toOption.getD []).getD k 0) (h.getD k 0) t := by
  refine ⟨_, rfl, ?_, ?_⟩
  · interval_cases k
    iterate 6 exact hasDerivAt_const p _
    show HasDerivAt (fun p : ℝ => 504 * (1 - p) ^ 6 * p ^ 6)
      (3024 * (1 - 2 * p) * (1 - p) ^ 5 * p ^ 5) p
    poly_deriv (504 * (1 - X) ^ 6 * X ^ 6), p
  · interval_cases k
    iterate 6 exact hasDerivAt_const t _
    show HasDerivAt (fun t : ℝ => 3024 * (1 - 2 * p) * (1 - p) ^ 5 * p ^ 5 * t)
      (3024 * (1 - 2 * p) * (1 - p) ^ 5 * p ^ 5) t
    refine HasDerivAt.congr_deriv ((hasDerivAt_id t).const_mul _) ?_
    ring

/-- C31: `Set.hess(1, 1)` is the derivative of `Set.grad(1)` in `t`. -/
theorem C31_set_hess_tt (p t : ℝ) {k : Nat} (hk : k < 7) : ∃ h, setHess p t 1 1 = .ok h ∧
    HasDerivAt (fun t => ((setGrad p t 1).toOption.getD []).getD k 0) (h.getD k 0) t := by
  refine ⟨_, rfl, ?_⟩
  interval_cases k <;> exact hasDerivAt_const t _

/-- C31 is false for `Set` near 0 (and near 1): for `0 < p < 1e-10` the value does not depend on
`p` but `grad(0)` is `6 * p ** 5 > 0`. -/
theorem C31_set_clip_counterexample {p : ℝ} (t : ℝ) (h0 : 0 < p) (h1 : p < 1 / 10 ^ 10) :
    ∃ d, setGrad p t 0 = .ok d ∧
      ¬ HasDerivAt (fun p => (setVals p t).getD 0 0) (d.getD 0 0) p := by
  refine ⟨_, setGrad_zero p t, fun h => ?_⟩
  have hc : HasDerivAt (fun p => (setVals p t).getD 0 0) 0 p := by
    refine (hasDerivAt_const p ((1 / 10 ^ 10 : ℝ) ^ 6)).congr_of_eventuallyEq ?_
    filter_upwards [Iio_mem_nhds h1] with x hx
    have hx' : x < 1 / 10 ^ 10 := hx
    have : setClip x = 1 / 10 ^ 10 := by
      unfold setClip
      rw [max_eq_right]
      exact (min_le_left _ _).trans hx'.le
    simp only [setVals, this]
    rfl
  have := h.unique hc
  have h6 : 6 * p ^ 5 = 0 := this
  have : 0 < 6 * p ^ 5 := by positivity
  linarith

example : ∃ p : ℝ, 1 / 10 ^ 10 < p ∧ p < 1 - 1 / 10 ^ 10 := ⟨1 / 2, by norm_num, by norm_num⟩
example : ∃ p : ℝ, 0 < p ∧ p < 1 / 10 ^ 10 := ⟨1 / 10 ^ 11, by norm_num, by norm_num⟩

/-! ## C32  Probability distributions -/

/-- C32: the ways to win a game, for the player and for the opponent, have total probability 1. -/
theorem C32_game_total (p : ℝ) : (gameVals p).sum + (gameVals (1 - p)).sum = 1 := by
  have h := (denom_pos p).ne'
  have e : 1 - 2 * (1 - p) * (1 - (1 - p)) = 1 - 2 * p * (1 - p) := by ring
  simp only [gameVals, List.sum_cons, List.sum_nil]
  rw [e]
  generalize hD : 1 - 2 * p * (1 - p) = D at h
  field_simp
  rw [← hD]
  ring

theorem C32_game_nonneg {p : ℝ} (h0 : 0 ≤ p) (h1 : p ≤ 1) : ∀ x ∈ gameVals p, 0 ≤ x := by
  have hq : 0 ≤ 1 - p := by linarith
  have hd := denom_pos p
  intro x hx
  simp only [gameVals, List.mem_cons, List.not_mem_nil, or_false] at hx
  rcases hx with rfl | rfl | rfl | rfl <;> positivity

theorem C32_tiebreak_total (p : ℝ) : (tieVals p).sum + (tieVals (1 - p)).sum = 1 := by
  have h := (denom_pos p).ne'
  have e : 1 - 2 * (1 - p) * (1 - (1 - p)) = 1 - 2 * p * (1 - p) := by ring
  simp only [tieVals, List.sum_cons, List.sum_nil]
  rw [e]
  generalize hD : 1 - 2 * p * (1 - p) = D at h
  field_simp
  rw [← hD]
  ring

theorem C32_tiebreak_nonneg {p : ℝ} (h0 : 0 ≤ p) (h1 : p ≤ 1) : ∀ x ∈ tieVals p, 0 ≤ x := by
  have hq : 0 ≤ 1 - p := by linarith
  have hd := denom_pos p
  intro x hx
  simp only [tieVals, List.mem_cons, List.not_mem_nil, or_false] at hx
  rcases hx with rfl | rfl | rfl | rfl | rfl | rfl | rfl <;> positivity

theorem setClip_compl (p : ℝ) : setClip (1 - p) = 1 - setClip p := by
  unfold setClip
  have hε : (1 / 10 ^ 10 : ℝ) ≤ 1 - 1 / 10 ^ 10 := by norm_num
  generalize (1 / 10 ^ 10 : ℝ) = ε at *
  rcases le_total p ε with h | h
  · rw [min_eq_right (by linarith), max_eq_left hε, min_eq_left (by linarith), max_eq_right h]
  · rcases le_total p (1 - ε) with h2 | h2
    · rw [min_eq_left (by linarith), max_eq_left (by linarith), min_eq_left h2, max_eq_left h]
    · rw [min_eq_left (by linarith), max_eq_right (by linarith), min_eq_right h2, max_eq_left hε]
      ring

theorem setPoly_total (p t : ℝ) : (setPoly p t).sum + (setPoly (1 - p) (1 - t)).sum = 1 := by
  simp only [setPoly, List.sum_cons, List.sum_nil]
  ring

/-- C32 for `Set`: also with the clipping, the two players' outcomes have total probability 1. -/
theorem C32_set_total (p t : ℝ) : (setVals p t).sum + (setVals (1 - p) (1 - t)).sum = 1 := by
  simp only [setVals, setClip_compl]
  exact setPoly_total _ _

theorem C32_set_nonneg (p : ℝ) {t : ℝ} (ht : 0 ≤ t) : ∀ x ∈ setVals p t, 0 ≤ x := by
  have h0 : 0 ≤ setClip p := le_trans (by norm_num) (le_max_right _ _)
  have h1 : setClip p ≤ 1 := by
    unfold setClip
    exact max_le ((min_le_right _ _).trans (by norm_num)) (by norm_num)
  have hq : 0 ≤ 1 - setClip p := by linarith
  intro x hx
  simp only [setVals, setPoly, List.mem_cons, List.not_mem_nil, or_false] at hx
  rcases hx with rfl | rfl | rfl | rfl | rfl | rfl | rfl <;> positivity

/-- Each of the four ways to win a game at the point probability 2/3. -/
example : gameVals (2 / 3) = [16 / 81, 64 / 243, 160 / 729, 128 / 729] := by
  norm_num [gameVals]

/-! ## C33  Elementwise action -/

/-- C33, what the code does: outcome `k` of feature cell `(i₁, i₂, ..., iₘ)` is computed from the
parameter at the *rotated* cell `(i₂, ..., iₘ, i₁)`. -/
theorem C33_rotated_cell (kernel : ℝ → List ℝ) (p : NArr) (i : Nat) (is : List Nat) (k : Nat) :
    tennisArr kernel p (i :: is ++ [k]) = (kernel (p (is ++ [i]))).getD k 0 := by
  unfold tennisArr npSwapaxes0
  have : swapFirstLast (i :: is ++ [k]) = k :: (is ++ [i]) := by
    cases is with
    | nil => rfl
    | cons a as =>
      show (((a :: as) ++ [k]).getLast (by simp) :: ((a :: as) ++ [k]).dropLast ++ [i]) = _
      rw [List.dropLast_concat, List.getLast_append]
      simp
  rw [this]
  rfl

/-- C33 for parameters without feature axes and with one feature axis.  Missing: two or more axes,
where it is false unless the parameter is invariant under the rotation. -/
theorem C33_elementwise_partial (kernel : ℝ → List ℝ) (p : NArr) (k : Nat) :
    tennisArr kernel p [k] = (kernel (p [])).getD k 0 ∧
    ∀ i, tennisArr kernel p [i, k] = (kernel (p [i])).getD k 0 :=
  ⟨rfl, fun i => C33_rotated_cell kernel p i [] k⟩

/-- C33: elementwise for any number of axes when the parameter is invariant under the rotation of
its indices (two axes: symmetric). -/
theorem C33_symmetric_partial (kernel : ℝ → List ℝ) (p : NArr)
    (hsym : ∀ i is, p (is ++ [i]) = p (i :: is)) (i : Nat) (is : List Nat) (k : Nat) :
    tennisArr kernel p (i :: is ++ [k]) = (kernel (p (i :: is))).getD k 0 := by
  rw [C33_rotated_cell, hsym]

/-- C33 is false for two feature axes: the game probabilities of cell `(0, 1)` are those of the
point probability of cell `(1, 0)`. -/
theorem C33_two_axes_counterexample :
    ∃ p : NArr, tennisArr gameVals p [0, 1, 0] ≠ (gameVals (p [0, 1])).getD 0 0 := by
  refine ⟨fun idx => if idx = [0, 1] then 1 else 0, ?_⟩
  have : tennisArr gameVals (fun idx => if idx = [0, 1] then 1 else 0) [0, 1, 0] = _ :=
    C33_rotated_cell gameVals _ 0 [1] 0
  rw [this]
  norm_num [gameVals]

end Verif.Func
