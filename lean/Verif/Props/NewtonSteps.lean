import Verif.Props.NewtonLocal

/-!
# C78: how Newton fits end
-/

set_option linter.unusedSectionVars false

namespace Verif.Tens
open Verif.Params

variable {pr : Problem} {m : Nat} {L : Theta → ℝ} {M : MaxLikeT ℝ} {gs : List Con} {φs : List Pen} {T : ℝ}
  {pinvh : List (List ℝ) → Except Err (List (List ℝ))} {tol : ℝ}

/-- The five trial points of a step: the first at which the objective is not smaller is accepted. -/
theorem inner_trial (hM : Solver pr m (fun _ => True) M L gs φs T) {θ0 θ : Theta} {params ps : List (Param ℝ)} (hat0 : AtPoint pr m θ0 params) (hat : AtPoint pr m θ ps)
    (hlay : SameLayout ps params) (hfix : ∀ i a, isFixed params i a → θ i a = θ0 i a) {flat step : List ℝ} (hflat : FlatAt params θ flat) (hs : step.length = totalFree ps)
    (vb : Nat) (g : ℝ) : ∀ (n : Nat) (μ : ℝ),
    (∃ tr k, Fit.inner (M.env pinvh tol) vb params flat step g n μ = (.ok none, tr, k) ∧
      ∀ j < n, penalised L φs (stepTo ps θ (step.map (μ / 2 ^ j * ·))) / T < g) ∨
    ∃ j < n, ∃ flat' ps' tr k, Fit.inner (M.env pinvh tol) vb params flat step g n μ =
        (.ok (some (flat', ps', penalised L φs (stepTo ps θ (step.map (μ / 2 ^ j * ·))) / T)), tr, k) ∧
      g ≤ penalised L φs (stepTo ps θ (step.map (μ / 2 ^ j * ·))) / T ∧ SameLayout ps' params ∧
      AtPoint pr m (stepTo ps θ (step.map (μ / 2 ^ j * ·))) ps' ∧ FlatAt params (stepTo ps θ (step.map (μ / 2 ^ j * ·))) flat'
  | 0, μ => Or.inl ⟨_, _, rfl, fun j hj => absurd hj (by omega)⟩
  | n + 1, μ => by
    obtain ⟨flat', ps', t1, t2, t3, t4, t5⟩ := trial_point hat0 hM.pos hat hlay hfix hflat hs μ
    have e0 : μ / 2 ^ 0 = μ := by rw [pow_zero, div_one]
    have ej : ∀ j : Nat, μ * (1 / 2) / 2 ^ j = μ / 2 ^ (j + 1) := fun j => by rw [pow_succ]; field_simp
    have hob := C68_objective (pinvh := pinvh) (tol := tol) hM trivial t4
    rw [Fit.inner, t1]
    dsimp only
    rw [t2]
    dsimp only
    rw [hob]
    dsimp only
    by_cases hge : g ≤ penalised L φs (stepTo ps θ (step.map (μ * ·))) / T
    · right
      refine ⟨0, by omega, flat', ps', [ps'], 0, ?_, ?_, t3, ?_, ?_⟩
      · rw [e0, if_pos]
        show decide _ = true
        exact decide_eq_true hge
      · rw [e0]; exact hge
      · rw [e0]; exact t4
      · rw [e0]; exact t5
    · have hn : ¬(M.env pinvh tol).ge (penalised L φs (stepTo ps θ (step.map (μ * ·))) / T) g = true := by
        intro h
        exact hge (of_decide_eq_true h)
      rw [if_neg hn]
      have half : (M.env pinvh tol).half = 1 / 2 := rfl
      rw [half]
      rcases inner_trial hM hat0 hat hlay hfix hflat hs vb g n (μ * (1 / 2)) with ⟨tr, k, h1, h2⟩ | ⟨j, hj, f, q, tr, k, h1, h2, h3, h4, h5⟩
      · left
        rw [h1]
        refine ⟨_, _, rfl, fun j hj => ?_⟩
        cases j with
        | zero => rw [e0]; exact not_le.1 hge
        | succ j =>
          have := h2 j (by omega)
          rw [ej] at this
          exact this
      · right
        rw [ej] at h1 h2 h4 h5
        rw [h1]
        exact ⟨j + 1, by omega, f, q, _, _, rfl, h2, h3, h4, h5⟩

theorem zero_iff_step {ps : List (Param ℝ)} {θ : Theta} (hw : ∀ p ∈ ps, p.mask.length = p.shape.prod) {step : List ℝ} (hs : step.length = totalFree ps) {μ : ℝ} (hμ : μ ≠ 0)
    (h : ∀ i a, isFree ps i a → stepTo ps θ (step.map (μ * ·)) i a = θ i a) : ∀ z ∈ step, z = 0 := by
  intro z hz
  obtain ⟨k, hk⟩ := List.mem_iff_getElem?.1 hz
  have hk' := (List.getElem?_eq_some_iff.1 hk).1
  obtain ⟨i, a, hf, hr, -⟩ := pair_of_lt (ps := ps) (k := k) (by omega)
  have := h i a hf
  unfold stepTo dirOf at this
  rw [if_pos hf, hr, List.getD_eq_getElem?_getD, List.getElem?_map, hk, Option.map_some, Option.getD_some] at this
  have h0 : μ * z = 0 := by linarith
  exact (mul_eq_zero.1 h0).resolve_left hμ

/-- **C78.** A fit that starts at the (strict) maximum of the penalised log-likelihood without the constraints, where some constraint does not hold, raises: each step that
reduces the residual of the constraint makes the objective smaller, and the line search only accepts points where it is not smaller.  (For example: fit, then add a
constraint that the estimate does not satisfy, then fit again.)  The parameters stay as they are. -/
theorem C78_infeasible (hM : Solver pr m (fun _ => True) M L gs φs T) (hT : 0 < T) {θ : Theta} {o : Fit.Obj ℝ (List (List ℝ))} (hat : AtPoint pr m θ o.params)
    (hF : 1 ≤ totalFree o.params) (hmax : ∀ θ' : Theta, (∀ i a, isFixed o.params i a → θ' i a = θ i a) → (∃ i a, isFree o.params i a ∧ θ' i a ≠ θ i a) → penalised L φs θ' < penalised L φs θ)
    (hviol : ∃ c ∈ gs, c.val θ ≠ 0) {maxSteps verbose : Nat} (hs : 1 ≤ maxSteps) {r : Fit.Result ℝ (List (List ℝ))} (hr : r = Fit.fit (M.env pinvh tol) o maxSteps verbose .newton) :
    (r.outcome = .error .convergenceStep ∨ r.outcome = .error .linAlg) ∧ r.obj.params = o.params := by
  subst hr
  obtain ⟨k, rfl⟩ := Nat.exists_eq_add_of_le' hs
  obtain ⟨D, H, hD, hst⟩ := C68_newton_step hM
  unfold Fit.fit
  rw [flatParams_ok (hat.ne hM.pos)]
  simp only [Fit.newtonLoop]
  rcases hst pinvh tol θ trivial o.params hat hF with ⟨step, μ, v, J, e, n1, -⟩ | ⟨e, -⟩
  · rw [e]
    dsimp only
    have hz : ¬∀ z ∈ step, z = 0 := by
      intro h0
      obtain ⟨c, hc, hv⟩ := hviol
      exact hv (((C68_step_zero_iff hM trivial hat hF e).1 h0).1 c hc)
    rcases inner_trial (pinvh := pinvh) (tol := tol) hM hat hat rfl (fun _ _ _ => rfl) (flatAt_start hat hM.pos) n1.len verbose (penalised L φs θ / T) 5 1 with
      ⟨tr, k, h1, -⟩ | ⟨j, hj, f, q, tr, k, -, h2, -⟩
    · rw [show (M.env pinvh tol).one = 1 from rfl, h1]
      exact ⟨Or.inl rfl, rfl⟩
    · exfalso
      rw [div_le_div_iff_of_pos_right hT] at h2
      have hμ : (1 : ℝ) / 2 ^ j ≠ 0 := by positivity
      refine absurd h2 (not_le.2 (hmax _ (fun i a h => ?_) ?_))
      · unfold stepTo
        rw [if_neg (not_free_of_fixed h)]
      · by_contra hcon
        push Not at hcon
        exact hz (zero_iff_step hat.masks n1.len hμ hcon)
  · rw [e]
    exact ⟨Or.inr rfl, rfl⟩

/-- The points of a fit that does not end within its steps. -/
theorem loop_exhausted (hM : Solver pr m (fun _ => True) M L gs φs T) (hT : 0 < T) {θ0 : Theta} {o : Fit.Obj ℝ (List (List ℝ))} (hat0 : AtPoint pr m θ0 o.params)
    (hF : 1 ≤ totalFree o.params) (vb : Nat) : ∀ (n : Nat) (ps : List (Param ℝ)) (flat : List ℝ) (θ : Theta), AtPoint pr m θ ps → SameLayout ps o.params →
      (∀ i a, isFixed o.params i a → θ i a = θ0 i a) → FlatAt o.params θ flat → (Fit.newtonLoop (M.env pinvh tol) vb o n ps flat).outcome = .error .convergence →
      ∃ q : Nat → Theta, q 0 = θ ∧ ∀ i < n, penalised L φs (q i) ≤ penalised L φs (q (i + 1)) ∧ penalised L φs (q (i + 1)) ≠ 0 ∧
        tol ≤ |penalised L φs (q i) / penalised L φs (q (i + 1)) - 1|
  | 0, ps, flat, θ, _, _, _, _, _ => ⟨fun _ => θ, rfl, fun i hi => absurd hi (by omega)⟩
  | n + 1, ps, flat, θ, hat, hlay, hfix, hflat, hout => by
    obtain ⟨D, H, hD, hst⟩ := C68_newton_step hM
    rw [Fit.newtonLoop] at hout
    rcases hst pinvh tol θ trivial ps hat (by rw [Flat.SameLayout.totalFree hlay]; exact hF) with ⟨step, μ, v, J, e, n1, -⟩ | ⟨e, -⟩
    · rw [e] at hout
      dsimp only at hout
      rw [show (M.env pinvh tol).one = 1 from rfl] at hout
      rcases inner_trial (pinvh := pinvh) (tol := tol) hM hat0 hat hlay hfix hflat n1.len vb (penalised L φs θ / T) 5 1 with
        ⟨tr, k, h1, -⟩ | ⟨j, hj, f, q, tr, k, h1, h2, h3, h4, h5⟩
      · rw [h1] at hout
        cases hout
      · rw [h1] at hout
        dsimp only at hout
        rw [div_le_div_iff_of_pos_right hT] at h2
        set θ1 := stepTo ps θ (step.map (1 / 2 ^ j * ·)) with hθ1
        have hc : (M.env pinvh tol).conv (penalised L φs θ / T) (penalised L φs θ1 / T) = if penalised L φs θ1 / T = 0 then .error .zeroDivision else
            .ok (decide (|penalised L φs θ / T / (penalised L φs θ1 / T) - 1| < tol)) := rfl
        rw [hc] at hout
        by_cases hz : penalised L φs θ1 / T = 0
        · rw [if_pos hz] at hout
          cases hout
        · rw [if_neg hz, div_div_div_cancel_right₀ hM.ne] at hout
          have hne : penalised L φs θ1 ≠ 0 := fun h => hz (by rw [h, zero_div])
          by_cases hlt : |penalised L φs θ / penalised L φs θ1 - 1| < tol
          · rw [decide_eq_true hlt] at hout
            cases hout
          · rw [decide_eq_false hlt] at hout
            dsimp only at hout
            obtain ⟨p, p0, p1⟩ := loop_exhausted hM hT hat0 hF vb n q f θ1 h4 h3 (fun i a h => by
              rw [hθ1]; unfold stepTo
              rw [if_neg (fun h' => not_free_of_fixed h ((layout_free hlay).1 h')), hfix i a h]) h5 hout
            refine ⟨fun i => match i with | 0 => θ | i + 1 => p i, rfl, fun i hi => ?_⟩
            cases i with
            | zero =>
              dsimp only
              rw [p0]
              exact ⟨h2, hne, not_lt.1 hlt⟩
            | succ i => exact p1 i (by omega)
    · rw [e] at hout
      cases hout

/-- **C78.** When `max_steps` is enough: if the penalised log-likelihood is never larger than `c < 0`, a Newton fit with at least `log (P(start) / c) / log (1 + tol)` steps does
not raise `ConvergenceError` for the number of steps; if it is positive at the start and never larger than `c`, `log (c / P(start)) / -log (1 - tol)` steps are enough. -/
theorem C78_steps (hM : Solver pr m (fun _ => True) M L gs φs T) (hT : 0 < T) {θ : Theta} {o : Fit.Obj ℝ (List (List ℝ))} (hat : AtPoint pr m θ o.params) (hF : 1 ≤ totalFree o.params)
    {c : ℝ} (hc : ∀ θ', penalised L φs θ' ≤ c) (ht : 0 < tol) {maxSteps verbose : Nat}
    (hs : (c < 0 ∧ -penalised L φs θ < -c * (1 + tol) ^ maxSteps) ∨ (0 < penalised L φs θ ∧ tol < 1 ∧ c * (1 - tol) ^ maxSteps < penalised L φs θ)) :
    (Fit.fit (M.env pinvh tol) o maxSteps verbose .newton).outcome ≠ .error .convergence := by
  intro h
  unfold Fit.fit at h
  rw [flatParams_ok (hat.ne hM.pos)] at h
  obtain ⟨q, q0, q1⟩ := loop_exhausted hM hT hat hF verbose maxSteps o.params _ θ hat rfl (fun _ _ _ => rfl) (flatAt_start hat hM.pos) h
  rcases hs with ⟨hc0, hs⟩ | ⟨hp, ht1, hs⟩
  · have key : ∀ i ≤ maxSteps, -penalised L φs (q i) * (1 + tol) ^ i ≤ -penalised L φs θ := by
      intro i
      induction i with
      | zero => intro _; rw [q0, pow_zero, mul_one]
      | succ i ih =>
        intro hi
        obtain ⟨a1, a2, a3⟩ := q1 i (by omega)
        have b1 := hc (q (i + 1))
        have b2 : penalised L φs (q (i + 1)) < 0 := by linarith
        have b3 : 1 ≤ penalised L φs (q i) / penalised L φs (q (i + 1)) := by rw [one_le_div_of_neg b2]; exact a1
        rw [abs_of_nonneg (by linarith)] at a3
        have b4 : 1 + tol ≤ penalised L φs (q i) / penalised L φs (q (i + 1)) := by linarith
        rw [le_div_iff_of_neg b2] at b4
        refine le_trans ?_ (ih (by omega))
        rw [pow_succ, mul_comm ((1 + tol) ^ i), ← mul_assoc]
        refine mul_le_mul_of_nonneg_right ?_ (by positivity)
        linarith
    have h1 := key maxSteps le_rfl
    have h2 := hc (q maxSteps)
    have h3 : -c * (1 + tol) ^ maxSteps ≤ -penalised L φs (q maxSteps) * (1 + tol) ^ maxSteps := mul_le_mul_of_nonneg_right (by linarith) (by positivity)
    linarith
  · have key : ∀ i ≤ maxSteps, penalised L φs θ ≤ penalised L φs (q i) * (1 - tol) ^ i := by
      intro i
      induction i with
      | zero => intro _; rw [q0, pow_zero, mul_one]
      | succ i ih =>
        intro hi
        obtain ⟨a1, a2, a3⟩ := q1 i (by omega)
        have c1 := ih (by omega)
        have c2 : 0 < (1 - tol) ^ i := pow_pos (by linarith) i
        have c3 : 0 < penalised L φs (q i) := by
          by_contra hn
          have := mul_nonpos_of_nonpos_of_nonneg (not_lt.1 hn) c2.le
          linarith
        have b2 : 0 < penalised L φs (q (i + 1)) := by linarith
        have b3 : penalised L φs (q i) / penalised L φs (q (i + 1)) ≤ 1 := by rw [div_le_one b2]; exact a1
        rw [abs_of_nonpos (by linarith)] at a3
        have b4 : penalised L φs (q i) / penalised L φs (q (i + 1)) ≤ 1 - tol := by linarith
        rw [div_le_iff₀ b2] at b4
        refine c1.trans ?_
        rw [pow_succ, mul_comm ((1 - tol) ^ i), ← mul_assoc]
        refine mul_le_mul_of_nonneg_right ?_ c2.le
        linarith
    have h1 := key maxSteps le_rfl
    have h3 : penalised L φs (q maxSteps) * (1 - tol) ^ maxSteps ≤ c * (1 - tol) ^ maxSteps := mul_le_mul_of_nonneg_right (hc _) (pow_nonneg (by linarith) _)
    linarith

section
variable {cs : List (List Nat × List ℝ)} {qs : List (List Nat × ℝ × ℝ)} {y : Theta → pr.Cell → ℝ} {x : pr.Cell → Nat → Nat → ℝ} {seen : pr.Cell → Prop}

/-- The ways in which the loop of a concave, well posed problem ends. -/
theorem loop_ends (hP : ConcaveProblem pr m M L cs qs T y x seen) (hneg : ∀ θ', penalised L (quadPens pr qs) θ' ≠ 0) {θ0 : Theta} {o : Fit.Obj ℝ (List (List ℝ))} (hat0 : AtPoint pr m θ0 o.params)
    (hF : 1 ≤ totalFree o.params) (hw : WellPosed pr o.params cs qs x seen) (vb : Nat) : ∀ (n : Nat) (ps : List (Param ℝ)) (flat : List ℝ) (θ : Theta), AtPoint pr m θ ps →
      SameLayout ps o.params → (∀ i a, isFixed o.params i a → θ i a = θ0 i a) → FlatAt o.params θ flat →
      (Fit.newtonLoop (M.env pinvh tol) vb o n ps flat).outcome ∈ ([.ok true, .error .convergence, .error .convergenceStep] : List (Except Err Bool))
  | 0, ps, flat, θ, _, _, _, _ => by simp [Fit.newtonLoop]
  | n + 1, ps, flat, θ, hat, hlay, hfix, hflat => by
    obtain ⟨D, H, hD, hst⟩ := hP.step
    have hM := hP.solver
    obtain ⟨step, μ, v, J, e, n1⟩ := hst pinvh tol θ ps hat (by rw [Flat.SameLayout.totalFree hlay]; exact hF) (WellPosed.layout hlay hw)
    rw [Fit.newtonLoop, e]
    dsimp only
    rw [show (M.env pinvh tol).one = 1 from rfl]
    rcases inner_trial (pinvh := pinvh) (tol := tol) hM hat0 hat hlay hfix hflat n1.len vb (penalised L (quadPens pr qs) θ / T) 5 1 with
      ⟨tr, k, h1, -⟩ | ⟨j, hj, f, q, tr, k, h1, h2, h3, h4, h5⟩
    · rw [h1]
      simp
    · rw [h1]
      dsimp only
      set θ1 := stepTo ps θ (step.map (1 / 2 ^ j * ·)) with hθ1
      have hc : (M.env pinvh tol).conv (penalised L (quadPens pr qs) θ / T) (penalised L (quadPens pr qs) θ1 / T) = if penalised L (quadPens pr qs) θ1 / T = 0 then .error .zeroDivision else
          .ok (decide (|penalised L (quadPens pr qs) θ / T / (penalised L (quadPens pr qs) θ1 / T) - 1| < tol)) := rfl
      rw [hc, if_neg (div_ne_zero (hneg _) hM.ne)]
      by_cases hlt : |penalised L (quadPens pr qs) θ / T / (penalised L (quadPens pr qs) θ1 / T) - 1| < tol
      · rw [decide_eq_true hlt]
        simp
      · rw [decide_eq_false hlt]
        dsimp only
        exact loop_ends hP hneg hat0 hF hw vb n q f θ1 h4 h3 (fun i a h => by
          rw [hθ1]; unfold stepTo
          rw [if_neg (fun h' => not_free_of_fixed h ((layout_free hlay).1 h')), hfix i a h]) h5

/-- **C78.** A Newton fit of a concave, well posed problem whose penalised log-likelihood is never larger than `c < 0` (a sum of logarithms of probabilities is negative) with
enough steps either returns `True` or raises `ConvergenceError` in the line search. -/
theorem C78_ends (hP : ConcaveProblem pr m M L cs qs T y x seen) (hT : 0 < T) {θ : Theta} {o : Fit.Obj ℝ (List (List ℝ))} (hat : AtPoint pr m θ o.params) (hF : 1 ≤ totalFree o.params)
    (hw : WellPosed pr o.params cs qs x seen) {c : ℝ} (hc0 : c < 0) (hc : ∀ θ', penalised L (quadPens pr qs) θ' ≤ c) (ht : 0 < tol) {maxSteps verbose : Nat}
    (hs : -penalised L (quadPens pr qs) θ < -c * (1 + tol) ^ maxSteps) :
    (Fit.fit (M.env pinvh tol) o maxSteps verbose .newton).outcome = .ok true ∨ (Fit.fit (M.env pinvh tol) o maxSteps verbose .newton).outcome = .error .convergenceStep := by
  have h1 := C78_steps (pinvh := pinvh) hP.solver hT hat hF hc ht (maxSteps := maxSteps) (verbose := verbose) (Or.inl ⟨hc0, hs⟩)
  have h2 := loop_ends (pinvh := pinvh) (tol := tol) hP (fun θ' => by have := hc θ'; linarith) hat hF hw verbose maxSteps o.params _ θ hat rfl (fun _ _ _ => rfl) (flatAt_start hat hP.solver.pos)
  unfold Fit.fit at h1 ⊢
  rw [flatParams_ok (hat.ne hP.solver.pos)] at h1 ⊢
  simp only [List.mem_cons, List.not_mem_nil, or_false] at h2
  rcases h2 with h | h | h
  · exact Or.inl h
  · exact absurd h h1
  · exact Or.inr h

end

end Verif.Tens
