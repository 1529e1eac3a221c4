import Verif.Lemmas.NewtonStepLocal
import Verif.Props.Broyden

/-!
# C78: where Newton fits converge
-/

set_option linter.unusedSectionVars false

namespace Verif.Tens
open Verif.Params

variable {pr : Problem} {m : Nat} {L : Theta → ℝ} {M : MaxLikeT ℝ} {cs : List (List Nat × List ℝ)} {qs : List (List Nat × ℝ × ℝ)} {T : ℝ}
  {y : Theta → pr.Cell → ℝ} {x : pr.Cell → Nat → Nat → ℝ} {seen : pr.Cell → Prop} {k : pr.Cell → ℝ} {l l1 w : pr.Cell → ℝ → ℝ}
  {pinvh : List (List ℝ) → Except Err (List (List ℝ))} {tol : ℝ}

/-! ### points and parameters -/

theorem AtPoint.entry {θ : Theta} {ps : List (Param ℝ)} (h : AtPoint pr m θ ps) {i a : Nat} (hi : i < m) (ha : a < (pr.sizes i).prod) : entry ps i a = some (θ i a) := by
  obtain ⟨q, q1, q2, q3, q4, q5⟩ := h.each i hi
  unfold Params.entry
  rw [q1, Option.bind_some]
  have ha' : a < q.values.length := by rw [q4, q2]; exact ha
  have := q5 a (by rw [q2]; exact ha)
  rw [List.getD_eq_getElem?_getD, List.getElem?_eq_getElem ha', Option.getD_some] at this
  rw [List.getElem?_eq_getElem ha', this]

theorem AtPoint.fixed {θ : Theta} {params : List (Param ℝ)} (h : AtPoint pr m θ params) {i a : Nat} (hf : isFixed params i a) : i < m ∧ a < (pr.sizes i).prod := by
  obtain ⟨p, hp, ha⟩ := hf
  have h1 := (List.getElem?_eq_some_iff.1 hp).1
  have h2 := (List.getElem?_eq_some_iff.1 ha).1
  rw [h.len] at h1
  obtain ⟨q, q1, q2, q3, -⟩ := h.each i h1
  rw [hp] at q1
  cases q1
  rw [q3, q2] at h2
  exact ⟨h1, h2⟩

theorem AtPoint.cases {θ : Theta} {params : List (Param ℝ)} (h : AtPoint pr m θ params) {i a : Nat} (hi : i < m) (ha : a < (pr.sizes i).prod) :
    isFree params i a ∨ isFixed params i a := by
  obtain ⟨q, q1, q2, q3, -⟩ := h.each i hi
  have ha' : a < q.mask.length := by rw [q3, q2]; exact ha
  cases hb : q.mask[a] with
  | true => exact Or.inr ⟨q, q1, by rw [List.getElem?_eq_getElem ha', hb]⟩
  | false => exact Or.inl ⟨q, q1, by rw [List.getElem?_eq_getElem ha', hb]⟩

theorem AtPoint.of_entries {θ θ' : Theta} {params ps : List (Param ℝ)} (h : AtPoint pr m θ params) (hl : SameLayout ps params) (hw : ∀ p ∈ ps, p.WF)
    (he : ∀ i < m, ∀ a < (pr.sizes i).prod, Params.entry ps i a = some (θ' i a)) : AtPoint pr m θ' ps := by
  have h1 := h.layout hl hw
  refine ⟨h1.len, fun p hp => ?_⟩
  obtain ⟨q, q1, q2, q3, q4, -⟩ := h1.each p hp
  refine ⟨q, q1, q2, q3, q4, fun a ha => ?_⟩
  have := he p hp a (by rw [← q2]; exact ha)
  unfold Params.entry at this
  rw [q1, Option.bind_some] at this
  rw [List.getD_eq_getElem?_getD, this]
  rfl

/-- The list of numbers `flat` are the free entries of `θ`. -/
def FlatAt (params : List (Param ℝ)) (θ : Theta) (flat : List ℝ) : Prop :=
  flat.length = totalFree params ∧ ∀ i a, isFree params i a → flat[freeRank params i a]? = some (θ i a)

theorem flatAt_start {θ : Theta} {params : List (Param ℝ)} (hat : AtPoint pr m θ params) (hm : 0 < m) : FlatAt params θ (params.map Param.compressed).flatten := by
  have hne := hat.ne hm
  have hl := flatten_length _ hat.wf
  refine ⟨hl, fun i a hf => ?_⟩
  have hfl : flatParams params = .ok (params.map Param.compressed).flatten := flatParams_ok hne
  have hre : reshapeParams params (params.map Param.compressed).flatten = .ok params := by
    have := C01_rebuild_flatten params hne hat.wf
    rw [hfl] at this
    exact this
  obtain ⟨rs, r1, -, -, r4, -⟩ := reshape_entries hne hat.wf (flat := (params.map Param.compressed).flatten) hl
  rw [hre] at r1
  cases r1
  obtain ⟨h1, h2⟩ := hat.free hf
  rw [← r4 i a hf, hat.entry h1 h2]

/-- A trial point of the line search: the step times `μ`. -/
theorem trial_point {θ0 θ : Theta} {params ps : List (Param ℝ)} (hat0 : AtPoint pr m θ0 params) (hm : 0 < m) (hat : AtPoint pr m θ ps) (hlay : SameLayout ps params)
    (hfix : ∀ i a, isFixed params i a → θ i a = θ0 i a) {flat step : List ℝ} (hflat : FlatAt params θ flat) (hs : step.length = totalFree ps) (μ : ℝ) :
    ∃ flat' ps', Fit.bzip (· - ·) flat (step.map (μ * ·)) = .ok flat' ∧ reshapeParams params flat' = .ok ps' ∧ SameLayout ps' params ∧
      AtPoint pr m (stepTo ps θ (step.map (μ * ·))) ps' ∧ FlatAt params (stepTo ps θ (step.map (μ * ·))) flat' := by
  have ht := Flat.SameLayout.totalFree hlay
  have hl : flat.length = (step.map (μ * ·)).length := by rw [List.length_map, hs, hflat.1, ht]
  have hl' : (List.zipWith (· - ·) flat (step.map (μ * ·))).length = totalFree params := by
    rw [List.length_zipWith, ← hl, min_self, hflat.1]
  obtain ⟨rs, r1, r2, r3, r4, r5⟩ := reshape_entries (hat0.ne hm) hat0.wf hl'
  have hfr : ∀ i a, isFree params i a → (List.zipWith (· - ·) flat (step.map (μ * ·)))[freeRank params i a]? = some (stepTo ps θ (step.map (μ * ·)) i a) := by
    intro i a hf
    have hlt : freeRank params i a < (step.map (μ * ·)).length := by rw [← hl, hflat.1]; exact rank_lt hf
    unfold stepTo dirOf
    rw [if_pos ((layout_free hlay).2 hf), layout_rank hlay, List.getElem?_zipWith, hflat.2 i a hf, List.getD_eq_getElem?_getD, List.getElem?_eq_getElem hlt]
    rfl
  refine ⟨_, rs, by unfold Fit.bzip; rw [if_pos hl], r1, r2, hat0.of_entries r2 r3 fun i hi a ha => ?_, hl', hfr⟩
  rcases hat0.cases hi ha with hf | hf
  · rw [r4 i a hf, hfr i a hf]
  · rw [r5 i a hf, hat0.entry hi ha]
    unfold stepTo
    rw [if_neg (fun h => not_free_of_fixed hf ((layout_free hlay).1 h)), hfix i a hf]

/-- The Newton step of a concave, well posed problem exists everywhere. -/
theorem ConcaveProblem.step (hP : ConcaveProblem pr m M L cs qs T y x seen) : ∃ D H, Derivs pr m (fun _ => True) (penalised L (quadPens pr qs)) D H ∧
    ∀ pinvh tol θ ps, AtPoint pr m θ ps → 1 ≤ totalFree ps → WellPosed pr ps cs qs x seen →
      ∃ step μ v J, Fit.newtonStep (M.env pinvh tol) ps = .ok (step, penalised L (quadPens pr qs) θ / T, v, J) ∧
        NewtonStep ps (D θ) (H θ) ((linCons pr cs).map fun c => c.der θ) ((linCons pr cs).map fun c => c.val θ) step μ := by
  obtain ⟨D, H, hD, hst⟩ := C68_newton_step hP.solver
  obtain ⟨D', H', hD', hst'⟩ := C69_step_exists hP.solver
  refine ⟨D, H, hD, fun pinvh tol θ ps hat hF hw => ?_⟩
  obtain ⟨s, v', J', e'⟩ := hst' pinvh tol θ trivial ps hat hF (hP.concave hD' hat hw).2 (by rw [conDers_eq]; exact hw.independent)
  rcases hst pinvh tol θ trivial ps hat hF with ⟨step, μ, v, J, e, n1, -⟩ | ⟨e, -⟩
  · exact ⟨step, μ, v, J, e, n1⟩
  · rw [e'] at e
    cases e

theorem fullForm_nonneg (hl : ConcaveCells l l1 w) (ys : pr.Cell → ℝ) (e : Nat → Nat → ℝ) : 0 ≤ fullForm pr m w ys x qs e := by
  have h1 := cellForm_nonneg hl ys fun c => allSum pr m fun p a => x c p a * e p a
  have h2 := penForm_nonneg (pr := pr) (m := m) (qs := qs) e
  unfold fullForm
  linarith

theorem Feasible.layout {ps ps' : List (Param ℝ)} (h : SameLayout ps ps') {θ θ' : Theta} (hf : Feasible pr ps cs θ θ') : Feasible pr ps' cs θ θ' :=
  ⟨hf.1, fun i a hx => hf.2 i a (Fit.SameLayout.isFixed h hx)⟩

/-- The loop near the maximum. -/
theorem loop_local (hP : ConcaveProblem pr m M L cs qs T y x seen) (hT : 0 < T) (hL : ∀ θ, L θ = ∑ c, l c (y θ c)) (hl : ConcaveCells l l1 w) (hk : LinearModel pr m y k x)
    {D : Theta → Nat → Nat → ℝ} {H : Theta → Nat → Nat → Nat → Nat → ℝ} (hD : Derivs pr m (fun _ => True) (penalised L (quadPens pr qs)) D H)
    (hst : ∀ pinvh tol θ ps, AtPoint pr m θ ps → 1 ≤ totalFree ps → WellPosed pr ps cs qs x seen →
      ∃ step μ v J, Fit.newtonStep (M.env pinvh tol) ps = .ok (step, penalised L (quadPens pr qs) θ / T, v, J) ∧
        NewtonStep ps (D θ) (H θ) ((linCons pr cs).map fun c => c.der θ) ((linCons pr cs).map fun c => c.val θ) step μ)
    {θs θ0 : Theta} {o : Fit.Obj ℝ (List (List ℝ))} (hat0 : AtPoint pr m θ0 o.params) (hf0 : ∀ i a, isFixed o.params i a → θ0 i a = θs i a) (hF : 1 ≤ totalFree o.params)
    (hw : WellPosed pr o.params cs qs x seen) (hc0 : ∀ c ∈ linCons pr cs, c.val θs = 0)
    (hfo : ∀ u : Nat → Nat → ℝ, (∀ c ∈ linCons pr cs, freeSum o.params (fun p a => c.der θs p a * u p a) = 0) → freeSum o.params (fun p a => D θs p a * u p a) = 0)
    {r : ℝ} (hnear : Near w (y θs) r) (hr : 11 / 20 * r ≤ |penalised L (quadPens pr qs) θs| / 2) (hs0 : penalised L (quadPens pr qs) θs ≠ 0) (ht : 0 < tol) (vb : Nat) :
    ∀ (n k : Nat) (ps : List (Param ℝ)) (flat : List ℝ) (θ : Theta), k < n → AtPoint pr m θ ps → SameLayout ps o.params → FlatAt o.params θ flat → Feasible pr o.params cs θs θ →
      fullForm pr m w (y θs) x qs (fun p a => θ p a - θs p a) ≤ r →
      11 / 20 * fullForm pr m w (y θs) x qs (fun p a => θ p a - θs p a) < tol * 8 ^ k * (|penalised L (quadPens pr qs) θs| / 2) →
      (Fit.newtonLoop (M.env pinvh tol) vb o n ps flat).outcome = .ok true ∧ ∃ θ1, AtPoint pr m θ1 (Fit.newtonLoop (M.env pinvh tol) vb o n ps flat).obj.params ∧
        Feasible pr o.params cs θs θ1 ∧ fullForm pr m w (y θs) x qs (fun p a => θ1 p a - θs p a) ≤ r ∧
        penalised L (quadPens pr qs) θs - penalised L (quadPens pr qs) θ1 ≤ tol * |penalised L (quadPens pr qs) θ1| / 5
  | 0, k, _, _, _, hkn, _, _, _, _, _, _ => by omega
  | n + 1, k, ps, flat, θ, hkn, hat, hlay, hflat, hf, hQ, hk8 => by
    have hM := hP.solver
    have hFp : 1 ≤ totalFree ps := by rw [Flat.SameLayout.totalFree hlay]; exact hF
    obtain ⟨step, μ, v, J, e, hN⟩ := hst pinvh tol θ ps hat hFp (hw.layout hlay)
    have hfo' : ∀ u : Nat → Nat → ℝ, (∀ c ∈ linCons pr cs, freeSum ps (fun p a => c.der θs p a * u p a) = 0) → freeSum ps (fun p a => D θs p a * u p a) = 0 := by
      intro u hu
      rw [freeSum_layout hlay]
      exact hfo u fun c hc => by rw [← freeSum_layout hlay]; exact hu c hc
    have hfp : Feasible pr ps cs θs θ := hf.layout hlay.symm
    have hcon := step_contracts hM hP.cons hP.pens hL hl hk hD hat hc0 hfo' hfp hN hnear hQ
    have hf1 : Feasible pr ps cs θs (stepTo ps θ step) := stepTo_feasible hP.cons hat hfp.2 hN
    obtain ⟨flat', ps', t1, t2, t3, t4, t5⟩ := trial_point hat0 hM.pos hat hlay (fun i a h => by rw [hf.2 i a h, hf0 i a h]) hflat hN.len 1
    have e1 : step.map ((1 : ℝ) * ·) = step := by simp
    rw [e1] at t1 t4 t5
    have hq0 := fullForm_nonneg (m := m) (x := x) (qs := qs) hl (y θs) fun p a => θ p a - θs p a
    have hq1 := fullForm_nonneg (m := m) (x := x) (qs := qs) hl (y θs) fun p a => stepTo ps θ step p a - θs p a
    have hQ1 : fullForm pr m w (y θs) x qs (fun p a => stepTo ps θ step p a - θs p a) ≤ r := by linarith
    have g0 := gap_form hM hP.cons hP.pens hL hl hk hD hat hc0 hfo' hfp hnear hQ
    have g1 := gap_form hM hP.cons hP.pens hL hl hk hD hat hc0 hfo' hf1 hnear hQ1
    set θ1 := stepTo ps θ step with hθ1
    set Q0 := fullForm pr m w (y θs) x qs (fun p a => θ p a - θs p a)
    set Q1 := fullForm pr m w (y θs) x qs (fun p a => θ1 p a - θs p a)
    set P0 := penalised L (quadPens pr qs) θ
    set P1 := penalised L (quadPens pr qs) θ1 with hP1
    set Ps := penalised L (quadPens pr qs) θs
    have hge : P0 ≤ P1 := by linarith [g0.1, g1.2]
    have hPs : 0 < |Ps| := abs_pos.2 hs0
    have hgs : 0 ≤ Ps - P1 := by linarith [g1.1]
    have habs : |Ps| / 2 ≤ |P1| := by
      have h1 : |Ps| ≤ |Ps - P1| + |P1| := by have := abs_add_le (Ps - P1) P1; simpa using this
      rw [abs_of_nonneg hgs] at h1
      linarith [g1.2]
    have hne : P1 ≠ 0 := by intro h; rw [h, abs_zero] at habs; linarith
    have hin : Fit.inner (M.env pinvh tol) vb o.params flat step (P0 / T) 5 (M.env pinvh tol).one = (.ok (some (flat', ps', P1 / T)), [ps'], 0) := by
      rw [Fit.inner]
      rw [show (M.env pinvh tol).one = 1 from rfl, e1, t1]
      dsimp only
      rw [t2]
      dsimp only
      rw [C68_objective hM trivial t4]
      dsimp only
      rw [if_pos]
      show decide _ = true
      exact decide_eq_true (div_le_div_of_nonneg_right hge hT.le)
    have hratio : |P0 / T / (P1 / T) - 1| = (P1 - P0) / |P1| := by
      rw [div_div_div_cancel_right₀ hM.ne, div_sub_one hne, abs_div, abs_sub_comm, abs_of_nonneg (by linarith)]
    have hc : (M.env pinvh tol).conv (P0 / T) (P1 / T) = .ok (decide ((P1 - P0) / |P1| < tol)) := by
      show (if _ then _ else _) = _
      rw [if_neg (div_ne_zero hne hM.ne), hratio]
    have hP1pos : 0 < |P1| := abs_pos.2 hne
    rw [Fit.newtonLoop, e]
    dsimp only
    rw [hin]
    dsimp only
    rw [hc]
    by_cases hconv : (P1 - P0) / |P1| < tol
    · rw [decide_eq_true hconv]
      dsimp only
      refine ⟨rfl, θ1, t4, hf1.layout hlay, hQ1, ?_⟩
      rw [div_lt_iff₀ hP1pos] at hconv
      rw [← hP1]
      linarith [g0.1, g1.2]
    · rw [decide_eq_false hconv]
      dsimp only
      cases k with
      | zero =>
        exfalso
        apply hconv
        rw [div_lt_iff₀ hP1pos]
        rw [pow_zero, mul_one] at hk8
        have : tol * (|Ps| / 2) ≤ tol * |P1| := mul_le_mul_of_nonneg_left habs ht.le
        linarith [g0.2]
      | succ k =>
        refine loop_local hP hT hL hl hk hD hst hat0 hf0 hF hw hc0 hfo hnear hr hs0 ht vb n k ps' flat' θ1 (by omega) t4 t3 t5 (hf1.layout hlay) hQ1 ?_
        rw [pow_succ] at hk8
        linarith

theorem form_close (hl : ConcaveCells l l1 w) (ys : pr.Cell → ℝ) : ∃ K, 0 ≤ K ∧ ∀ (ρ : ℝ) (e : Nat → Nat → ℝ), 0 ≤ ρ →
    (∀ p < m, ∀ a < (pr.sizes p).prod, |e p a| ≤ ρ) → fullForm pr m w ys x qs e ≤ K * ρ ^ 2 := by
  have hpos := penForm_nonneg (pr := pr) (m := m) (qs := qs) fun _ _ => 1
  refine ⟨∑ c, w c (ys c) * (allSum pr m fun p a => |x c p a|) ^ 2 + 2 * penForm pr m qs fun _ _ => 1, ?_, fun ρ e hρ he => ?_⟩
  · have : 0 ≤ ∑ c, w c (ys c) * (allSum pr m fun p a => |x c p a|) ^ 2 := Finset.sum_nonneg fun c _ => mul_nonneg (hl.nonneg c _) (sq_nonneg _)
    linarith
  · have h1 : ∀ c, (allSum pr m fun p a => x c p a * e p a) ^ 2 ≤ (allSum pr m fun p a => |x c p a|) ^ 2 * ρ ^ 2 := by
      intro c
      rw [← mul_pow, sq_le_sq]
      have h2 : |allSum pr m fun p a => x c p a * e p a| ≤ (allSum pr m fun p a => |x c p a|) * ρ := by
        unfold allSum
        refine (Finset.abs_sum_le_sum_abs _ _).trans ?_
        rw [Finset.sum_mul]
        refine Finset.sum_le_sum fun p hp => ?_
        refine (Finset.abs_sum_le_sum_abs _ _).trans ?_
        rw [Finset.sum_mul]
        refine Finset.sum_le_sum fun a ha => ?_
        rw [abs_mul]
        exact mul_le_mul_of_nonneg_left (he p (Finset.mem_range.1 hp) a (Finset.mem_range.1 ha)) (abs_nonneg _)
      exact h2.trans (le_abs_self _)
    have h3 : cellForm w ys (fun c => allSum pr m fun p a => x c p a * e p a) ≤ (∑ c, w c (ys c) * (allSum pr m fun p a => |x c p a|) ^ 2) * ρ ^ 2 := by
      unfold cellForm
      rw [Finset.sum_mul]
      refine Finset.sum_le_sum fun c _ => ?_
      rw [mul_assoc]
      exact mul_le_mul_of_nonneg_left (h1 c) (hl.nonneg c _)
    have h4 : penForm pr m qs e ≤ (penForm pr m qs fun _ _ => 1) * ρ ^ 2 := by
      unfold penForm
      rw [← List.sum_map_mul_right]
      refine List.sum_le_sum fun q _ => ?_
      unfold allSum
      rw [Finset.sum_mul]
      refine Finset.sum_le_sum fun p hp => ?_
      rw [Finset.sum_mul]
      refine Finset.sum_le_sum fun a ha => ?_
      beta_reduce
      split_ifs
      · rw [div_pow, div_pow, one_pow, div_mul_eq_mul_div, one_mul]
        refine div_le_div_of_nonneg_right ?_ (sq_nonneg _)
        rw [sq_le_sq, abs_of_nonneg hρ]
        exact he p (Finset.mem_range.1 hp) a (Finset.mem_range.1 ha)
      · simp
    unfold fullForm
    linarith

/-- **C78.** Newton fits converge near the maximum: a concave, well posed problem has a neighbourhood of the point that satisfies the first order conditions such that a
fit from any point in it that satisfies the constraints (and has the same fixed entries) returns `True` with every tolerance, if `max_steps` is more than the logarithm
of `1 / tol` to base 8.  The objective at the point that it returns is below the maximum by at most a fifth of the tolerance. -/
theorem C78_converges (hP : ConcaveProblem pr m M L cs qs T y x seen) (hR : RegularCells pr L y) (hT : 0 < T) {θs : Theta} {params : List (Param ℝ)} (hat : AtPoint pr m θs params)
    (hF : 1 ≤ totalFree params) (hw : WellPosed pr params cs qs x seen) (hk : FirstOrder params (penalised L (quadPens pr qs)) (linCons pr cs) θs)
    (h0 : penalised L (quadPens pr qs) θs ≠ 0) : ∃ ρ : ℝ, 0 < ρ ∧
    ∀ (o : Fit.Obj ℝ (List (List ℝ))) (θ : Theta), SameLayout o.params params → AtPoint pr m θ o.params → Feasible pr params cs θs θ → Close pr m ρ θs θ →
      ∀ pinvh (tol : ℝ) (k maxSteps verbose : Nat) r, 0 < tol → 1 < tol * 8 ^ k → k < maxSteps → r = Fit.fit (M.env pinvh tol) o maxSteps verbose .newton →
        r.outcome = .ok true ∧ ∃ θ', AtPoint pr m θ' r.obj.params ∧ Feasible pr params cs θs θ' ∧
          penalised L (quadPens pr qs) θs - penalised L (quadPens pr qs) θ' ≤ tol * |penalised L (quadPens pr qs) θ'| / 5 := by
  obtain ⟨kk, hlin⟩ := hP.linear
  obtain ⟨l, l1, w, hl, hL, hcont, hz⟩ := hR
  obtain ⟨D, H, hD, hst⟩ := hP.step
  obtain ⟨r0, r1, hnear0⟩ := near_exists hl hcont hz (y θs)
  have hs0 : 0 < |penalised L (quadPens pr qs) θs| := abs_pos.2 h0
  obtain ⟨r, hr1, hr2, hr3⟩ : ∃ r, 0 < r ∧ r ≤ r0 ∧ 11 / 20 * r ≤ |penalised L (quadPens pr qs) θs| / 2 :=
    ⟨min r0 (|penalised L (quadPens pr qs) θs| / 2), lt_min r1 (by linarith), min_le_left _ _, by
      have := min_le_right r0 (|penalised L (quadPens pr qs) θs| / 2)
      linarith [lt_min r1 (show 0 < |penalised L (quadPens pr qs) θs| / 2 by linarith)]⟩
  have hnear := hnear0.mono hr2
  obtain ⟨K, hK, hKe⟩ := form_close (m := m) (x := x) (qs := qs) hl (y θs)
  refine ⟨min 1 (r / (K + 1)), lt_min one_pos (by positivity), fun o θ hlay hato hf hcl pinvh tol k maxSteps verbose res ht ht8 hsteps hres => ?_⟩
  subst hres
  set ρ := min 1 (r / (K + 1)) with hρ
  have hρ0 : 0 < ρ := lt_min one_pos (by positivity)
  have hQ : fullForm pr m w (y θs) x qs (fun p a => θ p a - θs p a) ≤ r := by
    refine (hKe ρ _ hρ0.le hcl).trans ?_
    have h1 : ρ ≤ 1 := min_le_left _ _
    have h2 : ρ ≤ r / (K + 1) := min_le_right _ _
    rw [le_div_iff₀ (by linarith)] at h2
    nlinarith
  have hfo : ∀ u : Nat → Nat → ℝ, (∀ c ∈ linCons pr cs, freeSum o.params (fun p a => c.der θs p a * u p a) = 0) → freeSum o.params (fun p a => D θs p a * u p a) = 0 := by
    intro u hu
    rw [freeSum_layout hlay]
    exact first_order_dir hP.solver hD trivial hat hk fun c hc => by rw [← freeSum_layout hlay]; exact hu c hc
  have hfl : flatParams o.params = .ok (o.params.map Param.compressed).flatten := flatParams_ok (hato.ne hP.solver.pos)
  have hfo' : Feasible pr o.params cs θs θ := hf.layout hlay.symm
  have key := loop_local (pinvh := pinvh) hP hT hL hl hlin hD hst hato (fun i a h => hfo'.2 i a h) (by rw [Flat.SameLayout.totalFree hlay]; exact hF) (hw.layout hlay) hk.1 hfo hnear hr3 h0 ht
    verbose maxSteps k o.params _ θ hsteps hato rfl (flatAt_start hato hP.solver.pos) hfo' hQ (by nlinarith)
  unfold Fit.fit
  rw [hfl]
  dsimp only
  obtain ⟨k1, θ1, k2, k3, -, k5⟩ := key
  exact ⟨k1, θ1, k2, k3.layout hlay, k5⟩

end Verif.Tens
