import Verif.Props.MaximumLikelihoodExample
import Verif.Props.Score

/-!
# C86: the fitted totals of a log-linear model
-/

namespace Verif.Tens
open Verif.Params Verif.Prep

set_option linter.unusedSectionVars false

section
variable {L : Type} [LinearOrder L]

/-- If no point with the same `θ 1 0` has a larger Poisson likelihood, the residuals are orthogonal to all the directions that leave `θ 1 0` as it is. -/
theorem residuals_of_max {counts : List (List L × ℕ)} {θ : Theta} {i j : List L → Nat} {s t : Nat}
    (hmax : ∀ θ' : Theta, θ' 1 0 = θ 1 0 → (∃ p < 2, ∃ a < [s, t].getD p 0, θ' p a ≠ θ p a) →
      (counts.map fun r => Real.log (Real.exp (-Real.exp (θ' 0 (i r.1) + θ' 1 (j r.1))) * Real.exp (θ' 0 (i r.1) + θ' 1 (j r.1)) ^ r.2 / r.2.factorial)).sum <
        (counts.map fun r => Real.log (Real.exp (-Real.exp (θ 0 (i r.1) + θ 1 (j r.1))) * Real.exp (θ 0 (i r.1) + θ 1 (j r.1)) ^ r.2 / r.2.factorial)).sum)
    {u : Nat → Nat → ℝ} (hu : u 1 0 = 0) (hne : ∃ p < 2, ∃ a < [s, t].getD p 0, u p a ≠ 0) :
    (counts.map fun r => (r.2 - Real.exp (θ 0 (i r.1) + θ 1 (j r.1))) * (u 0 (i r.1) + u 1 (j r.1))).sum = 0 := by
  have hid : ∀ b d : ℝ, HasDerivAt (fun z => b + z * d) d 0 := fun b d => by
    simpa using ((hasDerivAt_id (0 : ℝ)).mul_const d).const_add b
  have hd : HasDerivAt (fun z : ℝ => (counts.map fun r => Kind.logProb .poisson (fun _ : Unit × Unit => (θ 0 (i r.1) + z * u 0 (i r.1)) + (θ 1 (j r.1) + z * u 1 (j r.1))) ((), ()) r.2).sum)
      (counts.map fun r => (r.2 - Real.exp (θ 0 (i r.1) + θ 1 (j r.1))) * (u 0 (i r.1) + u 1 (j r.1))).sum 0 := by
    refine hasDerivAt_list_sum counts fun r _ => ?_
    have := logProb_along .poisson trivial (v := r.2) trivial (c := ((), ()))
      (Y := fun z (_ : Unit × Unit) => (θ 0 (i r.1) + z * u 0 (i r.1)) + (θ 1 (j r.1) + z * u 1 (j r.1))) ((hid (θ 0 (i r.1)) (u 0 (i r.1))).add (hid (θ 1 (j r.1)) (u 1 (j r.1))))
    refine this.congr_deriv ?_
    simp [Kind.linkWeight, Kind.mean]
  refine IsLocalMax.hasDerivAt_eq_zero ?_ hd
  refine Filter.Eventually.of_forall fun z => ?_
  by_cases hz : z = 0
  · rw [hz]
  · have := hmax (fun p a => θ p a + z * u p a) (by simp [hu]) (by
      obtain ⟨p, hp, a, ha, h⟩ := hne
      exact ⟨p, hp, a, ha, by simpa using ⟨hz, h⟩⟩)
    simpa [Kind.logProb] using this.le

theorem sum_indicator {ι : Type} (l : List ι) (F : ι → ℝ) (P : ι → Prop) [DecidablePred P] :
    (l.map fun r => F r * if P r then 1 else 0).sum = ((l.filter fun r => P r).map F).sum := by
  induction l with
  | nil => rfl
  | cons r l ih =>
    by_cases h : P r
    · rw [List.map_cons, List.sum_cons, ih, List.filter_cons_of_pos (by simpa using h), if_pos h, mul_one, List.map_cons, List.sum_cons]
    · rw [List.map_cons, List.sum_cons, ih, List.filter_cons_of_neg (by simpa using h), if_neg h, mul_zero, zero_add]

theorem sum_sub_split {ι : Type} (l : List ι) (F G : ι → ℝ) : (l.map fun r => F r - G r).sum = (l.map F).sum - (l.map G).sum := by
  induction l with
  | nil => simp
  | cons r l ih =>
    simp only [List.map_cons, List.sum_cons, ih]
    ring

/-- An instance of `C86_score`: a series of counts with two index levels in which every pair of labels occurs, prepared with `{'N': np.size, 'X': np.sum}` and fitted with the
log-linear Poisson model `a[i] + b[j]`, `b[0]` fixed.  After any number of Newton fits, if the first step of the next one is zero: for each label of each of the two levels, the
fitted counts of its observations have the same total as the observed counts. -/
theorem C86_example (depth : Nat) {counts : List (List L × ℕ)} {obs : Series L ℝ} (hrows : obs.rows = counts.map fun r => (r.1, (r.2 : ℝ)))
    (hw : WellFormed obs.levels obs.names (obs.rows.map Prod.fst)) (hne : counts ≠ []) {addAxis : String → Option (List L)} {res : List (String × Prep.Arr ℝ)} {A B : List L}
    (h : prepareSeries obs [("N", npSize), ("X", npSum)] addAxis = .ok (res, [A, B])) (hall : ∀ x ∈ A, ∀ y ∈ B, ∃ r ∈ counts, r.1 = [x, y])
    {b : List ℝ} (hb : b.length = B.length) (first : FitArgs) (fits : List FitArgs) (hfits : ∀ a ∈ fits, a.kwargs = []) (next : FitArgs)
    (hnext : next.kwargs = []) (hnewton : next.method = .newton) {step g l J}
    (hstep : Fit.newtonStep ((problemOf .poisson (fixProgram A.length b first res ++ fits.map .fit ++ [.fit next])).env next.pinvh next.tol)
      ((Session.run (depth + 2) .poisson (fixProgram A.length b first res ++ fits.map .fit)).params.getD []) = .ok (step, g, l, J)) (h0 : ∀ z ∈ step, z = 0) :
    ∃ (θ : Theta) (i j : List L → Nat), (∀ r ∈ counts, LabelsAt [A, B] [i r.1, j r.1] r.1) ∧
      AtPoint (twoFactor A.length B.length) 2 θ ((Session.run (depth + 2) .poisson (fixProgram A.length b first res ++ fits.map .fit)).params.getD []) ∧
      (∀ x ∈ A, ((counts.filter fun r => r.1[0]? = some x).map fun r => Real.exp (θ 0 (i r.1) + θ 1 (j r.1))).sum = ((counts.filter fun r => r.1[0]? = some x).map fun r => (r.2 : ℝ)).sum) ∧
      ∀ y ∈ B, ((counts.filter fun r => r.1[1]? = some y).map fun r => Real.exp (θ 0 (i r.1) + θ 1 (j r.1))).sum = ((counts.filter fun r => r.1[1]? = some y).map fun r => (r.2 : ℝ)).sum := by
  obtain ⟨θ, i, j, c1, c2, -, c4⟩ := C76_example depth hrows hw hne h hall hb first fits hfits next hnext hnewton
  have hmax := c4 step g l J hstep h0
  have hnd := (series_shape hw h).2.1
  have at0 : ∀ r ∈ counts, A[i r.1]? = r.1[0]? ∧ B[j r.1]? = r.1[1]? ∧ i r.1 < A.length := by
    intro r hr
    have hl := c1 r hr
    generalize r.1 = labels at hl
    cases hl with
    | cons h1 hl =>
      cases hl with
      | cons h2 hl =>
        cases hl
        exact ⟨h1, h2, (List.getElem?_eq_some_iff.1 h1).1⟩
  have key := fun u => residuals_of_max (s := A.length) (t := B.length) hmax (u := u)
  have fin : ∀ (P : List L × ℕ → Prop) [DecidablePred P] (F : List L × ℕ → ℝ), (∀ r ∈ counts, F r = if P r then 1 else 0) →
      (counts.map fun r => (r.2 - Real.exp (θ 0 (i r.1) + θ 1 (j r.1))) * F r).sum = 0 →
      ((counts.filter fun r => P r).map fun r => Real.exp (θ 0 (i r.1) + θ 1 (j r.1))).sum = ((counts.filter fun r => P r).map fun r => (r.2 : ℝ)).sum := by
    intro P _ F hF h
    rw [List.map_congr_left fun r hr => by rw [hF r hr], sum_indicator, sum_sub_split] at h
    linarith
  refine ⟨θ, i, j, c1, c2, fun x hx => ?_, fun y hy => ?_⟩
  · obtain ⟨a, ha⟩ := List.mem_iff_getElem?.1 hx
    have hlt := (List.getElem?_eq_some_iff.1 ha).1
    refine fin _ _ (fun r hr => ?_) (key (fun p q => if p = 0 ∧ q = a then 1 else 0) (by simp) ⟨0, by omega, a, by simpa using hlt, by simp⟩)
    have e : r.1[0]? = some x ↔ i r.1 = a := by
      rw [← (at0 r hr).1, ← ha]
      refine ⟨fun e => ?_, fun e => by rw [e]⟩
      exact (List.Nodup.getElem_inj_iff (hnd A (by simp))).1 (Option.some.inj (by rw [← List.getElem?_eq_getElem (at0 r hr).2.2, ← List.getElem?_eq_getElem hlt, e]))
    simp [e]
  · obtain ⟨a, ha⟩ := List.mem_iff_getElem?.1 hy
    have hlt := (List.getElem?_eq_some_iff.1 ha).1
    have e : ∀ r ∈ counts, (r.1[1]? = some y ↔ j r.1 = a) := by
      intro r hr
      rw [← (at0 r hr).2.1, ← ha]
      refine ⟨fun e => ?_, fun e => by rw [e]⟩
      have hj : j r.1 < B.length := by
        by_contra hj
        rw [List.getElem?_eq_none (by omega), ha] at e
        cases e
      exact (List.Nodup.getElem_inj_iff (hnd B (by simp))).1 (Option.some.inj (by rw [← List.getElem?_eq_getElem hj, ← List.getElem?_eq_getElem hlt, e]))
    rcases Nat.eq_zero_or_pos a with ha0 | ha0
    · subst ha0
      obtain ⟨r0, hr0⟩ := List.exists_mem_of_ne_nil _ hne
      refine fin _ _ (fun r hr => ?_) (key (fun p q => if p = 0 then 1 else if q = 0 then 0 else -1) (by simp) ⟨0, by omega, i r0.1, by simpa using (at0 r0 hr0).2.2, by simp⟩)
      by_cases hj : j r.1 = 0 <;> simp [e r hr, hj]
    · refine fin _ _ (fun r hr => ?_) (key (fun p q => if p = 1 ∧ q = a then 1 else 0) (by simp; omega) ⟨1, by omega, a, by simpa using hlt, by simp⟩)
      simp [e r hr]

end

end Verif.Tens
