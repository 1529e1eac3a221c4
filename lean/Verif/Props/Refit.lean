import Verif.Props.NewtonSteps

/-!
# C68: where a fit stays
-/

set_option linter.unusedSectionVars false

namespace Verif.Tens
open Verif.Params

variable {pr : Problem} {m : Nat} {dom : Theta → Prop} {L : Theta → ℝ} {M : MaxLikeT ℝ} {gs : List Con} {φs : List Pen} {T : ℝ}
  {pinvh : List (List ℝ) → Except Err (List (List ℝ))} {tol : ℝ}

/-- The point at which a Newton loop ends. -/
theorem loop_rises (hM : Solver pr m (fun _ => True) M L gs φs T) (hT : 0 < T) {θ0 : Theta} {o : Fit.Obj ℝ (List (List ℝ))} (hat0 : AtPoint pr m θ0 o.params)
    (hF : 1 ≤ totalFree o.params) (ht : 0 < tol) (vb : Nat) (b : Bool) : ∀ (n : Nat) (ps : List (Param ℝ)) (flat : List ℝ) (θ : Theta), AtPoint pr m θ ps → SameLayout ps o.params →
      (∀ i a, isFixed o.params i a → θ i a = θ0 i a) → FlatAt o.params θ flat → (Fit.newtonLoop (M.env pinvh tol) vb o n ps flat).outcome = .ok b →
      ∃ θ', AtPoint pr m θ' (Fit.newtonLoop (M.env pinvh tol) vb o n ps flat).obj.params ∧
        (penalised L φs θ < penalised L φs θ' ∨ penalised L φs θ = penalised L φs θ' ∧ (FirstOrder ps (penalised L φs) gs θ ∨ ∃ i a, isFree ps i a ∧ θ' i a ≠ θ i a))
  | 0, ps, flat, θ, _, _, _, _, hout => by cases hout
  | n + 1, ps, flat, θ, hat, hlay, hfix, hflat, hout => by
    obtain ⟨D, H, hD, hst⟩ := C68_newton_step hM
    have hF' : 1 ≤ totalFree ps := by rw [Flat.SameLayout.totalFree hlay]; exact hF
    rw [Fit.newtonLoop] at hout ⊢
    rcases hst pinvh tol θ trivial ps hat hF' with ⟨step, μ, v, J, e, n1, -⟩ | ⟨e, -⟩
    · rw [e] at hout ⊢
      dsimp only at hout ⊢
      rw [show (M.env pinvh tol).one = 1 from rfl] at hout ⊢
      rcases inner_trial (pinvh := pinvh) (tol := tol) hM hat0 hat hlay hfix hflat n1.len vb (penalised L φs θ / T) 5 1 with
        ⟨tr, k, h1, -⟩ | ⟨j, hj, f, q, tr, k, h1, h2, h3, h4, h5⟩
      · rw [h1] at hout
        cases hout
      · rw [h1] at hout ⊢
        dsimp only at hout ⊢
        rw [div_le_div_iff_of_pos_right hT] at h2
        have hμ : (1 : ℝ) / 2 ^ j ≠ 0 := by positivity
        have hz0 := zero_iff_step (θ := θ) hat.masks n1.len hμ
        set θ1 := stepTo ps θ (step.map (1 / 2 ^ j * ·)) with hθ1
        have hc : (M.env pinvh tol).conv (penalised L φs θ / T) (penalised L φs θ1 / T) = if penalised L φs θ1 / T = 0 then .error .zeroDivision else
            .ok (decide (|penalised L φs θ / T / (penalised L φs θ1 / T) - 1| < tol)) := rfl
        rw [hc] at hout ⊢
        by_cases hz : penalised L φs θ1 / T = 0
        · rw [if_pos hz] at hout
          cases hout
        · rw [if_neg hz, div_div_div_cancel_right₀ hM.ne] at hout ⊢
          have hne : penalised L φs θ1 ≠ 0 := fun h => hz (by rw [h, zero_div])
          by_cases hlt : |penalised L φs θ / penalised L φs θ1 - 1| < tol
          · rw [decide_eq_true hlt]
            dsimp only
            refine ⟨θ1, h4, ?_⟩
            rcases h2.lt_or_eq with h2 | h2
            · exact Or.inl h2
            · refine Or.inr ⟨h2, ?_⟩
              by_contra hcon
              push Not at hcon
              exact hcon.1 ((C68_step_zero_iff hM trivial hat hF' e).1 (hz0 hcon.2))
          · rw [decide_eq_false hlt] at hout ⊢
            dsimp only at hout ⊢
            obtain ⟨θ', p0, p1⟩ := loop_rises hM hT hat0 hF ht vb b n q f θ1 h4 h3 (fun i a h => by
              rw [hθ1]; unfold stepTo
              rw [if_neg (fun h' => not_free_of_fixed h ((layout_free hlay).1 h')), hfix i a h]) h5 hout
            refine ⟨θ', p0, Or.inl ?_⟩
            have hlt' : penalised L φs θ < penalised L φs θ1 := by
              refine lt_of_le_of_ne h2 fun h => hlt ?_
              rw [h, div_self hne, sub_self, abs_zero]
              exact ht
            rcases p1 with p1 | ⟨p1, -⟩
            · exact hlt'.trans p1
            · rwa [← p1]
    · rw [e] at hout
      cases hout

/-- **C68.** The converse of C68_optimum_kept: a Newton fit that returns and leaves the parameters as they were started where the first order conditions hold (for data with a positive total weight). -/
theorem C68_kept_only (hM : Solver pr m (fun _ => True) M L gs φs T) (hT : 0 < T) {θ : Theta} {o : Fit.Obj ℝ (List (List ℝ))} (hat : AtPoint pr m θ o.params) (hF : 1 ≤ totalFree o.params)
    (ht : 0 < tol) {maxSteps verbose : Nat} {r : Fit.Result ℝ (List (List ℝ))} (hr : r = Fit.fit (M.env pinvh tol) o maxSteps verbose .newton) {b : Bool} (hb : r.outcome = .ok b)
    (hsame : r.obj.params = o.params) : FirstOrder o.params (penalised L φs) gs θ := by
  unfold Fit.fit at hr
  rw [flatParams_ok (hat.ne hM.pos)] at hr
  obtain ⟨θ', h1, h2⟩ := loop_rises (pinvh := pinvh) hM hT hat hF ht verbose b maxSteps o.params _ θ hat rfl (fun _ _ _ => rfl) (flatAt_start hat hM.pos) (by rw [← hb, hr])
  dsimp only at hr
  rw [← hr, hsame] at h1
  have e : penalised L φs θ' = penalised L φs θ := by
    have a := C68_objective (pinvh := pinvh) (tol := tol) hM trivial h1
    rw [C68_objective (pinvh := pinvh) (tol := tol) hM trivial hat] at a
    have a := Except.ok.inj a
    field_simp [hT.ne'] at a
    exact a.symm
  rcases h2 with h2 | ⟨-, h2 | ⟨i, x, hf, hne⟩⟩
  · rw [e] at h2
    exact absurd h2 (lt_irrefl _)
  · exact h2
  · refine absurd ?_ hne
    obtain ⟨q0, c1, c2⟩ := hf
    have hi : i < m := by rw [← hat.len]; exact (List.getElem?_eq_some_iff.1 c1).1
    obtain ⟨q, a1, a2, a3, a4, a5⟩ := hat.each i hi
    obtain ⟨q', b1, b2, b3, b4, b5⟩ := h1.each i hi
    obtain rfl : q = q0 := Option.some.inj (a1.symm.trans c1)
    obtain rfl : q = q' := Option.some.inj (a1.symm.trans b1)
    have hl : x < q.shape.prod := by rw [← a3]; exact (List.getElem?_eq_some_iff.1 c2).1
    rw [← a5 x hl, ← b5 x hl]

end Verif.Tens
