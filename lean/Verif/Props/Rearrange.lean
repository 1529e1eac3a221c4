import Verif.Spec.Rearrange
import Verif.Props.Symmetry
import Verif.Props.NewtonSteps

/-!
# C79: the estimates do not depend on how the problem is written down
-/

set_option linter.unusedSectionVars false

namespace Verif.Tens
open Verif.Params
open NDArray

section
variable {e : Nat × Nat ≃ Nat × Nat}

theorem pull_set (θ : Theta) (i a : Nat) (t : ℝ) : Theta.set (pull e θ) i a t = pull e (θ.set (e (i, a)).1 (e (i, a)).2 t) := by
  funext i' a'
  unfold Theta.set pull
  beta_reduce
  by_cases h : i' = i ∧ a' = a
  · rw [if_pos h, h.1, h.2, if_pos ⟨rfl, rfl⟩]
  · rw [if_neg h, if_neg]
    rintro ⟨h1, h2⟩
    have := e.injective (Prod.ext h1 h2)
    rw [Prod.mk.injEq] at this
    exact h this

theorem pull_symm (θ : Theta) : pull e.symm (pull e θ) = θ := by
  funext i a
  unfold pull
  simp

theorem pull_symm' (θ : Theta) : pull e (pull e.symm θ) = θ := by
  funext i a
  unfold pull
  simp

theorem hasPartial_pull {P P' : Theta → ℝ} (h : ∀ θ : Theta, P' (pull e θ) = P θ) {θ : Theta} {i a : Nat} {d : ℝ} :
    HasPartial P' (pull e θ) i a d ↔ HasPartial P θ (e (i, a)).1 (e (i, a)).2 d := by
  unfold HasPartial
  have : (fun t => P' (Theta.set (pull e θ) i a t)) = fun t => P (θ.set (e (i, a)).1 (e (i, a)).2 t) := by
    funext t
    rw [pull_set, h]
  rw [this]
  rfl

theorem SameFree.symm {ps ps' : List (Param ℝ)} (h : SameFree e ps ps') : SameFree e.symm ps' ps := fun x => by
  have := h (e.symm x)
  rw [Equiv.apply_symm_apply] at this
  exact this.symm

/-- The same Newton system, in another order and with the objective multiplied by `c`. -/
structure SameSystem (e : Nat × Nat ≃ Nat × Nat) (c : ℝ) (ps' : List (Param ℝ)) (D : Nat → Nat → ℝ) (H : Nat → Nat → Nat → Nat → ℝ) (ders : List (Nat → Nat → ℝ))
    (D' : Nat → Nat → ℝ) (H' : Nat → Nat → Nat → Nat → ℝ) (ders' : List (Nat → Nat → ℝ)) : Prop where
  first : ∀ x : Nat × Nat, isFree ps' x.1 x.2 → D' x.1 x.2 = c * D (e x).1 (e x).2
  second : ∀ x y : Nat × Nat, isFree ps' x.1 x.2 → isFree ps' y.1 y.2 → bothSides H' x.1 x.2 y.1 y.2 = c * bothSides H (e x).1 (e x).2 (e y).1 (e y).2
  ders : List.Forall₂ (fun d d' : Nat → Nat → ℝ => ∀ x : Nat × Nat, isFree ps' x.1 x.2 → d' x.1 x.2 = d (e x).1 (e x).2) ders ders'

theorem SameSystem.symm {ps ps' : List (Param ℝ)} (hf : SameFree e ps ps') {D D' : Nat → Nat → ℝ} {H H' : Nat → Nat → Nat → Nat → ℝ} {ders ders' : List (Nat → Nat → ℝ)}
    {c : ℝ} (hc : c ≠ 0) (h : SameSystem e c ps' D H ders D' H' ders') : SameSystem e.symm c⁻¹ ps D' H' ders' D H ders := by
  have hs := hf.symm
  refine ⟨fun x hx => ?_, fun x y hx hy => ?_, h.ders.flip.imp fun d' d hd x hx => ?_⟩
  · have := h.first _ ((hs x).1 hx)
    rw [Equiv.apply_symm_apply] at this
    rw [this, inv_mul_cancel_left₀ hc]
  · have := h.second _ _ ((hs x).1 hx) ((hs y).1 hy)
    rw [Equiv.apply_symm_apply, Equiv.apply_symm_apply] at this
    rw [this, inv_mul_cancel_left₀ hc]
  · have := hd _ ((hs x).1 hx)
    rw [Equiv.apply_symm_apply] at this
    exact this.symm

theorem freeSum_pull {ps ps' : List (Param ℝ)} (hw : ∀ p ∈ ps, p.mask.length = p.shape.prod) (hw' : ∀ p ∈ ps', p.mask.length = p.shape.prod) (hf : SameFree e ps ps')
    {F F' : Nat → Nat → ℝ} (h : ∀ x : Nat × Nat, isFree ps' x.1 x.2 → F' x.1 x.2 = F (e x).1 (e x).2) : freeSum ps' F' = freeSum ps F := by
  rw [freeSum_eq hw, freeSum_eq hw']
  refine Finset.sum_bij (fun x _ => e x) (fun x hx => ?_) (fun x _ y _ h => e.injective h) (fun y hy => ⟨e.symm y, ?_, e.apply_symm_apply y⟩) fun x hx => h x (mem_freeSet.1 hx)
  · exact mem_freeSet.2 ((hf x).1 (mem_freeSet.1 hx))
  · exact mem_freeSet.2 ((hf.symm y).1 (mem_freeSet.1 hy))

/-- The direction `u`, as the list of its free entries. -/
noncomputable def listOf (ps : List (Param ℝ)) (u : Nat → Nat → ℝ) : List ℝ := (Flat.freePairs ps).map fun x => u x.1 x.2

theorem listOf_length (ps : List (Param ℝ)) (u : Nat → Nat → ℝ) : (listOf ps u).length = totalFree ps := by
  unfold listOf
  rw [List.length_map, Flat.freePairs, Flat.freePairsFrom_length]

theorem dirOf_listOf {ps : List (Param ℝ)} (u : Nat → Nat → ℝ) {i a : Nat} (h : isFree ps i a) : dirOf ps (listOf ps u) i a = u i a := by
  unfold dirOf listOf
  rw [List.getD_eq_getElem?_getD, List.getElem?_map, Flat.freePairs_getElem? ps i a h]
  rfl

theorem eq_listOf {ps : List (Param ℝ)} {l : List ℝ} (hl : l.length = totalFree ps) {u : Nat → Nat → ℝ} (h : ∀ i a, isFree ps i a → dirOf ps l i a = u i a) : l = listOf ps u := by
  refine List.ext_getElem? fun r => ?_
  by_cases hr : r < totalFree ps
  · obtain ⟨i, a, hia, rfl, -⟩ := pair_of_lt hr
    have e3 := h i a hia
    have e4 := dirOf_listOf u hia
    have l1 : freeRank ps i a < l.length := by rw [hl]; exact hr
    have l2 : freeRank ps i a < (listOf ps u).length := by rw [listOf_length]; exact hr
    unfold dirOf at e3 e4
    rw [List.getD_eq_getElem?_getD, List.getElem?_eq_getElem l1] at e3
    rw [List.getD_eq_getElem?_getD, List.getElem?_eq_getElem l2] at e4
    rw [List.getElem?_eq_getElem l1, List.getElem?_eq_getElem l2]
    exact congrArg some (e3.trans e4.symm)
  · rw [List.getElem?_eq_none (by rw [hl]; omega), List.getElem?_eq_none (by rw [listOf_length]; omega)]

theorem newton_transfer {ps ps' : List (Param ℝ)} (hw : ∀ p ∈ ps, p.mask.length = p.shape.prod) (hw' : ∀ p ∈ ps', p.mask.length = p.shape.prod) (hf : SameFree e ps ps')
    {D D' : Nat → Nat → ℝ} {H H' : Nat → Nat → Nat → Nat → ℝ} {ders ders' : List (Nat → Nat → ℝ)} {c : ℝ} (h : SameSystem e c ps' D H ders D' H' ders') {res step μ : List ℝ}
    (hn : NewtonStep ps D H ders res step μ) :
    NewtonStep ps' D' H' ders' res (listOf ps' fun i a => dirOf ps step (e (i, a)).1 (e (i, a)).2) (μ.map (c * ·)) := by
  set u : Nat → Nat → ℝ := fun i a => dirOf ps step (e (i, a)).1 (e (i, a)).2 with hu
  have hd : ∀ i a, isFree ps' i a → (listOf ps' u).getD (freeRank ps' i a) 0 = step.getD (freeRank ps (e (i, a)).1 (e (i, a)).2) 0 := fun i a hia => dirOf_listOf u hia
  have hl : ders.length = ders'.length := h.ders.length_eq
  refine ⟨listOf_length _ _, by rw [List.length_map]; exact hn.multipliers.trans hl, fun i a hia => ?_, fun k d' r hd' hr => ?_⟩
  · rw [h.first (i, a) hia, ← hn.stationary (e (i, a)).1 (e (i, a)).2 ((hf (i, a)).1 hia)]
    rw [mul_add]
    congr 1
    · rw [freeSum_eq hw, Finset.mul_sum, ← freeSum_eq hw fun j b => c * (bothSides H (e (i, a)).1 (e (i, a)).2 j b * step.getD (freeRank ps j b) 0)]
      refine freeSum_pull hw hw' hf fun x hx => ?_
      rw [h.second (i, a) x hia hx, hd x.1 x.2 hx, mul_assoc]
    · have : ∀ {l l' : List (Nat → Nat → ℝ)} (μ : List ℝ), List.Forall₂ (fun d d' : Nat → Nat → ℝ => ∀ x : Nat × Nat, isFree ps' x.1 x.2 → d' x.1 x.2 = d (e x).1 (e x).2) l l' →
          ((l'.zip (μ.map (c * ·))).map fun x => x.1 i a * x.2).sum = c * ((l.zip μ).map fun x => x.1 (e (i, a)).1 (e (i, a)).2 * x.2).sum := by
        intro l l' μ h
        induction h generalizing μ with
        | nil => simp
        | cons h1 _ ih =>
          cases μ with
          | nil => simp
          | cons y μ =>
            simp only [List.map_cons, List.zip_cons_cons, List.sum_cons]
            rw [ih μ, h1 (i, a) hia]
            ring
      exact this μ h.ders
  · have hk : k < ders.length := by
      rw [hl]
      exact (List.getElem?_eq_some_iff.1 hd').1
    have hdk := List.getElem?_eq_getElem hk
    rw [← hn.feasible k _ r hdk hr]
    refine freeSum_pull hw hw' hf fun x hx => ?_
    have := (List.forall₂_iff_get.1 h.ders).2 k hk (by rw [← hl]; exact hk) x hx
    have e2 : ders'[k]'(by rw [← hl]; exact hk) = d' := (List.getElem?_eq_some_iff.1 hd').2
    rw [hd x.1 x.2 hx]
    simp only [List.get_eq_getElem] at this
    rw [e2] at this
    rw [this]

end

section
variable {e : Nat × Nat ≃ Nat × Nat} {pr pr' : Problem} {m m' : Nat} {L L' : Theta → ℝ} {M M' : MaxLikeT ℝ} {gs gs' : List Con} {φs φs' : List Pen} {T T' c k κ : ℝ}
  {pinvh : List (List ℝ) → Except Err (List (List ℝ))} {tol : ℝ}

/-- A second derivative, in either order. -/
theorem both_of {P : Theta → ℝ} {D : Theta → Nat → Nat → ℝ} {H : Theta → Nat → Nat → Nat → Nat → ℝ} (hD : Derivs pr m (fun _ => True) P D H) {θ : Theta} (hs : Smooth2 P θ)
    {z w : Nat × Nat} (hz : pr.HasEntry m z) (hw : pr.HasEntry m w) {h : ℝ}
    (h1 : HasPartial (fun θ => D θ z.1 z.2) θ w.1 w.2 h ∨ HasPartial (fun θ => D θ w.1 w.2) θ z.1 z.2 h) : bothSides (H θ) z.1 z.2 w.1 w.2 = h := by
  have fz : ∀ θ, True → HasPartial P θ z.1 z.2 (D θ z.1 z.2) := fun θ _ => hD.first θ trivial z.1 hz.1 z.2 hz.2
  have fw : ∀ θ, True → HasPartial P θ w.1 w.2 (D θ w.1 w.2) := fun θ _ => hD.first θ trivial w.1 hw.1 w.2 hw.2
  unfold bothSides
  split_ifs with hlt
  · have h2 := hD.second θ trivial z.1 hz.1 w.1 hlt.le z.2 hz.2 w.2 hw.2
    rcases h1 with h1 | h1
    · exact hasPartial_unique h2 h1
    · exact second_symm hs (roomy_true θ) fz fw h2 h1
  · have h2 := hD.second θ trivial w.1 hw.1 z.1 (not_lt.1 hlt) w.2 hw.2 z.2 hz.2
    rcases h1 with h1 | h1
    · exact second_symm hs (roomy_true θ) fw fz h2 h1
    · exact hasPartial_unique h2 h1

/-- The derivatives of the rearranged problem. -/
theorem same_system (hM : Solver pr m (fun _ => True) M L gs φs T) (hM' : Solver pr' m' (fun _ => True) M' L' gs' φs' T')
    (hc0 : c ≠ 0) (hsame : ScaledProblem e c k pr m (penalised L φs) gs pr' m' (penalised L' φs') gs') (hsm : ∀ θ, Smooth2 (penalised L φs) θ)
    {D D' : Theta → Nat → Nat → ℝ} {H H' : Theta → Nat → Nat → Nat → Nat → ℝ} (hD : Derivs pr m (fun _ => True) (penalised L φs) D H)
    (hD' : Derivs pr' m' (fun _ => True) (penalised L' φs') D' H') (θ : Theta) {ps' : List (Param ℝ)} (hat' : AtPoint pr' m' (pull e θ) ps') :
    SameSystem e c ps' (D θ) (H θ) (gs.map fun c => c.der θ) (D' (pull e θ)) (H' (pull e θ)) (gs'.map fun c => c.der (pull e θ)) := by
  have hent : ∀ x : Nat × Nat, isFree ps' x.1 x.2 → pr'.HasEntry m' x := fun x hx => hat'.free hx
  have first : ∀ (θ : Theta) (x : Nat × Nat), pr'.HasEntry m' x → D' (pull e θ) x.1 x.2 = c * D θ (e x).1 (e x).2 := by
    intro θ x hx
    have h1 := (hasPartial_pull (i := x.1) (a := x.2) hsame.objective).1 (hD'.first (pull e θ) trivial x.1 hx.1 x.2 hx.2)
    have hx' := (hsame.entries x).1 hx
    exact hasPartial_unique h1 (((hD.first θ trivial _ hx'.1 _ hx'.2).const_mul c).add_const k)
  refine ⟨fun x hx => first θ x (hent x hx), fun x y hx hy => ?_, ?_⟩
  · have hx1 := hent x hx
    have hy1 := hent y hy
    have hP : ∀ {F : Theta → ℝ} {i a : Nat} {d : ℝ}, HasPartial (fun θ => c * F θ) θ i a d → HasPartial F θ i a (c⁻¹ * d) := fun h => by
      have := h.const_mul c⁻¹
      unfold HasPartial
      simpa only [inv_mul_cancel_left₀ hc0] using this
    rw [both_of hD (hsm θ) ((hsame.entries x).1 hx1) ((hsame.entries y).1 hy1) (h := c⁻¹ * bothSides (H' (pull e θ)) x.1 x.2 y.1 y.2) ?_, mul_inv_cancel_left₀ hc0]
    unfold bothSides
    split_ifs with hlt
    · left
      refine hP ?_
      exact (hasPartial_pull (i := y.1) (a := y.2) fun θ => first θ x hx1).1 (hD'.second (pull e θ) trivial x.1 hx1.1 y.1 hlt.le x.2 hx1.2 y.2 hy1.2)
    · right
      refine hP ?_
      exact (hasPartial_pull (i := x.1) (a := x.2) fun θ => first θ y hy1).1 (hD'.second (pull e θ) trivial y.1 hy1.1 x.1 (not_lt.1 hlt) y.2 hy1.2 x.2 hx1.2)
  · rw [List.forall₂_map_left_iff, List.forall₂_map_right_iff]
    have key : ∀ {l : List Con} {l' : List Con}, (∀ c ∈ l, ∃ t, IsConstraint (cOrder pr m) t c.val c.der) → (∀ c ∈ l', ∃ t, IsConstraint (cOrder pr' m') t c.val c.der) →
        List.Forall₂ (fun g g' : Con => ∀ θ : Theta, g'.val (pull e θ) = g.val θ) l l' →
        List.Forall₂ (fun c c' : Con => ∀ x : Nat × Nat, isFree ps' x.1 x.2 → c'.der (pull e θ) x.1 x.2 = c.der θ (e x).1 (e x).2) l l' := by
      intro l l' hl hl' h
      induction h with
      | nil => exact .nil
      | @cons c c' l l' h1 _ ih =>
        refine .cons (fun x hx => ?_) (ih (fun d hd => hl d (List.mem_cons_of_mem _ hd)) fun d hd => hl' d (List.mem_cons_of_mem _ hd))
        obtain ⟨t, ht⟩ := hl c List.mem_cons_self
        obtain ⟨t', ht'⟩ := hl' c' List.mem_cons_self
        have hx1 := hent x hx
        have hx2 := (hsame.entries x).1 hx1
        exact hasPartial_unique ((hasPartial_pull (i := x.1) (a := x.2) h1).1 (ht'.partials (pull e θ) x.1 hx1.1 x.2 (entry_iff.2 hx1.2)))
          (ht.partials θ _ hx2.1 _ (entry_iff.2 hx2.2))
    exact key (fun c hc => forall₂_right hM.constraints c hc) (fun c hc => forall₂_right hM'.constraints c hc) hsame.constraints

/-- The Newton steps of the two problems: both fail, or they are the same direction. -/
theorem newton_same (hM : Solver pr m (fun _ => True) M L gs φs T) (hM' : Solver pr' m' (fun _ => True) M' L' gs' φs' T')
    (hc0 : c ≠ 0) (hob : ∀ θ : Theta, penalised L' φs' (pull e θ) / T' = penalised L φs θ / T + κ) (hsame : ScaledProblem e c k pr m (penalised L φs) gs pr' m' (penalised L' φs') gs') (hsm : ∀ θ, Smooth2 (penalised L φs) θ) (θ : Theta) {ps ps' : List (Param ℝ)}
    (hat : AtPoint pr m θ ps) (hat' : AtPoint pr' m' (pull e θ) ps') (hf : SameFree e ps ps') (hF : 1 ≤ totalFree ps) (hF' : 1 ≤ totalFree ps') :
    (Fit.newtonStep (M.env pinvh tol) ps = .error .linAlg ∧ Fit.newtonStep (M'.env pinvh tol) ps' = .error .linAlg) ∨
    ∃ step step' v v' J J', Fit.newtonStep (M.env pinvh tol) ps = .ok (step, penalised L φs θ / T, v, J) ∧
      Fit.newtonStep (M'.env pinvh tol) ps' = .ok (step', penalised L φs θ / T + κ, v', J') ∧ step.length = totalFree ps ∧ step'.length = totalFree ps' ∧
      ∀ x : Nat × Nat, isFree ps' x.1 x.2 → dirOf ps' step' x.1 x.2 = dirOf ps step (e x).1 (e x).2 := by
  obtain ⟨D, H, hD, h⟩ := C68_newton_step hM
  obtain ⟨D', H', hD', h'⟩ := C68_newton_step hM'
  have hS := same_system hM hM' hc0 hsame hsm hD hD' θ hat'
  have hS' := hS.symm hf hc0
  have hres : (gs'.map fun c => c.val (pull e θ)) = gs.map fun c => c.val θ := by
    have := hsame.constraints
    clear * - this
    induction this with
    | nil => rfl
    | cons h _ ih => rw [List.map_cons, List.map_cons, ih, h]
  have h := h pinvh tol θ trivial ps hat hF
  have h' := h' pinvh tol (pull e θ) trivial ps' hat' hF'
  rw [hres, hob] at h'
  have fwd := fun {step μ} hn => newton_transfer (res := gs.map fun c => c.val θ) (step := step) (μ := μ) hat.masks hat'.masks hf hS hn
  have bwd := fun {step μ} hn => newton_transfer (res := gs.map fun c => c.val θ) (step := step) (μ := μ) hat'.masks hat.masks hf.symm hS' hn
  rcases h with ⟨step, μ, v, J, e1, n1, u1⟩ | ⟨e1, u1⟩
  · right
    rcases h' with ⟨step', μ', v', J', e2, n2, u2⟩ | ⟨e2, u2⟩
    · refine ⟨step, step', v, v', J, J', e1, e2, n1.len, n2.len, fun x hx => ?_⟩
      rw [← (u2 _ _ (fwd n1)).1]
      exact dirOf_listOf _ hx
    · refine absurd ⟨(_, _), fwd n1, fun y hy => ?_⟩ u2
      have hb := u1 _ _ (bwd hy)
      refine Prod.ext ?_ (by rw [← hb.2, List.map_map]; refine (List.map_id _).symm.trans (List.map_congr_left fun z _ => ?_); exact (mul_inv_cancel_left₀ hc0 z).symm)
      refine eq_listOf (u := fun i a => dirOf ps step (e (i, a)).1 (e (i, a)).2) hy.len fun i a hia => ?_
      rw [← hb.1, dirOf_listOf _ ((hf (i, a)).1 hia)]
      simp
  · left
    refine ⟨e1, ?_⟩
    rcases h' with ⟨step', μ', v', J', e2, n2, u2⟩ | ⟨e2, u2⟩
    · refine absurd ⟨(_, _), bwd n2, fun y hy => ?_⟩ u1
      have hb := u2 _ _ (fwd hy)
      refine Prod.ext ?_ (by rw [← hb.2, List.map_map]; refine (List.map_id _).symm.trans (List.map_congr_left fun z _ => ?_); exact (inv_mul_cancel_left₀ hc0 z).symm)
      refine eq_listOf (u := fun i a => dirOf ps' step' (e.symm (i, a)).1 (e.symm (i, a)).2) hy.len fun i a hia => ?_
      rw [← hb.1, dirOf_listOf _ ((hf.symm (i, a)).1 hia)]
      simp
    · exact e2

/-- The point after a step. -/
theorem pull_stepTo {ps ps' : List (Param ℝ)} (hf : SameFree e ps ps') (θ : Theta) {step step' : List ℝ} (hl : step.length = totalFree ps) (hl' : step'.length = totalFree ps')
    (h : ∀ x : Nat × Nat, isFree ps' x.1 x.2 → dirOf ps' step' x.1 x.2 = dirOf ps step (e x).1 (e x).2) (μ : ℝ) :
    stepTo ps' (pull e θ) (step'.map (μ * ·)) = pull e (stepTo ps θ (step.map (μ * ·))) := by
  classical
  funext i a
  have e0 : pull e (stepTo ps θ (step.map (μ * ·))) i a = stepTo ps θ (step.map (μ * ·)) (e (i, a)).1 (e (i, a)).2 := rfl
  rw [e0]
  unfold stepTo
  have hm : ∀ {qs : List (Param ℝ)} {s : List ℝ} {j b : Nat}, s.length = totalFree qs → isFree qs j b → dirOf qs (s.map (μ * ·)) j b = μ * dirOf qs s j b := by
    intro qs s j b hs hj
    unfold dirOf
    have hlt : freeRank qs j b < s.length := by rw [hs]; exact rank_lt hj
    rw [List.getD_eq_getElem?_getD, List.getD_eq_getElem?_getD, List.getElem?_map, List.getElem?_eq_getElem hlt]
    rfl
  by_cases hia : isFree ps' i a
  · have hia' := (hf (i, a)).1 hia
    rw [if_pos hia, if_pos hia', hm hl' hia, hm hl hia', h (i, a) hia]
    rfl
  · rw [if_neg hia, if_neg fun h' => hia ((hf (i, a)).2 h')]
    rfl

/-- The line searches of the two fits. -/
theorem inner_same (hM : Solver pr m (fun _ => True) M L gs φs T) (hM' : Solver pr' m' (fun _ => True) M' L' gs' φs' T')
    (hob : ∀ θ : Theta, penalised L' φs' (pull e θ) / T' = penalised L φs θ / T + κ)
    {θ0 θ : Theta} {params params' ps ps' : List (Param ℝ)} (hat0 : AtPoint pr m θ0 params) (hat0' : AtPoint pr' m' (pull e θ0) params') (hat : AtPoint pr m θ ps)
    (hat' : AtPoint pr' m' (pull e θ) ps') (hlay : SameLayout ps params) (hlay' : SameLayout ps' params') (hfix : ∀ i a, isFixed params i a → θ i a = θ0 i a)
    (hfix' : ∀ i a, isFixed params' i a → pull e θ i a = pull e θ0 i a) {flat flat' step step' : List ℝ} (hflat : FlatAt params θ flat) (hflat' : FlatAt params' (pull e θ) flat')
    (hf : SameFree e ps ps') (hl : step.length = totalFree ps) (hl' : step'.length = totalFree ps')
    (hd : ∀ x : Nat × Nat, isFree ps' x.1 x.2 → dirOf ps' step' x.1 x.2 = dirOf ps step (e x).1 (e x).2) (vb : Nat) (g : ℝ) : ∀ (n : Nat) (μ : ℝ),
    ∃ r r' tr tr' k, Fit.inner (M.env pinvh tol) vb params flat step g n μ = (.ok r, tr, k) ∧ Fit.inner (M'.env pinvh tol) vb params' flat' step' (g + κ) n μ = (.ok r', tr', k) ∧
      List.Forall₂ (SamePoint e pr m pr' m') tr tr' ∧ ((r = none ∧ r' = none) ∨ ∃ ν flat1 flat1' ps1 ps1' g1, r = some (flat1, ps1, g1) ∧ r' = some (flat1', ps1', g1 + κ) ∧
        SameLayout ps1 params ∧ SameLayout ps1' params' ∧ AtPoint pr m (stepTo ps θ (step.map (ν * ·))) ps1 ∧ AtPoint pr' m' (pull e (stepTo ps θ (step.map (ν * ·)))) ps1' ∧
        FlatAt params (stepTo ps θ (step.map (ν * ·))) flat1 ∧ FlatAt params' (pull e (stepTo ps θ (step.map (ν * ·)))) flat1')
  | 0, μ => ⟨none, none, [], [], 0, rfl, rfl, .nil, Or.inl ⟨rfl, rfl⟩⟩
  | n + 1, μ => by
    obtain ⟨fl, qs, t1, t2, t3, t4, t5⟩ := trial_point hat0 hM.pos hat hlay hfix hflat hl μ
    obtain ⟨fl', qs', t1', t2', t3', t4', t5'⟩ := trial_point hat0' hM'.pos hat' hlay' hfix' hflat' hl' μ
    rw [pull_stepTo hf θ hl hl' hd μ] at t4' t5'
    have o1 := C68_objective (pinvh := pinvh) (tol := tol) hM trivial t4
    have o2 := C68_objective (pinvh := pinvh) (tol := tol) hM' trivial t4'
    rw [hob] at o2
    rw [Fit.inner, Fit.inner, t1, t1']
    dsimp only
    rw [t2, t2']
    dsimp only
    rw [o1, o2]
    dsimp only
    have hsp : SamePoint e pr m pr' m' qs qs' := ⟨_, t4, t4'⟩
    have hge : ∀ x y : ℝ, (M'.env pinvh tol).ge (x + κ) (y + κ) = (M.env pinvh tol).ge x y := fun x y => by
      show decide _ = decide _
      exact decide_eq_decide.2 (add_le_add_iff_right κ)
    have half : (M'.env pinvh tol).half = (M.env pinvh tol).half := rfl
    rw [hge, half]
    by_cases hg : (M.env pinvh tol).ge (penalised L φs (stepTo ps θ (step.map (μ * ·))) / T) g = true
    · rw [if_pos hg, if_pos hg]
      exact ⟨_, _, _, _, _, rfl, rfl, .cons hsp .nil, Or.inr ⟨μ, _, _, _, _, _, rfl, rfl, t3, t3', t4, t4', t5, t5'⟩⟩
    · rw [if_neg hg, if_neg hg]
      obtain ⟨r, r', tr, tr', k, i1, i2, i3, i4⟩ := inner_same hM hM' hob hat0 hat0' hat hat' hlay hlay' hfix hfix' hflat hflat' hf hl hl' hd vb g n (μ * (M.env pinvh tol).half)
      rw [i1, i2]
      exact ⟨r, r', _, _, _, rfl, rfl, .cons hsp i3, i4⟩

/-- What the two fits have stored comes from the same point. -/
def StoredSame (e : Nat × Nat ≃ Nat × Nat) (pr : Problem) (m : Nat) (pr' : Problem) (m' : Nat) (M M' : MaxLikeT ℝ) (pinvh : List (List ℝ) → Except Err (List (List ℝ))) (tol : ℝ)
    (o o' : Fit.Obj ℝ (List (List ℝ))) (r r' : Fit.Result ℝ (List (List ℝ))) : Prop :=
  ∀ b, r.outcome = .ok b → ∃ θ q q' J J', AtPoint pr m θ q ∧ AtPoint pr' m' (pull e θ) q' ∧ SameLayout q o.params ∧ SameLayout q' o'.params ∧
    (∃ step g v, Fit.newtonStep (M.env pinvh tol) q = .ok (step, g, v, J)) ∧ (∃ step g v, Fit.newtonStep (M'.env pinvh tol) q' = .ok (step, g, v, J')) ∧
    r.obj.flatHess = some J ∧ r'.obj.flatHess = some J'

/-- The Newton loops of the two fits. -/
theorem loop_same (hM : Solver pr m (fun _ => True) M L gs φs T) (hM' : Solver pr' m' (fun _ => True) M' L' gs' φs' T')
    (hc0 : c ≠ 0) (hsame : ScaledProblem e c 0 pr m (penalised L φs) gs pr' m' (penalised L' φs') gs') (hTT : T' = c * T) (hsm : ∀ θ, Smooth2 (penalised L φs) θ) {θ0 : Theta}
    {o o' : Fit.Obj ℝ (List (List ℝ))} (hat0 : AtPoint pr m θ0 o.params) (hat0' : AtPoint pr' m' (pull e θ0) o'.params) (hf0 : SameFree e o.params o'.params)
    (hF : 1 ≤ totalFree o.params) (hF' : 1 ≤ totalFree o'.params) (hc : o.converged = o'.converged) (vb : Nat) : ∀ (k : Nat) {θ : Theta} {ps ps' : List (Param ℝ)} {flat flat' : List ℝ},
    AtPoint pr m θ ps → AtPoint pr' m' (pull e θ) ps' → SameLayout ps o.params → SameLayout ps' o'.params → (∀ i a, isFixed o.params i a → θ i a = θ0 i a) →
    (∀ i a, isFixed o'.params i a → pull e θ i a = pull e θ0 i a) → FlatAt o.params θ flat → FlatAt o'.params (pull e θ) flat' →
    ∀ r r', r = Fit.newtonLoop (M.env pinvh tol) vb o k ps flat → r' = Fit.newtonLoop (M'.env pinvh tol) vb o' k ps' flat' →
      r'.outcome = r.outcome ∧ r'.prints = r.prints ∧ r'.obj.converged = r.obj.converged ∧ List.Forall₂ (List.Forall₂ (SamePoint e pr m pr' m')) r.trace r'.trace ∧
        SamePoint e pr m pr' m' r.obj.params r'.obj.params ∧ StoredSame e pr m pr' m' M M' pinvh tol o o' r r'
  | 0, θ, ps, ps', flat, flat', _, _, _, _, _, _, _, _, r, r', hr, hr' => by
    subst hr hr'
    exact ⟨rfl, rfl, rfl, .nil, ⟨θ0, hat0, hat0'⟩, fun b hb => nomatch hb⟩
  | k + 1, θ, ps, ps', flat, flat', hat, hat', hlay, hlay', hfix, hfix', hfl, hfl', r, r', hr, hr' => by
    have hfr : SameFree e ps ps' := fun x => (layout_free hlay').trans ((hf0 x).trans (layout_free hlay).symm)
    have g1 : 1 ≤ totalFree ps := by rw [Flat.SameLayout.totalFree hlay]; exact hF
    have g2 : 1 ≤ totalFree ps' := by rw [Flat.SameLayout.totalFree hlay']; exact hF'
    rw [Fit.newtonLoop] at hr hr'
    have hob : ∀ θ : Theta, penalised L' φs' (pull e θ) / T' = penalised L φs θ / T + 0 := fun θ => by
      rw [hsame.objective, hTT, add_zero, add_zero, mul_div_mul_left _ _ hc0]
    rcases newton_same (pinvh := pinvh) (tol := tol) hM hM' hc0 hob hsame hsm θ hat hat' hfr g1 g2 with ⟨e1, e2⟩ | ⟨step, step', v, v', J, J', e1, e2, l1, l2, hd⟩
    · rw [e1] at hr
      rw [e2] at hr'
      subst hr hr'
      exact ⟨rfl, rfl, hc.symm, .cons .nil .nil, ⟨θ0, hat0, hat0'⟩, fun b hb => nomatch hb⟩
    · rw [e1] at hr
      rw [e2] at hr'
      rw [add_zero] at hr'
      dsimp only at hr hr'
      obtain ⟨q, q', tr, tr', n, i1, i2, i3, i4⟩ := inner_same (pinvh := pinvh) (tol := tol) hM hM' hob hat0 hat0' hat hat' hlay hlay' hfix hfix' hfl hfl' hfr l1 l2 hd vb
        (penalised L φs θ / T) 5 1
      have one : (M.env pinvh tol).one = 1 := rfl
      have one' : (M'.env pinvh tol).one = 1 := rfl
      rw [add_zero] at i2
      rw [one, i1] at hr
      rw [one', i2] at hr'
      rcases i4 with ⟨rfl, rfl⟩ | ⟨ν, f1, f1', p1, p1', gv, rfl, rfl, s1, s1', a1, a1', b1, b1'⟩
      · subst hr hr'
        exact ⟨rfl, rfl, rfl, .cons i3 .nil, ⟨θ0, hat0, hat0'⟩, fun b hb => nomatch hb⟩
      · rw [add_zero] at hr'
        dsimp only at hr hr'
        have hcv : (M'.env pinvh tol).conv = (M.env pinvh tol).conv := rfl
        rw [hcv] at hr'
        have fx : ∀ i a, isFixed o.params i a → stepTo ps θ (step.map (ν * ·)) i a = θ0 i a := fun i a h => by
          unfold stepTo
          rw [if_neg (fun h' => not_free_of_fixed h ((layout_free hlay).1 h')), hfix i a h]
        have fx' : ∀ i a, isFixed o'.params i a → pull e (stepTo ps θ (step.map (ν * ·))) i a = pull e θ0 i a := fun i a h => by
          rw [← pull_stepTo hfr θ l1 l2 hd ν]
          unfold stepTo
          rw [if_neg (fun h' => not_free_of_fixed h ((layout_free hlay').1 h')), hfix' i a h]
        cases hv : (M.env pinvh tol).conv (penalised L φs θ / T) gv with
        | error er =>
          rw [hv] at hr hr'
          subst hr hr'
          exact ⟨rfl, rfl, hc.symm, .cons i3 .nil, ⟨θ0, hat0, hat0'⟩, fun b hb => nomatch hb⟩
        | ok b =>
          rw [hv] at hr hr'
          cases b with
          | true =>
            subst hr hr'
            exact ⟨rfl, rfl, hc.symm, .cons i3 .nil, ⟨_, a1, a1'⟩, fun b _ => ⟨θ, ps, ps', J, J', hat, hat', hlay, hlay', ⟨_, _, _, e1⟩, ⟨_, _, _, e2⟩, rfl, rfl⟩⟩
          | false =>
            obtain ⟨j1, j2, j3, j4, j5, j6⟩ := loop_same hM hM' hc0 hsame hTT hsm hat0 hat0' hf0 hF hF' hc vb k a1 a1' s1 s1' fx fx' b1 b1' _ _ rfl rfl
            subst hr hr'
            dsimp only
            exact ⟨j1, by rw [j2], j3, .cons i3 j4, j5, j6⟩

/-- **C80.** All the weights multiplied by `c` (for instance every observation given `c` times), possibly with the problem written down in another way as in C79: if the
penalised log-likelihood and the total weight are multiplied by `c` then a fit with Newton's method from the same start tries the same points, and returns the same value or
raises the same exception, with the same estimates. -/
theorem C80_fit (hM : Solver pr m (fun _ => True) M L gs φs T) (hM' : Solver pr' m' (fun _ => True) M' L' gs' φs' T') (hc0 : c ≠ 0) (hTT : T' = c * T)
    (hsame : ScaledProblem e c 0 pr m (penalised L φs) gs pr' m' (penalised L' φs') gs') (hsm : ∀ θ, Smooth2 (penalised L φs) θ) {o o' : Fit.Obj ℝ (List (List ℝ))}
    (hstart : SamePoint e pr m pr' m' o.params o'.params) (hfree : SameFree e o.params o'.params) (hc : o'.converged = o.converged) (hF : 1 ≤ totalFree o.params) (maxSteps verbose : Nat) :
    ∀ r r', r = Fit.fit (M.env pinvh tol) o maxSteps verbose .newton → r' = Fit.fit (M'.env pinvh tol) o' maxSteps verbose .newton →
      r'.outcome = r.outcome ∧ r'.prints = r.prints ∧ r'.obj.converged = r.obj.converged ∧
        List.Forall₂ (List.Forall₂ (SamePoint e pr m pr' m')) r.trace r'.trace ∧ SamePoint e pr m pr' m' r.obj.params r'.obj.params := by
  obtain ⟨θ, hat, hat'⟩ := hstart
  have hF' : 1 ≤ totalFree o'.params := by
    obtain ⟨i, a, hia, -, -⟩ := pair_of_lt (show 0 < totalFree o.params from hF)
    exact lt_of_le_of_lt (Nat.zero_le _) (rank_lt ((hfree.symm (i, a)).1 hia))
  intro r r' hr hr'
  unfold Fit.fit at hr hr'
  rw [flatParams_ok (hat.ne hM.pos)] at hr
  rw [flatParams_ok (hat'.ne hM'.pos)] at hr'
  obtain ⟨j1, j2, j3, j4, j5, -⟩ := loop_same hM hM' hc0 hsame hTT hsm hat hat' hfree hF hF' hc.symm verbose maxSteps hat hat' rfl rfl (fun _ _ _ => rfl) (fun _ _ _ => rfl)
    (flatAt_start hat hM.pos) (flatAt_start hat' hM'.pos) r r' hr hr'
  exact ⟨j1, j2, j3, j4, j5⟩

theorem samePath_cons {x x' : List (List (Param ℝ))} (h : List.Forall₂ (SamePoint e pr m pr' m') x x') {tr tr' : List (List (List (Param ℝ)))} (ht : SamePath e pr m pr' m' tr tr') :
    SamePath e pr m pr' m' (x :: tr) (x' :: tr')
  | 0, _, _ => .nil
  | n + 1, h1, h2 => .cons h (ht n (Nat.le_of_succ_le_succ h1) (Nat.le_of_succ_le_succ h2))

theorem samePath_nil {tr' : List (List (List (Param ℝ)))} : SamePath e pr m pr' m' [] tr' := fun n hn _ => by
  rw [Nat.le_zero.1 hn]
  exact .nil

theorem samePath_nil' {tr : List (List (List (Param ℝ)))} : SamePath e pr m pr' m' tr [] := fun n _ hn => by
  rw [Nat.le_zero.1 hn]
  exact .nil

/-- The Newton loops, when the objectives differ by a constant as well. -/
theorem loop_path (hM : Solver pr m (fun _ => True) M L gs φs T) (hM' : Solver pr' m' (fun _ => True) M' L' gs' φs' T') (hc0 : c ≠ 0)
    (hob : ∀ θ : Theta, penalised L' φs' (pull e θ) / T' = penalised L φs θ / T + κ)
    (hsame : ScaledProblem e c k pr m (penalised L φs) gs pr' m' (penalised L' φs') gs') (hsm : ∀ θ, Smooth2 (penalised L φs) θ) {θ0 : Theta}
    {o o' : Fit.Obj ℝ (List (List ℝ))} (hat0 : AtPoint pr m θ0 o.params) (hat0' : AtPoint pr' m' (pull e θ0) o'.params) (hf0 : SameFree e o.params o'.params)
    (hF : 1 ≤ totalFree o.params) (hF' : 1 ≤ totalFree o'.params) (vb : Nat) : ∀ (n : Nat) {θ : Theta} {ps ps' : List (Param ℝ)} {flat flat' : List ℝ},
    AtPoint pr m θ ps → AtPoint pr' m' (pull e θ) ps' → SameLayout ps o.params → SameLayout ps' o'.params → (∀ i a, isFixed o.params i a → θ i a = θ0 i a) →
    (∀ i a, isFixed o'.params i a → pull e θ i a = pull e θ0 i a) → FlatAt o.params θ flat → FlatAt o'.params (pull e θ) flat' →
    ∀ r r', r = Fit.newtonLoop (M.env pinvh tol) vb o n ps flat → r' = Fit.newtonLoop (M'.env pinvh tol) vb o' n ps' flat' →
      SamePath e pr m pr' m' r.trace r'.trace ∧
        (r.trace.length = r'.trace.length → (∃ b, r.outcome = .ok b) → (∃ b, r'.outcome = .ok b) → SamePoint e pr m pr' m' r.obj.params r'.obj.params)
  | 0, θ, ps, ps', flat, flat', _, _, _, _, _, _, _, _, r, r', hr, hr' => by
    subst hr hr'
    exact ⟨samePath_nil, fun _ h => nomatch h⟩
  | n + 1, θ, ps, ps', flat, flat', hat, hat', hlay, hlay', hfix, hfix', hfl, hfl', r, r', hr, hr' => by
    have hfr : SameFree e ps ps' := fun x => (layout_free hlay').trans ((hf0 x).trans (layout_free hlay).symm)
    have g1 : 1 ≤ totalFree ps := by rw [Flat.SameLayout.totalFree hlay]; exact hF
    have g2 : 1 ≤ totalFree ps' := by rw [Flat.SameLayout.totalFree hlay']; exact hF'
    have hno : ∀ {er : Err}, ¬∃ b : Bool, (Except.error er : Except Err Bool) = .ok b := fun h => nomatch h
    rw [Fit.newtonLoop] at hr hr'
    rcases newton_same (pinvh := pinvh) (tol := tol) hM hM' hc0 hob hsame hsm θ hat hat' hfr g1 g2 with ⟨e1, e2⟩ | ⟨step, step', v, v', J, J', e1, e2, l1, l2, hd⟩
    · rw [e1] at hr
      rw [e2] at hr'
      subst hr hr'
      exact ⟨samePath_cons .nil samePath_nil, fun _ h => (hno h).elim⟩
    · rw [e1] at hr
      rw [e2] at hr'
      dsimp only at hr hr'
      obtain ⟨q, q', tr, tr', j, i1, i2, i3, i4⟩ := inner_same (pinvh := pinvh) (tol := tol) hM hM' hob hat0 hat0' hat hat' hlay hlay' hfix hfix' hfl hfl' hfr l1 l2 hd vb
        (penalised L φs θ / T) 5 1
      have one : (M.env pinvh tol).one = 1 := rfl
      have one' : (M'.env pinvh tol).one = 1 := rfl
      rw [one, i1] at hr
      rw [one', i2] at hr'
      rcases i4 with ⟨rfl, rfl⟩ | ⟨ν, f1, f1', p1, p1', gv, rfl, rfl, s1, s1', a1, a1', b1, b1'⟩
      · subst hr hr'
        exact ⟨samePath_cons i3 samePath_nil, fun _ h => (hno h).elim⟩
      · dsimp only at hr hr'
        have fx : ∀ i a, isFixed o.params i a → stepTo ps θ (step.map (ν * ·)) i a = θ0 i a := fun i a h => by
          unfold stepTo
          rw [if_neg (fun h' => not_free_of_fixed h ((layout_free hlay).1 h')), hfix i a h]
        have fx' : ∀ i a, isFixed o'.params i a → pull e (stepTo ps θ (step.map (ν * ·))) i a = pull e θ0 i a := fun i a h => by
          rw [← pull_stepTo hfr θ l1 l2 hd ν]
          unfold stepTo
          rw [if_neg (fun h' => not_free_of_fixed h ((layout_free hlay').1 h')), hfix' i a h]
        obtain ⟨j1, j2⟩ := loop_path hM hM' hc0 hob hsame hsm hat0 hat0' hf0 hF hF' vb n a1 a1' s1 s1' fx fx' b1 b1' _ _ rfl rfl
        have hlen : ∀ {M : MaxLikeT ℝ} {o : Fit.Obj ℝ (List (List ℝ))} {ps flat b}, (Fit.newtonLoop (M.env pinvh tol) vb o n ps flat).outcome = .ok b →
            (Fit.newtonLoop (M.env pinvh tol) vb o n ps flat).trace.length ≠ 0 := by
          intro M o ps flat b h
          rcases n with _ | n
          · rw [Fit.newtonLoop] at h
            cases h
          · rw [Fit.newtonLoop]
            split
            · simp
            · dsimp only
              split
              · simp
              · simp
              · split <;> simp
        cases hv : (M.env pinvh tol).conv (penalised L φs θ / T) gv with
        | error er =>
          rw [hv] at hr
          subst hr
          refine ⟨?_, fun _ h => (hno h).elim⟩
          cases hv' : (M'.env pinvh tol).conv (penalised L φs θ / T + κ) (gv + κ) with
          | error er' => rw [hv'] at hr'; subst hr'; exact samePath_cons i3 samePath_nil
          | ok b' => cases b' <;> · rw [hv'] at hr'; subst hr'; exact samePath_cons i3 samePath_nil
        | ok b =>
          rw [hv] at hr
          cases hv' : (M'.env pinvh tol).conv (penalised L φs θ / T + κ) (gv + κ) with
          | error er' =>
            rw [hv'] at hr'
            subst hr'
            refine ⟨?_, fun _ _ h => (hno h).elim⟩
            cases b <;> · subst hr; exact samePath_cons i3 samePath_nil'
          | ok b' =>
            rw [hv'] at hr'
            cases b with
            | true =>
              subst hr
              cases b' with
              | true =>
                subst hr'
                exact ⟨samePath_cons i3 samePath_nil, fun _ _ _ => ⟨_, a1, a1'⟩⟩
              | false =>
                subst hr'
                refine ⟨samePath_cons i3 samePath_nil, fun h _ ⟨b, h2⟩ => ?_⟩
                exact absurd (by simpa using h) (hlen h2)
            | false =>
              subst hr
              cases b' with
              | true =>
                subst hr'
                refine ⟨samePath_cons i3 samePath_nil', fun h ⟨b, h2⟩ _ => ?_⟩
                exact absurd (by simpa using h) (hlen h2)
              | false =>
                subst hr'
                exact ⟨samePath_cons i3 j1, fun h h1 h2 => j2 (by simpa using h) h1 h2⟩

/-- **C80.** With `Poisson` and `NegativeBinomial` the log-likelihood has a part that is a constant, not proportional to the weights.  When the objective is multiplied by `c`
and a constant `k` added, the fits try the same points as long as both go on (the test for convergence can stop one before the other); if both return after the same number of
steps then with the same estimates. -/
theorem C80_path (hM : Solver pr m (fun _ => True) M L gs φs T) (hM' : Solver pr' m' (fun _ => True) M' L' gs' φs' T') (hc0 : c ≠ 0) (hTT : T' = c * T)
    (hsame : ScaledProblem e c k pr m (penalised L φs) gs pr' m' (penalised L' φs') gs') (hsm : ∀ θ, Smooth2 (penalised L φs) θ) {o o' : Fit.Obj ℝ (List (List ℝ))}
    (hstart : SamePoint e pr m pr' m' o.params o'.params) (hfree : SameFree e o.params o'.params) (hF : 1 ≤ totalFree o.params) (maxSteps verbose : Nat) :
    ∀ r r', r = Fit.fit (M.env pinvh tol) o maxSteps verbose .newton → r' = Fit.fit (M'.env pinvh tol) o' maxSteps verbose .newton →
      SamePath e pr m pr' m' r.trace r'.trace ∧
        (r.trace.length = r'.trace.length → (∃ b, r.outcome = .ok b) → (∃ b, r'.outcome = .ok b) → SamePoint e pr m pr' m' r.obj.params r'.obj.params) := by
  obtain ⟨θ, hat, hat'⟩ := hstart
  have hF' : 1 ≤ totalFree o'.params := by
    obtain ⟨i, a, hia, -, -⟩ := pair_of_lt (show 0 < totalFree o.params from hF)
    exact lt_of_le_of_lt (Nat.zero_le _) (rank_lt ((hfree.symm (i, a)).1 hia))
  intro r r' hr hr'
  unfold Fit.fit at hr hr'
  rw [flatParams_ok (hat.ne hM.pos)] at hr
  rw [flatParams_ok (hat'.ne hM'.pos)] at hr'
  exact loop_path (κ := k / T') hM hM' hc0 (fun θ => by rw [hsame.objective, add_div, hTT, mul_div_mul_left _ _ hc0]) hsame hsm hat hat' hfree hF hF' verbose maxSteps hat hat' rfl rfl
    (fun _ _ _ => rfl) (fun _ _ _ => rfl) (flatAt_start hat hM.pos) (flatAt_start hat' hM'.pos) r r' hr hr'

theorem SameProblem.scaled {P P' : Theta → ℝ} (h : SameProblem e pr m P gs pr' m' P' gs') : ScaledProblem e 1 0 pr m P gs pr' m' P' gs' :=
  ⟨h.entries, fun θ => by rw [h.objective, one_mul, add_zero], h.constraints⟩

/-- **C79.** The same problem written down in another way: other classes or expressions for the model and the terms, the parameters in another order, their entries in
another order, the same numbers in one array or in several.  If the penalised log-likelihood, the constraints and the total weight are the same functions of the rearranged
parameters and the same entries are free, then a fit with Newton's method from the same start tries the same points, and returns the same value or raises the same
exception, with the same estimates. -/
theorem C79_fit (hM : Solver pr m (fun _ => True) M L gs φs T) (hM' : Solver pr' m' (fun _ => True) M' L' gs' φs' T)
    (hsame : SameProblem e pr m (penalised L φs) gs pr' m' (penalised L' φs') gs') (hsm : ∀ θ, Smooth2 (penalised L φs) θ) {o o' : Fit.Obj ℝ (List (List ℝ))}
    (hstart : SamePoint e pr m pr' m' o.params o'.params) (hfree : SameFree e o.params o'.params) (hc : o'.converged = o.converged) (hF : 1 ≤ totalFree o.params) (maxSteps verbose : Nat) :
    ∀ r r', r = Fit.fit (M.env pinvh tol) o maxSteps verbose .newton → r' = Fit.fit (M'.env pinvh tol) o' maxSteps verbose .newton →
      r'.outcome = r.outcome ∧ r'.prints = r.prints ∧ r'.obj.converged = r.obj.converged ∧
        List.Forall₂ (List.Forall₂ (SamePoint e pr m pr' m')) r.trace r'.trace ∧ SamePoint e pr m pr' m' r.obj.params r'.obj.params :=
  C80_fit hM hM' one_ne_zero (one_mul T).symm hsame.scaled hsm hstart hfree hc hF maxSteps verbose

end

end Verif.Tens
