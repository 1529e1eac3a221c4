import Verif.Props.Reparam

/-!
# C83: the fits of the two problems
-/

set_option linter.unusedSectionVars false

namespace Verif.Tens
open Verif.Params

section
variable {B : Theta ≃ₗ[ℝ] Theta} {b : Theta} {pr pr' : Problem} {m m' : Nat} {L L' : Theta → ℝ} {M M' : MaxLikeT ℝ} {gs gs' : List Con} {φs φs' : List Pen} {T : ℝ}
  {pinvh : List (List ℝ) → Except Err (List (List ℝ))} {tol : ℝ}

theorem extDir_smul (ps : List (Param ℝ)) (step : List ℝ) (μ : ℝ) : extDir ps (step.map (μ * ·)) = μ • extDir ps step := by
  funext i a
  show _ = μ * extDir ps step i a
  unfold extDir dirOf
  split_ifs
  · rw [List.getD_eq_getElem?_getD, List.getD_eq_getElem?_getD, List.getElem?_map]
    cases step[freeRank ps i a]? <;> simp
  · rw [mul_zero]

theorem stepTo_eq (ps : List (Param ℝ)) (θ : Theta) (step : List ℝ) : stepTo ps θ step = θ - extDir ps step := by
  funext i a
  show _ = θ i a - extDir ps step i a
  unfold stepTo extDir
  split_ifs
  · rfl
  · rw [sub_zero]

/-- The point after a step. -/
theorem change_stepTo {ps ps' : List (Param ℝ)} (θ : Theta) {step step' : List ℝ} (h : extDir ps' step' = B (extDir ps step)) (μ : ℝ) :
    stepTo ps' (B θ + b) (step'.map (μ * ·)) = B (stepTo ps θ (step.map (μ * ·))) + b := by
  rw [stepTo_eq, stepTo_eq, extDir_smul, extDir_smul, h, map_sub, map_smul]
  abel

/-- What the theorems below ask of the two problems. -/
structure Changed (B : Theta ≃ₗ[ℝ] Theta) (b : Theta) (pr : Problem) (m : Nat) (M : MaxLikeT ℝ) (L : Theta → ℝ) (gs : List Con) (φs : List Pen) (pr' : Problem) (m' : Nat)
    (M' : MaxLikeT ℝ) (L' : Theta → ℝ) (gs' : List Con) (φs' : List Pen) (T : ℝ) : Prop where
  old : Solver pr m (fun _ => True) M L gs φs T
  new : Solver pr' m' (fun _ => True) M' L' gs' φs' T
  same : Reparametrised B b (penalised L φs) gs (penalised L' φs') gs'
  smooth : ∀ θ, SmoothAt (penalised L φs) θ
  smoothC : ∀ g ∈ gs, ∀ θ, SmoothAt g.val θ

/-- Two problems with the same objective, up to the change of the parameters. -/
structure Twins (B : Theta ≃ₗ[ℝ] Theta) (b : Theta) (pr : Problem) (m : Nat) (M : MaxLikeT ℝ) (L : Theta → ℝ) (gs : List Con) (φs : List Pen) (pr' : Problem) (m' : Nat)
    (M' : MaxLikeT ℝ) (L' : Theta → ℝ) (gs' : List Con) (φs' : List Pen) (T : ℝ) : Prop where
  old : Solver pr m (fun _ => True) M L gs φs T
  new : Solver pr' m' (fun _ => True) M' L' gs' φs' T
  objective : ∀ θ : Theta, penalised L' φs' (B θ + b) = penalised L φs θ

/-- The Newton steps at two parameter lists: both fail, or they are the same direction. -/
def SameSteps (B : Theta ≃ₗ[ℝ] Theta) (M M' : MaxLikeT ℝ) (pinvh : List (List ℝ) → Except Err (List (List ℝ))) (tol : ℝ) (v : ℝ) (ps ps' : List (Param ℝ)) : Prop :=
  (Fit.newtonStep (M.env pinvh tol) ps = .error .linAlg ∧ Fit.newtonStep (M'.env pinvh tol) ps' = .error .linAlg) ∨
    ∃ step step' w w' J J', Fit.newtonStep (M.env pinvh tol) ps = .ok (step, v, w, J) ∧
      Fit.newtonStep (M'.env pinvh tol) ps' = .ok (step', v, w', J') ∧ step.length = totalFree ps ∧ step'.length = totalFree ps' ∧
      extDir ps' step' = B (extDir ps step)

/-- The Newton steps of the two problems: both fail, or they are the same direction. -/
theorem newton_changed (hc : Changed B b pr m M L gs φs pr' m' M' L' gs' φs' T) (θ : Theta) {ps ps' : List (Param ℝ)}
    (hat : AtPoint pr m θ ps) (hat' : AtPoint pr' m' (B θ + b) ps') (hf : SameDirections B ps ps') (hF : 1 ≤ totalFree ps) (hF' : 1 ≤ totalFree ps') :
    SameSteps B M M' pinvh tol (penalised L φs θ / T) ps ps' := by
  obtain ⟨D, H, hD, h⟩ := C68_newton_step hc.old
  obtain ⟨D', H', hD', h'⟩ := C68_newton_step hc.new
  have hS := changed_forms (fun c hc' => forall₂_right hc.old.constraints c hc') (fun c hc' => forall₂_right hc.new.constraints c hc') hc.same hc.smooth hc.smoothC hD hD' θ hat hat' hf
  have hS' := hS.symm hf
  have hres : (gs'.map fun c => c.val (B θ + b)) = gs.map fun c => c.val θ := by
    have := hc.same.constraints
    clear * - this
    induction this with
    | nil => rfl
    | cons h _ ih => rw [List.map_cons, List.map_cons, ih, h]
  have h := h pinvh tol θ trivial ps hat hF
  have h' := h' pinvh tol (B θ + b) trivial ps' hat' hF'
  rw [hres, hc.same.objective] at h'
  have hon : ∀ step, OnFree ps' (B (extDir ps step)) := fun step => (hf _).2 (extDir_onFree _ _)
  have hon' : ∀ step', OnFree ps (B.symm (extDir ps' step')) := fun step' => (hf.symm _).2 (extDir_onFree _ _)
  have fwd : ∀ {step μ : List ℝ}, NewtonStep ps (D θ) (H θ) (gs.map fun c => c.der θ) (gs.map fun c => c.val θ) step μ →
      NewtonStep ps' (D' (B θ + b)) (H' (B θ + b)) (gs'.map fun c => c.der (B θ + b)) (gs.map fun c => c.val θ) (listOf ps' (B (extDir ps step))) μ := by
    intro step μ hn
    obtain ⟨hl, hw⟩ := (weak_iff hat.masks).1 hn
    refine (weak_iff hat'.masks).2 ⟨listOf_length _ _, ?_⟩
    rw [extDir_listOf (hon step)]
    exact weak_transfer hf hS hw
  have bwd : ∀ {step' μ : List ℝ}, NewtonStep ps' (D' (B θ + b)) (H' (B θ + b)) (gs'.map fun c => c.der (B θ + b)) (gs.map fun c => c.val θ) step' μ →
      NewtonStep ps (D θ) (H θ) (gs.map fun c => c.der θ) (gs.map fun c => c.val θ) (listOf ps (B.symm (extDir ps' step'))) μ := by
    intro step' μ hn
    obtain ⟨hl, hw⟩ := (weak_iff hat'.masks).1 hn
    refine (weak_iff hat.masks).2 ⟨listOf_length _ _, ?_⟩
    rw [extDir_listOf (hon' step')]
    exact weak_transfer hf.symm hS' hw
  rcases h with ⟨step, μ, v, J, e1, n1, u1⟩ | ⟨e1, u1⟩
  · right
    rcases h' with ⟨step', μ', v', J', e2, n2, u2⟩ | ⟨e2, u2⟩
    · refine ⟨step, step', v, v', J, J', e1, e2, n1.len, n2.len, ?_⟩
      rw [← (u2 _ _ (fwd n1)).1, extDir_listOf (hon step)]
    · refine absurd ⟨(_, _), fwd n1, fun y hy => ?_⟩ u2
      have hb := u1 _ _ (bwd hy)
      refine Prod.ext ?_ hb.2
      rw [← hb.1, extDir_listOf (hon' _), LinearEquiv.apply_symm_apply]
      exact (listOf_extDir hy.len).symm
  · left
    refine ⟨e1, ?_⟩
    rcases h' with ⟨step', μ', v', J', e2, n2, u2⟩ | ⟨e2, u2⟩
    · refine absurd ⟨(_, _), bwd n2, fun y hy => ?_⟩ u1
      have hb := u2 _ _ (fwd hy)
      refine Prod.ext ?_ hb.2
      rw [← hb.1, extDir_listOf (hon _), LinearEquiv.symm_apply_apply]
      exact (listOf_extDir hy.len).symm
    · exact e2

/-- The line searches of the two fits. -/
theorem inner_changed (hc : Twins B b pr m M L gs φs pr' m' M' L' gs' φs' T)
    {θ0 θ : Theta} {params params' ps ps' : List (Param ℝ)} (hat0 : AtPoint pr m θ0 params) (hat0' : AtPoint pr' m' (B θ0 + b) params') (hat : AtPoint pr m θ ps)
    (hat' : AtPoint pr' m' (B θ + b) ps') (hlay : SameLayout ps params) (hlay' : SameLayout ps' params') (hfix : ∀ i a, isFixed params i a → θ i a = θ0 i a)
    (hfix' : ∀ i a, isFixed params' i a → (B θ + b) i a = (B θ0 + b) i a) {flat flat' step step' : List ℝ} (hflat : FlatAt params θ flat) (hflat' : FlatAt params' (B θ + b) flat')
    (hl : step.length = totalFree ps) (hl' : step'.length = totalFree ps') (hd : extDir ps' step' = B (extDir ps step)) (vb : Nat) (g : ℝ) : ∀ (n : Nat) (μ : ℝ),
    ∃ r r' tr tr' k, Fit.inner (M.env pinvh tol) vb params flat step g n μ = (.ok r, tr, k) ∧ Fit.inner (M'.env pinvh tol) vb params' flat' step' g n μ = (.ok r', tr', k) ∧
      List.Forall₂ (ChangedPoint B b pr m pr' m') tr tr' ∧ ((r = none ∧ r' = none) ∨ ∃ ν flat1 flat1' ps1 ps1' g1, r = some (flat1, ps1, g1) ∧ r' = some (flat1', ps1', g1) ∧
        SameLayout ps1 params ∧ SameLayout ps1' params' ∧ AtPoint pr m (stepTo ps θ (step.map (ν * ·))) ps1 ∧ AtPoint pr' m' (B (stepTo ps θ (step.map (ν * ·))) + b) ps1' ∧
        FlatAt params (stepTo ps θ (step.map (ν * ·))) flat1 ∧ FlatAt params' (B (stepTo ps θ (step.map (ν * ·))) + b) flat1')
  | 0, μ => ⟨none, none, [], [], 0, rfl, rfl, .nil, Or.inl ⟨rfl, rfl⟩⟩
  | n + 1, μ => by
    obtain ⟨fl, qs, t1, t2, t3, t4, t5⟩ := trial_point hat0 hc.old.pos hat hlay hfix hflat hl μ
    obtain ⟨fl', qs', t1', t2', t3', t4', t5'⟩ := trial_point hat0' hc.new.pos hat' hlay' hfix' hflat' hl' μ
    rw [change_stepTo θ hd μ] at t4' t5'
    have o1 := C68_objective (pinvh := pinvh) (tol := tol) hc.old trivial t4
    have o2 := C68_objective (pinvh := pinvh) (tol := tol) hc.new trivial t4'
    rw [hc.objective] at o2
    rw [Fit.inner, Fit.inner, t1, t1']
    dsimp only
    rw [t2, t2']
    dsimp only
    rw [o1, o2]
    dsimp only
    have hsp : ChangedPoint B b pr m pr' m' qs qs' := ⟨_, t4, t4'⟩
    have hge : ∀ x y : ℝ, (M'.env pinvh tol).ge x y = (M.env pinvh tol).ge x y := fun x y => rfl
    have half : (M'.env pinvh tol).half = (M.env pinvh tol).half := rfl
    rw [hge, half]
    by_cases hg : (M.env pinvh tol).ge (penalised L φs (stepTo ps θ (step.map (μ * ·))) / T) g = true
    · rw [if_pos hg, if_pos hg]
      exact ⟨_, _, _, _, _, rfl, rfl, .cons hsp .nil, Or.inr ⟨μ, _, _, _, _, _, rfl, rfl, t3, t3', t4, t4', t5, t5'⟩⟩
    · rw [if_neg hg, if_neg hg]
      obtain ⟨r, r', tr, tr', k, i1, i2, i3, i4⟩ := inner_changed hc hat0 hat0' hat hat' hlay hlay' hfix hfix' hflat hflat' hl hl' hd vb g n (μ * (M.env pinvh tol).half)
      rw [i1, i2]
      exact ⟨r, r', _, _, _, rfl, rfl, .cons hsp i3, i4⟩

/-- What the two fits have stored comes from the same point. -/
def StoredChanged (B : Theta ≃ₗ[ℝ] Theta) (b : Theta) (pr : Problem) (m : Nat) (pr' : Problem) (m' : Nat) (M M' : MaxLikeT ℝ) (pinvh : List (List ℝ) → Except Err (List (List ℝ)))
    (tol : ℝ) (o o' : Fit.Obj ℝ (List (List ℝ))) (r r' : Fit.Result ℝ (List (List ℝ))) : Prop :=
  ∀ v, r.outcome = .ok v → ∃ θ q q' J J', AtPoint pr m θ q ∧ AtPoint pr' m' (B θ + b) q' ∧ SameLayout q o.params ∧ SameLayout q' o'.params ∧
    (∃ step g v, Fit.newtonStep (M.env pinvh tol) q = .ok (step, g, v, J)) ∧ (∃ step g v, Fit.newtonStep (M'.env pinvh tol) q' = .ok (step, g, v, J')) ∧
    r.obj.flatHess = some J ∧ r'.obj.flatHess = some J'

theorem onFree_layout {ps qs : List (Param ℝ)} (h : SameLayout ps qs) (u : Theta) : OnFree ps u ↔ OnFree qs u :=
  ⟨fun hu i a hn => hu i a fun h' => hn ((layout_free h).1 h'), fun hu i a hn => hu i a fun h' => hn ((layout_free h).2 h')⟩

/-- The Newton loops of the two fits. -/
theorem loop_changed (hc : Twins B b pr m M L gs φs pr' m' M' L' gs' φs' T) {θ0 : Theta}
    {o o' : Fit.Obj ℝ (List (List ℝ))} (hat0 : AtPoint pr m θ0 o.params) (hat0' : AtPoint pr' m' (B θ0 + b) o'.params)
    (hN : ∀ (θ : Theta) (ps ps' : List (Param ℝ)), AtPoint pr m θ ps → AtPoint pr' m' (B θ + b) ps' → SameLayout ps o.params → SameLayout ps' o'.params →
      (∀ i a, isFixed o.params i a → θ i a = θ0 i a) → SameSteps B M M' pinvh tol (penalised L φs θ / T) ps ps') (hcv : o.converged = o'.converged) (vb : Nat) :
    ∀ (k : Nat) {θ : Theta} {ps ps' : List (Param ℝ)} {flat flat' : List ℝ},
    AtPoint pr m θ ps → AtPoint pr' m' (B θ + b) ps' → SameLayout ps o.params → SameLayout ps' o'.params → (∀ i a, isFixed o.params i a → θ i a = θ0 i a) →
    (∀ i a, isFixed o'.params i a → (B θ + b) i a = (B θ0 + b) i a) → FlatAt o.params θ flat → FlatAt o'.params (B θ + b) flat' →
    ∀ r r', r = Fit.newtonLoop (M.env pinvh tol) vb o k ps flat → r' = Fit.newtonLoop (M'.env pinvh tol) vb o' k ps' flat' →
      r'.outcome = r.outcome ∧ r'.prints = r.prints ∧ r'.obj.converged = r.obj.converged ∧ List.Forall₂ (List.Forall₂ (ChangedPoint B b pr m pr' m')) r.trace r'.trace ∧
        ChangedPoint B b pr m pr' m' r.obj.params r'.obj.params ∧ StoredChanged B b pr m pr' m' M M' pinvh tol o o' r r'
  | 0, θ, ps, ps', flat, flat', _, _, _, _, _, _, _, _, r, r', hr, hr' => by
    subst hr hr'
    exact ⟨rfl, rfl, rfl, .nil, ⟨θ0, hat0, hat0'⟩, fun b hb => nomatch hb⟩
  | k + 1, θ, ps, ps', flat, flat', hat, hat', hlay, hlay', hfix, hfix', hfl, hfl', r, r', hr, hr' => by
    rw [Fit.newtonLoop] at hr hr'
    rcases hN θ ps ps' hat hat' hlay hlay' hfix with ⟨e1, e2⟩ | ⟨step, step', v, v', J, J', e1, e2, l1, l2, hd⟩
    · rw [e1] at hr
      rw [e2] at hr'
      subst hr hr'
      exact ⟨rfl, rfl, hcv.symm, .cons .nil .nil, ⟨θ0, hat0, hat0'⟩, fun b hb => nomatch hb⟩
    · rw [e1] at hr
      rw [e2] at hr'
      dsimp only at hr hr'
      obtain ⟨q, q', tr, tr', n, i1, i2, i3, i4⟩ := inner_changed (pinvh := pinvh) (tol := tol) hc hat0 hat0' hat hat' hlay hlay' hfix hfix' hfl hfl' l1 l2 hd vb
        (penalised L φs θ / T) 5 1
      have one : (M.env pinvh tol).one = 1 := rfl
      have one' : (M'.env pinvh tol).one = 1 := rfl
      rw [one, i1] at hr
      rw [one', i2] at hr'
      rcases i4 with ⟨rfl, rfl⟩ | ⟨ν, f1, f1', p1, p1', gv, rfl, rfl, s1, s1', a1, a1', b1, b1'⟩
      · subst hr hr'
        exact ⟨rfl, rfl, rfl, .cons i3 .nil, ⟨θ0, hat0, hat0'⟩, fun b hb => nomatch hb⟩
      · dsimp only at hr hr'
        have hcv' : (M'.env pinvh tol).conv = (M.env pinvh tol).conv := rfl
        rw [hcv'] at hr'
        have fx : ∀ i a, isFixed o.params i a → stepTo ps θ (step.map (ν * ·)) i a = θ0 i a := fun i a h => by
          unfold stepTo
          rw [if_neg (fun h' => not_free_of_fixed h ((layout_free hlay).1 h')), hfix i a h]
        have fx' : ∀ i a, isFixed o'.params i a → (B (stepTo ps θ (step.map (ν * ·))) + b) i a = (B θ0 + b) i a := fun i a h => by
          rw [← change_stepTo θ hd ν]
          unfold stepTo
          rw [if_neg (fun h' => not_free_of_fixed h ((layout_free hlay').1 h')), hfix' i a h]
        cases hv : (M.env pinvh tol).conv (penalised L φs θ / T) gv with
        | error er =>
          rw [hv] at hr hr'
          subst hr hr'
          exact ⟨rfl, rfl, hcv.symm, .cons i3 .nil, ⟨θ0, hat0, hat0'⟩, fun b hb => nomatch hb⟩
        | ok b =>
          rw [hv] at hr hr'
          cases b with
          | true =>
            subst hr hr'
            exact ⟨rfl, rfl, hcv.symm, .cons i3 .nil, ⟨_, a1, a1'⟩, fun b _ => ⟨θ, ps, ps', J, J', hat, hat', hlay, hlay', ⟨_, _, _, e1⟩, ⟨_, _, _, e2⟩, rfl, rfl⟩⟩
          | false =>
            obtain ⟨j1, j2, j3, j4, j5, j6⟩ := loop_changed hc hat0 hat0' hN hcv vb k a1 a1' s1 s1' fx fx' b1 b1' _ _ rfl rfl
            subst hr hr'
            dsimp only
            exact ⟨j1, by rw [j2], j3, .cons i3 j4, j5, j6⟩

theorem free_changed {ps ps' : List (Param ℝ)} (hf : SameDirections B ps ps') (hF : 1 ≤ totalFree ps) : 1 ≤ totalFree ps' := by
  obtain ⟨i, a, hia, -, -⟩ := pair_of_lt (show 0 < totalFree ps from hF)
  have h1 := (hf _).2 (unitDir_onFree (x := (i, a)) hia)
  by_contra hn
  have hz : B (unitDir (i, a)) = 0 := by
    funext j c
    by_cases h : isFree ps' j c
    · exact absurd (rank_lt h) (by omega)
    · exact h1 j c h
  have := (LinearEquiv.map_eq_zero_iff B).1 hz
  have h2 := congrFun (congrFun this i) a
  rw [show unitDir (i, a) i a = 1 from unitDir_same (i, a)] at h2
  exact one_ne_zero h2

/-- **C83.** Two problems that differ by a linear change of the parameters (with an inverse, and under which the free entries correspond to the free entries): a fit with
Newton's method from the same start tries the same points, prints as many lines, and returns the same value or raises the same exception, with the same estimates in the new
parameters. -/
theorem C83_fit (hc : Changed B b pr m M L gs φs pr' m' M' L' gs' φs' T) {o o' : Fit.Obj ℝ (List (List ℝ))} (hstart : ChangedPoint B b pr m pr' m' o.params o'.params)
    (hfree : SameDirections B o.params o'.params) (hcv : o'.converged = o.converged) (hF : 1 ≤ totalFree o.params) (maxSteps verbose : Nat) :
    ∀ r r', r = Fit.fit (M.env pinvh tol) o maxSteps verbose .newton → r' = Fit.fit (M'.env pinvh tol) o' maxSteps verbose .newton →
      r'.outcome = r.outcome ∧ r'.prints = r.prints ∧ r'.obj.converged = r.obj.converged ∧
        List.Forall₂ (List.Forall₂ (ChangedPoint B b pr m pr' m')) r.trace r'.trace ∧ ChangedPoint B b pr m pr' m' r.obj.params r'.obj.params ∧
        StoredChanged B b pr m pr' m' M M' pinvh tol o o' r r' := by
  obtain ⟨θ, hat, hat'⟩ := hstart
  have hF' := free_changed hfree hF
  intro r r' hr hr'
  unfold Fit.fit at hr hr'
  rw [flatParams_ok (hat.ne hc.old.pos)] at hr
  rw [flatParams_ok (hat'.ne hc.new.pos)] at hr'
  refine loop_changed ⟨hc.old, hc.new, hc.same.objective⟩ hat hat' (fun θ ps ps' h h' hlay hlay' _ => newton_changed hc θ h h'
    (fun u => (onFree_layout hlay' _).trans ((hfree u).trans (onFree_layout hlay _).symm)) ?_ ?_) hcv.symm verbose maxSteps hat hat' rfl rfl (fun _ _ _ => rfl) (fun _ _ _ => rfl)
    (flatAt_start hat hc.old.pos) (flatAt_start hat' hc.new.pos) r r' hr hr'
  · rw [Flat.SameLayout.totalFree hlay]; exact hF
  · rw [Flat.SameLayout.totalFree hlay']; exact hF'

end

end Verif.Tens
