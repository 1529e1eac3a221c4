import Verif.Lemmas.Directional

/-!
# C83: a change of parameters
-/

set_option linter.unusedSectionVars false

namespace Verif.Tens
open Verif.Params

/-! ### linear and bilinear forms of the free entries -/

section
variable {ps ps' : List (Param ℝ)} {B : Theta ≃ₗ[ℝ] Theta}

/-- `Σ D u` over the entries in `S`. -/
noncomputable def linForm (S : Finset (Nat × Nat)) (D : Nat → Nat → ℝ) : Theta →ₗ[ℝ] ℝ where
  toFun u := ∑ x ∈ S, D x.1 x.2 * u x.1 x.2
  map_add' u v := by
    rw [← Finset.sum_add_distrib]
    exact Finset.sum_congr rfl fun x _ => by rw [Pi.add_apply, Pi.add_apply, mul_add]
  map_smul' c u := by
    rw [RingHom.id_apply, smul_eq_mul, Finset.mul_sum]
    exact Finset.sum_congr rfl fun x _ => by rw [Pi.smul_apply, Pi.smul_apply, smul_eq_mul]; ring

theorem linForm_apply (S : Finset (Nat × Nat)) (D : Nat → Nat → ℝ) (u : Theta) : linForm S D u = ∑ x ∈ S, D x.1 x.2 * u x.1 x.2 := rfl

/-- `Σ H u w` over the entries in `S`. -/
noncomputable def bilForm (S : Finset (Nat × Nat)) (H : Nat → Nat → Nat → Nat → ℝ) : Theta →ₗ[ℝ] Theta →ₗ[ℝ] ℝ :=
  LinearMap.mk₂ ℝ (fun u w => ∑ x ∈ S, u x.1 x.2 * linForm S (bothSides H x.1 x.2) w)
    (fun u v w => by rw [← Finset.sum_add_distrib]; exact Finset.sum_congr rfl fun x _ => by rw [Pi.add_apply, Pi.add_apply, add_mul])
    (fun c u w => by rw [smul_eq_mul, Finset.mul_sum]; exact Finset.sum_congr rfl fun x _ => by rw [Pi.smul_apply, Pi.smul_apply, smul_eq_mul, mul_assoc])
    (fun u v w => by rw [← Finset.sum_add_distrib]; exact Finset.sum_congr rfl fun x _ => by rw [map_add, mul_add])
    (fun c u w => by rw [smul_eq_mul, Finset.mul_sum]; exact Finset.sum_congr rfl fun x _ => by rw [map_smul, smul_eq_mul]; ring)

theorem bilForm_apply (S : Finset (Nat × Nat)) (H : Nat → Nat → Nat → Nat → ℝ) (u w : Theta) :
    bilForm S H u w = ∑ x ∈ S, u x.1 x.2 * linForm S (bothSides H x.1 x.2) w := rfl

theorem unitDir_same (x : Nat × Nat) : unitDir x x.1 x.2 = 1 := by
  unfold unitDir Theta.set
  rw [if_pos ⟨rfl, rfl⟩]

theorem unitDir_other {x y : Nat × Nat} (h : y ≠ x) : unitDir x y.1 y.2 = 0 := by
  unfold unitDir Theta.set
  rw [if_neg]
  · rfl
  · rintro ⟨h1, h2⟩
    exact h (Prod.ext h1 h2)

theorem unitDir_onFree {x : Nat × Nat} (h : isFree ps x.1 x.2) : OnFree ps (unitDir x) := by
  intro i a hia
  refine unitDir_other (x := x) (y := (i, a)) ?_
  rintro rfl
  exact hia h

theorem expand {u : Theta} (h : OnFree ps u) : u = ∑ x ∈ freeSet ps, u x.1 x.2 • unitDir x := by
  funext i a
  rw [Finset.sum_apply, Finset.sum_apply]
  by_cases hia : isFree ps i a
  · rw [Finset.sum_eq_single_of_mem (i, a) (mem_freeSet.2 hia)]
    · show u i a = u i a * unitDir (i, a) i a
      rw [show unitDir (i, a) i a = 1 from unitDir_same (i, a), mul_one]
    · intro x _ hx
      show u x.1 x.2 * unitDir x i a = 0
      rw [show unitDir x i a = 0 from unitDir_other (x := x) (y := (i, a)) hx.symm, mul_zero]
  · rw [h i a hia]
    refine (Finset.sum_eq_zero fun x hx => ?_).symm
    show u x.1 x.2 * unitDir x i a = 0
    rw [unitDir_onFree (mem_freeSet.1 hx) i a hia, mul_zero]

theorem linForm_unit {D : Nat → Nat → ℝ} {x : Nat × Nat} (h : isFree ps x.1 x.2) : linForm (freeSet ps) D (unitDir x) = D x.1 x.2 := by
  rw [linForm_apply, Finset.sum_eq_single_of_mem x (mem_freeSet.2 h)]
  · rw [unitDir_same, mul_one]
  · intro y _ hy
    rw [unitDir_other hy, mul_zero]

theorem bilForm_unit {H : Nat → Nat → Nat → Nat → ℝ} {x : Nat × Nat} (h : isFree ps x.1 x.2) (w : Theta) :
    bilForm (freeSet ps) H (unitDir x) w = linForm (freeSet ps) (bothSides H x.1 x.2) w := by
  rw [bilForm_apply, Finset.sum_eq_single_of_mem x (mem_freeSet.2 h)]
  · rw [unitDir_same, one_mul]
  · intro y _ hy
    rw [unitDir_other hy, zero_mul]

open scoped Classical in
/-- The free entries `step`, as a direction. -/
noncomputable def extDir (ps : List (Param ℝ)) (step : List ℝ) : Theta := fun i a => if isFree ps i a then dirOf ps step i a else 0

theorem extDir_onFree (ps : List (Param ℝ)) (step : List ℝ) : OnFree ps (extDir ps step) := fun i a h => if_neg h

theorem extDir_free {step : List ℝ} {i a : Nat} (h : isFree ps i a) : extDir ps step i a = dirOf ps step i a := if_pos h

theorem extDir_listOf {u : Theta} (h : OnFree ps u) : extDir ps (listOf ps u) = u := by
  funext i a
  by_cases hia : isFree ps i a
  · rw [extDir_free hia, dirOf_listOf _ hia]
  · rw [extDir_onFree _ _ _ _ hia, h i a hia]

theorem listOf_extDir {step : List ℝ} (h : step.length = totalFree ps) : listOf ps (extDir ps step) = step :=
  (eq_listOf h fun i a hia => (extDir_free hia).symm).symm

/-- A Newton step, in terms of the forms. -/
structure WeakStep (ps : List (Param ℝ)) (D : Nat → Nat → ℝ) (H : Nat → Nat → Nat → Nat → ℝ) (ders : List (Nat → Nat → ℝ)) (res : List ℝ) (s : Theta) (μ : List ℝ) : Prop where
  onFree : OnFree ps s
  multipliers : μ.length = ders.length
  stationary : ∀ u, OnFree ps u → bilForm (freeSet ps) H u s + ((ders.zip μ).map fun x => linForm (freeSet ps) x.1 u * x.2).sum = linForm (freeSet ps) D u
  feasible : ∀ (k : Nat) d r, ders[k]? = some d → res[k]? = some r → linForm (freeSet ps) d s = r

theorem freeSum_ext (hw : ∀ p ∈ ps, p.mask.length = p.shape.prod) (D : Nat → Nat → ℝ) (step : List ℝ) :
    freeSum ps (fun j b => D j b * step.getD (freeRank ps j b) 0) = linForm (freeSet ps) D (extDir ps step) := by
  rw [freeSum_eq hw, linForm_apply]
  exact Finset.sum_congr rfl fun x hx => by rw [extDir_free (mem_freeSet.1 hx)]; rfl

theorem weak_iff (hw : ∀ p ∈ ps, p.mask.length = p.shape.prod) {D : Nat → Nat → ℝ} {H : Nat → Nat → Nat → Nat → ℝ} {ders : List (Nat → Nat → ℝ)} {res step μ : List ℝ} :
    NewtonStep ps D H ders res step μ ↔ step.length = totalFree ps ∧ WeakStep ps D H ders res (extDir ps step) μ := by
  constructor
  · intro h
    refine ⟨h.len, extDir_onFree _ _, h.multipliers, fun u hu => ?_, fun k d r hd hr => ?_⟩
    · rw [bilForm_apply, linForm_apply]
      have e : ((ders.zip μ).map fun x => linForm (freeSet ps) x.1 u * x.2).sum = ∑ x ∈ freeSet ps, u x.1 x.2 * ((ders.zip μ).map fun y => y.1 x.1 x.2 * y.2).sum := by
        induction ders.zip μ with
        | nil => simp
        | cons z l ih =>
          rw [List.map_cons, List.sum_cons, ih, linForm_apply, Finset.sum_mul, ← Finset.sum_add_distrib]
          refine Finset.sum_congr rfl fun x _ => ?_
          rw [List.map_cons, List.sum_cons]
          ring
      rw [e, ← Finset.sum_add_distrib]
      refine Finset.sum_congr rfl fun x hx => ?_
      rw [← mul_add, ← freeSum_ext hw, h.stationary x.1 x.2 (mem_freeSet.1 hx), mul_comm]
    · rw [← freeSum_ext hw]
      exact h.feasible k d r hd hr
  · rintro ⟨hl, h⟩
    refine ⟨hl, h.multipliers, fun i a hia => ?_, fun k d r hd hr => ?_⟩
    · have := h.stationary _ (unitDir_onFree (x := (i, a)) hia)
      rw [bilForm_unit (x := (i, a)) hia, linForm_unit (x := (i, a)) hia] at this
      rw [freeSum_ext hw, ← this]
      congr 2
      refine List.map_congr_left fun y _ => ?_
      rw [linForm_unit (x := (i, a)) hia]
    · rw [freeSum_ext hw]
      exact h.feasible k d r hd hr

/-- The forms of the two problems correspond to each other. -/
structure SameForms (B : Theta ≃ₗ[ℝ] Theta) (ps ps' : List (Param ℝ)) (D : Nat → Nat → ℝ) (H : Nat → Nat → Nat → Nat → ℝ) (ders : List (Nat → Nat → ℝ))
    (D' : Nat → Nat → ℝ) (H' : Nat → Nat → Nat → Nat → ℝ) (ders' : List (Nat → Nat → ℝ)) : Prop where
  first : ∀ u, OnFree ps u → linForm (freeSet ps') D' (B u) = linForm (freeSet ps) D u
  second : ∀ u w, OnFree ps u → OnFree ps w → bilForm (freeSet ps') H' (B u) (B w) = bilForm (freeSet ps) H u w
  ders : List.Forall₂ (fun d d' : Nat → Nat → ℝ => ∀ u, OnFree ps u → linForm (freeSet ps') d' (B u) = linForm (freeSet ps) d u) ders ders'

theorem SameDirections.symm (hf : SameDirections B ps ps') : SameDirections B.symm ps' ps := fun u => by
  have := hf (B.symm u)
  rw [LinearEquiv.apply_symm_apply] at this
  exact this.symm

theorem SameForms.symm {D D' : Nat → Nat → ℝ} {H H' : Nat → Nat → Nat → Nat → ℝ} {ders ders' : List (Nat → Nat → ℝ)} (hf : SameDirections B ps ps')
    (h : SameForms B ps ps' D H ders D' H' ders') : SameForms B.symm ps' ps D' H' ders' D H ders := by
  have hs := hf.symm
  refine ⟨fun u hu => ?_, fun u w hu hw => ?_, h.ders.flip.imp fun d' d hd u hu => ?_⟩
  · rw [← h.first _ ((hs u).2 hu), LinearEquiv.apply_symm_apply]
  · rw [← h.second _ _ ((hs u).2 hu) ((hs w).2 hw), LinearEquiv.apply_symm_apply, LinearEquiv.apply_symm_apply]
  · rw [← hd _ ((hs u).2 hu), LinearEquiv.apply_symm_apply]

theorem weak_transfer {D D' : Nat → Nat → ℝ} {H H' : Nat → Nat → Nat → Nat → ℝ} {ders ders' : List (Nat → Nat → ℝ)} {res : List ℝ} (hf : SameDirections B ps ps')
    (h : SameForms B ps ps' D H ders D' H' ders') {s : Theta} {μ : List ℝ} (hn : WeakStep ps D H ders res s μ) : WeakStep ps' D' H' ders' res (B s) μ := by
  have hl : ders.length = ders'.length := h.ders.length_eq
  refine ⟨(hf s).2 hn.onFree, hn.multipliers.trans hl, fun u' hu' => ?_, fun k d' r hd' hr => ?_⟩
  · obtain ⟨u, rfl⟩ := B.surjective u'
    have hu := (hf u).1 hu'
    rw [h.second u s hu hn.onFree, h.first u hu, ← hn.stationary u hu]
    congr 1
    have key : ∀ {l l' : List (Nat → Nat → ℝ)} (μ : List ℝ),
        List.Forall₂ (fun d d' : Nat → Nat → ℝ => ∀ u, OnFree ps u → linForm (freeSet ps') d' (B u) = linForm (freeSet ps) d u) l l' →
        ((l'.zip μ).map fun x => linForm (freeSet ps') x.1 (B u) * x.2).sum = ((l.zip μ).map fun x => linForm (freeSet ps) x.1 u * x.2).sum := by
      intro l l' μ h
      induction h generalizing μ with
      | nil => rfl
      | cons h1 _ ih =>
        cases μ with
        | nil => rfl
        | cons y μ =>
          simp only [List.zip_cons_cons, List.map_cons, List.sum_cons]
          rw [ih μ, h1 u hu]
    exact key μ h.ders
  · have hk : k < ders.length := by
      rw [hl]
      exact (List.getElem?_eq_some_iff.1 hd').1
    rw [← hn.feasible k _ r (List.getElem?_eq_getElem hk) hr]
    have := (List.forall₂_iff_get.1 h.ders).2 k hk (by rw [← hl]; exact hk) s hn.onFree
    simp only [List.get_eq_getElem] at this
    have e2 : ders'[k]'(by rw [← hl]; exact hk) = d' := (List.getElem?_eq_some_iff.1 hd').2
    rw [e2] at this
    exact this

end

/-! ### the derivatives of the changed problem -/

section
variable {ps ps' : List (Param ℝ)} {B : Theta ≃ₗ[ℝ] Theta} {b : Theta}

theorem lin_ext {f g : Theta →ₗ[ℝ] ℝ} (h : ∀ x : Nat × Nat, isFree ps x.1 x.2 → f (unitDir x) = g (unitDir x)) {u : Theta} (hu : OnFree ps u) : f u = g u := by
  rw [expand hu, map_sum, map_sum]
  exact Finset.sum_congr rfl fun x hx => by rw [map_smul, map_smul, h x (mem_freeSet.1 hx)]

theorem set_add (θ : Theta) (x : Nat × Nat) (τ : ℝ) : θ.set x.1 x.2 (θ x.1 x.2 + τ) = θ + τ • unitDir x := by
  funext i a
  show _ = θ i a + τ * unitDir x i a
  unfold Theta.set
  split_ifs with h
  · obtain ⟨rfl, rfl⟩ := h
    rw [unitDir_same, mul_one]
  · rw [show unitDir x i a = 0 from unitDir_other (x := x) (y := (i, a)) fun e => h ⟨congrArg Prod.fst e, congrArg Prod.snd e⟩, mul_zero, add_zero]

theorem set_change (θ : Theta) (x : Nat × Nat) (τ : ℝ) :
    Theta.set (B θ + b) x.1 x.2 ((B θ + b) x.1 x.2 + τ) = B (θ + τ • B.symm (unitDir x)) + b := by
  rw [set_add, map_add, map_smul, LinearEquiv.apply_symm_apply]
  abel

theorem partial_change {F F' : Theta → ℝ} (h : ∀ θ : Theta, F' (B θ + b) = F θ) {θ : Theta} {x : Nat × Nat} {d : ℝ} (hd : HasPartial F' (B θ + b) x.1 x.2 d) :
    HasDerivAt (fun τ : ℝ => F (θ + τ • B.symm (unitDir x))) d 0 := by
  have := hasPartial_zero.1 hd
  refine this.congr_of_eventuallyEq (Filter.Eventually.of_forall fun τ => ?_)
  show _ = F' _
  rw [set_change, h]

theorem first_change {F F' : Theta → ℝ} (h : ∀ θ : Theta, F' (B θ + b) = F θ) (hs : ∀ θ, SmoothAt F θ) {E : Theta → Nat → Nat → ℝ}
    (hE : ∀ θ, ∀ x ∈ freeSet ps, HasPartial F θ x.1 x.2 (E θ x.1 x.2)) (hf : SameDirections B ps ps') {θ : Theta} {x : Nat × Nat} (hx : isFree ps' x.1 x.2) {d : ℝ}
    (hd : HasPartial F' (B θ + b) x.1 x.2 d) : d = linForm (freeSet ps) (E θ) (B.symm (unitDir x)) := by
  have hu : OnFree ps (B.symm (unitDir x)) := (hf.symm _).2 (unitDir_onFree hx)
  exact (partial_change h hd).unique (dir_first hs hE (fun i a hia => hu i a fun h' => hia (mem_freeSet.2 h')) θ)

variable {pr pr' : Problem} {m m' : Nat} {L L' : Theta → ℝ} {M M' : MaxLikeT ℝ} {gs gs' : List Con} {φs φs' : List Pen} {T : ℝ}
  {pinvh : List (List ℝ) → Except Err (List (List ℝ))} {tol : ℝ}

/-- The forms of the two problems. -/
theorem changed_forms {P P' : Theta → ℝ} (hcs : ∀ c ∈ gs, ∃ t, IsConstraint (cOrder pr m) t c.val c.der) (hcs' : ∀ c ∈ gs', ∃ t, IsConstraint (cOrder pr' m') t c.val c.der)
    (hre : Reparametrised B b P gs P' gs') (hsm : ∀ θ, SmoothAt P θ) (hsg : ∀ g ∈ gs, ∀ θ, SmoothAt g.val θ)
    {D D' : Theta → Nat → Nat → ℝ} {H H' : Theta → Nat → Nat → Nat → Nat → ℝ} (hD : Derivs pr m (fun _ => True) P D H)
    (hD' : Derivs pr' m' (fun _ => True) P' D' H') (θ : Theta) (hat : AtPoint pr m θ ps) (hat' : AtPoint pr' m' (B θ + b) ps') (hf : SameDirections B ps ps') :
    SameForms B ps ps' (D θ) (H θ) (gs.map fun c => c.der θ) (D' (B θ + b)) (H' (B θ + b)) (gs'.map fun c => c.der (B θ + b)) := by
  have hent : ∀ x : Nat × Nat, isFree ps x.1 x.2 → pr.HasEntry m x := fun x hx => hat.free hx
  have hent' : ∀ x : Nat × Nat, isFree ps' x.1 x.2 → pr'.HasEntry m' x := fun x hx => hat'.free hx
  have hpart : ∀ θ, ∀ x ∈ freeSet ps, HasPartial P θ x.1 x.2 (D θ x.1 x.2) := fun θ x hx => by
    have := hent x (mem_freeSet.1 hx)
    exact hD.first θ trivial x.1 this.1 x.2 this.2
  have hback : ∀ {x : Nat × Nat}, isFree ps' x.1 x.2 → OnFree ps (B.symm (unitDir x)) := fun hx => (hf.symm _).2 (unitDir_onFree hx)
  have first : ∀ θ, ∀ x : Nat × Nat, isFree ps' x.1 x.2 → D' (B θ + b) x.1 x.2 = linForm (freeSet ps) (D θ) (B.symm (unitDir x)) := fun θ x hx =>
    first_change hre.objective hsm hpart hf hx (hD'.first _ trivial x.1 (hent' x hx).1 x.2 (hent' x hx).2)
  -- the derivative of a partial derivative along a direction
  have dsec : ∀ y ∈ freeSet ps, ∀ u, OnFree ps u → HasDerivAt (fun τ : ℝ => D (θ + τ • u) y.1 y.2) (linForm (freeSet ps) (bothSides (H θ) y.1 y.2) u) 0 := by
    intro y hy u hu
    obtain ⟨h, h1, h2⟩ := dir_second hsm hpart (θ := θ) hy
    have := h2 u fun i a hia => hu i a fun h' => hia (mem_freeSet.2 h')
    rw [linForm_apply]
    refine this.congr_deriv (Finset.sum_congr rfl fun x hx => ?_)
    rw [both_of hD (hsm θ).two (hent y (mem_freeSet.1 hy)) (hent x (mem_freeSet.1 hx)) (Or.inl (h1 x hx))]
  have hsymm : ∀ x ∈ freeSet ps, ∀ y ∈ freeSet ps, bothSides (H θ) x.1 x.2 y.1 y.2 = bothSides (H θ) y.1 y.2 x.1 x.2 := by
    intro x hx y hy
    obtain ⟨h, h1, -⟩ := dir_second hsm hpart (θ := θ) hy
    rw [both_of hD (hsm θ).two (hent y (mem_freeSet.1 hy)) (hent x (mem_freeSet.1 hx)) (Or.inl (h1 x hx)),
      both_of hD (hsm θ).two (hent x (mem_freeSet.1 hx)) (hent y (mem_freeSet.1 hy)) (Or.inr (h1 x hx))]
  have hbsym : ∀ u w, bilForm (freeSet ps) (H θ) u w = bilForm (freeSet ps) (H θ) w u := by
    intro u w
    simp only [bilForm_apply, linForm_apply, Finset.mul_sum]
    rw [Finset.sum_comm]
    exact Finset.sum_congr rfl fun x hx => Finset.sum_congr rfl fun y hy => by rw [hsymm x hx y hy]; ring
  have dlin : ∀ u w, OnFree ps u → OnFree ps w → HasDerivAt (fun τ : ℝ => linForm (freeSet ps) (D (θ + τ • u)) w) (bilForm (freeSet ps) (H θ) w u) 0 := by
    intro u w hu hw
    simp only [linForm_apply]
    rw [bilForm_apply]
    have := HasDerivAt.fun_sum (u := freeSet ps) fun y hy => (dsec y hy u hu).mul_const (w y.1 y.2)
    refine this.congr_deriv (Finset.sum_congr rfl fun x _ => mul_comm _ _)
  have second : ∀ x y : Nat × Nat, isFree ps' x.1 x.2 → isFree ps' y.1 y.2 →
      bothSides (H' (B θ + b)) x.1 x.2 y.1 y.2 = bilForm (freeSet ps) (H θ) (B.symm (unitDir x)) (B.symm (unitDir y)) := by
    intro x y hx hy
    have hx1 := hent' x hx
    have hy1 := hent' y hy
    unfold bothSides
    split_ifs with hlt
    · exact (partial_change (fun θ => first θ x hx) (hD'.second _ trivial x.1 hx1.1 y.1 hlt.le x.2 hx1.2 y.2 hy1.2)).unique (dlin _ _ (hback hy) (hback hx))
    · rw [hbsym]
      exact (partial_change (fun θ => first θ y hy) (hD'.second _ trivial y.1 hy1.1 x.1 (not_lt.1 hlt) y.2 hy1.2 x.2 hx1.2)).unique (dlin _ _ (hback hx) (hback hy))
  refine ⟨fun u hu => ?_, fun u w hu hw => ?_, ?_⟩
  · rw [lin_ext (ps := ps') (f := linForm (freeSet ps') (D' (B θ + b))) (g := (linForm (freeSet ps) (D θ)).comp B.symm.toLinearMap)
      (fun x hx => by rw [linForm_unit hx, first θ x hx]; rfl) ((hf u).2 hu)]
    rw [LinearMap.comp_apply, LinearEquiv.coe_coe, LinearEquiv.symm_apply_apply]
  · have hw' := (hf w).2 hw
    have hu' := (hf u).2 hu
    have h1 : ∀ x : Nat × Nat, isFree ps' x.1 x.2 → bilForm (freeSet ps') (H' (B θ + b)) (unitDir x) (B w) = bilForm (freeSet ps) (H θ) (B.symm (unitDir x)) w := by
      intro x hx
      rw [bilForm_unit hx, lin_ext (ps := ps') (f := linForm (freeSet ps') (bothSides (H' (B θ + b)) x.1 x.2))
        (g := (bilForm (freeSet ps) (H θ) (B.symm (unitDir x))).comp B.symm.toLinearMap) (fun y hy => by rw [linForm_unit hy, second x y hx hy]; rfl) hw']
      rw [LinearMap.comp_apply, LinearEquiv.coe_coe, LinearEquiv.symm_apply_apply]
    rw [show bilForm (freeSet ps') (H' (B θ + b)) (B u) (B w) = (bilForm (freeSet ps') (H' (B θ + b))).flip (B w) (B u) from rfl,
      lin_ext (ps := ps') (g := ((bilForm (freeSet ps) (H θ)).flip w).comp B.symm.toLinearMap) (fun x hx => h1 x hx) hu']
    rw [LinearMap.comp_apply, LinearEquiv.coe_coe, LinearEquiv.symm_apply_apply, LinearMap.flip_apply]
  · rw [List.forall₂_map_left_iff, List.forall₂_map_right_iff]
    have key : ∀ {l l' : List Con}, (∀ c ∈ l, ∃ t, IsConstraint (cOrder pr m) t c.val c.der) → (∀ c ∈ l', ∃ t, IsConstraint (cOrder pr' m') t c.val c.der) →
        (∀ g ∈ l, ∀ θ, SmoothAt g.val θ) → List.Forall₂ (fun g g' : Con => ∀ θ : Theta, g'.val (B θ + b) = g.val θ) l l' →
        List.Forall₂ (fun c c' : Con => ∀ u, OnFree ps u → linForm (freeSet ps') (c'.der (B θ + b)) (B u) = linForm (freeSet ps) (c.der θ) u) l l' := by
      intro l l' hl hl' hg h
      induction h with
      | nil => exact .nil
      | @cons c c' l l' h1 _ ih =>
        refine .cons (fun u hu => ?_) (ih (fun d hd => hl d (List.mem_cons_of_mem _ hd)) (fun d hd => hl' d (List.mem_cons_of_mem _ hd)) fun d hd => hg d (List.mem_cons_of_mem _ hd))
        obtain ⟨t, ht⟩ := hl c List.mem_cons_self
        obtain ⟨t', ht'⟩ := hl' c' List.mem_cons_self
        rw [lin_ext (ps := ps') (f := linForm (freeSet ps') (c'.der (B θ + b))) (g := (linForm (freeSet ps) (c.der θ)).comp B.symm.toLinearMap)
          (fun x hx => ?_) ((hf u).2 hu)]
        · rw [LinearMap.comp_apply, LinearEquiv.coe_coe, LinearEquiv.symm_apply_apply]
        · rw [linForm_unit hx]
          have hx1 := hent' x hx
          exact first_change h1 (hg c List.mem_cons_self) (E := c.der) (fun θ y hy => by
            have := hent y (mem_freeSet.1 hy)
            exact ht.partials θ y.1 this.1 y.2 (entry_iff.2 this.2)) hf hx (ht'.partials (B θ + b) x.1 hx1.1 x.2 (entry_iff.2 hx1.2))
    exact key hcs hcs' hsg hre.constraints

end

end Verif.Tens
