import Mathlib.Analysis.Calculus.FDeriv.Symmetric
import Verif.Props.ErrorsTensor

/-!
# C69: second derivatives of the same parameter commute

`SymmetricHess` in C69 is a consequence of a condition on the objective alone: it is twice continuously differentiable.
-/

set_option linter.unusedSectionVars false

namespace Verif.Tens
open Verif.Params
open NDArray

/-- As a function of any two entries, `F` is twice continuously differentiable at `θ`. -/
def Smooth2 (F : Theta → ℝ) (θ : Theta) : Prop :=
  ∀ i a j b, ContDiffAt ℝ 2 (fun z : ℝ × ℝ => F ((θ.set i a z.1).set j b z.2)) (θ i a, θ j b)

/-- Any two entries may be moved a little. -/
def Roomy (dom : Theta → Prop) (θ : Theta) : Prop :=
  ∀ i a j b, ∀ᶠ z : ℝ × ℝ in nhds (θ i a, θ j b), dom ((θ.set i a z.1).set j b z.2)

theorem Theta.set_comm {θ : Theta} {i a j b : Nat} (h : ¬(i = j ∧ a = b)) (x y : ℝ) : (θ.set i a x).set j b y = (θ.set j b y).set i a x := by
  funext i' a'
  unfold Theta.set
  by_cases h1 : i' = i ∧ a' = a
  · by_cases h2 : i' = j ∧ a' = b
    · exact absurd ⟨h1.1.symm.trans h2.1, h1.2.symm.trans h2.2⟩ h
    · rw [if_neg h2, if_pos h1, if_pos h1]
  · rw [if_neg h1]
    by_cases h2 : i' = j ∧ a' = b
    · rw [if_pos h2, if_neg h1]
    · rw [if_neg h2, if_neg h1]

theorem Theta.set_set (θ : Theta) (i a : Nat) (x y : ℝ) : (θ.set i a x).set i a y = θ.set i a y := by
  funext i' a'
  unfold Theta.set
  split <;> rfl

theorem Theta.set_at (θ : Theta) (i a : Nat) (x : ℝ) : (θ.set i a x) i a = x := by
  simp [Theta.set]

theorem Theta.set_other {θ : Theta} {i a j b : Nat} (h : ¬(i = j ∧ a = b)) (x : ℝ) : (θ.set i a x) j b = θ j b := by
  unfold Theta.set
  rw [if_neg]
  rintro ⟨h1, h2⟩
  exact h ⟨h1.symm, h2.symm⟩

/-- The second derivatives of a smooth function. -/
theorem mixed_eq {F : Theta → ℝ} {D : Theta → Nat → Nat → ℝ} {θ : Theta} {i a j b : Nat} (hab : ¬(i = j ∧ a = b)) {dom : Theta → Prop}
    (hs : ContDiffAt ℝ 2 (fun z : ℝ × ℝ => F ((θ.set i a z.1).set j b z.2)) (θ i a, θ j b))
    (hr : ∀ᶠ z : ℝ × ℝ in nhds (θ i a, θ j b), dom ((θ.set i a z.1).set j b z.2))
    (h1 : ∀ θ, dom θ → HasPartial F θ i a (D θ i a)) {h : ℝ} (h2 : HasPartial (fun θ => D θ i a) θ j b h) :
    h = fderiv ℝ (fderiv ℝ fun z : ℝ × ℝ => F ((θ.set i a z.1).set j b z.2)) (θ i a, θ j b) (0, 1) (1, 0) := by
  set G : ℝ × ℝ → ℝ := fun z => F ((θ.set i a z.1).set j b z.2) with hG
  set z₀ : ℝ × ℝ := (θ i a, θ j b) with hz
  have hd : ∀ᶠ z in nhds z₀, DifferentiableAt ℝ G z := by
    have := hs.eventually (by simp)
    exact this.mono fun z hz => hz.differentiableAt (by simp)
  have e1 : ∀ᶠ z in nhds z₀, D ((θ.set i a z.1).set j b z.2) i a = fderiv ℝ G z (1, 0) := by
    filter_upwards [hd, hr] with z g1 g2
    have p := h1 _ g2
    unfold HasPartial at p
    have e : (fun t => F (((θ.set i a z.1).set j b z.2).set i a t)) = fun t => G (t, z.2) := by
      funext t
      rw [hG]
      dsimp only
      rw [Theta.set_comm hab z.1 z.2, Theta.set_set, ← Theta.set_comm hab]
    have e' : ((θ.set i a z.1).set j b z.2) i a = z.1 := by
      rw [Theta.set_other (fun h => hab ⟨h.1.symm, h.2.symm⟩), Theta.set_at]
    rw [e, e'] at p
    have q : HasDerivAt (fun t : ℝ => ((t, z.2) : ℝ × ℝ)) (1, 0) z.1 := (hasDerivAt_id z.1).prodMk (hasDerivAt_const z.1 z.2)
    have := (show HasFDerivAt G (fderiv ℝ G z) (z.1, z.2) from g1.hasFDerivAt).comp_hasDerivAt z.1 q
    exact p.unique this
  have hf : DifferentiableAt ℝ (fderiv ℝ G) z₀ := (hs.fderiv_right (m := 1) (by norm_num)).differentiableAt (by simp)
  have q2 : HasDerivAt (fun t : ℝ => ((θ i a, t) : ℝ × ℝ)) (0, 1) (θ j b) := (hasDerivAt_const (θ j b) (θ i a)).prodMk (hasDerivAt_id (θ j b))
  have c := (show HasFDerivAt (fderiv ℝ G) (fderiv ℝ (fderiv ℝ G) z₀) (θ i a, θ j b) from hf.hasFDerivAt).comp_hasDerivAt (θ j b) q2
  have c' := c.clm_apply (hasDerivAt_const (θ j b) ((1, 0) : ℝ × ℝ))
  unfold HasPartial at h2
  refine h2.unique ?_
  have c'' : HasDerivAt (fun t => fderiv ℝ G (θ i a, t) (1, 0)) (fderiv ℝ (fderiv ℝ G) z₀ (0, 1) (1, 0)) (θ j b) := by
    refine c'.congr_deriv ?_
    simp
  refine c''.congr_of_eventuallyEq ?_
  have ht : Filter.Tendsto (fun t : ℝ => ((θ i a, t) : ℝ × ℝ)) (nhds (θ j b)) (nhds z₀) := q2.continuousAt
  filter_upwards [ht.eventually e1] with t ht
  rw [← ht, Theta.set_self]

/-- The second derivatives of a smooth function. -/
theorem mixed_eq' {F : Theta → ℝ} {D : Theta → Nat → Nat → ℝ} {θ : Theta} {i a j b : Nat} (hab : ¬(i = j ∧ a = b)) {dom : Theta → Prop}
    (hs : ContDiffAt ℝ 2 (fun z : ℝ × ℝ => F ((θ.set i a z.1).set j b z.2)) (θ i a, θ j b))
    (hr : ∀ᶠ z : ℝ × ℝ in nhds (θ i a, θ j b), dom ((θ.set i a z.1).set j b z.2))
    (h1 : ∀ θ, dom θ → HasPartial F θ j b (D θ j b)) {h : ℝ} (h2 : HasPartial (fun θ => D θ j b) θ i a h) :
    h = fderiv ℝ (fderiv ℝ fun z : ℝ × ℝ => F ((θ.set i a z.1).set j b z.2)) (θ i a, θ j b) (1, 0) (0, 1) := by
  set G : ℝ × ℝ → ℝ := fun z => F ((θ.set i a z.1).set j b z.2) with hG
  set z₀ : ℝ × ℝ := (θ i a, θ j b) with hz
  have hd : ∀ᶠ z in nhds z₀, DifferentiableAt ℝ G z := by
    have := hs.eventually (by simp)
    exact this.mono fun z hz => hz.differentiableAt (by simp)
  have e1 : ∀ᶠ z in nhds z₀, D ((θ.set i a z.1).set j b z.2) j b = fderiv ℝ G z (0, 1) := by
    filter_upwards [hd, hr] with z g1 g2
    have p := h1 _ g2
    unfold HasPartial at p
    have e : (fun t => F (((θ.set i a z.1).set j b z.2).set j b t)) = fun t => G (z.1, t) := by
      funext t
      rw [hG]
      dsimp only
      rw [Theta.set_set]
    have e' : ((θ.set i a z.1).set j b z.2) j b = z.2 := by
      rw [Theta.set_at]
    rw [e, e'] at p
    have q : HasDerivAt (fun t : ℝ => ((z.1, t) : ℝ × ℝ)) (0, 1) z.2 := (hasDerivAt_const z.2 z.1).prodMk (hasDerivAt_id z.2)
    have := (show HasFDerivAt G (fderiv ℝ G z) (z.1, z.2) from g1.hasFDerivAt).comp_hasDerivAt z.2 q
    exact p.unique this
  have hf : DifferentiableAt ℝ (fderiv ℝ G) z₀ := (hs.fderiv_right (m := 1) (by norm_num)).differentiableAt (by simp)
  have q2 : HasDerivAt (fun t : ℝ => ((t, θ j b) : ℝ × ℝ)) (1, 0) (θ i a) := (hasDerivAt_id (θ i a)).prodMk (hasDerivAt_const (θ i a) (θ j b))
  have c := (show HasFDerivAt (fderiv ℝ G) (fderiv ℝ (fderiv ℝ G) z₀) (θ i a, θ j b) from hf.hasFDerivAt).comp_hasDerivAt (θ i a) q2
  have c' := c.clm_apply (hasDerivAt_const (θ i a) ((0, 1) : ℝ × ℝ))
  unfold HasPartial at h2
  refine h2.unique ?_
  have c'' : HasDerivAt (fun t => fderiv ℝ G (t, θ j b) (0, 1)) (fderiv ℝ (fderiv ℝ G) z₀ (1, 0) (0, 1)) (θ i a) := by
    refine c'.congr_deriv ?_
    simp
  refine c''.congr_of_eventuallyEq ?_
  have ht : Filter.Tendsto (fun t : ℝ => ((t, θ j b) : ℝ × ℝ)) (nhds (θ i a)) (nhds z₀) := q2.continuousAt
  filter_upwards [ht.eventually e1] with t ht
  rw [← ht, Theta.set_comm hab, Theta.set_self]

theorem second_symm {F : Theta → ℝ} {D : Theta → Nat → Nat → ℝ} {θ : Theta} {i a j b : Nat} {dom : Theta → Prop}
    (hs : Smooth2 F θ) (hr : Roomy dom θ) (ha : ∀ θ, dom θ → HasPartial F θ i a (D θ i a)) (hb : ∀ θ, dom θ → HasPartial F θ j b (D θ j b)) {h h' : ℝ}
    (h1 : HasPartial (fun θ => D θ i a) θ j b h) (h2 : HasPartial (fun θ => D θ j b) θ i a h') : h = h' := by
  by_cases hab : i = j ∧ a = b
  · obtain ⟨rfl, rfl⟩ := hab
    exact h1.unique h2
  rw [mixed_eq hab (hs i a j b) (hr i a j b) ha h1]
  have hsym : IsSymmSndFDerivAt ℝ (fun z : ℝ × ℝ => F ((θ.set i a z.1).set j b z.2)) (θ i a, θ j b) := (hs i a j b).isSymmSndFDerivAt (by simp)
  rw [hsym.eq]
  exact (mixed_eq' hab (hs i a j b) (hr i a j b) hb h2).symm

variable {pr : Problem} {m : Nat} {dom : Theta → Prop} {L : Theta → ℝ} {M : MaxLikeT ℝ} {gs : List Con} {φs : List Pen} {T : ℝ}

/-- **C69.** If the penalised log-likelihood is twice continuously differentiable, then the hypothesis `SymmetricHess` of `C69_after_fit` holds. -/
theorem C69_symmetric {P : Theta → ℝ} {D : Theta → Nat → Nat → ℝ} {H : Theta → Nat → Nat → Nat → Nat → ℝ} (hD : Derivs pr m dom P D H) {θ θ₁ : Theta} {params : List (Param ℝ)}
    (hat : AtPoint pr m θ₁ params) (hθ : dom θ) (hs : Smooth2 P θ) (hr : Roomy dom θ) : SymmetricHess params (H θ) := by
  rintro i a b ⟨p, p1, p2⟩ ⟨p', p1', p3⟩
  rw [p1] at p1'
  cases p1'
  have hi : i < m := by
    rw [← hat.len]
    exact (List.getElem?_eq_some_iff.1 p1).1
  obtain ⟨q, q1, q2, q3, -⟩ := hat.each i hi
  rw [p1] at q1
  cases q1
  have hlt : ∀ c, p.mask[c]? = some false → c < (pr.sizes i).prod := fun c hc => by
    rw [← q2, ← q3]
    exact (List.getElem?_eq_some_iff.1 hc).1
  have ha := hlt a p2
  have hb := hlt b p3
  exact second_symm hs hr (fun θ hθ => hD.first θ hθ i hi a ha) (fun θ hθ => hD.first θ hθ i hi b hb) (hD.second θ hθ i hi i le_rfl a ha b hb) (hD.second θ hθ i hi i le_rfl b hb a ha)

/-- **C69.** `C69_after_fit` for a penalised log-likelihood that is twice continuously differentiable on an open domain: the errors reported after a Newton fit that returned. -/
theorem C69_smooth (hM : Solver pr m dom M L gs φs T) (hsm : ∀ θ, dom θ → Smooth2 (penalised L φs) θ ∧ Roomy dom θ) : ∃ D H, Derivs pr m dom (penalised L φs) D H ∧
    ∀ pinvh tol θ, dom θ → ∀ (o : Fit.Obj ℝ (List (List ℝ))), AtPoint pr m θ o.params → ∀ maxSteps verbose b r,
      r = Fit.fit (M.env pinvh tol) o maxSteps verbose .newton → r.outcome = .ok b →
      (∀ tr ∈ r.trace, ∀ q ∈ tr, ∃ θ', dom θ' ∧ AtPoint pr m θ' q) →
      ∃ q θ' J, Visited o r q ∧ dom θ' ∧ AtPoint pr m θ' q ∧ r.obj.flatHess = some J ∧ SymmetricHess r.obj.params (H θ') ∧
        (∃ bs, fisherMatrixT r.obj.params J = .ok bs ∧ IsBlocks r.obj.params (bothSides (H θ')) 0 bs) ∧
        ∀ nan,
          (∃ E bs, IsCovariance r.obj.params (H θ') (gs.map fun c => c.der θ') E ∧ errorMatrixT r.obj.params J nan = .ok bs ∧ IsBlocks r.obj.params E nan bs) ∧
          (1 ≤ gs.length → Concave r.obj.params (H θ') (gs.map fun c => c.der θ') →
            ∃ rs, stdErrorT M r.obj.params J nan = .ok rs ∧ StdErrors r.obj.params (H θ') (gs.map fun c => c.der θ') nan rs) := by
  obtain ⟨D, H, hD, h⟩ := C69_after_fit hM
  refine ⟨D, H, hD, fun pinvh tol θ hθ o hat maxSteps verbose b r hr hb hdom => ?_⟩
  obtain ⟨q, θ', J, h1, h2, h3, h4, h5, h6⟩ := h pinvh tol θ hθ o hat maxSteps verbose b r hr hb hdom
  have hl : SameLayout r.obj.params o.params := by
    rw [hr]
    exact (Fit.C02_fixed_unchanged (M.env pinvh tol) o maxSteps verbose .newton hat.wf).1
  have hsy : SymmetricHess r.obj.params (H θ') := by
    have := C69_symmetric hD hat h2 (hsm θ' h2).1 (hsm θ' h2).2
    exact fun i a b h1 h2 => this i a b ((layout_free hl).1 h1) ((layout_free hl).1 h2)
  exact ⟨q, θ', J, h1, h2, h3, h4, hsy, h5, h6 hsy⟩

/-! ### Smooth objectives -/

theorem roomy_true (θ : Theta) : Roomy (fun _ => True) θ := fun _ _ _ _ => Filter.Eventually.of_forall fun _ => trivial

theorem Smooth2.const (c : ℝ) (θ : Theta) : Smooth2 (fun _ => c) θ := fun _ _ _ _ => contDiffAt_const

theorem Smooth2.entry (k c : Nat) (θ : Theta) : Smooth2 (fun θ => θ k c) θ := by
  intro i a j b
  by_cases h2 : k = j ∧ c = b
  · have e : (fun z : ℝ × ℝ => ((θ.set i a z.1).set j b z.2) k c) = fun z => z.2 := by
      funext z
      show (if _ then _ else _) = _
      rw [if_pos h2]
    rw [e]
    exact contDiffAt_snd
  by_cases h1 : k = i ∧ c = a
  · have e : (fun z : ℝ × ℝ => ((θ.set i a z.1).set j b z.2) k c) = fun z => z.1 := by
      funext z
      show (if _ then _ else (if _ then _ else _)) = _
      rw [if_neg h2, if_pos h1]
    rw [e]
    exact contDiffAt_fst
  · have e : (fun z : ℝ × ℝ => ((θ.set i a z.1).set j b z.2) k c) = fun _ => θ k c := by
      funext z
      show (if _ then _ else (if _ then _ else _)) = _
      rw [if_neg h2, if_neg h1]
    rw [e]
    exact contDiffAt_const

theorem Smooth2.comp {F : Theta → ℝ} {θ : Theta} {g : ℝ → ℝ} (hg : ContDiffAt ℝ 2 g (F θ)) (hF : Smooth2 F θ) : Smooth2 (fun θ => g (F θ)) θ := by
  intro i a j b
  refine ContDiffAt.comp (g := g) (f := fun z : ℝ × ℝ => F ((θ.set i a z.1).set j b z.2)) (θ i a, θ j b) ?_ (hF i a j b)
  dsimp only
  rw [Theta.set_self, Theta.set_self]
  exact hg

theorem Smooth2.add {F G : Theta → ℝ} {θ : Theta} (hF : Smooth2 F θ) (hG : Smooth2 G θ) : Smooth2 (fun θ => F θ + G θ) θ := fun i a j b => (hF i a j b).add (hG i a j b)

theorem Smooth2.sub {F G : Theta → ℝ} {θ : Theta} (hF : Smooth2 F θ) (hG : Smooth2 G θ) : Smooth2 (fun θ => F θ - G θ) θ := fun i a j b => (hF i a j b).sub (hG i a j b)

theorem Smooth2.mul {F G : Theta → ℝ} {θ : Theta} (hF : Smooth2 F θ) (hG : Smooth2 G θ) : Smooth2 (fun θ => F θ * G θ) θ := fun i a j b => (hF i a j b).mul (hG i a j b)

theorem Smooth2.neg {F : Theta → ℝ} {θ : Theta} (hF : Smooth2 F θ) : Smooth2 (fun θ => -F θ) θ := fun i a j b => (hF i a j b).neg

theorem Smooth2.sum {ι : Type} {s : Finset ι} {F : ι → Theta → ℝ} {θ : Theta} (hF : ∀ k ∈ s, Smooth2 (F k) θ) : Smooth2 (fun θ => ∑ k ∈ s, F k θ) θ :=
  fun i a j b => ContDiffAt.sum fun k hk => hF k hk i a j b

theorem Smooth2.exp {F : Theta → ℝ} {θ : Theta} (hF : Smooth2 F θ) : Smooth2 (fun θ => Real.exp (F θ)) θ := hF.comp Real.contDiff_exp.contDiffAt

theorem Smooth2.log {F : Theta → ℝ} {θ : Theta} (hF : Smooth2 F θ) (h0 : F θ ≠ 0) : Smooth2 (fun θ => Real.log (F θ)) θ := hF.comp (Real.contDiffAt_log.2 h0)

/-- The penalised log-likelihood is smooth if its parts are. -/
theorem smooth_penalised {θ : Theta} (hL : Smooth2 L θ) (hφ : ∀ φ ∈ φs, Smooth2 φ.val θ) : Smooth2 (penalised L φs) θ := by
  refine Smooth2.sub hL ?_
  induction φs with
  | nil => exact Smooth2.const 0 θ
  | cons φ l ih => exact Smooth2.add (hφ φ List.mem_cons_self) (ih fun ψ h => hφ ψ (List.mem_cons_of_mem _ h))

/-- Quadratic penalties. -/
theorem smooth_quadPen (pm : List Nat) (u s : ℝ) (θ : Theta) : Smooth2 (quadPen pr pm u s).val θ := by
  show Smooth2 (fun θ => ∑ k ∈ Finset.range pm.length, ∑ a ∈ Finset.range (pr.sizes (pm.getD k 0)).prod, ((θ (pm.getD k 0) a - u) / s) ^ 2) θ
  refine Smooth2.sum (F := fun k θ => ∑ a ∈ Finset.range (pr.sizes (pm.getD k 0)).prod, ((θ (pm.getD k 0) a - u) / s) ^ 2) fun k _ => Smooth2.sum fun a _ => (Smooth2.entry (pm.getD k 0) a θ).comp (g := fun x => ((x - u) / s) ^ 2) (by fun_prop)

section
variable {ι : Type} [Fintype ι] {y : Theta → ι → ℝ} {θ : Theta}

theorem C69_smooth_poisson (X N : ι → ℝ) (hy : ∀ c, Smooth2 (fun θ => y θ c) θ) : Smooth2 (fun θ => Like.Poisson.like X N (y θ)) θ :=
  Smooth2.sum fun c _ => (((Smooth2.const (X c) θ).mul (hy c)).sub ((Smooth2.const (N c) θ).mul (hy c).exp)).sub (Smooth2.const _ θ)

theorem C69_smooth_zeroInflatedPoisson {s : ℝ} (hs : 0 ≤ s) (X N Z : ι → ℝ) (hy : ∀ c, Smooth2 (fun θ => y θ c) θ) :
    Smooth2 (fun θ => Like.ZeroInflatedPoisson.like s X N Z (y θ)) θ :=
  Smooth2.sum fun c _ => ((((Smooth2.const (X c) θ).mul (hy c)).add (Smooth2.const (Z c * Real.log s) θ)).sub
    ((Smooth2.const (N c) θ).mul ((((hy c).exp.exp).add (Smooth2.const s θ)).sub (Smooth2.const 1 θ) |>.log (by
      have := Real.add_one_le_exp (Real.exp (y θ c))
      have := Real.exp_pos (y θ c)
      linarith)))).sub (Smooth2.const _ θ)

theorem C69_smooth_logistic (X N : ι → ℝ) (hy : ∀ c, Smooth2 (fun θ => y θ c) θ) : Smooth2 (fun θ => Like.Logistic.like X N (y θ)) θ :=
  Smooth2.neg (Smooth2.sum fun c _ => ((Smooth2.const (N c) θ).mul (((Smooth2.const 1 θ).add (hy c).neg.exp).log (by positivity))).add ((Smooth2.const (N c - X c) θ).mul (hy c)))

theorem C69_smooth_negativeBinomial {r : ℝ} (hr : 0 < r) (X N : ι → ℝ) (hy : ∀ c, Smooth2 (fun θ => y θ c) θ) :
    Smooth2 (fun θ => Like.NegativeBinomial.like r X N (y θ)) θ :=
  Smooth2.sum fun c _ => (((Smooth2.const _ θ).add ((Smooth2.const (X c) θ).mul (hy c))).sub
    ((Smooth2.const (X c + r * N c) θ).mul (((Smooth2.const r θ).add (hy c).exp).log (by positivity))))

end

section
variable {κ υ : Type} [Fintype κ] [Fintype υ] {y : Theta → κ × υ → ℝ} {θ : Theta}

theorem C69_smooth_normalizedFinite (N : κ × υ → ℝ) (hy : ∀ c, Smooth2 (fun θ => y θ c) θ) (h0 : ∀ c, 0 < y θ c) : Smooth2 (fun θ => Like.NormalizedFinite.like N (y θ)) θ :=
  Smooth2.sum fun c _ => (Smooth2.const (N c) θ).mul ((hy c).log (h0 c).ne')

theorem C69_smooth_finite (N : κ × υ → ℝ) (hy : ∀ c, Smooth2 (fun θ => y θ c) θ) (h0 : ∀ c, 0 < y θ c) : Smooth2 (fun θ => Like.Finite.like N (y θ)) θ :=
  Smooth2.sum fun c _ => (Smooth2.const (N c) θ).mul (((hy c).log (h0 c).ne').sub ((Smooth2.sum fun u _ => hy (c.1, u)).log (by
    have hne : (Finset.univ : Finset υ).Nonempty := ⟨c.2, Finset.mem_univ _⟩
    exact (Finset.sum_pos (fun u _ => h0 (c.1, u)) hne).ne')))

end

/-- A concrete case: the problem of test_poisson_sum, a model that is not linear, with the constraint `Linear([1, 1])` and the penalty `Quadratic(0, 10)`. -/
theorem C69_example_smooth {s : Nat} (X Nw : Num ℝ) (θ : Theta) : Smooth2 (penalised (fun θ => Like.Poisson.like ((square s).val X) ((square s).val Nw) (valCell (square s)
        (fun θ n _ => Real.log (Real.exp (θ 0 (n 0) - θ 1 (n 1) + θ 2 0) + Real.exp (θ 0 (n 1) - θ 1 (n 0) - θ 2 0))) θ)) [quadPen (square s) [0, 1] 0 10]) θ ∧ Roomy (fun _ => True) θ := by
  refine ⟨smooth_penalised (C69_smooth_poisson _ _ fun c => ?_) fun φ hφ => ?_, roomy_true θ⟩
  · have e : ∀ i a, Smooth2 (fun θ => θ i a) θ := fun i a => Smooth2.entry i a θ
    exact ((((e _ _).sub (e _ _)).add (e _ _)).exp.add (((e _ _).sub (e _ _)).sub (e _ _)).exp).log (by positivity)
  · rw [List.mem_singleton.1 hφ]
    exact smooth_quadPen _ _ _ _

end Verif.Tens
