import Verif.Spec.Reparam
import Verif.Props.Symmetry
import Verif.Props.Rearrange

/-!
# Directional derivatives (for C83)
-/

set_option linter.unusedSectionVars false

namespace Verif.Tens
open Verif.Params

section
variable {F G : Theta → ℝ} {θ : Theta}

theorem shiftBy_zero (θ : Theta) (s : Finset (Nat × Nat)) : shiftBy θ s 0 = θ := by
  funext i a
  unfold shiftBy
  split_ifs <;> simp

theorem shiftBy_add (θ : Theta) (s : Finset (Nat × Nat)) (t r : s → ℝ) : shiftBy (shiftBy θ s t) s r = shiftBy θ s (t + r) := by
  funext i a
  unfold shiftBy
  by_cases h : (i, a) ∈ s
  · simp only [dif_pos h, Pi.add_apply]
    ring
  · simp only [dif_neg h]

theorem SmoothAt.const (c : ℝ) (θ : Theta) : SmoothAt (fun _ => c) θ := fun _ => contDiffAt_const

theorem SmoothAt.entry (k c : Nat) (θ : Theta) : SmoothAt (fun θ => θ k c) θ := by
  intro s
  by_cases h : (k, c) ∈ s
  · have e : (fun t : s → ℝ => shiftBy θ s t k c) = fun t => θ k c + t ⟨(k, c), h⟩ := by
      funext t
      unfold shiftBy
      rw [dif_pos h]
    rw [e]
    exact contDiffAt_const.add (contDiff_apply ℝ ℝ (⟨(k, c), h⟩ : s)).contDiffAt
  · have e : (fun t : s → ℝ => shiftBy θ s t k c) = fun _ => θ k c := by
      funext t
      unfold shiftBy
      rw [dif_neg h]
    rw [e]
    exact contDiffAt_const

theorem SmoothAt.comp {g : ℝ → ℝ} (hg : ContDiffAt ℝ 2 g (F θ)) (hF : SmoothAt F θ) : SmoothAt (fun θ => g (F θ)) θ := by
  intro s
  refine ContDiffAt.comp (g := g) (f := fun t : s → ℝ => F (shiftBy θ s t)) 0 ?_ (hF s)
  rw [shiftBy_zero]
  exact hg

theorem SmoothAt.add (hF : SmoothAt F θ) (hG : SmoothAt G θ) : SmoothAt (fun θ => F θ + G θ) θ := fun s => (hF s).add (hG s)

theorem SmoothAt.sub (hF : SmoothAt F θ) (hG : SmoothAt G θ) : SmoothAt (fun θ => F θ - G θ) θ := fun s => (hF s).sub (hG s)

theorem SmoothAt.mul (hF : SmoothAt F θ) (hG : SmoothAt G θ) : SmoothAt (fun θ => F θ * G θ) θ := fun s => (hF s).mul (hG s)

theorem SmoothAt.neg (hF : SmoothAt F θ) : SmoothAt (fun θ => -F θ) θ := fun s => (hF s).neg

theorem SmoothAt.sum {ι : Type} {S : Finset ι} {F : ι → Theta → ℝ} (hF : ∀ k ∈ S, SmoothAt (F k) θ) : SmoothAt (fun θ => ∑ k ∈ S, F k θ) θ :=
  fun s => ContDiffAt.sum fun k hk => hF k hk s

theorem SmoothAt.exp (hF : SmoothAt F θ) : SmoothAt (fun θ => Real.exp (F θ)) θ := hF.comp Real.contDiff_exp.contDiffAt

theorem SmoothAt.log (hF : SmoothAt F θ) (h0 : F θ ≠ 0) : SmoothAt (fun θ => Real.log (F θ)) θ := hF.comp (Real.contDiffAt_log.2 h0)

/-- Smooth in all entries is smooth in two. -/
theorem SmoothAt.two (hF : SmoothAt F θ) : Smooth2 F θ := by
  classical
  intro i a j b
  set s : Finset (Nat × Nat) := {(i, a), (j, b)} with hs
  have e : (fun z : ℝ × ℝ => F ((θ.set i a z.1).set j b z.2)) = (fun t : s → ℝ => F (shiftBy θ s t)) ∘ fun z : ℝ × ℝ => fun x : s =>
      if x.1 = (j, b) then z.2 - θ j b else z.1 - θ i a := by
    funext z
    show F _ = F _
    congr 1
    funext k c
    show (if _ then _ else (if _ then _ else _)) = _
    unfold shiftBy
    by_cases h2 : k = j ∧ c = b
    · rw [if_pos h2, dif_pos (by rw [hs, h2.1, h2.2]; simp)]
      obtain ⟨rfl, rfl⟩ := h2
      simp
    · rw [if_neg h2]
      by_cases h1 : k = i ∧ c = a
      · rw [if_pos h1, dif_pos (by rw [hs, h1.1, h1.2]; simp)]
        obtain ⟨rfl, rfl⟩ := h1
        beta_reduce
        rw [if_neg (by rw [Prod.mk.injEq]; exact h2)]
        ring
      · rw [if_neg h1, dif_neg]
        rw [hs]
        simp only [Finset.mem_insert, Finset.mem_singleton, Prod.mk.injEq, not_or]
        exact ⟨h1, h2⟩
  rw [e]
  refine ContDiffAt.comp _ ?_ ?_
  · have : (fun x : s => if x.1 = (j, b) then ((θ i a, θ j b) : ℝ × ℝ).2 - θ j b else ((θ i a, θ j b) : ℝ × ℝ).1 - θ i a) = 0 := by
      funext x
      split_ifs <;> simp
    rw [this]
    exact hF s
  · refine contDiffAt_pi.2 fun x => ?_
    split_ifs
    · exact contDiffAt_snd.sub contDiffAt_const
    · exact contDiffAt_fst.sub contDiffAt_const

end

section
variable {P : Theta → ℝ} {D : Theta → Nat → Nat → ℝ} {s : Finset (Nat × Nat)}

/-- The function of the entries in `s`. -/
theorem smooth_contDiff (hs : ∀ θ, SmoothAt P θ) (θ : Theta) (s : Finset (Nat × Nat)) : ContDiff ℝ 2 fun t : s → ℝ => P (shiftBy θ s t) := by
  refine contDiff_iff_contDiffAt.2 fun t => ?_
  have e : (fun t : s → ℝ => P (shiftBy θ s t)) = (fun r : s → ℝ => P (shiftBy (shiftBy θ s t) s r)) ∘ fun r => r - t := by
    funext r
    show P _ = P _
    rw [shiftBy_add, add_sub_cancel]
  rw [e]
  refine ContDiffAt.comp _ ?_ (contDiffAt_id.sub contDiffAt_const)
  rw [sub_self]
  exact hs _ s

open scoped Classical in
/-- The unit vectors. -/
theorem shiftBy_single (θ : Theta) (x : s) (τ : ℝ) : shiftBy θ s (Pi.single x τ) = θ.set x.1.1 x.1.2 (θ x.1.1 x.1.2 + τ) := by
  funext i a
  unfold shiftBy Theta.set
  by_cases h : i = x.1.1 ∧ a = x.1.2
  · obtain ⟨rfl, rfl⟩ := h
    rw [dif_pos x.2, if_pos ⟨rfl, rfl⟩]
    congr 1
    exact Pi.single_eq_same (M := fun _ => ℝ) x τ
  · rw [if_neg h]
    split_ifs with hi
    · rw [Pi.single_eq_of_ne, add_zero]
      intro e
      apply h
      rw [← e]
      exact ⟨rfl, rfl⟩
    · rfl

theorem hasPartial_zero {F : Theta → ℝ} {θ : Theta} {i a : Nat} {d : ℝ} : HasPartial F θ i a d ↔ HasDerivAt (fun τ => F (θ.set i a (θ i a + τ))) d 0 := by
  unfold HasPartial
  constructor
  · intro h
    have h' : HasDerivAt (fun t => F (θ.set i a t)) d (θ i a + 0) := by rw [add_zero]; exact h
    exact h'.comp_const_add (θ i a) 0
  · intro h
    have h' : HasDerivAt (fun τ => F (θ.set i a (θ i a + τ))) d (θ i a - θ i a) := by rw [sub_self]; exact h
    have := h'.comp_sub_const (θ i a) (θ i a)
    simpa using this

theorem line_eq {u : Theta} (hu : ∀ i a, (i, a) ∉ s → u i a = 0) (θ : Theta) (τ : ℝ) : θ + τ • u = shiftBy θ s (τ • fun x : s => u x.1.1 x.1.2) := by
  funext i a
  show θ i a + τ * u i a = _
  unfold shiftBy
  split_ifs with h
  · rfl
  · rw [hu i a h, mul_zero, add_zero]

open scoped Classical in
theorem line_deriv {f : (s → ℝ) → ℝ} (hf : DifferentiableAt ℝ f 0) {d : s → ℝ} (hd : ∀ x, HasDerivAt (fun τ => f (Pi.single x τ)) (d x) 0) (v : s → ℝ) :
    HasDerivAt (fun τ : ℝ => f (τ • v)) (∑ x, d x * v x) 0 := by
  have key : ∀ v : s → ℝ, HasDerivAt (fun τ : ℝ => f (τ • v)) (fderiv ℝ f 0 v) 0 := by
    intro v
    have h1 : HasDerivAt (fun τ : ℝ => τ • v) v 0 := by simpa using (hasDerivAt_id (0 : ℝ)).smul_const v
    have h2 : HasFDerivAt f (fderiv ℝ f 0) ((fun τ : ℝ => τ • v) 0) := by
      show HasFDerivAt f _ ((0 : ℝ) • v)
      rw [zero_smul]
      exact hf.hasFDerivAt
    exact h2.comp_hasDerivAt 0 h1
  have e : fderiv ℝ f 0 v = ∑ x, d x * v x := by
    conv_lhs => rw [pi_eq_sum_univ v]
    rw [map_sum]
    refine Finset.sum_congr rfl fun x _ => ?_
    rw [map_smul, smul_eq_mul, mul_comm]
    congr 1
    have h1 := key fun j => if x = j then 1 else 0
    have h2 : (fun τ : ℝ => f (τ • fun j => if x = j then (1 : ℝ) else 0)) = fun τ => f (Pi.single x τ) := by
      funext τ
      congr 1
      funext j
      by_cases h : x = j
      · subst h
        simp
      · simp [h, Pi.single_eq_of_ne (Ne.symm h)]
    rw [h2] at h1
    exact h1.unique (hd x)
  rw [← e]
  exact key v

/-- The derivative along a direction. -/
theorem dir_first (hs : ∀ θ, SmoothAt P θ) (hD : ∀ θ, ∀ x ∈ s, HasPartial P θ x.1 x.2 (D θ x.1 x.2)) {u : Theta} (hu : ∀ i a, (i, a) ∉ s → u i a = 0) (θ : Theta) :
    HasDerivAt (fun τ : ℝ => P (θ + τ • u)) (∑ x ∈ s, D θ x.1 x.2 * u x.1 x.2) 0 := by
  classical
  have e : (fun τ : ℝ => P (θ + τ • u)) = fun τ => (fun t : s → ℝ => P (shiftBy θ s t)) (τ • fun x : s => u x.1.1 x.1.2) := by
    funext τ
    rw [line_eq hu]
  rw [e, ← Finset.sum_coe_sort s fun x => D θ x.1 x.2 * u x.1 x.2]
  refine line_deriv ((smooth_contDiff hs θ s).differentiable (by norm_num)).differentiableAt (d := fun x => D θ x.1.1 x.1.2) (fun x => ?_) _
  have := hasPartial_zero.1 (hD θ x.1 x.2)
  convert this using 3
  rw [shiftBy_single]

/-- The derivative of a partial derivative along a direction. -/
theorem dir_second (hs : ∀ θ, SmoothAt P θ) (hD : ∀ θ, ∀ x ∈ s, HasPartial P θ x.1 x.2 (D θ x.1 x.2)) {θ : Theta} {y : Nat × Nat} (hy : y ∈ s) :
    ∃ h : Nat × Nat → ℝ, (∀ x ∈ s, HasPartial (fun θ => D θ y.1 y.2) θ x.1 x.2 (h x)) ∧
      ∀ u : Theta, (∀ i a, (i, a) ∉ s → u i a = 0) → HasDerivAt (fun τ : ℝ => D (θ + τ • u) y.1 y.2) (∑ x ∈ s, h x * u x.1 x.2) 0 := by
  classical
  set f : (s → ℝ) → ℝ := fun t => P (shiftBy θ s t) with hf
  have hc : ContDiff ℝ 2 f := smooth_contDiff hs θ s
  set g : (s → ℝ) → ℝ := fun t => D (shiftBy θ s t) y.1 y.2 with hg
  have hgf : g = fun t => fderiv ℝ f t (Pi.single ⟨y, hy⟩ 1) := by
    funext t
    have h1 := hasPartial_zero.1 (hD (shiftBy θ s t) y hy)
    have h2 : HasDerivAt (fun τ : ℝ => f (t + τ • Pi.single ⟨y, hy⟩ 1)) (fderiv ℝ f t (Pi.single ⟨y, hy⟩ 1)) 0 := by
      have h3 : HasDerivAt (fun τ : ℝ => t + τ • (Pi.single ⟨y, hy⟩ (1 : ℝ) : s → ℝ)) (Pi.single ⟨y, hy⟩ 1) 0 := by
        simpa using ((hasDerivAt_id (0 : ℝ)).smul_const (Pi.single (⟨y, hy⟩ : s) (1 : ℝ) : s → ℝ)).const_add t
      have h4 : HasFDerivAt f (fderiv ℝ f t) ((fun τ : ℝ => t + τ • (Pi.single ⟨y, hy⟩ (1 : ℝ) : s → ℝ)) 0) := by
        show HasFDerivAt f _ (t + (0 : ℝ) • _)
        rw [zero_smul, add_zero]
        exact (hc.differentiable (by norm_num)).differentiableAt.hasFDerivAt
      exact h4.comp_hasDerivAt 0 h3
    have e : (fun τ : ℝ => f (t + τ • Pi.single ⟨y, hy⟩ 1)) = fun τ => P ((shiftBy θ s t).set y.1 y.2 (shiftBy θ s t y.1 y.2 + τ)) := by
      funext τ
      have : (τ • Pi.single ⟨y, hy⟩ (1 : ℝ) : s → ℝ) = Pi.single ⟨y, hy⟩ τ := by
        rw [← Pi.single_smul, smul_eq_mul, mul_one]
      rw [this, hf]
      beta_reduce
      rw [← shiftBy_add, shiftBy_single]
    rw [e] at h2
    exact h1.unique h2
  have hgd : DifferentiableAt ℝ g 0 := by
    rw [hgf]
    have : ContDiff ℝ 1 fun t => fderiv ℝ f t := hc.fderiv_right (by norm_num)
    exact ((this.clm_apply contDiff_const).differentiable (by norm_num)).differentiableAt
  have hpart : ∀ x : s, HasDerivAt (fun τ => g (Pi.single x τ)) (fderiv ℝ g 0 (Pi.single x 1)) 0 := by
    intro x
    have h3 : HasDerivAt (fun τ : ℝ => (Pi.single x τ : s → ℝ)) (Pi.single x 1) 0 := by
      have := (hasDerivAt_id (0 : ℝ)).smul_const (Pi.single x (1 : ℝ) : s → ℝ)
      rw [one_smul] at this
      refine this.congr_of_eventuallyEq (Filter.Eventually.of_forall fun τ => ?_)
      show Pi.single x τ = τ • Pi.single x (1 : ℝ)
      rw [← Pi.single_smul, smul_eq_mul, mul_one]
    have h4 : HasFDerivAt g (fderiv ℝ g 0) ((fun τ : ℝ => (Pi.single x τ : s → ℝ)) 0) := by
      show HasFDerivAt g _ (Pi.single x 0)
      rw [Pi.single_zero]
      exact hgd.hasFDerivAt
    exact h4.comp_hasDerivAt 0 h3
  refine ⟨fun x => if h : x ∈ s then fderiv ℝ g 0 (Pi.single ⟨x, h⟩ 1) else 0, fun x hx => ?_, fun u hu => ?_⟩
  · beta_reduce
    rw [dif_pos hx]
    refine hasPartial_zero.2 ?_
    have := hpart ⟨x, hx⟩
    convert this using 2
    rw [hg]
    beta_reduce
    rw [shiftBy_single]
  · have e : (fun τ : ℝ => D (θ + τ • u) y.1 y.2) = fun τ => g (τ • fun x : s => u x.1.1 x.1.2) := by
      funext τ
      rw [line_eq hu]
    rw [e]
    have := line_deriv hgd hpart fun x : s => u x.1.1 x.1.2
    convert this using 1
    rw [← Finset.sum_coe_sort s fun x => (if h : x ∈ s then fderiv ℝ g 0 (Pi.single ⟨x, h⟩ 1) else 0) * u x.1 x.2]
    exact Finset.sum_congr rfl fun x _ => by rw [dif_pos x.2]

end

end Verif.Tens
