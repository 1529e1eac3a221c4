import Verif.Props.Pin
import Verif.Props.ReparamErrors

/-!
# C85: the covariances when entries are fixed, or constrained
-/

set_option linter.unusedSectionVars false

namespace Verif.Tens
open Verif.Params

section
variable {ps ps' : List (Param ℝ)} {S : List (Nat × Nat)} {D D' : Nat → Nat → ℝ} {H H' : Nat → Nat → Nat → Nat → ℝ} {ders es : List (Nat → Nat → ℝ)}

theorem bil_sub (h : PinnedForms S ps ps' D H D' H' es) {u v : Theta} (hu : OnFree ps u) (hv : OnFree ps v) :
    bilForm (freeSet ps') H' u v = bilForm (freeSet ps) H u v := by
  rw [bilForm_apply, bilForm_apply]
  rw [← Finset.sum_subset (s₁ := freeSet ps) (fun x hx => mem_freeSet.2 (h.released.sub (mem_freeSet.1 hx))) fun x _ hx => by
    rw [hu _ _ fun h' => hx (mem_freeSet.2 h'), zero_mul]]
  exact Finset.sum_congr rfl fun x hx => by rw [lin_both h (h.released.sub (mem_freeSet.1 hx)) hv]

theorem pins_zero (h : PinnedForms S ps ps' D H D' H' es) {u : Theta} : (∀ e ∈ es, linForm (freeSet ps') e u = 0) ↔ ∀ x ∈ S, u x.1 x.2 = 0 := by
  have hf : ∀ x ∈ S, isFree ps' x.1 x.2 := fun x hx => h.released.mem hx
  have := h.pins
  clear h
  induction this with
  | nil => exact ⟨fun _ x hx => absurd hx List.not_mem_nil, fun _ x hx => absurd hx List.not_mem_nil⟩
  | @cons x e S es h1 _ ih =>
    obtain ⟨w, hw, he⟩ := h1
    have ih := ih fun x hx => hf x (List.mem_cons_of_mem _ hx)
    rw [List.forall_mem_cons, List.forall_mem_cons, lin_pin he (hf x List.mem_cons_self), mul_eq_zero, or_iff_right hw]
    exact and_congr_right fun _ => ih

/-- The covariances of the constrained problem. -/
theorem covariance_pinned (hw : ∀ p ∈ ps, p.mask.length = p.shape.prod) (hw' : ∀ p ∈ ps', p.mask.length = p.shape.prod) (h : PinnedForms S ps ps' D H D' H' es)
    {E : Nat → Nat → Nat → Nat → ℝ} (hE : IsCovariance ps H ders E) : IsCovariance ps' H' (ders ++ es) (pinnedCov S E) := by
  have hnS : ∀ {i a : Nat}, isFree ps i a → (i, a) ∉ S := fun hf hS => not_free_of_fixed (h.released.fixed _ hS) hf
  -- the columns
  have hcol0 : ∀ {j b : Nat}, (j, b) ∈ S → (fun i a => pinnedCov S E i a j b) = (0 : Theta) := fun hS => by
    funext i a
    exact if_pos (Or.inr hS)
  have hcolS : ∀ (j b : Nat) {x : Nat × Nat}, x ∈ S → pinnedCov S E x.1 x.2 j b = 0 := fun j b x hS => if_pos (Or.inl hS)
  have hcolF : ∀ {j b : Nat}, isFree ps j b → ∀ i a, isFree ps i a → pinnedCov S E i a j b = E i a j b := fun hj i a hi =>
    if_neg (by rintro (h1 | h1); exacts [hnS hi h1, hnS hj h1])
  have hres : ∀ {u : Theta}, (∀ x ∈ S, u x.1 x.2 = 0) → ∀ i a, isFree ps' i a → u i a = freePart ps u i a := by
    intro u hu i a hia
    rcases (h.released.free i a).1 hia with hf | hS
    · rw [freePart_free hf]
    · rw [freePart_onFree (ps := ps) u i a fun hf => hnS hf hS]
      exact hu _ hS
  have hlin : ∀ {u : Theta}, (∀ x ∈ S, u x.1 x.2 = 0) → ∀ d, linForm (freeSet ps') d u = linForm (freeSet ps) d u := by
    intro u hu d
    rw [linForm_congr (hres hu), lin_sub h.released d (freePart_onFree (ps := ps) u), linForm_congr (u := freePart ps u) (v := u) fun i a hf => freePart_free hf]
  refine ⟨fun j b hj => ?_, fun j b hj u hu => ?_⟩
  · rw [tangent_lin hw']
    intro d hd
    rcases List.mem_append.1 hd with hd | hd
    · rcases (h.released.free j b).1 hj with hf | hS
      · rw [hlin (fun x hx => hcolS j b hx), linForm_congr (v := fun i a => E i a j b) fun i a hi => hcolF hf i a hi]
        exact (tangent_lin hw _).1 (hE.tangent j b hf) d hd
      · rw [hcol0 hS, map_zero]
    · exact (pins_zero h).2 (fun x hx => hcolS j b hx) d hd
  · rw [tangent_lin hw'] at hu
    have huS := (pins_zero h).1 fun e he => hu e (List.mem_append_right _ he)
    rw [curvature_bil hw']
    rcases (h.released.free j b).1 hj with hf | hS
    · have ht : Tangent ps ders u := (tangent_lin hw _).2 fun d hd => by rw [← hlin huS]; exact hu d (List.mem_append_left _ hd)
      rw [← hE.inverse j b hf u ht, curvature_bil hw, bilForm_congr (hres huS) (hres fun x hx => hcolS j b hx), bil_sub h (freePart_onFree _) (freePart_onFree _),
        bilForm_congr (u := freePart ps u) (u1 := u) (v1 := fun i a => E i a j b) (fun i a hf => freePart_free hf) fun i a hi => by rw [freePart_free hi, hcolF hf i a hi]]
    · rw [hcol0 hS, map_zero, neg_zero]
      exact (huS _ hS).symm

end

section
variable {pr : Problem} {m : Nat} {L L' : Theta → ℝ} {M M' : MaxLikeT ℝ} {gs es : List Con} {φs φs' : List Pen} {T : ℝ} {S : List (Nat × Nat)}
  {pinvh : List (List ℝ) → Except Err (List (List ℝ))} {tol : ℝ}

/-- **C85.** The fits of C85_fit, when they return: `error_matrix()` has the same covariances for the entries that are free in both, and covariances 0 with the constrained entries; `std_error()` of the
constrained problem is 0 for the constrained entries and, for the others, the square roots of the diagonal of that matrix (those of the other problem, if it has a constraint at all: C05). -/
theorem C85_errors (hc : Constrained pr m M L gs φs M' L' φs' es T) {o o' : Fit.Obj ℝ (List (List ℝ))} {θ : Theta} (hat : AtPoint pr m θ o.params) (hat' : AtPoint pr m θ o'.params)
    (hre : Released S o.params o'.params) (hpin : List.Forall₂ (fun x g => Pins x (θ x.1 x.2) g) S es) (hcv : o'.converged = o.converged) (hF : 1 ≤ totalFree o.params) (maxSteps verbose : Nat)
    (r r' : Fit.Result ℝ (List (List ℝ))) (hr : r = Fit.fit (M.env pinvh tol) o maxSteps verbose .newton) (hr' : r' = Fit.fit (M'.env pinvh tol) o' maxSteps verbose .newton)
    (v : Bool) (hv : r.outcome = .ok v) :
    ∃ J J', r.obj.flatHess = some J ∧ r'.obj.flatHess = some J' ∧
      ∀ nan, ∃ E bs bs', errorMatrixT r.obj.params J nan = .ok bs ∧ errorMatrixT r'.obj.params J' nan = .ok bs' ∧ IsBlocks r.obj.params E nan bs ∧
          IsBlocks r'.obj.params (pinnedCov S E) nan bs' ∧
        (1 ≤ gs.length → ∃ rs, stdErrorT M r.obj.params J nan = .ok rs ∧ ∀ i a, isFree o.params i a → entry rs i a = some (if E i a i a < 0 then nan else Real.sqrt (E i a i a))) ∧
        (1 ≤ (gs ++ es).length → ∃ rs', stdErrorT M' r'.obj.params J' nan = .ok rs' ∧ (∀ x ∈ S, entry rs' x.1 x.2 = some 0) ∧
          ∀ i a, isFree o.params i a → entry rs' i a = some (if E i a i a < 0 then nan else Real.sqrt (E i a i a))) := by
  obtain ⟨-, -, -, -, -, j6⟩ := C85_fit (pinvh := pinvh) (tol := tol) hc hat hat' hre hpin hcv hF maxSteps verbose r r' hr hr'
  have hC := Fit.C02_fixed_unchanged (M.env pinvh tol) o maxSteps verbose .newton hat.wf
  have hC' := Fit.C02_fixed_unchanged (M'.env pinvh tol) o' maxSteps verbose .newton hat'.wf
  rw [← hr] at hC
  rw [← hr'] at hC'
  obtain ⟨θ1, q, q', J, J', a1, a2, a3, a4, ⟨s, g, w, a5⟩, ⟨s', g', w', a6⟩, a7, a8⟩ := j6 v hv
  rw [show (LinearEquiv.refl ℝ Theta) θ1 + 0 = θ1 from add_zero θ1] at a2
  obtain ⟨D, H, hD, hred⟩ := newton_red hc.old
  obtain ⟨D', H', hD', hred'⟩ := newton_red hc.new
  have hl : SameLayout r.obj.params q := hC.1.trans a3.symm
  have hl' : SameLayout r'.obj.params q' := hC'.1.trans a4.symm
  obtain ⟨k1, k2⟩ := stored_hess (H := H θ1) hl a5 ⟨_, hred pinvh tol θ1 trivial q a1⟩
  obtain ⟨k1', k2'⟩ := stored_hess (H := H' θ1) hl' a6 ⟨_, hred' pinvh tol θ1 trivial q' a2⟩
  have hpin' : List.Forall₂ (fun x g => ∃ c, Pins x c g) S es := hpin.imp fun x g h => ⟨_, h⟩
  have hS0 := pinned_forms hc hD hD' a2 (hre.layout a3 a4) hpin'
  have hS : PinnedForms S r.obj.params r'.obj.params (D θ1) (H θ1) (D' θ1) (H' θ1) (es.map fun c => c.der θ1) := by
    refine ⟨hre.layout hC.1 hC'.1, fun x hx => hS0.first x ((layout_free hl').1 hx), fun x y hx hy => hS0.second x y ((layout_free hl').1 hx) ((layout_free hl').1 hy),
      hS0.pins.imp fun x e ⟨w, h1, h2⟩ => ⟨w, h1, fun y hy => h2 y ((layout_free hl').1 hy)⟩⟩
  have hw : ∀ p ∈ r.obj.params, p.mask.length = p.shape.prod := fun p hp => (hC.2.2 p hp).2
  have hw' : ∀ p ∈ r'.obj.params, p.mask.length = p.shape.prod := fun p hp => (hC'.2.2 p hp).2
  have hsy : SymmetricHess r.obj.params (H θ1) := by
    have := C69_symmetric hD a1 trivial (hc.smooth θ1).two (roomy_true θ1)
    exact fun i a b h1 h2 => this i a b ((layout_free hl).1 h1) ((layout_free hl).1 h2)
  have hsy' : SymmetricHess r'.obj.params (H' θ1) := by
    have hP : penalised L' φs' = penalised L φs := funext hc.objective
    rw [hP] at hD'
    have := C69_symmetric hD' a2 trivial (hc.smooth θ1).two (roomy_true θ1)
    exact fun i a b h1 h2 => this i a b ((layout_free hl').1 h1) ((layout_free hl').1 h2)
  rw [List.map_append] at k1' k2'
  have hcov : ∀ {E E' : Nat → Nat → Nat → Nat → ℝ}, IsCovariance r.obj.params (H θ1) (gs.map fun c => c.der θ1) E →
      IsCovariance r'.obj.params (H' θ1) ((gs.map fun c => c.der θ1) ++ es.map fun c => c.der θ1) E' →
      ∀ i a j b, isFree r'.obj.params i a → isFree r'.obj.params j b → E' i a j b = pinnedCov S E i a j b := fun {E} E' hE hE' i a j b hi hj =>
    covariance_unique hw' hsy' hE' (covariance_pinned hw hw' hS hE) hi hj
  have hcon : ∀ {E : Nat → Nat → Nat → Nat → ℝ} {i a : Nat}, isFree o.params i a → pinnedCov S E i a i a = E i a i a := fun {E i a} hf => by
    have hn : (i, a) ∉ S := fun hS => not_free_of_fixed (hre.fixed _ hS) hf
    exact if_neg (by rintro (h1 | h1) <;> exact hn h1)
  refine ⟨J, J', a7, a8, fun nan => ?_⟩
  obtain ⟨E, bs, f0, f1, f2⟩ := error_of hw k1 k2 hsy nan
  obtain ⟨E', bs', f0', f1', f2'⟩ := error_of hw' k1' k2' hsy' nan
  refine ⟨E, bs, bs', f1, f1', f2, f2'.congr (hcov f0 f0'), fun h1 => ?_, fun h1 => ?_⟩
  · obtain ⟨E1, rs, g0, g1, -, -, g2⟩ := std_roots (M := M) hC.2.2 k1 (by rw [List.length_map]; exact hc.old.constraints.length_eq) (by rw [List.length_map]; exact h1) k2 nan
    refine ⟨rs, g1, fun i a hia => ?_⟩
    have hx := (layout_free hC.1).2 hia
    rw [g2 i a hx, covariance_unique hw hsy g0 f0 hx hx]
    rfl
  · obtain ⟨E1', rs', g0', g1', -, -, g2'⟩ := std_roots (M := M') hC'.2.2 k1' (by rw [← List.map_append, List.length_map]; exact hc.new.constraints.length_eq)
      (by rw [← List.map_append, List.length_map]; exact h1) k2' nan
    refine ⟨rs', g1', fun x hx => ?_, fun i a hia => ?_⟩
    · have hf := (layout_free hC'.1).2 (hre.mem hx)
      rw [g2' x.1 x.2 hf, hcov f0 g0' _ _ _ _ hf hf, show pinnedCov S E x.1 x.2 x.1 x.2 = 0 from if_pos (Or.inl hx)]
      unfold npSqrt
      simp
    · have hf := (layout_free hC'.1).2 (hre.sub hia)
      rw [g2' i a hf, hcov f0 g0' i a i a hf hf, hcon hia]
      rfl

end

end Verif.Tens
