import Verif.Props.ReparamFit
import Verif.Props.RearrangeErrors

/-!
# C83: the standard errors in the new parameters
-/

set_option linter.unusedSectionVars false

namespace Verif.Tens
open Verif.Params

section
variable {B : Theta ≃ₗ[ℝ] Theta} {ps ps' : List (Param ℝ)} {D D' : Nat → Nat → ℝ} {H H' : Nat → Nat → Nat → Nat → ℝ} {ders ders' : List (Nat → Nat → ℝ)}

theorem curvature_bil (hw : ∀ p ∈ ps, p.mask.length = p.shape.prod) (u w : Theta) : curvature ps H u w = bilForm (freeSet ps) H u w := by
  rw [curvature_eq hw, bilForm_apply]
  refine Finset.sum_congr rfl fun x _ => ?_
  rw [linForm_apply, Finset.mul_sum]
  exact Finset.sum_congr rfl fun y _ => by ring

theorem tangent_lin (hw : ∀ p ∈ ps, p.mask.length = p.shape.prod) (u : Theta) : Tangent ps ders u ↔ ∀ d ∈ ders, linForm (freeSet ps) d u = 0 := by
  unfold Tangent
  refine forall₂_congr fun d _ => ?_
  rw [freeSum_eq hw, linForm_apply]

open scoped Classical in
/-- The free part of a direction. -/
noncomputable def freePart (ps : List (Param ℝ)) (u : Theta) : Theta := fun i a => if isFree ps i a then u i a else 0

theorem freePart_onFree (u : Theta) : OnFree ps (freePart ps u) := fun _ _ h => if_neg h

theorem freePart_free {u : Theta} {i a : Nat} (h : isFree ps i a) : freePart ps u i a = u i a := if_pos h

theorem linForm_congr {d : Nat → Nat → ℝ} {u v : Theta} (h : ∀ i a, isFree ps i a → u i a = v i a) : linForm (freeSet ps) d u = linForm (freeSet ps) d v := by
  rw [linForm_apply, linForm_apply]
  exact Finset.sum_congr rfl fun x hx => by rw [h _ _ (mem_freeSet.1 hx)]

theorem bilForm_congr {u v u1 v1 : Theta} (h : ∀ i a, isFree ps i a → u i a = u1 i a) (h' : ∀ i a, isFree ps i a → v i a = v1 i a) :
    bilForm (freeSet ps) H u v = bilForm (freeSet ps) H u1 v1 := by
  rw [bilForm_apply, bilForm_apply]
  exact Finset.sum_congr rfl fun x hx => by rw [h _ _ (mem_freeSet.1 hx), linForm_congr h']

theorem apply_expand {u : Theta} (hu : OnFree ps u) (x : Nat × Nat) : B u x.1 x.2 = ∑ y ∈ freeSet ps, coef B x y * u y.1 y.2 := by
  conv_lhs => rw [expand hu]
  rw [map_sum, Finset.sum_apply, Finset.sum_apply]
  refine Finset.sum_congr rfl fun y _ => ?_
  rw [map_smul]
  show u y.1 y.2 * B (unitDir y) x.1 x.2 = _
  rw [mul_comm]
  rfl

/-- The covariances of one entry of the new parameters with the old ones. -/
noncomputable def covCol (B : Theta ≃ₗ[ℝ] Theta) (ps : List (Param ℝ)) (E : Nat → Nat → Nat → Nat → ℝ) (y : Nat × Nat) : Theta :=
  freePart ps fun i a => ∑ z ∈ freeSet ps, coef B y z * E i a z.1 z.2

theorem covCol_lin (d : Nat → Nat → ℝ) (E : Nat → Nat → Nat → Nat → ℝ) (y : Nat × Nat) :
    linForm (freeSet ps) d (covCol B ps E y) = ∑ z ∈ freeSet ps, coef B y z * linForm (freeSet ps) d fun i a => E i a z.1 z.2 := by
  unfold covCol
  rw [linForm_congr (v := fun i a => ∑ z ∈ freeSet ps, coef B y z * E i a z.1 z.2) fun i a h => freePart_free h]
  simp only [linForm_apply, Finset.mul_sum]
  rw [Finset.sum_comm]
  exact Finset.sum_congr rfl fun z _ => Finset.sum_congr rfl fun x _ => by ring

theorem changedCov_col (hw : ∀ p ∈ ps, p.mask.length = p.shape.prod) (E : Nat → Nat → Nat → Nat → ℝ) (x y : Nat × Nat) :
    changedCov B ps E x.1 x.2 y.1 y.2 = B (covCol B ps E y) x.1 x.2 := by
  rw [apply_expand (B := B) (ps := ps) (u := covCol B ps E y) (freePart_onFree _) x]
  unfold changedCov
  rw [freeSum_eq hw]
  refine Finset.sum_congr rfl fun z hz => ?_
  rw [freeSum_eq hw]
  unfold covCol
  rw [freePart_free (mem_freeSet.1 hz), Finset.mul_sum]
  exact Finset.sum_congr rfl fun w _ => by ring

theorem covariance_changed (hw : ∀ p ∈ ps, p.mask.length = p.shape.prod) (hw' : ∀ p ∈ ps', p.mask.length = p.shape.prod) (hf : SameDirections B ps ps')
    (h : SameForms B ps ps' D H ders D' H' ders') {E : Nat → Nat → Nat → Nat → ℝ} (hE : IsCovariance ps H ders E) :
    IsCovariance ps' H' ders' (changedCov B ps E) := by
  have hcol : ∀ y : Nat × Nat, (fun i a => changedCov B ps E i a y.1 y.2) = B (covCol B ps E y) := fun y => by
    funext i a
    exact changedCov_col hw E (i, a) y
  have hon : ∀ y, OnFree ps (covCol B ps E y) := fun y => freePart_onFree _
  have hfor : ∀ {u : Theta}, OnFree ps u → Tangent ps' ders' (B u) → Tangent ps ders u := by
    intro u hu ht
    rw [tangent_lin hw'] at ht
    rw [tangent_lin hw]
    have := h.ders
    clear h hE
    induction this with
    | nil => exact fun d hd => absurd hd List.not_mem_nil
    | @cons d d' l l' h1 _ ih =>
      intro c hc
      rcases List.mem_cons.1 hc with rfl | hc
      · rw [← h1 u hu]
        exact ht d' List.mem_cons_self
      · exact ih (fun d hd => ht d (List.mem_cons_of_mem _ hd)) c hc
  have hbac : ∀ {u : Theta}, OnFree ps u → Tangent ps ders u → Tangent ps' ders' (B u) := by
    intro u hu ht
    rw [tangent_lin hw] at ht
    rw [tangent_lin hw']
    have := h.ders
    clear h hE hfor
    induction this with
    | nil => exact fun d hd => absurd hd List.not_mem_nil
    | @cons d d' l l' h1 _ ih =>
      intro c hc
      rcases List.mem_cons.1 hc with rfl | hc
      · rw [h1 u hu]
        exact ht d List.mem_cons_self
      · exact ih (fun d hd => ht d (List.mem_cons_of_mem _ hd)) c hc
  refine ⟨fun j b hj => ?_, fun j b hj u hu => ?_⟩
  · rw [hcol (j, b)]
    refine hbac (hon _) ((tangent_lin hw _).2 fun d hd => ?_)
    rw [covCol_lin]
    refine Finset.sum_eq_zero fun z hz => ?_
    rw [(tangent_lin hw _).1 (hE.tangent z.1 z.2 (mem_freeSet.1 hz)) d hd, mul_zero]
  · rw [hcol (j, b), curvature_bil hw']
    set u1 := B.symm (freePart ps' u) with hu1
    have hu1' : B u1 = freePart ps' u := LinearEquiv.apply_symm_apply _ _
    have hon1 : OnFree ps u1 := (hf.symm _).2 (freePart_onFree u)
    have ht1 : Tangent ps ders u1 := by
      refine hfor hon1 ?_
      rw [hu1', tangent_lin hw']
      intro d hd
      rw [linForm_congr (v := u) fun i a h => freePart_free h]
      exact (tangent_lin hw' _).1 hu d hd
    rw [bilForm_congr (u1 := B u1) (v1 := B (covCol B ps E (j, b))) (fun i a h => by rw [hu1', freePart_free h]) (fun _ _ _ => rfl), h.second _ _ hon1 (hon _)]
    have hlin : bilForm (freeSet ps) H u1 (covCol B ps E (j, b)) = ∑ z ∈ freeSet ps, coef B (j, b) z * bilForm (freeSet ps) H u1 fun i a => E i a z.1 z.2 := by
      simp only [bilForm_apply, covCol_lin, Finset.mul_sum]
      rw [Finset.sum_comm]
      exact Finset.sum_congr rfl fun z _ => Finset.sum_congr rfl fun x _ => by ring
    rw [hlin]
    have e1 : u j b = B u1 j b := by rw [hu1', freePart_free hj]
    rw [e1, show B u1 j b = _ from apply_expand (B := B) hon1 (j, b), ← Finset.sum_neg_distrib]
    refine Finset.sum_congr rfl fun z hz => ?_
    rw [← hE.inverse z.1 z.2 (mem_freeSet.1 hz) u1 ht1, curvature_bil hw]
    ring

theorem info_changed (hw' : ∀ p ∈ ps', p.mask.length = p.shape.prod) (h : SameForms B ps ps' D H ders D' H' ders') {x y : Nat × Nat}
    (hx : isFree ps x.1 x.2) (hy : isFree ps y.1 y.2) : bothSides H x.1 x.2 y.1 y.2 = changedInfo B ps' (bothSides H') x.1 x.2 y.1 y.2 := by
  have h1 := h.second _ _ (unitDir_onFree hx) (unitDir_onFree hy)
  rw [bilForm_unit hx, linForm_unit hy] at h1
  rw [← h1, bilForm_apply]
  unfold changedInfo
  rw [freeSum_eq hw']
  refine Finset.sum_congr rfl fun z _ => ?_
  rw [freeSum_eq hw', linForm_apply, Finset.mul_sum]
  refine Finset.sum_congr rfl fun w _ => ?_
  show B (unitDir x) z.1 z.2 * _ = B (unitDir x) z.1 z.2 * _ * B (unitDir y) w.1 w.2
  ring

end

section
variable {B : Theta ≃ₗ[ℝ] Theta} {b : Theta} {pr pr' : Problem} {m m' : Nat} {L L' : Theta → ℝ} {M M' : MaxLikeT ℝ} {gs gs' : List Con} {φs φs' : List Pen} {T : ℝ}
  {pinvh : List (List ℝ) → Except Err (List (List ℝ))} {tol : ℝ}

/-- The Hessian that a fit stores, as a matrix for other parameters of the same layout. -/
theorem stored_hess {M : MaxLikeT ℝ} {L : Theta → ℝ} {gs : List Con} {φs : List Pen} {T : ℝ} {θ : Theta} {H : Nat → Nat → Nat → Nat → ℝ} {q ps : List (Param ℝ)}
    {s g v J} (hl : SameLayout ps q) (hs : Fit.newtonStep (M.env pinvh tol) q = .ok (s, g, v, J))
    (hred : ∃ D v J, FlatGradIs q D (gs.map fun c => c.val θ) v ∧ FlatHessIs q H (gs.map fun c => c.der θ) J ∧
      Fit.newtonStep (M.env pinvh tol) q = (do
        let step ← exactSolve J v
        let i ← Fit.stepCut M.constraint.length step.length
        pure (step.take i, penalised L φs θ / T, v, J))) :
    FlatHessIs ps H (gs.map fun c => c.der θ) J ∧ IsUnit (toMat (totalFree ps + (gs.map fun c => c.der θ).length) J) := by
  obtain ⟨D, v1, J1, f1, f2, red⟩ := hred
  rw [hs] at red
  obtain ⟨x, x1, x2⟩ := Flat.bind_ok red.symm
  obtain ⟨i, i1, i2⟩ := Flat.bind_ok x2
  cases i2
  have hJ' := FlatHessIs.layout hl f2
  refine ⟨hJ', ?_⟩
  unfold exactSolve at x1
  split_ifs at x1 with hx
  refine unit_of_unique hJ'.square ?_ hx
  rw [f1.length, Flat.SameLayout.totalFree hl]
  simp

/-- **C83.** The fits of C83_fit, when they return: with `B` the matrix of the change of parameters, `error_matrix()` of the second is `B E Bᵀ` where `E` is that of the first, `fisher_matrix()` of
the first is `Bᵀ F B` where `F` is that of the second, and (with at least one constraint) `std_error()` has the square roots of the diagonals. -/
theorem C83_errors (hc : Changed B b pr m M L gs φs pr' m' M' L' gs' φs' T) {o o' : Fit.Obj ℝ (List (List ℝ))} (hstart : ChangedPoint B b pr m pr' m' o.params o'.params)
    (hfree : SameDirections B o.params o'.params) (hcv : o'.converged = o.converged) (hF : 1 ≤ totalFree o.params) (maxSteps verbose : Nat)
    (r r' : Fit.Result ℝ (List (List ℝ))) (hr : r = Fit.fit (M.env pinvh tol) o maxSteps verbose .newton) (hr' : r' = Fit.fit (M'.env pinvh tol) o' maxSteps verbose .newton)
    (v : Bool) (hv : r.outcome = .ok v) :
    ∃ J J', r.obj.flatHess = some J ∧ r'.obj.flatHess = some J' ∧
      (∃ F bs bs', fisherMatrixT r.obj.params J = .ok bs ∧ fisherMatrixT r'.obj.params J' = .ok bs' ∧ IsBlocks r.obj.params (changedInfo B o'.params F) 0 bs ∧
        IsBlocks r'.obj.params F 0 bs') ∧
      ∀ nan, ∃ E bs bs', errorMatrixT r.obj.params J nan = .ok bs ∧ errorMatrixT r'.obj.params J' nan = .ok bs' ∧ IsBlocks r.obj.params E nan bs ∧
          IsBlocks r'.obj.params (changedCov B o.params E) nan bs' ∧
        (1 ≤ gs.length → ∃ rs rs', stdErrorT M r.obj.params J nan = .ok rs ∧ stdErrorT M' r'.obj.params J' nan = .ok rs' ∧
          (∀ i a, isFree o.params i a → entry rs i a = some (if E i a i a < 0 then nan else Real.sqrt (E i a i a))) ∧
          ∀ i a, isFree o'.params i a → entry rs' i a = some (if changedCov B o.params E i a i a < 0 then nan else Real.sqrt (changedCov B o.params E i a i a))) := by
  obtain ⟨-, -, -, -, -, j6⟩ := C83_fit (pinvh := pinvh) (tol := tol) hc hstart hfree hcv hF maxSteps verbose r r' hr hr'
  obtain ⟨θ0, hat, hat'⟩ := hstart
  have hC := Fit.C02_fixed_unchanged (M.env pinvh tol) o maxSteps verbose .newton hat.wf
  have hC' := Fit.C02_fixed_unchanged (M'.env pinvh tol) o' maxSteps verbose .newton hat'.wf
  rw [← hr] at hC
  rw [← hr'] at hC'
  obtain ⟨θ, q, q', J, J', a1, a2, a3, a4, ⟨s, g, w, a5⟩, ⟨s', g', w', a6⟩, a7, a8⟩ := j6 v hv
  obtain ⟨D, H, hD, hred⟩ := newton_red hc.old
  obtain ⟨D', H', hD', hred'⟩ := newton_red hc.new
  -- everything below is about the layouts of the given parameters
  have hl : SameLayout r.obj.params q := hC.1.trans a3.symm
  have hl' : SameLayout r'.obj.params q' := hC'.1.trans a4.symm
  obtain ⟨k1, k2⟩ := stored_hess (H := H θ) hl a5 ⟨_, hred pinvh tol θ trivial q a1⟩
  obtain ⟨k1', k2'⟩ := stored_hess (H := H' (B θ + b)) hl' a6 ⟨_, hred' pinvh tol (B θ + b) trivial q' a2⟩
  have hfq : SameDirections B q q' := fun u => (onFree_layout a4 _).trans ((hfree u).trans (onFree_layout a3 _).symm)
  have hS0 := changed_forms (fun c hc' => forall₂_right hc.old.constraints c hc') (fun c hc' => forall₂_right hc.new.constraints c hc') hc.same hc.smooth hc.smoothC hD hD' θ a1 a2 hfq
  have hset : freeSet q = freeSet r.obj.params := Finset.ext fun x => by rw [mem_freeSet, mem_freeSet]; exact (layout_free hl).symm
  have hset' : freeSet q' = freeSet r'.obj.params := Finset.ext fun x => by rw [mem_freeSet, mem_freeSet]; exact (layout_free hl').symm
  have hS : SameForms B r.obj.params r'.obj.params (D θ) (H θ) (gs.map fun c => c.der θ) (D' (B θ + b)) (H' (B θ + b)) (gs'.map fun c => c.der (B θ + b)) := by
    refine ⟨fun u hu => ?_, fun u w hu hw => ?_, hS0.ders.imp fun d d' h u hu => ?_⟩
    · rw [← hset, ← hset']; exact hS0.first u ((onFree_layout hl u).1 hu)
    · rw [← hset, ← hset']; exact hS0.second u w ((onFree_layout hl u).1 hu) ((onFree_layout hl w).1 hw)
    · rw [← hset, ← hset']; exact h u ((onFree_layout hl u).1 hu)
  have hf : SameDirections B r.obj.params r'.obj.params := fun u => (onFree_layout hC'.1 _).trans ((hfree u).trans (onFree_layout hC.1 _).symm)
  have hw : ∀ p ∈ r.obj.params, p.mask.length = p.shape.prod := fun p hp => (hC.2.2 p hp).2
  have hw' : ∀ p ∈ r'.obj.params, p.mask.length = p.shape.prod := fun p hp => (hC'.2.2 p hp).2
  have hsy : SymmetricHess r.obj.params (H θ) := by
    have := C69_symmetric hD a1 trivial (hc.smooth θ).two (roomy_true θ)
    exact fun i a b h1 h2 => this i a b ((layout_free hl).1 h1) ((layout_free hl).1 h2)
  have hsy' : SymmetricHess r'.obj.params (H' (B θ + b)) := by
    intro i a c ha hc'
    have hback := (hS.symm hf).second
    have h1 := hback _ _ (unitDir_onFree (x := (i, a)) ha) (unitDir_onFree (x := (i, c)) hc')
    have h2 := hback _ _ (unitDir_onFree (x := (i, c)) hc') (unitDir_onFree (x := (i, a)) ha)
    rw [bilForm_unit (x := (i, a)) ha, linForm_unit (x := (i, c)) hc', ← curvature_bil hw] at h1
    rw [bilForm_unit (x := (i, c)) hc', linForm_unit (x := (i, a)) ha, ← curvature_bil hw, curvature_symm hw hsy, h1] at h2
    unfold bothSides at h2
    simpa using h2.symm
  have hfs : ∀ {ps qs : List (Param ℝ)}, SameLayout ps qs → ∀ (h1 : ∀ p ∈ ps, p.mask.length = p.shape.prod) (h2 : ∀ p ∈ qs, p.mask.length = p.shape.prod) (G : Nat → Nat → ℝ),
      freeSum ps G = freeSum qs G := by
    intro ps qs h h1 h2 G
    rw [freeSum_eq h1, freeSum_eq h2, show freeSet ps = freeSet qs from Finset.ext fun x => by rw [mem_freeSet, mem_freeSet]; exact layout_free h]
  have hcc : ∀ E, changedCov B r.obj.params E = changedCov B o.params E := fun E => by
    funext i a j c
    unfold changedCov
    rw [hfs hC.1 hw hat.masks]
    exact congrArg _ (funext fun k => funext fun l => hfs hC.1 hw hat.masks _)
  have hci : ∀ F, changedInfo B r'.obj.params F = changedInfo B o'.params F := fun F => by
    funext i a j c
    unfold changedInfo
    rw [hfs hC'.1 hw' hat'.masks]
    exact congrArg _ (funext fun k => funext fun l => hfs hC'.1 hw' hat'.masks _)
  have hcov : ∀ {E E' : Nat → Nat → Nat → Nat → ℝ}, IsCovariance r.obj.params (H θ) (gs.map fun c => c.der θ) E →
      IsCovariance r'.obj.params (H' (B θ + b)) (gs'.map fun c => c.der (B θ + b)) E' →
      ∀ i a j b, isFree r'.obj.params i a → isFree r'.obj.params j b → E' i a j b = changedCov B o.params E i a j b := fun {E} E' hE hE' i a j b hi hj => by
    rw [← hcc]
    exact covariance_unique hw' hsy' hE' (covariance_changed hw hw' hf hS hE) hi hj
  have hgl : gs.length = gs'.length := hc.same.constraints.length_eq
  refine ⟨J, J', a7, a8, ?_, fun nan => ?_⟩
  · obtain ⟨bs, f1, f2⟩ := fisher_of k1
    obtain ⟨bs', f1', f2'⟩ := fisher_of k1'
    refine ⟨_, bs, bs', f1, f1', f2.congr fun i a j b hi hj => ?_, f2'⟩
    rw [← hci]
    exact info_changed hw' hS (x := (i, a)) (y := (j, b)) hi hj
  · obtain ⟨E, bs, f0, f1, f2⟩ := error_of hw k1 k2 hsy nan
    obtain ⟨E', bs', f0', f1', f2'⟩ := error_of hw' k1' k2' hsy' nan
    refine ⟨E, bs, bs', f1, f1', f2, f2'.congr (hcov f0 f0'), fun h1 => ?_⟩
    obtain ⟨E1, rs, g0, g1, -, -, g2⟩ := std_roots (M := M) hC.2.2 k1 (by rw [List.length_map]; exact hc.old.constraints.length_eq) (by rw [List.length_map]; exact h1) k2 nan
    obtain ⟨E1', rs', g0', g1', -, -, g2'⟩ := std_roots (M := M') hC'.2.2 k1' (by rw [List.length_map]; exact hc.new.constraints.length_eq)
      (by rw [List.length_map, ← hgl]; exact h1) k2' nan
    refine ⟨rs, rs', g1, g1', fun i a hia => ?_, fun i a hia => ?_⟩
    · have hx := (layout_free hC.1).2 hia
      rw [g2 i a hx, covariance_unique hw hsy g0 f0 hx hx]
      rfl
    · have hx := (layout_free hC'.1).2 hia
      rw [g2' i a hx, hcov f0 g0' i a i a hx hx]
      rfl

end

end Verif.Tens
