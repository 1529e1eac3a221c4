import Verif.Props.Rearrange
import Verif.Props.ErrorsTensor

/-!
# C79: the standard errors do not depend on how the problem is written down
-/

set_option linter.unusedSectionVars false

namespace Verif.Tens
open Verif.Params
open NDArray

/-- A matrix indexed by entries, rearranged. -/
def moved (e : Nat × Nat ≃ Nat × Nat) (F : Nat → Nat → Nat → Nat → ℝ) : Nat → Nat → Nat → Nat → ℝ :=
  fun i a j b => F (e (i, a)).1 (e (i, a)).2 (e (j, b)).1 (e (j, b)).2

section
variable {e : Nat × Nat ≃ Nat × Nat} {ps ps' : List (Param ℝ)} {D D' : Nat → Nat → ℝ} {H H' : Nat → Nat → Nat → Nat → ℝ} {ders ders' : List (Nat → Nat → ℝ)} {c : ℝ}

theorem curvature_pull (hw : ∀ p ∈ ps, p.mask.length = p.shape.prod) (hw' : ∀ p ∈ ps', p.mask.length = p.shape.prod) (hf : SameFree e ps ps')
    (h : SameSystem e c ps' D H ders D' H' ders') (u w : Theta) : curvature ps' H' (pull e u) (pull e w) = c * curvature ps H u w := by
  have e1 : c * curvature ps H u w = freeSum ps fun i a => freeSum ps fun j b => c * bothSides H i a j b * u i a * w j b := by
    rw [curvature_eq hw, freeSum_eq hw, Finset.mul_sum]
    refine Finset.sum_congr rfl fun x _ => ?_
    rw [freeSum_eq hw, Finset.mul_sum]
    refine Finset.sum_congr rfl fun y _ => ?_
    ring
  rw [e1]
  unfold curvature
  refine freeSum_pull hw hw' hf fun x hx => freeSum_pull hw hw' hf fun y hy => ?_
  rw [h.second x y hx hy]
  rfl

theorem tangent_pull (hw : ∀ p ∈ ps, p.mask.length = p.shape.prod) (hw' : ∀ p ∈ ps', p.mask.length = p.shape.prod) (hf : SameFree e ps ps')
    (h : SameSystem e c ps' D H ders D' H' ders') {u : Theta} (hu : Tangent ps ders u) : Tangent ps' ders' (pull e u) := by
  have := h.ders
  unfold Tangent at hu ⊢
  clear h
  induction this with
  | nil => exact fun d hd => absurd hd List.not_mem_nil
  | @cons d d' l l' h1 _ ih =>
    intro c hc
    rcases List.mem_cons.1 hc with rfl | hc
    · rw [← hu d List.mem_cons_self]
      refine freeSum_pull hw hw' hf fun x hx => ?_
      rw [h1 x hx]
      rfl
    · exact ih (fun d hd => hu d (List.mem_cons_of_mem _ hd)) c hc

theorem curvature_div (hw : ∀ p ∈ ps, p.mask.length = p.shape.prod) (u w : Theta) (c : ℝ) : curvature ps H u (fun i a => w i a / c) = curvature ps H u w / c := by
  rw [curvature_eq hw, curvature_eq hw, Finset.sum_div]
  refine Finset.sum_congr rfl fun x _ => ?_
  rw [Finset.sum_div]
  exact Finset.sum_congr rfl fun y _ => by rw [mul_div_assoc]

theorem tangent_div (hw : ∀ p ∈ ps, p.mask.length = p.shape.prod) {u : Theta} (hu : Tangent ps ders u) (c : ℝ) : Tangent ps ders fun i a => u i a / c := by
  intro d hd
  have := hu d hd
  rw [freeSum_eq hw] at this ⊢
  have e1 : ∀ x ∈ freeSet ps, d x.1 x.2 * (u x.1 x.2 / c) = d x.1 x.2 * u x.1 x.2 / c := fun x _ => by rw [mul_div_assoc]
  rw [Finset.sum_congr rfl e1, ← Finset.sum_div, this, zero_div]

theorem covariance_pull (hc0 : c ≠ 0) (hw : ∀ p ∈ ps, p.mask.length = p.shape.prod) (hw' : ∀ p ∈ ps', p.mask.length = p.shape.prod) (hf : SameFree e ps ps')
    (h : SameSystem e c ps' D H ders D' H' ders') {E : Nat → Nat → Nat → Nat → ℝ} (hE : IsCovariance ps H ders E) :
    IsCovariance ps' H' ders' (fun i a j b => moved e E i a j b / c) := by
  refine ⟨fun j b hj => ?_, fun j b hj u hu => ?_⟩
  · refine tangent_div (u := fun i a => moved e E i a j b) hw' ?_ c
    exact tangent_pull hw hw' hf h (hE.tangent _ _ ((hf (j, b)).1 hj))
  · have hu' := tangent_pull hw' hw hf.symm (h.symm hf hc0) hu
    have h1 := hE.inverse _ _ ((hf (j, b)).1 hj) _ hu'
    have h2 := curvature_pull hw hw' hf h (pull e.symm u) fun i a => E i a (e (j, b)).1 (e (j, b)).2
    rw [pull_symm'] at h2
    have h3 := curvature_div (H := H') hw' u (pull e fun i a => E i a (e (j, b)).1 (e (j, b)).2) c
    rw [h2, mul_div_cancel_left₀ _ hc0] at h3
    refine (congrArg Neg.neg h3).trans (h1.trans ?_)
    simp [pull]

theorem covariance_unique (hw : ∀ p ∈ ps, p.mask.length = p.shape.prod) (hs : SymmetricHess ps H) {E F : Nat → Nat → Nat → Nat → ℝ} (hE : IsCovariance ps H ders E)
    (hF : IsCovariance ps H ders F) {i a j b : Nat} (hi : isFree ps i a) (hj : isFree ps j b) : E i a j b = F i a j b := by
  have h1 := hE.inverse j b hj _ (hF.tangent i a hi)
  have h2 := hF.inverse i a hi _ (hE.tangent j b hj)
  have h3 := hF.inverse j b hj _ (hF.tangent i a hi)
  have h4 := hF.inverse i a hi _ (hF.tangent j b hj)
  rw [curvature_symm hw hs] at h2 h4
  rw [← h2, h1, ← h4, h3]

theorem IsBlocks.congr {F G : Nat → Nat → Nat → Nat → ℝ} {fill : ℝ} {bs : List (List (List (List ℝ)))} (h : IsBlocks ps F fill bs)
    (hFG : ∀ i a j b, isFree ps i a → isFree ps j b → F i a j b = G i a j b) : IsBlocks ps G fill bs := by
  refine ⟨h.length, fun i pi j pj hi hj => ?_⟩
  obtain ⟨b, b1, b2, b3, b4, b5⟩ := h.block i pi j pj hi hj
  exact ⟨b, b1, b2, b3, fun x y hx hy => by rw [b4 x y hx hy, hFG i x j y hx hy], b5⟩

end

section
variable {M : MaxLikeT ℝ} {ps : List (Param ℝ)} {Hs : Nat → Nat → Nat → Nat → ℝ} {ders : List (Nat → Nat → ℝ)}

/-- The standard errors are the square roots of the variances (NaN for a negative one). -/
theorem std_roots (hwf : ∀ p ∈ ps, p.WF) {J : List (List ℝ)} (hJ : FlatHessIs ps Hs ders J) (hl : M.constraint.length = ders.length) (h1 : 1 ≤ ders.length)
    (hu : IsUnit (toMat (totalFree ps + ders.length) J)) (nan : ℝ) :
    ∃ E rs, IsCovariance ps Hs ders E ∧ stdErrorT M ps J nan = .ok rs ∧ SameLayout rs ps ∧ (∀ i a, isFixed ps i a → entry rs i a = some nan) ∧
      ∀ i a, isFree ps i a → entry rs i a = some (npSqrt nan (E i a i a)) := by
  have hw : ∀ p ∈ ps, p.mask.length = p.shape.prod := fun p hp => (hwf p hp).2
  obtain ⟨B, b1, b2, b3⟩ := exactInv_ok hJ.square hu
  have hd : (diagOf (negMat B)).length = totalFree ps + ders.length := by
    simp [diagOf, (neg_square b2).1]
  obtain ⟨rs, r1, r2, r3, r4⟩ := C05_std_error_partial ps hwf ders.length h1 (diagOf (negMat B)) hd (npSqrt nan) nan
  refine ⟨_, rs, covariance_of hw hJ b3, ?_, r2, r4, fun i a hf => ?_⟩
  · unfold stdErrorT
    rw [b1, ok_bind', hl]
    exact r1
  · have hr := free_lt hf
    have hm := neg_mat b2 (r := freeRank ps i a) (c := freeRank ps i a) (by omega) (by omega)
    have e : (diagOf (negMat B))[freeRank ps i a]? = some (-((B.getD (freeRank ps i a) []).getD (freeRank ps i a) 0)) := by
      unfold diagOf
      rw [List.getElem?_map, List.getElem?_range (by rw [(neg_square b2).1]; omega), Option.map_some]
      unfold Flat.mat at hm
      simp only [List.getD_eq_getElem?_getD] at hm ⊢
      cases h5 : (negMat B)[freeRank ps i a]? with
      | none => rw [h5] at hm; cases hm
      | some l => rw [h5, Option.bind_some] at hm; simp [hm]
    rw [r3 i a hf, e, Option.map_some]

end

section
variable {e : Nat × Nat ≃ Nat × Nat} {pr pr' : Problem} {m m' : Nat} {L L' : Theta → ℝ} {M M' : MaxLikeT ℝ} {gs gs' : List Con} {φs φs' : List Pen} {T T' c : ℝ}
  {pinvh : List (List ℝ) → Except Err (List (List ℝ))} {tol : ℝ}

/-- **C80.** The fits of C80_fit, when they return: `fisher_matrix()` is multiplied by `c`, `error_matrix()` divided by `c` and, with at least one constraint, `std_error()`
divided by the square root of `c` (NaN where it was NaN). -/
theorem C80_errors (hM : Solver pr m (fun _ => True) M L gs φs T) (hM' : Solver pr' m' (fun _ => True) M' L' gs' φs' T') (hc0 : 0 < c) (hTT : T' = c * T)
    (hsame : ScaledProblem e c 0 pr m (penalised L φs) gs pr' m' (penalised L' φs') gs') (hsm : ∀ θ, Smooth2 (penalised L φs) θ) {o o' : Fit.Obj ℝ (List (List ℝ))}
    (hstart : SamePoint e pr m pr' m' o.params o'.params) (hfree : SameFree e o.params o'.params) (hc : o'.converged = o.converged) (hF : 1 ≤ totalFree o.params) (maxSteps verbose : Nat)
    (r r' : Fit.Result ℝ (List (List ℝ))) (hr : r = Fit.fit (M.env pinvh tol) o maxSteps verbose .newton) (hr' : r' = Fit.fit (M'.env pinvh tol) o' maxSteps verbose .newton)
    (b : Bool) (hb : r.outcome = .ok b) :
    ∃ J J', r.obj.flatHess = some J ∧ r'.obj.flatHess = some J' ∧
      (∃ F bs bs', fisherMatrixT r.obj.params J = .ok bs ∧ fisherMatrixT r'.obj.params J' = .ok bs' ∧ IsBlocks r.obj.params F 0 bs ∧
        IsBlocks r'.obj.params (fun i a j b => c * moved e F i a j b) 0 bs') ∧
      ∀ nan,
        (∃ E bs bs', errorMatrixT r.obj.params J nan = .ok bs ∧ errorMatrixT r'.obj.params J' nan = .ok bs' ∧ IsBlocks r.obj.params E nan bs ∧
          IsBlocks r'.obj.params (fun i a j b => moved e E i a j b / c) nan bs') ∧
        (1 ≤ gs.length → ∃ rs rs', stdErrorT M r.obj.params J nan = .ok rs ∧ stdErrorT M' r'.obj.params J' nan = .ok rs' ∧
          ∀ x : Nat × Nat, isFree o'.params x.1 x.2 → ∃ v, entry rs (e x).1 (e x).2 = some v ∧
            (entry rs' x.1 x.2 = some (v / Real.sqrt c) ∨ v = nan ∧ entry rs' x.1 x.2 = some nan)) := by
  obtain ⟨θ0, hat, hat'⟩ := hstart
  have hF' : 1 ≤ totalFree o'.params := by
    obtain ⟨i, a, hia, -, -⟩ := pair_of_lt (show 0 < totalFree o.params from hF)
    exact lt_of_le_of_lt (Nat.zero_le _) (rank_lt ((hfree.symm (i, a)).1 hia))
  have hC := Fit.C02_fixed_unchanged (M.env pinvh tol) o maxSteps verbose .newton hat.wf
  have hC' := Fit.C02_fixed_unchanged (M'.env pinvh tol) o' maxSteps verbose .newton hat'.wf
  rw [← hr] at hC
  rw [← hr'] at hC'
  unfold Fit.fit at hr hr'
  rw [flatParams_ok (hat.ne hM.pos)] at hr
  rw [flatParams_ok (hat'.ne hM'.pos)] at hr'
  obtain ⟨-, -, -, -, -, j6⟩ := loop_same hM hM' hc0.ne' hsame hTT hsm hat hat' hfree hF hF' hc.symm verbose maxSteps hat hat' rfl rfl (fun _ _ _ => rfl) (fun _ _ _ => rfl)
    (flatAt_start hat hM.pos) (flatAt_start hat' hM'.pos) r r' hr hr'
  obtain ⟨θ, q, q', J, J', a1, a2, a3, a4, ⟨s, g, v, a5⟩, ⟨s', g', v', a6⟩, a7, a8⟩ := j6 b hb
  obtain ⟨D, H, hD, hred⟩ := newton_red hM
  obtain ⟨D', H', hD', hred'⟩ := newton_red hM'
  have key : ∀ {pr : Problem} {m : Nat} {M : MaxLikeT ℝ} {L : Theta → ℝ} {gs : List Con} {φs : List Pen} {T : ℝ} {θ : Theta} {H : Nat → Nat → Nat → Nat → ℝ} {q ps : List (Param ℝ)}
      {s g v J}, Solver pr m (fun _ => True) M L gs φs T → AtPoint pr m θ q → SameLayout ps q → Fit.newtonStep (M.env pinvh tol) q = .ok (s, g, v, J) →
      (∃ D v J, FlatGradIs q D (gs.map fun c => c.val θ) v ∧ FlatHessIs q H (gs.map fun c => c.der θ) J ∧
      Fit.newtonStep (M.env pinvh tol) q = (do
        let step ← exactSolve J v
        let i ← Fit.stepCut M.constraint.length step.length
        pure (step.take i, penalised L φs θ / T, v, J))) →
      FlatHessIs ps H (gs.map fun c => c.der θ) J ∧ IsUnit (toMat (totalFree ps + (gs.map fun c => c.der θ).length) J) := by
    intro pr m M L gs φs T θ H q ps s g v J hM hat hl hs ⟨D, v1, J1, f1, f2, red⟩
    rw [hs] at red
    obtain ⟨x, x1, x2⟩ := Flat.bind_ok red.symm
    obtain ⟨i, i1, i2⟩ := Flat.bind_ok x2
    cases i2
    have hJ' := FlatHessIs.layout hl f2
    refine ⟨hJ', ?_⟩
    unfold exactSolve at x1
    split_ifs at x1 with hx
    refine unit_of_unique hJ'.square ?_ hx
    rw [f1.length, Flat.SameLayout.totalFree hl]
    simp
  have hl : SameLayout r.obj.params q := hC.1.trans a3.symm
  have hl' : SameLayout r'.obj.params q' := hC'.1.trans a4.symm
  obtain ⟨k1, k2⟩ := key (H := H θ) hM a1 hl a5 ⟨_, hred pinvh tol θ trivial q a1⟩
  obtain ⟨k1', k2'⟩ := key (H := H' (pull e θ)) hM' a2 hl' a6 ⟨_, hred' pinvh tol (pull e θ) trivial q' a2⟩
  have hS0 := same_system hM hM' hc0.ne' hsame hsm hD hD' θ a2
  have hS : SameSystem e c r'.obj.params (D θ) (H θ) (gs.map fun c => c.der θ) (D' (pull e θ)) (H' (pull e θ)) (gs'.map fun c => c.der (pull e θ)) :=
    ⟨fun x hx => hS0.first x ((layout_free hl').1 hx), fun x y hx hy => hS0.second x y ((layout_free hl').1 hx) ((layout_free hl').1 hy),
      hS0.ders.imp fun d d' h x hx => h x ((layout_free hl').1 hx)⟩
  have hf : SameFree e r.obj.params r'.obj.params := fun x => (layout_free hC'.1).trans ((hfree x).trans (layout_free hC.1).symm)
  have hw : ∀ p ∈ r.obj.params, p.mask.length = p.shape.prod := fun p hp => (hC.2.2 p hp).2
  have hw' : ∀ p ∈ r'.obj.params, p.mask.length = p.shape.prod := fun p hp => (hC'.2.2 p hp).2
  have hsy : SymmetricHess r.obj.params (H θ) := by
    have := C69_symmetric hD a1 trivial (hsm θ) (roomy_true θ)
    exact fun i a b h1 h2 => this i a b ((layout_free hl).1 h1) ((layout_free hl).1 h2)
  have hsy' : SymmetricHess r'.obj.params (H' (pull e θ)) := by
    intro i a b ha hb
    have h1 := hS.second (i, a) (i, b) ha hb
    have h2 := hS.second (i, b) (i, a) hb ha
    rw [bothSides_symm hsy ((hf (i, a)).1 ha) ((hf (i, b)).1 hb), ← h2] at h1
    unfold bothSides at h1
    simpa using h1.symm
  have hcov : ∀ {E E' : Nat → Nat → Nat → Nat → ℝ}, IsCovariance r.obj.params (H θ) (gs.map fun c => c.der θ) E →
      IsCovariance r'.obj.params (H' (pull e θ)) (gs'.map fun c => c.der (pull e θ)) E' →
      ∀ i a j b, isFree r'.obj.params i a → isFree r'.obj.params j b → E' i a j b = moved e E i a j b / c := fun hE hE' i a j b hi hj =>
    covariance_unique hw' hsy' hE' (covariance_pull hc0.ne' hw hw' hf hS hE) hi hj
  have hgl : gs.length = gs'.length := hsame.constraints.length_eq
  refine ⟨J, J', a7, a8, ?_, fun nan => ⟨?_, fun h1 => ?_⟩⟩
  · obtain ⟨bs, f1, f2⟩ := fisher_of k1
    obtain ⟨bs', f1', f2'⟩ := fisher_of k1'
    exact ⟨_, bs, bs', f1, f1', f2, f2'.congr fun i a j b hi hj => hS.second (i, a) (j, b) hi hj⟩
  · obtain ⟨E, bs, f0, f1, f2⟩ := error_of hw k1 k2 hsy nan
    obtain ⟨E', bs', f0', f1', f2'⟩ := error_of hw' k1' k2' hsy' nan
    exact ⟨E, bs, bs', f1, f1', f2, f2'.congr (hcov f0 f0')⟩
  · obtain ⟨E, rs, f0, f1, -, -, f2⟩ := std_roots (M := M) hC.2.2 k1 (by rw [List.length_map]; exact hM.constraints.length_eq) (by rw [List.length_map]; exact h1) k2 nan
    obtain ⟨E', rs', f0', f1', -, -, f2'⟩ := std_roots (M := M') hC'.2.2 k1' (by rw [List.length_map]; exact hM'.constraints.length_eq)
      (by rw [List.length_map, ← hgl]; exact h1) k2' nan
    refine ⟨rs, rs', f1, f1', fun x hx => ?_⟩
    have hx' := (layout_free hC'.1).2 hx
    refine ⟨_, f2 _ _ ((hf x).1 hx'), ?_⟩
    rw [f2' _ _ hx', hcov f0 f0' _ _ _ _ hx' hx']
    have e0 : moved e E x.1 x.2 x.1 x.2 = E (e x).1 (e x).2 (e x).1 (e x).2 := rfl
    rw [e0]
    unfold npSqrt
    by_cases hneg : E (e x).1 (e x).2 (e x).1 (e x).2 < 0
    · right
      rw [if_pos hneg, if_pos (div_neg_of_neg_of_pos hneg hc0)]
      exact ⟨rfl, rfl⟩
    · left
      rw [if_neg hneg, if_neg (not_lt.2 (div_nonneg (not_lt.1 hneg) hc0.le)), Real.sqrt_div (not_lt.1 hneg)]

/-- **C79.** The fits of C79_fit, when they return: `fisher_matrix()`, `error_matrix()` and, with at least one constraint, `std_error()` of the two solvers return the same
numbers, rearranged. -/
theorem C79_errors (hM : Solver pr m (fun _ => True) M L gs φs T) (hM' : Solver pr' m' (fun _ => True) M' L' gs' φs' T)
    (hsame : SameProblem e pr m (penalised L φs) gs pr' m' (penalised L' φs') gs') (hsm : ∀ θ, Smooth2 (penalised L φs) θ) {o o' : Fit.Obj ℝ (List (List ℝ))}
    (hstart : SamePoint e pr m pr' m' o.params o'.params) (hfree : SameFree e o.params o'.params) (hc : o'.converged = o.converged) (hF : 1 ≤ totalFree o.params) (maxSteps verbose : Nat)
    (r r' : Fit.Result ℝ (List (List ℝ))) (hr : r = Fit.fit (M.env pinvh tol) o maxSteps verbose .newton) (hr' : r' = Fit.fit (M'.env pinvh tol) o' maxSteps verbose .newton)
    (b : Bool) (hb : r.outcome = .ok b) :
    ∃ J J', r.obj.flatHess = some J ∧ r'.obj.flatHess = some J' ∧
      (∃ F bs bs', fisherMatrixT r.obj.params J = .ok bs ∧ fisherMatrixT r'.obj.params J' = .ok bs' ∧ IsBlocks r.obj.params F 0 bs ∧ IsBlocks r'.obj.params (moved e F) 0 bs') ∧
      ∀ nan,
        (∃ E bs bs', errorMatrixT r.obj.params J nan = .ok bs ∧ errorMatrixT r'.obj.params J' nan = .ok bs' ∧ IsBlocks r.obj.params E nan bs ∧
          IsBlocks r'.obj.params (moved e E) nan bs') ∧
        (1 ≤ gs.length → ∃ rs rs', stdErrorT M r.obj.params J nan = .ok rs ∧ stdErrorT M' r'.obj.params J' nan = .ok rs' ∧
          ∀ x : Nat × Nat, isFree o'.params x.1 x.2 → entry rs' x.1 x.2 = entry rs (e x).1 (e x).2) := by
  obtain ⟨J, J', h1, h2, ⟨F, bs, bs', f1, f2, f3, f4⟩, h4⟩ := C80_errors hM hM' one_pos (one_mul T).symm hsame.scaled hsm hstart hfree hc hF maxSteps verbose r r' hr hr' b hb
  refine ⟨J, J', h1, h2, ⟨F, bs, bs', f1, f2, f3, by simpa only [one_mul] using f4⟩, fun nan => ?_⟩
  obtain ⟨⟨E, cs, cs', g1, g2, g3, g4⟩, h5⟩ := h4 nan
  refine ⟨⟨E, cs, cs', g1, g2, g3, by simpa only [div_one] using g4⟩, fun h => ?_⟩
  obtain ⟨rs, rs', k1, k2, k3⟩ := h5 h
  refine ⟨rs, rs', k1, k2, fun x hx => ?_⟩
  obtain ⟨v, v1, v2⟩ := k3 x hx
  rw [v1]
  rcases v2 with v2 | ⟨rfl, v2⟩
  · rw [v2, Real.sqrt_one, div_one]
  · exact v2

end

end Verif.Tens
