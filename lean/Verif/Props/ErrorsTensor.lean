import Verif.Lemmas.ErrorsTensor
import Verif.Props.FitFull
import Verif.Props.Params

/-!
# C69: standard errors, covariance, Hessian blocks and information criteria after a fit
-/

set_option linter.unusedSectionVars false

namespace Verif.Tens
open Verif.Params

variable {G Y D H N : Type} {pr : Problem} {m : Nat} {dom : Theta → Prop} {L : Theta → ℝ} {M : MaxLikeT ℝ} {gs : List Con} {φs : List Pen} {T : ℝ}
  {pinvh : List (List ℝ) → Except Err (List (List ℝ))} {tol : ℝ}

/-! ### the layout -/

theorem layout_get {ps qs : List (Param ℝ)} (h : SameLayout ps qs) (i : Nat) : (ps[i]?.map fun p => p.mask) = qs[i]?.map fun p => p.mask := by
  have := congrArg (fun l => (l[i]?).map Prod.snd) h
  simpa [List.getElem?_map, Option.map_map, Function.comp_def] using this

theorem layout_free {ps qs : List (Param ℝ)} (h : SameLayout ps qs) {i a : Nat} : isFree ps i a ↔ isFree qs i a := by
  have e := layout_get h i
  unfold isFree
  constructor
  · rintro ⟨p, hp, ha⟩
    rw [hp] at e
    obtain ⟨q, hq, e⟩ := Option.map_eq_some_iff.1 e.symm
    exact ⟨q, hq, by rw [e]; exact ha⟩
  · rintro ⟨p, hp, ha⟩
    rw [hp] at e
    obtain ⟨q, hq, e⟩ := Option.map_eq_some_iff.1 e
    exact ⟨q, hq, by rw [e]; exact ha⟩

theorem layout_take {ps qs : List (Param ℝ)} (h : SameLayout ps qs) (k : Nat) : SameLayout (ps.take k) (qs.take k) := by
  unfold SameLayout at h ⊢
  rw [List.map_take, List.map_take, h]

theorem layout_rank {ps qs : List (Param ℝ)} (h : SameLayout ps qs) (i a : Nat) : freeRank ps i a = freeRank qs i a := by
  unfold freeRank
  have e := congrArg (Option.map fun m : List Bool => (m.take a).count false) (layout_get h i)
  rw [Option.map_map, Option.map_map] at e
  rw [Flat.SameLayout.totalFree (layout_take h i)]
  simp only [Function.comp_def] at e
  rw [e]

theorem FlatHessIs.layout {ps qs : List (Param ℝ)} (h : SameLayout ps qs) {H : Nat → Nat → Nat → Nat → ℝ} {ders : List (Nat → Nat → ℝ)} {J : List (List ℝ)}
    (hJ : FlatHessIs qs H ders J) : FlatHessIs ps H ders J := by
  have ht := Flat.SameLayout.totalFree h
  refine ⟨by rw [ht]; exact hJ.rows, by rw [ht]; exact hJ.cols, ?_, ?_, ?_, ?_, ?_⟩
  · intro i j a b hij h1 h2
    rw [layout_rank h, layout_rank h]
    exact hJ.lower i j a b hij ((layout_free h).1 h1) ((layout_free h).1 h2)
  · intro i j a b hij h1 h2
    rw [layout_rank h, layout_rank h]
    exact hJ.upper i j a b hij ((layout_free h).1 h1) ((layout_free h).1 h2)
  · intro i a k h1
    rw [layout_rank h, ht]
    exact hJ.right i a k ((layout_free h).1 h1)
  · intro i a k h1
    rw [layout_rank h, ht]
    exact hJ.below i a k ((layout_free h).1 h1)
  · intro k l hk hl
    rw [ht]
    exact hJ.corner k l hk hl

/-! ### the three reports -/

variable {ps : List (Param ℝ)} {Hs : Nat → Nat → Nat → Nat → ℝ} {ders : List (Nat → Nat → ℝ)}

theorem neg_square {n : Nat} {B : List (List ℝ)} (h : Square n B) : Square n (negMat B) := by
  refine ⟨by simp [negMat, h.1], fun l hl => ?_⟩
  obtain ⟨l', h', rfl⟩ := List.mem_map.1 hl
  simpa using h.2 l' h'

theorem neg_mat {n : Nat} {B : List (List ℝ)} (h : Square n B) {r c : Nat} (hr : r < n) (hc : c < n) :
    Flat.mat (negMat B) r c = some (-((B.getD r []).getD c 0)) := by
  have hr' : r < B.length := by rw [h.1]; exact hr
  have hc' : c < B[r].length := by rw [h.2 _ (List.getElem_mem hr')]; exact hc
  simp [Flat.mat, negMat, hr', hc']

theorem blocks_of {J : List (List ℝ)} {c : Nat} (hJ : Square (totalFree ps + c) J) {F : Nat → Nat → Nat → Nat → ℝ} {fill : ℝ}
    (hF : ∀ i a j b, isFree ps i a → isFree ps j b → Flat.mat J (freeRank ps i a) (freeRank ps j b) = some (F i a j b)) :
    ∃ bs, Params.reshapeMatrix ps J fill = .ok bs ∧ IsBlocks ps F fill bs := by
  obtain ⟨bs, h1, h2, h3⟩ := C04_blocks ps J fill c hJ.1 (fun r hr => by rw [hJ.2 r hr, hJ.1])
  refine ⟨bs, h1, h2, fun i pi j pj hi hj => ?_⟩
  obtain ⟨b, b1, b2, b3, b4⟩ := h3 i pi j pj hi hj
  refine ⟨b, b1, b2, b3, fun x y hx hy => ?_, fun x y hx hy h => ?_⟩
  · have hx' : x < pi.mask.length := by
      obtain ⟨p, hp, ha⟩ := hx
      rw [hi] at hp; cases hp
      exact (List.getElem?_eq_some_iff.1 ha).1
    have hy' : y < pj.mask.length := by
      obtain ⟨p, hp, ha⟩ := hy
      rw [hj] at hp; cases hp
      exact (List.getElem?_eq_some_iff.1 ha).1
    exact ((b4 x y hx' hy').1 hx hy).trans (hF i x j y hx hy)
  · exact (b4 x y hx hy).2 h

theorem hess_mat {J : List (List ℝ)} (hJ : FlatHessIs ps Hs ders J) {i a j b : Nat} (h : isFree ps i a) (h' : isFree ps j b) :
    Flat.mat J (freeRank ps i a) (freeRank ps j b) = some (bothSides Hs i a j b) := by
  unfold bothSides
  split_ifs with hij
  · exact hJ.lower i j a b hij h h'
  · exact hJ.upper j i b a (by omega) h' h

theorem fisher_of {J : List (List ℝ)} (hJ : FlatHessIs ps Hs ders J) : ∃ bs, fisherMatrixT ps J = .ok bs ∧ IsBlocks ps (bothSides Hs) 0 bs :=
  blocks_of hJ.square fun _ _ _ _ => hess_mat hJ

theorem covariance_of (hw : ∀ p ∈ ps, p.mask.length = p.shape.prod) {J B : List (List ℝ)} (hJ : FlatHessIs ps Hs ders J)
    (hI : toMat (totalFree ps + ders.length) J * toMat (totalFree ps + ders.length) B = 1) :
    IsCovariance ps Hs ders fun i a j b => -((B.getD (freeRank ps i a) []).getD (freeRank ps j b) 0) := by
  have neg : ∀ j b, isFree ps j b → ∀ (w : Nat → Nat → ℝ), (∀ i a, isFree ps i a → (B.getD (freeRank ps i a) []).getD (freeRank ps j b) 0 = w i a) →
      ∀ F : Nat → Nat → ℝ, freeSum ps (fun i a => F i a * -((B.getD (freeRank ps i a) []).getD (freeRank ps j b) 0)) = -freeSum ps fun i a => F i a * w i a := by
    intro j b hf w hv F
    rw [freeSum_eq hw, freeSum_eq hw, ← Finset.sum_neg_distrib]
    exact Finset.sum_congr rfl fun x hx => by rw [hv _ _ (mem_freeSet.1 hx)]; ring
  constructor
  · intro j b hf d hd
    obtain ⟨v, μ, h1, h2⟩ := inv_col hw hJ hI hf
    rw [neg j b hf _ h2, (step_form hw h1).1 d hd, neg_zero]
  · intro j b hf u hu
    obtain ⟨v, μ, h1, h2⟩ := inv_col hw hJ hI hf
    have := (step_form hw h1).2 u hu
    rw [sum_unit hf] at this
    rw [← this]
    unfold curvature
    rw [freeSum_eq hw, freeSum_eq hw, ← Finset.sum_neg_distrib]
    refine Finset.sum_congr rfl fun x _ => ?_
    rw [neg j b hf _ h2 (fun k c => bothSides Hs x.1 x.2 k c * u x.1 x.2), neg_neg]

theorem error_of (hw : ∀ p ∈ ps, p.mask.length = p.shape.prod) {J : List (List ℝ)} (hJ : FlatHessIs ps Hs ders J)
    (hu : IsUnit (toMat (totalFree ps + ders.length) J)) (hs : SymmetricHess ps Hs) (nan : ℝ) :
    ∃ E bs, IsCovariance ps Hs ders E ∧ errorMatrixT ps J nan = .ok bs ∧ IsBlocks ps E nan bs := by
  obtain ⟨B, b1, b2, b3⟩ := exactPinvh_ok hJ.square hu (hJ.symm hs)
  obtain ⟨bs, c1, c2⟩ := blocks_of (ps := ps) (fill := nan) (neg_square b2) (F := fun i a j b => -((B.getD (freeRank ps i a) []).getD (freeRank ps j b) 0))
    fun i a j b h h' => neg_mat b2 (by have := free_lt h; omega) (by have := free_lt h'; omega)
  refine ⟨_, bs, covariance_of hw hJ b3, ?_, c2⟩
  unfold errorMatrixT
  rw [b1, ok_bind']
  exact c1

theorem std_of (hwf : ∀ p ∈ ps, p.WF) {J : List (List ℝ)} (hJ : FlatHessIs ps Hs ders J) (hl : M.constraint.length = ders.length) (h1 : 1 ≤ ders.length)
    (hu : IsUnit (toMat (totalFree ps + ders.length) J)) (hs : SymmetricHess ps Hs) (hc : Concave ps Hs ders) (nan : ℝ) :
    ∃ rs, stdErrorT M ps J nan = .ok rs ∧ StdErrors ps Hs ders nan rs := by
  have hw : ∀ p ∈ ps, p.mask.length = p.shape.prod := fun p hp => (hwf p hp).2
  obtain ⟨B, b1, b2, b3⟩ := exactInv_ok hJ.square hu
  have hd : (diagOf (negMat B)).length = totalFree ps + ders.length := by
    simp [diagOf, (neg_square b2).1]
  obtain ⟨rs, r1, r2, r3, r4⟩ := C05_std_error_partial ps hwf ders.length h1 (diagOf (negMat B)) hd (npSqrt nan) nan
  refine ⟨rs, ?_, r2, r4, fun i a hf => ?_⟩
  · unfold stdErrorT
    rw [b1, ok_bind', hl]
    exact r1
  · obtain ⟨g1, g2⟩ := covariance_greatest hw hs hc (covariance_of hw hJ b3) hf
    refine ⟨_, ?_, g2⟩
    have hr := free_lt hf
    have hm := neg_mat b2 (r := freeRank ps i a) (c := freeRank ps i a) (by omega) (by omega)
    have e : (diagOf (negMat B))[freeRank ps i a]? = some (-((B.getD (freeRank ps i a) []).getD (freeRank ps i a) 0)) := by
      unfold diagOf
      rw [List.getElem?_map, List.getElem?_range (by rw [(neg_square b2).1]; omega), Option.map_some]
      unfold Flat.mat at hm
      simp only [List.getD_eq_getElem?_getD] at hm ⊢
      cases h5 : (negMat B)[freeRank ps i a]? with
      | none => rw [h5] at hm; cases hm
      | some l => rw [h5, Option.bind_some] at hm; simp [hm]
    rw [r3 i a hf, e, Option.map_some]
    unfold npSqrt
    rw [if_neg (not_lt.2 g1)]

/-! ### after a fit -/

section
open Fit

theorem newtonLoop_stored (env : Env ℝ G Y D H N) (vb : Nat) (o : Obj ℝ N) (P : List (Param ℝ) → Prop) (b : Bool) :
    ∀ (k : Nat) (ps : List (Param ℝ)) (flat : List ℝ), P ps → (∀ tr ∈ (newtonLoop env vb o k ps flat).trace, ∀ q ∈ tr, P q) →
      (newtonLoop env vb o k ps flat).outcome = .ok b →
      ∃ q step g gr he, P q ∧ newtonStep env q = .ok (step, g, gr, he) ∧ (newtonLoop env vb o k ps flat).obj.flatHess = some he
  | 0, _, _ => by simp [newtonLoop]
  | k + 1, ps, flat => by
    intro hp htr hk
    simp only [newtonLoop] at hk htr ⊢
    split at hk
    · cases hk
    · rename_i step prevG gr hess hs
      rw [hs] at htr
      dsimp only at htr
      have hm := (inner_mem env vb o.params flat step prevG 5 env.one).2
      split at hk
      · cases hk
      · cases hk
      · rename_i flat' ps' g tr pr hin
        have hmem := hm flat' ps' g (by rw [hin])
        rw [hin] at hmem htr
        dsimp only at hmem htr
        split at hk
        · cases hk
        · rename_i hc
          exact ⟨ps, step, prevG, gr, hess, hp, hs, rfl⟩
        · rename_i hc
          rw [hc] at htr
          dsimp only at htr
          exact newtonLoop_stored env vb o P b k ps' flat' (htr tr (by simp) ps' hmem) (fun t ht => htr t (List.mem_cons_of_mem _ ht)) hk

end

/-- What a Newton fit that returned has stored: the matrix of the second derivatives, bordered with the constraints, at a point that it visited; it is invertible. -/
theorem stored_ok (hM : Solver pr m dom M L gs φs T) : ∃ D H, Derivs pr m dom (penalised L φs) D H ∧
    ∀ pinvh tol θ, dom θ → ∀ (o : Fit.Obj ℝ (List (List ℝ))), AtPoint pr m θ o.params → ∀ maxSteps verbose b,
      (∀ tr ∈ (Fit.fit (M.env pinvh tol) o maxSteps verbose .newton).trace, ∀ q ∈ tr, ∃ θ', dom θ' ∧ AtPoint pr m θ' q) →
      (Fit.fit (M.env pinvh tol) o maxSteps verbose .newton).outcome = .ok b →
      ∃ q θ' J, Visited o (Fit.fit (M.env pinvh tol) o maxSteps verbose .newton) q ∧ dom θ' ∧ AtPoint pr m θ' q ∧
        SameLayout (Fit.fit (M.env pinvh tol) o maxSteps verbose .newton).obj.params q ∧
        (∀ p ∈ (Fit.fit (M.env pinvh tol) o maxSteps verbose .newton).obj.params, p.WF) ∧
        (Fit.fit (M.env pinvh tol) o maxSteps verbose .newton).obj.flatHess = some J ∧
        FlatHessIs (Fit.fit (M.env pinvh tol) o maxSteps verbose .newton).obj.params (H θ') (gs.map fun c => c.der θ') J ∧
        IsUnit (toMat (totalFree (Fit.fit (M.env pinvh tol) o maxSteps verbose .newton).obj.params + gs.length) J) := by
  obtain ⟨D, H, hD, hred⟩ := newton_red hM
  refine ⟨D, H, hD, fun pinvh tol θ hθ o hat maxSteps verbose b hdom h => ?_⟩
  have hne := hat.ne hM.pos
  have hC2 := Fit.C02_fixed_unchanged (M.env pinvh tol) o maxSteps verbose .newton hat.wf
  have hk := tried_keeps (M.env pinvh tol) hne hat.wf (maxSteps := maxSteps) (verbose := verbose)
  have hr : Fit.fit (M.env pinvh tol) o maxSteps verbose .newton = Fit.newtonLoop (M.env pinvh tol) verbose o maxSteps o.params (o.params.map Param.compressed).flatten := by
    unfold Fit.fit
    rw [flatParams_ok hne]
  obtain ⟨q, step, g, gr, J, ⟨v1, v2, θ', v3, v4⟩, hs, hJ⟩ := newtonLoop_stored (M.env pinvh tol) verbose o
    (fun q => Visited o (Fit.fit (M.env pinvh tol) o maxSteps verbose .newton) q ∧ SameLayout q o.params ∧ ∃ θ, dom θ ∧ AtPoint pr m θ q) b maxSteps o.params _
    ⟨Or.inl rfl, rfl, θ, hθ, hat⟩ (fun tr ht q hq => by
      rw [← hr] at ht
      exact ⟨Or.inr ⟨tr, ht, hq⟩, (hk tr ht q hq).1, hdom tr ht q hq⟩) (by rw [← hr]; exact h)
  rw [← hr] at hJ
  obtain ⟨v, J', f1, f2, red⟩ := hred pinvh tol θ' v3 q v4
  rw [hs] at red
  obtain ⟨x, x1, x2⟩ := Flat.bind_ok red.symm
  obtain ⟨i, i1, i2⟩ := Flat.bind_ok x2
  cases i2
  have hl : SameLayout (Fit.fit (M.env pinvh tol) o maxSteps verbose .newton).obj.params q := hC2.1.trans v2.symm
  have hJ' := FlatHessIs.layout hl f2
  refine ⟨q, θ', J, v1, v3, v4, hl, hC2.2.2, hJ, hJ', ?_⟩
  unfold exactSolve at x1
  split_ifs at x1 with hx
  have hg : gs.length = (gs.map fun c => c.der θ').length := by simp
  rw [hg]
  refine unit_of_unique hJ'.square ?_ hx
  rw [f1.length, Flat.SameLayout.totalFree hl]
  simp

/-- **C69.** After a fit with Newton's method that returned, with any number of constraints: the Hessian that the object keeps is that of the penalised log-likelihood at
a point that the fit visited (the one before its last step, C59).  `fisher_matrix()` returns its second derivatives there, 0 for the fixed entries (not their
negatives: it is minus the observed information).  `error_matrix()` returns the inverse of the information on the directions that keep the constraints, NaN for the
fixed entries.  With at least one constraint `std_error()` returns the standard errors of the constrained estimate, and the inverse that it takes never
fails. -/
theorem C69_after_fit (hM : Solver pr m dom M L gs φs T) : ∃ D H, Derivs pr m dom (penalised L φs) D H ∧
    ∀ pinvh tol θ, dom θ → ∀ (o : Fit.Obj ℝ (List (List ℝ))), AtPoint pr m θ o.params → ∀ maxSteps verbose b r,
      r = Fit.fit (M.env pinvh tol) o maxSteps verbose .newton → r.outcome = .ok b →
      (∀ tr ∈ r.trace, ∀ q ∈ tr, ∃ θ', dom θ' ∧ AtPoint pr m θ' q) →
      ∃ q θ' J, Visited o r q ∧ dom θ' ∧ AtPoint pr m θ' q ∧ r.obj.flatHess = some J ∧
        (∃ bs, fisherMatrixT r.obj.params J = .ok bs ∧ IsBlocks r.obj.params (bothSides (H θ')) 0 bs) ∧
        (SymmetricHess r.obj.params (H θ') → ∀ nan,
          (∃ E bs, IsCovariance r.obj.params (H θ') (gs.map fun c => c.der θ') E ∧ errorMatrixT r.obj.params J nan = .ok bs ∧ IsBlocks r.obj.params E nan bs) ∧
          (1 ≤ gs.length → Concave r.obj.params (H θ') (gs.map fun c => c.der θ') →
            ∃ rs, stdErrorT M r.obj.params J nan = .ok rs ∧ StdErrors r.obj.params (H θ') (gs.map fun c => c.der θ') nan rs)) := by
  obtain ⟨D, H, hD, hst⟩ := stored_ok hM
  refine ⟨D, H, hD, fun pinvh tol θ hθ o hat maxSteps verbose b r hr h hdom => ?_⟩
  subst hr
  obtain ⟨q, θ', J, h1, h2, h3, h4, h5, h6, h7, h8⟩ := hst pinvh tol θ hθ o hat maxSteps verbose b hdom h
  have hg : (gs.map fun c => c.der θ').length = gs.length := by simp
  have h8' : IsUnit (toMat (totalFree (Fit.fit (M.env pinvh tol) o maxSteps verbose .newton).obj.params + (gs.map fun c => c.der θ').length) J) := by rw [hg]; exact h8
  refine ⟨q, θ', J, h1, h2, h3, h6, fisher_of h7, fun hs nan => ⟨error_of (fun p hp => (h5 p hp).2) h7 h8' hs nan, fun hc1 hc2 => ?_⟩⟩
  exact std_of h5 h7 (by rw [hg]; exact hM.constraints.length_eq) (by rw [hg]; exact hc1) h8' hs hc2 nan

/-- **C69.** At every point where the penalised log-likelihood curves downwards in the directions that keep the constraints, and the constraints are independent, the
Newton step exists: `np.linalg.solve` does not raise. -/
theorem C69_step_exists (hM : Solver pr m dom M L gs φs T) : ∃ D H, Derivs pr m dom (penalised L φs) D H ∧
    ∀ pinvh tol θ, dom θ → ∀ params, AtPoint pr m θ params → 1 ≤ totalFree params → Concave params (H θ) (gs.map fun c => c.der θ) →
      Independent params (gs.map fun c => c.der θ) → ∃ step v J, Fit.newtonStep (M.env pinvh tol) params = .ok (step, penalised L φs θ / T, v, J) := by
  obtain ⟨D, H, hD, hred⟩ := newton_red hM
  refine ⟨D, H, hD, fun pinvh tol θ hθ params hat hF hc hi => ?_⟩
  obtain ⟨v, J, f1, f2, red⟩ := hred pinvh tol θ hθ params hat
  have hu := unique_of_unit f2.square (g := v) (by rw [f1.length]; simp) (unit_of_concave hat.masks f2 hc hi)
  rw [red]
  unfold exactSolve
  rw [dif_pos hu, ok_bind']
  have hl : hu.choose.length = totalFree params + M.constraint.length := by
    rw [hu.choose_spec.1.len, f2.rows, List.length_map, hM.constraints.length_eq]
  rw [hl, Fit.C12_step_cut _ _ hF, ok_bind']
  exact ⟨_, _, _, rfl⟩

/-- **C69.** The information criteria of the documentation, with the penalised log-likelihood in place of the log-likelihood, and with all the entries of the
parameters (also the fixed ones) counted. -/
theorem C69_criteria (hM : Solver pr m dom M L gs φs T) {θ : Theta} (hθ : dom θ) {params : List (Param ℝ)} (hat : AtPoint pr m θ params) (extra : Int) {k : ℝ}
    (hk : k = (∑ p ∈ Finset.range m, (pr.sizes p).prod : Nat) + extra - gs.length) (hd : T - k - 1 ≠ 0) :
    (∃ v, aicT M params extra = .ok v ∧ T * v = 2 * k - 2 * penalised L φs θ + 2 * k * (k + 1) / (T - k - 1)) ∧
      ∃ v, bicT M params extra = .ok v ∧ T * v = k * Real.log T - 2 * penalised L φs θ := by
  have hk' : ((dofT M params extra : Int) : ℝ) = k := by
    have e : (params.map fun p => p.values.length).sum = ∑ p ∈ Finset.range m, (pr.sizes p).prod := by
      have : params.map (fun p => p.values.length) = (List.range m).map fun p => (pr.sizes p).prod := by
        refine List.ext_getElem? fun i => ?_
        by_cases hi : i < m
        · obtain ⟨q, q1, q2, -, q4, -⟩ := hat.each i hi
          rw [List.getElem?_map, q1, List.getElem?_map, List.getElem?_range hi]
          simp [q4, q2]
        · rw [List.getElem?_eq_none (by simp [hat.len]; omega), List.getElem?_eq_none (by simp; omega)]
      rw [this]
      rfl
    rw [hk]
    unfold dofT
    rw [e, hM.constraints.length_eq]
    generalize (∑ p ∈ Finset.range m, (pr.sizes p).prod : Nat) = S
    push_cast
    ring
  obtain ⟨n, n1, t, rfl, -, n3, n4⟩ := hM.total
  have hn : (Py.arr (Num.tensor t)).float = .ok T := by
    show (if _ then _ else _) = _
    rw [if_pos n3, n4]
  have ho := objective_ok hM (fun _ => .error .linAlg) 1 hθ hat
  have ho' : (callT M params >>= fun y => objT M params y) = .ok (penalised L φs θ / T) := ho
  obtain ⟨y, y1, y2⟩ := Flat.bind_ok ho'
  have hT := hM.ne
  constructor
  · refine ⟨_, by unfold aicT; rw [n1, ok_bind', hn, ok_bind', y1, ok_bind', y2, ok_bind']; rfl, ?_⟩
    rw [hk']
    field_simp
    ring
  · refine ⟨_, by unfold bicT; rw [n1, ok_bind', hn, ok_bind', y1, ok_bind', y2, ok_bind']; rfl, ?_⟩
    rw [hk']
    field_simp

end Verif.Tens
