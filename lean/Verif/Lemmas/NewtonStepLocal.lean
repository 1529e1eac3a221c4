import Verif.Lemmas.NewtonLocal
import Verif.Spec.NewtonLocal
import Verif.Props.Concave

/-!
# Lemmas for C78: one Newton step near the maximum
-/

set_option linter.unusedSectionVars false

namespace Verif.Tens
open Verif.Params

variable {pr : Problem} {m : Nat} {L : Theta → ℝ} {M : MaxLikeT ℝ} {cs : List (List Nat × List ℝ)} {qs : List (List Nat × ℝ × ℝ)} {T : ℝ}
  {y : Theta → pr.Cell → ℝ} {x : pr.Cell → Nat → Nat → ℝ} {k : pr.Cell → ℝ} {l l1 w : pr.Cell → ℝ → ℝ}

theorem freeSum_list {ps : List (Param ℝ)} (hw : ∀ p ∈ ps, p.mask.length = p.shape.prod) (u : Nat → Nat → ℝ) : ∀ zs : List ((Nat → Nat → ℝ) × ℝ),
    freeSum ps (fun p a => (zs.map fun z => z.1 p a * z.2).sum * u p a) = (zs.map fun z => freeSum ps (fun p a => z.1 p a * u p a) * z.2).sum
  | [] => by simp only [List.map_nil, List.sum_nil, zero_mul]; exact freeSum_zero fun _ _ => rfl
  | z :: zs => by
    simp only [List.map_cons, List.sum_cons]
    rw [← freeSum_list hw u zs, freeSum_eq hw, freeSum_eq hw, freeSum_eq hw, Finset.sum_mul, ← Finset.sum_add_distrib]
    exact Finset.sum_congr rfl fun p _ => by ring

/-- At a point that satisfies the first order conditions the objective does not change, to first order, along the directions that keep the constraints. -/
theorem first_order_dir {dom : Theta → Prop} {gs : List Con} {φs : List Pen} (hM : Solver pr m dom M L gs φs T) {D : Theta → Nat → Nat → ℝ} {H : Theta → Nat → Nat → Nat → Nat → ℝ}
    (hD : Derivs pr m dom (penalised L φs) D H) {θ : Theta} (hθ : dom θ) {params : List (Param ℝ)} (hat : AtPoint pr m θ params)
    (hk : FirstOrder params (penalised L φs) gs θ) {u : Nat → Nat → ℝ} (hu : ∀ c ∈ gs, freeSum params (fun p a => c.der θ p a * u p a) = 0) :
    freeSum params (fun p a => D θ p a * u p a) = 0 := by
  obtain ⟨-, μ, hμ, hst⟩ := hk
  have e : ∀ i a, isFree params i a → D θ i a * u i a = ((((gs.map fun c => c.der θ).zip μ).map fun z => z.1 i a * z.2).sum) * u i a := by
    intro i a hfr
    have := hasPartial_unique (hst i a hfr) (lagrange hD hM hθ hat μ hfr)
    rw [zip_map_sum]
    rw [show D θ i a = ((gs.zip μ).map fun z => z.1.der θ i a * z.2).sum by linarith]
  rw [freeSum_eq hat.masks, Finset.sum_congr rfl fun p hp => e p.1 p.2 (mem_freeSet.1 hp),
    ← freeSum_eq hat.masks (fun i a => ((((gs.map fun c => c.der θ).zip μ).map fun z => z.1 i a * z.2).sum) * u i a), freeSum_list hat.masks]
  refine List.sum_eq_zero fun z hz => ?_
  obtain ⟨z', hz', rfl⟩ := List.mem_map.1 hz
  obtain ⟨c, hc, e⟩ := List.mem_map.1 (List.of_mem_zip hz').1
  rw [← e, hu c hc, zero_mul]

/-- The Newton equation in a direction that keeps the constraints. -/
theorem newton_dir {ps : List (Param ℝ)} (hw : ∀ p ∈ ps, p.mask.length = p.shape.prod) {D : Nat → Nat → ℝ} {H : Nat → Nat → Nat → Nat → ℝ} {ders : List (Nat → Nat → ℝ)}
    {res step μ : List ℝ} (hN : NewtonStep ps D H ders res step μ) {u : Nat → Nat → ℝ} (hu : Tangent ps ders u) :
    curvature ps H u (dirOf ps step) = freeSum ps fun i a => D i a * u i a := by
  have h1 : freeSum ps (fun i a => ((ders.zip μ).map fun z => z.1 i a * z.2).sum * u i a) = 0 := by
    rw [freeSum_list hw]
    refine List.sum_eq_zero fun z hz => ?_
    obtain ⟨z', hz', rfl⟩ := List.mem_map.1 hz
    rw [hu _ (List.of_mem_zip hz').1, zero_mul]
  have h2 : freeSum ps (fun i a => D i a * u i a) = curvature ps H u (dirOf ps step) + freeSum ps (fun i a => ((ders.zip μ).map fun z => z.1 i a * z.2).sum * u i a) := by
    unfold curvature
    rw [freeSum_eq hw, freeSum_eq hw, freeSum_eq hw, ← Finset.sum_add_distrib]
    refine Finset.sum_congr rfl fun p hp => ?_
    rw [← hN.stationary p.1 p.2 (mem_freeSet.1 hp), add_mul, freeSum_eq hw, freeSum_eq hw, Finset.sum_mul]
    congr 1
    exact Finset.sum_congr rfl fun q _ => by unfold dirOf; ring
  rw [h2, h1, add_zero]

theorem quad_bilinear {pm : List Nat} (v s : ℝ) {θ θ' : Theta} {params : List (Param ℝ)} (hat : AtPoint pr m θ' params) (u u' : Nat → Nat → ℝ) :
    curvature params ((quadPen pr pm v s).hes θ) u u' = freeSum params fun p a => if p ∈ pm then 2 / s ^ 2 * (u p a * u' p a) else 0 := by
  rw [curvature_eq hat.masks, freeSum_eq hat.masks]
  refine Finset.sum_congr rfl fun p hp => ?_
  rw [Finset.sum_eq_single p]
  · unfold bothSides
    simp only [quadPen]
    rw [if_neg (lt_irrefl _)]
    by_cases h : p.1 ∈ pm
    · simp [h]; ring
    · simp [h]
  · intro q _ hq
    have : ¬(q.1 = p.1 ∧ q.2 = p.2) := fun h => hq (Prod.ext h.1 h.2)
    unfold bothSides
    simp only [quadPen]
    split_ifs with h1 h2 h2
    · omega
    · simp
    · exact absurd h2.2 this
    · simp
  · intro h; exact absurd hp h

open scoped Classical in
/-- The point after the full step. -/
noncomputable def stepTo (params : List (Param ℝ)) (θ : Theta) (step : List ℝ) : Theta := fun p a => if isFree params p a then θ p a - dirOf params step p a else θ p a

/-- The penalties of the direction `e`. -/
noncomputable def penForm (pr : Problem) (m : Nat) (qs : List (List Nat × ℝ × ℝ)) (e : Nat → Nat → ℝ) : ℝ :=
  (qs.map fun q => allSum pr m fun p a => if p ∈ q.1 then (e p a / q.2.2) ^ 2 else 0).sum

/-- The second order form of the problem. -/
noncomputable def fullForm (pr : Problem) (m : Nat) (w : pr.Cell → ℝ → ℝ) (ys : pr.Cell → ℝ) (x : pr.Cell → Nat → Nat → ℝ) (qs : List (List Nat × ℝ × ℝ)) (e : Nat → Nat → ℝ) : ℝ :=
  cellForm w ys (fun c => allSum pr m fun p a => x c p a * e p a) + 2 * penForm pr m qs e

theorem penForm_nonneg (e : Nat → Nat → ℝ) : 0 ≤ penForm pr m qs e := by
  refine List.sum_nonneg fun z hz => ?_
  obtain ⟨q, -, rfl⟩ := List.mem_map.1 hz
  refine allSum_nonneg fun p a => ?_
  split_ifs
  · positivity
  · exact le_rfl

/-- Moving to the point after the step. -/
theorem stepTo_sum {θ : Theta} {params : List (Param ℝ)} (hat : AtPoint pr m θ params) (F : Nat → Nat → ℝ) (step : List ℝ) :
    allSum pr m (fun p a => F p a * (stepTo params θ step p a - θ p a)) = -freeSum params fun p a => F p a * dirOf params step p a := by
  rw [allSum_free hat, freeSum_eq hat.masks, freeSum_eq hat.masks, ← Finset.sum_neg_distrib]
  · refine Finset.sum_congr rfl fun p hp => ?_
    unfold stepTo
    rw [if_pos (mem_freeSet.1 hp)]
    ring
  · intro i a h
    unfold stepTo
    rw [if_neg, sub_self, mul_zero]
    rintro ⟨q, q1, q2⟩
    obtain ⟨q', q1', q2'⟩ := h
    rw [q1] at q1'
    cases q1'
    rw [q2] at q2'
    cases q2'

theorem not_free_of_fixed {ps : List (Param ℝ)} {i a : Nat} (h : isFixed ps i a) : ¬isFree ps i a := by
  rintro ⟨q, q1, q2⟩
  obtain ⟨q', q1', q2'⟩ := h
  rw [q1] at q1'
  cases q1'
  rw [q2] at q2'
  cases q2'

/-- The constraints hold after a full step. -/
theorem stepTo_feasible (hcons : ∀ c ∈ cs, c.1.Nodup ∧ ∀ p ∈ c.1, p < m) {θ θs : Theta} {params : List (Param ℝ)} (hat : AtPoint pr m θ params)
    (hfix : ∀ i a, isFixed params i a → θ i a = θs i a) {D : Nat → Nat → ℝ} {H : Nat → Nat → Nat → Nat → ℝ} {step μ : List ℝ}
    (hN : NewtonStep params D H ((linCons pr cs).map fun c => c.der θ) ((linCons pr cs).map fun c => c.val θ) step μ) : Feasible pr params cs θs (stepTo params θ step) := by
  refine ⟨fun c hc => ?_, fun i a h => ?_⟩
  · obtain ⟨j, hj⟩ := List.mem_iff_getElem?.1 hc
    have h1 := hN.feasible j (c.der θ) (c.val θ) (by rw [List.getElem?_map, hj]; rfl) (by rw [List.getElem?_map, hj]; rfl)
    have h2 : c.val (stepTo params θ step) - c.val θ = allSum pr m fun p a => c.der θ p a * (stepTo params θ step p a - θ p a) := by
      obtain ⟨q, hq, rfl⟩ := List.mem_map.1 hc
      obtain ⟨q1, q2⟩ := hcons q hq
      exact lin_diff q1 q2 _ θ _
    rw [stepTo_sum hat] at h2
    have h3 : freeSum params (fun p a => c.der θ p a * dirOf params step p a) = c.val θ := h1
    linarith
  · unfold stepTo
    rw [if_neg (not_free_of_fixed h)]
    exact hfix i a h

theorem allSum_add (F G : Nat → Nat → ℝ) : allSum pr m (fun p a => F p a + G p a) = allSum pr m F + allSum pr m G := by
  unfold allSum
  simp only [Finset.sum_add_distrib]

theorem list_sum_add {ι : Type} (F G : ι → ℝ) : ∀ l : List ι, (l.map fun z => F z + G z).sum = (l.map F).sum + (l.map G).sum
  | [] => by simp
  | z :: l => by simp only [List.map_cons, List.sum_cons]; rw [list_sum_add F G l]; ring

/-- The Newton step makes the form at most an eighth. -/
theorem step_contracts (hM : Solver pr m (fun _ => True) M L (linCons pr cs) (quadPens pr qs) T) (hcons : ∀ c ∈ cs, c.1.Nodup ∧ ∀ p ∈ c.1, p < m)
    (hpens : ∀ q ∈ qs, q.1.Nodup ∧ (∀ p ∈ q.1, p < m) ∧ q.2.2 ≠ 0) (hL : ∀ θ, L θ = ∑ c, l c (y θ c)) (hl : ConcaveCells l l1 w) (hk : LinearModel pr m y k x)
    {D : Theta → Nat → Nat → ℝ} {H : Theta → Nat → Nat → Nat → Nat → ℝ} (hD : Derivs pr m (fun _ => True) (penalised L (quadPens pr qs)) D H)
    {θ θs : Theta} {params : List (Param ℝ)} (hat : AtPoint pr m θ params) (hc0 : ∀ c ∈ linCons pr cs, c.val θs = 0)
    (hfo : ∀ u : Nat → Nat → ℝ, (∀ c ∈ linCons pr cs, freeSum params (fun p a => c.der θs p a * u p a) = 0) → freeSum params (fun p a => D θs p a * u p a) = 0)
    (hf : Feasible pr params cs θs θ) {step μ : List ℝ}
    (hN : NewtonStep params (D θ) (H θ) ((linCons pr cs).map fun c => c.der θ) ((linCons pr cs).map fun c => c.val θ) step μ)
    {r : ℝ} (hnear : Near w (y θs) r) (hr : fullForm pr m w (y θs) x qs (fun p a => θ p a - θs p a) ≤ r) :
    fullForm pr m w (y θs) x qs (fun p a => stepTo params θ step p a - θs p a) ≤ 1 / 8 * fullForm pr m w (y θs) x qs (fun p a => θ p a - θs p a) := by
  have hf1 : Feasible pr params cs θs (stepTo params θ step) := stepTo_feasible hcons hat hf.2 hN
  set θ1 := stepTo params θ step with hθ1
  set v : Nat → Nat → ℝ := fun p a => θs p a - θ1 p a with hv
  have hvfix : ∀ i a, isFixed params i a → v i a = 0 := fun i a h => by simp only [hv]; rw [hf1.2 i a h, sub_self]
  have hz : ∀ F : Nat → Nat → ℝ, allSum pr m (fun p a => F p a * v p a) = freeSum params fun p a => F p a * v p a := fun F =>
    allSum_free hat fun i a h => by rw [hvfix i a h, mul_zero]
  have hten : ∀ c ∈ linCons pr cs, freeSum params (fun p a => c.der θs p a * v p a) = 0 := by
    intro c hc
    have h1 := hf1.1 c hc
    have h2 := hc0 c hc
    obtain ⟨q, hq, rfl⟩ := List.mem_map.1 hc
    obtain ⟨q1, q2⟩ := hcons q hq
    have := lin_diff (pr := pr) q1 q2 q.2 θ1 θs
    rw [h1, h2, sub_self] at this
    rw [← hz]
    exact this.symm
  have hD0 := hfo v hten
  have hN1 := newton_dir hat.masks hN (u := v) (fun d hd => by
    obtain ⟨c, hc, rfl⟩ := List.mem_map.1 hd
    have := hten c hc
    obtain ⟨q, hq, rfl⟩ := List.mem_map.1 hc
    exact this)
  obtain ⟨h1, -⟩ := derivs_eq hM hL hl hk hD
  -- the numbers of the cells
  set A : pr.Cell → ℝ := fun c => allSum pr m fun p a => x c p a * (θ p a - θs p a) with hA
  set V : pr.Cell → ℝ := fun c => allSum pr m fun p a => x c p a * (θ1 p a - θs p a) with hV
  have hAy : ∀ c, y θ c = y θs c + A c := fun c => by have := linear_diff hk θs θ c; simp only [hA]; linarith
  have hVv : ∀ c, freeSum params (fun p a => x c p a * v p a) = -V c := by
    intro c
    rw [← hz]
    simp only [hV, hv, allSum]
    rw [← Finset.sum_neg_distrib]
    refine Finset.sum_congr rfl fun p _ => ?_
    rw [← Finset.sum_neg_distrib]
    exact Finset.sum_congr rfl fun a _ => by ring
  have hS : ∀ c, freeSum params (fun p a => x c p a * dirOf params step p a) = A c - V c := by
    intro c
    have := stepTo_sum hat (x c) step
    rw [show freeSum params (fun p a => x c p a * dirOf params step p a) = -allSum pr m (fun p a => x c p a * (θ1 p a - θ p a)) by rw [this]; ring]
    simp only [hA, hV, allSum]
    rw [← Finset.sum_neg_distrib, ← Finset.sum_sub_distrib]
    refine Finset.sum_congr rfl fun p _ => ?_
    rw [← Finset.sum_neg_distrib, ← Finset.sum_sub_distrib]
    exact Finset.sum_congr rfl fun a _ => by ring
  rw [curvature_bilinear hM hL hl hk hD hat] at hN1
  -- the first derivatives
  have hdiff : freeSum params (fun i a => D θ i a * v i a) = ∑ c, (l1 c (y θs c) - l1 c (y θ c)) * V c -
      (qs.map fun q => freeSum params fun p a => if p ∈ q.1 then 2 / q.2.2 ^ 2 * ((θ p a - θs p a) * v p a) else 0).sum := by
    have e0 : freeSum params (fun i a => D θ i a * v i a) = freeSum params (fun i a => D θ i a * v i a) - freeSum params (fun i a => D θs i a * v i a) := by rw [hD0, sub_zero]
    have e1 : ∀ p ∈ freeSet params, D θ p.1 p.2 * v p.1 p.2 - D θs p.1 p.2 * v p.1 p.2 = ∑ c, (l1 c (y θ c) - l1 c (y θs c)) * (x c p.1 p.2 * v p.1 p.2) -
        (qs.map fun q => if p.1 ∈ q.1 then 2 / q.2.2 ^ 2 * ((θ p.1 p.2 - θs p.1 p.2) * v p.1 p.2) else 0).sum := by
      intro p hp
      obtain ⟨b1, b2⟩ := hat.free (mem_freeSet.1 hp)
      rw [h1 θ _ b1 _ b2, h1 θs _ b1 _ b2]
      have e2 : (qs.map fun q => if p.1 ∈ q.1 then 2 / q.2.2 ^ 2 * ((θ p.1 p.2 - θs p.1 p.2) * v p.1 p.2) else 0).sum =
          (((quadPens pr qs).map fun φ => φ.der θ p.1 p.2).sum - ((quadPens pr qs).map fun φ => φ.der θs p.1 p.2).sum) * v p.1 p.2 := by
        unfold quadPens
        rw [List.map_map, List.map_map, list_sum_sub, ← List.sum_map_mul_right]
        congr 1
        refine List.map_congr_left fun q hq => ?_
        simp only [Function.comp, quadPen]
        by_cases h : p.1 ∈ q.1
        · simp only [h, if_true]; ring
        · simp [h]
      rw [e2]
      have e3 : ∑ c, (l1 c (y θ c) - l1 c (y θs c)) * (x c p.1 p.2 * v p.1 p.2) = (∑ c, l1 c (y θ c) * x c p.1 p.2 - ∑ c, l1 c (y θs c) * x c p.1 p.2) * v p.1 p.2 := by
        rw [← Finset.sum_sub_distrib, Finset.sum_mul]
        exact Finset.sum_congr rfl fun c _ => by ring
      rw [e3]
      ring
    rw [e0, freeSum_eq hat.masks, freeSum_eq hat.masks, ← Finset.sum_sub_distrib, Finset.sum_congr rfl e1, Finset.sum_sub_distrib, Finset.sum_comm]
    congr 1
    · refine Finset.sum_congr rfl fun c _ => ?_
      rw [← Finset.mul_sum, ← freeSum_eq hat.masks (fun p a => x c p a * v p a), hVv]
      ring
    · have : ∀ (zs : List (List Nat × ℝ × ℝ)), ∑ p ∈ freeSet params, (zs.map fun q => if p.1 ∈ q.1 then 2 / q.2.2 ^ 2 * ((θ p.1 p.2 - θs p.1 p.2) * v p.1 p.2) else 0).sum =
          (zs.map fun q => freeSum params fun p a => if p ∈ q.1 then 2 / q.2.2 ^ 2 * ((θ p a - θs p a) * v p a) else 0).sum := by
        intro zs
        induction zs with
        | nil => simp
        | cons q zs ih =>
          simp only [List.map_cons, List.sum_cons]
          rw [Finset.sum_add_distrib, ih, freeSum_eq hat.masks]
      exact this qs
  rw [hdiff] at hN1
  -- the penalties
  have hpen : (qs.map fun q => freeSum params fun p a => if p ∈ q.1 then 2 / q.2.2 ^ 2 * ((θ p a - θs p a) * v p a) else 0).sum -
      ((quadPens pr qs).map fun φ => curvature params (φ.hes θ) v (dirOf params step)).sum = -(2 * penForm pr m qs fun p a => θ1 p a - θs p a) := by
    unfold quadPens penForm
    rw [List.map_map, list_sum_sub, ← neg_mul, ← List.sum_map_mul_left]
    congr 1
    refine List.map_congr_left fun q hq => ?_
    obtain ⟨-, -, q3⟩ := hpens q hq
    simp only [Function.comp]
    rw [quad_bilinear _ _ hat]
    have hfr : allSum pr m (fun p a => if p ∈ q.1 then ((θ1 p a - θs p a) / q.2.2) ^ 2 else 0) = freeSum params fun p a => if p ∈ q.1 then ((θ1 p a - θs p a) / q.2.2) ^ 2 else 0 :=
      allSum_free hat fun i a h => by rw [hf1.2 i a h]; simp
    rw [hfr, freeSum_eq hat.masks, freeSum_eq hat.masks, freeSum_eq hat.masks, ← Finset.sum_sub_distrib, Finset.mul_sum]
    refine Finset.sum_congr rfl fun p hp => ?_
    by_cases h : p.1 ∈ q.1
    · simp only [h, if_true]
      have e : dirOf params step p.1 p.2 = θ p.1 p.2 - θ1 p.1 p.2 := by
        rw [hθ1]; unfold stepTo; rw [if_pos (mem_freeSet.1 hp)]; ring
      rw [e]
      simp only [hv]
      field_simp
      ring
    · simp [h]
  have hR := penForm_nonneg (pr := pr) (m := m) (qs := qs) fun p a => θ1 p a - θs p a
  have hR0 := penForm_nonneg (pr := pr) (m := m) (qs := qs) fun p a => θ p a - θs p a
  have hcell : cellForm w (y θs) A ≤ r := by unfold fullForm at hr; linarith
  have key := cells_step hl hnear (a := A) (v := V) hcell hR (by
    simp only [hVv, hS] at hN1
    simp only [← hAy]
    have f1 : ∑ c, w c (y θ c) * (A c - V c) * (-V c) = ∑ c, w c (y θ c) * (-V c * (A c - V c)) := Finset.sum_congr rfl fun c _ => by ring
    have f2 : ∑ c, (l1 c (y θs c) - l1 c (y θ c)) * (-V c) = -∑ c, (l1 c (y θs c) - l1 c (y θ c)) * V c := by
      rw [← Finset.sum_neg_distrib]; exact Finset.sum_congr rfl fun c _ => by ring
    rw [f1, f2]
    linarith)
  unfold fullForm
  linarith

/-- The objective near the maximum. -/
theorem gap_form (hM : Solver pr m (fun _ => True) M L (linCons pr cs) (quadPens pr qs) T) (hcons : ∀ c ∈ cs, c.1.Nodup ∧ ∀ p ∈ c.1, p < m)
    (hpens : ∀ q ∈ qs, q.1.Nodup ∧ (∀ p ∈ q.1, p < m) ∧ q.2.2 ≠ 0) (hL : ∀ θ, L θ = ∑ c, l c (y θ c)) (hl : ConcaveCells l l1 w) (hk : LinearModel pr m y k x)
    {D : Theta → Nat → Nat → ℝ} {H : Theta → Nat → Nat → Nat → Nat → ℝ} (hD : Derivs pr m (fun _ => True) (penalised L (quadPens pr qs)) D H)
    {θ θs θ' : Theta} {params : List (Param ℝ)} (hat : AtPoint pr m θ' params) (hc0 : ∀ c ∈ linCons pr cs, c.val θs = 0)
    (hfo : ∀ u : Nat → Nat → ℝ, (∀ c ∈ linCons pr cs, freeSum params (fun p a => c.der θs p a * u p a) = 0) → freeSum params (fun p a => D θs p a * u p a) = 0)
    (hf : Feasible pr params cs θs θ) {r : ℝ} (hnear : Near w (y θs) r) (hr : fullForm pr m w (y θs) x qs (fun p a => θ p a - θs p a) ≤ r) :
    9 / 20 * fullForm pr m w (y θs) x qs (fun p a => θ p a - θs p a) ≤ penalised L (quadPens pr qs) θs - penalised L (quadPens pr qs) θ ∧
      penalised L (quadPens pr qs) θs - penalised L (quadPens pr qs) θ ≤ 11 / 20 * fullForm pr m w (y θs) x qs (fun p a => θ p a - θs p a) := by
  have hz : ∀ F : Nat → Nat → ℝ, allSum pr m (fun p a => F p a * (θ p a - θs p a)) = freeSum params fun p a => F p a * (θ p a - θs p a) := fun F =>
    allSum_free hat fun i a h => by rw [hf.2 i a h, sub_self, mul_zero]
  have h0 : allSum pr m (fun p a => D θs p a * (θ p a - θs p a)) = 0 := by
    rw [hz]
    refine hfo _ fun c hc => ?_
    have h1 := hf.1 c hc
    have h2 := hc0 c hc
    obtain ⟨q, hq, rfl⟩ := List.mem_map.1 hc
    obtain ⟨q1, q2⟩ := hcons q hq
    rw [← hz, ← lin_diff q1 q2, h1, h2, sub_zero]
  have hg := gap_cells hM hpens hL hl hk hD θs θ
  rw [h0] at hg
  have hR := penForm_nonneg (pr := pr) (m := m) (qs := qs) fun p a => θ p a - θs p a
  have hc := cells_gap hl hnear (d := fun c => allSum pr m fun p a => x c p a * (θ p a - θs p a)) (by unfold fullForm at hr; linarith)
  have e : ∀ c, y θ c = y θs c + allSum pr m fun p a => x c p a * (θ p a - θs p a) := fun c => by have := linear_diff hk θs θ c; linarith
  have e2 : ∑ c, (l c (y θs c) + l1 c (y θs c) * (y θ c - y θs c) - l c (y θ c)) = ∑ c, (l c (y θs c) + l1 c (y θs c) * (allSum pr m fun p a => x c p a * (θ p a - θs p a)) -
      l c (y θs c + allSum pr m fun p a => x c p a * (θ p a - θs p a))) := Finset.sum_congr rfl fun c _ => by rw [e c, add_sub_cancel_left]
  rw [e2] at hg
  unfold fullForm
  have e3 : (qs.map fun q => allSum pr m fun p a => if p ∈ q.1 then ((θ p a - θs p a) / q.2.2) ^ 2 else 0).sum = penForm pr m qs fun p a => θ p a - θs p a := rfl
  rw [e3] at hg
  constructor <;> linarith [hc.1, hc.2]

end Verif.Tens
