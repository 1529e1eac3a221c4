import Verif.Props.MaximumLikelihood
import Verif.Spec.Score

/-!
# C86: the residuals at the estimate
-/

namespace Verif.Tens
open Verif.Params Verif.Prep

set_option linter.unusedSectionVars false

section
variable {κ υ : Type} [Fintype κ] [Fintype υ] [DecidableEq κ] [DecidableEq υ]

theorem logProb_along (k : Kind) (hk : k.IsConcave) {v : ℕ} (hv : k.Admits v) {Y : ℝ → κ × υ → ℝ} {c : κ × υ} {d : ℝ} (hY : HasDerivAt (fun t => Y t c) d 0) :
    HasDerivAt (fun t => k.logProb (Y t) c v) (k.linkWeight (Y 0 c) * (v - k.mean (Y 0 c)) * d) 0 := by
  have he := (Real.hasDerivAt_exp (Y 0 c)).comp 0 hY
  simp only [Function.comp_def] at he
  cases k with
  | poisson =>
    simp only [logProb_poisson, Kind.linkWeight, Kind.mean]
    refine (((hY.const_mul (v : ℝ)).sub he).sub_const _).congr_deriv ?_
    ring
  | logistic =>
    have hv' : v ≤ 1 := hv
    simp only [logProb_logistic _ _ hv', Kind.linkWeight, Kind.mean]
    have h0 : 1 + Real.exp (-Y 0 c) ≠ 0 := by positivity
    have hn := ((hY.fun_neg.exp).const_add 1).log h0
    refine ((hY.const_mul (v : ℝ)).sub (hn.add hY)).congr_deriv ?_
    field_simp
    ring
  | negativeBinomial r =>
    have hr : 0 < r := hv
    simp only [logProb_nb hr, Kind.linkWeight, Kind.mean]
    have h0 : r + Real.exp (Y 0 c) ≠ 0 := by positivity
    have hn := (he.const_add r).log h0
    refine ((((hY.sub hn).const_mul (v : ℝ)).sub (hn.const_mul r)).add_const _).congr_deriv ?_
    field_simp
    ring
  | zeroInflatedPoisson s =>
    have hs : 0 < s := hv
    simp only [logProb_zip hs, Kind.linkWeight, Kind.mean]
    have h0 := (zip_pos hs.le (Y 0 c)).ne'
    have hee := (Real.hasDerivAt_exp (Real.exp (Y 0 c))).comp 0 he
    simp only [Function.comp_def] at hee
    have hn := ((hee.add_const s).sub_const 1).log h0
    refine ((((hY.const_mul (v : ℝ)).add_const _).sub hn).sub_const _).congr_deriv ?_
    field_simp
  | finite d => exact hk.elim
  | normalizedFinite d => exact hk.elim

end

theorem hasDerivAt_list_sum {ι : Type} (l : List ι) {F : ι → ℝ → ℝ} {d : ι → ℝ} {t : ℝ} (h : ∀ i ∈ l, HasDerivAt (F i) (d i) t) :
    HasDerivAt (fun t => (l.map fun i => F i t).sum) (l.map d).sum t := by
  induction l with
  | nil => simpa using hasDerivAt_const t (0 : ℝ)
  | cons i l ih =>
    simp only [List.map_cons, List.sum_cons]
    exact (h i (List.mem_cons_self ..)).add (ih fun j hj => h j (List.mem_cons_of_mem _ hj))

section
variable {pr : Problem} {m : Nat} {ρ : Type} {cs : List (List Nat × List ℝ)} {qs : List (List Nat × ℝ × ℝ)} {T K : ℝ} {M : MaxLikeT ℝ}

/-- The point of the line through `θ` and `θ'`. -/
def linePoint (θ θ' : Theta) (t : ℝ) : Theta := fun p a => θ p a + t * (θ' p a - θ p a)

theorem allSum_smul (t : ℝ) (F : Nat → Nat → ℝ) : allSum pr m (fun p a => t * F p a) = t * allSum pr m F := by
  unfold allSum
  simp only [Finset.mul_sum]

theorem Feasible.line {params : List (Param ℝ)} {θ θ' : Theta} (hc : ∀ c ∈ cs, c.1.Nodup ∧ ∀ p ∈ c.1, p < m) (h0 : Feasible pr params cs θ θ) (hf : Feasible pr params cs θ θ') (t : ℝ) :
    Feasible pr params cs θ (linePoint θ θ' t) := by
  refine ⟨fun c hcm => ?_, fun i a h => ?_⟩
  · obtain ⟨q, hq, rfl⟩ := List.mem_map.1 hcm
    have e1 := lin_diff (pr := pr) (hc q hq).1 (hc q hq).2 q.2 θ θ'
    have e2 := lin_diff (pr := pr) (hc q hq).1 (hc q hq).2 q.2 θ (linePoint θ θ' t)
    have : (fun p a => (linCon pr q.1 q.2).der θ p a * (linePoint θ θ' t p a - θ p a)) = fun p a => t * ((linCon pr q.1 q.2).der θ p a * (θ' p a - θ p a)) := by
      funext p a
      unfold linePoint
      ring
    rw [this, allSum_smul, ← e1, hf.1 _ hcm, h0.1 _ hcm] at e2
    linarith
  · unfold linePoint
    rw [hf.2 i a h]
    ring

theorem penalty_line (θ θ' : Theta) : HasDerivAt (fun t => ((quadPens pr qs).map fun φ => φ.val (linePoint θ θ' t)).sum)
    (qs.map fun q => ∑ i ∈ Finset.range q.1.length, ∑ a ∈ Finset.range (pr.sizes (q.1.getD i 0)).prod,
      2 * (θ (q.1.getD i 0) a - q.2.1) / q.2.2 ^ 2 * (θ' (q.1.getD i 0) a - θ (q.1.getD i 0) a)).sum 0 := by
  have hid : ∀ b d : ℝ, HasDerivAt (fun t => b + t * d) d 0 := fun b d => by
    simpa using ((hasDerivAt_id (0 : ℝ)).mul_const d).const_add b
  simp only [quadPens, List.map_map, Function.comp_def, quadPen]
  refine hasDerivAt_list_sum qs fun q hq => ?_
  refine HasDerivAt.fun_sum fun i _ => HasDerivAt.fun_sum fun a _ => ?_
  have := ((((hid (θ (q.1.getD i 0) a) (θ' (q.1.getD i 0) a - θ (q.1.getD i 0) a)).sub_const q.2.1).div_const q.2.2).pow 2)
  refine this.congr_deriv ?_
  simp only [zero_mul, add_zero]
  ring

/-- **C86.** The score equations. In the classes `Poisson`, `ZeroInflatedPoisson`, `Logistic` and `NegativeBinomial` with a linear model, linear constraints and quadratic
penalties, when the Newton step of the next fit is zero: along every change of the parameters that keeps the constraints and the fixed entries, the sum over the observations
of the residual (observation less mean) times the change of the value of the model (times the weight of the observation and, for `NegativeBinomial`, `r / (r + mean)`) equals
the change of the penalties, to the first order. -/
theorem C86_score (k : Kind) (hk : k.IsConcave) (rows : List ρ) (pos : ρ → pr.Cell) (w : ρ → ℝ) (v : ρ → ℕ) (hv : ∀ r ∈ rows, k.Admits (v r)) (hw : ∀ r ∈ rows, 0 ≤ w r)
    (hne : rows ≠ []) {val : Val} {h : pr.Cell → ℝ} {x : pr.Cell → Nat → Nat → ℝ}
    (hS : Solver pr m (fun _ => True) M (fun θ => (rows.map fun r => w r * k.logProb (valCell pr val θ) (pos r) (v r)).sum + K) (linCons pr cs) (quadPens pr qs) T)
    (hy : LinearModel pr m (valCell pr val) h x) (hc : ∀ c ∈ cs, c.1.Nodup ∧ ∀ p ∈ c.1, p < m) (hq : ∀ q ∈ qs, q.1.Nodup ∧ (∀ p ∈ q.1, p < m) ∧ q.2.2 ≠ 0)
    {θ : Theta} {params : List (Param ℝ)} (hat : AtPoint pr m θ params) (hF : 1 ≤ totalFree params)
    {pinvh : List (List ℝ) → Except Err (List (List ℝ))} {tol : ℝ} {step l : List ℝ} {g : ℝ} {J : List (List ℝ)}
    (hstep : Fit.newtonStep (M.env pinvh tol) params = .ok (step, g, l, J)) (h0 : ∀ z ∈ step, z = 0) {θ' : Theta} (hf : Feasible pr params cs θ θ') :
    (rows.map fun r => w r * (k.linkWeight (valCell pr val θ (pos r)) * (v r - k.mean (valCell pr val θ (pos r)))) *
        (valCell pr val θ' (pos r) - valCell pr val θ (pos r))).sum =
      (qs.map fun q => ∑ i ∈ Finset.range q.1.length, ∑ a ∈ Finset.range (pr.sizes (q.1.getD i 0)).prod,
        2 * (θ (q.1.getD i 0) a - q.2.1) / q.2.2 ^ 2 * (θ' (q.1.getD i 0) a - θ (q.1.getD i 0) a)).sum := by
  have h00 : Feasible pr params cs θ θ := by
    refine ⟨((C68_step_zero_iff hS trivial hat hF hstep).1 h0).1, fun _ _ _ => rfl⟩
  have hmax := fun t => (C76_estimate k hk rows pos w v hv hw hne hS hy hc hq hat hF hstep h0 (Feasible.line hc h00 hf t)).1
  have hlin : ∀ c t, valCell pr val (linePoint θ θ' t) c = valCell pr val θ c + t * (valCell pr val θ' c - valCell pr val θ c) := by
    intro c t
    have e1 := linear_diff hy θ θ' c
    have e2 := linear_diff hy θ (linePoint θ θ' t) c
    have : (fun p a => x c p a * (linePoint θ θ' t p a - θ p a)) = fun p a => t * (x c p a * (θ' p a - θ p a)) := by
      funext p a
      unfold linePoint
      ring
    rw [this, allSum_smul, ← e1] at e2
    linarith
  have hline : linePoint θ θ' 0 = θ := by
    funext p a
    unfold linePoint
    ring
  have hid : ∀ b d : ℝ, HasDerivAt (fun t => b + t * d) d 0 := fun b d => by
    simpa using ((hasDerivAt_id (0 : ℝ)).mul_const d).const_add b
  have d1 : HasDerivAt (fun t => (rows.map fun r => w r * k.logProb (valCell pr val (linePoint θ θ' t)) (pos r) (v r)).sum)
      (rows.map fun r => w r * (k.linkWeight (valCell pr val θ (pos r)) * (v r - k.mean (valCell pr val θ (pos r)))) *
        (valCell pr val θ' (pos r) - valCell pr val θ (pos r))).sum 0 := by
    refine hasDerivAt_list_sum rows fun r hr => ?_
    have := (logProb_along k hk (hv r hr) (Y := fun t => valCell pr val (linePoint θ θ' t)) (c := pos r) ((hid (valCell pr val θ (pos r)) _).congr_of_eventuallyEq
      (Filter.Eventually.of_forall fun t => hlin (pos r) t))).const_mul (w r)
    simp only [hline] at this
    refine this.congr_deriv ?_
    ring
  have d2 := penalty_line (pr := pr) (qs := qs) θ θ'
  have hloc : IsLocalMax (fun t => (rows.map fun r => w r * k.logProb (valCell pr val (linePoint θ θ' t)) (pos r) (v r)).sum -
      ((quadPens pr qs).map fun φ => φ.val (linePoint θ θ' t)).sum) 0 := by
    refine Filter.Eventually.of_forall fun t => ?_
    simp only [hline]
    exact hmax t
  have := hloc.hasDerivAt_eq_zero (d1.sub d2)
  linarith

end

end Verif.Tens
