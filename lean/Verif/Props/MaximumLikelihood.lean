import Verif.Props.Pipeline
import Verif.Props.ConcaveExamples

/-!
# C76: the fit of the observations and the maximum likelihood estimate
-/

namespace Verif.Tens
open Verif.Params Verif.Prep

set_option linter.unusedSectionVars false

section
variable {pr : Problem} {m : Nat} {ρ : Type} {cs : List (List Nat × List ℝ)} {qs : List (List Nat × ℝ × ℝ)} {T K : ℝ} {M : MaxLikeT ℝ}

theorem cells_const {ι : Type} {l l1 w : ι → ℝ → ℝ} (h : ConcaveCells l l1 w) (e : ℝ) : ConcaveCells (fun c t => l c t + e) l1 w :=
  ⟨fun c t => by simpa using (h.first c t).add_const e, h.second, h.nonneg⟩

theorem cellSum_nonneg {C : Type} [DecidableEq C] {rows : List ρ} {pos : ρ → C} {h : ρ → ℝ} (hh : ∀ r ∈ rows, 0 ≤ h r) (c : C) : 0 ≤ cellSum rows pos h c := by
  unfold cellSum
  refine List.sum_nonneg fun x hx => ?_
  obtain ⟨r, hr, rfl⟩ := List.mem_map.1 hx
  exact hh r (List.mem_filter.1 hr).1

theorem cellSum_pos {C : Type} [DecidableEq C] {rows : List ρ} {pos : ρ → C} {h : ρ → ℝ} (hh : ∀ r ∈ rows, 0 ≤ h r) {c : C} (hc : ∃ r ∈ rows, pos r = c ∧ 0 < h r) :
    0 < cellSum rows pos h c := by
  obtain ⟨r, h1, h2, h3⟩ := hc
  unfold cellSum
  have hm : h r ∈ (rows.filter fun r => pos r = c).map h := List.mem_map.2 ⟨r, List.mem_filter.2 ⟨h1, by simpa using h2⟩, rfl⟩
  refine lt_of_lt_of_le h3 (List.single_le_sum (fun x hx => ?_) _ hm)
  obtain ⟨r', hr', rfl⟩ := List.mem_map.1 hx
  exact hh r' (List.mem_filter.1 hr').1

/-- **C76.** The classes `Poisson`, `ZeroInflatedPoisson`, `Logistic` and `NegativeBinomial` with a linear model, linear constraints and quadratic penalties, and observations with weights that are not
negative: the logarithm of the probability of the observations is concave, strictly in the numbers that the model calculates for the cells that have been observed. -/
theorem C76_concave (k : Kind) (hk : k.IsConcave) (rows : List ρ) (pos : ρ → pr.Cell) (w : ρ → ℝ) (v : ρ → ℕ) (hv : ∀ r ∈ rows, k.Admits (v r)) (hw : ∀ r ∈ rows, 0 ≤ w r)
    (hne : rows ≠ []) {val : Val} {h : pr.Cell → ℝ} {x : pr.Cell → Nat → Nat → ℝ}
    (hS : Solver pr m (fun _ => True) M (fun θ => (rows.map fun r => w r * k.logProb (valCell pr val θ) (pos r) (v r)).sum + K) (linCons pr cs) (quadPens pr qs) T)
    (hy : LinearModel pr m (valCell pr val) h x) (hc : ∀ c ∈ cs, c.1.Nodup ∧ ∀ p ∈ c.1, p < m) (hq : ∀ q ∈ qs, q.1.Nodup ∧ (∀ p ∈ q.1, p < m) ∧ q.2.2 ≠ 0) :
    ConcaveProblem pr m M (fun θ => (rows.map fun r => w r * k.logProb (valCell pr val θ) (pos r) (v r)).sum + K) cs qs T (valCell pr val) x
      fun c => ∃ r ∈ rows, pos r = c ∧ 0 < w r := by
  have hX : ∀ c, 0 ≤ cellSum rows pos (fun r => w r * v r) c := cellSum_nonneg fun r hr => mul_nonneg (hw r hr) (Nat.cast_nonneg _)
  have hN : ∀ c, 0 ≤ cellSum rows pos w c := cellSum_nonneg hw
  obtain ⟨r0, l0, rfl⟩ := List.exists_cons_of_ne_nil hne
  obtain ⟨K', hK⟩ := C75_aggregate k (r0 :: l0) pos w v hv (fun n => match n with
    | .X => cellSum (r0 :: l0) pos fun r => w r * v r
    | .N => cellSum (r0 :: l0) pos w
    | .Z => cellSum (r0 :: l0) pos fun r => if v r = 0 then w r else 0
    | .other _ => fun _ => 0) (fun _ _ => rfl) (fun _ => rfl) (fun _ _ => rfl)
  have hcard : ((Finset.univ : Finset pr.Cell).card : ℝ) ≠ 0 := Nat.cast_ne_zero.2 (Finset.card_ne_zero.2 ⟨pos r0, Finset.mem_univ _⟩)
  refine ⟨hS, ⟨h, hy⟩, ?_, hc, hq⟩
  have fin : ∀ {l l1 c2 : pr.Cell → ℝ → ℝ}, ConcaveCells l l1 c2 → (∀ y : pr.Cell → ℝ, ((r0 :: l0).map fun r => w r * k.logProb y (pos r) (v r)).sum + K' = ∑ c, l c (y c)) →
      (∀ c t, 0 < cellSum (r0 :: l0) pos w c → c2 c t ≠ 0) →
      ∃ l l1 c2, ConcaveCells l l1 c2 ∧ (∀ θ, ((r0 :: l0).map fun r => w r * k.logProb (valCell pr val θ) (pos r) (v r)).sum + K = ∑ c, l c (valCell pr val θ c)) ∧
        ∀ c t, (∃ r ∈ r0 :: l0, pos r = c ∧ 0 < w r) → c2 c t ≠ 0 := by
    intro l l1 c2 h1 h2 h3
    refine ⟨_, l1, c2, cells_const h1 ((K - K') / (Finset.univ : Finset pr.Cell).card), fun θ => ?_, fun c t hs => h3 c t (cellSum_pos hw hs)⟩
    rw [Finset.sum_add_distrib, ← h2, Finset.sum_const, nsmul_eq_mul, mul_div_cancel₀ _ hcard]
    ring
  cases k with
  | poisson =>
    refine fin (cells_poisson (X := cellSum (r0 :: l0) pos fun r => w r * v r) hN) (fun y => ?_) fun c t h => (mul_pos h (Real.exp_pos t)).ne'
    rw [← hK]; rfl
  | logistic =>
    refine fin (cells_logistic (X := cellSum (r0 :: l0) pos fun r => w r * v r) hN) (fun y => ?_) fun c t h => (mul_pos h (by positivity)).ne'
    rw [← hK]
    simp only [Kind.logLike, Finset.sum_neg_distrib]
  | negativeBinomial r =>
    have hr : 0 < r := hv r0 (List.mem_cons_self ..)
    refine fin (cells_negativeBinomial (X := cellSum (r0 :: l0) pos fun r => w r * v r) (N := cellSum (r0 :: l0) pos w) hr fun c => add_nonneg (hX c) (mul_nonneg hr.le (hN c)))
      (fun y => ?_) fun c t h => (mul_pos (add_pos_of_nonneg_of_pos (hX c) (mul_pos hr h)) (by positivity)).ne'
    rw [← hK]; rfl
  | zeroInflatedPoisson s =>
    have hs : 0 < s := hv r0 (List.mem_cons_self ..)
    refine fin (cells_zeroInflatedPoisson (X := cellSum (r0 :: l0) pos fun r => w r * v r) (Z := cellSum (r0 :: l0) pos fun r => if v r = 0 then w r else 0) hs.le hN) (fun y => ?_)
      fun c t h => (mul_pos h (zip_curvature hs.le t).2).ne'
    rw [← hK]; rfl
  | finite d => exact hk.elim
  | normalizedFinite d => exact hk.elim

/-- **C76.** In these classes, when the Newton step of the next fit is zero the parameters of the object are the maximum (penalised) likelihood estimate of the observations: no
point that satisfies the constraints and has the same fixed entries gives the observations a larger probability, and if the data determine the parameters every other such
point gives them a smaller one. -/
theorem C76_estimate (k : Kind) (hk : k.IsConcave) (rows : List ρ) (pos : ρ → pr.Cell) (w : ρ → ℝ) (v : ρ → ℕ) (hv : ∀ r ∈ rows, k.Admits (v r)) (hw : ∀ r ∈ rows, 0 ≤ w r)
    (hne : rows ≠ []) {val : Val} {h : pr.Cell → ℝ} {x : pr.Cell → Nat → Nat → ℝ}
    (hS : Solver pr m (fun _ => True) M (fun θ => (rows.map fun r => w r * k.logProb (valCell pr val θ) (pos r) (v r)).sum + K) (linCons pr cs) (quadPens pr qs) T)
    (hy : LinearModel pr m (valCell pr val) h x) (hc : ∀ c ∈ cs, c.1.Nodup ∧ ∀ p ∈ c.1, p < m) (hq : ∀ q ∈ qs, q.1.Nodup ∧ (∀ p ∈ q.1, p < m) ∧ q.2.2 ≠ 0)
    {θ : Theta} {params : List (Param ℝ)} (hat : AtPoint pr m θ params) (hF : 1 ≤ totalFree params)
    {pinvh : List (List ℝ) → Except Err (List (List ℝ))} {tol : ℝ} {step l : List ℝ} {g : ℝ} {J : List (List ℝ)}
    (hstep : Fit.newtonStep (M.env pinvh tol) params = .ok (step, g, l, J)) (h0 : ∀ z ∈ step, z = 0) {θ' : Theta} (hf : Feasible pr params cs θ θ') :
    (rows.map fun r => w r * k.logProb (valCell pr val θ') (pos r) (v r)).sum - ((quadPens pr qs).map fun φ => φ.val θ').sum ≤
        (rows.map fun r => w r * k.logProb (valCell pr val θ) (pos r) (v r)).sum - ((quadPens pr qs).map fun φ => φ.val θ).sum ∧
      (WellPosed pr params cs qs x (fun c => ∃ r ∈ rows, pos r = c ∧ 0 < w r) →
        (rows.map fun r => w r * k.logProb (valCell pr val θ') (pos r) (v r)).sum - ((quadPens pr qs).map fun φ => φ.val θ').sum =
          (rows.map fun r => w r * k.logProb (valCell pr val θ) (pos r) (v r)).sum - ((quadPens pr qs).map fun φ => φ.val θ).sum →
        ∀ p < m, ∀ a < (pr.sizes p).prod, θ' p a = θ p a) := by
  have hP := C76_concave k hk rows pos w v hv hw hne hS hy hc hq
  obtain ⟨a1, a2⟩ := C70_global_maximum hP hat ((C68_step_zero_iff hS trivial hat hF hstep).1 h0) hf
  unfold penalised at a1 a2
  exact ⟨by linarith, fun hwp e => a2 hwp (by linarith)⟩

end

end Verif.Tens
