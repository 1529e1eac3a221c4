import Verif.Props.NewtonLocal
import Verif.Props.MaximumLikelihood

/-!
# C78: the classes whose fits converge near the maximum
-/

set_option linter.unusedSectionVars false

namespace Verif.Tens
open Verif.Params Verif.Prep

theorem regular_weights {ι : Type} {W : ι → ℝ} {u : ℝ → ℝ} (hu : Continuous u) (hp : ∀ t, u t ≠ 0) :
    (∀ c, Continuous fun t => W c * u t) ∧ ∀ c t t', W c * u t = 0 → W c * u t' = 0 :=
  ⟨fun c => hu.const_mul _, fun c t t' h => by rw [(mul_eq_zero.1 h).resolve_right (hp t), zero_mul]⟩

theorem regular_poisson {ι : Type} (N : ι → ℝ) : (∀ c, Continuous fun t => N c * Real.exp t) ∧ ∀ c t t', N c * Real.exp t = 0 → N c * Real.exp t' = 0 :=
  regular_weights Real.continuous_exp fun t => Real.exp_ne_zero t

theorem regular_logistic {ι : Type} (N : ι → ℝ) : (∀ c, Continuous fun t => N c * (Real.exp (-t) / (1 + Real.exp (-t)) ^ 2)) ∧
    ∀ c t t', N c * (Real.exp (-t) / (1 + Real.exp (-t)) ^ 2) = 0 → N c * (Real.exp (-t') / (1 + Real.exp (-t')) ^ 2) = 0 := by
  refine regular_weights (u := fun t => Real.exp (-t) / (1 + Real.exp (-t)) ^ 2) ?_ fun t => by positivity
  refine Continuous.div (by fun_prop) (by fun_prop) fun t => by positivity

theorem regular_negativeBinomial {ι : Type} (W : ι → ℝ) {r : ℝ} (hr : 0 < r) : (∀ c, Continuous fun t => W c * (r * Real.exp t / (r + Real.exp t) ^ 2)) ∧
    ∀ c t t', W c * (r * Real.exp t / (r + Real.exp t) ^ 2) = 0 → W c * (r * Real.exp t' / (r + Real.exp t') ^ 2) = 0 := by
  refine regular_weights (u := fun t => r * Real.exp t / (r + Real.exp t) ^ 2) ?_ fun t => by positivity
  refine Continuous.div (by fun_prop) (by fun_prop) fun t => by positivity

theorem regular_zeroInflatedPoisson {ι : Type} (N : ι → ℝ) {s : ℝ} (hs : 0 ≤ s) :
    (∀ c, Continuous fun t => N c * (Real.exp t * Real.exp (Real.exp t) * (Real.exp (Real.exp t) + (s - 1) * (1 + Real.exp t)) / (Real.exp (Real.exp t) + s - 1) ^ 2)) ∧
    ∀ c t t', N c * (Real.exp t * Real.exp (Real.exp t) * (Real.exp (Real.exp t) + (s - 1) * (1 + Real.exp t)) / (Real.exp (Real.exp t) + s - 1) ^ 2) = 0 →
      N c * (Real.exp t' * Real.exp (Real.exp t') * (Real.exp (Real.exp t') + (s - 1) * (1 + Real.exp t')) / (Real.exp (Real.exp t') + s - 1) ^ 2) = 0 := by
  refine regular_weights (u := fun t => Real.exp t * Real.exp (Real.exp t) * (Real.exp (Real.exp t) + (s - 1) * (1 + Real.exp t)) / (Real.exp (Real.exp t) + s - 1) ^ 2) ?_
    fun t => (zip_curvature hs t).2.ne'
  exact Continuous.div (by fun_prop) (by fun_prop) fun t => pow_ne_zero 2 (zip_curvature hs t).1.ne'

section
variable {pr : Problem} {ρ : Type} {K : ℝ}

/-- **C78.** The logarithm of the probability of the observations in the classes `Poisson`, `ZeroInflatedPoisson`, `Logistic` and `NegativeBinomial`, with weights that are not negative, is a sum of
concave functions of the numbers that the model calculates whose second derivatives are continuous and vanish everywhere or nowhere. -/
theorem C78_regular (k : Kind) (hk : k.IsConcave) (rows : List ρ) (pos : ρ → pr.Cell) (w : ρ → ℝ) (v : ρ → ℕ) (hv : ∀ r ∈ rows, k.Admits (v r)) (hw : ∀ r ∈ rows, 0 ≤ w r)
    (hne : rows ≠ []) (y : Theta → pr.Cell → ℝ) : RegularCells pr (fun θ => (rows.map fun r => w r * k.logProb (y θ) (pos r) (v r)).sum + K) y := by
  have hX : ∀ c, 0 ≤ cellSum rows pos (fun r => w r * v r) c := cellSum_nonneg fun r hr => mul_nonneg (hw r hr) (Nat.cast_nonneg _)
  have hN : ∀ c, 0 ≤ cellSum rows pos w c := cellSum_nonneg hw
  obtain ⟨r0, l0, rfl⟩ := List.exists_cons_of_ne_nil hne
  obtain ⟨K', hK⟩ := C75_aggregate k (r0 :: l0) pos w v hv (fun n => match n with
    | .X => cellSum (r0 :: l0) pos fun r => w r * v r
    | .N => cellSum (r0 :: l0) pos w
    | .Z => cellSum (r0 :: l0) pos fun r => if v r = 0 then w r else 0
    | .other _ => fun _ => 0) (fun _ _ => rfl) (fun _ => rfl) (fun _ _ => rfl)
  have hcard : ((Finset.univ : Finset pr.Cell).card : ℝ) ≠ 0 := Nat.cast_ne_zero.2 (Finset.card_ne_zero.2 ⟨pos r0, Finset.mem_univ _⟩)
  have fin : ∀ {l l1 c2 : pr.Cell → ℝ → ℝ}, ConcaveCells l l1 c2 → (∀ y : pr.Cell → ℝ, ((r0 :: l0).map fun r => w r * k.logProb y (pos r) (v r)).sum + K' = ∑ c, l c (y c)) →
      ((∀ c, Continuous (c2 c)) ∧ ∀ c t t', c2 c t = 0 → c2 c t' = 0) →
      RegularCells pr (fun θ => ((r0 :: l0).map fun r => w r * k.logProb (y θ) (pos r) (v r)).sum + K) y := by
    intro l l1 c2 h1 h2 h3
    refine ⟨_, l1, c2, cells_const h1 ((K - K') / (Finset.univ : Finset pr.Cell).card), fun θ => ?_, h3.1, h3.2⟩
    rw [Finset.sum_add_distrib, ← h2, Finset.sum_const, nsmul_eq_mul, mul_div_cancel₀ _ hcard]
    ring
  cases k with
  | poisson =>
    refine fin (cells_poisson (X := cellSum (r0 :: l0) pos fun r => w r * v r) hN) (fun y => ?_) (regular_poisson _)
    rw [← hK]; rfl
  | logistic =>
    refine fin (cells_logistic (X := cellSum (r0 :: l0) pos fun r => w r * v r) hN) (fun y => ?_) (regular_logistic _)
    rw [← hK]
    simp only [Kind.logLike, Finset.sum_neg_distrib]
  | negativeBinomial r =>
    have hr : 0 < r := hv r0 (List.mem_cons_self ..)
    refine fin (cells_negativeBinomial (X := cellSum (r0 :: l0) pos fun r => w r * v r) (N := cellSum (r0 :: l0) pos w) hr fun c => add_nonneg (hX c) (mul_nonneg hr.le (hN c)))
      (fun y => ?_) (regular_negativeBinomial _ hr)
    rw [← hK]; rfl
  | zeroInflatedPoisson s =>
    have hs : 0 < s := hv r0 (List.mem_cons_self ..)
    refine fin (cells_zeroInflatedPoisson (X := cellSum (r0 :: l0) pos fun r => w r * v r) (Z := cellSum (r0 :: l0) pos fun r => if v r = 0 then w r else 0) hs.le hN) (fun y => ?_)
      (regular_zeroInflatedPoisson _ hs.le)
    rw [← hK]; rfl
  | finite d => exact hk.elim
  | normalizedFinite d => exact hk.elim

end

end Verif.Tens
