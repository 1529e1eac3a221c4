import Verif.Model.Likelihood
import Verif.Spec.Calculus
import Verif.Spec.Flat
import Mathlib.Analysis.SpecialFunctions.Log.Deriv
import Mathlib.Analysis.SpecialFunctions.ExpDeriv
import Mathlib.Analysis.Calculus.Deriv.Inv
import Mathlib.Algebra.BigOperators.Ring.Finset
import Mathlib.Tactic.FieldSimp
import Mathlib.Tactic.Positivity

/-!
# C19 - C22: likelihoods
-/

namespace Verif.Like
set_option linter.unusedSectionVars false
open Finset

variable {ι κ υ : Type} [Fintype ι] [Fintype κ] [Fintype υ]

/-- Derivative of a sum over cells of a kernel of the model value. -/
theorem sum_kernel (ℓ : ι → ℝ → ℝ) (δ : ι → ℝ) (y : ℝ → ι → ℝ) (d : ι → ℝ) (t : ℝ)
    (hℓ : ∀ k, HasDerivAt (ℓ k) (δ k) (y t k)) (hy : ∀ k, HasDerivAt (fun s => y s k) (d k) t) :
    HasDerivAt (fun s => ∑ k, ℓ k (y s k)) (∑ k, d k * δ k) t := by
  apply HasDerivAt.fun_sum
  intro k _
  have := (hℓ k).comp t (hy k)
  rw [mul_comm] at this
  exact this

theorem sum_kernel2 (δ : ι → ℝ → ℝ) (δ2 : ι → ℝ) (y : ℝ → ι → ℝ) (d e : ι → ℝ) (D : ℝ → ι → ℝ)
    (h : ι → ℝ) (t : ℝ) (hδ : ∀ k, HasDerivAt (δ k) (-δ2 k) (y t k))
    (hy : ∀ k, HasDerivAt (fun s => y s k) (e k) t)
    (hD : ∀ k, HasDerivAt (fun s => D s k) (h k) t) (hDt : ∀ k, D t k = d k) :
    HasDerivAt (fun s => ∑ k, D s k * δ k (y s k))
      (∑ k, (h k * δ k (y t k) - d k * e k * δ2 k)) t := by
  apply HasDerivAt.fun_sum
  intro k _
  have h1 := (hD k).mul ((hδ k).comp t (hy k))
  have h2 : h k * δ k (y t k) - d k * e k * δ2 k =
      h k * (δ k ∘ fun s => y s k) t + D t k * (-δ2 k * e k) := by
    rw [hDt k]; simp only [Function.comp]; ring
  rw [h2]
  exact h1

/-- Hypotheses on the model shared by C19: `der` is the derivative of the model values with respect
to entry `a` of parameter `i` at `θ`. -/
def ModelDer (model : Theta → ι → ℝ) (der : Der ι) (θ : Theta) (i a : Nat) : Prop :=
  ∀ k, HasPartial (fun θ => model θ k) θ i a (der i a k)

/-- Hypothesis of C20: `hess` is the derivative of `der i a` with respect to entry `b` of parameter
`j`. -/
def ModelHess (der : Theta → Der ι) (hess : Hess ι) (θ : Theta) (i j a b : Nat) : Prop :=
  ∀ k, HasPartial (fun θ => der θ i a k) θ j b (hess i j a b k)

/-! ### Kernels -/

theorem poisson_k1 (x n y : ℝ) (c : ℝ) : HasDerivAt (fun y => x * y - n * Real.exp y - c)
    (x - n * Real.exp y) y := by
  have := (((hasDerivAt_id y).const_mul x).sub ((Real.hasDerivAt_exp y).const_mul n)).sub_const c
  simpa using this

theorem poisson_k2 (x n y : ℝ) : HasDerivAt (fun y => x - n * Real.exp y) (-(n * Real.exp y)) y := by
  simpa using ((Real.hasDerivAt_exp y).const_mul n).const_sub x

theorem zip_pos (s y : ℝ) (hs : 0 ≤ s) : 0 < Real.exp (Real.exp y) + s - 1 := by
  have h1 : 1 < Real.exp (Real.exp y) := by
    rw [← Real.exp_zero]; exact Real.exp_lt_exp.mpr (Real.exp_pos y)
  linarith

theorem zip_pos' (s y : ℝ) (hs : 0 ≤ s) : 0 < 1 + (s - 1) * Real.exp (-Real.exp y) := by
  have h := zip_pos s y hs
  have h2 : 1 + (s - 1) * Real.exp (-Real.exp y) =
      (Real.exp (Real.exp y) + s - 1) * Real.exp (-Real.exp y) := by
    have : Real.exp (Real.exp y) * Real.exp (-Real.exp y) = 1 := by
      rw [← Real.exp_add]; simp
    linear_combination -this
  rw [h2]
  exact mul_pos h (Real.exp_pos _)

theorem zip_k1 (s x n z y c : ℝ) (hs : 0 ≤ s) :
    HasDerivAt (fun y => x * y + z - n * Real.log (Real.exp (Real.exp y) + s - 1) - c)
      (x - n * Real.exp y / (1 + (s - 1) * Real.exp (-Real.exp y))) y := by
  have h := zip_pos s y hs
  have h' := zip_pos' s y hs
  have hlog := (((Real.hasDerivAt_exp y).exp.add_const s).sub_const 1).log (ne_of_gt h)
  have := ((((hasDerivAt_id y).const_mul x).add_const z).sub (hlog.const_mul n)).sub_const c
  refine HasDerivAt.congr_deriv this ?_
  simp only [mul_one]
  congr 1
  symm
  have e : Real.exp (-Real.exp y) = (Real.exp (Real.exp y))⁻¹ := Real.exp_neg _
  rw [e] at h' ⊢
  have hp := Real.exp_pos (Real.exp y)
  rw [mul_div_assoc]
  congr 1
  rw [div_eq_div_iff (ne_of_gt h') (ne_of_gt h)]
  field_simp
  ring

theorem zip_k2 (s x n y : ℝ) (hs : 0 ≤ s) :
    HasDerivAt (fun y => x - n * Real.exp y / (1 + (s - 1) * Real.exp (-Real.exp y)))
      (-(n * ZeroInflatedPoisson.tOf s y *
        (1 + ZeroInflatedPoisson.tOf s y * (s - 1) * Real.exp (-Real.exp y)))) y := by
  have h' := zip_pos' s y hs
  have hden := (((Real.hasDerivAt_exp y).fun_neg.exp.const_mul (s - 1)).const_add 1)
  have := (((Real.hasDerivAt_exp y).const_mul n).div hden (ne_of_gt h')).const_sub x
  refine HasDerivAt.congr_deriv this ?_
  unfold ZeroInflatedPoisson.tOf
  symm
  congr 1
  generalize hE : Real.exp (-Real.exp y) = E at *
  have h0 := ne_of_gt h'
  field_simp
  ring

theorem logistic_k1 (x n y : ℝ) :
    HasDerivAt (fun y => -(n * Real.log (1 + Real.exp (-y)) + (n - x) * y))
      (x - n / (1 + Real.exp (-y))) y := by
  have hp : 0 < 1 + Real.exp (-y) := by positivity
  have hlog := ((hasDerivAt_id y).fun_neg.exp.const_add 1).log (ne_of_gt hp)
  have := ((hlog.const_mul n).add ((hasDerivAt_id y).const_mul (n - x))).fun_neg
  refine HasDerivAt.congr_deriv this ?_
  simp only [id, mul_one]
  field_simp
  ring

theorem logistic_k2 (x n y : ℝ) : HasDerivAt (fun y => x - n / (1 + Real.exp (-y)))
    (-(1 / (1 + Real.exp (-y)) * (1 - 1 / (1 + Real.exp (-y))) * n)) y := by
  have hp : 0 < 1 + Real.exp (-y) := by positivity
  have hden := ((hasDerivAt_id y).fun_neg.exp.const_add 1)
  have := ((hasDerivAt_const y n).div hden (ne_of_gt hp)).const_sub x
  refine HasDerivAt.congr_deriv this ?_
  simp only [id]
  field_simp
  ring

theorem negbin_k1 (r x n y c : ℝ) (hr : 0 < r) :
    HasDerivAt (fun y => c + x * y - (x + r * n) * Real.log (r + Real.exp y))
      (x - (x + r * n) * Real.exp y / (Real.exp y + r)) y := by
  have hp : 0 < r + Real.exp y := by positivity
  have hlog := ((Real.hasDerivAt_exp y).const_add r).log (ne_of_gt hp)
  have := (((hasDerivAt_id y).const_mul x).const_add c).sub (hlog.const_mul (x + r * n))
  refine HasDerivAt.congr_deriv this ?_
  simp only [mul_one]
  rw [add_comm (Real.exp y) r]
  ring

theorem negbin_k2 (r x n y : ℝ) (hr : 0 < r) :
    HasDerivAt (fun y => x - (x + r * n) * Real.exp y / (Real.exp y + r))
      (-(-((x + r * n) * NegativeBinomial.sOf r y * NegativeBinomial.sOf r y - x +
        (x - (x + r * n) * NegativeBinomial.sOf r y)))) y := by
  have hp : 0 < Real.exp y + r := by positivity
  have := (((Real.hasDerivAt_exp y).const_mul (x + r * n)).div
    ((Real.hasDerivAt_exp y).add_const r) (ne_of_gt hp)).const_sub x
  refine HasDerivAt.congr_deriv this ?_
  unfold NegativeBinomial.sOf
  field_simp
  ring

/-! ### C19 -/

theorem C19_poisson (X N : ι → ℝ) (model : Theta → ι → ℝ) (der : Der ι) (θ : Theta) (i a : Nat)
    (hd : ModelDer model der θ i a) :
    HasPartial (fun θ => Poisson.like X N (model θ)) θ i a
      (Poisson.gradLike X N (model θ) der i a) := by
  have := sum_kernel (fun k y => X k * y - N k * Real.exp y - gammaln (X k + 1))
    (fun k => X k - N k * Real.exp (model θ k)) (fun t => model (θ.set i a t)) (der i a) (θ i a)
    (fun k => by simp only [Theta.set_self]; exact poisson_k1 _ _ _ _) hd
  exact this

theorem C19_zeroInflatedPoisson (s : ℝ) (hs : 0 ≤ s) (X N Z : ι → ℝ) (model : Theta → ι → ℝ)
    (der : Der ι) (θ : Theta) (i a : Nat) (hd : ModelDer model der θ i a) :
    HasPartial (fun θ => ZeroInflatedPoisson.like s X N Z (model θ)) θ i a
      (ZeroInflatedPoisson.gradLike s X N (model θ) der i a) := by
  have := sum_kernel (fun k y => X k * y + Z k * Real.log s -
      N k * Real.log (Real.exp (Real.exp y) + s - 1) - gammaln (X k + 1))
    (fun k => X k - N k * Real.exp (model θ k) / (1 + (s - 1) * Real.exp (-Real.exp (model θ k))))
    (fun t => model (θ.set i a t)) (der i a) (θ i a)
    (fun k => by simp only [Theta.set_self]; exact zip_k1 _ _ _ _ _ _ hs) hd
  exact this

theorem C19_logistic (X N : ι → ℝ) (model : Theta → ι → ℝ) (der : Der ι) (θ : Theta) (i a : Nat)
    (hd : ModelDer model der θ i a) :
    HasPartial (fun θ => Logistic.like X N (model θ)) θ i a
      (Logistic.gradLike X N (model θ) der i a) := by
  have := sum_kernel (fun k y => -(N k * Real.log (1 + Real.exp (-y)) + (N k - X k) * y))
    (fun k => X k - N k / (1 + Real.exp (-model θ k))) (fun t => model (θ.set i a t)) (der i a)
    (θ i a) (fun k => by simp only [Theta.set_self]; exact logistic_k1 _ _ _) hd
  simp only [sum_neg_distrib] at this
  exact this

theorem C19_negativeBinomial (r : ℝ) (hr : 0 < r) (X N : ι → ℝ) (model : Theta → ι → ℝ)
    (der : Der ι) (θ : Theta) (i a : Nat) (hd : ModelDer model der θ i a) :
    HasPartial (fun θ => NegativeBinomial.like r X N (model θ)) θ i a
      (NegativeBinomial.gradLike r X N (model θ) der i a) := by
  have := sum_kernel (fun k y => gammaln (X k + r) - gammaln (X k + 1) + r * Real.log r - gammaln r
      + X k * y - (X k + r * N k) * Real.log (r + Real.exp y))
    (fun k => X k - (X k + r * N k) * Real.exp (model θ k) / (Real.exp (model θ k) + r))
    (fun t => model (θ.set i a t)) (der i a) (θ i a)
    (fun k => by simp only [Theta.set_self]; exact negbin_k1 _ _ _ _ _ hr) hd
  exact this

theorem C19_normalizedFinite (N : κ × υ → ℝ) (model : Theta → κ × υ → ℝ) (der : Der (κ × υ))
    (θ : Theta) (i a : Nat) (hpos : ∀ c, 0 < model θ c) (hd : ModelDer model der θ i a) :
    HasPartial (fun θ => NormalizedFinite.like N (model θ)) θ i a
      (NormalizedFinite.gradLike N (model θ) der i a) := by
  unfold HasPartial NormalizedFinite.like NormalizedFinite.gradLike
  apply HasDerivAt.fun_sum
  intro c _
  have h := (hd c).log (by rw [Theta.set_self]; exact ne_of_gt (hpos c))
  have := h.const_mul (N c)
  refine HasDerivAt.congr_deriv this ?_
  simp only [Theta.set_self]; ring

theorem sumDim_pos (y : κ × υ → ℝ) (hpos : ∀ c, 0 < y c) (c : κ × υ) :
    0 < Finite.sumDim y c.1 :=
  sum_pos (fun u _ => hpos (c.1, u)) ⟨c.2, mem_univ _⟩

theorem hasDeriv_sumDim (f : ℝ → κ × υ → ℝ) (d : κ × υ → ℝ) (t : ℝ)
    (h : ∀ c, HasDerivAt (fun s => f s c) (d c) t) (k : κ) :
    HasDerivAt (fun s => Finite.sumDim (f s) k) (Finite.sumDim d k) t :=
  HasDerivAt.fun_sum fun u _ => h (k, u)

theorem C19_finite (N : κ × υ → ℝ) (model : Theta → κ × υ → ℝ) (der : Der (κ × υ))
    (θ : Theta) (i a : Nat) (hpos : ∀ c, 0 < model θ c) (hd : ModelDer model der θ i a) :
    HasPartial (fun θ => Finite.like N (model θ)) θ i a
      (Finite.gradLike N (model θ) der i a) := by
  unfold HasPartial Finite.like Finite.gradLike
  apply HasDerivAt.fun_sum
  intro c _
  have hz := hasDeriv_sumDim (fun t => model (θ.set i a t)) (der i a) (θ i a) hd c.1
  have h1 := (hd c).log (by rw [Theta.set_self]; exact ne_of_gt (hpos c))
  have h2 := hz.log (by rw [Theta.set_self]; exact ne_of_gt (sumDim_pos _ hpos c))
  have := (h1.sub h2).const_mul (N c)
  refine HasDerivAt.congr_deriv this ?_
  simp only [Theta.set_self]

/-! ### C20

`der` (a function of the parameters) is the derivative of the model values with respect to the second
entry `(j, b)`, and `hess` the derivative of `der i a` with respect to it; then `hess_like` is the
derivative of `grad_like`, i.e. (with C19) the mixed second derivative of `like`. -/

theorem C20_poisson (X N : ι → ℝ) (model : Theta → ι → ℝ) (der : Theta → Der ι) (hess : Hess ι)
    (θ : Theta) (i j a b : Nat) (hd : ModelDer model (der θ) θ j b)
    (hh : ModelHess der hess θ i j a b) :
    HasPartial (fun θ => Poisson.gradLike X N (model θ) (der θ) i a) θ j b
      (Poisson.hessLike X N (model θ) (der θ) hess i j a b) := by
  have := sum_kernel2 (fun k y => X k - N k * Real.exp y) (fun k => N k * Real.exp (model θ k))
    (fun t => model (θ.set j b t)) (der θ i a) (der θ j b) (fun t => der (θ.set j b t) i a)
    (hess i j a b) (θ j b)
    (fun k => by simp only [Theta.set_self]; exact poisson_k2 _ _ _) hd hh
    (fun k => by rw [Theta.set_self])
  simp only [Theta.set_self] at this
  exact this

theorem C20_zeroInflatedPoisson (s : ℝ) (hs : 0 ≤ s) (X N : ι → ℝ) (model : Theta → ι → ℝ)
    (der : Theta → Der ι) (hess : Hess ι) (θ : Theta) (i j a b : Nat)
    (hd : ModelDer model (der θ) θ j b) (hh : ModelHess der hess θ i j a b) :
    HasPartial (fun θ => ZeroInflatedPoisson.gradLike s X N (model θ) (der θ) i a) θ j b
      (ZeroInflatedPoisson.hessLike s X N (model θ) (der θ) hess i j a b) := by
  have := sum_kernel2
    (fun k y => X k - N k * Real.exp y / (1 + (s - 1) * Real.exp (-Real.exp y)))
    (fun k => N k * ZeroInflatedPoisson.tOf s (model θ k) *
        (1 + ZeroInflatedPoisson.tOf s (model θ k) * (s - 1) * Real.exp (-Real.exp (model θ k))))
    (fun t => model (θ.set j b t)) (der θ i a) (der θ j b) (fun t => der (θ.set j b t) i a)
    (hess i j a b) (θ j b)
    (fun k => by simp only [Theta.set_self]; exact zip_k2 _ _ _ _ hs) hd hh
    (fun k => by rw [Theta.set_self])
  simp only [Theta.set_self] at this
  refine HasDerivAt.congr_deriv this ?_
  unfold ZeroInflatedPoisson.hessLike hessSum
  symm
  apply sum_congr rfl
  intro k _
  simp only [ZeroInflatedPoisson.tOf, mul_div_assoc]

theorem C20_logistic (X N : ι → ℝ) (model : Theta → ι → ℝ) (der : Theta → Der ι) (hess : Hess ι)
    (θ : Theta) (i j a b : Nat) (hd : ModelDer model (der θ) θ j b)
    (hh : ModelHess der hess θ i j a b) :
    HasPartial (fun θ => Logistic.gradLike X N (model θ) (der θ) i a) θ j b
      (Logistic.hessLike X N (model θ) (der θ) hess i j a b) := by
  have := sum_kernel2 (fun k y => X k - N k / (1 + Real.exp (-y)))
    (fun k => 1 / (1 + Real.exp (-model θ k)) * (1 - 1 / (1 + Real.exp (-model θ k))) * N k)
    (fun t => model (θ.set j b t)) (der θ i a) (der θ j b) (fun t => der (θ.set j b t) i a)
    (hess i j a b) (θ j b)
    (fun k => by simp only [Theta.set_self]; exact logistic_k2 _ _ _) hd hh
    (fun k => by rw [Theta.set_self])
  simp only [Theta.set_self] at this
  refine HasDerivAt.congr_deriv this ?_
  unfold Logistic.hessLike hessSum Logistic.p
  symm
  apply sum_congr rfl
  intro k _
  dsimp only
  ring

theorem C20_negativeBinomial (r : ℝ) (hr : 0 < r) (X N : ι → ℝ) (model : Theta → ι → ℝ)
    (der : Theta → Der ι) (hess : Hess ι) (θ : Theta) (i j a b : Nat)
    (hd : ModelDer model (der θ) θ j b) (hh : ModelHess der hess θ i j a b) :
    HasPartial (fun θ => NegativeBinomial.gradLike r X N (model θ) (der θ) i a) θ j b
      (NegativeBinomial.hessLike r X N (model θ) (der θ) hess i j a b) := by
  have := sum_kernel2 (fun k y => X k - (X k + r * N k) * Real.exp y / (Real.exp y + r))
    (fun k => -((X k + r * N k) * NegativeBinomial.sOf r (model θ k) *
        NegativeBinomial.sOf r (model θ k) - X k +
        (X k - (X k + r * N k) * NegativeBinomial.sOf r (model θ k))))
    (fun t => model (θ.set j b t)) (der θ i a) (der θ j b) (fun t => der (θ.set j b t) i a)
    (hess i j a b) (θ j b)
    (fun k => by simp only [Theta.set_self]; exact negbin_k2 _ _ _ _ hr) hd hh
    (fun k => by rw [Theta.set_self])
  simp only [Theta.set_self] at this
  refine HasDerivAt.congr_deriv this ?_
  unfold NegativeBinomial.hessLike
  apply sum_congr rfl
  intro k _
  simp only [NegativeBinomial.sOf, mul_div_assoc]
  ring

theorem C20_normalizedFinite (N : κ × υ → ℝ) (model : Theta → κ × υ → ℝ)
    (der : Theta → Der (κ × υ)) (hess : Hess (κ × υ)) (θ : Theta) (i j a b : Nat)
    (hpos : ∀ c, 0 < model θ c) (hd : ModelDer model (der θ) θ j b)
    (hh : ModelHess der hess θ i j a b) :
    HasPartial (fun θ => NormalizedFinite.gradLike N (model θ) (der θ) i a) θ j b
      (NormalizedFinite.hessLike N (model θ) (der θ) hess i j a b) := by
  unfold HasPartial NormalizedFinite.gradLike NormalizedFinite.hessLike
  apply HasDerivAt.fun_sum
  intro c _
  have hp := ne_of_gt (hpos c)
  have := ((hh c).const_mul (N c)).div (hd c) (by rw [Theta.set_self]; exact hp)
  refine HasDerivAt.congr_deriv this ?_
  simp only [Theta.set_self]
  field_simp

theorem C20_finite (N : κ × υ → ℝ) (model : Theta → κ × υ → ℝ)
    (der : Theta → Der (κ × υ)) (hess : Hess (κ × υ)) (θ : Theta) (i j a b : Nat)
    (hpos : ∀ c, 0 < model θ c) (hd : ModelDer model (der θ) θ j b)
    (hh : ModelHess der hess θ i j a b) :
    HasPartial (fun θ => Finite.gradLike N (model θ) (der θ) i a) θ j b
      (Finite.hessLike N (model θ) (der θ) hess i j a b) := by
  unfold HasPartial Finite.gradLike Finite.hessLike
  apply HasDerivAt.fun_sum
  intro c _
  have hp := ne_of_gt (hpos c)
  have hq := ne_of_gt (sumDim_pos _ hpos c)
  have hz := hasDeriv_sumDim (fun t => model (θ.set j b t)) (der θ j b) (θ j b) hd c.1
  have hdz := hasDeriv_sumDim (fun t => der (θ.set j b t) i a) (hess i j a b) (θ j b) hh c.1
  have h1 := (hh c).div (hd c) (by rw [Theta.set_self]; exact hp)
  have h2 := hdz.div hz (by rw [Theta.set_self]; exact hq)
  have := (h1.sub h2).const_mul (N c)
  refine HasDerivAt.congr_deriv this ?_
  simp only [Theta.set_self]
  field_simp

/-- A concrete model meeting the hypotheses of C19 and C20: one cell with value
`exp(θ00 * θ01)`. -/
noncomputable def exModel : Theta → Unit → ℝ := fun θ _ => Real.exp (θ 0 0 * θ 0 1)

noncomputable def exDer : Theta → Der Unit := fun θ i a _ =>
  if i = 0 ∧ a = 0 then Real.exp (θ 0 0 * θ 0 1) * θ 0 1
  else if i = 0 ∧ a = 1 then Real.exp (θ 0 0 * θ 0 1) * θ 0 0 else 0

example (θ : Theta) : ModelDer exModel (exDer θ) θ 0 1 ∧
    ModelHess exDer (fun _ _ _ _ _ => Real.exp (θ 0 0 * θ 0 1) * θ 0 0 * θ 0 1 +
      Real.exp (θ 0 0 * θ 0 1)) θ 0 0 0 1 ∧ (∀ c, 0 < exModel θ c) := by
  have h0 : HasDerivAt (fun t => Real.exp (θ 0 0 * t)) (Real.exp (θ 0 0 * θ 0 1) * θ 0 0)
      (θ 0 1) := by
    have := ((hasDerivAt_id (θ 0 1)).const_mul (θ 0 0)).exp
    simpa using this
  refine ⟨?_, ?_, fun c => Real.exp_pos _⟩
  · intro k
    unfold HasPartial exModel exDer
    simpa [Theta.set] using h0
  · intro k
    unfold HasPartial exDer
    have := h0.fun_mul (hasDerivAt_id (θ 0 1))
    simpa [Theta.set] using this

/-! ## C21 -/

/-- The quadratic form of a Hessian returned as lower-triangular blocks (`H i j a b`, `j <= i`; the
upper triangle is the transpose), in direction `v`, over the parameter entries `S`. -/
def quadForm (S : Finset (Nat × Nat)) (H : Nat → Nat → Nat → Nat → ℝ) (v : Nat × Nat → ℝ) : ℝ :=
  ∑ p ∈ S, ∑ q ∈ S, v p * v q * Verif.Flat.symBlocks H p.1 q.1 p.2 q.2

theorem quadForm_linear (S : Finset (Nat × Nat)) (der : Der ι) (w : ι → ℝ) (v : Nat × Nat → ℝ)
    (H : Nat → Nat → Nat → Nat → ℝ)
    (hH : ∀ i j a b, H i j a b = -∑ k, der i a k * der j b k * w k) :
    quadForm S H v = -∑ k, w k * (∑ p ∈ S, v p * der p.1 p.2 k) ^ 2 := by
  have hs : ∀ p q : Nat × Nat, Verif.Flat.symBlocks H p.1 q.1 p.2 q.2 =
      -∑ k, der p.1 p.2 k * der q.1 q.2 k * w k := by
    intro p q
    unfold Verif.Flat.symBlocks
    split
    · exact hH _ _ _ _
    · rw [hH]
      congr 1
      apply sum_congr rfl
      intro k _
      ring
  unfold quadForm
  simp only [hs, pow_two, mul_sum, mul_neg, sum_neg_distrib]
  congr 1
  have h1 : ∀ p : Nat × Nat, (∑ q ∈ S, ∑ k : ι, v p * v q * (der p.1 p.2 k * der q.1 q.2 k * w k)) =
      ∑ k : ι, ∑ q ∈ S, v p * v q * (der p.1 p.2 k * der q.1 q.2 k * w k) := fun p => sum_comm
  simp only [h1]
  rw [sum_comm]
  apply sum_congr rfl
  intro k _
  apply sum_congr rfl
  intro p _
  rw [sum_mul, mul_sum]
  apply sum_congr rfl
  intro q _
  ring

theorem hessSum_linear (der : Der ι) (hess : Hess ι) (hlin : ∀ i j a b k, hess i j a b k = 0)
    (delta delta2 : ι → ℝ) (i j a b : Nat) :
    hessSum der hess delta delta2 i j a b = -∑ k, der i a k * der j b k * delta2 k := by
  unfold hessSum
  rw [← sum_neg_distrib]
  apply sum_congr rfl
  intro k _
  rw [hlin]; ring

theorem quadForm_nonpos (S : Finset (Nat × Nat)) (der : Der ι) (w : ι → ℝ) (hw : ∀ k, 0 ≤ w k)
    (v : Nat × Nat → ℝ) (H : Nat → Nat → Nat → Nat → ℝ)
    (hH : ∀ i j a b, H i j a b = -∑ k, der i a k * der j b k * w k) : quadForm S H v ≤ 0 := by
  rw [quadForm_linear S der w v H hH, neg_nonpos]
  exact sum_nonneg fun k _ => mul_nonneg (hw k) (sq_nonneg _)

/-- C21 for Poisson: a model linear in the parameters has `hess = 0`; then the Hessian is negative
semidefinite at every point, for every set of parameter entries and direction. -/
theorem C21_poisson_concave (X N : ι → ℝ) (hN : ∀ k, 0 ≤ N k) (y : ι → ℝ) (der : Der ι)
    (hess : Hess ι) (hlin : ∀ i j a b k, hess i j a b k = 0) (S : Finset (Nat × Nat))
    (v : Nat × Nat → ℝ) : quadForm S (Poisson.hessLike X N y der hess) v ≤ 0 :=
  quadForm_nonpos S der _ (fun k => mul_nonneg (hN k) (Real.exp_pos _).le) v _
    (fun i j a b => hessSum_linear der hess hlin _ _ i j a b)

theorem C21_logistic_concave (X N : ι → ℝ) (hN : ∀ k, 0 ≤ N k) (y : ι → ℝ) (der : Der ι)
    (hess : Hess ι) (hlin : ∀ i j a b k, hess i j a b k = 0) (S : Finset (Nat × Nat))
    (v : Nat × Nat → ℝ) : quadForm S (Logistic.hessLike X N y der hess) v ≤ 0 := by
  refine quadForm_nonpos S der _ (fun k => ?_) v _
    (fun i j a b => hessSum_linear der hess hlin _ _ i j a b)
  have h1 : 0 < 1 + Real.exp (-y k) := by positivity
  have h2 : 1 / (1 + Real.exp (-y k)) ≤ 1 := by
    rw [div_le_one h1]; linarith [Real.exp_pos (-y k)]
  have h3 : 0 ≤ 1 / (1 + Real.exp (-y k)) := by positivity
  exact mul_nonneg (mul_nonneg h3 (by unfold Logistic.p; linarith)) (hN k)

theorem C21_negativeBinomial_concave (r : ℝ) (hr : 0 < r) (X N : ι → ℝ) (hX : ∀ k, 0 ≤ X k)
    (hN : ∀ k, 0 ≤ N k) (y : ι → ℝ) (der : Der ι) (hess : Hess ι)
    (hlin : ∀ i j a b k, hess i j a b k = 0) (S : Finset (Nat × Nat)) (v : Nat × Nat → ℝ) :
    quadForm S (NegativeBinomial.hessLike r X N y der hess) v ≤ 0 := by
  refine quadForm_nonpos S der (fun k => (X k + r * N k) *
    (NegativeBinomial.sOf r (y k) * (1 - NegativeBinomial.sOf r (y k)))) (fun k => ?_) v _ ?_
  · have hp := Real.exp_pos (y k)
    have h1 : 0 ≤ NegativeBinomial.sOf r (y k) := by unfold NegativeBinomial.sOf; positivity
    have h2 : NegativeBinomial.sOf r (y k) ≤ 1 := by
      unfold NegativeBinomial.sOf
      rw [div_le_one (by positivity)]; linarith
    exact mul_nonneg (add_nonneg (hX k) (mul_nonneg hr.le (hN k)))
      (mul_nonneg h1 (by linarith))
  · intro i j a b
    unfold NegativeBinomial.hessLike
    rw [← sum_neg_distrib]
    apply sum_congr rfl
    intro k _
    rw [hlin]; ring

/-- Beyond the statement of C21: zero inflated Poisson with `s >= 1`. -/
theorem C21_zeroInflatedPoisson_concave (s : ℝ) (hs : 1 ≤ s) (X N : ι → ℝ) (hN : ∀ k, 0 ≤ N k)
    (y : ι → ℝ) (der : Der ι) (hess : Hess ι) (hlin : ∀ i j a b k, hess i j a b k = 0)
    (S : Finset (Nat × Nat)) (v : Nat × Nat → ℝ) :
    quadForm S (ZeroInflatedPoisson.hessLike s X N y der hess) v ≤ 0 := by
  refine quadForm_nonpos S der _ (fun k => ?_) v _
    (fun i j a b => hessSum_linear der hess hlin _ _ i j a b)
  have h1 := zip_pos' s (y k) (by linarith)
  have h2 : 0 ≤ ZeroInflatedPoisson.tOf s (y k) :=
    div_nonneg (Real.exp_pos _).le h1.le
  have h3 : 0 ≤ s - 1 := by linarith
  have h4 := Real.exp_pos (-Real.exp (y k))
  exact mul_nonneg (mul_nonneg (hN k) h2) (by positivity)

/-- The linear model `y = θ00 + 2 θ01` on one cell: `der` constant and `hess = 0`; the form is
strictly negative in some direction. -/
example : ∃ (der : Der Unit) (v : Nat × Nat → ℝ),
    ModelDer (fun θ _ => θ 0 0 + 2 * θ 0 1) der (fun _ _ => 0) 0 1 ∧
    quadForm {(0, 0), (0, 1)} (Poisson.hessLike (fun _ : Unit => 3) (fun _ => 2) (fun _ => 0) der
      (fun _ _ _ _ _ => 0)) v < 0 := by
  refine ⟨fun _ a _ => if a = 0 then 1 else 2, fun _ => 1, ?_, ?_⟩
  · intro k
    unfold HasPartial
    have := (((hasDerivAt_id (0 : ℝ)).const_mul 2).const_add 0)
    simpa [Theta.set] using this
  · rw [quadForm_linear _ (fun _ a _ => if a = 0 then 1 else 2) (fun _ => 2 * Real.exp 0) _ _
      (fun i j a b => hessSum_linear _ _ (fun _ _ _ _ _ => rfl) _ _ i j a b)]
    simp
    norm_num

/-! ## C22 -/

/-- C22: multiplying the (positive) values of every feature cell by a positive factor of that cell
does not change `Finite.like`. -/
theorem C22_finite_scale_invariant (N y : κ × υ → ℝ) (hy : ∀ c, 0 < y c) (f : κ → ℝ)
    (hf : ∀ k, 0 < f k) : Finite.like N (fun c => f c.1 * y c) = Finite.like N y := by
  unfold Finite.like
  apply sum_congr rfl
  intro c _
  have hs : Finite.sumDim (fun c => f c.1 * y c) c.1 = f c.1 * Finite.sumDim y c.1 := by
    unfold Finite.sumDim; rw [mul_sum]
  rw [hs, Real.log_mul (ne_of_gt (hf _)) (ne_of_gt (hy _)),
    Real.log_mul (ne_of_gt (hf _)) (ne_of_gt (sumDim_pos y hy c))]
  ring

/-- C22: `Finite.like` is `NormalizedFinite.like` of the normalised values (which sum to one in each
cell). -/
theorem C22_finite_normalized (N y : κ × υ → ℝ) (hy : ∀ c, 0 < y c) :
    Finite.like N y = NormalizedFinite.like N (fun c => y c / ∑ u, y (c.1, u)) ∧
    ∀ k, Nonempty υ → ∑ u, y (k, u) / (∑ u', y (k, u')) = 1 := by
  constructor
  · unfold Finite.like NormalizedFinite.like
    apply sum_congr rfl
    intro c _
    have := Real.log_div (ne_of_gt (hy c)) (ne_of_gt (sumDim_pos y hy c))
    rw [← this]
    rfl
  · rintro k ⟨u⟩
    rw [← sum_div, div_self]
    exact ne_of_gt (sumDim_pos y hy (k, u))

example : ∃ (y : Fin 2 × Fin 3 → ℝ) (f : Fin 2 → ℝ), (∀ c, 0 < y c) ∧ (∀ k, 0 < f k) ∧ f 0 ≠ f 1 :=
  ⟨fun c => c.2 + 1, fun k => k + 1, fun _ => by positivity, fun _ => by positivity, by simp⟩

end Verif.Like
