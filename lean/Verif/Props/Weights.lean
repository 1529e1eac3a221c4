import Verif.Props.RearrangeErrors
import Verif.Props.RearrangeExamples

/-!
# C80: all the weights multiplied by a number

The log-likelihoods of `Logistic`, `Finite` and `NormalizedFinite` are multiplied by it; `Poisson`, `ZeroInflatedPoisson` and `NegativeBinomial` have a constant.
-/

set_option linter.unusedSectionVars false

namespace Verif.Tens
open Verif.Params
open NDArray

section
variable {ι κ υ : Type} [Fintype ι] [Fintype κ] [Fintype υ] [Nonempty υ]

theorem C80_logistic (c : ℝ) (X N y : ι → ℝ) : Like.Logistic.like (fun k => c * X k) (fun k => c * N k) y = c * Like.Logistic.like X N y := by
  unfold Like.Logistic.like
  simp only [mul_neg, Finset.mul_sum, neg_inj]
  exact Finset.sum_congr rfl fun k _ => by ring

theorem C80_finite (c : ℝ) (N y : κ × υ → ℝ) : Like.Finite.like (fun k => c * N k) y = c * Like.Finite.like N y := by
  unfold Like.Finite.like
  rw [Finset.mul_sum]
  exact Finset.sum_congr rfl fun k _ => by ring

theorem C80_normalizedFinite (c : ℝ) (N y : κ × υ → ℝ) : Like.NormalizedFinite.like (fun k => c * N k) y = c * Like.NormalizedFinite.like N y := by
  unfold Like.NormalizedFinite.like
  rw [Finset.mul_sum]
  exact Finset.sum_congr rfl fun k _ => by ring

theorem C80_poisson (c : ℝ) (X N : ι → ℝ) : ∃ k, ∀ y, Like.Poisson.like (fun k => c * X k) (fun k => c * N k) y = c * Like.Poisson.like X N y + k := by
  refine ⟨∑ k, (c * Like.gammaln (X k + 1) - Like.gammaln (c * X k + 1)), fun y => ?_⟩
  unfold Like.Poisson.like
  rw [Finset.mul_sum, ← Finset.sum_add_distrib]
  exact Finset.sum_congr rfl fun k _ => by ring

theorem C80_zeroInflatedPoisson (s c : ℝ) (X N Z : ι → ℝ) :
    ∃ k, ∀ y, Like.ZeroInflatedPoisson.like s (fun k => c * X k) (fun k => c * N k) (fun k => c * Z k) y = c * Like.ZeroInflatedPoisson.like s X N Z y + k := by
  refine ⟨∑ k, (c * Like.gammaln (X k + 1) - Like.gammaln (c * X k + 1)), fun y => ?_⟩
  unfold Like.ZeroInflatedPoisson.like
  rw [Finset.mul_sum, ← Finset.sum_add_distrib]
  exact Finset.sum_congr rfl fun k _ => by ring

theorem C80_negativeBinomial (r c : ℝ) (X N : ι → ℝ) :
    ∃ k, ∀ y, Like.NegativeBinomial.like r (fun k => c * X k) (fun k => c * N k) y = c * Like.NegativeBinomial.like r X N y + k := by
  refine ⟨∑ k, ((Like.gammaln (c * X k + r) - Like.gammaln (c * X k + 1) + r * Real.log r - Like.gammaln r) -
    c * (Like.gammaln (X k + r) - Like.gammaln (X k + 1) + r * Real.log r - Like.gammaln r)), fun y => ?_⟩
  unfold Like.NegativeBinomial.like
  rw [Finset.mul_sum, ← Finset.sum_add_distrib]
  exact Finset.sum_congr rfl fun k _ => by ring

end

/-- The tables of `Y` are `c` times those of `X`. -/
def Times (pr : Problem) (c : ℝ) (X Y : Num ℝ) : Prop := ∀ q : pr.Cell, pr.val Y q = c * pr.val X q

section
variable {s t u : Nat} {vector : NDArray ℝ} {X Nw X' N' : Num ℝ} {c : ℝ}

/-- The model of test_logistic is smooth. -/
theorem foo_smooth (q : (threeFactor s t u).Cell) (θ : Theta) : Smooth2 (fun θ => valCell (threeFactor s t u) (fun θ n _ => fooVal vector θ n) θ q) θ :=
  ((Smooth2.entry _ _ _).sub (Smooth2.entry _ _ _)).add ((Smooth2.entry _ _ _).mul (Smooth2.const _ _))

/-- **C80.** test_logistic (tests.py:378-409) with all the counts multiplied by `c`: the fit does the same, and the standard errors are divided by the square root of `c`. -/
theorem C80_example_logistic (hs : s ≠ 0) (ht : t ≠ 0) (hu : u ≠ 0) (h1 : vector.ndim = 1) (h2 : vector.shape 0 = u)
    (hX : (threeFactor s t u).IsData X) (hN : (threeFactor s t u).IsData Nw) (hX' : (threeFactor s t u).IsData X') (hN' : (threeFactor s t u).IsData N')
    (hcX : Times (threeFactor s t u) c X X') (hcN : Times (threeFactor s t u) c Nw N') (hT : ∑ q, (threeFactor s t u).val Nw q ≠ 0) (hc : 0 < c)
    (pinvh : List (List ℝ) → Except Err (List (List ℝ))) (tol : ℝ) (o : Fit.Obj ℝ (List (List ℝ))) {θ : Theta} (hat : AtPoint (threeFactor s t u) 3 θ o.params)
    (hF : 1 ≤ totalFree o.params) (maxSteps verbose : Nat) (M M' : MaxLikeT ℝ)
    (hM : M = ⟨fooModel vector, LogisticT.like X Nw, LogisticT.gradLike X Nw, LogisticT.hessLike X Nw, Nw, [⟨[0, 1], linearT [1, 1]⟩], []⟩)
    (hM' : M' = ⟨fooModel vector, LogisticT.like X' N', LogisticT.gradLike X' N', LogisticT.hessLike X' N', N', [⟨[0, 1], linearT [1, 1]⟩], []⟩) :
    ∀ r r', r = Fit.fit (M.env pinvh tol) o maxSteps verbose .newton → r' = Fit.fit (M'.env pinvh tol) o maxSteps verbose .newton →
      r'.outcome = r.outcome ∧ (∃ θ', AtPoint (threeFactor s t u) 3 θ' r.obj.params ∧ AtPoint (threeFactor s t u) 3 θ' r'.obj.params) ∧
        ∀ b, r.outcome = .ok b → ∀ nan, ∃ J J' rs rs', r.obj.flatHess = some J ∧ r'.obj.flatHess = some J' ∧ stdErrorT M r.obj.params J nan = .ok rs ∧
          stdErrorT M' r'.obj.params J' nan = .ok rs' ∧
          ∀ i a, isFree o.params i a → ∃ v, entry rs i a = some v ∧ (entry rs' i a = some (v / Real.sqrt c) ∨ v = nan ∧ entry rs' i a = some nan) := by
  subst hM hM'
  have hTT : ∑ q, (threeFactor s t u).val N' q = c * ∑ q, (threeFactor s t u).val Nw q := by
    rw [Finset.mul_sum]
    exact Finset.sum_congr rfl fun q _ => hcN q
  have hS := C68_example_logistic hs ht hu h1 h2 hX hN hT
  have hS' := C68_example_logistic hs ht hu h1 h2 hX' hN' (by rw [hTT]; exact mul_ne_zero hc.ne' hT)
  have hsc : ∀ θ : Theta, penalised (fun θ => Like.Logistic.like ((threeFactor s t u).val X') ((threeFactor s t u).val N')
      (valCell (threeFactor s t u) (fun θ n _ => fooVal vector θ n) θ)) [] θ = c * penalised (fun θ => Like.Logistic.like ((threeFactor s t u).val X) ((threeFactor s t u).val Nw)
      (valCell (threeFactor s t u) (fun θ n _ => fooVal vector θ n) θ)) [] θ + 0 := by
    intro θ
    have e1 : (threeFactor s t u).val X' = fun q => c * (threeFactor s t u).val X q := funext hcX
    have e2 : (threeFactor s t u).val N' = fun q => c * (threeFactor s t u).val Nw q := funext hcN
    unfold penalised
    beta_reduce
    rw [e1, e2, C80_logistic]
    simp
  have hsm : ∀ θ, Smooth2 (penalised (fun θ => Like.Logistic.like ((threeFactor s t u).val X) ((threeFactor s t u).val Nw)
      (valCell (threeFactor s t u) (fun θ n _ => fooVal vector θ n) θ)) []) θ := fun θ =>
    smooth_penalised (C69_smooth_logistic _ _ fun q => foo_smooth q θ) fun φ hφ => absurd hφ List.not_mem_nil
  intro r r' hr hr'
  obtain ⟨j1, -, -, -, θ', j2, j3⟩ := C80_fit (e := Equiv.refl _) hS hS' hc.ne' hTT ⟨fun x => Iff.rfl, hsc, .cons (fun θ => rfl) .nil⟩ hsm (o := o) (o' := o)
    ⟨θ, hat, hat⟩ (fun x => Iff.rfl) rfl hF maxSteps verbose r r' hr hr'
  refine ⟨j1, ⟨θ', j2, j3⟩, fun b hb nan => ?_⟩
  obtain ⟨J, J', k1, k2, -, k3⟩ := C80_errors (e := Equiv.refl _) hS hS' hc hTT ⟨fun x => Iff.rfl, hsc, .cons (fun θ => rfl) .nil⟩ hsm (o := o) (o' := o)
    ⟨θ, hat, hat⟩ (fun x => Iff.rfl) rfl hF maxSteps verbose r r' hr hr' b hb
  obtain ⟨rs, rs', q1, q2, q3⟩ := (k3 nan).2 (by simp)
  exact ⟨J, J', rs, rs', k1, k2, q1, q2, fun i a hia => q3 (i, a) hia⟩

/-- **C80.** test_poisson (tests.py:23-60) with all the counts and weights multiplied by `c`: the same points, as long as both fits go on. -/
theorem C80_example_poisson (hs : s ≠ 0) (ht : t ≠ 0) (hu : u ≠ 0) (h1 : vector.ndim = 1) (h2 : vector.shape 0 = u)
    (hX : (threeFactor s t u).IsData X) (hN : (threeFactor s t u).IsData Nw) (hX' : (threeFactor s t u).IsData X') (hN' : (threeFactor s t u).IsData N')
    (hcX : Times (threeFactor s t u) c X X') (hcN : Times (threeFactor s t u) c Nw N') (hT : ∑ q, (threeFactor s t u).val Nw q ≠ 0) (hc : c ≠ 0)
    (pinvh : List (List ℝ) → Except Err (List (List ℝ))) (tol : ℝ) (o : Fit.Obj ℝ (List (List ℝ))) {θ : Theta} (hat : AtPoint (threeFactor s t u) 3 θ o.params)
    (hF : 1 ≤ totalFree o.params) (maxSteps verbose : Nat) :
    ∀ r r',
      r = Fit.fit (MaxLikeT.env ⟨fooModel vector, PoissonT.like X Nw, PoissonT.gradLike X Nw, PoissonT.hessLike X Nw, Nw, [⟨[0, 1], linearT [1, 1]⟩], []⟩ pinvh tol) o maxSteps verbose .newton →
      r' = Fit.fit (MaxLikeT.env ⟨fooModel vector, PoissonT.like X' N', PoissonT.gradLike X' N', PoissonT.hessLike X' N', N', [⟨[0, 1], linearT [1, 1]⟩], []⟩ pinvh tol) o maxSteps verbose
        .newton →
      SamePath (Equiv.refl _) (threeFactor s t u) 3 (threeFactor s t u) 3 r.trace r'.trace := by
  have hTT : ∑ q, (threeFactor s t u).val N' q = c * ∑ q, (threeFactor s t u).val Nw q := by
    rw [Finset.mul_sum]
    exact Finset.sum_congr rfl fun q _ => hcN q
  have hS := C68_example_poisson hs ht hu h1 h2 hX hN hT
  have hS' := C68_example_poisson hs ht hu h1 h2 hX' hN' (by rw [hTT]; exact mul_ne_zero hc hT)
  obtain ⟨k, hk⟩ := C80_poisson c ((threeFactor s t u).val X) ((threeFactor s t u).val Nw)
  have hsc : ∀ θ : Theta, penalised (fun θ => Like.Poisson.like ((threeFactor s t u).val X') ((threeFactor s t u).val N')
      (valCell (threeFactor s t u) (fun θ n _ => fooVal vector θ n) θ)) [] θ = c * penalised (fun θ => Like.Poisson.like ((threeFactor s t u).val X) ((threeFactor s t u).val Nw)
      (valCell (threeFactor s t u) (fun θ n _ => fooVal vector θ n) θ)) [] θ + k := by
    intro θ
    have e1 : (threeFactor s t u).val X' = fun q => c * (threeFactor s t u).val X q := funext hcX
    have e2 : (threeFactor s t u).val N' = fun q => c * (threeFactor s t u).val Nw q := funext hcN
    unfold penalised
    beta_reduce
    rw [e1, e2, hk]
    simp
  have hsm : ∀ θ, Smooth2 (penalised (fun θ => Like.Poisson.like ((threeFactor s t u).val X) ((threeFactor s t u).val Nw)
      (valCell (threeFactor s t u) (fun θ n _ => fooVal vector θ n) θ)) []) θ := fun θ =>
    smooth_penalised (C69_smooth_poisson _ _ fun q => foo_smooth q θ) fun φ hφ => absurd hφ List.not_mem_nil
  intro r r' hr hr'
  exact (C80_path (e := Equiv.refl _) hS hS' hc hTT ⟨fun x => Iff.rfl, hsc, .cons (fun θ => rfl) .nil⟩ hsm (o := o) (o' := o) ⟨θ, hat, hat⟩ (fun x => Iff.rfl) hF maxSteps verbose r r' hr
    hr').1

end

end Verif.Tens
