import Verif.Props.Concave

/-!
# C70: the likelihoods that are concave, and the models of tests.py
-/

set_option linter.unusedSectionVars false

namespace Verif.Tens
open Verif.Params

variable {pr : Problem} {m : Nat} {M : MaxLikeT ℝ} {cs : List (List Nat × List ℝ)} {qs : List (List Nat × ℝ × ℝ)} {T : ℝ}
  {y : Theta → pr.Cell → ℝ} {k : pr.Cell → ℝ} {x : pr.Cell → Nat → Nat → ℝ} {X N : pr.Cell → ℝ}

theorem cells_poisson {ι : Type} {X N : ι → ℝ} (hN : ∀ c, 0 ≤ N c) :
    ConcaveCells (fun c t => X c * t - N c * Real.exp t - Like.gammaln (X c + 1)) (fun c t => X c - N c * Real.exp t) (fun c t => N c * Real.exp t) where
  first c t := by
    have := (((hasDerivAt_id t).const_mul (X c)).sub ((Real.hasDerivAt_exp t).const_mul (N c))).sub_const (Like.gammaln (X c + 1))
    simpa using this
  second c t := by
    have := ((Real.hasDerivAt_exp t).const_mul (N c)).const_sub (X c)
    simpa using this
  nonneg c t := mul_nonneg (hN c) (Real.exp_pos t).le

/-- **C70.** `Poisson` with weights that are not negative and a linear model is a concave problem; the cells with positive weight are strictly concave. -/
theorem C70_poisson (hS : Solver pr m (fun _ => True) M (fun θ => Like.Poisson.like X N (y θ)) (linCons pr cs) (quadPens pr qs) T) (hN : ∀ c, 0 ≤ N c)
    (hy : LinearModel pr m y k x) (hc : ∀ c ∈ cs, c.1.Nodup ∧ ∀ p ∈ c.1, p < m) (hq : ∀ q ∈ qs, q.1.Nodup ∧ (∀ p ∈ q.1, p < m) ∧ q.2.2 ≠ 0) :
    ConcaveProblem pr m M (fun θ => Like.Poisson.like X N (y θ)) cs qs T y x fun c => 0 < N c :=
  ⟨hS, ⟨k, hy⟩, ⟨_, _, _, cells_poisson (X := X) hN, fun θ => rfl, fun c t h => (mul_pos h (Real.exp_pos t)).ne'⟩, hc, hq⟩

theorem cells_logistic {ι : Type} {X N : ι → ℝ} (hN : ∀ c, 0 ≤ N c) :
    ConcaveCells (fun c t => -(N c * Real.log (1 + Real.exp (-t)) + (N c - X c) * t)) (fun c t => N c * (Real.exp (-t) / (1 + Real.exp (-t))) - (N c - X c))
      (fun c t => N c * (Real.exp (-t) / (1 + Real.exp (-t)) ^ 2)) where
  first c t := by
    have h0 : (1 + Real.exp (-t)) ≠ 0 := by positivity
    have he : HasDerivAt (fun t => Real.exp (-t)) (-Real.exp (-t)) t := by
      have := (hasDerivAt_neg t).exp
      simpa using this
    have := ((((he.const_add 1).log h0).const_mul (N c)).add ((hasDerivAt_id t).const_mul (N c - X c))).neg
    refine this.congr_deriv ?_
    field_simp
    ring
  second c t := by
    have h0 : (1 + Real.exp (-t)) ≠ 0 := by positivity
    have he : HasDerivAt (fun t => Real.exp (-t)) (-Real.exp (-t)) t := by
      have := (hasDerivAt_neg t).exp
      simpa using this
    have := ((he.div (he.const_add 1) h0).const_mul (N c)).sub_const (N c - X c)
    refine this.congr_deriv ?_
    field_simp
    ring
  nonneg c t := mul_nonneg (hN c) (by positivity)

/-- **C70.** `Logistic` with weights that are not negative and a linear model is a concave problem. -/
theorem C70_logistic (hS : Solver pr m (fun _ => True) M (fun θ => Like.Logistic.like X N (y θ)) (linCons pr cs) (quadPens pr qs) T) (hN : ∀ c, 0 ≤ N c)
    (hy : LinearModel pr m y k x) (hc : ∀ c ∈ cs, c.1.Nodup ∧ ∀ p ∈ c.1, p < m) (hq : ∀ q ∈ qs, q.1.Nodup ∧ (∀ p ∈ q.1, p < m) ∧ q.2.2 ≠ 0) :
    ConcaveProblem pr m M (fun θ => Like.Logistic.like X N (y θ)) cs qs T y x fun c => 0 < N c :=
  ⟨hS, ⟨k, hy⟩, ⟨_, _, _, cells_logistic (X := X) hN, fun θ => by simp only [Like.Logistic.like, Finset.sum_neg_distrib],
    fun c t h => (mul_pos h (by positivity)).ne'⟩, hc, hq⟩

theorem cells_negativeBinomial {ι : Type} {X N : ι → ℝ} {r : ℝ} (hr : 0 < r) (hN : ∀ c, 0 ≤ X c + r * N c) :
    ConcaveCells (fun c t => Like.gammaln (X c + r) - Like.gammaln (X c + 1) + r * Real.log r - Like.gammaln r + X c * t - (X c + r * N c) * Real.log (r + Real.exp t))
      (fun c t => X c - (X c + r * N c) * (Real.exp t / (r + Real.exp t))) (fun c t => (X c + r * N c) * (r * Real.exp t / (r + Real.exp t) ^ 2)) where
  first c t := by
    have h0 : (r + Real.exp t) ≠ 0 := by positivity
    have := (((hasDerivAt_id t).const_mul (X c)).const_add (Like.gammaln (X c + r) - Like.gammaln (X c + 1) + r * Real.log r - Like.gammaln r)).sub
      ((((Real.hasDerivAt_exp t).const_add r).log h0).const_mul (X c + r * N c))
    refine this.congr_deriv ?_
    ring
  second c t := by
    have h0 : (r + Real.exp t) ≠ 0 := by positivity
    have := (((Real.hasDerivAt_exp t).div ((Real.hasDerivAt_exp t).const_add r) h0).const_mul (X c + r * N c)).const_sub (X c)
    refine this.congr_deriv ?_
    field_simp
    ring
  nonneg c t := mul_nonneg (hN c) (by positivity)

/-- **C70.** `NegativeBinomial` with weights and counts that are not negative and a linear model is a concave problem. -/
theorem C70_negativeBinomial {r : ℝ} (hr : 0 < r) (hS : Solver pr m (fun _ => True) M (fun θ => Like.NegativeBinomial.like r X N (y θ)) (linCons pr cs) (quadPens pr qs) T)
    (hN : ∀ c, 0 ≤ N c) (hX : ∀ c, 0 ≤ X c) (hy : LinearModel pr m y k x) (hc : ∀ c ∈ cs, c.1.Nodup ∧ ∀ p ∈ c.1, p < m)
    (hq : ∀ q ∈ qs, q.1.Nodup ∧ (∀ p ∈ q.1, p < m) ∧ q.2.2 ≠ 0) :
    ConcaveProblem pr m M (fun θ => Like.NegativeBinomial.like r X N (y θ)) cs qs T y x fun c => 0 < N c :=
  ⟨hS, ⟨k, hy⟩, ⟨_, _, _, cells_negativeBinomial (X := X) (N := N) hr (fun c => add_nonneg (hX c) (mul_nonneg hr.le (hN c))), fun θ => rfl,
    fun c t h => (mul_pos (add_pos_of_nonneg_of_pos (hX c) (mul_pos hr h)) (by positivity)).ne'⟩, hc, hq⟩

theorem zip_curvature {s : ℝ} (hs : 0 ≤ s) (t : ℝ) : 0 < Real.exp (Real.exp t) + s - 1 ∧
    0 < Real.exp t * Real.exp (Real.exp t) * (Real.exp (Real.exp t) + (s - 1) * (1 + Real.exp t)) / (Real.exp (Real.exp t) + s - 1) ^ 2 := by
  have hu := Real.exp_pos t
  have hE : 1 + Real.exp t < Real.exp (Real.exp t) := by have := Real.add_one_lt_exp hu.ne'; linarith
  have h1 : 0 < Real.exp (Real.exp t) + s - 1 := by linarith
  have h2 : 0 < Real.exp (Real.exp t) + (s - 1) * (1 + Real.exp t) := by nlinarith [mul_nonneg hs (by linarith : 0 ≤ 1 + Real.exp t)]
  exact ⟨h1, by positivity⟩

theorem cells_zeroInflatedPoisson {ι : Type} {X N Z : ι → ℝ} {s : ℝ} (hs : 0 ≤ s) (hN : ∀ c, 0 ≤ N c) :
    ConcaveCells (fun c t => X c * t + Z c * Real.log s - N c * Real.log (Real.exp (Real.exp t) + s - 1) - Like.gammaln (X c + 1))
      (fun c t => X c - N c * (Real.exp t * Real.exp (Real.exp t) / (Real.exp (Real.exp t) + s - 1)))
      (fun c t => N c * (Real.exp t * Real.exp (Real.exp t) * (Real.exp (Real.exp t) + (s - 1) * (1 + Real.exp t)) / (Real.exp (Real.exp t) + s - 1) ^ 2)) where
  first c t := by
    have h0 : Real.exp (Real.exp t) + s - 1 ≠ 0 := (zip_curvature hs t).1.ne'
    have he : HasDerivAt (fun t => Real.exp (Real.exp t) + s - 1) (Real.exp (Real.exp t) * Real.exp t) t := (((Real.hasDerivAt_exp t).exp).add_const s).sub_const 1
    have := ((((hasDerivAt_id t).const_mul (X c)).add_const (Z c * Real.log s)).sub ((he.log h0).const_mul (N c))).sub_const (Like.gammaln (X c + 1))
    refine this.congr_deriv ?_
    ring
  second c t := by
    have h0 : Real.exp (Real.exp t) + s - 1 ≠ 0 := (zip_curvature hs t).1.ne'
    have he : HasDerivAt (fun t => Real.exp (Real.exp t) + s - 1) (Real.exp (Real.exp t) * Real.exp t) t := (((Real.hasDerivAt_exp t).exp).add_const s).sub_const 1
    have hn : HasDerivAt (fun t => Real.exp t * Real.exp (Real.exp t)) (Real.exp t * Real.exp (Real.exp t) + Real.exp t * (Real.exp (Real.exp t) * Real.exp t)) t :=
      (Real.hasDerivAt_exp t).mul ((Real.hasDerivAt_exp t).exp)
    have := ((hn.div he h0).const_mul (N c)).const_sub (X c)
    refine this.congr_deriv ?_
    ring
  nonneg c t := mul_nonneg (hN c) (zip_curvature hs t).2.le

/-- **C70.** `ZeroInflatedPoisson` with weights that are not negative and a linear model is a concave problem, for every `scale ≥ 0` (and `log scale` counted as 0 at `scale = 0`). -/
theorem C70_zeroInflatedPoisson {s : ℝ} (hs : 0 ≤ s) {Z : pr.Cell → ℝ}
    (hS : Solver pr m (fun _ => True) M (fun θ => Like.ZeroInflatedPoisson.like s X N Z (y θ)) (linCons pr cs) (quadPens pr qs) T) (hN : ∀ c, 0 ≤ N c)
    (hy : LinearModel pr m y k x) (hc : ∀ c ∈ cs, c.1.Nodup ∧ ∀ p ∈ c.1, p < m) (hq : ∀ q ∈ qs, q.1.Nodup ∧ (∀ p ∈ q.1, p < m) ∧ q.2.2 ≠ 0) :
    ConcaveProblem pr m M (fun θ => Like.ZeroInflatedPoisson.like s X N Z (y θ)) cs qs T y x fun c => 0 < N c :=
  ⟨hS, ⟨k, hy⟩, ⟨_, _, _, cells_zeroInflatedPoisson (X := X) (Z := Z) hs hN, fun θ => rfl, fun c t h => (mul_pos h (zip_curvature hs t).2).ne'⟩, hc, hq⟩

/-! ### the model of test_poisson -/

variable {s t u : Nat} {vector : NDArray ℝ}

/-- The coefficients of `a[i] - b[j] + h * vector[k]`. -/
noncomputable def fooCoef (vector : NDArray ℝ) (s t u : Nat) (c : (threeFactor s t u).Cell) (p a : Nat) : ℝ :=
  if p = 0 then if a = (threeFactor s t u).cellN c 0 then 1 else 0 else if p = 1 then if a = (threeFactor s t u).cellN c 1 then -1 else 0
  else vector.get fun _ => (threeFactor s t u).cellN c 2

theorem allSum_three (F : Nat → Nat → ℝ) : allSum (threeFactor s t u) 3 F = ∑ a ∈ Finset.range s, F 0 a + ∑ a ∈ Finset.range t, F 1 a + F 2 0 := by
  unfold allSum
  have h0 : ((threeFactor s t u).sizes 0).prod = s := by simp [Problem.sizes, threeFactor]
  have h1 : ((threeFactor s t u).sizes 1).prod = t := by simp [Problem.sizes, threeFactor]
  have h2 : ((threeFactor s t u).sizes 2).prod = 1 := by simp [Problem.sizes, threeFactor]
  rw [Finset.sum_range_succ, Finset.sum_range_succ, Finset.sum_range_succ, Finset.sum_range_zero, h0, h1, h2, Finset.sum_range_one, zero_add]

theorem foo_coef_sum (c : (threeFactor s t u).Cell) (F : Nat → Nat → ℝ) : allSum (threeFactor s t u) 3 (fun p a => fooCoef vector s t u c p a * F p a) =
    F 0 ((threeFactor s t u).cellN c 0) - F 1 ((threeFactor s t u).cellN c 1) + F 2 0 * vector.get fun _ => (threeFactor s t u).cellN c 2 := by
  have hp := cell_pos c
  have p0 : (threeFactor s t u).cellN c 0 < s := by have := hp.1 0 (by simp [threeFactor]); simpa [threeFactor] using this
  have p1 : (threeFactor s t u).cellN c 1 < t := by have := hp.1 1 (by simp [threeFactor]); simpa [threeFactor] using this
  rw [allSum_three]
  simp only [fooCoef, if_true, one_ne_zero, if_false, OfNat.ofNat_ne_zero, OfNat.ofNat_ne_one]
  rw [Finset.sum_eq_single ((threeFactor s t u).cellN c 0), Finset.sum_eq_single ((threeFactor s t u).cellN c 1)]
  · simp; ring
  · intro b _ hb; simp [hb]
  · intro h; exact absurd (Finset.mem_range.2 p1) h
  · intro b _ hb; simp [hb]
  · intro h; exact absurd (Finset.mem_range.2 p0) h

theorem foo_linear : LinearModel (threeFactor s t u) 3 (valCell (threeFactor s t u) fun θ n _ => fooVal vector θ n) (fun _ => 0) (fooCoef vector s t u) := by
  intro θ c
  rw [foo_coef_sum, zero_add]
  rfl

theorem freeSum_masked {θ : Theta} {params : List (Param ℝ)} (hat : AtPoint pr m θ params) (x u : Nat → Nat → ℝ) [∀ i a, Decidable (isFree params i a)] :
    freeSum params (fun i a => x i a * u i a) = allSum pr m fun i a => x i a * if isFree params i a then u i a else 0 := by
  rw [allSum_free hat fun i a h => ?_]
  · rw [freeSum_eq hat.masks, freeSum_eq hat.masks]
    exact Finset.sum_congr rfl fun p hp => by rw [if_pos (mem_freeSet.1 hp)]
  · have : ¬isFree params i a := by
      rintro ⟨q, h1, h2⟩
      obtain ⟨q', h3, h4⟩ := h
      rw [h1] at h3
      cases h3
      rw [h2] at h4
      cases h4
    rw [if_neg this, mul_zero]

/-- With all the weights positive and two distinct numbers in `vector`, the data and the constraint `sum(a) + sum(b) = 0` determine the parameters, whatever entries
are fixed (one of the entries of `a` and `b` must be free, otherwise the constraint cannot be satisfied). -/
theorem foo_wellPosed (hs : s ≠ 0) (ht : t ≠ 0) {N : (threeFactor s t u).Cell → ℝ} (hN : ∀ c, 0 < N c) {k1 k2 : Nat} (hk1 : k1 < u) (hk2 : k2 < u)
    (hv : (vector.get fun _ => k1) ≠ vector.get fun _ => k2) {θ : Theta} {params : List (Param ℝ)} (hat : AtPoint (threeFactor s t u) 3 θ params)
    (hfree : ∃ i a, i < 2 ∧ isFree params i a) (qs : List (List Nat × ℝ × ℝ)) :
    WellPosed (threeFactor s t u) params [([0, 1], [1, 1])] qs (fooCoef vector s t u) fun c => 0 < N c := by
  classical
  constructor
  · intro w hw hx _ i a hf
    set W : Nat → Nat → ℝ := fun i a => if isFree params i a then w i a else 0 with hW
    have hcell : ∀ i < s, ∀ j < t, ∀ k < u, W 0 i - W 1 j + W 2 0 * (vector.get fun _ => k) = 0 := by
      intro i hi j hj k hk
      let c : (threeFactor s t u).Cell := (fun z => match z with
        | ⟨0, _⟩ => ⟨i, by simpa [threeFactor] using hi⟩
        | ⟨1, _⟩ => ⟨j, by simpa [threeFactor] using hj⟩
        | ⟨2, _⟩ => ⟨k, by simpa [threeFactor] using hk⟩, fun z => z.elim0)
      have := hx c (hN c)
      rw [freeSum_masked hat, foo_coef_sum] at this
      exact this
    have hcon : ∑ a ∈ Finset.range s, W 0 a + ∑ a ∈ Finset.range t, W 1 a = 0 := by
      have := hw ((linCon (threeFactor s t u) [0, 1] [1, 1]).der fun _ _ => 0) (by simp [conDers, linCons])
      rw [freeSum_masked hat, allSum_three] at this
      simpa [linCon, hW] using this
    have hs' := Nat.pos_of_ne_zero hs
    have ht' := Nat.pos_of_ne_zero ht
    have h2 : W 2 0 = 0 := by
      have e1 := hcell 0 hs' 0 ht' k1 hk1
      have e2 := hcell 0 hs' 0 ht' k2 hk2
      have : W 2 0 * ((vector.get fun _ => k1) - vector.get fun _ => k2) = 0 := by linarith
      exact (mul_eq_zero.1 this).resolve_right (sub_ne_zero.2 hv)
    have h0 : ∀ i < s, W 0 i = W 1 0 := fun i hi => by have := hcell i hi 0 ht' k1 hk1; rw [h2] at this; linarith
    have h1 : ∀ j < t, W 1 j = W 1 0 := fun j hj => by have := hcell 0 hs' j hj k1 hk1; rw [h2, h0 0 hs'] at this; linarith
    have hz : W 1 0 = 0 := by
      rw [Finset.sum_congr rfl fun a ha => h0 a (Finset.mem_range.1 ha), Finset.sum_congr rfl fun a ha => h1 a (Finset.mem_range.1 ha)] at hcon
      simp only [Finset.sum_const, Finset.card_range, nsmul_eq_mul] at hcon
      have : ((s : ℝ) + t) * W 1 0 = 0 := by linarith
      exact (mul_eq_zero.1 this).resolve_left (by positivity)
    have hwi : W i a = w i a := if_pos hf
    rw [← hwi]
    obtain ⟨i1, i2⟩ := hat.free hf
    have : i = 0 ∨ i = 1 ∨ i = 2 := by omega
    rcases this with rfl | rfl | rfl
    · rw [h0 a (by simpa [Problem.sizes, threeFactor] using i2), hz]
    · rw [h1 a (by simpa [Problem.sizes, threeFactor] using i2), hz]
    · have : a = 0 := by simpa [Problem.sizes, threeFactor] using i2
      rw [this, h2]
  · intro μ hl h0
    obtain ⟨i, a, hi, hf⟩ := hfree
    have := h0 i a hf
    match μ, hl with
    | [z], _ =>
      have hi' : i = 0 ∨ i = 1 := by omega
      have : z = 0 := by rcases hi' with rfl | rfl <;> simpa [conDers, linCons, linCon] using this
      simpa using this

theorem foo_total (hs : s ≠ 0) (ht : t ≠ 0) (hu : u ≠ 0) {N : (threeFactor s t u).Cell → ℝ} (hpos : ∀ c, 0 < N c) : ∑ c, N c ≠ 0 := by
  have : Nonempty (threeFactor s t u).Cell := ⟨(fun z => ⟨0, by
    have := (threeFactor_ok hs ht hu).2 z (by have := z.2; simp [threeFactor] at this ⊢; omega)
    omega⟩, fun z => z.elim0)⟩
  exact (Finset.sum_pos (fun c _ => hpos c) Finset.univ_nonempty).ne'

/-- **C70.** test_poisson (tests.py:23-59) is a concave problem, for all sizes and all data with positive weights (well posed: `foo_wellPosed`). -/
theorem C70_example_poisson (hs : s ≠ 0) (ht : t ≠ 0) (hu : u ≠ 0) (h1 : vector.ndim = 1) (h2 : vector.shape 0 = u) {X Nw : Num ℝ}
    (hX : (threeFactor s t u).IsData X) (hN : (threeFactor s t u).IsData Nw) (hpos : ∀ c, 0 < (threeFactor s t u).val Nw c) :
    ConcaveProblem (threeFactor s t u) 3 ⟨fooModel vector, PoissonT.like X Nw, PoissonT.gradLike X Nw, PoissonT.hessLike X Nw, Nw, [⟨[0, 1], linearT [1, 1]⟩], []⟩
      (fun θ => Like.Poisson.like ((threeFactor s t u).val X) ((threeFactor s t u).val Nw) (valCell (threeFactor s t u) (fun θ n _ => fooVal vector θ n) θ))
      [([0, 1], [1, 1])] [] (∑ c, (threeFactor s t u).val Nw c) (valCell (threeFactor s t u) fun θ n _ => fooVal vector θ n) (fooCoef vector s t u)
      (fun c => 0 < (threeFactor s t u).val Nw c) :=
  C70_poisson (cs := [([0, 1], [1, 1])]) (qs := []) (C68_example_poisson hs ht hu h1 h2 hX hN (foo_total hs ht hu hpos)) (fun c => (hpos c).le) foo_linear (by simp) (by simp)

/-- **C70.** test_poisson_reg (tests.py:292-326) is a concave problem. -/
theorem C70_example_poisson_reg (hs : s ≠ 0) (ht : t ≠ 0) (hu : u ≠ 0) (h1 : vector.ndim = 1) (h2 : vector.shape 0 = u) {X Nw : Num ℝ}
    (hX : (threeFactor s t u).IsData X) (hN : (threeFactor s t u).IsData Nw) (hpos : ∀ c, 0 < (threeFactor s t u).val Nw c) :
    ConcaveProblem (threeFactor s t u) 3 ⟨fooModel vector, PoissonT.like X Nw, PoissonT.gradLike X Nw, PoissonT.hessLike X Nw, Nw,
        [⟨[0, 1], linearT [1, 1]⟩], [⟨[0, 1], quadraticT 0 1⟩]⟩
      (fun θ => Like.Poisson.like ((threeFactor s t u).val X) ((threeFactor s t u).val Nw) (valCell (threeFactor s t u) (fun θ n _ => fooVal vector θ n) θ))
      [([0, 1], [1, 1])] [([0, 1], 0, 1)] (∑ c, (threeFactor s t u).val Nw c) (valCell (threeFactor s t u) fun θ n _ => fooVal vector θ n) (fooCoef vector s t u)
      (fun c => 0 < (threeFactor s t u).val Nw c) :=
  C70_poisson (cs := [([0, 1], [1, 1])]) (qs := [([0, 1], 0, 1)]) (C68_example_poisson_reg hs ht hu h1 h2 hX hN (foo_total hs ht hu hpos)) (fun c => (hpos c).le) foo_linear
    (by simp) (by simp)

/-- **C70.** test_logistic (tests.py:378-409) is a concave problem. -/
theorem C70_example_logistic (hs : s ≠ 0) (ht : t ≠ 0) (hu : u ≠ 0) (h1 : vector.ndim = 1) (h2 : vector.shape 0 = u) {X Nw : Num ℝ}
    (hX : (threeFactor s t u).IsData X) (hN : (threeFactor s t u).IsData Nw) (hpos : ∀ c, 0 < (threeFactor s t u).val Nw c) :
    ConcaveProblem (threeFactor s t u) 3 ⟨fooModel vector, LogisticT.like X Nw, LogisticT.gradLike X Nw, LogisticT.hessLike X Nw, Nw, [⟨[0, 1], linearT [1, 1]⟩], []⟩
      (fun θ => Like.Logistic.like ((threeFactor s t u).val X) ((threeFactor s t u).val Nw) (valCell (threeFactor s t u) (fun θ n _ => fooVal vector θ n) θ))
      [([0, 1], [1, 1])] [] (∑ c, (threeFactor s t u).val Nw c) (valCell (threeFactor s t u) fun θ n _ => fooVal vector θ n) (fooCoef vector s t u)
      (fun c => 0 < (threeFactor s t u).val Nw c) :=
  C70_logistic (cs := [([0, 1], [1, 1])]) (qs := []) (C68_example_logistic hs ht hu h1 h2 hX hN (foo_total hs ht hu hpos)) (fun c => (hpos c).le) foo_linear (by simp) (by simp)

/-- **C70.** test_negative_binomial (tests.py:411-441) is a concave problem. -/
theorem C70_example_negativeBinomial (hs : s ≠ 0) (ht : t ≠ 0) (hu : u ≠ 0) (h1 : vector.ndim = 1) (h2 : vector.shape 0 = u) {r : ℝ} (hr : 0 < r) {X Nw : Num ℝ}
    (hX : (threeFactor s t u).IsData X) (hN : (threeFactor s t u).IsData Nw) (hpos : ∀ c, 0 < (threeFactor s t u).val Nw c) (hX0 : ∀ c, 0 ≤ (threeFactor s t u).val X c) :
    ConcaveProblem (threeFactor s t u) 3 ⟨fooModel vector, NegativeBinomialT.like r X Nw, NegativeBinomialT.gradLike r X Nw, NegativeBinomialT.hessLike r X Nw, Nw,
        [⟨[0, 1], linearT [1, 1]⟩], []⟩
      (fun θ => Like.NegativeBinomial.like r ((threeFactor s t u).val X) ((threeFactor s t u).val Nw) (valCell (threeFactor s t u) (fun θ n _ => fooVal vector θ n) θ))
      [([0, 1], [1, 1])] [] (∑ c, (threeFactor s t u).val Nw c) (valCell (threeFactor s t u) fun θ n _ => fooVal vector θ n) (fooCoef vector s t u)
      (fun c => 0 < (threeFactor s t u).val Nw c) :=
  C70_negativeBinomial (cs := [([0, 1], [1, 1])]) (qs := []) hr (C68_example_negativeBinomial hs ht hu h1 h2 hr hX hN (foo_total hs ht hu hpos)) (fun c => (hpos c).le) hX0 foo_linear
    (by simp) (by simp)

/-- **C70.** test_poisson (tests.py:23-59), for all sizes, start points and masks (one entry of `a` or `b` must be free), and all data with positive weights, if `vector`
has two distinct numbers: the fit never raises `LinAlgError`. -/
theorem C70_example_fit (hs : s ≠ 0) (ht : t ≠ 0) (hu : u ≠ 0) (h1 : vector.ndim = 1) (h2 : vector.shape 0 = u) {X Nw : Num ℝ}
    (hX : (threeFactor s t u).IsData X) (hN : (threeFactor s t u).IsData Nw) (hpos : ∀ c, 0 < (threeFactor s t u).val Nw c) {k1 k2 : Nat} (hk1 : k1 < u) (hk2 : k2 < u)
    (hv : (vector.get fun _ => k1) ≠ vector.get fun _ => k2) {pinvh : List (List ℝ) → Except Err (List (List ℝ))} {tol : ℝ} {θ : Theta}
    {o : Fit.Obj ℝ (List (List ℝ))} (hat : AtPoint (threeFactor s t u) 3 θ o.params) (hfree : ∃ i a, i < 2 ∧ isFree o.params i a) (hF : 1 ≤ totalFree o.params)
    {maxSteps verbose : Nat} {r : Fit.Result ℝ (List (List ℝ))}
    (hr : r = Fit.fit (MaxLikeT.env ⟨fooModel vector, PoissonT.like X Nw, PoissonT.gradLike X Nw, PoissonT.hessLike X Nw, Nw, [⟨[0, 1], linearT [1, 1]⟩], []⟩ pinvh tol) o
      maxSteps verbose .newton) :
    r.outcome = .ok true ∨ r.outcome = .error .convergenceStep ∨ r.outcome = .error .convergence ∨ r.outcome = .error .zeroDivision := by
  rcases C70_never_singular (C70_example_poisson hs ht hu h1 h2 hX hN hpos) hat hF (foo_wellPosed hs ht hpos hk1 hk2 hv hat hfree []) hr with h | h | h | h
  · exact Or.inl h
  · exact Or.inr (Or.inl h)
  · exact Or.inr (Or.inr (Or.inl h))
  · exact Or.inr (Or.inr (Or.inr h.1))

end Verif.Tens
