import Verif.Props.ReparamErrors
import Verif.Props.FitExamples

/-!
# C83: the tests with a standardised covariate
-/

set_option linter.unusedSectionVars false

namespace Verif.Tens
open Verif.Params

section
variable {pr : Problem} {L : Theta → ℝ} {φs : List Pen} {θ : Theta}

theorem smoothAt_penalised (hL : SmoothAt L θ) (hφ : ∀ φ ∈ φs, SmoothAt φ.val θ) : SmoothAt (penalised L φs) θ := by
  refine SmoothAt.sub hL ?_
  induction φs with
  | nil => exact SmoothAt.const 0 θ
  | cons φ l ih => exact SmoothAt.add (hφ φ List.mem_cons_self) (ih fun ψ h => hφ ψ (List.mem_cons_of_mem _ h))

theorem smoothAt_linCon (pm : List Nat) (w : List ℝ) (θ : Theta) : SmoothAt (linCon pr pm w).val θ := by
  show SmoothAt (fun θ => ∑ k ∈ Finset.range pm.length, ∑ a ∈ Finset.range (pr.sizes (pm.getD k 0)).prod, θ (pm.getD k 0) a * w.getD k 0) θ
  exact SmoothAt.sum (F := fun k θ => ∑ a ∈ Finset.range (pr.sizes (pm.getD k 0)).prod, θ (pm.getD k 0) a * w.getD k 0) fun k _ =>
    SmoothAt.sum (F := fun a θ => θ (pm.getD k 0) a * w.getD k 0) fun a _ => (SmoothAt.entry (pm.getD k 0) a θ).mul (SmoothAt.const _ θ)

theorem smoothAt_quadPen (pm : List Nat) (u s : ℝ) (θ : Theta) : SmoothAt (quadPen pr pm u s).val θ := by
  show SmoothAt (fun θ => ∑ k ∈ Finset.range pm.length, ∑ a ∈ Finset.range (pr.sizes (pm.getD k 0)).prod, ((θ (pm.getD k 0) a - u) / s) ^ 2) θ
  exact SmoothAt.sum (F := fun k θ => ∑ a ∈ Finset.range (pr.sizes (pm.getD k 0)).prod, ((θ (pm.getD k 0) a - u) / s) ^ 2) fun k _ =>
    SmoothAt.sum (F := fun a θ => ((θ (pm.getD k 0) a - u) / s) ^ 2) fun a _ => (SmoothAt.entry (pm.getD k 0) a θ).comp (g := fun x => ((x - u) / s) ^ 2) (by fun_prop)

variable {ι : Type} [Fintype ι] {y : Theta → ι → ℝ}

theorem smoothAt_poisson (X N : ι → ℝ) (hy : ∀ c, SmoothAt (fun θ => y θ c) θ) : SmoothAt (fun θ => Like.Poisson.like X N (y θ)) θ :=
  SmoothAt.sum fun c _ => (((SmoothAt.const (X c) θ).mul (hy c)).sub ((SmoothAt.const (N c) θ).mul (hy c).exp)).sub (SmoothAt.const _ θ)

theorem smoothAt_logistic (X N : ι → ℝ) (hy : ∀ c, SmoothAt (fun θ => y θ c) θ) : SmoothAt (fun θ => Like.Logistic.like X N (y θ)) θ :=
  SmoothAt.neg (SmoothAt.sum fun c _ => ((SmoothAt.const (N c) θ).mul (((SmoothAt.const 1 θ).add (hy c).neg.exp).log (by positivity))).add ((SmoothAt.const (N c - X c) θ).mul (hy c)))

theorem smoothAt_negativeBinomial {r : ℝ} (hr : 0 < r) (X N : ι → ℝ) (hy : ∀ c, SmoothAt (fun θ => y θ c) θ) : SmoothAt (fun θ => Like.NegativeBinomial.like r X N (y θ)) θ :=
  SmoothAt.sum fun c _ => (((SmoothAt.const _ θ).add ((SmoothAt.const (X c) θ).mul (hy c))).sub
    ((SmoothAt.const (X c + r * N c) θ).mul (((SmoothAt.const r θ).add (hy c).exp).log (by positivity))))

end

/-- The parameters of the problem with the covariate `(vector - μ) / σ`, from those of the problem with `vector`: `h' = σ * h`, and `a` and `b` absorb `h * μ`, in such a way that the sum of
all their entries (`s` of them in `a`, `t` in `b`) stays the same. -/
noncomputable def standardise (s t : Nat) (μ σ : ℝ) (hσ : σ ≠ 0) : Theta ≃ₗ[ℝ] Theta where
  toFun θ i a := if i = 0 ∧ a < s then θ i a + t / (s + t) * μ * θ 2 0 else if i = 1 ∧ a < t then θ i a - s / (s + t) * μ * θ 2 0 else if i = 2 ∧ a = 0 then σ * θ i a else θ i a
  invFun θ i a := if i = 0 ∧ a < s then θ i a - t / (s + t) * μ * (θ 2 0 / σ) else if i = 1 ∧ a < t then θ i a + s / (s + t) * μ * (θ 2 0 / σ) else
    if i = 2 ∧ a = 0 then θ i a / σ else θ i a
  map_add' θ θ' := by
    funext i a
    simp only [Pi.add_apply]
    split_ifs <;> ring
  map_smul' c θ := by
    funext i a
    simp only [Pi.smul_apply, smul_eq_mul, RingHom.id_apply]
    split_ifs <;> ring
  left_inv θ := by
    funext i a
    by_cases h0 : i = 0 ∧ a < s
    · simp [h0, hσ]
    · by_cases h1 : i = 1 ∧ a < t
      · simp [h1, hσ]
      · by_cases h2 : i = 2 ∧ a = 0
        · obtain ⟨rfl, rfl⟩ := h2
          simp [hσ]
        · simp [h0, h1, h2]
  right_inv θ := by
    funext i a
    by_cases h0 : i = 0 ∧ a < s
    · simp [h0, hσ]
    · by_cases h1 : i = 1 ∧ a < t
      · simp [h1, hσ]
      · by_cases h2 : i = 2 ∧ a = 0
        · obtain ⟨rfl, rfl⟩ := h2
          simp [hσ, mul_div_cancel₀]
        · simp [h0, h1, h2]

section
variable {s t : Nat} {μ σ : ℝ} {hσ : σ ≠ 0} (θ : Theta)

theorem standardise_apply (i a : Nat) : standardise s t μ σ hσ θ i a = if i = 0 ∧ a < s then θ i a + t / (s + t) * μ * θ 2 0 else
    if i = 1 ∧ a < t then θ i a - s / (s + t) * μ * θ 2 0 else if i = 2 ∧ a = 0 then σ * θ i a else θ i a := rfl

theorem standardise_a {a : Nat} (h : a < s) : standardise s t μ σ hσ θ 0 a = θ 0 a + t / (s + t) * μ * θ 2 0 := by
  rw [standardise_apply, if_pos ⟨rfl, h⟩]

theorem standardise_b {a : Nat} (h : a < t) : standardise s t μ σ hσ θ 1 a = θ 1 a - s / (s + t) * μ * θ 2 0 := by
  rw [standardise_apply, if_neg (by simp), if_pos ⟨rfl, h⟩]

theorem standardise_h : standardise s t μ σ hσ θ 2 0 = σ * θ 2 0 := by
  rw [standardise_apply, if_neg (by simp), if_neg (by simp), if_pos ⟨rfl, rfl⟩]

end

/-- Every entry of every parameter is free. -/
def AllFree (ps : List (Param ℝ)) : Prop := ∀ q ∈ ps, ∀ c ∈ q.mask, c = false

section
variable {s t u : Nat} {vector vector' : NDArray ℝ} {μ σ : ℝ} {ps ps' : List (Param ℝ)} {θ θ' : Theta}

theorem allFree_iff (hat : AtPoint (threeFactor s t u) 3 θ ps) (hall : AllFree ps) (i a : Nat) : isFree ps i a ↔ (i = 0 ∧ a < s) ∨ (i = 1 ∧ a < t) ∨ (i = 2 ∧ a = 0) := by
  have key : ∀ p < 3, (isFree ps p a ↔ a < ((threeFactor s t u).sizes p).prod) := by
    intro p hp
    obtain ⟨q, h1, h2, h3, -⟩ := hat.each p hp
    constructor
    · rintro ⟨q', h1', h4⟩
      obtain rfl : q = q' := Option.some.inj (h1.symm.trans h1')
      have := (List.getElem?_eq_some_iff.1 h4).1
      rwa [h3, h2] at this
    · intro h
      rw [← h2, ← h3] at h
      exact ⟨q, h1, by rw [List.getElem?_eq_getElem h, hall q (List.mem_of_getElem? h1) _ (List.getElem_mem h)]⟩
  rcases i with _ | _ | _ | i
  · rw [key 0 (by omega)]; simp [Problem.sizes, threeFactor]
  · rw [key 1 (by omega)]; simp [Problem.sizes, threeFactor]
  · rw [key 2 (by omega)]; simp [Problem.sizes, threeFactor]
  · refine iff_of_false ?_ (by omega)
    rintro ⟨q, h, -⟩
    have := (List.getElem?_eq_some_iff.1 h).1
    rw [hat.len] at this
    omega

theorem standardise_directions (hσ : σ ≠ 0) (hat : AtPoint (threeFactor s t u) 3 θ ps) (hat' : AtPoint (threeFactor s t u) 3 θ' ps') (hall : AllFree ps) (hall' : AllFree ps') :
    SameDirections (standardise s t μ σ hσ) ps ps' := by
  intro w
  refine forall_congr' fun i => forall_congr' fun a => ?_
  rw [allFree_iff hat hall, allFree_iff hat' hall']
  refine imp_congr_right fun h => ?_
  push Not at h
  rw [standardise_apply, if_neg (by omega), if_neg (by omega), if_neg (by omega)]

/-- The covariate is standardised. -/
structure Standardised (vector vector' : NDArray ℝ) (u : Nat) (μ σ : ℝ) : Prop where
  dim : vector.ndim = 1
  dim' : vector'.ndim = 1
  size : vector.shape 0 = u
  size' : vector'.shape 0 = u
  value : ∀ k < u, (vector'.get fun _ => k) = ((vector.get fun _ => k) - μ) / σ

theorem standardised_foo (hσ : σ ≠ 0) (hst : s + t ≠ 0) (h : Standardised vector vector' u μ σ) (θ : Theta) {n : Nat → Nat} (h0 : n 0 < s) (h1 : n 1 < t) (h2 : n 2 < u) :
    fooVal vector' (standardise s t μ σ hσ θ) n = fooVal vector θ n := by
  unfold fooVal
  rw [standardise_a θ h0, standardise_b θ h1, standardise_h, h.value _ h2]
  have : (s : ℝ) + t ≠ 0 := by exact_mod_cast hst
  field_simp
  ring

theorem standardised_cell (hσ : σ ≠ 0) (hst : s + t ≠ 0) (h : Standardised vector vector' u μ σ) (θ : Theta) :
    valCell (threeFactor s t u) (fun θ n _ => fooVal vector' θ n) (standardise s t μ σ hσ θ) = valCell (threeFactor s t u) (fun θ n _ => fooVal vector θ n) θ := by
  funext c
  have hp := (cell_pos c).1
  exact standardised_foo hσ hst h θ (by simpa [threeFactor] using hp 0 (by simp [threeFactor])) (by simpa [threeFactor] using hp 1 (by simp [threeFactor]))
    (by simpa [threeFactor] using hp 2 (by simp [threeFactor]))

theorem standardised_sum (hσ : σ ≠ 0) (hst : s + t ≠ 0) (θ : Theta) :
    (linCon (threeFactor s t u) [0, 1] [1, 1]).val (standardise s t μ σ hσ θ) = (linCon (threeFactor s t u) [0, 1] [1, 1]).val θ := by
  have hs : ∀ θ : Theta, (linCon (threeFactor s t u) [0, 1] [1, 1]).val θ = (∑ a ∈ Finset.range s, θ 0 a) + ∑ a ∈ Finset.range t, θ 1 a := by
    intro θ
    simp [linCon, Finset.sum_range_succ, Problem.sizes, threeFactor]
  rw [hs, hs, Finset.sum_congr rfl fun a ha => standardise_a θ (Finset.mem_range.1 ha), Finset.sum_congr rfl fun a ha => standardise_b θ (Finset.mem_range.1 ha),
    Finset.sum_add_distrib, Finset.sum_sub_distrib, Finset.sum_const, Finset.sum_const, Finset.card_range, Finset.card_range, nsmul_eq_mul, nsmul_eq_mul]
  have : (s : ℝ) + t ≠ 0 := by exact_mod_cast hst
  field_simp
  ring

/-- The variance of `h'` is `σ ^ 2` times that of `h`. -/
theorem standardised_var (hσ : σ ≠ 0) (hat : AtPoint (threeFactor s t u) 3 θ ps) (hall : AllFree ps) (E : Nat → Nat → Nat → Nat → ℝ) :
    changedCov (standardise s t μ σ hσ) ps E 2 0 2 0 = σ ^ 2 * E 2 0 2 0 := by
  have hc : ∀ k c, coef (standardise s t μ σ hσ) (2, 0) (k, c) = if (k, c) = (2, 0) then σ else 0 := by
    intro k c
    unfold coef
    rw [standardise_h]
    split_ifs with h
    · rw [h, unitDir_same (2, 0), mul_one]
    · rw [unitDir_other (x := (k, c)) (y := (2, 0)) fun e => h e.symm, mul_zero]
  have hm : ((2, 0) : Nat × Nat) ∈ freeSet ps := mem_freeSet.2 ((allFree_iff hat hall 2 0).2 (by simp))
  unfold changedCov
  simp only [hc]
  rw [freeSum_eq hat.masks, Finset.sum_eq_single (2, 0), freeSum_eq hat.masks, Finset.sum_eq_single (2, 0)]
  · simp only [if_true]
    ring
  · intro x _ hx
    rw [if_neg hx, mul_zero]
  · exact fun h => absurd hm h
  · intro x _ hx
    rw [freeSum_zero]
    intro i a
    rw [if_neg hx, zero_mul, zero_mul]
  · exact fun h => absurd hm h

/-- Any likelihood `F` of the numbers `a[i] - b[j] + h * vector[k]`. -/
theorem standardised_fit (hs : s ≠ 0) (ht : t ≠ 0) (hv : Standardised vector vector' u μ σ) (hσ : σ ≠ 0) {F : ((threeFactor s t u).Cell → ℝ) → ℝ} {M M' : MaxLikeT ℝ} {T : ℝ}
    (hS : Solver (threeFactor s t u) 3 (fun _ => True) M (fun θ => F (valCell (threeFactor s t u) (fun θ n _ => fooVal vector θ n) θ)) [linCon (threeFactor s t u) [0, 1] [1, 1]] [] T)
    (hS' : Solver (threeFactor s t u) 3 (fun _ => True) M' (fun θ => F (valCell (threeFactor s t u) (fun θ n _ => fooVal vector' θ n) θ)) [linCon (threeFactor s t u) [0, 1] [1, 1]] [] T)
    (hsm : ∀ θ, (∀ q, SmoothAt (fun θ => valCell (threeFactor s t u) (fun θ n _ => fooVal vector θ n) θ q) θ) →
      SmoothAt (fun θ => F (valCell (threeFactor s t u) (fun θ n _ => fooVal vector θ n) θ)) θ)
    (pinvh : List (List ℝ) → Except Err (List (List ℝ))) (tol : ℝ) {o o' : Fit.Obj ℝ (List (List ℝ))} (hat : AtPoint (threeFactor s t u) 3 θ o.params)
    (hat' : AtPoint (threeFactor s t u) 3 (standardise s t μ σ hσ θ) o'.params) (hall : AllFree o.params) (hall' : AllFree o'.params) (hcv : o'.converged = o.converged)
    (maxSteps verbose : Nat) :
    ∀ r r', r = Fit.fit (M.env pinvh tol) o maxSteps verbose .newton → r' = Fit.fit (M'.env pinvh tol) o' maxSteps verbose .newton →
      r'.outcome = r.outcome ∧ r'.prints = r.prints ∧
        (∃ θ', AtPoint (threeFactor s t u) 3 θ' r.obj.params ∧ AtPoint (threeFactor s t u) 3 (standardise s t μ σ hσ θ') r'.obj.params) ∧
        ∀ v, r.outcome = .ok v → ∀ nan, ∃ J J' rs rs' e, r.obj.flatHess = some J ∧ r'.obj.flatHess = some J' ∧ stdErrorT M r.obj.params J nan = .ok rs ∧
          stdErrorT M' r'.obj.params J' nan = .ok rs' ∧ entry rs 2 0 = some e ∧ (entry rs' 2 0 = some (|σ| * e) ∨ e = nan ∧ entry rs' 2 0 = some nan) := by
  have hst : s + t ≠ 0 := by omega
  have hc : Changed (standardise s t μ σ hσ) 0 (threeFactor s t u) 3 M (fun θ => F (valCell (threeFactor s t u) (fun θ n _ => fooVal vector θ n) θ))
      [linCon (threeFactor s t u) [0, 1] [1, 1]] [] (threeFactor s t u) 3 M' (fun θ => F (valCell (threeFactor s t u) (fun θ n _ => fooVal vector' θ n) θ))
      [linCon (threeFactor s t u) [0, 1] [1, 1]] [] T := by
    refine ⟨hS, hS', ⟨fun θ => ?_, .cons (fun θ => ?_) .nil⟩, fun θ => smoothAt_penalised (hsm θ fun q => ?_) fun φ hφ => absurd hφ List.not_mem_nil, fun g hg θ => ?_⟩
    · rw [add_zero]
      unfold penalised
      dsimp only
      rw [standardised_cell hσ hst hv]
      rfl
    · rw [add_zero, standardised_sum hσ hst]
    · exact ((SmoothAt.entry _ _ _).sub (SmoothAt.entry _ _ _)).add ((SmoothAt.entry _ _ _).mul (SmoothAt.const _ _))
    · rw [List.mem_singleton.1 hg]
      exact smoothAt_linCon _ _ _
  have hat'' : AtPoint (threeFactor s t u) 3 (standardise s t μ σ hσ θ + 0) o'.params := by rw [add_zero]; exact hat'
  have hdir := standardise_directions hσ hat hat' hall hall' (μ := μ)
  have hF : 1 ≤ totalFree o.params := by
    have := rank_lt ((allFree_iff hat hall 2 0).2 (by simp))
    omega
  intro r r' hr hr'
  obtain ⟨j1, j2, -, -, ⟨θ', k1, k2⟩, -⟩ := C83_fit (pinvh := pinvh) (tol := tol) hc ⟨θ, hat, hat''⟩ hdir hcv hF maxSteps verbose r r' hr hr'
  refine ⟨j1, j2, ⟨θ', k1, by rwa [add_zero] at k2⟩, fun v hv nan => ?_⟩
  obtain ⟨J, J', k3, k4, -, k5⟩ := C83_errors (pinvh := pinvh) (tol := tol) hc ⟨θ, hat, hat''⟩ hdir hcv hF maxSteps verbose r r' hr hr' v hv
  obtain ⟨E, -, -, -, -, -, -, k6⟩ := k5 nan
  obtain ⟨rs, rs', k7, k8, k9, k10⟩ := k6 (by simp)
  refine ⟨J, J', rs, rs', _, k3, k4, k7, k8, k9 2 0 ((allFree_iff hat hall 2 0).2 (by simp)), ?_⟩
  rw [k10 2 0 ((allFree_iff hat' hall' 2 0).2 (by simp)), standardised_var hσ hat hall]
  have hσ2 : 0 < σ ^ 2 := by positivity
  by_cases hE : E 2 0 2 0 < 0
  · right
    rw [if_pos hE, if_pos (mul_neg_of_pos_of_neg hσ2 hE)]
    exact ⟨rfl, rfl⟩
  · left
    rw [if_neg hE, if_neg (not_lt.2 (mul_nonneg hσ2.le (not_lt.1 hE))), Real.sqrt_mul hσ2.le, Real.sqrt_sq_eq_abs]

variable {X Nw : Num ℝ} {M M' : MaxLikeT ℝ}

/-- **C83.** test_poisson (tests.py:23-60) with the covariate `(vector - μ) / σ` in place of `vector`, from the corresponding start: the fits do the same, the estimates correspond
(`h' = σ * h`), and the standard error of `h` is multiplied by `|σ|`. -/
theorem C83_example_poisson (hs : s ≠ 0) (ht : t ≠ 0) (hu : u ≠ 0) (hv : Standardised vector vector' u μ σ) (hσ : σ ≠ 0)
    (hX : (threeFactor s t u).IsData X) (hN : (threeFactor s t u).IsData Nw) (hT : ∑ q, (threeFactor s t u).val Nw q ≠ 0)
    (pinvh : List (List ℝ) → Except Err (List (List ℝ))) (tol : ℝ) {o o' : Fit.Obj ℝ (List (List ℝ))} (hat : AtPoint (threeFactor s t u) 3 θ o.params)
    (hat' : AtPoint (threeFactor s t u) 3 (standardise s t μ σ hσ θ) o'.params) (hall : AllFree o.params) (hall' : AllFree o'.params) (hcv : o'.converged = o.converged)
    (maxSteps verbose : Nat)
    (hM : M = ⟨fooModel vector, PoissonT.like X Nw, PoissonT.gradLike X Nw, PoissonT.hessLike X Nw, Nw, [⟨[0, 1], linearT [1, 1]⟩], []⟩)
    (hM' : M' = ⟨fooModel vector', PoissonT.like X Nw, PoissonT.gradLike X Nw, PoissonT.hessLike X Nw, Nw, [⟨[0, 1], linearT [1, 1]⟩], []⟩) :
    ∀ r r', r = Fit.fit (M.env pinvh tol) o maxSteps verbose .newton → r' = Fit.fit (M'.env pinvh tol) o' maxSteps verbose .newton →
      r'.outcome = r.outcome ∧ r'.prints = r.prints ∧
        (∃ θ', AtPoint (threeFactor s t u) 3 θ' r.obj.params ∧ AtPoint (threeFactor s t u) 3 (standardise s t μ σ hσ θ') r'.obj.params) ∧
        ∀ v, r.outcome = .ok v → ∀ nan, ∃ J J' rs rs' e, r.obj.flatHess = some J ∧ r'.obj.flatHess = some J' ∧ stdErrorT M r.obj.params J nan = .ok rs ∧
          stdErrorT M' r'.obj.params J' nan = .ok rs' ∧ entry rs 2 0 = some e ∧ (entry rs' 2 0 = some (|σ| * e) ∨ e = nan ∧ entry rs' 2 0 = some nan) := by
  subst hM hM'
  exact standardised_fit hs ht hv hσ (C68_example_poisson hs ht hu hv.dim hv.size hX hN hT) (C68_example_poisson hs ht hu hv.dim' hv.size' hX hN hT)
    (fun θ h => smoothAt_poisson _ _ h) pinvh tol hat hat' hall hall' hcv maxSteps verbose

/-- **C83.** The same for test_logistic (tests.py:378-409). -/
theorem C83_example_logistic (hs : s ≠ 0) (ht : t ≠ 0) (hu : u ≠ 0) (hv : Standardised vector vector' u μ σ) (hσ : σ ≠ 0)
    (hX : (threeFactor s t u).IsData X) (hN : (threeFactor s t u).IsData Nw) (hT : ∑ q, (threeFactor s t u).val Nw q ≠ 0)
    (pinvh : List (List ℝ) → Except Err (List (List ℝ))) (tol : ℝ) {o o' : Fit.Obj ℝ (List (List ℝ))} (hat : AtPoint (threeFactor s t u) 3 θ o.params)
    (hat' : AtPoint (threeFactor s t u) 3 (standardise s t μ σ hσ θ) o'.params) (hall : AllFree o.params) (hall' : AllFree o'.params) (hcv : o'.converged = o.converged)
    (maxSteps verbose : Nat)
    (hM : M = ⟨fooModel vector, LogisticT.like X Nw, LogisticT.gradLike X Nw, LogisticT.hessLike X Nw, Nw, [⟨[0, 1], linearT [1, 1]⟩], []⟩)
    (hM' : M' = ⟨fooModel vector', LogisticT.like X Nw, LogisticT.gradLike X Nw, LogisticT.hessLike X Nw, Nw, [⟨[0, 1], linearT [1, 1]⟩], []⟩) :
    ∀ r r', r = Fit.fit (M.env pinvh tol) o maxSteps verbose .newton → r' = Fit.fit (M'.env pinvh tol) o' maxSteps verbose .newton →
      r'.outcome = r.outcome ∧ r'.prints = r.prints ∧
        (∃ θ', AtPoint (threeFactor s t u) 3 θ' r.obj.params ∧ AtPoint (threeFactor s t u) 3 (standardise s t μ σ hσ θ') r'.obj.params) ∧
        ∀ v, r.outcome = .ok v → ∀ nan, ∃ J J' rs rs' e, r.obj.flatHess = some J ∧ r'.obj.flatHess = some J' ∧ stdErrorT M r.obj.params J nan = .ok rs ∧
          stdErrorT M' r'.obj.params J' nan = .ok rs' ∧ entry rs 2 0 = some e ∧ (entry rs' 2 0 = some (|σ| * e) ∨ e = nan ∧ entry rs' 2 0 = some nan) := by
  subst hM hM'
  exact standardised_fit hs ht hv hσ (C68_example_logistic hs ht hu hv.dim hv.size hX hN hT) (C68_example_logistic hs ht hu hv.dim' hv.size' hX hN hT)
    (fun θ h => smoothAt_logistic _ _ h) pinvh tol hat hat' hall hall' hcv maxSteps verbose

end

/-- The parameters `a`, `b` and `h` with the values `θ`, all free. -/
noncomputable def threeParams (s t : Nat) (θ : Theta) : List (Param ℝ) :=
  [⟨[s], (List.range s).map (θ 0), List.replicate s false⟩, ⟨[t], (List.range t).map (θ 1), List.replicate t false⟩, ⟨[], [θ 2 0], [false]⟩]

/-- Objects and covariates as the theorems above ask for, for every `θ` and every covariate. -/
theorem C83_example_start (s t u : Nat) (θ : Theta) (v : Nat → ℝ) (μ σ : ℝ) (hσ : σ ≠ 0) :
    Standardised ⟨1, fun _ => u, fun k => v (k 0)⟩ ⟨1, fun _ => u, fun k => (v (k 0) - μ) / σ⟩ u μ σ ∧
    AtPoint (threeFactor s t u) 3 θ (threeParams s t θ) ∧ AtPoint (threeFactor s t u) 3 (standardise s t μ σ hσ θ) (threeParams s t (standardise s t μ σ hσ θ)) ∧
    AllFree (threeParams s t θ) ∧ AllFree (threeParams s t (standardise s t μ σ hσ θ)) := by
  have hat : ∀ θ, AtPoint (threeFactor s t u) 3 θ (threeParams s t θ) := by
    intro θ
    refine ⟨rfl, fun p hp => ?_⟩
    obtain rfl | rfl | rfl : p = 0 ∨ p = 1 ∨ p = 2 := by omega
    · exact ⟨_, rfl, by simp [Problem.sizes, threeFactor], by simp, by simp, fun a ha => by simp at ha; simp [List.getD_eq_getElem?_getD, ha]⟩
    · exact ⟨_, rfl, by simp [Problem.sizes, threeFactor], by simp, by simp, fun a ha => by simp at ha; simp [List.getD_eq_getElem?_getD, ha]⟩
    · exact ⟨_, rfl, by simp [Problem.sizes, threeFactor], by simp, by simp, fun a ha => by simp at ha; simp [ha]⟩
  have hall : ∀ θ, AllFree (threeParams s t θ) := by
    intro θ q hq c hc
    simp only [threeParams, List.mem_cons, List.not_mem_nil, or_false] at hq
    rcases hq with rfl | rfl | rfl
    · exact (List.mem_replicate.1 hc).2
    · exact (List.mem_replicate.1 hc).2
    · simpa using hc
  refine ⟨⟨rfl, rfl, rfl, rfl, fun k hk => ?_⟩, hat θ, hat _, hall _, hall _⟩
  simp [NDArray.get]

end Verif.Tens
