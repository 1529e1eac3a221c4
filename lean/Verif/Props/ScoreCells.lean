import Verif.Props.Score

/-!
# C86: the residuals of the cells
-/

namespace Verif.Tens
open Verif.Params

set_option linter.unusedSectionVars false

section
variable {pr : Problem} {m : Nat} {cs : List (List Nat × List ℝ)} {qs : List (List Nat × ℝ × ℝ)} {T : ℝ} {M : MaxLikeT ℝ}
  {y : Theta → pr.Cell → ℝ} {k : pr.Cell → ℝ} {x : pr.Cell → Nat → Nat → ℝ} {X N : pr.Cell → ℝ}

theorem score_cells {L : Theta → ℝ} {seen : pr.Cell → Prop} (hP : ConcaveProblem pr m M L cs qs T y x seen) {l l1 w : pr.Cell → ℝ → ℝ} (hl : ConcaveCells l l1 w)
    (hL : ∀ θ, L θ = ∑ c, l c (y θ c)) {θ : Theta} {params : List (Param ℝ)} (hat : AtPoint pr m θ params) (hF : 1 ≤ totalFree params)
    {pinvh : List (List ℝ) → Except Err (List (List ℝ))} {tol : ℝ} {step v : List ℝ} {g : ℝ} {J : List (List ℝ)}
    (hstep : Fit.newtonStep (M.env pinvh tol) params = .ok (step, g, v, J)) (h0 : ∀ z ∈ step, z = 0) {θ' : Theta} (hf : Feasible pr params cs θ θ') :
    ∑ c, l1 c (y θ c) * (y θ' c - y θ c) =
      (qs.map fun q => ∑ i ∈ Finset.range q.1.length, ∑ a ∈ Finset.range (pr.sizes (q.1.getD i 0)).prod,
        2 * (θ (q.1.getD i 0) a - q.2.1) / q.2.2 ^ 2 * (θ' (q.1.getD i 0) a - θ (q.1.getD i 0) a)).sum := by
  obtain ⟨k, hy⟩ := hP.linear
  have hfo := (C68_step_zero_iff hP.solver trivial hat hF hstep).1 h0
  have h00 : Feasible pr params cs θ θ := ⟨hfo.1, fun _ _ _ => rfl⟩
  have hmax := fun t => (C70_global_maximum hP hat hfo (Feasible.line hP.cons h00 hf t)).1
  have hlin : ∀ c t, y (linePoint θ θ' t) c = y θ c + t * (y θ' c - y θ c) := by
    intro c t
    have e1 := linear_diff hy θ θ' c
    have e2 := linear_diff hy θ (linePoint θ θ' t) c
    have : (fun p a => x c p a * (linePoint θ θ' t p a - θ p a)) = fun p a => t * (x c p a * (θ' p a - θ p a)) := by
      funext p a
      unfold linePoint
      ring
    rw [this, allSum_smul, ← e1] at e2
    linarith
  have hline : linePoint θ θ' 0 = θ := by
    funext p a
    unfold linePoint
    ring
  have hid : ∀ b d : ℝ, HasDerivAt (fun t => b + t * d) d 0 := fun b d => by
    simpa using ((hasDerivAt_id (0 : ℝ)).mul_const d).const_add b
  have d1 : HasDerivAt (fun t => L (linePoint θ θ' t)) (∑ c, l1 c (y θ c) * (y θ' c - y θ c)) 0 := by
    simp only [hL, hlin]
    refine HasDerivAt.fun_sum fun c _ => ?_
    have h1 := hl.first c (y θ c + 0 * (y θ' c - y θ c))
    refine (h1.comp (0 : ℝ) (hid (y θ c) (y θ' c - y θ c))).congr_deriv ?_
    rw [zero_mul, add_zero]
  have d2 := penalty_line (pr := pr) (qs := qs) θ θ'
  have hloc : IsLocalMax (fun t => L (linePoint θ θ' t) - ((quadPens pr qs).map fun φ => φ.val (linePoint θ θ' t)).sum) 0 := by
    refine Filter.Eventually.of_forall fun t => ?_
    have := hmax t
    unfold penalised at this
    simpa only [hline] using this
  have := hloc.hasDerivAt_eq_zero (d1.sub d2)
  linarith

/-- **C86.** The score equations of `Poisson` with a linear model, for the data `X` and `N` of the cells. -/
theorem C86_poisson (hS : Solver pr m (fun _ => True) M (fun θ => Like.Poisson.like X N (y θ)) (linCons pr cs) (quadPens pr qs) T) (hN : ∀ c, 0 ≤ N c)
    (hy : LinearModel pr m y k x) (hc : ∀ c ∈ cs, c.1.Nodup ∧ ∀ p ∈ c.1, p < m) (hq : ∀ q ∈ qs, q.1.Nodup ∧ (∀ p ∈ q.1, p < m) ∧ q.2.2 ≠ 0)
    {θ : Theta} {params : List (Param ℝ)} (hat : AtPoint pr m θ params) (hF : 1 ≤ totalFree params)
    {pinvh : List (List ℝ) → Except Err (List (List ℝ))} {tol : ℝ} {step v : List ℝ} {g : ℝ} {J : List (List ℝ)}
    (hstep : Fit.newtonStep (M.env pinvh tol) params = .ok (step, g, v, J)) (h0 : ∀ z ∈ step, z = 0) {θ' : Theta} (hf : Feasible pr params cs θ θ') :
    ∑ c, (X c - N c * Real.exp (y θ c)) * (y θ' c - y θ c) =
      (qs.map fun q => ∑ i ∈ Finset.range q.1.length, ∑ a ∈ Finset.range (pr.sizes (q.1.getD i 0)).prod,
        2 * (θ (q.1.getD i 0) a - q.2.1) / q.2.2 ^ 2 * (θ' (q.1.getD i 0) a - θ (q.1.getD i 0) a)).sum :=
  score_cells (C70_poisson hS hN hy hc hq) (cells_poisson hN) (fun _ => rfl) hat hF hstep h0 hf

/-- **C86.** The score equations of `Logistic` with a linear model, for the data `X` and `N` of the cells. -/
theorem C86_logistic (hS : Solver pr m (fun _ => True) M (fun θ => Like.Logistic.like X N (y θ)) (linCons pr cs) (quadPens pr qs) T) (hN : ∀ c, 0 ≤ N c)
    (hy : LinearModel pr m y k x) (hc : ∀ c ∈ cs, c.1.Nodup ∧ ∀ p ∈ c.1, p < m) (hq : ∀ q ∈ qs, q.1.Nodup ∧ (∀ p ∈ q.1, p < m) ∧ q.2.2 ≠ 0)
    {θ : Theta} {params : List (Param ℝ)} (hat : AtPoint pr m θ params) (hF : 1 ≤ totalFree params)
    {pinvh : List (List ℝ) → Except Err (List (List ℝ))} {tol : ℝ} {step v : List ℝ} {g : ℝ} {J : List (List ℝ)}
    (hstep : Fit.newtonStep (M.env pinvh tol) params = .ok (step, g, v, J)) (h0 : ∀ z ∈ step, z = 0) {θ' : Theta} (hf : Feasible pr params cs θ θ') :
    ∑ c, (X c - N c * (1 / (1 + Real.exp (-y θ c)))) * (y θ' c - y θ c) =
      (qs.map fun q => ∑ i ∈ Finset.range q.1.length, ∑ a ∈ Finset.range (pr.sizes (q.1.getD i 0)).prod,
        2 * (θ (q.1.getD i 0) a - q.2.1) / q.2.2 ^ 2 * (θ' (q.1.getD i 0) a - θ (q.1.getD i 0) a)).sum := by
  refine Eq.trans (Finset.sum_congr rfl fun c _ => ?_)
    (score_cells (C70_logistic hS hN hy hc hq) (cells_logistic (X := X) hN) (fun θ => by simp only [Like.Logistic.like, Finset.sum_neg_distrib]) hat hF hstep h0 hf)
  have h1 : 1 + Real.exp (-y θ c) ≠ 0 := by positivity
  congr 1
  field_simp
  ring

variable {s t u : Nat} {vector : NDArray ℝ}

/-- The value of the constraint of the tests. -/
noncomputable def linConVal (s t u : Nat) (θ : Theta) : ℝ := (linCon (threeFactor s t u) [0, 1] [1, 1]).val θ

theorem linCon_sum (θ : Theta) : (linCon (threeFactor s t u) [0, 1] [1, 1]).val θ = ∑ a ∈ Finset.range s, θ 0 a + ∑ a ∈ Finset.range t, θ 1 a := by
  simp [linCon, Finset.sum_range_succ, Problem.sizes, threeFactor]

/-- An instance of `C86_poisson`: test_poisson (tests.py:23-59), for all sizes and all data with positive weights, with all the parameters free.  When the Newton step is zero, the
fitted and the observed totals agree for each label of the first two features, and for the products with the numbers of `vector`. -/
theorem C86_example_poisson (hs : s ≠ 0) (ht : t ≠ 0) (hu : u ≠ 0) (h1 : vector.ndim = 1) (h2 : vector.shape 0 = u) {X Nw : Num ℝ}
    (hX : (threeFactor s t u).IsData X) (hN : (threeFactor s t u).IsData Nw) (hpos : ∀ c, 0 < (threeFactor s t u).val Nw c)
    {θ : Theta} {params : List (Param ℝ)} (hat : AtPoint (threeFactor s t u) 3 θ params) (hfree : ∀ i a, ¬ isFixed params i a) (hF : 1 ≤ totalFree params)
    {pinvh : List (List ℝ) → Except Err (List (List ℝ))} {tol : ℝ} {step v : List ℝ} {g : ℝ} {J : List (List ℝ)}
    (hstep : Fit.newtonStep (MaxLikeT.env ⟨fooModel vector, PoissonT.like X Nw, PoissonT.gradLike X Nw, PoissonT.hessLike X Nw, Nw, [⟨[0, 1], linearT [1, 1]⟩], []⟩ pinvh tol)
      params = .ok (step, g, v, J)) (h0 : ∀ z ∈ step, z = 0) :
    let pr := threeFactor s t u
    let fitted := fun c : pr.Cell => pr.val Nw c * Real.exp (θ 0 (pr.cellN c 0) - θ 1 (pr.cellN c 1) + θ 2 0 * vector.get fun _ => pr.cellN c 2)
    (∀ a < s, (∑ c, if pr.cellN c 0 = a then pr.val X c else 0) = ∑ c, if pr.cellN c 0 = a then fitted c else 0) ∧
    (∀ b < t, (∑ c, if pr.cellN c 1 = b then pr.val X c else 0) = ∑ c, if pr.cellN c 1 = b then fitted c else 0) ∧
    ∑ c, pr.val X c * (vector.get fun _ => pr.cellN c 2) = ∑ c, fitted c * vector.get fun _ => pr.cellN c 2 := by
  intro pr fitted
  have hval : ∀ θ c, valCell pr (fun θ n _ => fooVal vector θ n) θ c = θ 0 (pr.cellN c 0) - θ 1 (pr.cellN c 1) + θ 2 0 * vector.get fun _ => pr.cellN c 2 := fun θ c => rfl
  have hS := C68_example_poisson hs ht hu h1 h2 hX hN (foo_total hs ht hu hpos)
  have hz : linConVal s t u θ = 0 := ((C68_step_zero_iff hS trivial hat hF hstep).1 h0).1 _ (List.mem_singleton.2 rfl)
  have key : ∀ d : Nat → Nat → ℝ, linConVal s t u d = 0 → ∑ c, (pr.val X c - fitted c) * (d 0 (pr.cellN c 0) - d 1 (pr.cellN c 1) + d 2 0 * vector.get fun _ => pr.cellN c 2) = 0 := by
    intro d hd
    have := C86_poisson (cs := [([0, 1], [1, 1])]) (qs := []) hS (fun c => (hpos c).le) foo_linear (by simp) (by simp) hat hF hstep h0 (θ' := fun p a => θ p a + d p a)
      ⟨by
        intro c hc
        rw [List.mem_singleton.1 hc]
        have : linConVal s t u (fun p a => θ p a + d p a) = linConVal s t u θ + linConVal s t u d := by
          unfold linConVal
          simp only [linCon_sum, Finset.sum_add_distrib]
          ring
        rw [hz, hd, add_zero] at this
        exact this, fun i a h => absurd h (hfree i a)⟩
    simp only [List.map_nil, List.sum_nil] at this
    rw [← this]
    refine Finset.sum_congr rfl fun c _ => ?_
    rw [hval, hval]
    ring
  have hst : (s : ℝ) + t ≠ 0 := by
    have : (0 : ℝ) < s := by exact_mod_cast Nat.pos_of_ne_zero hs
    positivity
  have fin : ∀ (d : Nat → Nat → ℝ) (e : pr.Cell → ℝ), linConVal s t u d = 0 →
      (∀ c, d 0 (pr.cellN c 0) - d 1 (pr.cellN c 1) + d 2 0 * (vector.get fun _ => pr.cellN c 2) = e c) → ∑ c, pr.val X c * e c = ∑ c, fitted c * e c := by
    intro d e hd he
    have := key d hd
    rw [← sub_eq_zero, ← Finset.sum_sub_distrib, ← this]
    refine Finset.sum_congr rfl fun c _ => ?_
    rw [he]
    ring
  refine ⟨fun a ha => ?_, fun b hb => ?_, ?_⟩
  · have := fin (fun p q => if p = 2 then 0 else (if p = 0 ∧ q = a then 1 else 0) - 1 / (s + t)) (fun c => if pr.cellN c 0 = a then 1 else 0) (by
      simp only [linConVal, linCon_sum]
      simp [ha]
      field_simp
      ring) (fun c => by simp)
    simpa using this
  · have := fin (fun p q => if p = 2 then 0 else 1 / (s + t) - (if p = 1 ∧ q = b then 1 else 0)) (fun c => if pr.cellN c 1 = b then 1 else 0) (by
      simp only [linConVal, linCon_sum]
      simp [hb]
      field_simp
      ring) (fun c => by simp)
    simpa using this
  · exact fin (fun p q => if p = 2 then 1 else 0) _ (by simp [linConVal, linCon_sum]) (fun c => by simp)

end

end Verif.Tens
