import Verif.Lemmas.Concave
import Verif.Props.ErrorsTensor
import Verif.Props.FitExamples

/-!
# C70: fits with a linear model
-/

set_option linter.unusedSectionVars false

namespace Verif.Tens
open Verif.Params

variable {pr : Problem} {m : Nat} {L : Theta → ℝ} {M : MaxLikeT ℝ} {cs : List (List Nat × List ℝ)} {qs : List (List Nat × ℝ × ℝ)} {T : ℝ}
  {y : Theta → pr.Cell → ℝ} {x : pr.Cell → Nat → Nat → ℝ} {seen : pr.Cell → Prop}
  {pinvh : List (List ℝ) → Except Err (List (List ℝ))} {tol : ℝ}

theorem conDers_eq (θ : Theta) : ((linCons pr cs).map fun c => c.der θ) = conDers pr cs := by
  unfold conDers linCons
  rw [List.map_map, List.map_map]
  rfl

/-! ### the layout -/

theorem freeSum_layout {ps qs : List (Param ℝ)} (h : SameLayout ps qs) (F : Nat → Nat → ℝ) : freeSum ps F = freeSum qs F := by
  classical
  unfold freeSum
  have hl : ps.length = qs.length := by have := congrArg List.length h; simpa using this
  have hs : (ps.map fun p => p.shape.prod) = qs.map fun p => p.shape.prod := by
    have := congrArg (List.map fun z : List Nat × List Bool => z.1.prod) h
    simpa [List.map_map, Function.comp_def] using this
  rw [hl, hs]
  refine Finset.sum_congr rfl fun i _ => Finset.sum_congr rfl fun a _ => ?_
  simp only [layout_free h]

theorem WellPosed.layout {ps ps' : List (Param ℝ)} (h : SameLayout ps ps') (hw : WellPosed pr ps' cs qs x seen) : WellPosed pr ps cs qs x seen := by
  refine ⟨fun u hu hx hp i a hf => ?_, fun μ hl h0 => hw.independent μ hl fun i a hf => h0 i a ((layout_free h).2 hf)⟩
  refine hw.identified u (fun d hd => ?_) (fun c hc => ?_) (fun i a hf => hp i a ((layout_free h).2 hf)) i a ((layout_free h).1 hf)
  · rw [← freeSum_layout h]; exact hu d hd
  · rw [← freeSum_layout h]; exact hx c hc

theorem ConcaveProblem.concave (hP : ConcaveProblem pr m M L cs qs T y x seen) {D : Theta → Nat → Nat → ℝ} {H : Theta → Nat → Nat → Nat → Nat → ℝ}
    (hD : Derivs pr m (fun _ => True) (penalised L (quadPens pr qs)) D H) {θ : Theta} {params : List (Param ℝ)} (hat : AtPoint pr m θ params)
    (hw : WellPosed pr params cs qs x seen) : SymmetricHess params (H θ) ∧ Concave params (H θ) ((linCons pr cs).map fun c => c.der θ) := by
  obtain ⟨k, hk⟩ := hP.linear
  obtain ⟨l, l1, w, hl, hL, hs⟩ := hP.cells
  refine ⟨symmetric_linear hP.solver hL hl hk (fun φ hφ => ?_) hD hat, concave_linear hP.pens hP.solver hL hl hk hD hat ?_⟩
  · obtain ⟨q, hq, rfl⟩ := List.mem_map.1 hφ
    obtain ⟨h1, h2, h3⟩ := hP.pens q hq
    exact quad_convex h1 h2 _ h3
  · rw [conDers_eq]
    intro u hu hx hp
    exact hw.identified u hu (fun c hc => hx c (hs c _ hc)) hp

/-- **C70.** A Newton fit of a concave, well posed problem never raises `LinAlgError`, from any start point and for any tolerance and number of steps: it converges,
or raises `ConvergenceError` (5 halvings of the step without improvement, or `max_steps` steps), or divides by an objective that is exactly 0. -/
theorem C70_never_singular (hP : ConcaveProblem pr m M L cs qs T y x seen) {θ : Theta} {o : Fit.Obj ℝ (List (List ℝ))} (hat : AtPoint pr m θ o.params)
    (hF : 1 ≤ totalFree o.params) (hw : WellPosed pr o.params cs qs x seen) {maxSteps verbose : Nat} {r : Fit.Result ℝ (List (List ℝ))}
    (hr : r = Fit.fit (M.env pinvh tol) o maxSteps verbose .newton) :
    r.outcome = .ok true ∨ r.outcome = .error .convergenceStep ∨ r.outcome = .error .convergence ∨
      (r.outcome = .error .zeroDivision ∧ ∃ q θ', Visited o r q ∧ AtPoint pr m θ' q ∧ penalised L (quadPens pr qs) θ' = 0) := by
  subst hr
  have hM := hP.solver
  have hd := tried_dom (dom := fun _ => True) hM.pos (fun _ => trivial) (M.env pinvh tol) hat (maxSteps := maxSteps) (verbose := verbose)
  rcases C68_outcomes hM (θ := θ) trivial hat hF hd with ⟨h, -⟩ | ⟨h, q, v, e⟩ | ⟨h, q, θ', v, e, -, z⟩ | ⟨h, -⟩ | ⟨h, -⟩
  · exact Or.inl h
  · exfalso
    obtain ⟨θ', hat', hl⟩ : ∃ θ', AtPoint pr m θ' q ∧ SameLayout q o.params := by
      rcases v with rfl | ⟨tr, ht, hq⟩
      · exact ⟨θ, hat, rfl⟩
      · obtain ⟨θ', -, h'⟩ := hd tr ht q hq
        exact ⟨θ', h', (tried_keeps (M.env pinvh tol) (hat.ne hM.pos) hat.wf tr ht q hq).1⟩
    obtain ⟨D, H, hD, hst⟩ := C69_step_exists hM
    have hw' := hw.layout hl
    obtain ⟨s, v', J, e'⟩ := hst pinvh tol θ' trivial q hat' (by rw [Flat.SameLayout.totalFree hl]; exact hF) (hP.concave hD hat' hw').2
      (by rw [conDers_eq]; exact hw'.independent)
    rw [e] at e'
    cases e'
  · exact Or.inr (Or.inr (Or.inr ⟨h, q, θ', v, e, z⟩))
  · exact Or.inr (Or.inl h)
  · exact Or.inr (Or.inr (Or.inl h))

/-- **C70.** After a Newton fit of a concave, well posed problem with at least one constraint that returned, `std_error()` and `error_matrix()` return the standard
errors and the covariances of the constrained estimate, from the second derivatives at a point that the fit visited; they do not raise and no free entry is NaN. -/
theorem C70_errors (hP : ConcaveProblem pr m M L cs qs T y x seen) (hc : cs ≠ []) : ∃ D H, Derivs pr m (fun _ => True) (penalised L (quadPens pr qs)) D H ∧
    ∀ pinvh tol θ (o : Fit.Obj ℝ (List (List ℝ))), AtPoint pr m θ o.params → WellPosed pr o.params cs qs x seen → ∀ maxSteps verbose b r,
      r = Fit.fit (M.env pinvh tol) o maxSteps verbose .newton → r.outcome = .ok b →
      ∃ q θ' J, Visited o r q ∧ AtPoint pr m θ' q ∧ r.obj.flatHess = some J ∧ ∀ nan,
        (∃ rs, stdErrorT M r.obj.params J nan = .ok rs ∧ StdErrors r.obj.params (H θ') (conDers pr cs) nan rs) ∧
        ∃ E bs, IsCovariance r.obj.params (H θ') (conDers pr cs) E ∧ errorMatrixT r.obj.params J nan = .ok bs ∧ IsBlocks r.obj.params E nan bs := by
  have hM := hP.solver
  obtain ⟨D, H, hD, hst⟩ := C69_after_fit hM
  refine ⟨D, H, hD, fun pinvh tol θ o hat hw maxSteps verbose b r hr h => ?_⟩
  have hd := tried_dom (dom := fun _ => True) hM.pos (fun _ => trivial) (M.env pinvh tol) hat (maxSteps := maxSteps) (verbose := verbose)
  rw [← hr] at hd
  obtain ⟨q, θ', J, v1, -, v3, v4, -, v6⟩ := hst pinvh tol θ trivial o hat maxSteps verbose b r hr h hd
  have hC2 := Fit.C02_fixed_unchanged (M.env pinvh tol) o maxSteps verbose .newton hat.wf
  rw [← hr] at hC2
  have hlq : SameLayout q o.params := by
    rcases v1 with rfl | ⟨tr, ht, hq⟩
    · rfl
    · rw [hr] at ht
      exact (tried_keeps (M.env pinvh tol) (hat.ne hM.pos) hat.wf tr ht q hq).1
  obtain ⟨s1, s2⟩ := hP.concave hD v3 (hw.layout hlq)
  have hl : SameLayout r.obj.params q := hC2.1.trans hlq.symm
  have s1' : SymmetricHess r.obj.params (H θ') := fun i a b h1 h2 => s1 i a b ((layout_free hl).1 h1) ((layout_free hl).1 h2)
  have s2' : Concave r.obj.params (H θ') ((linCons pr cs).map fun c => c.der θ') := by
    rintro u hu ⟨i, a, hf, hn⟩
    have := s2 u (fun d hd => by rw [← freeSum_layout hl]; exact hu d hd) ⟨i, a, (layout_free hl).1 hf, hn⟩
    unfold curvature at this ⊢
    rw [freeSum_layout hl]
    simp only [freeSum_layout hl]
    exact this
  refine ⟨q, θ', J, v1, v3, v4, fun nan => ?_⟩
  obtain ⟨w1, w2⟩ := v6 s1' nan
  have hlen : 1 ≤ (linCons pr cs).length := by
    rw [linCons, List.length_map]
    exact List.length_pos_of_ne_nil hc
  have w3 := w2 hlen s2'
  rw [conDers_eq] at w1 w3
  exact ⟨w3, w1⟩

/-! ### the maximum -/

theorem quad_gap {pm : List Nat} (hn : pm.Nodup) (hlt : ∀ p ∈ pm, p < m) (v : ℝ) {s : ℝ} (hs : s ≠ 0) (θ θ' : Theta) :
    (quadPen pr pm v s).val θ' - (quadPen pr pm v s).val θ - allSum pr m (fun p a => (quadPen pr pm v s).der θ p a * (θ' p a - θ p a)) =
      allSum pr m fun p a => if p ∈ pm then ((θ' p a - θ p a) / s) ^ 2 else 0 := by
  simp only [quadPen]
  rw [sum_picked hn hlt fun p => ∑ a ∈ Finset.range (pr.sizes p).prod, ((θ p a - v) / s) ^ 2,
    sum_picked hn hlt fun p => ∑ a ∈ Finset.range (pr.sizes p).prod, ((θ' p a - v) / s) ^ 2]
  unfold allSum
  rw [← Finset.sum_sub_distrib, ← Finset.sum_sub_distrib]
  refine Finset.sum_congr rfl fun p _ => ?_
  by_cases hp : p ∈ pm
  · simp only [hp, if_true]
    rw [← Finset.sum_sub_distrib, ← Finset.sum_sub_distrib]
    refine Finset.sum_congr rfl fun a _ => ?_
    field_simp
    ring
  · simp [hp]

theorem allSum_nonneg {F : Nat → Nat → ℝ} (h : ∀ p a, 0 ≤ F p a) : 0 ≤ allSum pr m F :=
  Finset.sum_nonneg fun p _ => Finset.sum_nonneg fun a _ => h p a

theorem allSum_zero {F : Nat → Nat → ℝ} (h : ∀ p a, 0 ≤ F p a) (h0 : allSum pr m F = 0) {p a : Nat} (hp : p < m) (ha : a < (pr.sizes p).prod) : F p a = 0 := by
  unfold allSum at h0
  have h1 := (Finset.sum_eq_zero_iff_of_nonneg fun p _ => Finset.sum_nonneg fun a _ => h p a).1 h0 p (Finset.mem_range.2 hp)
  exact (Finset.sum_eq_zero_iff_of_nonneg fun a _ => h p a).1 h1 a (Finset.mem_range.2 ha)

theorem allSum_list {ι : Type} (F : ι → Nat → Nat → ℝ) : ∀ l : List ι, allSum pr m (fun p a => (l.map fun z => F z p a).sum) = (l.map fun z => allSum pr m (F z)).sum
  | [] => by simp [allSum]
  | z :: l => by
    simp only [List.map_cons, List.sum_cons]
    rw [← allSum_list F l]
    unfold allSum
    simp only [Finset.sum_add_distrib]

theorem allSum_cells {ι : Type} [Fintype ι] (F : ι → Nat → Nat → ℝ) : allSum pr m (fun p a => ∑ c, F c p a) = ∑ c, allSum pr m (F c) := by
  unfold allSum
  rw [Finset.sum_comm (s := Finset.univ)]
  refine Finset.sum_congr rfl fun p _ => ?_
  rw [Finset.sum_comm (s := Finset.univ)]

theorem list_sum_sub {ι : Type} (F G : ι → ℝ) : ∀ l : List ι, (l.map F).sum - (l.map G).sum = (l.map fun z => F z - G z).sum
  | [] => by simp
  | z :: l => by simp only [List.map_cons, List.sum_cons]; rw [← list_sum_sub F G l]; ring

/-- The objective at `θ'`: the tangent at `θ`, minus a gap for each cell and for each penalty. -/
theorem gap_cells {l l1 w : pr.Cell → ℝ → ℝ} {k : pr.Cell → ℝ} (hM : Solver pr m (fun _ => True) M L (linCons pr cs) (quadPens pr qs) T)
    (hpens : ∀ q ∈ qs, q.1.Nodup ∧ (∀ p ∈ q.1, p < m) ∧ q.2.2 ≠ 0) (hL : ∀ θ, L θ = ∑ c, l c (y θ c)) (hl : ConcaveCells l l1 w) (hk : LinearModel pr m y k x)
    {D : Theta → Nat → Nat → ℝ} {H : Theta → Nat → Nat → Nat → Nat → ℝ} (hD : Derivs pr m (fun _ => True) (penalised L (quadPens pr qs)) D H) (θ θ' : Theta) :
    penalised L (quadPens pr qs) θ' = penalised L (quadPens pr qs) θ + allSum pr m (fun p a => D θ p a * (θ' p a - θ p a)) -
      ∑ c, (l c (y θ c) + l1 c (y θ c) * (y θ' c - y θ c) - l c (y θ' c)) -
      (qs.map fun q => allSum pr m fun p a => if p ∈ q.1 then ((θ' p a - θ p a) / q.2.2) ^ 2 else 0).sum := by
  obtain ⟨h1, -⟩ := derivs_eq hM hL hl hk hD
  have e1 : allSum pr m (fun p a => D θ p a * (θ' p a - θ p a)) = ∑ c, l1 c (y θ c) * (y θ' c - y θ c) -
      ((quadPens pr qs).map fun φ => allSum pr m fun p a => φ.der θ p a * (θ' p a - θ p a)).sum := by
    rw [← allSum_list]
    have : ∀ c, l1 c (y θ c) * (y θ' c - y θ c) = allSum pr m fun p a => l1 c (y θ c) * x c p a * (θ' p a - θ p a) := by
      intro c
      rw [linear_diff hk]
      unfold allSum
      rw [Finset.mul_sum]
      refine Finset.sum_congr rfl fun p _ => ?_
      rw [Finset.mul_sum]
      exact Finset.sum_congr rfl fun a _ => by ring
    simp only [this]
    rw [← allSum_cells]
    unfold allSum
    rw [← Finset.sum_sub_distrib]
    refine Finset.sum_congr rfl fun p hp => ?_
    rw [← Finset.sum_sub_distrib]
    refine Finset.sum_congr rfl fun a ha => ?_
    beta_reduce
    rw [h1 θ p (Finset.mem_range.1 hp) a (Finset.mem_range.1 ha), sub_mul, Finset.sum_mul, ← List.sum_map_mul_right]
  have e2 : (qs.map fun q => allSum pr m fun p a => if p ∈ q.1 then ((θ' p a - θ p a) / q.2.2) ^ 2 else 0) =
      (quadPens pr qs).map fun φ => φ.val θ' - φ.val θ - allSum pr m fun p a => φ.der θ p a * (θ' p a - θ p a) := by
    unfold quadPens
    rw [List.map_map]
    refine List.map_congr_left fun q hq => ?_
    obtain ⟨q1, q2, q3⟩ := hpens q hq
    exact (quad_gap q1 q2 _ q3 θ θ').symm
  rw [e2, ← list_sum_sub (fun φ : Pen => φ.val θ' - φ.val θ), ← list_sum_sub (fun φ : Pen => φ.val θ'), e1]
  simp only [penalised, hL, Finset.sum_sub_distrib, Finset.sum_add_distrib]
  ring

theorem gap_eq (hP : ConcaveProblem pr m M L cs qs T y x seen) {D : Theta → Nat → Nat → ℝ} {H : Theta → Nat → Nat → Nat → Nat → ℝ}
    (hD : Derivs pr m (fun _ => True) (penalised L (quadPens pr qs)) D H) (θ θ' : Theta) : ∃ g : pr.Cell → ℝ, (∀ c, 0 ≤ g c) ∧
    (∀ c, seen c → g c = 0 → y θ' c = y θ c) ∧
    penalised L (quadPens pr qs) θ' = penalised L (quadPens pr qs) θ + allSum pr m (fun p a => D θ p a * (θ' p a - θ p a)) - ∑ c, g c -
      (qs.map fun q => allSum pr m fun p a => if p ∈ q.1 then ((θ' p a - θ p a) / q.2.2) ^ 2 else 0).sum := by
  obtain ⟨k, hk⟩ := hP.linear
  obtain ⟨l, l1, w, hl, hL, hs⟩ := hP.cells
  refine ⟨fun c => l c (y θ c) + l1 c (y θ c) * (y θ' c - y θ c) - l c (y θ' c), fun c => by linarith [below_tangent hl c (y θ c) (y θ' c)], fun c hc h0 => ?_, ?_⟩
  · by_contra hne
    have := below_tangent_strict hl c (fun t => hs c t hc) hne
    linarith
  · exact gap_cells hP.solver hP.pens hL hl hk hD θ θ'

theorem zip_sum_zero {ds : List Con} {μ : List ℝ} {F : Con → ℝ} (h : ∀ c ∈ ds, F c = 0) : ((ds.zip μ).map fun z => F z.1 * z.2).sum = 0 := by
  refine List.sum_eq_zero fun z hz => ?_
  obtain ⟨w, hw, rfl⟩ := List.mem_map.1 hz
  rw [h _ (List.of_mem_zip hw).1, zero_mul]

/-- **C70.** A point of a concave problem that satisfies the first order conditions (the points where the Newton step is 0, `C68_step_zero_iff`) is a maximum over all
the points that satisfy the constraints and have the same fixed entries: there are no other local maxima.  If the data determine the parameters, it is the only one. -/
theorem C70_global_maximum (hP : ConcaveProblem pr m M L cs qs T y x seen) {θ : Theta} {params : List (Param ℝ)} (hat : AtPoint pr m θ params)
    (hk : FirstOrder params (penalised L (quadPens pr qs)) (linCons pr cs) θ) {θ' : Theta} (hf : Feasible pr params cs θ θ') :
    penalised L (quadPens pr qs) θ' ≤ penalised L (quadPens pr qs) θ ∧
    (WellPosed pr params cs qs x seen → penalised L (quadPens pr qs) θ' = penalised L (quadPens pr qs) θ → ∀ p < m, ∀ a < (pr.sizes p).prod, θ' p a = θ p a) := by
  obtain ⟨D, H, hD, -⟩ := C68_newton_step hP.solver
  obtain ⟨k, hlin⟩ := hP.linear
  obtain ⟨hk0, μ, hμ, hst⟩ := hk
  have hz : ∀ F : Nat → Nat → ℝ, allSum pr m (fun p a => F p a * (θ' p a - θ p a)) = freeSum params fun p a => F p a * (θ' p a - θ p a) := fun F =>
    allSum_free hat fun i a h => by rw [hf.2 i a h, sub_self, mul_zero]
  have hcon : ∀ c ∈ linCons pr cs, freeSum params (fun p a => c.der θ p a * (θ' p a - θ p a)) = 0 := by
    intro c hc
    have h1 := hf.1 c hc
    have h2 := hk0 c hc
    obtain ⟨q, hq, rfl⟩ := List.mem_map.1 hc
    obtain ⟨q1, q2⟩ := hP.cons q hq
    rw [← hz, ← lin_diff q1 q2, h1, h2, sub_zero]
  have h0 : allSum pr m (fun p a => D θ p a * (θ' p a - θ p a)) = 0 := by
    rw [hz]
    have e : ∀ i a, isFree params i a → D θ i a * (θ' i a - θ i a) = (((linCons pr cs).zip μ).map fun z => z.1.der θ i a * (θ' i a - θ i a) * z.2).sum := by
      intro i a hfr
      have := hasPartial_unique (hst i a hfr) (lagrange hD hP.solver trivial hat μ hfr)
      rw [show D θ i a = (((linCons pr cs).zip μ).map fun z => z.1.der θ i a * z.2).sum by linarith, ← List.sum_map_mul_right]
      congr 1
      exact List.map_congr_left fun z _ => by ring
    rw [freeSum_eq hat.masks, Finset.sum_congr rfl fun p hp => e p.1 p.2 (mem_freeSet.1 hp)]
    have : ∀ l : List (Con × ℝ), ∑ p ∈ freeSet params, (l.map fun z => z.1.der θ p.1 p.2 * (θ' p.1 p.2 - θ p.1 p.2) * z.2).sum =
        (l.map fun z => freeSum params (fun p a => z.1.der θ p a * (θ' p a - θ p a)) * z.2).sum := by
      intro l
      induction l with
      | nil => simp
      | cons z l ih =>
        simp only [List.map_cons, List.sum_cons]
        rw [Finset.sum_add_distrib, ih, freeSum_eq hat.masks, Finset.sum_mul]
    rw [this]
    exact zip_sum_zero hcon
  obtain ⟨g, g1, g2, g3⟩ := gap_eq hP hD θ θ'
  rw [h0] at g3
  have hg : 0 ≤ ∑ c, g c := Finset.sum_nonneg fun c _ => g1 c
  have hsq : ∀ q : List Nat × ℝ × ℝ, ∀ p a, 0 ≤ if p ∈ q.1 then ((θ' p a - θ p a) / q.2.2) ^ 2 else 0 := by
    intro q p a
    split_ifs
    · positivity
    · exact le_rfl
  have hn : ∀ z ∈ qs.map (fun q => allSum pr m fun p a => if p ∈ q.1 then ((θ' p a - θ p a) / q.2.2) ^ 2 else 0), 0 ≤ z := by
    intro z hz
    obtain ⟨q, -, rfl⟩ := List.mem_map.1 hz
    exact allSum_nonneg (hsq q)
  have hqs := List.sum_nonneg hn
  refine ⟨by linarith, fun hw he p hp a ha => ?_⟩
  have e1 : ∑ c, g c = 0 := by linarith
  have e2 : (qs.map fun q => allSum pr m fun p a => if p ∈ q.1 then ((θ' p a - θ p a) / q.2.2) ^ 2 else 0).sum = 0 := by linarith
  obtain ⟨q, q1, q2, q3, -⟩ := hat.each p hp
  have ha' : a < q.mask.length := by rw [q3, q2]; exact ha
  cases hb : q.mask[a] with
  | true => exact hf.2 p a ⟨q, q1, by rw [List.getElem?_eq_getElem ha', hb]⟩
  | false =>
    have := hw.identified (fun p a => θ' p a - θ p a) (fun d hd => ?_) (fun c hc => ?_) (fun i b hfr hp => ?_) p a ⟨q, q1, by rw [List.getElem?_eq_getElem ha', hb]⟩
    · linarith
    · rw [← conDers_eq θ] at hd
      obtain ⟨c, hc, rfl⟩ := List.mem_map.1 hd
      exact hcon c hc
    · rw [← hz, ← linear_diff hlin, g2 c hc ((Finset.sum_eq_zero_iff_of_nonneg fun c _ => g1 c).1 e1 c (Finset.mem_univ _)), sub_self]
    · obtain ⟨q', hq', hp'⟩ := hp
      obtain ⟨b1, b2⟩ := hat.free hfr
      have h1 := sum_zero_all hn e2 _ (List.mem_map.2 ⟨q', hq', rfl⟩)
      have h2 := allSum_zero (hsq q') h1 b1 b2
      rw [if_pos hp'] at h2
      have h3 := (pow_eq_zero_iff two_ne_zero).1 h2
      exact (div_eq_zero_iff.1 h3).resolve_right (hP.pens q' hq').2.2

end Verif.Tens
