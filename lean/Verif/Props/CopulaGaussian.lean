import Verif.Model.CopulaGaussian
import Verif.Props.Copula
import Mathlib.Probability.Moments.Basic

/-!
# C82: the Gaussian copula
-/

namespace Verif.Copula
open Verif.Params (Err)
open MeasureTheory ProbabilityTheory Finset

/-- The probability that a standard normal variable is below -999. -/
noncomputable def tail999 : ℝ := normalCdf (-999)

theorem normalCdf_mono : Monotone normalCdf := monotone_cdf _

theorem normalCdf_continuous : Continuous normalCdf := by
  refine continuous_iff_continuousAt.2 fun x => ?_
  unfold normalCdf
  rw [(monotone_cdf (gaussianReal 0 1)).continuousAt_iff_leftLim_eq_rightLim, StieltjesFunction.rightLim_eq]
  have h1 := (cdf (gaussianReal 0 1)).measure_singleton x
  have : NullSingletonClass (gaussianReal 0 1) := nullSingletonClass_gaussianReal one_ne_zero
  rw [measure_cdf, measure_singleton] at h1
  have h2 := ENNReal.ofReal_eq_zero.1 h1.symm
  have h3 := (monotone_cdf (gaussianReal 0 1)).leftLim_le (le_refl x)
  linarith

theorem normalCdf_eq (x : ℝ) : normalCdf x = (gaussianReal 0 1).real (Set.Iic x) := cdf_eq_real _ _

theorem exists_quantile {u : ℝ} (h0 : 0 < u) (h1 : u < 1) : ∃ x, normalCdf x = u := by
  have a1 := (tendsto_cdf_atBot (gaussianReal 0 1)).eventually (gt_mem_nhds h0)
  have a2 := (tendsto_cdf_atTop (gaussianReal 0 1)).eventually (lt_mem_nhds h1)
  obtain ⟨x, hx⟩ := a1.exists
  obtain ⟨y, hy⟩ := a2.exists
  exact mem_range_of_exists_le_of_exists_ge normalCdf_continuous ⟨x, hx.le⟩ ⟨y, hy.le⟩

theorem normalCdf_quantile {u : ℝ} (h0 : 0 < u) (h1 : u < 1) : normalCdf (Function.invFun normalCdf u) = u :=
  Function.invFun_eq (exists_quantile h0 h1)

theorem clip999_coe (x : ℝ) : clip999 (x : EReal) = max (-999) (min x 999) := by
  unfold clip999
  rw [← EReal.coe_strictMono.monotone.map_min, ← EReal.coe_strictMono.monotone.map_max, EReal.toReal_coe]

theorem clip999_bot : clip999 ⊥ = -999 := by
  unfold clip999
  rw [min_eq_left bot_le, max_eq_left bot_le, EReal.toReal_coe]

theorem clip999_top : clip999 ⊤ = 999 := by
  unfold clip999
  rw [min_eq_right le_top, ← EReal.coe_strictMono.monotone.map_max, EReal.toReal_coe]
  norm_num

/-- The clipped quantile. -/
noncomputable def cq (u : ℝ) : ℝ := clip999 (ndtri u)

theorem cq_zero : cq 0 = -999 := by
  unfold cq ndtri
  rw [if_pos le_rfl, clip999_bot]

theorem cq_one : cq 1 = 999 := by
  unfold cq ndtri
  rw [if_neg (by norm_num), if_pos le_rfl, clip999_top]

theorem cq_mid {u : ℝ} (h0 : 0 < u) (h1 : u < 1) : cq u = max (-999) (min (Function.invFun normalCdf u) 999) := by
  unfold cq ndtri
  rw [if_neg (not_le.2 h0), if_neg (not_le.2 h1), clip999_coe]

theorem cq_mem {u : ℝ} (h0 : 0 ≤ u) (h1 : u ≤ 1) : -999 ≤ cq u ∧ cq u ≤ 999 := by
  rcases eq_or_lt_of_le h0 with rfl | h0
  · rw [cq_zero]; norm_num
  rcases eq_or_lt_of_le h1 with rfl | h1
  · rw [cq_one]; norm_num
  rw [cq_mid h0 h1]
  exact ⟨le_max_left _ _, max_le (by norm_num) (min_le_right _ _)⟩

theorem cq_mono {u v : ℝ} (h0 : 0 ≤ u) (h : u ≤ v) (h1 : v ≤ 1) : cq u ≤ cq v := by
  rcases eq_or_lt_of_le h0 with rfl | h0
  · rw [cq_zero]; exact (cq_mem h h1).1
  rcases eq_or_lt_of_le h1 with rfl | h1
  · rw [cq_one]; exact (cq_mem h0.le h).2
  rcases eq_or_lt_of_le h with rfl | h
  · exact le_rfl
  rw [cq_mid h0 (h.trans h1), cq_mid (h0.trans h) h1]
  have : Function.invFun normalCdf u ≤ Function.invFun normalCdf v := by
    by_contra hc
    have := normalCdf_mono (not_le.1 hc).le
    rw [normalCdf_quantile h0 (h.trans h1), normalCdf_quantile (h0.trans h) h1] at this
    linarith
  exact max_le_max le_rfl (min_le_min this le_rfl)

theorem normalCdf_neg (x : ℝ) : normalCdf (-x) = 1 - normalCdf x := by
  have : NullSingletonClass (gaussianReal 0 1) := nullSingletonClass_gaussianReal one_ne_zero
  have hm : (gaussianReal 0 1).map (fun x => -x) = gaussianReal 0 1 := by rw [gaussianReal_map_neg, neg_zero]
  rw [normalCdf_eq, normalCdf_eq, ← probReal_compl_eq_one_sub measurableSet_Iic, Set.compl_Iic]
  nth_rewrite 1 [← hm]
  rw [map_measureReal_apply (by fun_prop) measurableSet_Iic]
  have : (fun x : ℝ => -x) ⁻¹' Set.Iic (-x) = Set.Ici x := by ext; simp
  rw [this]
  exact measureReal_congr Ioi_ae_eq_Ici.symm

theorem tail999_nonneg : 0 ≤ tail999 := cdf_nonneg _ _

/-- The mass outside of the box is negligible. -/
theorem C82_negligible : tail999 ≤ Real.exp (-(999 ^ 2 / 2)) := by
  have h := measure_le_le_exp_mul_mgf (μ := gaussianReal 0 1) (X := id) (t := -999) (-999) (by norm_num) (by simpa using integrable_exp_mul_gaussianReal (μ := 0) (v := 1) (-999))
  rw [mgf_id_gaussianReal, ← Real.exp_add] at h
  unfold tail999
  rw [normalCdf_eq]
  refine le_trans h (le_of_eq ?_)
  congr 1
  norm_num

theorem cdf_cq {u : ℝ} (h0 : 0 ≤ u) (h1 : u ≤ 1) : normalCdf (cq u) - tail999 ≤ u ∧ u - tail999 ≤ normalCdf (cq u) := by
  have e : normalCdf 999 = 1 - tail999 := by
    unfold tail999
    rw [normalCdf_neg]
    ring
  have hn := tail999_nonneg
  rcases eq_or_lt_of_le h0 with rfl | h0
  · rw [cq_zero]
    constructor
    · unfold tail999; linarith
    · unfold tail999 at *; linarith
  rcases eq_or_lt_of_le h1 with rfl | h1
  · rw [cq_one, e]
    constructor <;> linarith
  have hq := normalCdf_quantile h0 h1
  rw [cq_mid h0 h1]
  rcases le_total (Function.invFun normalCdf u) 999 with h | h
  · rw [min_eq_left h]
    rcases le_total (-999) (Function.invFun normalCdf u) with h' | h'
    · rw [max_eq_right h', hq]
      constructor <;> linarith
    · rw [max_eq_left h']
      have := normalCdf_mono h'
      rw [hq] at this
      unfold tail999 at *
      constructor <;> linarith
  · rw [min_eq_right h, max_eq_right (by norm_num), e]
    have := normalCdf_mono h
    rw [hq, e] at this
    constructor <;> linarith

/-! ### the bivariate normal distribution -/

/-- The covariance matrix of copula.py:25. -/
def covMatrix (rho : ℝ) : Matrix (Fin 2) (Fin 2) ℝ := !![1, rho; rho, 1]

/-- The distribution of copula.py:25. -/
noncomputable def bivariate (rho : ℝ) : Measure (EuclideanSpace ℝ (Fin 2)) := multivariateGaussian 0 (covMatrix rho)

instance (rho : ℝ) : IsProbabilityMeasure (bivariate rho) := by
  unfold bivariate
  infer_instance

theorem covMatrix_posSemidef {rho : ℝ} (h1 : rho ≤ 1) (h2 : -1 ≤ rho) : (covMatrix rho).PosSemidef := by
  refine Matrix.PosSemidef.of_dotProduct_mulVec_nonneg ?_ fun x => ?_
  · ext i j
    fin_cases i <;> fin_cases j <;> simp [covMatrix]
  · simp only [covMatrix, star_trivial, dotProduct, Matrix.mulVec, Fin.sum_univ_two, Matrix.of_apply, Matrix.cons_val', Matrix.cons_val_zero, Matrix.cons_val_one,
      Matrix.cons_val_fin_one]
    nlinarith [mul_nonneg (by linarith : (0 : ℝ) ≤ 1 - rho) (sq_nonneg (x 0 - x 1)), mul_nonneg (by linarith : (0 : ℝ) ≤ 1 + rho) (sq_nonneg (x 0 + x 1))]

/-- Each coordinate is standard normal. -/
theorem coord_law {rho : ℝ} (h1 : rho ≤ 1) (h2 : -1 ≤ rho) (i : Fin 2) : MeasurePreserving (fun z : EuclideanSpace ℝ (Fin 2) => z i) (bivariate rho) (gaussianReal 0 1) := by
  have h := measurePreserving_eval_multivariateGaussian (μ := (0 : EuclideanSpace ℝ (Fin 2))) (covMatrix_posSemidef h1 h2) (i := i)
  have e : (covMatrix rho i i).toNNReal = 1 := by fin_cases i <;> simp [covMatrix]
  rw [e] at h
  exact h

/-- The strip: coordinate `i` between -999 and `a`. -/
def strip (i : Fin 2) (a : ℝ) : Set (EuclideanSpace ℝ (Fin 2)) := {z | -999 ≤ z i ∧ z i ≤ a}

theorem strip_measurable (i : Fin 2) (a : ℝ) : MeasurableSet (strip i a) := by
  have hm : Measurable fun z : EuclideanSpace ℝ (Fin 2) => z i := by fun_prop
  exact hm measurableSet_Icc

theorem strip_mono {i : Fin 2} {a b : ℝ} (h : a ≤ b) : strip i a ⊆ strip i b := fun _ hz => ⟨hz.1, hz.2.trans h⟩

theorem gaussianC_eq (rho u v : ℝ) : gaussianC rho u v = (bivariate rho).real (strip 0 (cq u) ∩ strip 1 (cq v)) := by
  unfold gaussianC gaussBivar mvnun bivariate cq strip covMatrix
  have e : (WithLp.toLp 2 ![(0 : ℝ), 0] : EuclideanSpace ℝ (Fin 2)) = 0 := by
    ext i
    fin_cases i <;> rfl
  rw [e]
  congr 1
  ext z
  simp [Fin.forall_fin_two]

theorem strip_measure {rho : ℝ} (h1 : rho ≤ 1) (h2 : -1 ≤ rho) (i : Fin 2) {a : ℝ} (ha : -999 ≤ a) : (bivariate rho).real (strip i a) = normalCdf a - tail999 := by
  have : NullSingletonClass (gaussianReal 0 1) := nullSingletonClass_gaussianReal one_ne_zero
  have e : strip i a = (fun z : EuclideanSpace ℝ (Fin 2) => z i) ⁻¹' Set.Icc (-999) a := rfl
  rw [e, (coord_law h1 h2 i).measureReal_preimage measurableSet_Icc.nullMeasurableSet]
  unfold tail999
  rw [normalCdf_eq, normalCdf_eq, measureReal_congr Ioc_ae_eq_Icc.symm]
  have e : Set.Ioc (-999) a = Set.Iic a \ Set.Iic (-999) := by
    ext z
    simp only [Set.mem_Ioc, Set.mem_sdiff, Set.mem_Iic, not_le]
    tauto
  rw [e, measureReal_sdiff (Set.Iic_subset_Iic.2 ha) measurableSet_Iic]

theorem gaussianC_increasing {rho : ℝ} (h1 : rho ≤ 1) (h2 : -1 ≤ rho) : TwoIncreasing (gaussianC rho) := by
  have hz : ∀ i, (bivariate rho).real (strip i (cq 0)) = 0 := by
    intro i
    rw [cq_zero, strip_measure h1 h2 i le_rfl]
    exact sub_self _
  refine ⟨fun u _ _ => ⟨?_, ?_⟩, fun u u' v v' hu huu hu' hv hvv hv' => ?_⟩
  · rw [gaussianC_eq]
    exact le_antisymm ((measureReal_mono Set.inter_subset_right).trans (hz 1).le) measureReal_nonneg
  · rw [gaussianC_eq]
    exact le_antisymm ((measureReal_mono Set.inter_subset_left).trans (hz 0).le) measureReal_nonneg
  · simp only [gaussianC_eq]
    have mA := strip_mono (i := 0) (cq_mono hu huu hu')
    have mB := strip_mono (i := 1) (cq_mono hv hvv hv')
    have key : ∀ w, (bivariate rho).real (strip 0 (cq u') ∩ strip 1 (cq w)) - (bivariate rho).real (strip 0 (cq u) ∩ strip 1 (cq w)) =
        (bivariate rho).real ((strip 0 (cq u') \ strip 0 (cq u)) ∩ strip 1 (cq w)) := by
      intro w
      rw [← measureReal_sdiff (Set.inter_subset_inter_left _ mA) ((strip_measurable _ _).inter (strip_measurable _ _))]
      congr 1
      ext z
      simp only [Set.mem_sdiff, Set.mem_inter_iff]
      tauto
    have a1 := key v'
    have a2 := key v
    have a3 : (bivariate rho).real ((strip 0 (cq u') \ strip 0 (cq u)) ∩ strip 1 (cq v)) ≤ (bivariate rho).real ((strip 0 (cq u') \ strip 0 (cq u)) ∩ strip 1 (cq v')) :=
      measureReal_mono (Set.inter_subset_inter_right _ mB)
    linarith

/-- The margins of the function are uniform up to the clipped mass. -/
theorem gaussianC_margins {rho : ℝ} (h1 : rho ≤ 1) (h2 : -1 ≤ rho) {u : ℝ} (hu : 0 ≤ u) (hu' : u ≤ 1) :
    (u - 4 * tail999 ≤ gaussianC rho u 1 ∧ gaussianC rho u 1 ≤ u) ∧ (u - 4 * tail999 ≤ gaussianC rho 1 u ∧ gaussianC rho 1 u ≤ u) := by
  have hn := tail999_nonneg
  have e : normalCdf 999 = 1 - tail999 := by
    unfold tail999
    rw [normalCdf_neg]
    ring
  have hq := cdf_cq hu hu'
  have hm := cq_mem hu hu'
  have key : ∀ i j : Fin 2, u - 4 * tail999 ≤ (bivariate rho).real (strip i (cq u) ∩ strip j (cq 1)) ∧ (bivariate rho).real (strip i (cq u) ∩ strip j (cq 1)) ≤ u := by
    intro i j
    have s1 := strip_measure h1 h2 i hm.1
    have s2 := strip_measure h1 h2 j (a := cq 1) (by rw [cq_one]; norm_num)
    rw [cq_one, e] at s2
    constructor
    · have hd := measureReal_inter_add_sdiff (μ := bivariate rho) (s := strip i (cq u)) (strip_measurable j (cq 1))
      have hc : (bivariate rho).real (strip i (cq u) \ strip j (cq 1)) ≤ 2 * tail999 := by
        have : (bivariate rho).real (strip j (cq 1))ᶜ = 2 * tail999 := by
          rw [probReal_compl_eq_one_sub (strip_measurable _ _), cq_one, s2]
          ring
        rw [← this]
        exact measureReal_mono fun z hz => hz.2
      linarith
    · have hle : (bivariate rho).real (strip i (cq u) ∩ strip j (cq 1)) ≤ (bivariate rho).real (strip i (cq u)) := measureReal_mono Set.inter_subset_left
      linarith
  refine ⟨?_, ?_⟩
  · rw [gaussianC_eq]
    exact key 0 1
  · rw [gaussianC_eq, Set.inter_comm]
    exact key 1 0

/-! ### the wrapper -/

theorem weights_pos {n : Nat} {p : Nat → ℝ} (hp : Weights n p) : 0 < n := by
  rcases Nat.eq_zero_or_pos n with rfl | h
  · exact absurd hp.2 (by simp)
  · exact h

/-- The cumulated weights with a zero in front. -/
theorem cumulated {n : Nat} {p : Nat → ℝ} (hp : Weights n p) :
    ∃ X : Nat → ℝ, X = insertZero (normCdf n p) ∧ X 0 = 0 ∧ X n = 1 ∧ (∀ i ≤ n, 0 ≤ X i ∧ X i ≤ 1) ∧ (∀ i < n, X (i + 1) - X i = p i / ∑ k ∈ range n, p k) ∧
      ∀ i < n, X i ≤ X (i + 1) := by
  have hstep : ∀ i < n, insertZero (normCdf n p) (i + 1) - insertZero (normCdf n p) i = p i / ∑ k ∈ range n, p k := fun i hi => normCdf_step hi
  refine ⟨_, rfl, rfl, ?_, ?_, hstep, ?_⟩
  · have hl := normCdf_last (weights_pos hp) hp
    have hn := weights_pos hp
    obtain ⟨n', rfl⟩ : ∃ n', n = n' + 1 := ⟨n - 1, by omega⟩
    exact hl
  · intro k hk
    cases k with
    | zero => simp [insertZero]
    | succ k => exact normCdf_bounds hp (by omega)
  · intro i hi
    have := hstep i hi
    have h2 : 0 ≤ p i / ∑ k ∈ range n, p k := div_nonneg (hp.1 i hi) hp.2.le
    linarith

/-- The table in terms of the function. -/
theorem wrap_cells {C : ℝ → ℝ → ℝ} (hC : ∀ u, 0 ≤ u → u ≤ 1 → C u 0 = 0 ∧ C 0 u = 0) {n m : Nat} {p q : Nat → ℝ} (hp : Weights n p) (hq : Weights m q) {T : Nat → Nat → ℝ}
    (h : copulaWrap C n m p q = .ok T) {X Y : Nat → ℝ} (hX : X = insertZero (normCdf n p)) (hY : Y = insertZero (normCdf m q)) :
    ∀ i < n, ∀ j < m, T i j = C (X (i + 1)) (Y (j + 1)) - C (X (i + 1)) (Y j) - (C (X i) (Y (j + 1)) - C (X i) (Y j)) := by
  unfold copulaWrap at h
  split_ifs at h with h0
  cases h
  obtain ⟨X', hX', -, -, bX, -, -⟩ := cumulated hp
  obtain ⟨Y', hY', -, -, bY, -, -⟩ := cumulated hq
  rw [← hX] at hX'
  rw [← hY] at hY'
  subst hX' hY'
  have hF : ∀ a ≤ n, ∀ b ≤ m, insertZero (fun i => insertZero (fun j => C (normCdf n p i) (normCdf m q j)) b) a = C (X' a) (Y' b) := by
    intro a ha b hb
    cases a with
    | zero =>
      rw [hX]
      simp only [insertZero]
      exact (hC _ (bY b hb).1 (bY b hb).2).2.symm
    | succ a =>
      cases b with
      | zero =>
        have := (hC _ (bX (a + 1) ha).1 (bX (a + 1) ha).2).1.symm
        rw [hY]
        simpa only [insertZero] using this
      | succ b => rw [hX, hY]; rfl
  intro i hi j hj
  simp only [npDiff]
  rw [hF _ (by omega) _ (by omega), hF _ (by omega) _ (by omega), hF _ (by omega) _ (by omega), hF _ (by omega) _ (by omega)]

section
variable {rho : ℝ} {n m : Nat} {p q : Nat → ℝ} {T : Nat → Nat → ℝ}

theorem copula_ok (h : gaussianCopula rho n m p q = .ok T) : rho ≤ 1 ∧ -1 ≤ rho ∧ copulaWrap (gaussianC rho) n m p q = .ok T := by
  unfold gaussianCopula at h
  split_ifs at h with hr
  exact ⟨hr.1, hr.2, h⟩

/-- **C82.** The call succeeds exactly for correlations from -1 to 1 and marginals that are not empty. -/
theorem C82_accepted (rho : ℝ) (n m : Nat) (p q : Nat → ℝ) : (∃ T, gaussianCopula rho n m p q = .ok T) ↔ (-1 ≤ rho ∧ rho ≤ 1) ∧ 0 < n ∧ 0 < m := by
  unfold gaussianCopula copulaWrap
  constructor
  · rintro ⟨T, h⟩
    split_ifs at h with h1 h2
    exact ⟨⟨h1.2, h1.1⟩, by omega, by omega⟩
  · rintro ⟨⟨h1, h2⟩, h3, h4⟩
    rw [if_pos ⟨h2, h1⟩, if_neg (by omega)]
    exact ⟨_, rfl⟩

/-- **C82.** All entries of the table are non-negative. -/
theorem C82_nonneg (hp : Weights n p) (hq : Weights m q) (h : gaussianCopula rho n m p q = .ok T) : ∀ i < n, ∀ j < m, 0 ≤ T i j := by
  obtain ⟨h1, h2, h⟩ := copula_ok h
  exact wrap_nonneg (gaussianC_increasing h1 h2) hp hq h

/-- **C82.** The row and column sums are the normalised marginals up to `4 exp(-999²/2)` (less than 10^-216000: nothing in floating point arithmetic).  They are not exactly
the marginals because the normal quantiles are clipped. -/
theorem C82_marginals (hp : Weights n p) (hq : Weights m q) (h : gaussianCopula rho n m p q = .ok T) :
    (∀ i < n, |∑ j ∈ range m, T i j - p i / ∑ a ∈ range n, p a| ≤ 4 * Real.exp (-(999 ^ 2 / 2))) ∧
      ∀ j < m, |∑ i ∈ range n, T i j - q j / ∑ b ∈ range m, q b| ≤ 4 * Real.exp (-(999 ^ 2 / 2)) := by
  obtain ⟨h1, h2, h⟩ := copula_ok h
  have h0 := (gaussianC_increasing h1 h2).1
  obtain ⟨X, hX, x0, x1, xb, xs, -⟩ := cumulated hp
  obtain ⟨Y, hY, y0, y1, yb, ys, -⟩ := cumulated hq
  have hT := wrap_cells h0 hp hq h hX hY
  have hd := C82_negligible
  refine ⟨fun i hi => ?_, fun j hj => ?_⟩
  · have e : ∑ j ∈ range m, T i j = gaussianC rho (X (i + 1)) 1 - gaussianC rho (X i) 1 := by
      have e1 : ∑ j ∈ range m, T i j = ∑ j ∈ range m, ((gaussianC rho (X (i + 1)) (Y (j + 1)) - gaussianC rho (X i) (Y (j + 1))) - (gaussianC rho (X (i + 1)) (Y j) - gaussianC rho (X i) (Y j))) :=
        Finset.sum_congr rfl fun j hj => by rw [hT i hi j (mem_range.1 hj)]; ring
      rw [e1, Finset.sum_range_sub fun j => gaussianC rho (X (i + 1)) (Y j) - gaussianC rho (X i) (Y j), y1, y0, (h0 _ (xb (i + 1) hi).1 (xb (i + 1) hi).2).1,
        (h0 _ (xb i hi.le).1 (xb i hi.le).2).1]
      ring
    have a1 := (gaussianC_margins h1 h2 (xb (i + 1) hi).1 (xb (i + 1) hi).2).1
    have a2 := (gaussianC_margins h1 h2 (xb i hi.le).1 (xb i hi.le).2).1
    rw [e, ← xs i hi, abs_le]
    constructor <;> linarith
  · have e : ∑ i ∈ range n, T i j = gaussianC rho 1 (Y (j + 1)) - gaussianC rho 1 (Y j) := by
      have e1 : ∑ i ∈ range n, T i j = ∑ i ∈ range n, ((gaussianC rho (X (i + 1)) (Y (j + 1)) - gaussianC rho (X (i + 1)) (Y j)) - (gaussianC rho (X i) (Y (j + 1)) - gaussianC rho (X i) (Y j))) :=
        Finset.sum_congr rfl fun i hi => hT i (mem_range.1 hi) j hj
      rw [e1, Finset.sum_range_sub fun i => gaussianC rho (X i) (Y (j + 1)) - gaussianC rho (X i) (Y j), x1, x0, (h0 _ (yb (j + 1) hj).1 (yb (j + 1) hj).2).2,
        (h0 _ (yb j hj.le).1 (yb j hj.le).2).2]
      ring
    have a1 := (gaussianC_margins h1 h2 (yb (j + 1) hj).1 (yb (j + 1) hj).2).2
    have a2 := (gaussianC_margins h1 h2 (yb j hj.le).1 (yb j hj.le).2).2
    rw [e, ← ys j hj, abs_le]
    constructor <;> linarith

/-- **C82.** The entries sum to one, up to `4 exp(-999²/2)`. -/
theorem C82_total (hp : Weights n p) (hq : Weights m q) (h : gaussianCopula rho n m p q = .ok T) :
    1 - 4 * Real.exp (-(999 ^ 2 / 2)) ≤ ∑ i ∈ range n, ∑ j ∈ range m, T i j ∧ ∑ i ∈ range n, ∑ j ∈ range m, T i j ≤ 1 := by
  obtain ⟨h1, h2, h⟩ := copula_ok h
  have h0 := (gaussianC_increasing h1 h2).1
  obtain ⟨X, hX, x0, x1, xb, xs, -⟩ := cumulated hp
  obtain ⟨Y, hY, y0, y1, yb, ys, -⟩ := cumulated hq
  have hT := wrap_cells h0 hp hq h hX hY
  have e : ∑ i ∈ range n, ∑ j ∈ range m, T i j = gaussianC rho 1 1 := by
    have e1 : ∑ i ∈ range n, ∑ j ∈ range m, T i j = ∑ i ∈ range n, (gaussianC rho (X (i + 1)) 1 - gaussianC rho (X i) 1) := by
      refine Finset.sum_congr rfl fun i hi => ?_
      have hi := mem_range.1 hi
      have e2 : ∑ j ∈ range m, T i j = ∑ j ∈ range m, ((gaussianC rho (X (i + 1)) (Y (j + 1)) - gaussianC rho (X i) (Y (j + 1))) - (gaussianC rho (X (i + 1)) (Y j) - gaussianC rho (X i) (Y j))) :=
        Finset.sum_congr rfl fun j hj => by rw [hT i hi j (mem_range.1 hj)]; ring
      rw [e2, Finset.sum_range_sub fun j => gaussianC rho (X (i + 1)) (Y j) - gaussianC rho (X i) (Y j), y1, y0, (h0 _ (xb (i + 1) hi).1 (xb (i + 1) hi).2).1,
        (h0 _ (xb i hi.le).1 (xb i hi.le).2).1]
      ring
    rw [e1, Finset.sum_range_sub fun i => gaussianC rho (X i) 1, x1, x0, (h0 1 zero_le_one le_rfl).2]
    ring
  have a1 := (gaussianC_margins h1 h2 zero_le_one le_rfl).1
  have hd := C82_negligible
  rw [e]
  constructor <;> linarith

end

/-! ### independence, exchange of the marginals -/

theorem bivariate_zero (a b : ℝ) : (bivariate 0).real (strip 0 a ∩ strip 1 b) = (bivariate 0).real (strip 0 a) * (bivariate 0).real (strip 1 b) := by
  have hS : covMatrix 0 = 1 := by
    ext i j
    fin_cases i <;> fin_cases j <;> simp [covMatrix]
  have hP : bivariate 0 = (Measure.pi fun _ : Fin 2 => gaussianReal 0 1).map (WithLp.toLp 2) := by
    unfold bivariate
    rw [hS, multivariateGaussian_zero_one, map_pi_eq_stdGaussian]
  have hm : Measurable (WithLp.toLp 2 : (Fin 2 → ℝ) → EuclideanSpace ℝ (Fin 2)) := by fun_prop
  have key : ∀ A B : Set ℝ, (Measure.pi fun _ : Fin 2 => gaussianReal 0 1).real (Set.pi Set.univ ![A, B]) = (gaussianReal 0 1).real A * (gaussianReal 0 1).real B := by
    intro A B
    unfold Measure.real
    rw [Measure.pi_pi, Fin.prod_univ_two, ENNReal.toReal_mul]
    rfl
  rw [hP, map_measureReal_apply hm ((strip_measurable _ _).inter (strip_measurable _ _)), map_measureReal_apply hm (strip_measurable _ _),
    map_measureReal_apply hm (strip_measurable _ _)]
  have s1 : (WithLp.toLp 2 : (Fin 2 → ℝ) → EuclideanSpace ℝ (Fin 2)) ⁻¹' (strip 0 a ∩ strip 1 b) = Set.pi Set.univ ![Set.Icc (-999) a, Set.Icc (-999) b] := by
    ext z
    simp [strip, Set.mem_pi, Fin.forall_fin_two]
  have s2 : (WithLp.toLp 2 : (Fin 2 → ℝ) → EuclideanSpace ℝ (Fin 2)) ⁻¹' (strip 0 a) = Set.pi Set.univ ![Set.Icc (-999) a, Set.univ] := by
    ext z
    simp [strip, Set.mem_pi, Fin.forall_fin_two]
  have s3 : (WithLp.toLp 2 : (Fin 2 → ℝ) → EuclideanSpace ℝ (Fin 2)) ⁻¹' (strip 1 b) = Set.pi Set.univ ![Set.univ, Set.Icc (-999) b] := by
    ext z
    simp [strip, Set.mem_pi, Fin.forall_fin_two]
  rw [s1, s2, s3, key, key, key, probReal_univ]
  ring

/-- **C82.** "Degenerates into independence copula when rho=0": the entries are the products of the normalised marginals, up to `4 exp(-999²/2)`. -/
theorem C82_independent {n m : Nat} {p q : Nat → ℝ} {T : Nat → Nat → ℝ} (hp : Weights n p) (hq : Weights m q) (h : gaussianCopula 0 n m p q = .ok T) :
    ∀ i < n, ∀ j < m, |T i j - (p i / ∑ a ∈ range n, p a) * (q j / ∑ b ∈ range m, q b)| ≤ 4 * Real.exp (-(999 ^ 2 / 2)) := by
  obtain ⟨h1, h2, h⟩ := copula_ok h
  have h0 := (gaussianC_increasing h1 h2).1
  obtain ⟨X, hX, x0, x1, xb, xs, xm⟩ := cumulated hp
  obtain ⟨Y, hY, y0, y1, yb, ys, ym⟩ := cumulated hq
  have hT := wrap_cells h0 hp hq h hX hY
  have hd := C82_negligible
  have hC : ∀ u v, 0 ≤ u → u ≤ 1 → 0 ≤ v → v ≤ 1 → gaussianC 0 u v = (normalCdf (cq u) - tail999) * (normalCdf (cq v) - tail999) := by
    intro u v hu hu' hv hv'
    rw [gaussianC_eq, bivariate_zero, strip_measure h1 h2 _ (cq_mem hu hu').1, strip_measure h1 h2 _ (cq_mem hv hv').1]
  intro i hi j hj
  rw [hT i hi j hj, hC _ _ (xb _ hi).1 (xb _ hi).2 (yb _ hj).1 (yb _ hj).2, hC _ _ (xb _ hi).1 (xb _ hi).2 (yb _ hj.le).1 (yb _ hj.le).2,
    hC _ _ (xb _ hi.le).1 (xb _ hi.le).2 (yb _ hj).1 (yb _ hj).2, hC _ _ (xb _ hi.le).1 (xb _ hi.le).2 (yb _ hj.le).1 (yb _ hj.le).2, ← xs i hi, ← ys j hj]
  have a1 := cdf_cq (xb _ hi).1 (xb _ hi).2
  have a2 := cdf_cq (xb _ hi.le).1 (xb _ hi.le).2
  have b1 := cdf_cq (yb _ hj).1 (yb _ hj).2
  have b2 := cdf_cq (yb _ hj.le).1 (yb _ hj.le).2
  have am := normalCdf_mono (cq_mono (xb _ hi.le).1 (xm i hi) (xb _ hi).2)
  have bm := normalCdf_mono (cq_mono (yb _ hj.le).1 (ym j hj) (yb _ hj).2)
  have bu : normalCdf (cq (Y (j + 1))) ≤ 1 := cdf_le_one _ _
  have bl : 0 ≤ normalCdf (cq (Y j)) := cdf_nonneg _ _
  have xm' := xm i hi
  have xl := (xb _ hi.le).1
  have xu := (xb _ hi).2
  generalize normalCdf (cq (X (i + 1))) = A1 at *
  generalize normalCdf (cq (X i)) = A0 at *
  generalize normalCdf (cq (Y (j + 1))) = B1 at *
  generalize normalCdf (cq (Y j)) = B0 at *
  have e : (A1 - tail999) * (B1 - tail999) - (A1 - tail999) * (B0 - tail999) - ((A0 - tail999) * (B1 - tail999) - (A0 - tail999) * (B0 - tail999)) - (X (i + 1) - X i) * (Y (j + 1) - Y j) =
      ((A1 - A0) - (X (i + 1) - X i)) * (B1 - B0) + (X (i + 1) - X i) * ((B1 - B0) - (Y (j + 1) - Y j)) := by ring
  have k1 : |(A1 - A0) - (X (i + 1) - X i)| ≤ 2 * tail999 := abs_le.2 ⟨by linarith, by linarith⟩
  have k2 : |(B1 - B0) - (Y (j + 1) - Y j)| ≤ 2 * tail999 := abs_le.2 ⟨by linarith, by linarith⟩
  have k3 : |B1 - B0| ≤ 1 := abs_le.2 ⟨by linarith, by linarith⟩
  have k4 : |X (i + 1) - X i| ≤ 1 := abs_le.2 ⟨by linarith, by linarith⟩
  rw [e]
  refine (abs_add_le _ _).trans ?_
  rw [abs_mul, abs_mul]
  have hn := tail999_nonneg
  have m1 := mul_le_mul k1 k3 (abs_nonneg _) (by linarith)
  have m2 := mul_le_mul k4 k2 (abs_nonneg _) zero_le_one
  linarith

/-- The coordinates exchanged. -/
def swapC (z : EuclideanSpace ℝ (Fin 2)) : EuclideanSpace ℝ (Fin 2) := WithLp.toLp 2 ![z 1, z 0]

theorem swapC_measurable : Measurable swapC := by
  unfold swapC
  refine (WithLp.measurable_toLp 2 _).comp (measurable_pi_lambda _ fun i => ?_)
  fin_cases i
  · show Measurable fun z : EuclideanSpace ℝ (Fin 2) => z 1
    fun_prop
  · show Measurable fun z : EuclideanSpace ℝ (Fin 2) => z 0
    fun_prop

theorem bivariate_swap {rho : ℝ} (h1 : rho ≤ 1) (h2 : -1 ≤ rho) : (bivariate rho).map swapC = bivariate rho := by
  have : IsProbabilityMeasure ((bivariate rho).map swapC) := Measure.isProbabilityMeasure_map swapC_measurable.aemeasurable
  refine Measure.ext_of_charFun (funext fun t => ?_)
  have e1 : charFun ((bivariate rho).map swapC) t = charFun (bivariate rho) (swapC t) := by
    rw [charFun_apply, charFun_apply, integral_map swapC_measurable.aemeasurable (by fun_prop)]
    congr 1
    ext z
    congr 3
    simp [swapC, PiLp.inner_apply, Fin.sum_univ_two, add_comm]
  rw [e1]
  unfold bivariate
  rw [charFun_multivariateGaussian (covMatrix_posSemidef h1 h2), charFun_multivariateGaussian (covMatrix_posSemidef h1 h2)]
  congr 2
  · simp
  · congr 2
    simp only [swapC, covMatrix, dotProduct, Matrix.mulVec, Fin.sum_univ_two, Matrix.of_apply, Matrix.cons_val', Matrix.cons_val_zero, Matrix.cons_val_one,
      Matrix.cons_val_fin_one]
    ring

theorem gaussianC_comm {rho : ℝ} (h1 : rho ≤ 1) (h2 : -1 ≤ rho) (u v : ℝ) : gaussianC rho u v = gaussianC rho v u := by
  rw [gaussianC_eq, gaussianC_eq, ← bivariate_swap h1 h2, map_measureReal_apply swapC_measurable ((strip_measurable _ _).inter (strip_measurable _ _)), bivariate_swap h1 h2]
  congr 1
  ext z
  simp [strip, swapC, and_comm]

/-- **C82.** Exchanging the marginals transposes the table. -/
theorem C82_exchanged {rho : ℝ} {n m : Nat} {p q : Nat → ℝ} {T T' : Nat → Nat → ℝ} (hp : Weights n p) (hq : Weights m q) (h : gaussianCopula rho n m p q = .ok T)
    (h' : gaussianCopula rho m n q p = .ok T') : ∀ i < n, ∀ j < m, T' j i = T i j := by
  obtain ⟨h1, h2, h⟩ := copula_ok h
  obtain ⟨-, -, h'⟩ := copula_ok h'
  have h0 := (gaussianC_increasing h1 h2).1
  obtain ⟨X, hX, -⟩ := cumulated hp
  obtain ⟨Y, hY, -⟩ := cumulated hq
  intro i hi j hj
  rw [wrap_cells h0 hp hq h hX hY i hi j hj, wrap_cells h0 hq hp h' hY hX j hj i hi, gaussianC_comm h1 h2 (Y (j + 1)) (X (i + 1)), gaussianC_comm h1 h2 (Y (j + 1)) (X i),
    gaussianC_comm h1 h2 (Y j) (X (i + 1)), gaussianC_comm h1 h2 (Y j) (X i)]
  ring

/-- A concrete case: correlation 1/2, a marginal with three and one with two categories. -/
example : Weights 3 (fun i => (i : ℝ) + 1) ∧ Weights 2 (fun _ => 1) ∧ ∃ T, gaussianCopula (1 / 2) 3 2 (fun i => (i : ℝ) + 1) (fun _ => 1) = .ok T := by
  refine ⟨⟨fun i _ => by positivity, by simp [Finset.sum_range_succ]; norm_num⟩, ⟨fun _ _ => zero_le_one, by simp⟩, ?_⟩
  rw [C82_accepted]
  norm_num

end Verif.Copula
