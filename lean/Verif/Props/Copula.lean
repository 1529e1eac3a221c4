import Verif.Model.Copula
import Mathlib.Analysis.Convex.SpecificFunctions.Pow
import Mathlib.Analysis.Convex.SpecificFunctions.Basic
import Mathlib.Algebra.BigOperators.Intervals
import Mathlib.Analysis.SpecialFunctions.Pow.Continuity
import Mathlib.Algebra.BigOperators.Field
import Mathlib.Algebra.Order.BigOperators.Group.Finset
import Mathlib.Tactic.FieldSimp
import Mathlib.Tactic.Positivity
import Mathlib.Tactic.Linarith
import Mathlib.Tactic.Ring

/-!
# Copulas: C38, C39
-/

namespace Verif.Copula
open Verif.Params (Err)
open Finset

/-- A pair of marginals the user may pass: non-negative weights with positive total. -/
def Weights (n : Nat) (p : Nat → ℝ) : Prop := (∀ i < n, 0 ≤ p i) ∧ 0 < ∑ i ∈ range n, p i

/-- What C38 needs of the copula function: the uniform margins. -/
def UniformMargins (C : ℝ → ℝ → ℝ) : Prop :=
  ∀ u, 0 ≤ u → u ≤ 1 → C u 1 = u ∧ C 1 u = u

/-- What C39 needs: zero on the edges and 2-increasing. -/
def TwoIncreasing (C : ℝ → ℝ → ℝ) : Prop :=
  (∀ u, 0 ≤ u → u ≤ 1 → C u 0 = 0 ∧ C 0 u = 0) ∧
  ∀ u u' v v', 0 ≤ u → u ≤ u' → u' ≤ 1 → 0 ≤ v → v ≤ v' → v' ≤ 1 →
    0 ≤ C u' v' - C u' v - C u v' + C u v

/-! ### the wrapper -/

theorem cumsum_mono {n : Nat} {p : Nat → ℝ} (h : Weights n p) {i j : Nat} (hij : i ≤ j) (hj : j < n) :
    cumsum p i ≤ cumsum p j := by
  unfold cumsum
  refine Finset.sum_le_sum_of_subset_of_nonneg ?_ ?_
  · intro k hk; simp only [mem_range] at *; omega
  · intro k hk _; exact h.1 k (by simp only [mem_range] at hk; omega)

theorem normCdf_last {n : Nat} {p : Nat → ℝ} (hn : 0 < n) (h : Weights n p) :
    normCdf n p (n - 1) = 1 := by
  unfold normCdf
  have : cumsum p (n - 1) = ∑ i ∈ range n, p i := by
    unfold cumsum; rw [Nat.sub_add_cancel hn]
  rw [this]
  exact div_self h.2.ne'

theorem normCdf_bounds {n : Nat} {p : Nat → ℝ} (h : Weights n p) {i : Nat} (hi : i < n) :
    0 ≤ normCdf n p i ∧ normCdf n p i ≤ 1 := by
  have hn : 0 < n := by omega
  have hpos : 0 < cumsum p (n - 1) := by
    unfold cumsum; rw [Nat.sub_add_cancel hn]; exact h.2
  unfold normCdf
  refine ⟨div_nonneg ?_ hpos.le, ?_⟩
  · exact Finset.sum_nonneg fun k hk => h.1 k (by simp only [mem_range] at hk; omega)
  · rw [div_le_one hpos]
    exact cumsum_mono h (by omega) (by omega)

theorem normCdf_mono {n : Nat} {p : Nat → ℝ} (h : Weights n p) {i j : Nat} (hij : i ≤ j) (hj : j < n) :
    normCdf n p i ≤ normCdf n p j := by
  have hn : 0 < n := by omega
  have hpos : 0 < cumsum p (n - 1) := by
    unfold cumsum; rw [Nat.sub_add_cancel hn]; exact h.2
  unfold normCdf
  exact div_le_div_of_nonneg_right (cumsum_mono h hij hj) hpos.le

theorem normCdf_step {n : Nat} {p : Nat → ℝ} {i : Nat} (hi : i < n) :
    npDiff (insertZero (normCdf n p)) i = p i / ∑ k ∈ range n, p k := by
  have hn : 0 < n := by omega
  have hc : cumsum p (n - 1) = ∑ i ∈ range n, p i := by
    unfold cumsum; rw [Nat.sub_add_cancel hn]
  cases i with
  | zero =>
    simp only [npDiff, insertZero, normCdf, hc]
    simp [cumsum]
  | succ i =>
    simp only [npDiff, insertZero, normCdf, hc]
    rw [← sub_div]
    congr 1
    unfold cumsum
    rw [Finset.sum_range_succ _ (i + 1)]
    ring

theorem sum_npDiff (f : Nat → ℝ) (m : Nat) :
    ∑ j ∈ range m, npDiff f j = f m - f 0 := by
  unfold npDiff
  exact Finset.sum_range_sub f m

/-- The table of any copula function with uniform margins has the given marginals. -/
theorem wrap_margins {C : ℝ → ℝ → ℝ} (hC : UniformMargins C) {n m : Nat} {p q : Nat → ℝ}
    (hp : Weights n p) (hq : Weights m q) {T : Nat → Nat → ℝ} (h : copulaWrap C n m p q = .ok T) :
    (∀ i < n, ∑ j ∈ range m, T i j = p i / ∑ k ∈ range n, p k) ∧
    (∀ j < m, ∑ i ∈ range n, T i j = q j / ∑ k ∈ range m, q k) := by
  unfold copulaWrap at h
  split_ifs at h with h0
  cases h
  have hn : 0 < n := by omega
  have hm : 0 < m := by omega
  constructor
  · intro i hi
    rw [← normCdf_step hi]
    simp only [npDiff]
    rw [Finset.sum_sub_distrib]
    have key : ∀ i', i' ≤ n → ∑ j ∈ range m,
        (insertZero (fun i => insertZero (fun j => C (normCdf n p i) (normCdf m q j)) (j + 1)) i' -
         insertZero (fun i => insertZero (fun j => C (normCdf n p i) (normCdf m q j)) j) i') =
        insertZero (normCdf n p) i' := by
      intro i' hi'
      cases i' with
      | zero => simp [insertZero]
      | succ i' =>
        simp only [insertZero]
        have := sum_npDiff (insertZero (fun j => C (normCdf n p i') (normCdf m q j))) m
        simp only [npDiff, insertZero] at this
        rw [this]
        obtain ⟨m', rfl⟩ : ∃ m', m = m' + 1 := ⟨m - 1, by omega⟩
        have hl := normCdf_last hm hq
        simp only [Nat.add_sub_cancel] at hl
        show C (normCdf n p i') (normCdf (m' + 1) q m') - 0 = normCdf n p i'
        rw [hl, (hC _ (normCdf_bounds hp (by omega)).1 (normCdf_bounds hp (by omega)).2).1]
        ring
    rw [key (i + 1) (by omega), key i (by omega)]
  · intro j hj
    rw [← normCdf_step hj]
    have hsum := sum_npDiff (fun i => npDiff (fun j =>
      insertZero (fun i => insertZero (fun j => C (normCdf n p i) (normCdf m q j)) j) i) j) n
    refine Eq.trans (Finset.sum_congr rfl fun i _ => ?_) (hsum.trans ?_)
    · rfl
    · obtain ⟨n', rfl⟩ : ∃ n', n = n' + 1 := ⟨n - 1, by omega⟩
      have hl := normCdf_last hn hp
      simp only [Nat.add_sub_cancel] at hl
      have hv : ∀ j' ≤ m, insertZero (fun j => C (normCdf (n' + 1) p n') (normCdf m q j)) j' =
          insertZero (normCdf m q) j' := by
        intro j' hj'
        cases j' with
        | zero => rfl
        | succ j' =>
          simp only [insertZero]
          rw [hl, (hC _ (normCdf_bounds hq (by omega)).1 (normCdf_bounds hq (by omega)).2).2]
      have h1 := hv (j + 1) (by omega)
      have h2 := hv j (by omega)
      show insertZero (fun j => C (normCdf (n' + 1) p n') (normCdf m q j)) (j + 1) -
        insertZero (fun j => C (normCdf (n' + 1) p n') (normCdf m q j)) j - (0 - 0) =
        insertZero (normCdf m q) (j + 1) - insertZero (normCdf m q) j
      rw [h1, h2]
      ring

/-- The table of any 2-increasing function is non-negative. -/
theorem wrap_nonneg {C : ℝ → ℝ → ℝ} (hC : TwoIncreasing C) {n m : Nat} {p q : Nat → ℝ}
    (hp : Weights n p) (hq : Weights m q) {T : Nat → Nat → ℝ} (h : copulaWrap C n m p q = .ok T) :
    ∀ i < n, ∀ j < m, 0 ≤ T i j := by
  unfold copulaWrap at h
  split_ifs at h with h0
  cases h
  intro i hi j hj
  -- the inserted zeros are the values of `C` at 0
  set X : Nat → ℝ := insertZero (normCdf n p) with hX
  set Y : Nat → ℝ := insertZero (normCdf m q) with hY
  have bX : ∀ k ≤ n, 0 ≤ X k ∧ X k ≤ 1 := by
    intro k hk
    cases k with
    | zero => simp [hX, insertZero]
    | succ k => exact normCdf_bounds hp (by omega)
  have bY : ∀ k ≤ m, 0 ≤ Y k ∧ Y k ≤ 1 := by
    intro k hk
    cases k with
    | zero => simp [hY, insertZero]
    | succ k => exact normCdf_bounds hq (by omega)
  have hF : ∀ a ≤ n, ∀ b ≤ m,
      insertZero (fun i => insertZero (fun j => C (normCdf n p i) (normCdf m q j)) b) a =
        C (X a) (Y b) := by
    intro a ha b hb
    cases a with
    | zero =>
      simp only [hX, insertZero]
      exact (hC.1 _ (bY b hb).1 (bY b hb).2).2.symm
    | succ a =>
      cases b with
      | zero =>
        simp only [hX, hY, insertZero]
        exact (hC.1 _ (bX (a + 1) ha).1 (bX (a + 1) ha).2).1.symm
      | succ b => rfl
  have mX : X i ≤ X (i + 1) := by
    cases i with
    | zero => exact (bX 1 (by omega)).1.trans' (by simp [hX, insertZero])
    | succ i => exact normCdf_mono hp (by omega) (by omega)
  have mY : Y j ≤ Y (j + 1) := by
    cases j with
    | zero => exact (bY 1 (by omega)).1.trans' (by simp [hY, insertZero])
    | succ j => exact normCdf_mono hq (by omega) (by omega)
  have := hC.2 (X i) (X (i + 1)) (Y j) (Y (j + 1)) (bX i (by omega)).1 mX (bX (i + 1) (by omega)).2
    (bY j (by omega)).1 mY (bY (j + 1) (by omega)).2
  simp only [npDiff]
  rw [hF _ (by omega) _ (by omega), hF _ (by omega) _ (by omega), hF _ (by omega) _ (by omega),
    hF _ (by omega) _ (by omega)]
  linarith

/-! ### the four families: margins -/

theorem clayton_margins {a : ℝ} (ha : 0 < a) : UniformMargins (clayton a) := by
  intro u h0 _
  have key : u ≠ 0 → (u ^ (-a)) ^ (-1 / a) = u := fun hu => by
    rw [← Real.rpow_mul h0]
    have : -a * (-1 / a) = 1 := by field_simp
    rw [this, Real.rpow_one]
  by_cases hu : u = 0
  · subst hu; simp [clayton]
  · simp only [clayton, hu, one_ne_zero, or_self, if_false, Real.one_rpow, add_sub_cancel_right]
    refine ⟨key hu, ?_⟩
    rw [add_sub_cancel_left]; exact key hu

theorem gumbel_margins {a : ℝ} (ha : 1 ≤ a) : UniformMargins (gumbel a) := by
  intro u h0 h1
  have ha0 : a ≠ 0 := by linarith
  by_cases hu : u = 0
  · subst hu; simp [gumbel]
  · have hpos : 0 < u := lt_of_le_of_ne h0 (Ne.symm hu)
    have hl : 0 ≤ -Real.log u := by
      have := Real.log_nonpos h0 h1; linarith
    have key : ((-Real.log u) ^ a) ^ (1 / a) = -Real.log u := by
      rw [← Real.rpow_mul hl]
      have : a * (1 / a) = 1 := by field_simp
      rw [this, Real.rpow_one]
    simp only [gumbel, hu, one_ne_zero, or_self, if_false, Real.log_one, neg_zero,
      Real.zero_rpow ha0, add_zero, zero_add, key, neg_neg, Real.exp_log hpos, and_self]

theorem frank_margins {a : ℝ} (ha : a ≠ 0) : UniformMargins (frank a) := by
  intro u _ _
  have hne : Real.exp (-a) - 1 ≠ 0 := by
    intro h
    have h1 : Real.exp (-a) = 1 := by linarith
    rw [Real.exp_eq_one_iff] at h1
    exact ha (by linarith)
  have hl : (-1 / a) * Real.log (1 + (Real.exp (-a * u) - 1)) = u := by
    rw [add_sub_cancel, Real.log_exp]
    field_simp
  unfold frank
  rw [mul_one, mul_div_assoc, div_self hne, mul_one, mul_div_right_comm, div_self hne, one_mul]
  exact ⟨hl, hl⟩

theorem amh_margins (rho : ℝ) : UniformMargins (amh rho) := by
  intro u _ _
  simp [amh]

/-! ### the four families: 2-increasing -/

/-- A convex function of a sum. -/
theorem convex_rect {ψ : ℝ → ℝ} (hψ : ConvexOn ℝ (Set.Ici 0) ψ) {s s' t t' : ℝ} (hs' : 0 ≤ s')
    (hs : s' ≤ s) (ht' : 0 ≤ t') (ht : t' ≤ t) :
    0 ≤ ψ (s' + t') - ψ (s' + t) - ψ (s + t') + ψ (s + t) := by
  rcases eq_or_lt_of_le (add_le_add hs ht) with heq | hlt
  · have h1 : s' = s := by linarith
    have h2 : t' = t := by linarith
    subst h1; subst h2; linarith
  · set L := (s + t) - (s' + t') with hL
    have hLp : 0 < L := by linarith
    set l := (s - s') / L with hl
    have l0 : 0 ≤ l := div_nonneg (by linarith) hLp.le
    have l1 : l ≤ 1 := by rw [hl, div_le_one hLp]; linarith
    have hlL : l * L = s - s' := by rw [hl]; field_simp
    have e1 : s + t' = l • (s + t) + (1 - l) • (s' + t') := by
      simp only [smul_eq_mul]
      have : l * (s + t) + (1 - l) * (s' + t') = s' + t' + l * L := by rw [hL]; ring
      rw [this, hlL]; ring
    have e2 : s' + t = (1 - l) • (s + t) + l • (s' + t') := by
      simp only [smul_eq_mul]
      have : (1 - l) * (s + t) + l * (s' + t') = s + t - l * L := by rw [hL]; ring
      rw [this, hlL]; ring
    have m1 : (s + t) ∈ Set.Ici (0 : ℝ) := by simp only [Set.mem_Ici]; linarith
    have m2 : (s' + t') ∈ Set.Ici (0 : ℝ) := by simp only [Set.mem_Ici]; linarith
    have c1 := hψ.2 m1 m2 l0 (by linarith : 0 ≤ 1 - l) (by ring)
    have c2 := hψ.2 m1 m2 (by linarith : 0 ≤ 1 - l) l0 (by ring)
    rw [← e1] at c1
    rw [← e2] at c2
    simp only [smul_eq_mul] at c1 c2
    nlinarith

/-- Archimedean copulas `ψ(φ(u) + φ(v))`, zero at the edges, with `ψ` convex and antitone and `φ`
antitone. -/
theorem archimedean {C : ℝ → ℝ → ℝ} {φ ψ : ℝ → ℝ} (hψ : ConvexOn ℝ (Set.Ici 0) ψ)
    (hanti : ∀ s t, 0 ≤ s → s ≤ t → ψ t ≤ ψ s) (hpos : ∀ s, 0 ≤ s → 0 ≤ ψ s)
    (hφ0 : ∀ u, 0 < u → u ≤ 1 → 0 ≤ φ u) (hφ : ∀ u u', 0 < u → u ≤ u' → u' ≤ 1 → φ u' ≤ φ u)
    (hz : ∀ u v, u = 0 ∨ v = 0 → C u v = 0)
    (hC : ∀ u v, 0 < u → u ≤ 1 → 0 < v → v ≤ 1 → C u v = ψ (φ u + φ v)) : TwoIncreasing C := by
  refine ⟨fun u _ _ => ⟨hz _ _ (Or.inr rfl), hz _ _ (Or.inl rfl)⟩, ?_⟩
  intro u u' v v' hu huu hu' hv hvv hv'
  rcases eq_or_lt_of_le hu with h0 | hu0
  · subst h0
    rw [hz 0 v' (Or.inl rfl), hz 0 v (Or.inl rfl)]
    rcases eq_or_lt_of_le huu with h1 | hu1
    · subst h1
      rw [hz 0 v' (Or.inl rfl), hz 0 v (Or.inl rfl)]; simp
    · rcases eq_or_lt_of_le hv with h2 | hv0
      · subst h2
        rw [hz u' 0 (Or.inr rfl)]
        rcases eq_or_lt_of_le hvv with h3 | hv1
        · subst h3; rw [hz u' 0 (Or.inr rfl)]; simp
        · rw [hC u' v' hu1 hu' hv1 hv']
          have := hpos _ (add_nonneg (hφ0 u' hu1 hu') (hφ0 v' hv1 hv'))
          linarith
      · rw [hC u' v' hu1 hu' (hv0.trans_le hvv) hv', hC u' v hu1 hu' hv0 (hvv.trans hv')]
        have := hanti (φ u' + φ v') (φ u' + φ v)
          (add_nonneg (hφ0 u' hu1 hu') (hφ0 v' (hv0.trans_le hvv) hv'))
          (by have := hφ v v' hv0 hvv hv'; linarith)
        linarith
  · have hu0' := hu0.trans_le huu
    have hu1 := huu.trans hu'
    rcases eq_or_lt_of_le hv with h2 | hv0
    · subst h2
      rw [hz u' 0 (Or.inr rfl), hz u 0 (Or.inr rfl)]
      rcases eq_or_lt_of_le hvv with h3 | hv1
      · subst h3; rw [hz u' 0 (Or.inr rfl), hz u 0 (Or.inr rfl)]; simp
      · rw [hC u' v' hu0' hu' hv1 hv', hC u v' hu0 hu1 hv1 hv']
        have := hanti (φ u' + φ v') (φ u + φ v')
          (add_nonneg (hφ0 u' hu0' hu') (hφ0 v' hv1 hv'))
          (by have := hφ u u' hu0 huu hu'; linarith)
        linarith
    · have hv0' := hv0.trans_le hvv
      have hv1 := hvv.trans hv'
      rw [hC u' v' hu0' hu' hv0' hv', hC u' v hu0' hu' hv0 hv1, hC u v' hu0 hu1 hv0' hv',
        hC u v hu0 hu1 hv0 hv1]
      exact convex_rect hψ (hφ0 u' hu0' hu') (hφ u u' hu0 huu hu') (hφ0 v' hv0' hv')
        (hφ v v' hv0 hvv hv')

theorem clayton_increasing {a : ℝ} (ha : 0 < a) : TwoIncreasing (clayton a) := by
  have hexp : -1 / a ≤ 0 := div_nonpos_of_nonpos_of_nonneg (by norm_num) ha.le
  refine archimedean (φ := fun u => u ^ (-a) - 1) (ψ := fun s => (1 + s) ^ (-1 / a)) ?_ ?_ ?_ ?_ ?_
    (fun u v h => by simp [clayton, h]) ?_
  · -- `exp (-(1/a) * log (1 + s))`
    have hlog : ConvexOn ℝ (Set.Ici 0) (fun s : ℝ => (-1 / a) * Real.log (1 + s)) := by
      refine ⟨convex_Ici 0, fun x hx y hy α β hα hβ hαβ => ?_⟩
      simp only [Set.mem_Ici] at hx hy
      have hc := strictConcaveOn_log_Ioi.concaveOn.2 (x := 1 + x) (y := 1 + y)
        (by simp only [Set.mem_Ioi]; linarith) (by simp only [Set.mem_Ioi]; linarith) hα hβ hαβ
      have he : α • (1 + x) + β • (1 + y) = 1 + (α • x + β • y) := by
        simp only [smul_eq_mul]
        linear_combination hαβ
      rw [he] at hc
      have := mul_le_mul_of_nonpos_left hc hexp
      simp only [smul_eq_mul] at this ⊢
      linarith
    have hcomp : ConvexOn ℝ (Set.Ici 0)
        (Real.exp ∘ fun s : ℝ => (-1 / a) * Real.log (1 + s)) :=
      ConvexOn.comp (convexOn_exp.subset (Set.subset_univ _)
        ((isPreconnected_Ici.image _ (by
          refine ContinuousOn.mul continuousOn_const (ContinuousOn.log (by fun_prop) ?_)
          intro x hx
          simp only [Set.mem_Ici] at hx
          linarith)).ordConnected.convex)) hlog
        (fun _ _ _ _ h => Real.exp_le_exp.2 h)
    refine hcomp.congr fun s hs => ?_
    simp only [Set.mem_Ici] at hs
    simp only [Function.comp]
    rw [Real.rpow_def_of_pos (by linarith : 0 < 1 + s), mul_comm]
  · intro s t hs hst
    exact Real.rpow_le_rpow_of_nonpos (by linarith) (by linarith) hexp
  · intro s hs; exact Real.rpow_nonneg (by linarith) _
  · intro u h0 h1
    have := Real.one_le_rpow_of_pos_of_le_one_of_nonpos h0 h1 (by linarith : -a ≤ 0)
    linarith
  · intro u u' h0 h1 h2
    have := Real.rpow_le_rpow_of_nonpos h0 h1 (by linarith : -a ≤ 0)
    linarith
  · intro u v h0 _ h2 _
    simp only [clayton, h0.ne', h2.ne', or_self, if_false]
    congr 1
    ring

theorem gumbel_increasing {a : ℝ} (ha : 1 ≤ a) : TwoIncreasing (gumbel a) := by
  have ha0 : 0 < a := by linarith
  have hi0 : 0 ≤ 1 / a := by positivity
  have hi1 : 1 / a ≤ 1 := by rw [div_le_one ha0]; exact ha
  have hlog : ∀ u : ℝ, 0 < u → u ≤ 1 → 0 ≤ -Real.log u := fun u h0 h1 => by
    have := Real.log_nonpos h0.le h1; linarith
  refine archimedean (φ := fun u => (-Real.log u) ^ a) (ψ := fun s => Real.exp (-(s ^ (1 / a))))
    ?_ ?_ ?_ ?_ ?_ (fun u v h => by simp [gumbel, h]) ?_
  · have hneg : ConvexOn ℝ (Set.Ici 0) (fun s : ℝ => -(s ^ (1 / a))) :=
      (Real.concaveOn_rpow hi0 hi1).neg
    have hcomp : ConvexOn ℝ (Set.Ici 0) (Real.exp ∘ fun s : ℝ => -(s ^ (1 / a))) :=
      ConvexOn.comp (convexOn_exp.subset (Set.subset_univ _)
        ((isPreconnected_Ici.image _ (by
          refine ContinuousOn.neg ?_
          exact (Real.continuous_rpow_const hi0).continuousOn)).ordConnected.convex)) hneg
        (fun _ _ _ _ h => Real.exp_le_exp.2 h)
    exact hcomp
  · intro s t hs hst
    have := Real.rpow_le_rpow hs hst hi0
    exact Real.exp_le_exp.2 (by linarith)
  · intro s _; exact (Real.exp_pos _).le
  · intro u h0 h1; exact Real.rpow_nonneg (hlog u h0 h1) _
  · intro u u' h0 h1 h2
    refine Real.rpow_le_rpow (hlog u' (h0.trans_le h1) h2) ?_ ha0.le
    have := Real.log_le_log h0 h1
    linarith
  · intro u v h0 _ h2 _
    simp only [gumbel, h0.ne', h2.ne', or_self, if_false]

theorem frank_increasing {a : ℝ} (ha : a ≠ 0) : TwoIncreasing (frank a) := by
  refine ⟨fun u _ _ => by simp [frank], ?_⟩
  intro u u' v v' hu huu hu' hv hvv hv'
  set E := Real.exp (-a) - 1 with hE
  set f : ℝ → ℝ := fun t => Real.exp (-a * t) - 1 with hf
  have hfr : ∀ x y, frank a x y = (-1 / a) * Real.log (1 + f x * f y / E) := fun x y => rfl
  rw [hfr, hfr, hfr, hfr]
  rcases lt_or_gt_of_ne ha with hneg | hpos
  · -- `a < 0`: `E > 0`, `f` increasing and non-negative
    have hEpos : 0 < E := by
      have : 1 < Real.exp (-a) := by rw [Real.one_lt_exp_iff]; linarith
      linarith
    have hmono : ∀ s t, s ≤ t → f s ≤ f t := fun s t h => by
      have : Real.exp (-a * s) ≤ Real.exp (-a * t) := Real.exp_le_exp.2 (by nlinarith)
      simp only [hf]; linarith
    have hf0 : ∀ t, 0 ≤ t → 0 ≤ f t := fun t h => by
      have := hmono 0 t h; simpa [hf] using this
    have hF : ∀ s t, 0 ≤ s → 0 ≤ t → 0 < 1 + f s * f t / E := fun s t hs ht => by
      have := div_nonneg (mul_nonneg (hf0 s hs) (hf0 t ht)) hEpos.le
      linarith
    have hu0' := hu.trans huu
    have hv0' := hv.trans hvv
    have hle : (1 + f u' * f v / E) * (1 + f u * f v' / E) ≤
        (1 + f u' * f v' / E) * (1 + f u * f v / E) := by
      have : (1 + f u' * f v' / E) * (1 + f u * f v / E) -
          (1 + f u' * f v / E) * (1 + f u * f v' / E) = (f u' - f u) * (f v' - f v) / E := by
        field_simp; ring
      have h2 : 0 ≤ (f u' - f u) * (f v' - f v) / E :=
        div_nonneg (mul_nonneg (sub_nonneg.2 (hmono _ _ huu)) (sub_nonneg.2 (hmono _ _ hvv))) hEpos.le
      linarith
    have hl := Real.log_le_log (mul_pos (hF u' v hu0' hv) (hF u v' hu hv0')) hle
    rw [Real.log_mul (hF u' v hu0' hv).ne' (hF u v' hu hv0').ne',
      Real.log_mul (hF u' v' hu0' hv0').ne' (hF u v hu hv).ne'] at hl
    have hc : 0 ≤ -1 / a := div_nonneg_of_nonpos (by norm_num) hneg.le
    have := mul_nonneg hc (sub_nonneg.2 hl)
    linarith
  · -- `a > 0`: `E < 0`, `f` decreasing, `E ≤ f ≤ 0`
    have hEneg : E < 0 := by
      have : Real.exp (-a) < 1 := by rw [Real.exp_lt_one_iff]; linarith
      linarith
    have hanti : ∀ s t, s ≤ t → f t ≤ f s := fun s t h => by
      have : Real.exp (-a * t) ≤ Real.exp (-a * s) := Real.exp_le_exp.2 (by nlinarith)
      simp only [hf]; linarith
    have hf0 : ∀ t, 0 ≤ t → f t ≤ 0 := fun t h => by
      have := hanti 0 t h; simpa [hf] using this
    have hfE : ∀ t, t ≤ 1 → E ≤ f t := fun t h => by
      have := hanti t 1 h; simpa [hf, hE] using this
    have hfm1 : ∀ t, -1 < f t := fun t => by
      have := Real.exp_pos (-a * t)
      simp only [hf]; linarith
    have hF : ∀ s t, 0 ≤ s → s ≤ 1 → 0 ≤ t → 0 < 1 + f s * f t / E := fun s t hs hs1 ht => by
      have h1 : f s / E ≤ 1 := by
        rw [div_le_one_of_neg hEneg]; exact hfE s hs1
      have h0 : 0 ≤ f s / E := div_nonneg_of_nonpos (hf0 s hs) hEneg.le
      have h2 := hfm1 t
      have h3 := hf0 t ht
      have e : f s * f t / E = f s / E * f t := by ring
      rw [e]
      nlinarith
    have hu0' := hu.trans huu
    have hv0' := hv.trans hvv
    have hu1 := huu.trans hu'
    have hle : (1 + f u' * f v' / E) * (1 + f u * f v / E) ≤
        (1 + f u' * f v / E) * (1 + f u * f v' / E) := by
      have hEne := hEneg.ne
      have : (1 + f u' * f v' / E) * (1 + f u * f v / E) -
          (1 + f u' * f v / E) * (1 + f u * f v' / E) = (f u' - f u) * (f v' - f v) / E := by
        field_simp; ring
      have h2 : (f u' - f u) * (f v' - f v) / E ≤ 0 :=
        div_nonpos_of_nonneg_of_nonpos
          (mul_nonneg_of_nonpos_of_nonpos (sub_nonpos.2 (hanti _ _ huu)) (sub_nonpos.2 (hanti _ _ hvv)))
          hEneg.le
      linarith
    have hl := Real.log_le_log (mul_pos (hF u' v' hu0' hu' hv0') (hF u v hu hu1 hv)) hle
    rw [Real.log_mul (hF u' v hu0' hu' hv).ne' (hF u v' hu hu1 hv0').ne',
      Real.log_mul (hF u' v' hu0' hu' hv0').ne' (hF u v hu hu1 hv).ne'] at hl
    have hc : -1 / a ≤ 0 := div_nonpos_of_nonpos_of_nonneg (by norm_num) hpos.le
    have := mul_nonneg_of_nonpos_of_nonpos hc (sub_nonpos.2 hl)
    linarith

theorem amh_den_pos {rho u v : ℝ} (h1 : rho ≤ 1) (hu : 0 ≤ u) (hu1 : u ≤ 1) (hv : 0 < v)
    (hv1 : v ≤ 1) : 0 < 1 - rho * (1 - u) * (1 - v) := by
  have hprod : 0 ≤ (1 - u) * (1 - v) := mul_nonneg (by linarith) (by linarith)
  have hle : (1 - u) * (1 - v) ≤ 1 - v := by nlinarith
  rcases le_or_gt 0 rho with h | h
  · nlinarith
  · nlinarith

/-- The increment in the first argument. -/
theorem amh_diff {rho u u' v : ℝ} (h1 : rho ≤ 1) (hu : 0 ≤ u) (huu : u ≤ u') (hu' : u' ≤ 1)
    (hv : 0 < v) (hv1 : v ≤ 1) :
    amh rho u' v - amh rho u v = (u' - u) * (v * (1 - rho * (1 - v)) /
      ((1 - rho * (1 - u) * (1 - v)) * (1 - rho * (1 - u') * (1 - v)))) := by
  have d1 := (amh_den_pos h1 hu (huu.trans hu') hv hv1).ne'
  have d2 := (amh_den_pos h1 (hu.trans huu) hu' hv hv1).ne'
  unfold amh
  rw [div_sub_div _ _ d2 d1, mul_div_assoc', div_eq_div_iff (mul_ne_zero d2 d1) (mul_ne_zero d1 d2)]
  ring

theorem amh_increasing {rho : ℝ} (h1 : rho ≤ 1) (h2 : -1 ≤ rho) : TwoIncreasing (amh rho) := by
  refine ⟨fun u _ _ => by simp [amh], ?_⟩
  intro u u' v v' hu huu hu' hv hvv hv'
  have hu1 := huu.trans hu'
  have hu0' := hu.trans huu
  have hnum : ∀ w : ℝ, 0 ≤ w → w ≤ 1 → 0 ≤ 1 - rho * (1 - w) := fun w hw hw1 => by nlinarith
  rcases eq_or_lt_of_le hv with h0 | hv0
  · subst h0
    have z : ∀ x, amh rho x 0 = 0 := fun x => by simp [amh]
    rw [z, z]
    rcases eq_or_lt_of_le hvv with h3 | hv1
    · subst h3; rw [z, z]; simp
    · have := amh_diff h1 hu huu hu' hv1 hv'
      have hnn : 0 ≤ (u' - u) * (v' * (1 - rho * (1 - v')) /
          ((1 - rho * (1 - u) * (1 - v')) * (1 - rho * (1 - u') * (1 - v')))) :=
        mul_nonneg (by linarith) (div_nonneg (mul_nonneg hv1.le (hnum v' hv1.le hv'))
          (mul_pos (amh_den_pos h1 hu hu1 hv1 hv') (amh_den_pos h1 hu0' hu' hv1 hv')).le)
      linarith
  · have hv0' := hv0.trans_le hvv
    have hv1 := hvv.trans hv'
    have e1 := amh_diff h1 hu huu hu' hv0 hv1
    have e2 := amh_diff h1 hu huu hu' hv0' hv'
    have a1 := amh_den_pos h1 hu hu1 hv0 hv1
    have a2 := amh_den_pos h1 hu hu1 hv0' hv'
    have b1 := amh_den_pos h1 hu0' hu' hv0 hv1
    have b2 := amh_den_pos h1 hu0' hu' hv0' hv'
    have hkey : v * (1 - rho * (1 - v)) /
          ((1 - rho * (1 - u) * (1 - v)) * (1 - rho * (1 - u') * (1 - v))) ≤
        v' * (1 - rho * (1 - v')) /
          ((1 - rho * (1 - u) * (1 - v')) * (1 - rho * (1 - u') * (1 - v'))) := by
      rcases le_or_gt 0 rho with hr | hr
      · have f : v / (1 - rho * (1 - u) * (1 - v)) ≤ v' / (1 - rho * (1 - u) * (1 - v')) := by
          rw [div_le_div_iff₀ a1 a2]
          have : v' * (1 - rho * (1 - u) * (1 - v)) - v * (1 - rho * (1 - u) * (1 - v')) =
            (v' - v) * (1 - rho * (1 - u)) := by ring
          have h3 : 0 ≤ (v' - v) * (1 - rho * (1 - u)) :=
            mul_nonneg (by linarith) (by nlinarith)
          linarith
        have g : (1 - rho * (1 - v)) / (1 - rho * (1 - u') * (1 - v)) ≤
            (1 - rho * (1 - v')) / (1 - rho * (1 - u') * (1 - v')) := by
          rw [div_le_div_iff₀ b1 b2]
          have : (1 - rho * (1 - v')) * (1 - rho * (1 - u') * (1 - v)) -
              (1 - rho * (1 - v)) * (1 - rho * (1 - u') * (1 - v')) =
            rho * ((v' - v) * u') := by ring
          have h3 : 0 ≤ rho * ((v' - v) * u') :=
            mul_nonneg hr (mul_nonneg (by linarith) hu0')
          linarith
        rw [mul_div_mul_comm, mul_div_mul_comm]
        exact mul_le_mul f g (div_nonneg (hnum v hv0.le hv1) b1.le) (div_nonneg hv0'.le a2.le)
      · refine div_le_div₀ (mul_nonneg hv0'.le (hnum v' hv0'.le hv')) ?_ (mul_pos a2 b2) ?_
        · have : v' * (1 - rho * (1 - v')) - v * (1 - rho * (1 - v)) =
            (v' - v) * ((1 - rho) + rho * (v + v')) := by ring
          have h3 : 0 ≤ (v' - v) * ((1 - rho) + rho * (v + v')) :=
            mul_nonneg (by linarith) (by nlinarith)
          linarith
        · refine mul_le_mul ?_ ?_ b2.le a1.le
          · have : 0 ≤ (-rho) * ((1 - u) * (v' - v)) :=
              mul_nonneg (by linarith) (mul_nonneg (by linarith) (by linarith))
            nlinarith
          · have : 0 ≤ (-rho) * ((1 - u') * (v' - v)) :=
              mul_nonneg (by linarith) (mul_nonneg (by linarith) (by linarith))
            nlinarith
    have := mul_le_mul_of_nonneg_left hkey (by linarith : 0 ≤ u' - u)
    linarith

/-! ## C38, C39 -/

/-- The one input where the code divides zero by zero: `AkiMikhailHaq(1)` with both marginals
starting with weight zero. -/
def NoNan (k : Kind) (rho : ℝ) (p q : Nat → ℝ) : Prop :=
  k = .amh → rho = 1 → 0 < p 0 ∨ 0 < q 0

/-- C38: for every class, admissible parameter and pair of marginals with non-negative weights and
positive totals, the rows and columns of the table sum to the normalised marginals. -/
theorem C38_marginals {k : Kind} {rho : ℝ} {n m : Nat} {p q : Nat → ℝ} {T : Nat → Nat → ℝ}
    (hp : Weights n p) (hq : Weights m q) (_hnan : NoNan k rho p q)
    (h : copula k rho n m p q = .ok T) :
    (∀ i < n, ∑ j ∈ range m, T i j = p i / ∑ a ∈ range n, p a) ∧
    (∀ j < m, ∑ i ∈ range n, T i j = q j / ∑ b ∈ range m, q b) := by
  unfold copula at h
  split_ifs at h with hadm
  refine wrap_margins ?_ hp hq h
  cases k with
  | clayton => exact clayton_margins hadm
  | gumbel => exact gumbel_margins hadm
  | frank => exact frank_margins hadm
  | amh => exact amh_margins rho

/-- C38: the table sums to one. -/
theorem C38_total {k : Kind} {rho : ℝ} {n m : Nat} {p q : Nat → ℝ} {T : Nat → Nat → ℝ}
    (hp : Weights n p) (hq : Weights m q) (hnan : NoNan k rho p q)
    (h : copula k rho n m p q = .ok T) :
    ∑ i ∈ range n, ∑ j ∈ range m, T i j = 1 := by
  rw [Finset.sum_congr rfl fun i hi => (C38_marginals hp hq hnan h).1 i (mem_range.1 hi),
    ← Finset.sum_div, div_self hp.2.ne']

/-- C38: and the call succeeds exactly for admissible parameters and non-empty marginals. -/
theorem C38_accepted (k : Kind) (rho : ℝ) (n m : Nat) (p q : Nat → ℝ) :
    (∃ T, copula k rho n m p q = .ok T) ↔ admissible k rho ∧ 0 < n ∧ 0 < m := by
  unfold copula copulaWrap
  by_cases ha : admissible k rho
  · by_cases h0 : n = 0 ∨ m = 0
    · simp only [ha, h0, if_true, true_and]
      constructor
      · rintro ⟨T, h⟩; simp at h
      · intro h; omega
    · simp only [ha, h0, if_true, if_false, true_and]
      exact ⟨fun _ => by omega, fun _ => ⟨_, rfl⟩⟩
  · simp [ha]

/-- C38: the wrapper itself, for any copula function with uniform margins (for instance `Gaussian`,
if its compiled routines have them). -/
theorem C38_any_function {C : ℝ → ℝ → ℝ} (hC : ∀ u, 0 ≤ u → u ≤ 1 → C u 1 = u ∧ C 1 u = u)
    {n m : Nat} {p q : Nat → ℝ} (hp : Weights n p) (hq : Weights m q) {T : Nat → Nat → ℝ}
    (h : copulaWrap C n m p q = .ok T) :
    (∀ i < n, ∑ j ∈ range m, T i j = p i / ∑ a ∈ range n, p a) ∧
    (∀ j < m, ∑ i ∈ range n, T i j = q j / ∑ b ∈ range m, q b) :=
  wrap_margins hC hp hq h

/-- C39: all entries of the table are non-negative. -/
theorem C39_nonneg {k : Kind} {rho : ℝ} {n m : Nat} {p q : Nat → ℝ} {T : Nat → Nat → ℝ}
    (hp : Weights n p) (hq : Weights m q) (_hnan : NoNan k rho p q)
    (h : copula k rho n m p q = .ok T) : ∀ i < n, ∀ j < m, 0 ≤ T i j := by
  unfold copula at h
  split_ifs at h with hadm
  refine wrap_nonneg ?_ hp hq h
  cases k with
  | clayton => exact clayton_increasing hadm
  | gumbel => exact gumbel_increasing hadm
  | frank => exact frank_increasing hadm
  | amh => exact amh_increasing hadm.1 hadm.2

/-- C39: together with C38 the entries are probabilities. -/
theorem C39_le_one {k : Kind} {rho : ℝ} {n m : Nat} {p q : Nat → ℝ} {T : Nat → Nat → ℝ}
    (hp : Weights n p) (hq : Weights m q) (hnan : NoNan k rho p q)
    (h : copula k rho n m p q = .ok T) : ∀ i < n, ∀ j < m, T i j ≤ 1 := by
  intro i hi j hj
  have hnn := C39_nonneg hp hq hnan h
  rw [← C38_total hp hq hnan h]
  calc T i j ≤ ∑ j ∈ range m, T i j :=
        Finset.single_le_sum (f := fun j => T i j) (fun b hb => hnn i hi b (mem_range.1 hb))
          (mem_range.2 hj)
    _ ≤ _ := Finset.single_le_sum (f := fun i => ∑ j ∈ range m, T i j)
          (fun a ha => Finset.sum_nonneg fun b hb => hnn a (mem_range.1 ha) b (mem_range.1 hb))
          (mem_range.2 hi)

/-- The hypotheses are met: every class, three and two outcomes, unnormalised weights with a zero. -/
example (k : Kind) : ∃ T, copula k 1 3 2 (fun i => 1 + i) (fun j => if j = 0 then 0 else 5) = .ok T ∧
    Weights 3 (fun i => 1 + i) ∧ Weights 2 (fun j => if j = 0 then 0 else 5) ∧
    NoNan k 1 (fun i => 1 + i) (fun j => if j = 0 then 0 else 5) := by
  obtain ⟨T, hT⟩ := (C38_accepted k 1 3 2 (fun i => 1 + i) (fun j => if j = 0 then 0 else 5)).2
    ⟨by cases k <;> norm_num [admissible], by norm_num, by norm_num⟩
  refine ⟨T, hT, ⟨fun i _ => by positivity, ?_⟩, ⟨fun j _ => by positivity, ?_⟩, fun _ _ => ?_⟩
  · norm_num [Finset.sum_range_succ]
  · norm_num [Finset.sum_range_succ]
  · left; norm_num

end Verif.Copula
