import Verif.Spec.Concave
import Verif.Lemmas.ErrorsTensor
import Verif.Props.FitFull
import Mathlib.Analysis.Calculus.Deriv.MeanValue

/-!
# Lemmas for C70: problems with a linear model
-/

set_option linter.unusedSectionVars false

namespace Verif.Tens
open Verif.Params

variable {pr : Problem} {m : Nat} {L : Theta → ℝ} {M : MaxLikeT ℝ} {gs : List Con} {φs : List Pen} {T : ℝ}

theorem allSum_set {m : Nat} (x : Nat → Nat → ℝ) (θ : Theta) {p a : Nat} (hp : p < m) (ha : a < (pr.sizes p).prod) (t : ℝ) :
    allSum pr m (fun i b => x i b * θ.set p a t i b) = allSum pr m (fun i b => x i b * θ i b) + x p a * (t - θ p a) := by
  unfold allSum
  have e : ∀ i b, x i b * θ.set p a t i b = x i b * θ i b + if i = p then (if b = a then x p a * (t - θ p a) else 0) else 0 := by
    intro i b
    unfold Theta.set
    by_cases hi : i = p
    · by_cases hb : b = a
      · subst hi hb; simp; ring
      · simp [hi, hb]
    · simp [hi]
  simp only [e, Finset.sum_add_distrib]
  congr 1
  rw [Finset.sum_eq_single p]
  · rw [Finset.sum_eq_single a]
    · simp
    · intro b _ hb; simp [hb]
    · intro h; exact absurd (Finset.mem_range.2 ha) h
  · intro i _ hi; simp [hi]
  · intro h; exact absurd (Finset.mem_range.2 hp) h

variable {y : Theta → pr.Cell → ℝ} {k : pr.Cell → ℝ} {x : pr.Cell → Nat → Nat → ℝ} {l l1 w : pr.Cell → ℝ → ℝ}

theorem linear_partial (hy : LinearModel pr m y k x) (θ : Theta) {p a : Nat} (hp : p < m) (ha : a < (pr.sizes p).prod) (c : pr.Cell) :
    HasPartial (fun θ => y θ c) θ p a (x c p a) := by
  unfold HasPartial
  have e : (fun t => y (θ.set p a t) c) = fun t => y θ c + x c p a * (t - θ p a) := by
    funext t
    rw [hy, hy, allSum_set _ _ hp ha]
    ring
  rw [e]
  have := ((hasDerivAt_id (θ p a)).sub_const (θ p a)).const_mul (x c p a)
  simpa using this.const_add (y θ c)

theorem partial_comp {f : ℝ → ℝ} {d e : ℝ} {F : Theta → ℝ} {θ : Theta} {p a : Nat} (hf : HasDerivAt f d (F θ)) (hF : HasPartial F θ p a e) :
    HasPartial (fun θ => f (F θ)) θ p a (d * e) := by
  unfold HasPartial at hF ⊢
  have hf' : HasDerivAt f d (F (θ.set p a (θ p a))) := by rw [Theta.set_self]; exact hf
  exact hf'.comp (θ p a) hF

theorem partial_sum {ι : Type} [Fintype ι] {F : ι → Theta → ℝ} {d : ι → ℝ} {θ : Theta} {p a : Nat} (h : ∀ c, HasPartial (F c) θ p a (d c)) :
    HasPartial (fun θ => ∑ c, F c θ) θ p a (∑ c, d c) := by
  unfold HasPartial at h ⊢
  have := HasDerivAt.fun_sum (u := Finset.univ) (A := fun c t => F c (θ.set p a t)) fun c _ => h c
  simpa using this

theorem cells_first (hl : ConcaveCells l l1 w) (hy : LinearModel pr m y k x) (θ : Theta) {p a : Nat} (hp : p < m) (ha : a < (pr.sizes p).prod) :
    HasPartial (fun θ => ∑ c, l c (y θ c)) θ p a (∑ c, l1 c (y θ c) * x c p a) :=
  partial_sum fun c => partial_comp (hl.first c _) (linear_partial hy θ hp ha c)

theorem cells_second (hl : ConcaveCells l l1 w) (hy : LinearModel pr m y k x) (θ : Theta) {p a q b : Nat} (hq : q < m) (hb : b < (pr.sizes q).prod) :
    HasPartial (fun θ => ∑ c, l1 c (y θ c) * x c p a) θ q b (∑ c, -(w c (y θ c)) * x c q b * x c p a) :=
  partial_sum fun c => hasPartial_mul_const (partial_comp (hl.second c _) (linear_partial hy θ hq hb c)) _

theorem hasPartial_congr' {F F' : Theta → ℝ} (h : ∀ θ, F θ = F' θ) {θ : Theta} {p a : Nat} {d : ℝ} (hF : HasPartial F θ p a d) : HasPartial F' θ p a d := by
  have : F = F' := funext h
  rwa [this] at hF

/-- The derivatives of a problem with a linear model. -/
theorem derivs_eq (hM : Solver pr m (fun _ => True) M L gs φs T) (hL : ∀ θ, L θ = ∑ c, l c (y θ c)) (hl : ConcaveCells l l1 w) (hy : LinearModel pr m y k x)
    {D : Theta → Nat → Nat → ℝ} {H : Theta → Nat → Nat → Nat → Nat → ℝ} (hD : Derivs pr m (fun _ => True) (penalised L φs) D H) :
    (∀ θ, ∀ p < m, ∀ a < (pr.sizes p).prod, D θ p a = ∑ c, l1 c (y θ c) * x c p a - (φs.map fun φ => φ.der θ p a).sum) ∧
    ∀ θ, ∀ p < m, ∀ q ≤ p, ∀ a < (pr.sizes p).prod, ∀ b < (pr.sizes q).prod,
      H θ p q a b = ∑ c, -(w c (y θ c)) * x c q b * x c p a - (φs.map fun φ => φ.hes θ p q a b).sum := by
  have h1 : ∀ θ, ∀ p < m, ∀ a < (pr.sizes p).prod, D θ p a = ∑ c, l1 c (y θ c) * x c p a - (φs.map fun φ => φ.der θ p a).sum := by
    intro θ p hp a ha
    refine hasPartial_unique (hD.first θ trivial p hp a ha) (hasPartial_sub (hasPartial_congr' (fun θ => (hL θ).symm) (cells_first hl hy θ hp ha)) ?_)
    refine hasPartial_list (F := fun (φ : Pen) θ => φ.val θ) (F' := fun φ => φ.der θ p a) fun φ hφ => ?_
    obtain ⟨t, ht⟩ := forall₂_right hM.penalties φ hφ
    exact ht.partials θ p hp a (entry_iff.2 ha)
  refine ⟨h1, fun θ p hp q hq a ha b hb => ?_⟩
  have := hD.second θ trivial p hp q hq a ha b hb
  refine hasPartial_unique (hasPartial_congr' (fun θ => h1 θ p hp a ha) this) (hasPartial_sub (cells_second hl hy θ (by omega) hb) ?_)
  refine hasPartial_list (F := fun (φ : Pen) θ => φ.der θ p a) (F' := fun φ => φ.hes θ p q a b) fun φ hφ => ?_
  obtain ⟨t, ht⟩ := forall₂_right hM.penalties φ hφ
  exact ht.partials2 θ p hp q hq a b (entry_iff.2 ha) (entry_iff.2 hb)

theorem curvature_congr {ps : List (Param ℝ)} (hw : ∀ p ∈ ps, p.mask.length = p.shape.prod) {H H' : Nat → Nat → Nat → Nat → ℝ}
    (h : ∀ i a j b, isFree ps i a → isFree ps j b → bothSides H i a j b = bothSides H' i a j b) (u v : Nat → Nat → ℝ) : curvature ps H u v = curvature ps H' u v := by
  rw [curvature_eq hw, curvature_eq hw]
  exact Finset.sum_congr rfl fun a ha => Finset.sum_congr rfl fun b hb => by rw [h _ _ _ _ (mem_freeSet.1 ha) (mem_freeSet.1 hb)]

/-- The curvature of a problem with a linear model. -/
theorem curvature_bilinear (hM : Solver pr m (fun _ => True) M L gs φs T) (hL : ∀ θ, L θ = ∑ c, l c (y θ c)) (hl : ConcaveCells l l1 w) (hy : LinearModel pr m y k x)
    {D : Theta → Nat → Nat → ℝ} {H : Theta → Nat → Nat → Nat → Nat → ℝ} (hD : Derivs pr m (fun _ => True) (penalised L φs) D H) {θ : Theta} {params : List (Param ℝ)}
    (hat : AtPoint pr m θ params) (u v : Nat → Nat → ℝ) :
    curvature params (H θ) u v = -(∑ c, w c (y θ c) * ((freeSum params fun i a => x c i a * u i a) * freeSum params fun i a => x c i a * v i a)) -
      (φs.map fun φ => curvature params (φ.hes θ) u v).sum := by
  have hw := hat.masks
  obtain ⟨-, hH⟩ := derivs_eq hM hL hl hy hD
  have hb : ∀ i a j b, isFree params i a → isFree params j b → bothSides (H θ) i a j b =
      ∑ c, -(w c (y θ c)) * x c i a * x c j b - (φs.map fun φ => bothSides (φ.hes θ) i a j b).sum := by
    intro i a j b h1 h2
    obtain ⟨i1, i2⟩ := hat.free h1
    obtain ⟨j1, j2⟩ := hat.free h2
    unfold bothSides
    split_ifs with hij
    · rw [hH θ i i1 j hij.le a i2 b j2]
      congr 1
      exact Finset.sum_congr rfl fun c _ => by ring
    · rw [hH θ j j1 i (by omega) b j2 a i2]
  have hsum : ∀ (qs : List Pen), ∑ p ∈ freeSet params, ∑ q ∈ freeSet params, (qs.map fun φ => bothSides (φ.hes θ) p.1 p.2 q.1 q.2).sum * u p.1 p.2 * v q.1 q.2 =
      (qs.map fun φ => curvature params (φ.hes θ) u v).sum := by
    intro qs
    induction qs with
    | nil => simp
    | cons φ qs ih =>
      simp only [List.map_cons, List.sum_cons]
      rw [← ih, curvature_eq hw, ← Finset.sum_add_distrib]
      refine Finset.sum_congr rfl fun p _ => ?_
      rw [← Finset.sum_add_distrib]
      exact Finset.sum_congr rfl fun q _ => by ring
  rw [curvature_eq hw, ← hsum]
  have hsq : ∀ c, w c (y θ c) * ((freeSum params fun i a => x c i a * u i a) * freeSum params fun i a => x c i a * v i a) =
      ∑ p ∈ freeSet params, ∑ q ∈ freeSet params, w c (y θ c) * x c p.1 p.2 * x c q.1 q.2 * u p.1 p.2 * v q.1 q.2 := by
    intro c
    rw [freeSum_eq hw, freeSum_eq hw, Finset.sum_mul_sum, Finset.mul_sum]
    refine Finset.sum_congr rfl fun p _ => ?_
    rw [Finset.mul_sum]
    exact Finset.sum_congr rfl fun q _ => by ring
  simp only [hsq]
  rw [Finset.sum_comm (s := Finset.univ), ← Finset.sum_neg_distrib, ← Finset.sum_sub_distrib]
  refine Finset.sum_congr rfl fun p hp => ?_
  rw [Finset.sum_comm (s := Finset.univ), ← Finset.sum_neg_distrib, ← Finset.sum_sub_distrib]
  refine Finset.sum_congr rfl fun q hq => ?_
  rw [hb _ _ _ _ (mem_freeSet.1 hp) (mem_freeSet.1 hq), sub_mul, sub_mul, Finset.sum_mul, Finset.sum_mul, ← Finset.sum_neg_distrib]
  congr 1
  exact Finset.sum_congr rfl fun c _ => by ring

theorem curvature_linear (hM : Solver pr m (fun _ => True) M L gs φs T) (hL : ∀ θ, L θ = ∑ c, l c (y θ c)) (hl : ConcaveCells l l1 w) (hy : LinearModel pr m y k x)
    {D : Theta → Nat → Nat → ℝ} {H : Theta → Nat → Nat → Nat → Nat → ℝ} (hD : Derivs pr m (fun _ => True) (penalised L φs) D H) {θ : Theta} {params : List (Param ℝ)}
    (hat : AtPoint pr m θ params) (u : Nat → Nat → ℝ) :
    curvature params (H θ) u u = -(∑ c, w c (y θ c) * (freeSum params fun i a => x c i a * u i a) ^ 2) - (φs.map fun φ => curvature params (φ.hes θ) u u).sum := by
  rw [curvature_bilinear hM hL hl hy hD hat]
  simp only [sq]

theorem symmetric_linear (hM : Solver pr m (fun _ => True) M L gs φs T) (hL : ∀ θ, L θ = ∑ c, l c (y θ c)) (hl : ConcaveCells l l1 w) (hy : LinearModel pr m y k x)
    (hφ : ∀ φ ∈ φs, ConvexPen pr m φ)
    {D : Theta → Nat → Nat → ℝ} {H : Theta → Nat → Nat → Nat → Nat → ℝ} (hD : Derivs pr m (fun _ => True) (penalised L φs) D H) {θ : Theta} {params : List (Param ℝ)}
    (hat : AtPoint pr m θ params) : SymmetricHess params (H θ) := by
  obtain ⟨-, hH⟩ := derivs_eq hM hL hl hy hD
  intro i a b h1 h2
  obtain ⟨i1, i2⟩ := hat.free h1
  obtain ⟨-, j2⟩ := hat.free h2
  rw [hH θ i i1 i le_rfl a i2 b j2, hH θ i i1 i le_rfl b j2 a i2]
  congr 1
  · exact Finset.sum_congr rfl fun c _ => by ring
  · congr 1
    exact List.map_congr_left fun φ hφ' => (hφ φ hφ').symm θ i a b

/-! ### quadratic penalties -/

theorem sum_picked {pm : List Nat} (hn : pm.Nodup) (hlt : ∀ p ∈ pm, p < m) (F : Nat → ℝ) :
    ∑ k ∈ Finset.range pm.length, F (pm.getD k 0) = ∑ p ∈ Finset.range m, if p ∈ pm then F p else 0 := by
  classical
  rw [← Finset.sum_filter]
  have e : (Finset.range m).filter (fun p => p ∈ pm) = pm.toFinset := by
    ext p
    simp only [Finset.mem_filter, Finset.mem_range, List.mem_toFinset]
    exact ⟨fun h => h.2, fun h => ⟨hlt p h, h⟩⟩
  rw [e, List.sum_toFinset F hn, Finset.sum_range]
  have : pm.map F = List.ofFn fun i : Fin pm.length => F (pm.getD i 0) := by
    refine List.ext_getElem (by simp) fun i h1 h2 => ?_
    simp at h1
    simp [h1]
  rw [this, List.sum_ofFn]

theorem quad_convex {pm : List Nat} (hn : pm.Nodup) (hlt : ∀ p ∈ pm, p < m) (v : ℝ) {s : ℝ} (hs : s ≠ 0) : ConvexPen pr m (quadPen pr pm v s) := by
  constructor
  · intro θ θ'
    show _ + allSum pr m _ ≤ _
    simp only [quadPen]
    rw [sum_picked hn hlt fun p => ∑ a ∈ Finset.range (pr.sizes p).prod, ((θ p a - v) / s) ^ 2,
      sum_picked hn hlt fun p => ∑ a ∈ Finset.range (pr.sizes p).prod, ((θ' p a - v) / s) ^ 2]
    unfold allSum
    rw [← Finset.sum_add_distrib]
    refine Finset.sum_le_sum fun p _ => ?_
    by_cases hp : p ∈ pm
    · simp only [hp, if_true]
      rw [← Finset.sum_add_distrib]
      refine Finset.sum_le_sum fun a _ => ?_
      have : ((θ' p a - v) / s) ^ 2 - (((θ p a - v) / s) ^ 2 + 2 * (θ p a - v) / s ^ 2 * (θ' p a - θ p a)) = ((θ' p a - θ p a) / s) ^ 2 := by
        field_simp
        ring
      nlinarith [sq_nonneg ((θ' p a - θ p a) / s)]
    · simp [hp]
  · intro θ p a b
    simp only [quadPen]
    by_cases h : a = b
    · subst h; rfl
    · rw [if_neg (by tauto), if_neg (by tauto)]
  · intro θ params u hat
    rw [curvature_eq hat.masks]
    refine Finset.sum_nonneg fun p hp => Finset.sum_nonneg fun q hq => ?_
    unfold bothSides
    simp only [quadPen]
    have h0 : 0 ≤ 2 / s ^ 2 := by positivity
    split_ifs with h1 h2 h2
    · omega
    · simp
    · rw [← h2.2.1, ← h2.2.2, mul_assoc]
      exact mul_nonneg h0 (mul_self_nonneg _)
    · simp

theorem quad_strict {pm : List Nat} (v : ℝ) {s : ℝ} (hs : s ≠ 0) {θ : Theta} {params : List (Param ℝ)} (hat : AtPoint pr m θ params) {u : Nat → Nat → ℝ}
    (h : curvature params ((quadPen pr pm v s).hes θ) u u = 0) {i a : Nat} (hf : isFree params i a) (hi : i ∈ pm) : u i a = 0 := by
  have hpos : 0 < 2 / s ^ 2 := by positivity
  have e : ∀ p ∈ freeSet params, ∑ q ∈ freeSet params, bothSides ((quadPen pr pm v s).hes θ) p.1 p.2 q.1 q.2 * u p.1 p.2 * u q.1 q.2 =
      if p.1 ∈ pm then 2 / s ^ 2 * u p.1 p.2 ^ 2 else 0 := by
    intro p hp
    rw [Finset.sum_eq_single p]
    · unfold bothSides
      simp only [quadPen]
      rw [if_neg (lt_irrefl _)]
      by_cases h : p.1 ∈ pm
      · simp [h]; ring
      · simp [h]
    · intro q _ hq
      have : ¬(q.1 = p.1 ∧ q.2 = p.2) := fun h => hq (Prod.ext h.1 h.2)
      unfold bothSides
      simp only [quadPen]
      split_ifs with h1 h2 h2
      · omega
      · simp
      · exact absurd h2.2 this
      · simp
    · intro h; exact absurd hp h
  rw [curvature_eq hat.masks, Finset.sum_congr rfl e] at h
  have := (Finset.sum_eq_zero_iff_of_nonneg (fun p _ => by
    split_ifs
    · positivity
    · exact le_rfl)).1 h (i, a) (mem_freeSet.2 hf)
  rw [if_pos hi] at this
  have h2 := (mul_eq_zero.1 this).resolve_left hpos.ne'
  exact pow_eq_zero_iff (two_ne_zero) |>.1 h2

/-! ### the tangent -/

theorem anti_of (hl : ConcaveCells l l1 w) (c : pr.Cell) : Antitone (l1 c) :=
  antitone_of_hasDerivAt_nonpos (hl.second c) fun t => neg_nonpos.2 (hl.nonneg c t)

theorem strict_of (hl : ConcaveCells l l1 w) (c : pr.Cell) (h : ∀ t, w c t ≠ 0) : StrictAnti (l1 c) :=
  strictAnti_of_hasDerivAt_neg (hl.second c) fun t => neg_lt_zero.2 (lt_of_le_of_ne (hl.nonneg c t) (Ne.symm (h t)))

/-- A concave function is below its tangent. -/
theorem below_tangent (hl : ConcaveCells l l1 w) (c : pr.Cell) (t t' : ℝ) : l c t' ≤ l c t + l1 c t * (t' - t) := by
  rcases lt_trichotomy t t' with h | rfl | h
  · obtain ⟨z, ⟨z1, z2⟩, e⟩ := exists_hasDerivAt_eq_slope (l c) (l1 c) h (fun s _ => (hl.first c s).continuousAt.continuousWithinAt) fun s _ => hl.first c s
    have := anti_of hl c z1.le
    rw [e, div_le_iff₀ (by linarith)] at this
    linarith
  · simp
  · obtain ⟨z, ⟨z1, z2⟩, e⟩ := exists_hasDerivAt_eq_slope (l c) (l1 c) h (fun s _ => (hl.first c s).continuousAt.continuousWithinAt) fun s _ => hl.first c s
    have := anti_of hl c z2.le
    rw [e, le_div_iff₀ (by linarith)] at this
    linarith

theorem below_tangent_strict (hl : ConcaveCells l l1 w) (c : pr.Cell) (hw : ∀ t, w c t ≠ 0) {t t' : ℝ} (hne : t' ≠ t) : l c t' < l c t + l1 c t * (t' - t) := by
  rcases lt_or_gt_of_ne hne with h | h
  · obtain ⟨z, ⟨z1, z2⟩, e⟩ := exists_hasDerivAt_eq_slope (l c) (l1 c) h (fun s _ => (hl.first c s).continuousAt.continuousWithinAt) fun s _ => hl.first c s
    have := strict_of hl c hw z2
    rw [e, lt_div_iff₀ (by linarith)] at this
    linarith
  · obtain ⟨z, ⟨z1, z2⟩, e⟩ := exists_hasDerivAt_eq_slope (l c) (l1 c) h (fun s _ => (hl.first c s).continuousAt.continuousWithinAt) fun s _ => hl.first c s
    have := strict_of hl c hw z1
    rw [e, div_lt_iff₀ (by linarith)] at this
    linarith

theorem linear_diff (hy : LinearModel pr m y k x) (θ θ' : Theta) (c : pr.Cell) : y θ' c - y θ c = allSum pr m fun p a => x c p a * (θ' p a - θ p a) := by
  rw [hy, hy]
  unfold allSum
  rw [add_sub_add_left_eq_sub, ← Finset.sum_sub_distrib]
  refine Finset.sum_congr rfl fun p _ => ?_
  rw [← Finset.sum_sub_distrib]
  exact Finset.sum_congr rfl fun a _ => by ring

theorem allSum_free {θ : Theta} {params : List (Param ℝ)} (hat : AtPoint pr m θ params) {F : Nat → Nat → ℝ} (h : ∀ i a, isFixed params i a → F i a = 0) :
    allSum pr m F = freeSum params F := by
  classical
  unfold allSum freeSum
  rw [hat.len]
  refine Finset.sum_congr rfl fun i hi => ?_
  obtain ⟨q, q1, q2, q3, -⟩ := hat.each i (Finset.mem_range.1 hi)
  have e : (params.map fun p => p.shape.prod).getD i 0 = (pr.sizes i).prod := by
    rw [List.getD_eq_getElem?_getD, List.getElem?_map, q1, Option.map_some, q2]
    rfl
  rw [e]
  refine Finset.sum_congr rfl fun a ha => ?_
  have ha' : a < q.mask.length := by rw [q3, q2]; exact Finset.mem_range.1 ha
  split_ifs with hf
  · rfl
  · refine h i a ⟨q, q1, ?_⟩
    rw [List.getElem?_eq_getElem ha']
    cases hb : q.mask[a] with
    | true => rfl
    | false => exact absurd ⟨q, q1, by rw [List.getElem?_eq_getElem ha', hb]⟩ hf

theorem lin_diff {pm : List Nat} (hn : pm.Nodup) (hlt : ∀ p ∈ pm, p < m) (ws : List ℝ) (θ θ' : Theta) :
    (linCon pr pm ws).val θ' - (linCon pr pm ws).val θ = allSum pr m fun p a => (linCon pr pm ws).der θ p a * (θ' p a - θ p a) := by
  simp only [linCon]
  rw [← Finset.sum_sub_distrib]
  have e : ∀ k ∈ Finset.range pm.length, (∑ a ∈ Finset.range (pr.sizes (pm.getD k 0)).prod, θ' (pm.getD k 0) a * ws.getD k 0) -
      ∑ a ∈ Finset.range (pr.sizes (pm.getD k 0)).prod, θ (pm.getD k 0) a * ws.getD k 0 =
      (fun p => ∑ a ∈ Finset.range (pr.sizes p).prod, ws.getD (pm.idxOf p) 0 * (θ' p a - θ p a)) (pm.getD k 0) := by
    intro k hk
    have hk' := Finset.mem_range.1 hk
    rw [← Finset.sum_sub_distrib]
    refine Finset.sum_congr rfl fun a _ => ?_
    have hi : pm.idxOf (pm.getD k 0) = k := by
      rw [List.getD_eq_getElem?_getD, List.getElem?_eq_getElem hk']
      exact hn.idxOf_getElem k hk'
    rw [hi]
    ring
  refine ((Finset.sum_congr rfl e).trans (sum_picked hn hlt fun p => ∑ a ∈ Finset.range (pr.sizes p).prod, ws.getD (pm.idxOf p) 0 * (θ' p a - θ p a))).trans ?_
  unfold allSum
  refine Finset.sum_congr rfl fun p _ => ?_
  by_cases hp : p ∈ pm
  · simp [hp]
  · simp [hp]

theorem sum_zero_all : ∀ {l : List ℝ}, (∀ z ∈ l, 0 ≤ z) → l.sum = 0 → ∀ z ∈ l, z = 0
  | [], _, _ => by simp
  | a :: l, h, hs => by
    have h1 := h a (List.mem_cons_self ..)
    have h2 : 0 ≤ l.sum := List.sum_nonneg fun z hz => h z (List.mem_cons_of_mem _ hz)
    rw [List.sum_cons] at hs
    intro z hz
    rcases List.mem_cons.1 hz with rfl | hz
    · linarith
    · exact sum_zero_all (fun z hz => h z (List.mem_cons_of_mem _ hz)) (by linarith) z hz

theorem concave_linear {qs : List (List Nat × ℝ × ℝ)} (hq : ∀ q ∈ qs, q.1.Nodup ∧ (∀ p ∈ q.1, p < m) ∧ q.2.2 ≠ 0)
    (hM : Solver pr m (fun _ => True) M L gs (quadPens pr qs) T) (hL : ∀ θ, L θ = ∑ c, l c (y θ c)) (hl : ConcaveCells l l1 w)
    (hy : LinearModel pr m y k x) {D : Theta → Nat → Nat → ℝ} {H : Theta → Nat → Nat → Nat → Nat → ℝ}
    (hD : Derivs pr m (fun _ => True) (penalised L (quadPens pr qs)) D H) {θ : Theta} {params : List (Param ℝ)} (hat : AtPoint pr m θ params)
    {ders : List (Nat → Nat → ℝ)} (hi : Identified pr params ders x (fun c => w c (y θ c) ≠ 0) fun p => ∃ q ∈ qs, p ∈ q.1) : Concave params (H θ) ders := by
  intro u hu ⟨i, a, hf, hne⟩
  have hcx : ∀ φ ∈ quadPens pr qs, 0 ≤ curvature params (φ.hes θ) u u := by
    intro φ hφ
    obtain ⟨q, hq', rfl⟩ := List.mem_map.1 hφ
    obtain ⟨h1, h2, h3⟩ := hq q hq'
    exact (quad_convex h1 h2 _ h3).nonneg θ params u hat
  have hs1 : 0 ≤ ∑ c, w c (y θ c) * (freeSum params fun i a => x c i a * u i a) ^ 2 :=
    Finset.sum_nonneg fun c _ => mul_nonneg (hl.nonneg c _) (sq_nonneg _)
  have hs2 : 0 ≤ ((quadPens pr qs).map fun φ => curvature params (φ.hes θ) u u).sum := by
    refine List.sum_nonneg fun z hz => ?_
    obtain ⟨φ, hφ, rfl⟩ := List.mem_map.1 hz
    exact hcx φ hφ
  rw [curvature_linear hM hL hl hy hD hat]
  by_contra hcon
  have e1 : ∑ c, w c (y θ c) * (freeSum params fun i a => x c i a * u i a) ^ 2 = 0 := by linarith
  have e2 : ((quadPens pr qs).map fun φ => curvature params (φ.hes θ) u u).sum = 0 := by linarith
  refine hne (hi u hu (fun c hc => ?_) (fun i a hf hp => ?_) i a hf)
  · have := (Finset.sum_eq_zero_iff_of_nonneg fun c _ => mul_nonneg (hl.nonneg c _) (sq_nonneg _)).1 e1 c (Finset.mem_univ _)
    exact pow_eq_zero_iff two_ne_zero |>.1 ((mul_eq_zero.1 this).resolve_left hc)
  · obtain ⟨q, hq', hp⟩ := hp
    obtain ⟨h1, h2, h3⟩ := hq q hq'
    have hmem : quadPen pr q.1 q.2.1 q.2.2 ∈ quadPens pr qs := List.mem_map.2 ⟨q, hq', rfl⟩
    have hall : ∀ z ∈ (quadPens pr qs).map (fun φ => curvature params (φ.hes θ) u u), z = 0 := by
      refine sum_zero_all (fun z hz => ?_) e2
      obtain ⟨φ, hφ, rfl⟩ := List.mem_map.1 hz
      exact hcx φ hφ
    exact quad_strict q.2.1 h3 hat (hall _ (List.mem_map.2 ⟨_, hmem, rfl⟩)) hf hp

end Verif.Tens
