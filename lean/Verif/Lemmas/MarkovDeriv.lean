import Verif.Lemmas.Markov
import Verif.Spec.Func
import Mathlib.Analysis.Calculus.Deriv.Mul
import Mathlib.Analysis.Calculus.Deriv.Add

/-!
# The derivative arrays of `MarkovMatrix.eval` and `MarkovVector.eval`, by induction over the loops
-/

set_option linter.unusedSectionVars false

namespace Verif.Markov

section matrix

theorem hasDeriv_addAt {M : ℝ → Mat ℝ} {M' : Mat ℝ} {w : ℝ → ℝ} {w' t : ℝ}
    (hM : ∀ a b, HasDerivAt (fun t => M t a b) (M' a b) t) (hw : HasDerivAt w w' t) (i j a b : Nat) :
    HasDerivAt (fun t => addAt (M t) i j (w t) a b) (addAt M' i j w' a b) t := by
  unfold addAt
  by_cases h : a = i ∧ b = j
  · simp only [if_pos h]; exact (hM a b).fun_add hw
  · simp only [if_neg h]; exact hM a b

theorem hasDeriv_subAt {M : ℝ → Mat ℝ} {M' : Mat ℝ} {w : ℝ → ℝ} {w' t : ℝ}
    (hM : ∀ a b, HasDerivAt (fun t => M t a b) (M' a b) t) (hw : HasDerivAt w w' t) (i j a b : Nat) :
    HasDerivAt (fun t => subAt (M t) i j (w t) a b) (subAt M' i j w' a b) t := by
  unfold subAt
  by_cases h : a = i ∧ b = j
  · simp only [if_pos h]; exact (hM a b).fun_sub hw
  · simp only [if_neg h]; exact hM a b

/-- First and second derivatives of six numbers along a curve of parameters with velocity `v1`,
`v2`. -/
structure NDeriv (S : ℝ → VState ℝ) (v1 v2 t : ℝ) : Prop where
  M : HasDerivAt (fun t => (S t).M) ((S t).D1 * v1 + (S t).D2 * v2) t
  D1 : HasDerivAt (fun t => (S t).D1) ((S t).H11 * v1 + (S t).H12 * v2) t
  D2 : HasDerivAt (fun t => (S t).D2) ((S t).H12 * v1 + (S t).H22 * v2) t

/-- `mmEvalCell` with the diagonal update of `H12` corrected: `f1 * dm2 + f2 * dm1` instead of
`f1 * dm1 + f2 * dm2`. -/
def fixedCell {K : Type} [Field K] (size : Nat) (skew : Mat K) (s1 s2 : K) (S : MState K)
    (x y : Nat) : MState K :=
  { mmEvalCell size skew s1 s2 S x y with
    H12 := subAt (addAt (addAt S.H12 (min (x + 1) (size - 1)) y
        (s1 * skew x y * S.H12 x y + skew x y * S.D2 x y)) x (min (y + 1) (size - 1))
        (s2 * skew y x * S.H12 x y + skew y x * S.D1 x y))
      x y (skew x y * S.D2 x y + skew y x * S.D1 x y +
        (s1 * skew x y + s2 * skew y x) * S.H12 x y) }

/-- The loops with the corrected cell. -/
def fixedLoop {K : Type} [Field K] (size steps : Nat) (skew : Mat K) (s1 s2 : K) : MState K :=
  repeatSteps steps (mmSweep size (fixedCell size skew s1 s2)) mmEvalStart

/-- The arrays `D` hold the first and `H` the second derivatives. -/
def MDeriv (S : ℝ → MState ℝ) (v1 v2 t : ℝ) : Prop :=
  ∀ a b, NDeriv (fun t => (S t).at a b) v1 v2 t

theorem fixedCell_deriv {size : Nat} {skew : Mat ℝ} {s1 s2 : ℝ → ℝ} {v1 v2 t : ℝ}
    (h1 : HasDerivAt s1 v1 t) (h2 : HasDerivAt s2 v2 t) {S : ℝ → MState ℝ}
    (hS : MDeriv S v1 v2 t) (x y : Nat) :
    MDeriv (fun t => fixedCell size skew (s1 t) (s2 t) (S t) x y) v1 v2 t := by
  have hM := (hS x y).M
  have hD1 := (hS x y).D1
  have hD2 := (hS x y).D2
  have hMa := fun a b => (hS a b).M
  have hD1a := fun a b => (hS a b).D1
  have hD2a := fun a b => (hS a b).D2
  simp only [MState.at] at hM hD1 hD2 hMa hD1a hD2a
  intro a b
  refine ⟨?_, ?_, ?_⟩
  · have := hasDeriv_subAt
      (hasDeriv_addAt
        (hasDeriv_addAt hMa ((h1.mul_const (skew x y)).fun_mul hM) (min (x + 1) (size - 1)) y)
        ((h2.mul_const (skew y x)).fun_mul hM) x (min (y + 1) (size - 1)))
      (((h1.mul_const (skew x y)).fun_add (h2.mul_const (skew y x))).fun_mul hM) x y a b
    refine HasDerivAt.congr_deriv this ?_
    simp only [fixedCell, mmEvalCell, addAt, subAt, MState.at]
    split_ifs <;> ring
  · have := hasDeriv_subAt
      (hasDeriv_addAt
        (hasDeriv_addAt hD1a
          (((h1.mul_const (skew x y)).fun_mul hD1).fun_add (hM.const_mul (skew x y)))
          (min (x + 1) (size - 1)) y)
        ((h2.mul_const (skew y x)).fun_mul hD1) x (min (y + 1) (size - 1)))
      ((hM.const_mul (skew x y)).fun_add
        (((h1.mul_const (skew x y)).fun_add (h2.mul_const (skew y x))).fun_mul hD1)) x y a b
    refine HasDerivAt.congr_deriv this ?_
    simp only [fixedCell, mmEvalCell, addAt, subAt, MState.at]
    split_ifs <;> ring
  · have := hasDeriv_subAt
      (hasDeriv_addAt
        (hasDeriv_addAt hD2a ((h1.mul_const (skew x y)).fun_mul hD2)
          (min (x + 1) (size - 1)) y)
        (((h2.mul_const (skew y x)).fun_mul hD2).fun_add (hM.const_mul (skew y x)))
          x (min (y + 1) (size - 1)))
      ((hM.const_mul (skew y x)).fun_add
        (((h1.mul_const (skew x y)).fun_add (h2.mul_const (skew y x))).fun_mul hD2)) x y a b
    refine HasDerivAt.congr_deriv this ?_
    simp only [fixedCell, mmEvalCell, addAt, subAt, MState.at]
    split_ifs <;> ring

theorem fixedLoop_deriv {size steps : Nat} {skew : Mat ℝ} {s1 s2 : ℝ → ℝ} {v1 v2 t : ℝ}
    (h1 : HasDerivAt s1 v1 t) (h2 : HasDerivAt s2 v2 t) :
    MDeriv (fun t => fixedLoop size steps skew (s1 t) (s2 t)) v1 v2 t := by
  have hfold : ∀ (l : List (Nat × Nat)) (S : ℝ → MState ℝ), MDeriv S v1 v2 t →
      MDeriv (fun t => l.foldl (fun S c => fixedCell size skew (s1 t) (s2 t) S c.1 c.2) (S t))
        v1 v2 t := by
    intro l
    induction l with
    | nil => intro S hS; exact hS
    | cons c l ih =>
      intro S hS
      simp only [List.foldl_cons]
      exact ih _ (fixedCell_deriv h1 h2 hS c.1 c.2)
  unfold fixedLoop
  induction steps with
  | zero =>
    intro a b
    constructor <;>
    · simp only [repeatSteps, List.range_zero, List.foldl_nil, mmEvalStart, MState.at]
      refine HasDerivAt.congr_deriv (hasDerivAt_const t _) ?_
      ring
  | succ n ih =>
    simp only [repeatSteps_succ, mmSweep_eq] at ih ⊢
    exact hfold _ _ ih

/-- Two states that agree except on `H12`. -/
def SameBut {K : Type} (S T : MState K) : Prop :=
  S.M = T.M ∧ S.D1 = T.D1 ∧ S.D2 = T.D2 ∧ S.H11 = T.H11 ∧ S.H22 = T.H22

theorem mmEvalLoop_sameBut {K : Type} [Field K] (size steps : Nat) (skew : Mat K) (s1 s2 : K) :
    SameBut (mmEvalLoop size steps skew s1 s2) (fixedLoop size steps skew s1 s2) := by
  have hfold : ∀ (l : List (Nat × Nat)) (S T : MState K), SameBut S T →
      SameBut (l.foldl (fun S c => mmEvalCell size skew s1 s2 S c.1 c.2) S)
        (l.foldl (fun S c => fixedCell size skew s1 s2 S c.1 c.2) T) := by
    intro l
    induction l with
    | nil => intro S T h; exact h
    | cons c l ih =>
      intro S T h
      simp only [List.foldl_cons]
      refine ih _ _ ?_
      obtain ⟨hM, h1, h2, h3, h4⟩ := h
      simp only [SameBut, fixedCell, mmEvalCell, hM, h1, h2, h3, h4, and_self]
  unfold mmEvalLoop fixedLoop
  induction steps with
  | zero => exact ⟨rfl, rfl, rfl, rfl, rfl⟩
  | succ n ih =>
    simp only [repeatSteps_succ, mmSweep_eq] at ih ⊢
    exact hfold _ _ _ ih

theorem mmEvalLoop_eq_fixed {K : Type} [Field K] (size steps : Nat) (skew : Mat K) (s1 s2 : K)
    (hsym : ∀ x < size, ∀ y < size, skew x y = skew y x) :
    mmEvalLoop size steps skew s1 s2 = fixedLoop size steps skew s1 s2 := by
  have hcell : ∀ (S : MState K) (c : Nat × Nat), c ∈ cells size →
      mmEvalCell size skew s1 s2 S c.1 c.2 = fixedCell size skew s1 s2 S c.1 c.2 := by
    intro S c hc
    have := hsym c.1 (cells_mem hc).1 c.2 (cells_mem hc).2
    simp only [fixedCell, mmEvalCell, MState.mk.injEq, true_and, and_true]
    rw [this]
    congr 1
    ring
  have hfold : ∀ (l : List (Nat × Nat)) (S : MState K), (∀ c ∈ l, c ∈ cells size) →
      l.foldl (fun S c => mmEvalCell size skew s1 s2 S c.1 c.2) S =
        l.foldl (fun S c => fixedCell size skew s1 s2 S c.1 c.2) S := by
    intro l
    induction l with
    | nil => intro S _; rfl
    | cons c l ih =>
      intro S h
      simp only [List.foldl_cons]
      rw [hcell S c (h c (List.mem_cons_self ..)), ih _ fun d hd => h d (List.mem_cons_of_mem _ hd)]
  unfold mmEvalLoop fixedLoop
  induction steps with
  | zero => rfl
  | succ n ih =>
    simp only [repeatSteps_succ, mmSweep_eq] at ih ⊢
    rw [ih, hfold _ _ fun c hc => hc]

/-! ### change of field, to evaluate witnesses over `ℚ` -/

/-- Apply a function to all entries. -/
def MState.map {K L : Type} (f : K → L) (S : MState K) : MState L :=
  ⟨fun a b => f (S.M a b), fun a b => f (S.D1 a b), fun a b => f (S.D2 a b),
    fun a b => f (S.H11 a b), fun a b => f (S.H12 a b), fun a b => f (S.H22 a b)⟩

theorem mmEvalCell_map {K L : Type} [Field K] [Field L] (f : K →+* L) (size : Nat) (skew : Mat K)
    (s1 s2 : K) (S : MState K) (x y : Nat) :
    mmEvalCell size (fun a b => f (skew a b)) (f s1) (f s2) (S.map f) x y =
      (mmEvalCell size skew s1 s2 S x y).map f := by
  simp only [mmEvalCell, MState.map, MState.mk.injEq]
  refine ⟨?_, ?_, ?_, ?_, ?_, ?_⟩ <;>
  · funext a b
    simp only [addAt, subAt]
    split_ifs <;> simp only [map_add, map_sub, map_mul, map_ofNat]

theorem fixedCell_map {K L : Type} [Field K] [Field L] (f : K →+* L) (size : Nat) (skew : Mat K)
    (s1 s2 : K) (S : MState K) (x y : Nat) :
    fixedCell size (fun a b => f (skew a b)) (f s1) (f s2) (S.map f) x y =
      (fixedCell size skew s1 s2 S x y).map f := by
  unfold fixedCell
  rw [mmEvalCell_map]
  simp only [MState.map, MState.mk.injEq, true_and, and_true]
  funext a b
  simp only [addAt, subAt]
  split_ifs <;> simp only [map_add, map_sub, map_mul]

theorem start_map {K L : Type} [Field K] [Field L] (f : K →+* L) :
    (mmEvalStart : MState K).map f = (mmEvalStart : MState L) := by
  simp only [MState.map, mmEvalStart, map_zero, MState.mk.injEq, and_true]
  funext a b
  simp only [mmStart]
  split_ifs <;> simp

theorem loop_map {K L : Type} [Field K] [Field L] (f : K →+* L)
    (c1 : MState K → Nat → Nat → MState K) (c2 : MState L → Nat → Nat → MState L)
    (h : ∀ S x y, c2 (S.map f) x y = (c1 S x y).map f) (size steps : Nat) :
    repeatSteps steps (mmSweep size c2) mmEvalStart =
      (repeatSteps steps (mmSweep size c1) mmEvalStart).map f := by
  have hfold : ∀ (l : List (Nat × Nat)) (S : MState K),
      l.foldl (fun S c => c2 S c.1 c.2) (S.map f) =
        (l.foldl (fun S c => c1 S c.1 c.2) S).map f := by
    intro l
    induction l with
    | nil => intro S; rfl
    | cons c l ih => intro S; simp only [List.foldl_cons]; rw [h, ih]
  induction steps with
  | zero => exact (start_map f).symm
  | succ n ih =>
    simp only [repeatSteps_succ, mmSweep_eq] at ih ⊢
    rw [ih, hfold]

/-- The value array of `eval` is the one of `__call__`. -/
theorem mmEvalLoop_M {K : Type} [Field K] (size steps : Nat) (skew : Mat K) (s1 s2 : K) :
    (mmEvalLoop size steps skew s1 s2).M =
      repeatSteps steps (mmSweep size (mmCell size skew s1 s2)) mmStart := by
  have hfold : ∀ (l : List (Nat × Nat)) (S : MState K),
      (l.foldl (fun S c => mmEvalCell size skew s1 s2 S c.1 c.2) S).M =
        l.foldl (fun M c => mmCell size skew s1 s2 M c.1 c.2) S.M := by
    intro l
    induction l with
    | nil => intro S; rfl
    | cons c l ih => intro S; simp only [List.foldl_cons]; rw [ih]; rfl
  unfold mmEvalLoop
  induction steps with
  | zero => rfl
  | succ n ih => rw [repeatSteps_succ, repeatSteps_succ, mmSweep_eq, hfold, ih, mmSweep_eq]

end matrix

section vector

theorem hasDeriv_addAtV {M : ℝ → Vec ℝ} {M' : Vec ℝ} {w : ℝ → ℝ} {w' t : ℝ}
    (hM : ∀ a, HasDerivAt (fun t => M t a) (M' a) t) (hw : HasDerivAt w w' t) (i a : Nat) :
    HasDerivAt (fun t => addAtV (M t) i (w t) a) (addAtV M' i w' a) t := by
  unfold addAtV
  by_cases h : a = i
  · simp only [if_pos h]; exact (hM a).fun_add hw
  · simp only [if_neg h]; exact hM a

theorem hasDeriv_subAtV {M : ℝ → Vec ℝ} {M' : Vec ℝ} {w : ℝ → ℝ} {w' t : ℝ}
    (hM : ∀ a, HasDerivAt (fun t => M t a) (M' a) t) (hw : HasDerivAt w w' t) (i a : Nat) :
    HasDerivAt (fun t => subAtV (M t) i (w t) a) (subAtV M' i w' a) t := by
  unfold subAtV
  by_cases h : a = i
  · simp only [if_pos h]; exact (hM a).fun_sub hw
  · simp only [if_neg h]; exact hM a

/-- The same for six vectors. -/
def VDeriv (S : ℝ → VState (Vec ℝ)) (v1 v2 t : ℝ) : Prop :=
  ∀ a, NDeriv (fun t => (S t).at a) v1 v2 t

theorem mvEvalCell_deriv {size : Nat} {skew : Vec ℝ} {s1 s2 : ℝ → ℝ} {v1 v2 t : ℝ}
    (h1 : HasDerivAt s1 v1 t) (h2 : HasDerivAt s2 v2 t) {P : ℝ → VState (Vec ℝ) × VState ℝ}
    (hS : VDeriv (fun t => (P t).1) v1 v2 t) (hE : NDeriv (fun t => (P t).2) v1 v2 t) (x : Nat) :
    VDeriv (fun t => (mvEvalCell size skew (s1 t) (s2 t) (P t) x).1) v1 v2 t ∧
    NDeriv (fun t => (mvEvalCell size skew (s1 t) (s2 t) (P t) x).2) v1 v2 t := by
  have hM := (hS x).M
  have hD1 := (hS x).D1
  have hD2 := (hS x).D2
  have hMa := fun a => (hS a).M
  have hD1a := fun a => (hS a).D1
  have hD2a := fun a => (hS a).D2
  simp only [VState.at] at hM hD1 hD2 hMa hD1a hD2a
  have hq := (h1.mul_const (skew x)).fun_add (h2.mul_const (skew (2 * size - 2 - x)))
  refine ⟨fun a => ⟨?_, ?_, ?_⟩, ⟨?_, ?_, ?_⟩⟩
  · have := hasDeriv_addAtV (hasDeriv_subAtV (hasDeriv_addAtV hMa
      ((hM.fun_mul h2).mul_const (skew (2 * size - 2 - x))) (max (x - 1) 0)) (hM.fun_mul hq) x)
      hE.M x a
    refine HasDerivAt.congr_deriv this ?_
    simp only [mvEvalCell, addAtV, subAtV, VState.at]
    split_ifs <;> ring
  · have := hasDeriv_addAtV (hasDeriv_subAtV (hasDeriv_addAtV hD1a
      ((hD1.fun_mul h2).mul_const (skew (2 * size - 2 - x))) (max (x - 1) 0))
      ((hD1.fun_mul hq).fun_add (hM.mul_const (skew x))) x) hE.D1 x a
    refine HasDerivAt.congr_deriv this ?_
    simp only [mvEvalCell, addAtV, subAtV, VState.at]
    split_ifs <;> ring
  · have := hasDeriv_addAtV (hasDeriv_subAtV (hasDeriv_addAtV hD2a
      ((hM.fun_add (hD2.fun_mul h2)).mul_const (skew (2 * size - 2 - x))) (max (x - 1) 0))
      ((hD2.fun_mul hq).fun_add (hM.mul_const (skew (2 * size - 2 - x)))) x) hE.D2 x a
    refine HasDerivAt.congr_deriv this ?_
    simp only [mvEvalCell, addAtV, subAtV, VState.at]
    split_ifs <;> ring
  · refine HasDerivAt.congr_deriv ((hM.fun_mul h1).mul_const (skew x)) ?_
    simp only [mvEvalCell]
    ring
  · refine HasDerivAt.congr_deriv ((hM.fun_add (hD1.fun_mul h1)).mul_const (skew x)) ?_
    simp only [mvEvalCell]
    ring
  · refine HasDerivAt.congr_deriv ((hD2.fun_mul h1).mul_const (skew x)) ?_
    simp only [mvEvalCell]
    ring

theorem mvEvalSweep_deriv {size : Nat} {skew : Vec ℝ} {s1 s2 : ℝ → ℝ} {v1 v2 t : ℝ}
    (h1 : HasDerivAt s1 v1 t) (h2 : HasDerivAt s2 v2 t) {S : ℝ → VState (Vec ℝ)}
    (hS : VDeriv S v1 v2 t) :
    VDeriv (fun t => mvEvalSweep size skew (s1 t) (s2 t) (S t)) v1 v2 t := by
  have hfold : ∀ (l : List Nat) (P : ℝ → VState (Vec ℝ) × VState ℝ),
      VDeriv (fun t => (P t).1) v1 v2 t → NDeriv (fun t => (P t).2) v1 v2 t →
      VDeriv (fun t => (l.foldl (mvEvalCell size skew (s1 t) (s2 t)) (P t)).1) v1 v2 t ∧
      NDeriv (fun t => (l.foldl (mvEvalCell size skew (s1 t) (s2 t)) (P t)).2) v1 v2 t := by
    intro l
    induction l with
    | nil => intro P h h'; exact ⟨h, h'⟩
    | cons c l ih =>
      intro P h h'
      simp only [List.foldl_cons]
      have := mvEvalCell_deriv (size := size) (skew := skew) h1 h2 h h' c
      exact ih _ this.1 this.2
  have h0 : NDeriv (fun _ : ℝ => (⟨0, 0, 0, 0, 0, 0⟩ : VState ℝ)) v1 v2 t := by
    constructor <;> exact HasDerivAt.congr_deriv (hasDerivAt_const t _) (by ring)
  have hl := hfold (List.range (2 * size - 1)) (fun t => (S t, ⟨0, 0, 0, 0, 0, 0⟩)) hS h0
  have hMa := fun a => (hl.1 a).M
  have hD1a := fun a => (hl.1 a).D1
  have hD2a := fun a => (hl.1 a).D2
  simp only [VState.at] at hMa hD1a hD2a
  intro a
  refine ⟨?_, ?_, ?_⟩
  · have := hasDeriv_addAtV hMa hl.2.M (2 * size - 1 - 1) a
    refine HasDerivAt.congr_deriv this ?_
    simp only [mvEvalSweep, addAtV, VState.at]
    split_ifs <;> ring
  · have := hasDeriv_addAtV hD1a hl.2.D1 (2 * size - 1 - 1) a
    refine HasDerivAt.congr_deriv this ?_
    simp only [mvEvalSweep, addAtV, VState.at]
    split_ifs <;> ring
  · have := hasDeriv_addAtV hD2a hl.2.D2 (2 * size - 1 - 1) a
    refine HasDerivAt.congr_deriv this ?_
    simp only [mvEvalSweep, addAtV, VState.at]
    split_ifs <;> ring

theorem mvEvalLoop_deriv {size steps : Nat} {skew : Vec ℝ} {s1 s2 : ℝ → ℝ} {v1 v2 t : ℝ}
    (h1 : HasDerivAt s1 v1 t) (h2 : HasDerivAt s2 v2 t) :
    VDeriv (fun t => mvEvalLoop size steps skew (s1 t) (s2 t)) v1 v2 t := by
  unfold mvEvalLoop
  induction steps with
  | zero =>
    intro a
    constructor <;>
    · simp only [repeatSteps, List.range_zero, List.foldl_nil, VState.at]
      refine HasDerivAt.congr_deriv (hasDerivAt_const t _) ?_
      ring
  | succ n ih =>
    simp only [repeatSteps_succ] at ih ⊢
    exact mvEvalSweep_deriv h1 h2 ih

theorem mvEvalLoop_M {K : Type} [Field K] (size steps : Nat) (skew : Vec K) (s1 s2 : K) :
    (mvEvalLoop size steps skew s1 s2).M =
      repeatSteps steps (mvSweep size skew s1 s2) (mvStart size) := by
  have hfold : ∀ (l : List Nat) (P : VState (Vec K) × VState K),
      ((l.foldl (mvEvalCell size skew s1 s2) P).1.M, (l.foldl (mvEvalCell size skew s1 s2) P).2.M) =
        l.foldl (mvCell size skew s1 s2) (P.1.M, P.2.M) := by
    intro l
    induction l with
    | nil => intro P; rfl
    | cons c l ih => intro P; simp only [List.foldl_cons]; rw [ih]; rfl
  have hstep : ∀ S : VState (Vec K), (mvEvalSweep size skew s1 s2 S).M =
      mvSweep size skew s1 s2 S.M := by
    intro S
    have := hfold (List.range (2 * size - 1)) (S, ⟨0, 0, 0, 0, 0, 0⟩)
    unfold mvEvalSweep mvSweep
    dsimp only at this ⊢
    rw [← this]
  unfold mvEvalLoop
  induction steps with
  | zero => rfl
  | succ n ih => rw [repeatSteps_succ, repeatSteps_succ, hstep, ih]

end vector

end Verif.Markov
