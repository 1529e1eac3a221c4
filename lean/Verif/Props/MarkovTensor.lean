import Verif.Model.MarkovTensor
import Verif.Props.FuncComposeTensor
import Verif.Props.Markov
import Verif.Lemmas.MarkovPos
import Verif.Props.ProductModels

/-!
# C65: `MarkovMatrix` and `MarkovVector` as outer functions, executed on Tensors
-/

namespace Verif.Tens
open Verif.Params (Err)
open NDArray
open Verif.Markov (VState Mat Vec mmFrame mmEvalFrame mvFrame mvEvalFrame NDeriv)

/-- The six numbers as value, first and second derivatives. -/
def sixDer (S : VState ℝ) (k : Nat) : ℝ := if k = 0 then S.D1 else S.D2

def sixHess (S : VState ℝ) (k l : Nat) : ℝ := if k = 0 then (if l = 0 then S.H11 else S.H12) else if l = 0 then S.H12 else S.H22

theorem frames_sheet {δ q : Nat} {S T : Nat → Nat} {v : Nat → NDArray ℝ} (hv : ∀ k < 2, (v k).ndim = q ∧ ∀ j < q, (v k).shape j = S j)
    (F : ℝ → ℝ → (Nat → Nat) → ℝ) : (frames δ T (v 0) (v 1) F).ndim = q + δ ∧ (∀ j < q + δ, (frames δ T (v 0) (v 1) F).shape j = joinAt q S T j) ∧
      ∀ s, (frames δ T (v 0) (v 1) F).get s = F (entriesAt 2 v s 0) (entriesAt 2 v s 1) fun j => cut (q + δ) s (q + j) := by
  obtain ⟨h1, h2⟩ := hv 0 (by omega)
  obtain ⟨k1, k2⟩ := hv 1 (by omega)
  subst h1
  refine ⟨rfl, fun j hj => ?_, fun s => ?_⟩
  · show (if j < (v 0).ndim then (v 0).shape j else T (j - (v 0).ndim)) = _
    unfold joinAt
    split_ifs with hc
    · exact h2 j hc
    · rfl
  · show F ((v 0).get fun k => if k < (v 0).ndim + δ then s k else 0) ((v 1).get fun k => if k < (v 0).ndim + δ then s k else 0) _ = _
    unfold entriesAt
    rw [upto_lt (by omega), upto_lt (by omega)]
    have e1 : ((v 0).get fun k => if k < (v 0).ndim + δ then s k else 0) = (v 0).get s := get_congr _ fun k hk => if_pos (by omega)
    have e2 : ((v 1).get fun k => if k < (v 0).ndim + δ then s k else 0) = (v 1).get s := get_congr _ fun k hk => if_pos (by omega)
    rw [e1, e2]
    rfl

theorem curves_pair {U : (Nat → ℝ) → Prop} {O : (Nat → Nat) → Prop} {ψ : ℝ → ℝ → (Nat → Nat) → VState ℝ}
    (h : ∀ o (p1 p2 : ℝ → ℝ) v1 v2 t, HasDerivAt p1 v1 t → HasDerivAt p2 v2 t → NDeriv (fun t => ψ (p1 t) (p2 t) o) v1 v2 t) :
    Curves 2 U O (fun u o => (ψ (u 0) (u 1) o).M) (fun u k o => sixDer (ψ (u 0) (u 1) o) k) fun u k l o => sixHess (ψ (u 0) (u 1) o) k l where
  h1 γ v t hγ _ o _ := by
    refine (h o _ _ _ _ t (hγ 0 (by omega)) (hγ 1 (by omega))).M.congr_deriv ?_
    simp [Finset.sum_range_succ, sixDer]
  h2 γ v t hγ _ o _ k hk := by
    have hn := h o _ _ _ _ t (hγ 0 (by omega)) (hγ 1 (by omega))
    have : k = 0 ∨ k = 1 := by omega
    rcases this with rfl | rfl
    · refine hn.D1.congr_deriv ?_
      simp [Finset.sum_range_succ, sixHess]
    · refine hn.D2.congr_deriv ?_
      simp [Finset.sum_range_succ, sixHess]
  symm u _ o _ k hk l hl := by
    unfold sixHess
    split_ifs <;> rfl

open Classical in
theorem pair_acts {steps δ : Nat} {T : Nat → Nat} {φ : ℝ → ℝ → (Nat → Nat) → ℝ} {ψ : ℝ → ℝ → (Nat → Nat) → VState ℝ} (hφ : ∀ x y o, φ x y o = (ψ x y o).M)
    (h : ∀ o (p1 p2 : ℝ → ℝ) v1 v2 t, HasDerivAt p1 v1 t → HasDerivAt p2 v2 t → NDeriv (fun t => ψ (p1 t) (p2 t) o) v1 v2 t) :
    Acts (pairT steps δ T φ ψ) 2 δ T (fun _ d => d = 0) (fun u => 0 < u 0 ∧ 0 < u 1 ∧ u 0 + u 1 < steps) fun u o => (ψ (u 0) (u 1) o).M := by
  have hφ' : φ = fun x y o => (ψ x y o).M := by funext x y o; exact hφ x y o
  subst hφ'
  refine ⟨rfl, rfl, _, _, curves_pair h, fun q d S v hq hdq hd hv hU => ?_⟩
  subst hd
  obtain ⟨h1, h2⟩ := hv 0 (by omega)
  obtain ⟨k1, k2⟩ := hv 1 (by omega)
  have hpos : ∀ s : Nat → Nat, (∀ k < (v 0).ndim, s k < (v 0).shape k) → 0 < (v 0).get s ∧ 0 < (v 1).get s ∧ (v 0).get s + (v 1).get s < steps := by
    intro s hs
    have := hU s fun j hj => by rw [← h2 j hj]; exact hs j (by omega)
    simpa [entriesAt, upto] using this
  have hsteps : ∀ s : Nat → Nat, (∀ k < (v 0).ndim, s k < (v 0).shape k) → (0 : ℝ) < steps := fun s hs => by
    obtain ⟨a, b, c⟩ := hpos s hs; linarith
  have hok : stepsOk steps (v 0) (v 1) := by
    refine ⟨⟨by omega, fun k hk => by rw [h2 k (by omega), k2 k (by omega)]⟩, fun s hs => div_pos (hpos s hs).1 (hsteps s hs), fun s hs => div_pos (hpos s hs).2.1 (hsteps s hs), fun s hs => ?_⟩
    rw [← add_div, div_lt_one (hsteps s hs)]
    exact (hpos s hs).2.2
  have hdl : δ ≤ q + δ := by omega
  have fs := fun F => frames_sheet (δ := δ) (T := T) hv F
  obtain ⟨tV, v1, v2⟩ := sheet_value (fs fun x y o => (ψ x y o).M).1 (fs _).2.1 hdl
  obtain ⟨t1, d1, d2⟩ := sheet_gradTensor q (fs fun x y o => (ψ x y o).D1).1 (fs _).2.1 hdl
  obtain ⟨t2, e1, e2⟩ := sheet_gradTensor q (fs fun x y o => (ψ x y o).D2).1 (fs _).2.1 hdl
  obtain ⟨t11, a1, a2⟩ := sheet_hessTensor q q (fs fun x y o => (ψ x y o).H11).1 (fs _).2.1 hdl
  obtain ⟨t12, b1, b2⟩ := sheet_hessTensor q q (fs fun x y o => (ψ x y o).H12).1 (fs _).2.1 hdl
  obtain ⟨t22, c1, c2⟩ := sheet_hessTensor q q (fs fun x y o => (ψ x y o).H22).1 (fs _).2.1 hdl
  have hev : (pairT steps δ T (fun x y o => (ψ x y o).M) ψ).eval (row 2 fun k => ⟨v k, 0, 0, 0, [], []⟩) = .ok ⟨.arr (.tensor tV), row 2 fun k => .arr (.tensor (if k = 0 then t1 else t2)),
      triangle 2 fun k l => .arr (.tensor (if k = 0 then t11 else if l = 0 then t12 else t22))⟩ := by
    show pairEval steps δ T ψ [⟨v 0, 0, 0, 0, [], []⟩, ⟨v 1, 0, 0, 0, [], []⟩] = _
    unfold pairEval
    show (if stepsOk steps (v 0) (v 1) then _ else _) = _
    rw [if_pos hok, h1, k1, d1, e1, a1, b1, c1]
    unfold ofArray
    rw [v1]
    rfl
  have hcall : (pairT steps δ T (fun x y o => (ψ x y o).M) ψ).call (row 2 fun k => ⟨v k, 0, 0, 0, [], []⟩) = .ok (.arr (.tensor tV)) := by
    show (if stepsOk steps (v 0) (v 1) then _ else _) = _
    rw [if_pos hok]
    unfold ofArray
    rw [v1]
    rfl
  have hsh : Sheet (joinAt q S T) 0 0 (q + δ) (0 + δ) [] [] tV (fun s => (ψ (entriesAt 2 v s 0) (entriesAt 2 v s 1) fun j => s (q + j)).M) ∧
      (∀ k < 2, Sheet (joinAt q S T) q 0 (q + δ) (0 + δ) (idMap q) [] (if k = 0 then t1 else t2) fun s => sixDer (ψ (entriesAt 2 v s 0) (entriesAt 2 v s 1) fun j => s (q + j)) k) ∧
      ∀ k < 2, ∀ l ≤ k, Sheet (joinAt q S T) q q (q + δ) (0 + δ) (idMap q) (idMap q) (if k = 0 then t11 else if l = 0 then t12 else t22)
        fun s => sixHess (ψ (entriesAt 2 v s 0) (entriesAt 2 v s 1) fun j => s (q + j)) k l := by
    have hc : ∀ s : Nat → Nat, (∀ j ≥ q + δ, s j = 0) → (fun j => cut (q + δ) s (q + j)) = fun j => s (q + j) := fun s hs => by
      funext j
      unfold cut
      split_ifs with c
      · rfl
      · exact (hs _ (by omega)).symm
    rw [show 0 + δ = δ by omega]
    refine ⟨v2.congr fun s _ hs => ?_, fun k hk => ?_, fun k hk l hl => ?_⟩
    · rw [(fs _).2.2, hc s hs]
    · by_cases c : k = 0
      · simp only [c, if_true]
        refine d2.congr fun s _ hs => ?_
        rw [(fs _).2.2, hc s hs]; rfl
      · simp only [if_neg c]
        refine e2.congr fun s _ hs => ?_
        rw [(fs _).2.2, hc s hs]; simp [sixDer, c]
    · by_cases c : k = 0
      · have : l = 0 := by omega
        simp only [c, this, if_true]
        refine a2.congr fun s _ hs => ?_
        rw [(fs _).2.2, hc s hs]; rfl
      · simp only [if_neg c]
        by_cases c' : l = 0
        · simp only [c', if_true]
          refine b2.congr fun s _ hs => ?_
          rw [(fs _).2.2, hc s hs]; simp [sixHess, c]
        · simp only [if_neg c']
          refine c2.congr fun s _ hs => ?_
          rw [(fs _).2.2, hc s hs]; simp [sixHess, c, c']
  refine ⟨⟨tV, _, _, hev, hsh⟩, ⟨tV, _, _, (sep_iff (m := 2) rfl).2 ⟨hcall, fun p hp => ?_, fun p hp l hl => ?_⟩, hsh⟩⟩
  · show (pairEval steps δ T ψ _ >>= fun e => pick e.grad p) = _
    rw [show pairEval steps δ T ψ _ = _ from hev]
    have : p = 0 ∨ p = 1 := by omega
    rcases this with rfl | rfl <;> rfl
  · show (pairEval steps δ T ψ _ >>= fun e => pick2 e.hess p l) = _
    rw [show pairEval steps δ T ψ _ = _ from hev]
    have : (p = 0 ∧ l = 0) ∨ (p = 1 ∧ l = 0) ∨ (p = 1 ∧ l = 1) := by omega
    rcases this with ⟨rfl, rfl⟩ | ⟨rfl, rfl⟩ | ⟨rfl, rfl⟩ <;> rfl

/-- **C65.** `MarkovVector(size, steps, skew)`, for parameters that satisfy its assertions. -/
theorem C65_MarkovVector (size steps : Nat) (skew : Vec ℝ) :
    Acts (markovVectorT size steps skew) 2 1 (fun _ => 2 * size - 1) (fun _ d => d = 0) (fun u => 0 < u 0 ∧ 0 < u 1 ∧ u 0 + u 1 < steps)
      fun u o => mvFrame size steps skew (u 0) (u 1) (o 0) := by
  have h := pair_acts (steps := steps) (δ := 1) (T := fun _ => 2 * size - 1) (φ := fun x y o => mvFrame size steps skew x y (o 0))
    (ψ := fun x y o => (mvEvalFrame size steps skew x y).at (o 0))
    (fun x y o => by simp only [VState.at]; rw [(Markov.C36_eval_value size steps x y).2]) fun o p1 p2 v1 v2 t h1 h2 => Markov.C36_vector_curve h1 h2 _
  exact h.congr fun u o _ => by simp only [VState.at]; rw [(Markov.C36_eval_value size steps _ _).2]

/-- **C65.** `MarkovMatrix(size, steps, skew)` with a symmetric skew, for parameters that satisfy its assertions. -/
theorem C65_MarkovMatrix_partial {size : Nat} (steps : Nat) {skew : Mat ℝ} (hs : ∀ x < size, ∀ y < size, skew x y = skew y x) :
    Acts (markovMatrixT size steps skew) 2 2 (fun _ => size) (fun _ d => d = 0) (fun u => 0 < u 0 ∧ 0 < u 1 ∧ u 0 + u 1 < steps)
      fun u o => mmFrame size steps skew (u 0) (u 1) (o 0) (o 1) := by
  have h := pair_acts (steps := steps) (δ := 2) (T := fun _ => size) (φ := fun x y o => mmFrame size steps skew x y (o 0) (o 1))
    (ψ := fun x y o => (mmEvalFrame size steps skew x y).at (o 0) (o 1))
    (fun x y o => by simp only [Markov.MState.at]; rw [(Markov.C36_eval_value size steps x y).1]) fun o p1 p2 v1 v2 t h1 h2 => Markov.C36_matrix_curve_partial hs h1 h2 _ _
  exact h.congr fun u o _ => by simp only [Markov.MState.at]; rw [(Markov.C36_eval_value size steps _ _).1]

/-! ### Positive probabilities -/

/-- **C34.** If the skew is positive and there are enough steps to reach every difference, all probabilities returned by `MarkovVector` are positive
(so that the logarithms in `Finite` are defined). -/
theorem C34_markovVector_positive {size steps : Nat} (hs : 0 < size) {skew : Vec ℝ} (hf : ∀ x < 2 * size - 1, 0 < skew x ∧ skew x ≤ 1) {p1 p2 : ℝ} (h1 : 0 < p1) (h2 : 0 < p2)
    (h : p1 + p2 < steps) (hn : size ≤ steps + 1) {a : Nat} (ha : a < 2 * size - 1) : 0 < mvFrame size steps skew p1 p2 a := by
  have hp : (0 : ℝ) < steps := by linarith
  rw [Markov.C35_vector_is_walk hs steps skew p1 p2 ha]
  refine Markov.walk1Dist_pos hs (div_pos h1 hp) (div_pos h2 hp) ?_ hf ha (by omega) (by omega)
  rw [← add_div, div_lt_one hp]; exact h

/-- **C34.** The same for `MarkovMatrix`. -/
theorem C34_markovMatrix_positive {size steps : Nat} {skew : Mat ℝ} (hf : ∀ x < size, ∀ y < size, 0 < skew x y ∧ skew x y ≤ 1) {p1 p2 : ℝ} (h1 : 0 < p1) (h2 : 0 < p2)
    (h : p1 + p2 < steps) (hn : 2 * size ≤ steps + 2) {a b : Nat} (ha : a < size) (hb : b < size) : 0 < mmFrame size steps skew p1 p2 a b := by
  have hp : (0 : ℝ) < steps := by linarith
  rw [Markov.C35_matrix_is_walk size steps skew p1 p2 ha hb]
  refine Markov.walk2Dist_pos (div_pos h1 hp) (div_pos h2 hp) ?_ hf ha hb (by omega)
  rw [← add_div, div_lt_one hp]; exact h

/-! ### test_markov_vector and test_markov_matrix -/

/-- `f = Sum(2); f.add(X(), 0, i); f.add(-X(), 1, 1 - i); f.add(c * Scalar(), 2, None)` (matrix_test.py:143-151, 265-273; `i = 0`, `c = 1/2` and `i = 1`, `c = -1/2`) -/
noncomputable def crossModel (i0 : Nat) (c : ℝ) : TFunc ℝ :=
  sumT (row 3 fun i => (if i = 0 then 1 else if i = 1 then -1 else c, if i = 2 then scalarT else xT, ⟨[i], if i = 2 then [] else [if i = 0 then i0 else 1 - i0], 2, [], 0, []⟩)) 0

theorem cross_inside {s i j : Nat} (hi : i < 2) (hj : j < 2) : Inside (cOrder (oneFactor s) 1) (cOrder (square s) 3) [i] [j] [] := by
  refine inside_cOrder (by simp) (fun p hp => ?_) rfl (fun k hk => ?_) (fun k hk j hj => rfl) (by simp) (fun k hk => ?_) rfl (fun k hk => rfl) (by simp) (by simp) rfl fun k hk => absurd hk (by simp [oneFactor])
  · have : p = i := by simpa using hp
    omega
  · have : k = 0 := by omega
    subst this
    show 1 = if i = 2 then 0 else 1
    rw [if_neg (by omega)]
  · have : k = j := by simpa using hk
    show k < 2
    omega

theorem cross_computes {s i0 : Nat} (hi0 : i0 < 2) (hs : s ≠ 0) {c : ℝ} (hc : c ≠ 0) :
    Computes (square s) (cOrder (square s) 3) (fun _ => False) (.whole fun _ => True) (fun _ => True) (crossModel i0 c)
      fun θ n _ => θ 0 (n i0) - θ 1 (n (1 - i0)) + c * θ 2 0 := by
  have hpr := square_ok hs
  have hP : (oneFactor s).Pointwise 1 := fun p _ => ⟨rfl, fun _ _ => rfl⟩
  have hj : ∀ i, (if i = 0 then i0 else 1 - i0) < 2 := fun i => by split_ifs <;> omega
  have g0 : ∀ i < 2, _ := fun i hi => C64_wrap_partial (K := fun _ => False) hpr (cross_inside (s := s) hi (hj i)) (fun k _ h => h.elim) (C64_X (N := cOrder (oneFactor s) 1) hP rfl)
  have g2 := C64_wrap_partial (K := fun _ => False) hpr (square_inside2 s) (fun k _ h => h.elim) (C64_Scalar (N := cOrder number 1) rfl rfl rfl)
  have hsum := sum_computes hpr (r := 3) (by omega) (w := fun i => if i = 0 then 1 else if i = 1 then -1 else c) (fun i _ => by split_ifs <;> simp [hc])
    (f := fun i => if i = 2 then scalarT else xT)
    (g := fun i => ⟨[i], if i = 2 then [] else [if i = 0 then i0 else 1 - i0], 2, [], 0, []⟩) (K := fun _ => False)
    (st := fun i => ⟨i < 2, fun k => k = if i = 0 then i0 else if i = 1 then 1 - i0 else 2, True, fun p => p = i, True, fun _ => True, fun p => p ≠ i, fun _ _ => False⟩) (dom := fun _ _ => True)
    (val := fun i θ n _ => if i = 2 then θ 2 0 else θ i (n (if i = 0 then i0 else 1 - i0))) (N := cOrder (square s) 3) ?_
  · have e2 : (fun _ : Theta => ∀ i < 3, True) = fun _ => True := by simp
    rw [e2] at hsum
    refine (hsum.congr fun θ n d _ => ?_).weaken (fun _ => ⟨0, by omega, Nat.two_pos⟩)
      (fun k hk _ => ?_) (fun _ _ _ => trivial) (fun p hp _ => ⟨p, hp, rfl⟩) (fun _ _ _ => trivial)
      (fun p hp _ => ⟨p, hp, trivial, fun j _ h => Ne.symm h⟩) fun p hp h => h.elim
    · simp [Finset.sum_range_succ]
      ring
    · have hk : k < 2 := hk
      by_cases e : k = i0
      · exact ⟨0, by omega, Nat.two_pos, e⟩
      · refine ⟨1, by omega, by simp, ?_⟩
        show k = 1 - i0
        omega
  · intro i hi
    by_cases h2 : i = 2
    · subst h2
      refine (g2.congr fun θ n d _ => ?_).weaken (fun h => absurd h (by simp))
        (fun k hk h => ?_) (fun _ => trivial) (fun p hp h => ⟨0, Nat.one_pos, Eq.symm h, trivial⟩) (fun _ => trivial) (fun p hp _ k _ _ => trivial)
        fun p hp h k hk e => by
          have : k = 0 := by simpa using hk
          subst this; exact absurd (Eq.symm e) h
      · simp [Theta.sub, cOrder, Problem.sizes, number, ravel]
      · have hk : k < 2 := hk
        have h : k = 2 := h
        omega
    · have hi2 : i < 2 := by omega
      simp only [if_neg h2]
      refine ((g0 i hi2).congr fun θ n d _ => ?_).weaken (fun _ => ⟨trivial, Nat.one_pos⟩)
        (fun k _ h => Or.inl ⟨0, Nat.one_pos, ?_, trivial⟩) (fun _ => trivial) (fun p hp h => ⟨0, Nat.one_pos, Eq.symm h, Nat.one_pos⟩) (fun _ => trivial) (fun p hp _ k _ _ => trivial)
        fun p hp h k hk e => by
          have : k = 0 := by simpa using hk
          subst this; exact absurd (Eq.symm e) h
      · simp [Theta.sub, cOrder, Problem.sizes, oneFactor, ravel, through]
      · have h : k = if i = 0 then i0 else if i = 1 then 1 - i0 else 2 := h
        show k = if i = 0 then i0 else 1 - i0
        rw [h]
        split_ifs <;> first | rfl | omega

/-- `Exp() @ f` -/
noncomputable def rateModel (k : Nat) : TFunc ℝ := composeT expT [crossModel k (if k = 0 then 1 / 2 else -(1 / 2))]

/-- The rate of `f1` (`k = 0`) and of `f2` (`k = 1`). -/
noncomputable def rate (k : Nat) (θ : Theta) (n : Nat → Nat) : ℝ :=
  Real.exp (θ 0 (n k) - θ 1 (n (1 - k)) + (if k = 0 then 1 / 2 else -(1 / 2)) * θ 2 0)

theorem rate_computes {s k : Nat} (hk : k < 2) (hs : s ≠ 0) :
    Computes (square s) (cOrder (square s) 3) (fun _ => True) (.whole fun _ => True) (fun _ => True) (rateModel k) fun θ n _ => rate k θ n := by
  have := C65_compose_partial (r := 0) (longer_self (cOrder (square s) 3) fun _ => 1) (square_ok hs) (P := fun _ _ => True) trivial (C65_Exp _ _)
    (g := fun _ => crossModel k (if k = 0 then 1 / 2 else -(1 / 2))) fun _ _ => cross_computes hk hs (c := if k = 0 then 1 / 2 else -(1 / 2)) (by split_ifs <;> norm_num)
  refine ((this.congr fun θ n d _ => ?_).mono fun θ _ => ⟨fun _ _ => trivial, fun _ _ _ => trivial⟩).weaken (fun _ => trivial) (fun _ _ _ => trivial) (fun _ => trivial)
    (fun _ _ _ => trivial) (fun _ => trivial) (fun _ _ _ => ⟨rfl, trivial⟩) fun _ _ h => h.elim
  unfold composeAt
  simp only [upto_lt Nat.zero_lt_one]
  rfl

/-- The problem `square` with `δ` outcomes of `size` values each. -/
def squareMore (s δ size : Nat) : Problem := ⟨2, δ, fun k => if k < 2 then s else size, fun p => if p = 2 then 0 else 1, fun _ _ => s⟩

theorem squareMore_longer (s δ size : Nat) : Longer (cOrder (square s) 3) δ (fun _ => size) (cOrder (squareMore s δ size) 3) where
  n := rfl
  d := by show δ = 0 + δ; omega
  S k hk := by
    have hk : k < 2 := hk
    simp only [squareMore, square]
    rw [if_pos hk]
  T j hj := by
    show (if 2 + 0 + j < 2 then s else size) = size
    rw [if_neg (by omega)]
  nd _ _ := rfl
  P _ _ _ _ := rfl
  e _ _ _ := rfl

theorem squareMore_ok {s δ size : Nat} (hs : s ≠ 0) (hz : size ≠ 0) : (squareMore s δ size).Ok :=
  ⟨by simp [squareMore], fun k _ => by simp only [squareMore]; split_ifs <;> assumption⟩

/-- The parameters that satisfy the assertions of the Markov functions at every position. -/
def ratesOk (s steps : Nat) (θ : Theta) : Prop := ∀ n : Nat → Nat, (∀ k < 2, n k < s) → rate 0 θ n + rate 1 θ n < steps

theorem markov_computes {s δ size steps : Nat} (hs : s ≠ 0) (hz : size ≠ 0) {f : TFunc ℝ} {F : (Nat → ℝ) → (Nat → Nat) → ℝ}
    (hf : Acts f 2 δ (fun _ => size) (fun _ d => d = 0) (fun u => 0 < u 0 ∧ 0 < u 1 ∧ u 0 + u 1 < steps) F)
    (hF : ∀ u v : Nat → ℝ, u 0 = v 0 → u 1 = v 1 → F u = F v) :
    Computes (squareMore s δ size) (cOrder (squareMore s δ size) 3) (fun _ => True) (.solid fun _ => False) (ratesOk s steps) (composeT f [rateModel 0, rateModel 1])
      fun θ n d => F (fun k => rate k θ n) d := by
  have := C65_compose_partial (r := 1) (squareMore_longer s δ size) (squareMore_ok hs hz) (P := fun _ d => d = 0) rfl hf (g := fun k => rateModel k) fun k hk => rate_computes hk hs
  refine ((this.congr fun θ n d _ => ?_).mono fun θ h => ⟨fun _ _ => trivial, fun n d hp => ?_⟩).weaken (fun _ => trivial) (fun _ _ _ => trivial) (fun _ => trivial)
    (fun _ _ _ => trivial) (fun _ => trivial) (fun _ _ h => h.elim) (fun _ _ h => h.elim) fun _ _ _ _ h => h
  · unfold composeAt
    show F _ (fun j => d (0 + j)) = _
    rw [hF _ (fun k => rate k θ n) (upto_lt (by omega)) (upto_lt (by omega))]
    congr 1
    funext j
    rw [Nat.zero_add]
  · rw [upto_lt (by omega), upto_lt (by omega)]
    exact ⟨Real.exp_pos _, Real.exp_pos _, h n fun k hk => hp.1 k hk⟩

/-- **C65.** `Finite(dim=1)` with the model `MarkovVector(steps=steps, size=size) @ [Exp() @ f1, Exp() @ f2]` (test_markov_vector): `like`, `grad_like` and `hess_like`
return the log likelihood and its derivatives, for all parameters that the function accepts; the values are the distribution of the random walk. -/
theorem C65_example_markov_vector {s size steps : Nat} (hs : s ≠ 0) (hz : 0 < size) (hn : size ≤ steps + 1) {Nw : Num ℝ} (hN : (squareMore s 1 (2 * size - 1)).IsData Nw) :
    FitReturns (squareMore s 1 (2 * size - 1)) (cOrder (squareMore s 1 (2 * size - 1)) 3) (ratesOk s steps)
      (fun θ => Like.Finite.like ((squareMore s 1 (2 * size - 1)).val Nw) (valCell (squareMore s 1 (2 * size - 1))
        (fun θ n d => mvFrame size steps (fun _ => 1) (rate 0 θ n) (rate 1 θ n) (d 0)) θ))
      (modelLike (composeT (markovVectorT size steps fun _ => 1) [rateModel 0, rateModel 1]) (FiniteT.like Nw))
      (modelGrad (composeT (markovVectorT size steps fun _ => 1) [rateModel 0, rateModel 1]) (FiniteT.gradLike Nw))
      (modelHess (composeT (markovVectorT size steps fun _ => 1) [rateModel 0, rateModel 1]) (FiniteT.hessLike Nw)) := by
  have h := markov_computes hs (size := 2 * size - 1) (by omega) (C65_MarkovVector size steps fun _ => 1) fun u v h1 h2 => by simp only [h1, h2]
  refine C64_fit_finite (squareMore_ok hs (by omega)) hN h trivial trivial fun θ hθ n d hp => ?_
  have hd := hp.2.2.1 0 Nat.one_pos
  refine C34_markovVector_positive hz (fun x _ => ⟨one_pos, le_rfl⟩) (Real.exp_pos _) (Real.exp_pos _) (hθ n fun k hk => ?_) hn ?_
  · have := hp.1 k hk
    simp only [squareMore] at this
    rwa [if_pos hk] at this
  · simpa [squareMore] using hd

/-- **C65.** `Finite(dim=2)` with the model `MarkovMatrix(steps=steps, size=size) @ [Exp() @ f1, Exp() @ f2]` (test_markov_matrix). -/
theorem C65_example_markov_matrix {s size steps : Nat} (hs : s ≠ 0) (hz : 0 < size) (hn : 2 * size ≤ steps + 2) {Nw : Num ℝ} (hN : (squareMore s 2 size).IsData Nw) :
    FitReturns (squareMore s 2 size) (cOrder (squareMore s 2 size) 3) (ratesOk s steps)
      (fun θ => Like.Finite.like ((squareMore s 2 size).val Nw) (valCell (squareMore s 2 size)
        (fun θ n d => mmFrame size steps (fun _ _ => 1) (rate 0 θ n) (rate 1 θ n) (d 0) (d 1)) θ))
      (modelLike (composeT (markovMatrixT size steps fun _ _ => 1) [rateModel 0, rateModel 1]) (FiniteT.like Nw))
      (modelGrad (composeT (markovMatrixT size steps fun _ _ => 1) [rateModel 0, rateModel 1]) (FiniteT.gradLike Nw))
      (modelHess (composeT (markovMatrixT size steps fun _ _ => 1) [rateModel 0, rateModel 1]) (FiniteT.hessLike Nw)) := by
  have h := markov_computes hs (size := size) hz.ne' (C65_MarkovMatrix_partial steps (skew := fun _ _ => 1) fun _ _ _ _ => rfl) fun u v h1 h2 => by simp only [h1, h2]
  refine C64_fit_finite (squareMore_ok hs hz.ne') hN h trivial trivial fun θ hθ n d hp => ?_
  have hd0 := hp.2.2.1 0 Nat.two_pos
  have hd1 := hp.2.2.1 1 Nat.one_lt_two
  refine C34_markovMatrix_positive (fun x _ y _ => ⟨one_pos, le_rfl⟩) (Real.exp_pos _) (Real.exp_pos _) (hθ n fun k hk => ?_) hn ?_ ?_
  · have := hp.1 k hk
    simp only [squareMore] at this
    rwa [if_pos hk] at this
  · simpa [squareMore] using hd0
  · simpa [squareMore] using hd1

/-- Parameters that are accepted: all zero, 18 steps. -/
example (s : Nat) : ratesOk s 18 fun _ _ => 0 := fun n _ => by simp [rate]; norm_num

end Verif.Tens
