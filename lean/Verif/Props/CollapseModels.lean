import Verif.Props.CollapseActs
import Verif.Props.ProductModels
import Verif.Props.MarkovTensor

/-!
# C65: the models of the test suite that use `CollapseMatrix`

tests/matrix_test.py:209-226 and 325-342, for arrays of any size.
-/

namespace Verif.Tens
open Verif.Params (Err)
open Verif.Markov
open NDArray

theorem collapsed_matrix (s size : Nat) : Collapsed (cOrder (squareMatrix s size) 3) (cOrder (squareMore s 1 3) 3) where
  n := rfl
  rot := rot_of_le le_rfl
  d := rfl
  d' := rfl
  S k hk := by
    have hk : k < 2 := hk
    simp only [squareMore, squareMatrix]
    rw [if_pos hk, if_pos hk]
  T := rfl
  nd _ _ := rfl
  P _ _ _ _ := rfl
  e _ _ _ := rfl

/-- The hypothesis of `C65_CollapseMatrix_partial` for any number `r` of features of the same size: with 2, 3 and 4 items in three features the gradient raises ValueError
(C65_three_features_counterexample). -/
theorem C65_equal_features {r s h w m : Nat} (nd : Nat → Nat) (P : Nat → Nat → Nat) :
    Collapsed (cOrder ⟨r, 2, fun k => if k < r then s else if k = r then h else w, nd, P⟩ m) (cOrder ⟨r, 1, fun k => if k < r then s else 3, nd, P⟩ m) where
  n := rfl
  rot k hk := by
    have hk : k < r := hk
    show (if (k + 2) % r < r then s else _) = if k < r then s else _
    rw [if_pos hk, if_pos (Nat.mod_lt _ (by omega))]
  d := rfl
  d' := rfl
  S k hk := by
    have hk : k < r := hk
    show (if k < r then s else 3) = if k < r then s else _
    rw [if_pos hk, if_pos hk]
  T := by
    show (if r < r then s else 3) = 3
    rw [if_neg (lt_irrefl r)]
  nd _ _ := rfl
  P _ _ _ _ := rfl
  e _ _ _ := rfl

theorem pair_terms_pos {h w : Nat} {F : Nat → Nat → ℝ} (hF : ∀ i < h, ∀ j < w, 0 < F i j) (hh : 2 ≤ h) (hw : 2 ≤ w) {c : Nat} (hc : c < 3) :
    0 < ∑ i ∈ Finset.range h, ∑ j ∈ Finset.range w, if matchResult i j = c then F i j else 0 := by
  obtain ⟨i0, j0, hi, hj, e⟩ : ∃ i j, i < 2 ∧ j < 2 ∧ matchResult i j = c := by
    obtain rfl | rfl | rfl : c = 0 ∨ c = 1 ∨ c = 2 := by omega
    · exact ⟨1, 0, by omega, by omega, rfl⟩
    · exact ⟨0, 0, by omega, by omega, rfl⟩
    · exact ⟨0, 1, by omega, by omega, rfl⟩
  have nn : ∀ i < h, ∀ j < w, 0 ≤ if matchResult i j = c then F i j else 0 := by
    intro i hi j hj
    split_ifs
    · exact (hF i hi j hj).le
    · exact le_rfl
  refine Finset.sum_pos' (fun i hi => Finset.sum_nonneg fun j hj => nn i (Finset.mem_range.1 hi) j (Finset.mem_range.1 hj)) ⟨i0, Finset.mem_range.2 (by omega), ?_⟩
  refine Finset.sum_pos' (fun j hj => nn i0 (by omega) j (Finset.mem_range.1 hj)) ⟨j0, Finset.mem_range.2 (by omega), ?_⟩
  rw [if_pos e]
  exact hF i0 (by omega) j0 (by omega)

/-- The number of goals of both sides in test_kullback_leibler: the outcome axes are exchanged (matrix_test.py:220-222). -/
noncomputable def scoreVal (θ : Theta) (n : Nat → Nat) (i j : Nat) : ℝ :=
  Real.exp (θ 0 (n 0) - θ 1 (n 1) + 1 / 2 * θ 2 0) ^ j / (j.factorial : ℝ) * (Real.exp (θ 0 (n 1) - θ 1 (n 0) - 1 / 2 * θ 2 0) ^ i / (i.factorial : ℝ))

/-- **C65.** `Finite()` with the model `CollapseMatrix() @ F`, `F` a `Product` of two Poisson distributions (test_kullback_leibler): `like`, `grad_like` and `hess_like` return
the log likelihood of the three outcomes of the matches and its derivatives, for all parameters. -/
theorem C65_example_kullback_leibler {s size : Nat} (hs : s ≠ 0) (hz : 2 ≤ size) {Nw : Num ℝ} (hN : (squareMore s 1 3).IsData Nw) :
    FitReturns (squareMore s 1 3) (cOrder (squareMore s 1 3) 3) (fun _ => True)
      (fun θ => Like.Finite.like ((squareMore s 1 3).val Nw) (valCell (squareMore s 1 3)
        (fun θ n d => ∑ i ∈ Finset.range size, ∑ j ∈ Finset.range size, if matchResult i j = d 0 then scoreVal θ n i j else 0) θ))
      (modelLike (composeT (collapseMatrixT none) [matrixModel size 1]) (FiniteT.like Nw))
      (modelGrad (composeT (collapseMatrixT none) [matrixModel size 1]) (FiniteT.gradLike Nw))
      (modelHess (composeT (collapseMatrixT none) [matrixModel size 1]) (FiniteT.hessLike Nw)) := by
  have hok : (squareMore s 1 3).Ok := squareMore_ok hs (by omega)
  have h := C65_CollapseMatrix_partial (collapsed_matrix s size) hok (matrix_computes (o := 1) hs (by omega) (by omega))
  refine C64_fit_finite hok hN (h.congr fun θ n d _ => rfl) trivial trivial fun θ _ n d hp => ?_
  have hd := hp.2.2.1 0 Nat.one_pos
  have hd : d 0 < 3 := by simpa [squareMore] using hd
  refine pair_terms_pos (F := fun i j => scoreVal θ n i j) (fun i _ j _ => ?_) hz hz hd
  have h1 := Real.exp_pos (θ 0 (n 0) - θ 1 (n 1) + 1 / 2 * θ 2 0)
  have h2 := Real.exp_pos (θ 0 (n 1) - θ 1 (n 0) - 1 / 2 * θ 2 0)
  unfold scoreVal
  positivity

/-- The three outcomes of the matches in test_markov_kullback_leibler. -/
noncomputable def markovResult (size steps : Nat) (θ : Theta) (n : Nat → Nat) (c : Nat) : ℝ :=
  ∑ i ∈ Finset.range size, ∑ j ∈ Finset.range size, if matchResult i j = c then mmFrame size steps (fun _ _ => 1) (rate 1 θ n) (rate 0 θ n) i j else 0

theorem markov_kl_computes {s size steps : Nat} (hs : s ≠ 0) : Computes (squareMore s 1 3) (cOrder (squareMore s 1 3) 3) (fun _ => True) (.solid fun _ => False) (ratesOk s steps)
    (composeT (composeT (collapseMatrixT none) [markovMatrixT size steps fun _ _ => 1]) [rateModel 1, rateModel 0]) fun θ n d => markovResult size steps θ n (d 0) := by
  have hok : (squareMore s 1 3).Ok := squareMore_ok hs (by omega)
  have hf := C65_CollapseMatrix_acts_partial (C65_MarkovMatrix_partial (size := size) steps (skew := fun _ _ => 1) fun _ _ _ _ => rfl)
  have h := C65_compose_partial (r := 1) (squareMore_longer s 1 3) hok ⟨le_rfl, rfl, rfl⟩ hf (g := fun k => rateModel (1 - k)) fun k hk => rate_computes (by omega) hs
  refine ((h.congr fun θ n d _ => ?_).mono fun θ h => ⟨fun _ _ => trivial, fun n d hp => ?_⟩).weaken (fun _ => trivial) (fun _ _ _ => trivial) (fun _ => trivial)
    (fun _ _ _ => trivial) (fun _ => trivial) (fun _ _ h => h.elim) (fun _ _ h => h.elim) fun _ _ _ _ h => h
  · unfold composeAt collapseFun markovResult
    refine Finset.sum_congr rfl fun i _ => Finset.sum_congr rfl fun j _ => ?_
    dsimp only
    rw [upto_lt (k := 0) (by omega), upto_lt (k := 1) (by omega)]
    simp [square, pairAt]
  · rw [upto_lt (k := 0) (by omega), upto_lt (k := 1) (by omega)]
    refine ⟨Real.exp_pos _, Real.exp_pos _, ?_⟩
    have := h n fun k hk => hp.1 k hk
    show rate 1 θ n + rate 0 θ n < _
    linarith

theorem markovResult_pos {s size steps : Nat} (hz : 2 ≤ size) (hn : 2 * size ≤ steps + 2) {θ : Theta} (hθ : ratesOk s steps θ) {n d : Nat → Nat}
    (hp : (squareMore s 1 3).Pos n d) : 0 < markovResult size steps θ n (d 0) := by
  have hd := hp.2.2.1 0 Nat.one_pos
  have hd : d 0 < 3 := by simpa [squareMore] using hd
  refine pair_terms_pos (fun i hi j hj => ?_) hz hz hd
  refine C34_markovMatrix_positive (fun x _ y _ => ⟨one_pos, le_rfl⟩) (Real.exp_pos _) (Real.exp_pos _) ?_ hn hi hj
  have := hθ n fun k hk => by
    have := hp.1 k hk
    simp only [squareMore] at this
    rwa [if_pos hk] at this
  show rate 1 θ n + rate 0 θ n < _
  linarith

/-- **C65.** `Finite()` with the model `CollapseMatrix() @ MarkovMatrix(steps=steps, size=size) @ [Exp() @ f2, Exp() @ f1]` (test_markov_kullback_leibler): `like`, `grad_like`
and `hess_like` return the log likelihood of the three outcomes of the matches and its derivatives, for all parameters that the function accepts. -/
theorem C65_example_markov_kullback_leibler {s size steps : Nat} (hs : s ≠ 0) (hz : 2 ≤ size) (hn : 2 * size ≤ steps + 2) {Nw : Num ℝ} (hN : (squareMore s 1 3).IsData Nw) :
    FitReturns (squareMore s 1 3) (cOrder (squareMore s 1 3) 3) (ratesOk s steps)
      (fun θ => Like.Finite.like ((squareMore s 1 3).val Nw) (valCell (squareMore s 1 3) (fun θ n d => markovResult size steps θ n (d 0)) θ))
      (modelLike (composeT (composeT (collapseMatrixT none) [markovMatrixT size steps fun _ _ => 1]) [rateModel 1, rateModel 0]) (FiniteT.like Nw))
      (modelGrad (composeT (composeT (collapseMatrixT none) [markovMatrixT size steps fun _ _ => 1]) [rateModel 1, rateModel 0]) (FiniteT.gradLike Nw))
      (modelHess (composeT (composeT (collapseMatrixT none) [markovMatrixT size steps fun _ _ => 1]) [rateModel 1, rateModel 0]) (FiniteT.hessLike Nw)) :=
  C64_fit_finite (squareMore_ok hs (by omega)) hN (markov_kl_computes hs) trivial trivial fun _ hθ _ _ hp => markovResult_pos hz hn hθ hp

end Verif.Tens
