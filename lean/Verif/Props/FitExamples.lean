import Verif.Props.FitFull
import Verif.Props.TestModels
import Verif.Props.MarkovTensor
import Verif.Props.CollapseModels
import Verif.Props.ProductModels
import Verif.Props.TennisSet

/-!
# The problems of the test suite are problems in the sense of C68

`C68_example_*`: the objects that the tests of `tests/tests.py` and `tests/matrix_test.py` build, with their constraint `Linear([1, 1])` on the first two
parameters, for all sizes of the features and all data with a total weight other than 0.  By the theorems of C68, `fit` on them does Newton steps for the
log-likelihood that is written here, keeps the optimum, never decreases the objective, and never makes the constraint worse.
-/

namespace Verif.Tens
open Verif.Params (Err)
open Verif.Markov
open NDArray

theorem threeFactor_ok {s t u : Nat} (hs : s ≠ 0) (ht : t ≠ 0) (hu : u ≠ 0) : (threeFactor s t u).Ok :=
  ⟨by simp [threeFactor], fun k _ => by simp only [threeFactor]; split_ifs <;> assumption⟩

theorem threeCounts_ok {s t u size : Nat} (hs : s ≠ 0) (ht : t ≠ 0) (hu : u ≠ 0) (hz : size ≠ 0) : (threeCounts s t u size).Ok :=
  ⟨by simp [threeCounts], fun k _ => by simp only [threeCounts]; split_ifs <;> assumption⟩

theorem sum_constraint {pr : Problem} {m : Nat} (hm : 2 ≤ m) :
    List.Forall₂ (fun t g => IsConstraint (cOrder pr m) t g.val g.der) [⟨[0, 1], linearT [1, 1]⟩] [linCon pr [0, 1] [1, 1]] :=
  .cons (C67_linear (by simp) (by simp; omega) (by simp) (by simp)) .nil

/-- The sum that `foo` calculates: `a[i] - b[j] + h * vector[k]`. -/
noncomputable def fooVal (vector : NDArray ℝ) (θ : Theta) (n : Nat → Nat) : ℝ := θ 0 (n 0) - θ 1 (n 1) + θ 2 0 * vector.get fun _ => n 2

variable {s t u : Nat} {vector : NDArray ℝ}

/-- **C68.** test_poisson, test_poisson1 (tests.py:23-100) -/
theorem C68_example_poisson (hs : s ≠ 0) (ht : t ≠ 0) (hu : u ≠ 0) (h1 : vector.ndim = 1) (h2 : vector.shape 0 = u) {X Nw : Num ℝ}
    (hX : (threeFactor s t u).IsData X) (hN : (threeFactor s t u).IsData Nw) (hT : ∑ c, (threeFactor s t u).val Nw c ≠ 0) :
    Solver (threeFactor s t u) 3 (fun _ => True) ⟨fooModel vector, PoissonT.like X Nw, PoissonT.gradLike X Nw, PoissonT.hessLike X Nw, Nw, [⟨[0, 1], linearT [1, 1]⟩], []⟩
      (fun θ => Like.Poisson.like ((threeFactor s t u).val X) ((threeFactor s t u).val Nw) (valCell (threeFactor s t u) (fun θ n _ => fooVal vector θ n) θ))
      [linCon (threeFactor s t u) [0, 1] [1, 1]] [] (∑ c, (threeFactor s t u).val Nw c) :=
  C68_solver_poisson (threeFactor_ok hs ht hu) hX hN (by omega) (foo_computes hs ht hu h1 h2) rfl trivial (fun _ _ => trivial) hT (sum_constraint (by omega)) .nil

/-- **C68.** test_poisson2 (tests.py:106-147): the term of the third feature is a `Product` of a `Constant` and a `Scalar` -/
theorem C68_example_poisson2 (hs : s ≠ 0) (ht : t ≠ 0) (hu : u ≠ 0) (h1 : vector.ndim = 1) (h2 : vector.shape 0 = u) {X Nw : Num ℝ}
    (hX : (threeFactor s t u).IsData X) (hN : (threeFactor s t u).IsData Nw) (hT : ∑ c, (threeFactor s t u).val Nw c ≠ 0) :
    Solver (threeFactor s t u) 3 (fun _ => True) ⟨poisson2Model vector, PoissonT.like X Nw, PoissonT.gradLike X Nw, PoissonT.hessLike X Nw, Nw, [⟨[0, 1], linearT [1, 1]⟩], []⟩
      (fun θ => Like.Poisson.like ((threeFactor s t u).val X) ((threeFactor s t u).val Nw)
        (valCell (threeFactor s t u) (fun θ n _ => θ 0 (n 0) - θ 1 (n 1) + (vector.get fun _ => n 2) * θ 2 0) θ))
      [linCon (threeFactor s t u) [0, 1] [1, 1]] [] (∑ c, (threeFactor s t u).val Nw c) :=
  C68_solver_poisson (threeFactor_ok hs ht hu) hX hN (by omega) (poisson2_computes hs ht hu h1 h2) rfl trivial (fun _ h => h) hT (sum_constraint (by omega)) .nil

/-- **C68.** test_poisson3 (tests.py:149-216): a sum of products of sums, with four parameters -/
theorem C68_example_poisson3 (hs : s ≠ 0) (hu : u ≠ 0) (h1 : vector.ndim = 1) (h2 : vector.shape 0 = u) {X Nw : Num ℝ}
    (hX : (cube s u).IsData X) (hN : (cube s u).IsData Nw) (hT : ∑ c, (cube s u).val Nw c ≠ 0) :
    Solver (cube s u) 4 (fun _ => True) ⟨poisson3Model vector, PoissonT.like X Nw, PoissonT.gradLike X Nw, PoissonT.hessLike X Nw, Nw, [⟨[0, 1], linearT [1, 1]⟩], []⟩
      (fun θ => Like.Poisson.like ((cube s u).val X) ((cube s u).val Nw) (valCell (cube s u)
        (fun θ n _ => θ 0 (n 0) - θ 1 (n 1) + (vector.get fun _ => n 2) * (θ 2 0 + θ 3 0 * ((θ 0 (n 0) - θ 1 (n 1)) - (θ 0 (n 1) - θ 1 (n 0))))) θ))
      [linCon (cube s u) [0, 1] [1, 1]] [] (∑ c, (cube s u).val Nw c) :=
  C68_solver_poisson (cube_ok hs hu) hX hN (by omega) (poisson3_computes hs hu h1 h2) rfl trivial (fun _ h => h) hT (sum_constraint (by omega)) .nil

/-- **C68.** test_poisson_reg (tests.py:292-326): the penalty `Quadratic(0, 1)` on the first two parameters -/
theorem C68_example_poisson_reg (hs : s ≠ 0) (ht : t ≠ 0) (hu : u ≠ 0) (h1 : vector.ndim = 1) (h2 : vector.shape 0 = u) {X Nw : Num ℝ}
    (hX : (threeFactor s t u).IsData X) (hN : (threeFactor s t u).IsData Nw) (hT : ∑ c, (threeFactor s t u).val Nw c ≠ 0) :
    Solver (threeFactor s t u) 3 (fun _ => True) ⟨fooModel vector, PoissonT.like X Nw, PoissonT.gradLike X Nw, PoissonT.hessLike X Nw, Nw,
        [⟨[0, 1], linearT [1, 1]⟩], [⟨[0, 1], quadraticT 0 1⟩]⟩
      (fun θ => Like.Poisson.like ((threeFactor s t u).val X) ((threeFactor s t u).val Nw) (valCell (threeFactor s t u) (fun θ n _ => fooVal vector θ n) θ))
      [linCon (threeFactor s t u) [0, 1] [1, 1]] [quadPen (threeFactor s t u) [0, 1] 0 1] (∑ c, (threeFactor s t u).val Nw c) :=
  C68_solver_poisson (threeFactor_ok hs ht hu) hX hN (by omega) (foo_computes hs ht hu h1 h2) rfl trivial (fun _ _ => trivial) hT (sum_constraint (by omega))
    (.cons (C67_quadratic (by simp) (by simp) one_ne_zero) .nil)

/-- **C68.** test_zero_inflated_poisson (tests.py:252-290): `s = 2` -/
theorem C68_example_zeroInflatedPoisson (hs : s ≠ 0) (ht : t ≠ 0) (hu : u ≠ 0) (h1 : vector.ndim = 1) (h2 : vector.shape 0 = u) {X Nw Z : Num ℝ}
    (hX : (threeFactor s t u).IsData X) (hN : (threeFactor s t u).IsData Nw) (hZ : (threeFactor s t u).IsData Z) (hT : ∑ c, (threeFactor s t u).val Nw c ≠ 0) :
    Solver (threeFactor s t u) 3 (fun _ => True) ⟨fooModel vector, ZeroInflatedPoissonT.like 2 X Nw Z, ZeroInflatedPoissonT.gradLike 2 X Nw, ZeroInflatedPoissonT.hessLike 2 X Nw, Nw,
        [⟨[0, 1], linearT [1, 1]⟩], []⟩
      (fun θ => Like.ZeroInflatedPoisson.like 2 ((threeFactor s t u).val X) ((threeFactor s t u).val Nw) ((threeFactor s t u).val Z)
        (valCell (threeFactor s t u) (fun θ n _ => fooVal vector θ n) θ))
      [linCon (threeFactor s t u) [0, 1] [1, 1]] [] (∑ c, (threeFactor s t u).val Nw c) :=
  C68_solver_zeroInflatedPoisson (threeFactor_ok hs ht hu) 2 (by norm_num) hX hN hZ (by omega) (foo_computes hs ht hu h1 h2) rfl trivial (fun _ _ => trivial) hT
    (sum_constraint (by omega)) .nil

/-- **C68.** test_logistic (tests.py:378-409) -/
theorem C68_example_logistic (hs : s ≠ 0) (ht : t ≠ 0) (hu : u ≠ 0) (h1 : vector.ndim = 1) (h2 : vector.shape 0 = u) {X Nw : Num ℝ}
    (hX : (threeFactor s t u).IsData X) (hN : (threeFactor s t u).IsData Nw) (hT : ∑ c, (threeFactor s t u).val Nw c ≠ 0) :
    Solver (threeFactor s t u) 3 (fun _ => True) ⟨fooModel vector, LogisticT.like X Nw, LogisticT.gradLike X Nw, LogisticT.hessLike X Nw, Nw, [⟨[0, 1], linearT [1, 1]⟩], []⟩
      (fun θ => Like.Logistic.like ((threeFactor s t u).val X) ((threeFactor s t u).val Nw) (valCell (threeFactor s t u) (fun θ n _ => fooVal vector θ n) θ))
      [linCon (threeFactor s t u) [0, 1] [1, 1]] [] (∑ c, (threeFactor s t u).val Nw c) :=
  C68_solver_logistic (threeFactor_ok hs ht hu) hX hN (by omega) (foo_computes hs ht hu h1 h2) rfl trivial (fun _ _ => trivial) hT (sum_constraint (by omega)) .nil

/-- **C68.** test_negative_binomial (tests.py:411-441), for every size `r` (the test uses the default 1) -/
theorem C68_example_negativeBinomial (hs : s ≠ 0) (ht : t ≠ 0) (hu : u ≠ 0) (h1 : vector.ndim = 1) (h2 : vector.shape 0 = u) {r : ℝ} (hr : 0 < r) {X Nw : Num ℝ}
    (hX : (threeFactor s t u).IsData X) (hN : (threeFactor s t u).IsData Nw) (hT : ∑ c, (threeFactor s t u).val Nw c ≠ 0) :
    Solver (threeFactor s t u) 3 (fun _ => True) ⟨fooModel vector, NegativeBinomialT.like r X Nw, NegativeBinomialT.gradLike r X Nw, NegativeBinomialT.hessLike r X Nw, Nw,
        [⟨[0, 1], linearT [1, 1]⟩], []⟩
      (fun θ => Like.NegativeBinomial.like r ((threeFactor s t u).val X) ((threeFactor s t u).val Nw) (valCell (threeFactor s t u) (fun θ n _ => fooVal vector θ n) θ))
      [linCon (threeFactor s t u) [0, 1] [1, 1]] [] (∑ c, (threeFactor s t u).val Nw c) :=
  C68_solver_negativeBinomial (threeFactor_ok hs ht hu) r hr hX hN (by omega) (foo_computes hs ht hu h1 h2) rfl trivial (fun _ _ => trivial) hT (sum_constraint (by omega)) .nil

/-- **C68.** test_finite (tests.py:443-476): `Poisson(size) @ Exp() @ foo` -/
theorem C68_example_finite (hs : s ≠ 0) (ht : t ≠ 0) (hu : u ≠ 0) {size : Nat} (hz : size ≠ 0) (h1 : vector.ndim = 1) (h2 : vector.shape 0 = u) {Nw : Num ℝ}
    (hN : (threeCounts s t u size).IsData Nw) (hT : ∑ c, (threeCounts s t u size).val Nw c ≠ 0) :
    Solver (threeCounts s t u size) 3 (fun _ => True)
      ⟨composeT (composeT (poissonT size) [expT]) [fooModel vector], FiniteT.like Nw, FiniteT.gradLike Nw, FiniteT.hessLike Nw, Nw, [⟨[0, 1], linearT [1, 1]⟩], []⟩
      (fun θ => Like.Finite.like ((threeCounts s t u size).val Nw) (valCell (threeCounts s t u size)
        (fun θ n d => Real.exp (fooVal vector θ n) ^ d 0 / ((d 0).factorial : ℝ)) θ))
      [linCon (threeCounts s t u size) [0, 1] [1, 1]] [] (∑ c, (threeCounts s t u size).val Nw c) := by
  refine C68_solver_finite (threeCounts_ok hs ht hu hz) hN (by omega)
    (compose_foo hs ht hu hz h1 h2 (U := fun _ => True) (F := fun x k => x ^ k / (k.factorial : ℝ)) (fun _ _ => trivial) (C65_Poisson size)) rfl trivial trivial (fun _ _ => trivial)
    (fun θ _ n d _ => ?_) hT (sum_constraint (by omega)) .nil
  have := Real.exp_pos (θ 0 (n 0) - θ 1 (n 1) + θ 2 0 * vector.get fun _ => n 2)
  positivity

/-- **C68.** test_finite_negative_binomial (tests.py:478-511): `NegativeBinomial(size, r) @ Exp() @ foo`; `logPmf` is the logarithm of the probability that
C65_example_negativeBinomial writes as a product. -/
theorem C68_example_finiteNegativeBinomial (hs : s ≠ 0) (ht : t ≠ 0) (hu : u ≠ 0) {size : Nat} (hz : size ≠ 0) (h1 : vector.ndim = 1) (h2 : vector.shape 0 = u) {r : ℝ} (hr : 0 < r)
    {Nw : Num ℝ} (hN : (threeCounts s t u size).IsData Nw) (hT : ∑ c, (threeCounts s t u size).val Nw c ≠ 0) :
    Solver (threeCounts s t u size) 3 (fun _ => True)
      ⟨composeT (composeT (negBinT size r) [expT]) [fooModel vector], FiniteT.like Nw, FiniteT.gradLike Nw, FiniteT.hessLike Nw, Nw, [⟨[0, 1], linearT [1, 1]⟩], []⟩
      (fun θ => Like.Finite.like ((threeCounts s t u size).val Nw) (valCell (threeCounts s t u size)
        (fun θ n d => Real.exp ((d 0 : ℝ) * Real.log (Real.exp (fooVal vector θ n)) + Real.log (Real.Gamma (r + d 0)) - Real.log (Real.Gamma r) +
          r * Real.log r - Real.log ((d 0).factorial : ℝ) - ((d 0 : ℝ) + r) * Real.log (r + Real.exp (fooVal vector θ n)))) θ))
      [linCon (threeCounts s t u size) [0, 1] [1, 1]] [] (∑ c, (threeCounts s t u size).val Nw c) :=
  C68_solver_finite (threeCounts_ok hs ht hu hz) hN (by omega)
    (compose_foo hs ht hu hz h1 h2 (U := fun u => 0 < u 0) (F := fun m k => Real.exp ((k : ℝ) * Real.log m + Real.log (Real.Gamma (r + k)) - Real.log (Real.Gamma r) +
        r * Real.log r - Real.log (k.factorial : ℝ) - ((k : ℝ) + r) * Real.log (r + m))) (fun _ h => h) (C65_NegativeBinomial size hr)) rfl trivial trivial (fun _ _ => trivial)
    (fun θ _ n d _ => Real.exp_pos _) hT (sum_constraint (by omega)) .nil

/-- **C68.** test_poisson_matrix (matrix_test.py:58-120) -/
theorem C68_example_poisson_matrix {size : Nat} (hs : s ≠ 0) (hz : size ≠ 0) {Nw : Num ℝ} (hN : (squareMatrix s size).IsData Nw) (hT : ∑ c, (squareMatrix s size).val Nw c ≠ 0) :
    Solver (squareMatrix s size) 3 (fun _ => True) ⟨matrixModel size 0, FiniteT.like Nw, FiniteT.gradLike Nw, FiniteT.hessLike Nw, Nw, [⟨[0, 1], linearT [1, 1]⟩], []⟩
      (fun θ => Like.Finite.like ((squareMatrix s size).val Nw) (valCell (squareMatrix s size)
        (fun θ n d => Real.exp (θ 0 (n 0) - θ 1 (n 1) + 1 / 2 * θ 2 0) ^ d 0 / ((d 0).factorial : ℝ) *
          (Real.exp (θ 0 (n 1) - θ 1 (n 0) - 1 / 2 * θ 2 0) ^ d 1 / ((d 1).factorial : ℝ))) θ))
      [linCon (squareMatrix s size) [0, 1] [1, 1]] [] (∑ c, (squareMatrix s size).val Nw c) := by
  refine C68_solver_finite (squareMatrix_ok hs hz) hN (by omega) (matrix_computes hs hz Nat.two_pos) rfl trivial trivial (fun _ _ => trivial) (fun θ _ n d _ => ?_) hT (sum_constraint (by omega)) .nil
  have h1 := Real.exp_pos (θ 0 (n 0) - θ 1 (n 1) + 1 / 2 * θ 2 0)
  have h2 := Real.exp_pos (θ 0 (n 1) - θ 1 (n 0) - 1 / 2 * θ 2 0)
  positivity

/-- **C68.** test_kullback_leibler (matrix_test.py:179-243) -/
theorem C68_example_kullback_leibler {size : Nat} (hs : s ≠ 0) (hz : 2 ≤ size) {Nw : Num ℝ} (hN : (squareMore s 1 3).IsData Nw) (hT : ∑ c, (squareMore s 1 3).val Nw c ≠ 0) :
    Solver (squareMore s 1 3) 3 (fun _ => True)
      ⟨composeT (collapseMatrixT none) [matrixModel size 1], FiniteT.like Nw, FiniteT.gradLike Nw, FiniteT.hessLike Nw, Nw, [⟨[0, 1], linearT [1, 1]⟩], []⟩
      (fun θ => Like.Finite.like ((squareMore s 1 3).val Nw) (valCell (squareMore s 1 3)
        (fun θ n d => ∑ i ∈ Finset.range size, ∑ j ∈ Finset.range size, if matchResult i j = d 0 then scoreVal θ n i j else 0) θ))
      [linCon (squareMore s 1 3) [0, 1] [1, 1]] [] (∑ c, (squareMore s 1 3).val Nw c) := by
  have hok : (squareMore s 1 3).Ok := squareMore_ok hs (by omega)
  have h := C65_CollapseMatrix_partial (collapsed_matrix s size) hok (matrix_computes (o := 1) hs (by omega) (by omega))
  refine C68_solver_finite hok hN (by omega) (h.congr fun θ n d _ => rfl) rfl trivial trivial (fun _ _ => trivial) (fun θ _ n d hp => ?_) hT (sum_constraint (by omega)) .nil
  have hd := hp.2.2.1 0 Nat.one_pos
  have hd : d 0 < 3 := by simpa [squareMore] using hd
  refine pair_terms_pos (F := fun i j => scoreVal θ n i j) (fun i _ j _ => ?_) hz hz hd
  have h1 := Real.exp_pos (θ 0 (n 0) - θ 1 (n 1) + 1 / 2 * θ 2 0)
  have h2 := Real.exp_pos (θ 0 (n 1) - θ 1 (n 0) - 1 / 2 * θ 2 0)
  unfold scoreVal
  positivity

/-- **C68.** test_markov_vector (matrix_test.py:245-298); the Markov functions accept rates with sum less than `steps` only -/
theorem C68_example_markov_vector {size steps : Nat} (hs : s ≠ 0) (hz : 0 < size) (hn : size ≤ steps + 1) {Nw : Num ℝ} (hN : (squareMore s 1 (2 * size - 1)).IsData Nw)
    (hT : ∑ c, (squareMore s 1 (2 * size - 1)).val Nw c ≠ 0) :
    Solver (squareMore s 1 (2 * size - 1)) 3 (ratesOk s steps)
      ⟨composeT (markovVectorT size steps fun _ => 1) [rateModel 0, rateModel 1], FiniteT.like Nw, FiniteT.gradLike Nw, FiniteT.hessLike Nw, Nw, [⟨[0, 1], linearT [1, 1]⟩], []⟩
      (fun θ => Like.Finite.like ((squareMore s 1 (2 * size - 1)).val Nw) (valCell (squareMore s 1 (2 * size - 1))
        (fun θ n d => mvFrame size steps (fun _ => 1) (rate 0 θ n) (rate 1 θ n) (d 0)) θ))
      [linCon (squareMore s 1 (2 * size - 1)) [0, 1] [1, 1]] [] (∑ c, (squareMore s 1 (2 * size - 1)).val Nw c) := by
  have h := markov_computes hs (size := 2 * size - 1) (by omega) (C65_MarkovVector size steps fun _ => 1) fun u v h1 h2 => by simp only [h1, h2]
  refine C68_solver_finite (squareMore_ok hs (by omega)) hN (by omega) h rfl trivial trivial (fun _ _ => trivial) (fun θ hθ n d hp => ?_) hT (sum_constraint (by omega)) .nil
  have hd := hp.2.2.1 0 Nat.one_pos
  refine C34_markovVector_positive hz (fun x _ => ⟨one_pos, le_rfl⟩) (Real.exp_pos _) (Real.exp_pos _) (hθ n fun k hk => ?_) hn ?_
  · have := hp.1 k hk
    simp only [squareMore] at this
    rwa [if_pos hk] at this
  · simpa [squareMore] using hd

/-- **C68.** test_markov_matrix (matrix_test.py:122-177) -/
theorem C68_example_markov_matrix {size steps : Nat} (hs : s ≠ 0) (hz : 0 < size) (hn : 2 * size ≤ steps + 2) {Nw : Num ℝ} (hN : (squareMore s 2 size).IsData Nw)
    (hT : ∑ c, (squareMore s 2 size).val Nw c ≠ 0) :
    Solver (squareMore s 2 size) 3 (ratesOk s steps)
      ⟨composeT (markovMatrixT size steps fun _ _ => 1) [rateModel 0, rateModel 1], FiniteT.like Nw, FiniteT.gradLike Nw, FiniteT.hessLike Nw, Nw, [⟨[0, 1], linearT [1, 1]⟩], []⟩
      (fun θ => Like.Finite.like ((squareMore s 2 size).val Nw) (valCell (squareMore s 2 size)
        (fun θ n d => mmFrame size steps (fun _ _ => 1) (rate 0 θ n) (rate 1 θ n) (d 0) (d 1)) θ))
      [linCon (squareMore s 2 size) [0, 1] [1, 1]] [] (∑ c, (squareMore s 2 size).val Nw c) := by
  have h := markov_computes hs (size := size) hz.ne' (C65_MarkovMatrix_partial steps (skew := fun _ _ => 1) fun _ _ _ _ => rfl) fun u v h1 h2 => by simp only [h1, h2]
  refine C68_solver_finite (squareMore_ok hs hz.ne') hN (by omega) h rfl trivial trivial (fun _ _ => trivial) (fun θ hθ n d hp => ?_) hT (sum_constraint (by omega)) .nil
  have hd0 := hp.2.2.1 0 Nat.two_pos
  have hd1 := hp.2.2.1 1 Nat.one_lt_two
  refine C34_markovMatrix_positive (fun x _ y _ => ⟨one_pos, le_rfl⟩) (Real.exp_pos _) (Real.exp_pos _) (hθ n fun k hk => ?_) hn ?_ ?_
  · have := hp.1 k hk
    simp only [squareMore] at this
    rwa [if_pos hk] at this
  · simpa [squareMore] using hd0
  · simpa [squareMore] using hd1

/-- **C68.** test_markov_kullback_leibler (matrix_test.py:300-360) -/
theorem C68_example_markov_kullback_leibler {size steps : Nat} (hs : s ≠ 0) (hz : 2 ≤ size) (hn : 2 * size ≤ steps + 2) {Nw : Num ℝ} (hN : (squareMore s 1 3).IsData Nw)
    (hT : ∑ c, (squareMore s 1 3).val Nw c ≠ 0) :
    Solver (squareMore s 1 3) 3 (ratesOk s steps)
      ⟨composeT (composeT (collapseMatrixT none) [markovMatrixT size steps fun _ _ => 1]) [rateModel 1, rateModel 0], FiniteT.like Nw, FiniteT.gradLike Nw, FiniteT.hessLike Nw, Nw,
        [⟨[0, 1], linearT [1, 1]⟩], []⟩
      (fun θ => Like.Finite.like ((squareMore s 1 3).val Nw) (valCell (squareMore s 1 3) (fun θ n d => markovResult size steps θ n (d 0)) θ))
      [linCon (squareMore s 1 3) [0, 1] [1, 1]] [] (∑ c, (squareMore s 1 3).val Nw c) :=
  C68_solver_finite (squareMore_ok hs (by omega)) hN (by omega) (markov_kl_computes hs) rfl trivial trivial (fun _ _ => trivial) (fun _ hθ _ _ hp => markovResult_pos hz hn hθ hp) hT
    (sum_constraint (by omega)) .nil

/-- **C68.** `NormalizedFinite` with the model of test_set for players with one parameter each (against the field, see C33), and the constraint `Linear([1])` on it -/
theorem C68_example_set (hs : s ≠ 0) {Nw : Num ℝ} (hN : (counts s 7).IsData Nw) (hT : ∑ c, (counts s 7).val Nw c ≠ 0) :
    Solver (counts s 7) 1 (oddsOk s) ⟨composeT setModel [xT], NormalizedFiniteT.like Nw, NormalizedFiniteT.gradLike Nw, NormalizedFiniteT.hessLike Nw, Nw, [⟨[0], linearT [1]⟩], []⟩
      (fun θ => Like.NormalizedFinite.like ((counts s 7).val Nw) (valCell (counts s 7) (fun θ n d => setOutcome (d 0) (θ 0 (n 0))) θ))
      [linCon (counts s 7) [0] [1]] [] (∑ c, (counts s 7).val Nw c) := by
  have hok : (counts s 7).Ok := ⟨by simp [counts], fun k _ => by simp only [counts]; split_ifs <;> first | assumption | simp⟩
  refine C68_solver_normalizedFinite hok hN (by omega) (set_computes hs) rfl trivial (fun _ _ => trivial) (fun θ _ n d hp => setOutcome_pos ?_ _) hT
    (.cons (C67_linear (by simp) (by simp) (by simp) (by simp)) .nil) .nil
  have := hp.2.2.1 0 Nat.one_pos
  simpa [counts] using this

/-! ### test_logistic_cross -/

/-- Two features with `s` values (the players of a match); a parameter for the players, and a number. -/
def duel (s : Nat) : Problem := ⟨2, 0, fun _ => s, fun p => if p = 0 then 1 else 0, fun _ _ => s⟩

/-- `Sum(2)` with `X()` of parameter 0 on feature 0, `-X()` of parameter 0 on feature 1, and `-Scalar()` of parameter 1 (matrix_test.py:23-26) -/
noncomputable def duelModel : TFunc ℝ :=
  sumT (row 3 fun i => (if i = 0 then 1 else -1, if i = 2 then scalarT else xT, if i = 2 then ⟨[1], [], 2, [], 0, []⟩ else ⟨[0], [i], 2, [], 0, []⟩)) 0

theorem duel_ok (hs : s ≠ 0) : (duel s).Ok := ⟨by simp [duel], fun k _ => hs⟩

theorem duel_inside {i : Nat} (hi : i < 2) : Inside (cOrder (oneFactor s) 1) (cOrder (duel s) 2) [0] [i] [] := by
  refine inside_cOrder (by simp) (by simp) rfl (fun k hk => ?_) (fun k hk j hj => rfl) (by simp) (fun k hk => ?_) rfl (fun k hk => rfl) (by simp) (by simp) rfl
    fun k hk => absurd hk (by simp [oneFactor])
  · have : k = 0 := by omega
    subst this; rfl
  · have : k = i := by simpa using hk
    subst this; exact hi

theorem duel_inside2 : Inside (cOrder number 1) (cOrder (duel s) 2) [1] [] [] := by
  refine inside_cOrder (by simp) (by simp) rfl (fun k hk => ?_) (fun k hk j hj => absurd hj (by simp [number])) (by simp) (by simp) rfl (fun k hk => absurd hk (by simp [number])) (by simp) (by simp) rfl
    fun k hk => absurd hk (by simp [number])
  have : k = 0 := by omega
  subst this; rfl

theorem duel_computes (hs : s ≠ 0) : Computes (duel s) (cOrder (duel s) 2) (fun _ => False) (.whole fun _ => False) (fun _ => True) duelModel
    fun θ n _ => θ 0 (n 0) - θ 0 (n 1) - θ 1 0 := by
  have hpr := duel_ok hs
  have hP : (oneFactor s).Pointwise 1 := fun p _ => ⟨rfl, fun _ _ => rfl⟩
  have g0 : ∀ i < 2, _ := fun i hi => C64_wrap_partial (K := fun _ => False) hpr (duel_inside (s := s) hi) (fun k _ h => h.elim) (C64_X (N := cOrder (oneFactor s) 1) hP rfl)
  have g2 := C64_wrap_partial (K := fun _ => False) hpr (duel_inside2 (s := s)) (fun k _ h => h.elim) (C64_Scalar (N := cOrder number 1) rfl rfl rfl)
  have hsum := sum_computes hpr (r := 3) (by omega) (w := fun i => if i = 0 then 1 else -1) (fun i _ => by split_ifs <;> simp)
    (f := fun i => if i = 2 then scalarT else xT) (g := fun i => if i = 2 then ⟨[1], [], 2, [], 0, []⟩ else ⟨[0], [i], 2, [], 0, []⟩) (K := fun _ => False)
    (st := fun i => ⟨i < 2, fun k => k = i, True, fun p => p = i / 2, True, fun _ => False, fun _ => False, fun _ _ => False⟩) (dom := fun _ _ => True)
    (val := fun i θ n _ => if i = 2 then θ 1 0 else θ 0 (n i)) (N := cOrder (duel s) 2) ?_
  · have e2 : (fun _ : Theta => ∀ i < 3, True) = fun _ => True := by simp
    rw [e2] at hsum
    refine (hsum.congr fun θ n d _ => ?_).weaken (fun _ => ⟨0, by omega, Nat.two_pos⟩)
      (fun k hk _ => ⟨k, ?_, ?_, rfl⟩) (fun _ _ _ => trivial) (fun p hp _ => ⟨2 * p, by omega, ?_⟩) (fun _ _ _ => trivial)
      (fun p hp h => h.elim) fun p hp h => h.elim
    · simp [Finset.sum_range_succ]
      ring
    · have hk : k < 2 := hk
      omega
    · exact hk
    · show p = 2 * p / 2
      omega
  · intro i hi
    by_cases h2 : i = 2
    · subst h2
      refine (g2.congr fun θ n d _ => ?_).weaken (fun h => absurd h (by simp))
        (fun k hk h => ?_) (fun _ => trivial) (fun p hp h => ⟨0, Nat.one_pos, Eq.symm h, trivial⟩) (fun _ => trivial) (fun p hp h => h.elim) fun p hp h => h.elim
      · simp [Theta.sub, cOrder, Problem.sizes, number, ravel]
      · have hk : k < 2 := hk
        have h : k = 2 := h
        omega
    · have hi2 : i < 2 := by omega
      simp only [if_neg h2]
      refine ((g0 i hi2).congr fun θ n d _ => ?_).weaken (fun _ => ⟨trivial, Nat.one_pos⟩)
        (fun k _ h => Or.inl ⟨0, Nat.one_pos, h, trivial⟩) (fun _ => trivial) (fun p hp h => ⟨0, Nat.one_pos, ?_, Nat.one_pos⟩) (fun _ => trivial) (fun p hp h => h.elim)
        fun p hp h => h.elim
      · simp [Theta.sub, cOrder, Problem.sizes, oneFactor, ravel, through]
      · have h : p = i / 2 := h
        show 0 = p
        omega

/-- **C68.** test_logistic_cross (matrix_test.py:21-56): one parameter occurs twice in the model, on two features; the constraint is `Linear(1)` on it. -/
theorem C68_example_logistic_cross (hs : s ≠ 0) {X Nw : Num ℝ} (hX : (duel s).IsData X) (hN : (duel s).IsData Nw) (hT : ∑ c, (duel s).val Nw c ≠ 0) :
    Solver (duel s) 2 (fun _ => True) ⟨duelModel, LogisticT.like X Nw, LogisticT.gradLike X Nw, LogisticT.hessLike X Nw, Nw, [⟨[0], linearT [1]⟩], []⟩
      (fun θ => Like.Logistic.like ((duel s).val X) ((duel s).val Nw) (valCell (duel s) (fun θ n _ => θ 0 (n 0) - θ 0 (n 1) - θ 1 0) θ))
      [linCon (duel s) [0] [1]] [] (∑ c, (duel s).val Nw c) :=
  C68_solver_logistic (duel_ok hs) hX hN (by omega) (duel_computes hs) rfl trivial (fun _ _ => trivial) hT (.cons (C67_linear (by simp) (by simp) (by simp) (by simp)) .nil) .nil

end Verif.Tens
