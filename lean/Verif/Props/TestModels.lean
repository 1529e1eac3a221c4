import Verif.Props.FuncComposeTensor
import Verif.Props.TwoFactor

/-!
# C65: the models of the test suite

`Poisson(n) @ Exp() @ foo` and `NegativeBinomial(n, 1) @ Exp() @ foo` (tests/tests.py:441-452, 476-487), where
`foo` is the sum of `X()`, `-X()` and `Vector(…)`, for arrays of any size and for any vector; `Log() @ F` (tests.py:328-346), where `F` is the sum
of `Exp() @ f1` and `Exp() @ f2`, the latter with the features exchanged.
-/

namespace Verif.Tens
open Verif.Params (Err)
open NDArray

/-- Three features with `s`, `t` and `u` values; a parameter for each of the first two, and one that is a number. -/
def threeFactor (s t u : Nat) : Problem :=
  ⟨3, 0, fun k => if k = 0 then s else if k = 1 then t else u, fun p => if p = 2 then 0 else 1, fun p _ => if p = 0 then s else t⟩

/-- The same with one outcome that has `size` values. -/
def threeCounts (s t u size : Nat) : Problem :=
  ⟨3, 1, fun k => if k = 0 then s else if k = 1 then t else if k = 2 then u else size, fun p => if p = 2 then 0 else 1, fun p _ => if p = 0 then s else t⟩

/-- One parameter, a number, and one feature with `u` values. -/
def oneNumber (u : Nat) : Problem := ⟨1, 0, fun _ => u, fun _ => 0, fun _ _ => 0⟩

theorem three_inside0 (s t u : Nat) : Inside (cOrder (oneFactor s) 1) (cOrder (threeFactor s t u) 3) [0] [0] [] := by
  refine ⟨by simp, by simp, rfl, fun k hk => ?_, fun k hk j hj => ?_, fun k hk a => ?_, by simp, by simp [threeFactor], rfl, fun k hk => ?_, by simp,
    by simp, rfl, fun k hk => absurd hk (by simp [oneFactor])⟩
  · have : k = 0 := by omega
    subst this; rfl
  · have : k = 0 := by omega
    subst this; rfl
  · have : k = 0 := by omega
    subst this; rfl
  · have : k = 0 := by simpa [oneFactor] using hk
    subst this; rfl

theorem three_inside1 (s t u : Nat) : Inside (cOrder (oneFactor t) 1) (cOrder (threeFactor s t u) 3) [1] [1] [] := by
  refine ⟨by simp, by simp, rfl, fun k hk => ?_, fun k hk j hj => ?_, fun k hk a => ?_, by simp, by simp [threeFactor], rfl, fun k hk => ?_, by simp,
    by simp, rfl, fun k hk => absurd hk (by simp [oneFactor])⟩
  · have : k = 0 := by omega
    subst this; rfl
  · have : k = 0 := by omega
    subst this; rfl
  · have : k = 0 := by omega
    subst this; rfl
  · have : k = 0 := by simpa [oneFactor] using hk
    subst this; rfl

theorem three_inside2 (s t u : Nat) : Inside (cOrder (oneNumber u) 1) (cOrder (threeFactor s t u) 3) [2] [2] [] := by
  refine ⟨by simp, by simp, rfl, fun k hk => ?_, fun k hk j hj => ?_, fun k hk a => ?_, by simp, by simp [threeFactor], rfl, fun k hk => ?_, by simp,
    by simp, rfl, fun k hk => absurd hk (by simp [oneNumber])⟩
  · have : k = 0 := by omega
    subst this; rfl
  · exact absurd hj (by simp [oneNumber])
  · have : k = 0 := by omega
    subst this; rfl
  · have : k = 0 := by simpa [oneNumber] using hk
    subst this; rfl

/-- `foo = Sum(3); foo.add(X(), 0, 0); foo.add(-X(), 1, 1); foo.add(Vector(vector), 2, 2)` (tests.py:444-447); `Sum.add` turns `-X()` into
`X()` with the weight `-1` (func_op.py:179-181) -/
noncomputable def fooModel (vector : NDArray ℝ) : TFunc ℝ :=
  sumT (row 3 fun i => (if i = 1 then -1 else 1, if i = 2 then vectorT vector else xT, ⟨[i], [i], 3, [], 0, []⟩)) 0

theorem foo_computes {s t u : Nat} (hs : s ≠ 0) (ht : t ≠ 0) (hu : u ≠ 0) {vector : NDArray ℝ} (h1 : vector.ndim = 1) (h2 : vector.shape 0 = u) :
    Computes (threeFactor s t u) (cOrder (threeFactor s t u) 3) (fun _ => False) (.whole fun _ => True) (fun _ => True) (fooModel vector)
      fun θ n _ => θ 0 (n 0) - θ 1 (n 1) + θ 2 0 * vector.get fun _ => n 2 := by
  have hpr : (threeFactor s t u).Ok := ⟨by simp [threeFactor], fun k _ => by simp only [threeFactor]; split_ifs <;> assumption⟩
  have hP : ∀ u, (oneFactor u).Pointwise 1 := fun u p _ => ⟨rfl, fun _ _ => rfl⟩
  have g0 := C64_wrap_partial (K := fun _ => False) hpr (three_inside0 s t u) (fun k _ h => h.elim) (C64_X (N := cOrder (oneFactor s) 1) (hP s) rfl)
  have g1 := C64_wrap_partial (K := fun _ => False) hpr (three_inside1 s t u) (fun k _ h => h.elim) (C64_X (N := cOrder (oneFactor t) 1) (hP t) rfl)
  have g2 := C64_wrap_partial (K := fun _ => False) hpr (three_inside2 s t u) (fun k _ h => h.elim)
    (C64_Vector (N := cOrder (oneNumber u) 1) rfl rfl h1 (fun k hk => by have : k = 0 := by simpa [oneNumber] using hk
                                                                         subst this; exact h2))
  have hsum := sum_computes hpr (r := 3) (by omega) (w := fun i => if i = 1 then -1 else 1) (fun i _ => by split_ifs <;> simp)
    (f := fun i => if i = 2 then vectorT vector else xT)
    (g := fun i => ⟨[i], [i], 3, [], 0, []⟩) (K := fun _ => False)
    (st := fun i => ⟨True, fun k => k = i, True, fun p => p = i, True, fun _ => True, fun p => p ≠ i, fun _ _ => False⟩) (dom := fun _ _ => True)
    (val := fun i θ n _ => if i = 2 then θ 2 0 * vector.get fun _ => n 2 else θ i (n i)) (N := cOrder (threeFactor s t u) 3) ?_
  · have e2 : (fun _ : Theta => ∀ i < 3, True) = fun _ => True := by simp
    rw [e2] at hsum
    refine (hsum.congr fun θ n d _ => ?_).weaken (fun _ => ⟨0, by omega, trivial⟩)
      (fun k hk _ => ⟨k, hk, trivial, rfl⟩) (fun _ _ _ => trivial) (fun p hp _ => ⟨p, hp, rfl⟩) (fun _ _ _ => trivial)
      (fun p hp _ => ⟨p, hp, trivial, fun j _ h => Ne.symm h⟩) fun p hp h => h.elim
    simp [Finset.sum_range_succ]
    ring
  · intro i hi
    have : i = 0 ∨ i = 1 ∨ i = 2 := by omega
    rcases this with rfl | rfl | rfl
    · refine (g0.congr fun θ n d _ => ?_).weaken (fun _ => ⟨trivial, Nat.one_pos⟩)
        (fun k _ h => Or.inl ⟨0, Nat.one_pos, h, trivial⟩) (fun _ => trivial) (fun p hp h => ⟨0, Nat.one_pos, Eq.symm h, Nat.one_pos⟩) (fun _ => trivial) (fun p hp _ k _ _ => trivial)
        fun p hp h k hk e => by
          have : k = 0 := by simpa using hk
          subst this; exact absurd (Eq.symm e) h
      simp [Theta.sub, cOrder, Problem.sizes, oneFactor, ravel, through]
    · refine (g1.congr fun θ n d _ => ?_).weaken (fun _ => ⟨trivial, Nat.one_pos⟩)
        (fun k _ h => Or.inl ⟨0, Nat.one_pos, h, trivial⟩) (fun _ => trivial) (fun p hp h => ⟨0, Nat.one_pos, Eq.symm h, Nat.one_pos⟩) (fun _ => trivial) (fun p hp _ k _ _ => trivial)
        fun p hp h k hk e => by
          have : k = 0 := by simpa using hk
          subst this; exact absurd (Eq.symm e) h
      simp [Theta.sub, cOrder, Problem.sizes, oneFactor, ravel, through]
    · refine (g2.congr fun θ n d _ => ?_).weaken (fun _ => ⟨trivial, Nat.one_pos⟩)
        (fun k _ h => Or.inl ⟨0, Nat.one_pos, h, trivial⟩) (fun _ => trivial) (fun p hp h => ⟨0, Nat.one_pos, Eq.symm h, Nat.one_pos⟩) (fun _ => trivial) (fun p hp _ k _ _ => trivial)
        fun p hp h k hk e => by
          have : k = 0 := by simpa using hk
          subst this; exact absurd (Eq.symm e) h
      have e : vector.get (through [2] n) = vector.get fun _ => n 2 := get_congr _ fun j hj => by
        have : j = 0 := by omega
        subst this; rfl
      rw [e]
      simp [Theta.sub, cOrder, Problem.sizes, oneNumber, ravel]

theorem three_longer (s t u size : Nat) : Longer (cOrder (threeFactor s t u) 3) 1 (fun _ => size) (cOrder (threeCounts s t u size) 3) where
  n := rfl
  d := rfl
  S k hk := by
    have hk : k < 3 := hk
    simp only [threeCounts, threeFactor]
    split_ifs <;> first | rfl | omega
  T j hj := by
    have : j = 0 := by omega
    subst this; rfl
  nd _ _ := rfl
  P _ _ _ _ := rfl
  e _ _ _ := rfl

theorem compose_foo {s t u size : Nat} (hs : s ≠ 0) (ht : t ≠ 0) (hu : u ≠ 0) (hz : size ≠ 0) {vector : NDArray ℝ} (h1 : vector.ndim = 1) (h2 : vector.shape 0 = u)
    {f : TFunc ℝ} {U : (Nat → ℝ) → Prop} {F : ℝ → Nat → ℝ} (hU : ∀ u, 0 < u 0 → U u) (hf : Acts f 1 1 (fun _ => size) (fun _ d => d = 0) U fun u o => F (u 0) (o 0)) :
    Computes (threeCounts s t u size) (cOrder (threeCounts s t u size) 3) (fun _ => True) (.solid fun p => 0 = 0 ∧ True) (fun _ => True) (composeT (composeT f [expT]) [fooModel vector])
      fun θ n d => F (Real.exp (θ 0 (n 0) - θ 1 (n 1) + θ 2 0 * vector.get fun _ => n 2)) (d 0) := by
  have hok : (threeCounts s t u size).Ok := ⟨by simp [threeCounts], fun k _ => by simp only [threeCounts]; split_ifs <;> assumption⟩
  have h := C65_compose_acts_partial (r := 0) hf (g := fun _ => expT) fun _ _ => C65_Exp (fun _ _ => True) fun _ => size
  have e : joinAt 0 (fun _ => size) (fun _ => size) = fun _ => size := by
    funext j; unfold joinAt; split_ifs <;> rfl
  rw [e] at h
  have h' := h.mono (P' := fun _ d => d = 0) (fun _ d hd => ⟨trivial, hd⟩) (U' := fun _ => True) fun u _ => ⟨trivial, fun o _ => hU _ (by rw [upto_lt (by omega)]; exact Real.exp_pos _)⟩
  have := C65_compose_partial (r := 0) (three_longer s t u size) hok (P := fun _ d => d = 0) rfl h' (g := fun _ => fooModel vector) fun _ _ => foo_computes hs ht hu h1 h2
  refine (this.congr fun θ n d _ => ?_).mono fun θ _ => ⟨fun _ _ => trivial, fun _ _ _ => trivial⟩
  unfold composeAt
  simp only [upto_lt Nat.zero_lt_one]
  rfl

/-- **C65.** `Finite` with the model `Poisson(size) @ Exp() @ foo` (test_finite): `like`, `grad_like` and `hess_like` return the log likelihood and its
derivatives, for all parameters. -/
theorem C65_example_finite {s t u size : Nat} (hs : s ≠ 0) (ht : t ≠ 0) (hu : u ≠ 0) (hz : size ≠ 0) {vector : NDArray ℝ} (h1 : vector.ndim = 1) (h2 : vector.shape 0 = u)
    {Nw : Num ℝ} (hN : (threeCounts s t u size).IsData Nw) :
    FitReturns (threeCounts s t u size) (cOrder (threeCounts s t u size) 3) (fun _ => True)
      (fun θ => Like.Finite.like ((threeCounts s t u size).val Nw) (valCell (threeCounts s t u size)
        (fun θ n d => Real.exp (θ 0 (n 0) - θ 1 (n 1) + θ 2 0 * vector.get fun _ => n 2) ^ d 0 / ((d 0).factorial : ℝ)) θ))
      (modelLike (composeT (composeT (poissonT size) [expT]) [fooModel vector]) (FiniteT.like Nw))
      (modelGrad (composeT (composeT (poissonT size) [expT]) [fooModel vector]) (FiniteT.gradLike Nw))
      (modelHess (composeT (composeT (poissonT size) [expT]) [fooModel vector]) (FiniteT.hessLike Nw)) := by
  have hok : (threeCounts s t u size).Ok := ⟨by simp [threeCounts], fun k _ => by simp only [threeCounts]; split_ifs <;> assumption⟩
  refine C64_fit_finite hok hN (compose_foo hs ht hu hz h1 h2 (U := fun _ => True) (F := fun x k => x ^ k / (k.factorial : ℝ)) (fun _ _ => trivial) (C65_Poisson size)) trivial trivial fun θ _ n d _ => ?_
  have := Real.exp_pos (θ 0 (n 0) - θ 1 (n 1) + θ 2 0 * vector.get fun _ => n 2)
  positivity

/-- **C65.** `Finite` with the model `NegativeBinomial(size, r) @ Exp() @ foo` (test_finite_negative_binomial). -/
theorem C65_example_negativeBinomial {s t u size : Nat} (hs : s ≠ 0) (ht : t ≠ 0) (hu : u ≠ 0) (hz : size ≠ 0) {vector : NDArray ℝ} (h1 : vector.ndim = 1) (h2 : vector.shape 0 = u)
    {r : ℝ} (hr : 0 < r) {Nw : Num ℝ} (hN : (threeCounts s t u size).IsData Nw) :
    ∃ pmf : ℝ → Nat → ℝ, (∀ m, 0 < m → ∀ k, pmf m k = Real.Gamma (r + k) / (Real.Gamma r * k.factorial) * (m / (r + m)) ^ k * (r / (r + m)) ^ r) ∧
    FitReturns (threeCounts s t u size) (cOrder (threeCounts s t u size) 3) (fun _ => True)
      (fun θ => Like.Finite.like ((threeCounts s t u size).val Nw) (valCell (threeCounts s t u size)
        (fun θ n d => pmf (Real.exp (θ 0 (n 0) - θ 1 (n 1) + θ 2 0 * vector.get fun _ => n 2)) (d 0)) θ))
      (modelLike (composeT (composeT (negBinT size r) [expT]) [fooModel vector]) (FiniteT.like Nw))
      (modelGrad (composeT (composeT (negBinT size r) [expT]) [fooModel vector]) (FiniteT.gradLike Nw))
      (modelHess (composeT (composeT (negBinT size r) [expT]) [fooModel vector]) (FiniteT.hessLike Nw)) := by
  have hok : (threeCounts s t u size).Ok := ⟨by simp [threeCounts], fun k _ => by simp only [threeCounts]; split_ifs <;> assumption⟩
  refine ⟨fun m k => Real.exp ((k : ℝ) * Real.log m + Real.log (Real.Gamma (r + k)) - Real.log (Real.Gamma r) +
        r * Real.log r - Real.log (k.factorial : ℝ) - ((k : ℝ) + r) * Real.log (r + m)), fun m hm k => ?_,
    C64_fit_finite hok hN (compose_foo hs ht hu hz h1 h2 (U := fun u => 0 < u 0) (F := fun m k => Real.exp ((k : ℝ) * Real.log m + Real.log (Real.Gamma (r + k)) - Real.log (Real.Gamma r) +
        r * Real.log r - Real.log (k.factorial : ℝ) - ((k : ℝ) + r) * Real.log (r + m))) (fun _ h => h) (C65_NegativeBinomial size hr)) trivial trivial fun θ _ n d _ => Real.exp_pos _⟩
  have g1 : 0 < Real.Gamma (r + k) := Real.Gamma_pos_of_pos (by positivity)
  have g2 : 0 < Real.Gamma r := Real.Gamma_pos_of_pos hr
  have g3 : (0 : ℝ) < k.factorial := by positivity
  have hrm : 0 < r + m := by positivity
  have hR : (r / (r + m)) ^ r = Real.exp (r * Real.log r - r * Real.log (r + m)) := by
    rw [Real.rpow_def_of_pos (by positivity), Real.log_div hr.ne' hrm.ne']
    congr 1; ring
  have hM : (m / (r + m)) ^ k = Real.exp ((k : ℝ) * Real.log m - (k : ℝ) * Real.log (r + m)) := by
    rw [← Real.rpow_natCast, Real.rpow_def_of_pos (by positivity), Real.log_div hm.ne' hrm.ne']
    congr 1; ring
  have hG : Real.Gamma (r + k) / (Real.Gamma r * k.factorial) = Real.exp (Real.log (Real.Gamma (r + k)) - Real.log (Real.Gamma r) - Real.log (k.factorial : ℝ)) := by
    rw [Real.exp_sub, Real.exp_sub, Real.exp_log g1, Real.exp_log g2, Real.exp_log g3, div_div]
  rw [hR, hM, hG, ← Real.exp_add, ← Real.exp_add]
  refine congrArg Real.exp ?_
  ring

/-! ### test_poisson_sum -/

/-- Two features with `s` values, a parameter for each of them, and one that is a number. -/
def square (s : Nat) : Problem := ⟨2, 0, fun _ => s, fun p => if p = 2 then 0 else 1, fun _ _ => s⟩

/-- One parameter, a number, and no features. -/
def number : Problem := ⟨0, 0, fun _ => 1, fun _ => 0, fun _ _ => 0⟩

theorem square_inside {s i : Nat} (hi : i < 2) : Inside (cOrder (oneFactor s) 1) (cOrder (square s) 3) [i] [i] [] := by
  refine ⟨by simp, fun p hp => ?_, rfl, fun k hk => ?_, fun k hk j hj => rfl, fun k hk a => ?_, by simp, fun k hk => ?_, rfl, fun k hk => rfl, by simp,
    by simp, rfl, fun k hk => absurd hk (by simp [oneFactor])⟩
  · have : p = i := by simpa using hp
    omega
  · have : k = 0 := by omega
    subst this
    show 1 = if i = 2 then 0 else 1
    rw [if_neg (by omega)]
  · have : k = 0 := by omega
    subst this
    show unravel ((List.range 1).map fun _ => s) a = unravel ((List.range (if i = 2 then 0 else 1)).map fun _ => s) a
    rw [if_neg (by omega)]
  · have : k = i := by simpa using hk
    show k < 2
    omega

theorem square_inside2 (s : Nat) : Inside (cOrder number 1) (cOrder (square s) 3) [2] [] [] := by
  refine ⟨by simp, by simp, rfl, fun k hk => ?_, fun k hk j hj => absurd hj (by simp [number]), fun k hk a => ?_, by simp, by simp, rfl, fun k hk => absurd hk (by simp [number]), by simp,
    by simp, rfl, fun k hk => absurd hk (by simp [number])⟩
  · have : k = 0 := by omega
    subst this; rfl
  · have : k = 0 := by omega
    subst this; rfl

/-- `f = Sum(2); f.add(X(), 0, 0); f.add(-X(), 1, 1); f.add(c * Scalar(), 2, None)` (tests.py:332-340, with `c = 1` and `c = -1`) -/
noncomputable def pairModel (c : ℝ) : TFunc ℝ :=
  sumT (row 3 fun i => (if i = 0 then 1 else if i = 1 then -1 else c, if i = 2 then scalarT else xT, ⟨[i], if i = 2 then [] else [i], 2, [], 0, []⟩)) 0

theorem square_ok {s : Nat} (hs : s ≠ 0) : (square s).Ok := ⟨by simp [square], fun _ _ => hs⟩

theorem pair_computes {s : Nat} (hs : s ≠ 0) {c : ℝ} (hc : c ≠ 0) :
    Computes (square s) (cOrder (square s) 3) (fun _ => False) (.whole fun _ => True) (fun _ => True) (pairModel c)
      fun θ n _ => θ 0 (n 0) - θ 1 (n 1) + c * θ 2 0 := by
  have hpr := square_ok hs
  have hP : (oneFactor s).Pointwise 1 := fun p _ => ⟨rfl, fun _ _ => rfl⟩
  have g0 : ∀ i < 2, _ := fun i hi => C64_wrap_partial (K := fun _ => False) hpr (square_inside (s := s) hi) (fun k _ h => h.elim) (C64_X (N := cOrder (oneFactor s) 1) hP rfl)
  have g2 := C64_wrap_partial (K := fun _ => False) hpr (square_inside2 s) (fun k _ h => h.elim) (C64_Scalar (N := cOrder number 1) rfl rfl rfl)
  have hsum := sum_computes hpr (r := 3) (by omega) (w := fun i => if i = 0 then 1 else if i = 1 then -1 else c) (fun i _ => by split_ifs <;> simp [hc])
    (f := fun i => if i = 2 then scalarT else xT)
    (g := fun i => ⟨[i], if i = 2 then [] else [i], 2, [], 0, []⟩) (K := fun _ => False)
    (st := fun i => ⟨i < 2, fun k => k = i, True, fun p => p = i, True, fun _ => True, fun p => p ≠ i, fun _ _ => False⟩) (dom := fun _ _ => True)
    (val := fun i θ n _ => if i = 2 then θ 2 0 else θ i (n i)) (N := cOrder (square s) 3) ?_
  · have e2 : (fun _ : Theta => ∀ i < 3, True) = fun _ => True := by simp
    rw [e2] at hsum
    refine (hsum.congr fun θ n d _ => ?_).weaken (fun _ => ⟨0, by omega, Nat.two_pos⟩)
      (fun k hk _ => ⟨k, by have : k < 2 := hk
                            omega, hk, rfl⟩) (fun _ _ _ => trivial) (fun p hp _ => ⟨p, hp, rfl⟩) (fun _ _ _ => trivial)
      (fun p hp _ => ⟨p, hp, trivial, fun j _ h => Ne.symm h⟩) fun p hp h => h.elim
    simp [Finset.sum_range_succ]
    ring
  · intro i hi
    by_cases h2 : i = 2
    · subst h2
      refine (g2.congr fun θ n d _ => ?_).weaken (fun h => absurd h (by simp))
        (fun k hk h => ?_) (fun _ => trivial) (fun p hp h => ⟨0, Nat.one_pos, Eq.symm h, trivial⟩) (fun _ => trivial) (fun p hp _ k _ _ => trivial)
        fun p hp h k hk e => by
          have : k = 0 := by simpa using hk
          subst this; exact absurd (Eq.symm e) h
      · simp [Theta.sub, cOrder, Problem.sizes, number, ravel]
      · have hk : k < 2 := hk
        have h : k = 2 := h
        omega
    · have hi2 : i < 2 := by omega
      simp only [if_neg h2]
      refine ((g0 i hi2).congr fun θ n d _ => ?_).weaken (fun _ => ⟨trivial, Nat.one_pos⟩)
        (fun k _ h => Or.inl ⟨0, Nat.one_pos, h, trivial⟩) (fun _ => trivial) (fun p hp h => ⟨0, Nat.one_pos, Eq.symm h, Nat.one_pos⟩) (fun _ => trivial) (fun p hp _ k _ _ => trivial)
        fun p hp h k hk e => by
          have : k = 0 := by simpa using hk
          subst this; exact absurd (Eq.symm e) h
      simp [Theta.sub, cOrder, Problem.sizes, oneFactor, ravel, through]

theorem longer_self {pr : Problem} {m : Nat} (N : Numbering pr m) (T : Nat → Nat) : Longer N 0 T N :=
  ⟨rfl, rfl, fun _ _ => rfl, fun j hj => absurd hj (Nat.not_lt_zero j), fun _ _ => rfl, fun _ _ _ _ => rfl, fun _ _ _ => rfl⟩

/-- `F = Sum(2); F.add(Exp() @ f1, [0, 1, 2], [0, 1]); F.add(Exp() @ f2, [0, 1, 2], [1, 0])` (tests.py:342-344) -/
noncomputable def bothModel : TFunc ℝ :=
  sumT (row 2 fun i => (1, composeT expT [pairModel (if i = 0 then 1 else -1)], ⟨[0, 1, 2], if i = 0 then [0, 1] else [1, 0], 2, [], 0, []⟩)) 0

theorem square_whole {s i : Nat} : Inside (cOrder (square s) 3) (cOrder (square s) 3) [0, 1, 2] (if i = 0 then [0, 1] else [1, 0]) [] := by
  have h3 : ∀ k < 3, [0, 1, 2].getD k 0 = k := by
    intro k hk
    match k, hk with
    | 0, _ => rfl
    | 1, _ => rfl
    | 2, _ => rfl
  refine ⟨by simp, by simp, rfl, fun k hk => by rw [h3 k hk], fun k hk j hj => rfl, fun k hk a => by rw [h3 k hk], by split_ifs <;> simp, fun k hk => ?_, by split_ifs <;> rfl, fun k hk => rfl, by simp,
    by simp, rfl, fun k hk => rfl⟩
  show k < 2
  split_ifs at hk <;> simp at hk <;> omega

theorem both_computes {s : Nat} (hs : s ≠ 0) :
    Computes (square s) (cOrder (square s) 3) (fun _ => True) .all (fun _ => True) bothModel
      fun θ n _ => Real.exp (θ 0 (n 0) - θ 1 (n 1) + θ 2 0) + Real.exp (θ 0 (n 1) - θ 1 (n 0) - θ 2 0) := by
  have hpr := square_ok hs
  have h3 : ∀ k < 3, [0, 1, 2].getD k 0 = k := by
    intro k hk
    match k, hk with
    | 0, _ => rfl
    | 1, _ => rfl
    | 2, _ => rfl
  have hE : ∀ i, _ := fun i => C65_compose_partial (r := 0) (longer_self (cOrder (square s) 3) fun _ => 1) hpr (P := fun _ _ => True) trivial (C65_Exp _ _)
    (g := fun _ => pairModel (if i = 0 then 1 else -1)) fun _ _ => pair_computes hs (c := if i = 0 then 1 else -1) (by split_ifs <;> simp)
  have hax : ∀ i k, k < 2 → ∃ j < 2, k = (if i = 0 then [0, 1] else [1, 0]).getD j 0 := by
    intro i k hk
    by_cases c : i = 0
    · refine ⟨k, hk, ?_⟩
      rw [if_pos c]
      match k, hk with
      | 0, _ => rfl
      | 1, _ => rfl
    · refine ⟨1 - k, by omega, ?_⟩
      rw [if_neg c]
      match k, hk with
      | 0, _ => rfl
      | 1, _ => rfl
  have hW : ∀ i, _ := fun i => C64_wrap_partial (K := fun _ => True) hpr (square_whole (s := s) (i := i)) (fun k hk _ => by
    obtain ⟨j, hj, e⟩ := hax i k hk
    exact Or.inl ⟨j, hj, e, trivial⟩) (hE i)
  have hsum := sum_computes hpr (r := 2) (by omega) (w := fun _ => 1) (fun _ _ => one_ne_zero)
    (f := fun i => composeT expT [pairModel (if i = 0 then 1 else -1)])
    (g := fun i => ⟨[0, 1, 2], if i = 0 then [0, 1] else [1, 0], 2, [], 0, []⟩) (K := fun _ => True)
    (st := fun _ => .all) (dom := fun _ _ => True)
    (val := fun i θ n _ => Real.exp (if i = 0 then θ 0 (n 0) - θ 1 (n 1) + θ 2 0 else θ 0 (n 1) - θ 1 (n 0) - θ 2 0)) (N := cOrder (square s) 3) ?_
  · have e2 : (fun _ : Theta => ∀ i < 2, True) = fun _ => True := by simp
    rw [e2] at hsum
    refine (hsum.congr fun θ n d _ => ?_).weaken (fun _ => ⟨0, by omega, trivial⟩)
      (fun k hk _ => ⟨0, by omega, trivial, trivial⟩) (fun _ _ _ => trivial) (fun p hp _ => ⟨0, by omega, trivial⟩) (fun _ _ _ => trivial) (fun p hp h => h.elim) fun p hp h => h.elim
    simp [Finset.sum_range_succ]
  · intro i hi
    refine (((hW i).congr fun θ n d _ => ?_).mono fun θ _ => ⟨fun _ _ => trivial, fun _ _ _ => trivial⟩).weaken (fun _ => ⟨trivial, Nat.two_pos⟩)
        (fun k hk _ => ?_) (fun _ => trivial) (fun p hp h => ⟨p, hp, h3 p hp, trivial⟩) (fun _ => trivial) (fun p hp h => h.elim) fun p hp h => h.elim
    · unfold composeAt
      simp only [upto_lt (show 0 < 0 + 1 by omega)]
      by_cases c : i = 0
      · subst c
        simp [Theta.sub, through]
      · simp only [if_neg c]
        simp [Theta.sub, through]
        ring
    · obtain ⟨j, hj, e⟩ := hax i k hk
      exact Or.inl ⟨j, hj, e, trivial⟩

theorem poisson_sum_computes {s : Nat} (hs : s ≠ 0) :
    Computes (square s) (cOrder (square s) 3) (fun _ => True) (Store.solid fun _ => 0 = 0 ∧ False) (fun _ => True) (composeT logT [bothModel])
      fun θ n _ => Real.log (Real.exp (θ 0 (n 0) - θ 1 (n 1) + θ 2 0) + Real.exp (θ 0 (n 1) - θ 1 (n 0) - θ 2 0)) := by
  have hpr := square_ok hs
  have := C65_compose_partial (r := 0) (longer_self (cOrder (square s) 3) fun _ => 1) hpr (P := fun _ _ => True) trivial (C65_Log _ _)
    (g := fun _ => bothModel) fun _ _ => both_computes hs
  refine (this.congr fun θ n d _ => ?_).mono fun θ _ => ⟨fun _ _ => trivial, fun n d _ => ?_⟩
  · unfold composeAt
    simp only [upto_lt (show 0 < 0 + 1 by omega)]
  · rw [upto_lt (by omega)]
    positivity

/-- **C65.** `Poisson` with the model `Log() @ F` (test_poisson_sum): `like`, `grad_like` and `hess_like` return the log likelihood and its
derivatives, for all parameters. -/
theorem C65_example_poisson_sum {s : Nat} (hs : s ≠ 0) {X Nw : Num ℝ} (hX : (square s).IsData X) (hN : (square s).IsData Nw) :
    FitReturns (square s) (cOrder (square s) 3) (fun _ => True)
      (fun θ => Like.Poisson.like ((square s).val X) ((square s).val Nw) (valCell (square s)
        (fun θ n _ => Real.log (Real.exp (θ 0 (n 0) - θ 1 (n 1) + θ 2 0) + Real.exp (θ 0 (n 1) - θ 1 (n 0) - θ 2 0))) θ))
      (modelLike (composeT logT [bothModel]) (PoissonT.like X Nw))
      (modelGrad (composeT logT [bothModel]) (PoissonT.gradLike X Nw))
      (modelHess (composeT logT [bothModel]) (PoissonT.hessLike X Nw)) :=
  C64_fit_poisson (square_ok hs) hX hN (poisson_sum_computes hs) trivial

end Verif.Tens
