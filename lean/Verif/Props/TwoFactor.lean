import Verif.Props.FitTensor
import Verif.Lemmas.CNumbering

/-!
# C64: two models to which the theorems apply

The additive model of two factors with Poisson data (README, examples/poisson_reg), for arrays of any size, and the model of an
outcome with `size` values, one parameter for each feature.
-/

namespace Verif.Tens
open Verif.Params (Err)
open NDArray

/-- One parameter and one feature with `s` values. -/
def oneFactor (s : Nat) : Problem := ⟨1, 0, fun _ => s, fun _ => 1, fun _ _ => s⟩

/-- Two features with `s` and `t` values, one parameter for each. -/
def twoFactor (s t : Nat) : Problem := ⟨2, 0, fun k => if k = 0 then s else t, fun _ => 1, fun p _ => if p = 0 then s else t⟩

theorem two_inside0 (s t : Nat) : Inside (cOrder (oneFactor s) 1) (cOrder (twoFactor s t) 2) [0] [0] [] := by
  refine ⟨by simp, by simp, rfl, fun k hk => rfl, fun k hk j hj => ?_, fun k hk a => ?_, by simp, by simp [twoFactor], rfl, fun k hk => ?_, by simp,
    by simp, rfl, fun k hk => absurd hk (by simp [oneFactor])⟩
  · have : k = 0 := by omega
    subst this; rfl
  · have : k = 0 := by omega
    subst this; rfl
  · have : k = 0 := by simpa [oneFactor] using hk
    subst this; rfl

theorem two_inside1 (s t : Nat) : Inside (cOrder (oneFactor t) 1) (cOrder (twoFactor s t) 2) [1] [1] [] := by
  refine ⟨by simp, by simp, rfl, fun k hk => rfl, fun k hk j hj => ?_, fun k hk a => ?_, by simp, by simp [twoFactor], rfl, fun k hk => ?_, by simp,
    by simp, rfl, fun k hk => absurd hk (by simp [oneFactor])⟩
  · have : k = 0 := by omega
    subst this; rfl
  · have : k = 0 := by omega
    subst this; rfl
  · have : k = 0 := by simpa [oneFactor] using hk
    subst this; rfl

/-- `Sum(2).add(X(), 0, 0).add(X(), 1, 1)` -/
noncomputable def addModel : TFunc ℝ := sumT (row 2 fun i => (1, xT, ⟨[i], [i], 2, [], 0, []⟩)) 0

theorem add_computes {s t : Nat} (hs : s ≠ 0) (ht : t ≠ 0) :
    Computes (twoFactor s t) (cOrder (twoFactor s t) 2) (fun _ => False) (.whole fun _ => True) (fun _ => True) addModel
      fun θ n _ => θ 0 (n 0) + θ 1 (n 1) := by
  have hpr : (twoFactor s t).Ok := ⟨by simp [twoFactor], fun k _ => by simp only [twoFactor]; split_ifs <;> assumption⟩
  have hP : ∀ u, (oneFactor u).Pointwise 1 := fun u p _ => ⟨rfl, fun _ _ => rfl⟩
  have h0 := C64_wrap_partial (K := fun _ => False) hpr (two_inside0 s t) (fun k _ h => h.elim) (C64_X (N := cOrder (oneFactor s) 1) (hP s) rfl)
  have h1 := C64_wrap_partial (K := fun _ => False) hpr (two_inside1 s t) (fun k _ h => h.elim) (C64_X (N := cOrder (oneFactor t) 1) (hP t) rfl)
  have hsum := sum_computes hpr (r := 2) (by omega) (w := fun _ => 1) (fun _ _ => one_ne_zero) (f := fun _ => xT)
    (g := fun i => ⟨[i], [i], 2, [], 0, []⟩) (K := fun _ => False) 
    (st := fun i => ⟨True, fun k => k = i, True, fun p => p = i, True, fun _ => True, fun p => p ≠ i, fun _ _ => False⟩) (dom := fun _ _ => True)
    (val := fun i θ n _ => θ i (n i)) (N := cOrder (twoFactor s t) 2) ?_
  · have e2 : (fun _ : Theta => ∀ i < 2, True) = fun _ => True := by simp
    rw [e2] at hsum
    refine (hsum.congr fun θ n d _ => ?_).weaken (fun _ => ⟨0, by omega, trivial⟩)
      (fun k hk _ => ⟨k, hk, trivial, rfl⟩) (fun _ _ _ => trivial) (fun p hp _ => ⟨p, hp, rfl⟩) (fun _ _ _ => trivial)
      (fun p hp _ => ⟨p, hp, trivial, fun j _ h => Ne.symm h⟩) fun p hp h => h.elim
    simp [Finset.sum_range_succ]
  · intro i hi
    have : i = 0 ∨ i = 1 := by omega
    rcases this with rfl | rfl
    · refine (h0.congr fun θ n d _ => ?_).weaken (fun _ => ⟨trivial, Nat.one_pos⟩)
        (fun k _ h => Or.inl ⟨0, Nat.one_pos, h, trivial⟩) (fun _ => trivial) (fun p hp h => ⟨0, Nat.one_pos, Eq.symm h, Nat.one_pos⟩) (fun _ => trivial) (fun p hp _ k _ _ => trivial)
        fun p hp h k hk e => by
          have : k = 0 := by simpa using hk
          subst this; exact absurd (Eq.symm e) h
      simp [Theta.sub, cOrder, Problem.sizes, oneFactor, ravel, through]
    · refine (h1.congr fun θ n d _ => ?_).weaken (fun _ => ⟨trivial, Nat.one_pos⟩)
        (fun k _ h => Or.inl ⟨0, Nat.one_pos, h, trivial⟩) (fun _ => trivial) (fun p hp h => ⟨0, Nat.one_pos, Eq.symm h, Nat.one_pos⟩) (fun _ => trivial) (fun p hp _ k _ _ => trivial)
        fun p hp h k hk e => by
          have : k = 0 := by simpa using hk
          subst this; exact absurd (Eq.symm e) h
      simp [Theta.sub, cOrder, Problem.sizes, oneFactor, ravel, through]

/-- The data array with the values `x`. -/
def twoData (s t : Nat) (x : Nat → Nat → ℝ) : Num ℝ := .tensor ⟨⟨2, (twoFactor s t).S, fun i => x (i 0) (i 1)⟩, 0, 0, 0, [], []⟩

theorem two_isData (s t : Nat) (x : Nat → Nat → ℝ) : (twoFactor s t).IsData (twoData s t x) :=
  ⟨_, rfl, ⟨Tensor.wf_nomap (Nat.zero_le _), ⟨List.nodup_nil, List.nodup_nil⟩, Or.inl rfl, Or.inl rfl, rfl, Or.inl rfl,
    fun k _ => Or.inl (by show (twoFactor s t).S (0 + 0 + k) = _; simp; rfl),
    fun k hk => absurd hk (Nat.not_lt_zero _), fun k hk => absurd hk (Nat.not_lt_zero _)⟩,
    ⟨rfl, fun k _ => by show (twoFactor s t).S (0 + 0 + k) = _; simp; rfl⟩, rfl, rfl⟩

theorem two_data_val (s t : Nat) (x : Nat → Nat → ℝ) (c : (twoFactor s t).Cell) :
    (twoFactor s t).val (twoData s t x) c = x (c.1 ⟨0, Nat.two_pos⟩) (c.1 ⟨1, Nat.one_lt_two⟩) := by
  unfold Problem.val twoData
  show (Tensor.dense _ _ : ℝ) = _
  unfold Tensor.dense
  rw [if_pos (And.intro (agrees_nil _ _) (agrees_nil _ _))]
  have h0 : (c.1 ⟨0, Nat.two_pos⟩ : Nat) < s := (c.1 ⟨0, Nat.two_pos⟩).2
  have h1 : (c.1 ⟨1, Nat.one_lt_two⟩ : Nat) < t := (c.1 ⟨1, Nat.one_lt_two⟩).2
  show x (if s = 1 then 0 else (c.1 ⟨0, Nat.two_pos⟩ : Nat)) (if t = 1 then 0 else (c.1 ⟨1, Nat.one_lt_two⟩ : Nat)) = _
  congr 1
  · split_ifs with h <;> omega
  · split_ifs with h <;> omega

/-- The cells of a table. -/
def twoCells (s t : Nat) : (twoFactor s t).Cell ≃ Fin s × Fin t where
  toFun c := (c.1 ⟨0, Nat.two_pos⟩, c.1 ⟨1, Nat.one_lt_two⟩)
  invFun q := (fun k => match k with
    | ⟨0, _⟩ => q.1
    | ⟨1, _⟩ => q.2, fun k => k.elim0)
  left_inv c := by
    refine Prod.ext (funext fun k => ?_) (funext fun k => k.elim0)
    match k with
    | ⟨0, _⟩ => rfl
    | ⟨1, _⟩ => rfl
  right_inv q := rfl

theorem two_sum (s t : Nat) (F : Nat → Nat → ℝ) :
    ∑ c : (twoFactor s t).Cell, F (c.1 ⟨0, Nat.two_pos⟩) (c.1 ⟨1, Nat.one_lt_two⟩) =
      ∑ i ∈ Finset.range s, ∑ j ∈ Finset.range t, F i j := by
  refine (Fintype.sum_equiv (twoCells s t) _ (fun q : Fin s × Fin t => F q.1 q.2) fun c => rfl).trans ?_
  rw [Fintype.sum_prod_type, Finset.sum_range]
  exact Finset.sum_congr rfl fun i _ => (Finset.sum_range fun j => F i j).symm

/-- **C64.** Poisson regression with two factors: for tables of any size, the methods of the likelihood return the log likelihood
`Σ x (θ₀ + θ₁) - w exp (θ₀ + θ₁) - log Γ(x + 1)` with its gradient and Hessian. -/
theorem C64_example_poisson {s t : Nat} (hs : s ≠ 0) (ht : t ≠ 0) (x w : Nat → Nat → ℝ) :
    FitReturns (twoFactor s t) (cOrder (twoFactor s t) 2) (fun _ => True)
      (fun θ => ∑ i ∈ Finset.range s, ∑ j ∈ Finset.range t,
        (x i j * (θ 0 i + θ 1 j) - w i j * Real.exp (θ 0 i + θ 1 j) - Like.gammaln (x i j + 1)))
      (modelLike addModel (PoissonT.like (twoData s t x) (twoData s t w)))
      (modelGrad addModel (PoissonT.gradLike (twoData s t x) (twoData s t w)))
      (modelHess addModel (PoissonT.hessLike (twoData s t x) (twoData s t w))) := by
  have hpr : (twoFactor s t).Ok := ⟨by simp [twoFactor], fun k _ => by simp only [twoFactor]; split_ifs <;> assumption⟩
  have := C64_fit_poisson hpr (two_isData s t x) (two_isData s t w) (add_computes hs ht) trivial
  refine (congrArg (fun L => FitReturns _ _ _ L _ _ _) (funext fun θ => ?_)).mp this
  rw [← two_sum s t fun i j => x i j * (θ 0 i + θ 1 j) - w i j * Real.exp (θ 0 i + θ 1 j) - Like.gammaln (x i j + 1)]
  unfold Like.Poisson.like
  refine Finset.sum_congr rfl fun c _ => ?_
  rw [two_data_val, two_data_val]
  rfl

theorem Computes.mono {pr : Problem} {m : Nat} {N : Numbering pr m} {K : Nat → Prop} {tot : Store} {dom dom' : Theta → Prop} {f : TFunc ℝ} {val : Val}
    (h : Computes pr N K tot dom f val) (hd : ∀ θ, dom' θ → dom θ) : Computes pr N K tot dom' f val := by
  obtain ⟨⟨der, hess, h1, h2⟩, h3, h4⟩ := h
  exact ⟨⟨der, hess, ⟨fun θ hθ => h1.hd θ (hd θ hθ), fun θ hθ => h1.hh θ (hd θ hθ)⟩, fun θ hθ => h2 θ (hd θ hθ)⟩, h3, h4⟩

/-- One parameter, one feature with `s` values and one outcome with `size` values. -/
def counts (s size : Nat) : Problem := ⟨1, 1, fun k => if k = 0 then s else size, fun _ => 1, fun _ _ => s⟩

/-- The table of the observed frequencies. -/
def countData (s size : Nat) (w : Nat → Nat → ℝ) : Num ℝ := .tensor ⟨⟨2, (counts s size).S, fun i => w (i 0) (i 1)⟩, 0, 0, 1, [], []⟩

theorem count_isData (s size : Nat) (w : Nat → Nat → ℝ) : (counts s size).IsData (countData s size w) :=
  ⟨_, rfl, ⟨Tensor.wf_nomap (show 0 + 0 + 1 ≤ 2 by omega), ⟨List.nodup_nil, List.nodup_nil⟩, Or.inl rfl, Or.inl rfl, rfl, Or.inr rfl,
    fun k _ => Or.inl (by show (counts s size).S (0 + 0 + k) = _; simp; rfl),
    fun k hk => absurd hk (Nat.not_lt_zero _), fun k hk => absurd hk (Nat.not_lt_zero _)⟩,
    ⟨rfl, fun k _ => by show (counts s size).S (0 + 0 + k) = _; simp; rfl⟩, rfl, rfl⟩

/-- **C64.** The likelihoods of a distribution apply to the model `Poisson(size)`, which returns the unnormalized weights `u ^ k / k!` of
the Poisson distribution truncated at `size`, for all positive parameters. -/
theorem C64_example_normalizedFinite {s size : Nat} (hs : s ≠ 0) (hz : size ≠ 0) (w : Nat → Nat → ℝ) :
    FitReturns (counts s size) (cOrder (counts s size) 1) (fun θ => ∀ i < s, 0 < θ 0 i)
      (fun θ => Like.NormalizedFinite.like ((counts s size).val (countData s size w))
        fun c => θ 0 (c.1 ⟨0, Nat.one_pos⟩) ^ (c.2 ⟨0, Nat.one_pos⟩ : Nat) / ((c.2 ⟨0, Nat.one_pos⟩ : Nat).factorial : ℝ))
      (modelLike (poissonT size) (NormalizedFiniteT.like (countData s size w)))
      (modelGrad (poissonT size) (NormalizedFiniteT.gradLike (countData s size w)))
      (modelHess (poissonT size) (NormalizedFiniteT.hessLike (countData s size w))) := by
  have hpr : (counts s size).Ok := ⟨by simp [counts], fun k _ => by simp only [counts]; split_ifs <;> assumption⟩
  have hC := C64_Poisson (pr := counts s size) (N := cOrder (counts s size) 1) (fun p _ => ⟨rfl, fun k hk => by
    have : k = 0 := by simpa [counts] using hk
    subst this; rfl⟩) rfl (size := size) rfl
  have hC2 : Computes (counts s size) (cOrder (counts s size) 1) (fun _ => True) (.leaf (counts s size)) (fun θ => ∀ i < s, 0 < θ 0 i) (poissonT size)
      fun θ n d => θ 0 (n 0) ^ d 0 / ((d 0).factorial : ℝ) := by
    refine (hC.congr fun θ n d _ => ?_).mono fun _ _ => trivial
    simp [cOrder, Problem.sizes, counts, ravel]
  refine C64_fit_normalizedFinite hpr (count_isData s size w) hC2 trivial fun θ hθ n d hnd => ?_
  have : n 0 < s := hnd.1 0 (by simp [counts])
  have := hθ _ this
  positivity

end Verif.Tens
