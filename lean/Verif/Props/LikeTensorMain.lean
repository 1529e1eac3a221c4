import Verif.Props.LikeTensorMore
import Verif.Spec.Derivatives

/-!
# C63, main statements: `grad_like` and `hess_like` return the derivatives of `like`
-/

set_option linter.unusedSectionVars false

namespace Verif.Tens
open Verif.Params (Err)
open NDArray

theorem isData_isModel {pr : Problem} {v : Num ℝ} (h : pr.IsData v) : pr.IsModel v := by
  obtain ⟨t, rfl, ht⟩ := h
  exact ⟨t, rfl, ht.piece, ht.hx, ht.hy⟩

theorem isData_outcomes {pr : Problem} {v : Num ℝ} (h : pr.IsData v) : OutcomesFull (pr.layout 0 0) v := by
  obtain ⟨t, rfl, ht⟩ := h
  exact Or.inr ⟨ht.full.1, fun k hk => ht.full.2 _ (by have h := hk; omega)⟩

/-- `Poisson` -/
theorem C63_poisson_derivatives {pr : Problem} (hpr : pr.Ok) {X N : Num ℝ} (hX : pr.IsData X) (hN : pr.IsData N)
    {m : Nat} {e : Nat → Nat → Nat → Nat} {f : Theta → Num ℝ} {der : Theta → Nat → Num ℝ}
    {hess : Theta → Nat → Nat → Num ℝ} (hf : ∀ θ, pr.IsModel (f θ))
    (hm : TensorModel pr e m f der hess) :
    ReturnsDerivatives pr e m (fun θ => PoissonT.like X N (f θ)) (fun θ => PoissonT.gradLike X N (f θ) (row m (der θ)))
      (fun θ => PoissonT.hessLike X N (f θ) (row m (der θ)) (triangle m (hess θ))) := by
  refine ⟨fun θ => Like.Poisson.like (pr.val X) (pr.val N) (pr.val (f θ)),
    fun θ p a => Like.Poisson.gradLike (pr.val X) (pr.val N) (pr.val (f θ)) (pr.derOf e (der θ)) p a,
    fun θ p q a b => Like.Poisson.hessLike (pr.val X) (pr.val N) (pr.val (f θ)) (pr.derOf e (der θ)) (pr.hessOf e
      (hess θ)) p q a b,
    fun θ => C63_poisson_like hpr hX hN (hf θ), fun θ => (C63_poisson_grad hpr hX hN (hf θ) (hm.isDer θ) e).imp fun _ h => ⟨h.1, fun p hp => (h.2 p hp).1⟩,
    fun θ => (C63_poisson_hess hpr hX hN (hf θ) (hm.isDer θ) (hm.isHess θ) e).imp fun _ h => ⟨h.1, fun p hp q hq => (h.2 p hp q hq).1⟩, fun θ p hp a ha => ?_,
    fun θ p hp q hq a b ha hb => ?_⟩
  · exact Like.C19_poisson _ _ (fun θ => pr.val (f θ)) (pr.derOf e (der θ)) θ p a (hm.hd θ p hp a ha)
  · exact Like.C20_poisson _ _ (fun θ => pr.val (f θ)) (fun θ => pr.derOf e (der θ)) (pr.hessOf e (hess θ)) θ p q a b
      (hm.hd θ q (lt_of_le_of_lt hq hp) b hb) (hm.hh θ p hp q hq a b ha hb)

/-- `ZeroInflatedPoisson` -/
theorem C63_zeroInflatedPoisson_derivatives {pr : Problem} (hpr : pr.Ok) (s : ℝ) (hs : 0 ≤ s) {X N Z : Num ℝ} (hX :
  pr.IsData X) (hN : pr.IsData N) (hZ : pr.IsData Z)
    {m : Nat} {e : Nat → Nat → Nat → Nat} {f : Theta → Num ℝ} {der : Theta → Nat → Num ℝ}
    {hess : Theta → Nat → Nat → Num ℝ} (hf : ∀ θ, pr.IsModel (f θ))
    (hm : TensorModel pr e m f der hess) :
    ReturnsDerivatives pr e m (fun θ => ZeroInflatedPoissonT.like s X N Z (f θ)) (fun θ =>
      ZeroInflatedPoissonT.gradLike s X N (f θ) (row m (der θ)))
      (fun θ => ZeroInflatedPoissonT.hessLike s X N (f θ) (row m (der θ)) (triangle m (hess θ))) := by
  refine ⟨fun θ => Like.ZeroInflatedPoisson.like s (pr.val X) (pr.val N) (pr.val Z) (pr.val (f θ)),
    fun θ p a => Like.ZeroInflatedPoisson.gradLike s (pr.val X) (pr.val N) (pr.val (f θ)) (pr.derOf e (der θ)) p a,
    fun θ p q a b => Like.ZeroInflatedPoisson.hessLike s (pr.val X) (pr.val N) (pr.val (f θ)) (pr.derOf e (der θ))
      (pr.hessOf e (hess θ)) p q a b,
    fun θ => C63_zeroInflatedPoisson_like hpr s hX hN hZ (hf θ), fun θ => (C63_zeroInflatedPoisson_grad hpr s hs hX hN
      (hf θ) (hm.isDer θ) e).imp fun _ h => ⟨h.1, fun p hp => (h.2 p hp).1⟩,
    fun θ => (C63_zeroInflatedPoisson_hess hpr s hs hX hN (hf θ) (hm.isDer θ) (hm.isHess θ) e).imp fun _ h => ⟨h.1, fun p hp q hq => (h.2 p hp q hq).1⟩, fun θ p hp a ha => ?_,
    fun θ p hp q hq a b ha hb => ?_⟩
  · exact Like.C19_zeroInflatedPoisson s hs _ _ _ (fun θ => pr.val (f θ)) (pr.derOf e (der θ)) θ p a (hm.hd θ p hp a ha)
  · exact Like.C20_zeroInflatedPoisson s hs _ _ (fun θ => pr.val (f θ)) (fun θ => pr.derOf e (der θ)) (pr.hessOf e
    (hess θ)) θ p q a b
      (hm.hd θ q (lt_of_le_of_lt hq hp) b hb) (hm.hh θ p hp q hq a b ha hb)

/-- `Logistic` -/
theorem C63_logistic_derivatives {pr : Problem} (hpr : pr.Ok) {X N : Num ℝ} (hX : pr.IsData X) (hN : pr.IsData N)
    {m : Nat} {e : Nat → Nat → Nat → Nat} {f : Theta → Num ℝ} {der : Theta → Nat → Num ℝ}
    {hess : Theta → Nat → Nat → Num ℝ} (hf : ∀ θ, pr.IsModel (f θ))
    (hm : TensorModel pr e m f der hess) :
    ReturnsDerivatives pr e m (fun θ => LogisticT.like X N (f θ)) (fun θ => LogisticT.gradLike X N (f θ) (row m (der
      θ)))
      (fun θ => LogisticT.hessLike X N (f θ) (row m (der θ)) (triangle m (hess θ))) := by
  refine ⟨fun θ => Like.Logistic.like (pr.val X) (pr.val N) (pr.val (f θ)),
    fun θ p a => Like.Logistic.gradLike (pr.val X) (pr.val N) (pr.val (f θ)) (pr.derOf e (der θ)) p a,
    fun θ p q a b => Like.Logistic.hessLike (pr.val X) (pr.val N) (pr.val (f θ)) (pr.derOf e (der θ)) (pr.hessOf e
      (hess θ)) p q a b,
    fun θ => C63_logistic_like hpr hX hN (hf θ), fun θ => (C63_logistic_grad hpr hX hN (hf θ) (hm.isDer θ) e).imp fun _ h => ⟨h.1, fun p hp => (h.2 p hp).1⟩,
    fun θ => (C63_logistic_hess hpr hX hN (hf θ) (hm.isDer θ) (hm.isHess θ) e).imp fun _ h => ⟨h.1, fun p hp q hq => (h.2 p hp q hq).1⟩, fun θ p hp a ha => ?_,
    fun θ p hp q hq a b ha hb => ?_⟩
  · exact Like.C19_logistic _ _ (fun θ => pr.val (f θ)) (pr.derOf e (der θ)) θ p a (hm.hd θ p hp a ha)
  · exact Like.C20_logistic _ _ (fun θ => pr.val (f θ)) (fun θ => pr.derOf e (der θ)) (pr.hessOf e (hess θ)) θ p q a b
      (hm.hd θ q (lt_of_le_of_lt hq hp) b hb) (hm.hh θ p hp q hq a b ha hb)

/-- `NegativeBinomial` -/
theorem C63_negativeBinomial_derivatives {pr : Problem} (hpr : pr.Ok) (r : ℝ) (hr : 0 < r) {X N : Num ℝ} (hX :
  pr.IsData X) (hN : pr.IsData N)
    {m : Nat} {e : Nat → Nat → Nat → Nat} {f : Theta → Num ℝ} {der : Theta → Nat → Num ℝ}
    {hess : Theta → Nat → Nat → Num ℝ} (hf : ∀ θ, pr.IsModel (f θ))
    (hm : TensorModel pr e m f der hess) :
    ReturnsDerivatives pr e m (fun θ => NegativeBinomialT.like r X N (f θ)) (fun θ => NegativeBinomialT.gradLike r X
      N (f θ) (row m (der θ)))
      (fun θ => NegativeBinomialT.hessLike r X N (f θ) (row m (der θ)) (triangle m (hess θ))) := by
  refine ⟨fun θ => Like.NegativeBinomial.like r (pr.val X) (pr.val N) (pr.val (f θ)),
    fun θ p a => Like.NegativeBinomial.gradLike r (pr.val X) (pr.val N) (pr.val (f θ)) (pr.derOf e (der θ)) p a,
    fun θ p q a b => Like.NegativeBinomial.hessLike r (pr.val X) (pr.val N) (pr.val (f θ)) (pr.derOf e (der θ))
      (pr.hessOf e (hess θ)) p q a b,
    fun θ => C63_negativeBinomial_like hpr r hX hN (hf θ), fun θ => (C63_negativeBinomial_grad hpr r hr hX hN (hf θ)
      (hm.isDer θ) e).imp fun _ h => ⟨h.1, fun p hp => (h.2 p hp).1⟩,
    fun θ => (C63_negativeBinomial_hess hpr r hr hX hN (hf θ) (hm.isDer θ) (hm.isHess θ) e).imp fun _ h => ⟨h.1, fun p hp q hq => (h.2 p hp q hq).1⟩, fun θ p hp a ha => ?_,
    fun θ p hp q hq a b ha hb => ?_⟩
  · exact Like.C19_negativeBinomial r hr _ _ (fun θ => pr.val (f θ)) (pr.derOf e (der θ)) θ p a (hm.hd θ p hp a ha)
  · exact Like.C20_negativeBinomial r hr _ _ (fun θ => pr.val (f θ)) (fun θ => pr.derOf e (der θ)) (pr.hessOf e (hess
    θ)) θ p q a b
      (hm.hd θ q (lt_of_le_of_lt hq hp) b hb) (hm.hh θ p hp q hq a b ha hb)

/-- `NormalizedFinite` -/
theorem C63_normalizedFinite_derivatives {pr : Problem} (hpr : pr.Ok) {N : Num ℝ} (hN : pr.IsData N)
    {m : Nat} {e : Nat → Nat → Nat → Nat} {f : Theta → Num ℝ} {der : Theta → Nat → Num ℝ}
    {hess : Theta → Nat → Nat → Num ℝ} (hf : ∀ θ, pr.IsModel (f θ)) (hpos : ∀ θ c, 0 < pr.val (f θ) c)
    (hm : TensorModel pr e m f der hess) :
    ReturnsDerivatives pr e m (fun θ => NormalizedFiniteT.like N (f θ)) (fun θ => NormalizedFiniteT.gradLike N (f θ)
      (row m (der θ)))
      (fun θ => NormalizedFiniteT.hessLike N (f θ) (row m (der θ)) (triangle m (hess θ))) := by
  refine ⟨fun θ => Like.NormalizedFinite.like (pr.val N) (pr.val (f θ)),
    fun θ p a => Like.NormalizedFinite.gradLike (pr.val N) (pr.val (f θ)) (pr.derOf e (der θ)) p a,
    fun θ p q a b => Like.NormalizedFinite.hessLike (pr.val N) (pr.val (f θ)) (pr.derOf e (der θ)) (pr.hessOf e (hess
      θ)) p q a b,
    fun θ => C63_normalizedFinite_like hpr hN (hf θ), fun θ => (C63_normalizedFinite_grad hpr hN (hf
      θ) (fun c => (hpos θ c).ne') (hm.isDer θ) e).imp fun _ h => ⟨h.1, fun p hp => (h.2 p hp).1⟩,
    fun θ => (C63_normalizedFinite_hess hpr hN (hf θ) (fun c => (hpos θ c).ne') (hm.isDer θ) (hm.isHess θ) e).imp fun _ h => ⟨h.1, fun p hp q hq => (h.2 p hp q hq).1⟩, fun θ p
      hp a ha => ?_,
    fun θ p hp q hq a b ha hb => ?_⟩
  · exact Like.C19_normalizedFinite _ (fun θ => pr.val (f θ)) (pr.derOf e (der θ)) θ p a (hpos θ) (hm.hd θ p hp a ha)
  · exact Like.C20_normalizedFinite _ (fun θ => pr.val (f θ)) (fun θ => pr.derOf e (der θ)) (pr.hessOf e (hess θ)) θ
      p q a b (hpos θ) (hm.hd θ q (lt_of_le_of_lt hq hp) b hb) (hm.hh θ p hp q hq a b ha hb)

/-- `Finite` -/
theorem C63_finite_derivatives_partial {pr : Problem} (hpr : pr.Ok) {N : Num ℝ} (hN : pr.IsData N)
    {m : Nat} {e : Nat → Nat → Nat → Nat} {f : Theta → Num ℝ} {der : Theta → Nat → Num ℝ}
    {hess : Theta → Nat → Nat → Num ℝ} (hf : ∀ θ, pr.IsModel (f θ)) (hfo : ∀ θ, OutcomesFull (pr.layout 0 0) (f θ)) (hpos : ∀ θ c, 0 < pr.val (f θ) c)
    (ho : ∀ θ, ∀ p < m, OutcomesFull (pr.layout p p) (der θ p))
    (hho : ∀ θ, ∀ p < m, ∀ q ≤ p, OutcomesFull (pr.layout p q) (hess θ p q))
    (hm : TensorModel pr e m f der hess) :
    ReturnsDerivatives pr e m (fun θ => FiniteT.like N (f θ)) (fun θ => FiniteT.gradLike N (f θ) (row m (der θ)))
      (fun θ => FiniteT.hessLike N (f θ) (row m (der θ)) (triangle m (hess θ))) := by
  refine ⟨fun θ => Like.Finite.like (pr.val N) (pr.val (f θ)),
    fun θ p a => Like.Finite.gradLike (pr.val N) (pr.val (f θ)) (pr.derOf e (der θ)) p a,
    fun θ p q a b => Like.Finite.hessLike (pr.val N) (pr.val (f θ)) (pr.derOf e (der θ)) (pr.hessOf e (hess θ)) p q a b,
    fun θ => C63_finite_like hpr hN (hf θ) (hfo θ), fun θ => (C63_finite_grad hpr hN (hf θ) (hfo θ) (hpos θ) (hm.isDer θ) (ho θ) e).imp fun _ h => ⟨h.1, fun p hp => (h.2 p hp).1⟩,
    fun θ => (C63_finite_hess hpr hN (hf θ) (hfo θ) (hpos θ) (hm.isDer θ) (ho θ) (hm.isHess θ) (hho θ) e).imp fun _ h => ⟨h.1, fun p hp q hq => (h.2 p hp q hq).1⟩, fun θ p hp a ha => ?_,
    fun θ p hp q hq a b ha hb => ?_⟩
  · exact Like.C19_finite _ (fun θ => pr.val (f θ)) (pr.derOf e (der θ)) θ p a (hpos θ) (hm.hd θ p hp a ha)
  · exact Like.C20_finite _ (fun θ => pr.val (f θ)) (fun θ => pr.derOf e (der θ)) (pr.hessOf e (hess θ)) θ p q a b
      (hpos θ) (hm.hd θ q (lt_of_le_of_lt hq hp) b hb) (hm.hh θ p hp q hq a b ha hb)

/-! ### the hypotheses are met -/

/-- One feature with two values; one parameter with an entry for each of them. -/
def exProblem : Problem := ⟨1, 0, fun _ => 2, fun _ => 1, fun _ _ => 2⟩

/-- Entry `a` is at position `a`. -/
def exEntry : Nat → Nat → Nat → Nat := fun _ a k => if k = 0 then a else 0

/-- The model `y[i] = θ[i]`. -/
def exModel (θ : Theta) : Num ℝ := .tensor ⟨⟨1, fun _ => 2, fun i => θ 0 (i 0)⟩, 0, 0, 0, [], []⟩

/-- Its derivative: ones on the diagonal. -/
def exDer (_ : Theta) (_ : Nat) : Num ℝ := .tensor ⟨⟨2, fun k => if k = 0 then 1 else 2, fun _ => 1⟩, 1, 0, 0, [0], []⟩

/-- Its second derivative: `Tensor(0)`. -/
noncomputable def exHess (_ : Theta) (_ _ : Nat) : Num ℝ := .tensor (Tensor.const 0)

theorem exProblem_ok : exProblem.Ok := ⟨Nat.one_pos, fun _ _ => two_ne_zero⟩

theorem exData (F : (Nat → Nat) → ℝ) : exProblem.IsData (.tensor ⟨⟨1, fun _ => 2, F⟩, 0, 0, 0, [], []⟩) :=
  ⟨_, rfl, ⟨Tensor.wf_nomap (Nat.zero_le _), ⟨List.nodup_nil, List.nodup_nil⟩, Or.inl rfl, Or.inl rfl, rfl, Or.inl rfl,
    fun k _ => Or.inl rfl,
    fun k hk => absurd hk (Nat.not_lt_zero _), fun k hk => absurd hk (Nat.not_lt_zero _)⟩,
    ⟨rfl, fun k _ => rfl⟩, rfl, rfl⟩

theorem exModel_val (θ : Theta) (c : exProblem.Cell) : exProblem.val (exModel θ) c = θ 0 (c.1 ⟨0, Nat.one_pos⟩) := by
  unfold Problem.val exModel
  show (Tensor.dense _ _ : ℝ) = _
  unfold Tensor.dense
  rw [if_pos (And.intro (agrees_nil _ _) (agrees_nil _ _))]
  rfl

theorem exDer_val (θ : Theta) (p a : Nat) (c : exProblem.Cell) :
    (exDer θ p).dense (exProblem.at (exEntry p a) (fun _ => 0) c) =
      if a = (c.1 ⟨0, Nat.one_pos⟩ : Nat) then 1 else 0 := by
  show (if Agrees [0] _ _ ∧ Agrees [] _ _ then _ else (0 : ℝ)) = _
  refine if_congr ⟨fun h => ?_, fun h => ⟨fun k hk h0 => ?_, agrees_nil _ _⟩⟩ rfl rfl
  · exact h.1 0 (by decide) (by decide)
  · have hk : k < 1 := hk
    obtain rfl : k = 0 := by omega
    exact h

theorem hasPartial_entry (θ : Theta) (p a j : Nat) :
    HasPartial (fun θ => θ p j) θ p a (if a = j then 1 else 0) := by
  unfold HasPartial Theta.set
  by_cases h : a = j
  · subst h
    rw [if_pos rfl]
    refine (hasDerivAt_id' (θ p a)).congr_of_eventuallyEq (Filter.Eventually.of_forall fun t => ?_)
    exact if_pos ⟨rfl, rfl⟩
  · rw [if_neg h]
    refine (hasDerivAt_const (θ p a) (θ p j)).congr_of_eventuallyEq (Filter.Eventually.of_forall fun t => ?_)
    exact if_neg fun h' => h h'.2.symm

theorem exTensorModel : TensorModel exProblem exEntry 1 exModel exDer exHess := by
  refine ⟨fun θ p hp => Or.inl ?_, fun θ p hp q hq => Or.inr ?_, fun θ p hp a ha c => ?_, fun θ p hp q hq a b ha hb c => ?_⟩
  · refine ⟨⟨by decide, by decide, by decide, by decide, by decide, by decide, by decide⟩, by decide, Or.inr rfl, Or.inl rfl,
      rfl, Or.inl rfl, fun k hk => Or.inl ?_, fun k hk => ?_, fun k hk => absurd hk (Nat.not_lt_zero _)⟩
    · show (if 1 + 0 + k = 0 then 1 else 2) = 2
      rw [if_neg (by omega)]
    · have hk : k < 1 := hk
      obtain rfl : k = 0 := by omega
      exact ⟨fun _ => rfl, fun h => absurd h (by decide)⟩
  · exact ⟨Tensor.wf_nomap (by simp), rfl, rfl⟩
  · obtain rfl : p = 0 := by omega
    rw [exDer_val]
    simp only [exModel_val]
    exact hasPartial_entry _ _ _ _
  · simp only [exDer_val]
    refine (hasDerivAt_const _ _).congr_deriv ?_
    exact (const_dense (0 : ℝ) _).symm

/-- The theorems apply: with two observations for each feature, for example. -/
example : ReturnsDerivatives exProblem exEntry 1
    (fun θ => PoissonT.like (.tensor ⟨⟨1, fun _ => 2, fun _ => 3⟩, 0, 0, 0, [], []⟩)
      (.tensor ⟨⟨1, fun _ => 2, fun _ => 2⟩, 0, 0, 0, [], []⟩) (exModel θ))
    (fun θ => PoissonT.gradLike (.tensor ⟨⟨1, fun _ => 2, fun _ => 3⟩, 0, 0, 0, [], []⟩)
      (.tensor ⟨⟨1, fun _ => 2, fun _ => 2⟩, 0, 0, 0, [], []⟩) (exModel θ) (row 1 (exDer θ)))
    (fun θ => PoissonT.hessLike (.tensor ⟨⟨1, fun _ => 2, fun _ => 3⟩, 0, 0, 0, [], []⟩)
      (.tensor ⟨⟨1, fun _ => 2, fun _ => 2⟩, 0, 0, 0, [], []⟩) (exModel θ) (row 1 (exDer θ)) (triangle 1 (exHess θ))) :=
  C63_poisson_derivatives exProblem_ok (exData _) (exData _) (fun _ => isData_isModel (exData _)) exTensorModel

/-- One feature with one value and two outcomes; one parameter with `P` entries. -/
def exOutcomes (P : Nat) : Problem := ⟨1, 1, fun k => if k = 0 then 1 else 2, fun _ => 1, fun _ _ => P⟩

/-- The same, with an entry for each outcome. -/
abbrev exFinite : Problem := exOutcomes 2

/-- The model `y[0, u] = exp(θ[u])`. -/
noncomputable def exFiniteModel (θ : Theta) : Num ℝ :=
  .tensor ⟨⟨2, fun k => if k = 0 then 1 else 2, fun i => Real.exp (θ 0 (i 1))⟩, 0, 0, 1, [], []⟩

/-- Its derivatives. -/
noncomputable def exFiniteDer (θ : Theta) (_ : Nat) : Num ℝ :=
  .tensor ⟨⟨3, fun k => if k = 1 then 1 else 2, fun i => if i 0 = i 2 then Real.exp (θ 0 (i 2)) else 0⟩, 1, 0, 1, [], []⟩

/-- Its second derivatives. -/
noncomputable def exFiniteHess (θ : Theta) (_ _ : Nat) : Num ℝ :=
  .tensor ⟨⟨4, fun k => if k = 2 then 1 else 2, fun i => if i 0 = i 3 ∧ i 1 = i 3 then Real.exp (θ 0 (i 3)) else 0⟩,
    1, 1, 1, [], []⟩

theorem exFinite_ok (P : Nat) : (exOutcomes P).Ok := by
  refine ⟨Nat.one_pos, fun k _ => ?_⟩
  show (if k = 0 then 1 else 2) ≠ 0
  split_ifs <;> omega

theorem exFinite_data (P : Nat) (F : (Nat → Nat) → ℝ) :
    (exOutcomes P).IsData (.tensor ⟨⟨2, fun k => if k = 0 then 1 else 2, F⟩, 0, 0, 1, [], []⟩) :=
  ⟨_, rfl, ⟨Tensor.wf_nomap (show 0 + 0 + 1 ≤ 2 by decide), ⟨List.nodup_nil, List.nodup_nil⟩, Or.inl rfl, Or.inl rfl, rfl,
    Or.inr rfl, fun k _ => Or.inl (by show (if 0 + 0 + k = 0 then 1 else 2) = if k = 0 then 1 else 2; simp),
    fun k hk => absurd hk (Nat.not_lt_zero _), fun k hk => absurd hk (Nat.not_lt_zero _)⟩,
    ⟨rfl, fun k _ => by show (if 0 + 0 + k = 0 then 1 else 2) = if k = 0 then 1 else 2; simp⟩, rfl, rfl⟩

theorem exFinite_val (θ : Theta) (c : exFinite.Cell) :
    exFinite.val (exFiniteModel θ) c = Real.exp (θ 0 (c.2 ⟨0, Nat.one_pos⟩)) := by
  unfold Problem.val exFiniteModel
  show (Tensor.dense _ _ : ℝ) = _
  unfold Tensor.dense
  rw [if_pos (And.intro (agrees_nil _ _) (agrees_nil _ _))]
  rfl

theorem exFinite_der (θ : Theta) (p a : Nat) (c : exFinite.Cell) :
    (exFiniteDer θ p).dense (exFinite.at (exEntry p a) (fun _ => 0) c) =
      if a = (c.2 ⟨0, Nat.one_pos⟩ : Nat) then Real.exp (θ 0 (c.2 ⟨0, Nat.one_pos⟩)) else 0 := by
  show (Tensor.dense _ _ : ℝ) = _
  unfold Tensor.dense
  rw [if_pos (And.intro (agrees_nil _ _) (agrees_nil _ _))]
  rfl

theorem exFinite_hess (θ : Theta) (p q a b : Nat) (c : exFinite.Cell) :
    (exFiniteHess θ p q).dense (exFinite.at (exEntry p a) (exEntry q b) c) =
      if a = (c.2 ⟨0, Nat.one_pos⟩ : Nat) ∧ b = (c.2 ⟨0, Nat.one_pos⟩ : Nat)
        then Real.exp (θ 0 (c.2 ⟨0, Nat.one_pos⟩)) else 0 := by
  show (Tensor.dense _ _ : ℝ) = _
  unfold Tensor.dense
  rw [if_pos (And.intro (agrees_nil _ _) (agrees_nil _ _))]
  rfl

theorem exFinite_model : TensorModel exFinite exEntry 1 exFiniteModel exFiniteDer exFiniteHess := by
  refine ⟨fun θ p hp => Or.inl ?_, fun θ p hp q hq => Or.inl ?_, fun θ p hp a ha c => ?_, fun θ p hp q hq a b ha hb c => ?_⟩
  · refine ⟨Tensor.wf_nomap (show 1 + 0 + 1 ≤ 3 by decide), ⟨List.nodup_nil, List.nodup_nil⟩, Or.inr rfl, Or.inl rfl,
      rfl, Or.inr rfl, fun k hk => Or.inl ?_, fun k hk => ?_, fun k hk => absurd hk (Nat.not_lt_zero _)⟩
    · show (if 1 + 0 + k = 1 then 1 else 2) = if k = 0 then 1 else 2
      simp
    · have hk : k < 1 := hk
      obtain rfl : k = 0 := by omega
      exact ⟨fun h => absurd h (by simp), fun _ => rfl⟩
  · refine ⟨Tensor.wf_nomap (show 1 + 1 + 1 ≤ 4 by decide), ⟨List.nodup_nil, List.nodup_nil⟩, Or.inr rfl, Or.inr rfl,
      rfl, Or.inr rfl, fun k hk => Or.inl ?_, fun k hk => ?_, fun k hk => ?_⟩
    · show (if 1 + 1 + k = 2 then 1 else 2) = if k = 0 then 1 else 2
      simp
    · have hk : k < 1 := hk
      obtain rfl : k = 0 := by omega
      exact ⟨fun h => absurd h (by simp), fun _ => rfl⟩
    · have hk : k < 1 := hk
      obtain rfl : k = 0 := by omega
      exact ⟨fun h => absurd h (by simp), fun _ => rfl⟩
  · obtain rfl : p = 0 := by omega
    rw [exFinite_der]
    simp only [exFinite_val]
    refine (HasDerivAt.exp (hasPartial_entry θ 0 a _)).congr_deriv ?_
    rw [Theta.set_self]
    split_ifs <;> simp
  · obtain rfl : p = 0 := by omega
    obtain rfl : q = 0 := by omega
    rw [exFinite_hess]
    simp only [exFinite_der]
    by_cases h : a = (c.2 ⟨0, Nat.one_pos⟩ : Nat)
    · simp only [h, true_and, if_true]
      refine (HasDerivAt.exp (hasPartial_entry θ 0 b _)).congr_deriv ?_
      rw [Theta.set_self]
      split_ifs <;> simp
    · simp only [h, false_and, if_false]
      exact hasDerivAt_const _ _

example : ReturnsDerivatives exFinite exEntry 1
    (fun θ => FiniteT.like (.tensor ⟨⟨2, fun k => if k = 0 then 1 else 2, fun i => i 1⟩, 0, 0, 1, [], []⟩)
      (exFiniteModel θ))
    (fun θ => FiniteT.gradLike (.tensor ⟨⟨2, fun k => if k = 0 then 1 else 2, fun i => i 1⟩, 0, 0, 1, [], []⟩)
      (exFiniteModel θ) (row 1 (exFiniteDer θ)))
    (fun θ => FiniteT.hessLike (.tensor ⟨⟨2, fun k => if k = 0 then 1 else 2, fun i => i 1⟩, 0, 0, 1, [], []⟩)
      (exFiniteModel θ) (row 1 (exFiniteDer θ)) (triangle 1 (exFiniteHess θ))) := by
  refine C63_finite_derivatives_partial (exFinite_ok _) (exFinite_data _ _) (fun _ => isData_isModel (exFinite_data _ _)) (fun _ => isData_outcomes (exFinite_data _ _)) (fun θ c => ?_)
    (fun θ p hp => Or.inr ⟨rfl, fun k hk => ?_⟩) (fun θ p hp q hq => Or.inr ⟨rfl, fun k hk => ?_⟩) exFinite_model
  · rw [exFinite_val]; exact Real.exp_pos _
  · show (if 1 + 0 + (1 + k) = 1 then 1 else 2) = if 1 + k = 0 then 1 else 2
    rw [if_neg (by omega), if_neg (by omega)]
  · show (if 1 + 1 + (1 + k) = 2 then 1 else 2) = if 1 + k = 0 then 1 else 2
    rw [if_neg (by omega), if_neg (by omega)]

/-- The derivative of the example below: 1 for both outcomes, stored once. -/
def exBroadcastDer : Tensor ℝ := ⟨⟨3, fun _ => 1, fun _ => 1⟩, 1, 0, 1, [], []⟩

/-- Ones, for both outcomes. -/
def exOnes : Tensor ℝ := ⟨⟨2, fun k => if k = 0 then 1 else 2, fun _ => 1⟩, 0, 0, 1, [], []⟩

theorem nomap_dense {t : Tensor ℝ} (hx : t.xMap = []) (hy : t.yMap = []) {v : ℝ} (hv : ∀ i, t.values.raw i = v) (i : Idx) :
    t.dense i = v := by
  unfold Tensor.dense
  rw [hx, hy, if_pos (And.intro (agrees_nil _ _) (agrees_nil _ _))]
  exact hv _

/-- Without `OutcomesFull` the claim fails: a derivative that is the same for all outcomes, stored with outcome
axes of size 1, is summed once instead of once per outcome.  (Two outcomes with the value 1, one observation of each,
derivative 1 everywhere: the derivative of the likelihood is 0, `grad_like` returns 1.) -/
theorem C63_finite_grad_broadcast :
    ∃ (pr : Problem) (N y d G : Num ℝ), pr.Ok ∧ pr.IsData N ∧ pr.IsData y ∧ (∀ c, pr.val N c = 1) ∧
      (∀ c, pr.val y c = 1) ∧ pr.IsDer 0 d ∧
      (∀ c, d.dense (pr.at (fun _ => 0) (fun _ => 0) c) = 1) ∧ FiniteT.gradLike N y [d] = .ok [G] ∧
      G.dense ⟨fun _ => 0, fun _ => 0, fun _ => 0, fun _ => 0⟩ = 1 ∧
      Like.Finite.gradLike (pr.val N) (pr.val y) (pr.derOf exEntry fun _ => d) 0 0 = 0 := by
  have hpr := exFinite_ok 1
  have hN : (exOutcomes 1).IsData (.tensor exOnes) := exFinite_data _ _
  have d1 : ∀ i, exOnes.dense i = 1 := nomap_dense rfl rfl fun _ => rfl
  have d2 : ∀ i, exBroadcastDer.dense i = 1 := nomap_dense rfl rfl fun _ => rfl
  have v1 : ∀ c, (exOutcomes 1).val (.tensor exOnes) c = 1 := fun c => d1 _
  have hd : Piece ((exOutcomes 1).layout 0 0).noY exBroadcastDer :=
    ⟨Tensor.wf_nomap (show 1 + 0 + 1 ≤ 3 by decide), ⟨List.nodup_nil, List.nodup_nil⟩, Or.inr rfl, Or.inl rfl,
      rfl, Or.inr rfl, fun k hk => Or.inr rfl, fun k hk => ⟨fun h => absurd h (by
        have hk : k < 1 := hk
        obtain rfl : k = 0 := by omega
        decide), fun _ => rfl⟩, fun k hk => absurd hk (Nat.not_lt_zero _)⟩
  have hcard : Fintype.card (exOutcomes 1).Cell = 2 := by decide
  have hcd : Fintype.card (∀ k : Fin (exOutcomes 1).d, Fin ((exOutcomes 1).S ((exOutcomes 1).n + k))) = 2 := by decide
  obtain ⟨ty, e, vy⟩ := data_vfull hN
  cases e
  obtain ⟨z, z1, z2, z3, z4, z5⟩ := finite_total hpr vy.full.1 vy.hx vy.hy (isData_outcomes hN)
  have hs : ∀ k, Like.Finite.sumDim ((exOutcomes 1).val (.tensor exOnes)) k = 2 := by
    intro k
    unfold Like.Finite.sumDim
    rw [Finset.sum_congr rfl fun u _ => v1 (k, u), Finset.sum_const, Finset.card_univ, hcd]
    norm_num
  have hL := hpr.layoutY 0 0
  have hzp : Piece ((exOutcomes 1).layout 0 0).noY z := z2.change rfl rfl rfl (Or.inl z3) (Or.inl z4)
  obtain ⟨dz, t1, t2, t3, t4, t5, t6, t7, t8, t9, t10⟩ := C55_sum_dim hd.wf
  have tp : Piece ((exOutcomes 1).layout 0 0).noY dz := hd.sumDim t2 t3 t4 t5 t6 t7 t8 t9
  have td : ∀ i, dz.dense i = 1 := fun i => by
    rw [t10]
    unfold Tensor.sumDense
    simp only [d2, if_true]
    show ∑ i ∈ Finset.range 1, (1:ℝ) = 1
    simp
  obtain ⟨a, a1, a2, -, -, a3, a4⟩ := num_div hL (v := .tensor exBroadcastDer) (Or.inl hd) (vy.pieceY 0 0).1 vy.hx vy.hy
  obtain ⟨b, b1, b2, -, -, b3, b4⟩ := num_div hL (v := .tensor dz) (Or.inl tp) hzp z3 z4
  obtain ⟨c, c1, c2, -, -, c3, c4⟩ := num_add hL a2 b2 (op := .sub) (by simp)
  obtain ⟨w, w1, w2, -, -, -, w3, w4⟩ := num_mul hL (v := .tensor exOnes) (Or.inl (vy.pieceY 0 0).1) c2
    (Or.inl vy.hx) (Or.inl vy.hy)
  obtain ⟨r, r1, ⟨t, rfl, -, -, -, -, -, -, r2⟩, -⟩ := sum_grad hpr exEntry w2 (w3 _ rfl (vy.pieceY 0 0) fun t ht =>
    num_add_piece hL (numFull_piece (a3 (vy.pieceY 0 0))) b2 (by simp) c1 ht)
  refine ⟨exOutcomes 1, .tensor exOnes, .tensor exOnes, .tensor exBroadcastDer, .tensor t, hpr, hN, hN, v1, v1, Or.inl hd,
    fun c => d2 _, ?_, ?_, ?_⟩
  · unfold FiniteT.gradLike
    rw [z1, ok_bind]
    have : ∀ f : Num ℝ → Except Err (Num ℝ), f (.tensor exBroadcastDer) = .ok (.tensor t) →
        [Num.tensor exBroadcastDer].mapM f = .ok [.tensor t] := fun f hf => by
      rw [List.mapM_cons, hf]; rfl
    refine this _ ?_
    rw [show (Num.tensor exBroadcastDer).sumOutcomes = .ok (.tensor dz) by
      unfold Num.sumOutcomes Num.sum; dsimp only; rw [t1], ok_bind, a1, ok_bind, b1, ok_bind, c1, ok_bind, w1, ok_bind, r1]
  · show t.dense _ = 1
    have h0 : exEntry 0 0 = fun _ => 0 := by funext k; exact ite_self 0
    rw [r2 0 _ h0.symm ⟨fun k _ => by rw [h0]; exact Nat.one_pos, fun k _ => by rw [h0]⟩]
    have hw : ∀ k, w.dense ((exOutcomes 1).at (exEntry 0 0) (fun _ => 0) k) = 1 / 2 := by
      intro k
      have hz0 : z.dense ((exOutcomes 1).at (exEntry 0 0) (fun _ => 0) k) = 2 := by rw [z5, hs]
      rw [w4, c4, a4 _ (by rw [d1]; exact one_ne_zero), b4 _ (by rw [hz0]; exact two_ne_zero), hz0]
      show exOnes.dense _ * (exBroadcastDer.dense _ / exOnes.dense _ - dz.dense _ / 2) = _
      rw [d1, d2, td]; norm_num
    dsimp only
    rw [Finset.sum_congr rfl fun k _ => hw k, Finset.sum_const, Finset.card_univ, hcard]
    norm_num
  · unfold Like.Finite.gradLike
    refine Finset.sum_eq_zero fun k _ => ?_
    rw [hs]
    have : ∀ k, (exOutcomes 1).derOf exEntry (fun _ => .tensor exBroadcastDer) 0 0 k = 1 := fun k => d2 _
    have hs' : Like.Finite.sumDim ((exOutcomes 1).derOf exEntry (fun _ => .tensor exBroadcastDer) 0 0) k.1 = 2 := by
      unfold Like.Finite.sumDim
      rw [Finset.sum_congr rfl fun u _ => this (k.1, u), Finset.sum_const, Finset.card_univ, hcd]
      norm_num
    rw [hs', this, v1]
    norm_num

/-- Ones, for both outcomes, stored once. -/
def exBroadcastOnes : Tensor ℝ := ⟨⟨2, fun _ => 1, fun _ => 1⟩, 0, 0, 1, [], []⟩

/-- Without `OutcomesFull` for the model the claim fails as well: a model with the same value for both outcomes, stored with an outcome axis of size 1, is normalised by
one instead of two values.  (Two outcomes with the value 1, one observation of each: the log-likelihood is `-2 log 2`, `like` returns 0.) -/
theorem C63_finite_like_broadcast :
    ∃ (pr : Problem) (N y v : Num ℝ), pr.Ok ∧ pr.IsData N ∧ pr.IsModel y ∧ (∀ c, pr.val N c = 1) ∧ (∀ c, pr.val y c = 1) ∧
      FiniteT.like N y = .ok v ∧ IsNumber v 0 ∧ Like.Finite.like (pr.val N) (pr.val y) = -(2 * Real.log 2) := by
  have hpr := exFinite_ok 1
  have hN : (exOutcomes 1).IsData (.tensor exOnes) := exFinite_data _ _
  have d1 : ∀ i, exOnes.dense i = 1 := nomap_dense rfl rfl fun _ => rfl
  have d2 : ∀ i, exBroadcastOnes.dense i = 1 := nomap_dense rfl rfl fun _ => rfl
  have v1 : ∀ c, (exOutcomes 1).val (.tensor exOnes) c = 1 := fun c => d1 _
  have v2 : ∀ c, (exOutcomes 1).val (.tensor exBroadcastOnes) c = 1 := fun c => d2 _
  have hd : Piece ((exOutcomes 1).layout 0 0) exBroadcastOnes :=
    ⟨Tensor.wf_nomap (show 0 + 0 + 1 ≤ 2 by decide), ⟨List.nodup_nil, List.nodup_nil⟩, Or.inl rfl, Or.inl rfl,
      rfl, Or.inr rfl, fun k hk => Or.inr rfl, fun k hk => absurd hk (Nat.not_lt_zero _), fun k hk => absurd hk (Nat.not_lt_zero _)⟩
  have hcard : Fintype.card (exOutcomes 1).Cell = 2 := by decide
  have hcd : Fintype.card (∀ k : Fin (exOutcomes 1).d, Fin ((exOutcomes 1).S ((exOutcomes 1).n + k))) = 2 := by decide
  obtain ⟨tn, e, vN⟩ := data_vfull hN
  cases e
  have hL := hpr.layout 0 0
  obtain ⟨z, t1, t2, t3, t4, t5, t6, t7, t8, t9, t10⟩ := C55_sum_dim hd.wf
  have tp : Piece ((exOutcomes 1).layout 0 0) z := hd.sumDim t2 t3 t4 t5 t6 t7 t8 t9
  have td : ∀ i, z.dense i = 1 := fun i => by
    rw [t10]
    unfold Tensor.sumDense
    simp only [d2, if_true]
    show ∑ i ∈ Finset.range 1, (1:ℝ) = 1
    simp
  obtain ⟨a, a1, a2, a3, a4, a5⟩ := val_ufunc (L := (exOutcomes 1).layout 0 0) (t := exBroadcastOnes) ⟨hd.wf, rfl, rfl, Or.inl hd⟩ Real.log
  obtain ⟨b, b1, b2, b3, b4, b5⟩ := val_ufunc (L := (exOutcomes 1).layout 0 0) (t := z) ⟨tp.wf, t3, t4, Or.inl tp⟩ Real.log
  obtain ⟨c, c1, c2, c3, c4, c5, c6, c7⟩ := val_op hL a2 b2 (op := .sub) (by simp) (by simp)
  obtain ⟨s, s1, s2, s3, s4, s5, s6, s7⟩ := val_op hL vN.isVal c2 (op := .mul) (by simp) (by simp)
  obtain ⟨r, r1, r2⟩ := sum_number hpr (s2.vfull (s6 vN.full (Or.inl (c3 (b3 tp)))))
  have hs : ∀ i, s.dense i = 0 := fun i => by
    rw [s7 _ (by simp), c7 _ (by simp), a5, b5, d2, td]
    simp [Op.app]
  refine ⟨exOutcomes 1, .tensor exOnes, .tensor exBroadcastOnes, r, hpr, hN, ⟨_, rfl, hd, rfl, rfl⟩, v1, v2, ?_,
    isNumber_congr r2 (Finset.sum_eq_zero fun k _ => hs _).symm, ?_⟩
  · unfold FiniteT.like
    rw [show (Num.tensor exBroadcastOnes).sumOutcomes = .ok (.tensor z) by
      unfold Num.sumOutcomes Num.sum; dsimp only; rw [t1], ok_bind, a1, ok_bind, b1, ok_bind, c1, ok_bind, s1, ok_bind, r1]
  · have hk : ∀ k, Like.Finite.sumDim ((exOutcomes 1).val (.tensor exBroadcastOnes)) k = 2 := by
      intro k
      unfold Like.Finite.sumDim
      rw [Finset.sum_congr rfl fun u _ => v2 (k, u), Finset.sum_const, Finset.card_univ, hcd]
      norm_num
    unfold Like.Finite.like
    simp only [v1, v2, hk]
    rw [Finset.sum_const, Finset.card_univ, hcard]
    norm_num

end Verif.Tens
