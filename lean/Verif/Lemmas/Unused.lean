import Verif.Props.FitTensor
import Verif.Props.FlatTensor

/-!
# Lemmas: arrays without parameter axes

Arithmetic on Tensors without parameter axes returns Tensors without parameter axes.  If the derivative with respect to a parameter is
`Tensor(0)`, this holds for every step of `grad_like`.
-/

namespace Verif.Tens
open Verif.Params (Err Param)
open NDArray

set_option linter.unusedSectionVars false

section
variable {α : Type} [Field α] [DecidableEq α]

/-- A Tensor without parameter axes. -/
def Num.Bare (v : Num α) : Prop := ∃ t, v = .tensor t ∧ t.xDim = 0 ∧ t.yDim = 0 ∧ t.xMap = [] ∧ t.yMap = []

theorem mkTensor_bare {v : NDArray α} {d : Nat} {r : Tensor α} (h : mkTensor v 0 0 d [] [] = .ok r) : Num.Bare (.tensor r) := by
  unfold mkTensor at h
  split at h
  · cases h
  · cases h
    exact ⟨_, rfl, rfl, rfl, rfl, rfl⟩

theorem binScalar_bare {t r : Tensor α} {c : α} {op : Op} (h : t.binScalar c op = .ok r) (ht : Num.Bare (.tensor t)) : Num.Bare (.tensor r) := by
  obtain ⟨t', e, h1, h2, h3, h4⟩ := ht
  cases e
  unfold Tensor.binScalar at h
  repeat' split at h
  all_goals first | cases h | skip
  all_goals first
    | exact ⟨_, rfl, h1, h2, h3, h4⟩
    | exact ⟨_, rfl, rfl, rfl, rfl, rfl⟩
    | exact ⟨_, rfl, h1, h2, rfl, rfl⟩

theorem binTensor_bare {t o : Tensor α} {op : Op} {r : Num α} (h : t.binTensor o op = .ok r) (ht : Num.Bare (.tensor t)) (ho : Num.Bare (.tensor o)) : r.Bare := by
  unfold Tensor.binTensor at h
  split at h
  · split at h
    · cases h
    · cases h
      rename_i e
      exact binScalar_bare e ht
  obtain ⟨t', e, h1, h2, h3, h4⟩ := ht
  cases e
  obtain ⟨o', e, g1, g2, g3, g4⟩ := ho
  cases e
  split at h
  · rw [g1, g2, g3, g4] at h
    split at h
    · cases h
    · split at h
      · cases h
      · cases h
        rename_i e
        exact mkTensor_bare e
  split at h
  · cases h
  simp only [Tensor.mulX, Tensor.mulY, h1, h2, h3, h4, g1, g2, g3, g4, Nat.max_self, and_self, if_true, ne_eq, not_true_eq_false, if_false] at h
  split at h
  · split at h
    · cases h
    · split at h
      · cases h
      · cases h
        rename_i e
        exact mkTensor_bare e
  · split at h
    · cases h
    · split at h
      · cases h
      · cases h
        rename_i e
        exact mkTensor_bare e

theorem bare_bin {a b r : Num α} {op : Op} (h : a.bin b op = .ok r) (ha : a.Bare) (hb : b.Bare) : r.Bare := by
  obtain ⟨t, rfl, h1⟩ := ha
  obtain ⟨o, rfl, h2⟩ := hb
  exact binTensor_bare (t := t) (o := o) h ⟨_, rfl, h1⟩ ⟨_, rfl, h2⟩

theorem bare_scalarOp {a r : Num α} {c : α} {op : Op} (h : a.scalarOp op c = .ok r) (ha : a.Bare) : r.Bare := by
  obtain ⟨t, rfl, h1⟩ := ha
  unfold Num.scalarOp at h
  dsimp only at h
  split at h
  · cases h
  · cases h
    rename_i e
    exact binScalar_bare e ⟨_, rfl, h1⟩

theorem bare_ufunc {a r : Num α} {f : α → α} (h : a.ufunc f = .ok r) : r.Bare := by
  unfold Num.ufunc at h
  split at h
  · split at h
    · cases h
    · cases h
      rename_i e
      unfold Tensor.ufunc at e
      split at e
      · cases e
      · exact mkTensor_bare e
  · cases h

theorem bare_sum {a r : Num α} {s : SumVal} {d : Bool} (h : a.sum s d = .ok r) (ha : a.Bare) : r.Bare := by
  obtain ⟨t, rfl, h1, h2, h3, h4⟩ := ha
  unfold Num.sum at h
  dsimp only at h
  split at h
  · cases h
  · cases h
    rename_i e
    unfold Tensor.sum at e
    simp only [h1, h2, h3, h4] at e
    repeat' split at e
    all_goals first | exact mkTensor_bare e | cases e

theorem bare_neg {a : Num α} (ha : a.Bare) : a.neg.Bare := by
  obtain ⟨t, rfl, h1⟩ := ha
  exact ⟨_, rfl, h1⟩

/-- What follows a step that succeeds. -/
theorem bind_ok {β γ : Type} {x : Except Err β} {f : β → Except Err γ} {r : γ} (h : (x >>= f) = .ok r) : ∃ y, x = .ok y ∧ f y = .ok r := by
  cases x with
  | error e => cases h
  | ok y => exact ⟨y, rfl, h⟩

theorem mapM_at {β γ : Type} {f : β → Except Err γ} : ∀ {l : List β} {r : List γ}, l.mapM f = .ok r → ∀ {i : Nat} {x : β}, l[i]? = some x →
    ∃ y, r[i]? = some y ∧ f x = .ok y
  | [], _, _, i, x, hx => by simp at hx
  | a :: l, r, h, i, x, hx => by
    rw [List.mapM_cons] at h
    obtain ⟨y, h1, h2⟩ := bind_ok h
    obtain ⟨ys, h3, h4⟩ := bind_ok h2
    cases h4
    cases i with
    | zero =>
      simp only [List.getElem?_cons_zero, Option.some.injEq] at hx ⊢
      exact ⟨y, rfl, hx ▸ h1⟩
    | succ i =>
      simp only [List.getElem?_cons_succ] at hx ⊢
      exact mapM_at h3 hx

theorem gradBlocks_bare {der : List (Num α)} {delta : Num α} {r : List (Num α)} (h : gradBlocks der delta = .ok r) (hd : delta.Bare) {p : Nat} {d : Num α}
    (hp : der[p]? = some d) (hb : d.Bare) : ∃ g, r[p]? = some g ∧ g.Bare := by
  obtain ⟨g, h1, h2⟩ := mapM_at h hp
  obtain ⟨s, h3, h4⟩ := bind_ok h2
  exact ⟨g, h1, bare_sum h4 (bare_bin h3 hb hd)⟩

end

/-! ### the gradients of the six likelihoods -/

/-- If the array for parameter `p` has no parameter axes, then the entry of the gradient has none either. -/
def KeepsBare (grad : Num ℝ → List (Num ℝ) → Except Err (List (Num ℝ))) : Prop :=
  ∀ {y : Num ℝ} {der r : List (Num ℝ)}, grad y der = .ok r → y.Bare → ∀ {p : Nat} {d : Num ℝ}, der[p]? = some d → d.Bare → ∃ g, r[p]? = some g ∧ g.Bare

theorem poisson_keeps {X Nw : Num ℝ} (hX : X.Bare) (hN : Nw.Bare) : KeepsBare (PoissonT.gradLike X Nw) := by
  intro y der r h hy p d hp hd
  unfold PoissonT.gradLike at h
  obtain ⟨e, h1, h⟩ := bind_ok h
  obtain ⟨b, h2, h⟩ := bind_ok h
  obtain ⟨delta, h3, h⟩ := bind_ok h
  exact gradBlocks_bare h (bare_bin h3 hX (bare_bin h2 hN (bare_ufunc h1))) hp hd

theorem zip_keeps {s : ℝ} {X Nw : Num ℝ} (hX : X.Bare) (hN : Nw.Bare) : KeepsBare (ZeroInflatedPoissonT.gradLike s X Nw) := by
  intro y der r h hy p d hp hd
  unfold ZeroInflatedPoissonT.gradLike at h
  obtain ⟨e, h1, h⟩ := bind_ok h
  obtain ⟨a, h2, h⟩ := bind_ok h
  obtain ⟨q, h3, h⟩ := bind_ok h
  obtain ⟨b, h4, h⟩ := bind_ok h
  obtain ⟨delta, h5, h⟩ := bind_ok h
  unfold ZeroInflatedPoissonT.denom ZeroInflatedPoissonT.expNeg at h3
  obtain ⟨n, h6, h3⟩ := bind_ok h3
  obtain ⟨m, h7, h3⟩ := bind_ok h3
  exact gradBlocks_bare h (bare_bin h5 hX (bare_bin h4 (bare_bin h2 hN (bare_ufunc h1)) (bare_scalarOp h3 (bare_scalarOp h7 (bare_ufunc h6))))) hp hd

theorem logistic_keeps {X Nw : Num ℝ} (hX : X.Bare) (hN : Nw.Bare) : KeepsBare (LogisticT.gradLike X Nw) := by
  intro y der r h hy p d hp hd
  unfold LogisticT.gradLike at h
  obtain ⟨q, h1, h⟩ := bind_ok h
  obtain ⟨a, h2, h⟩ := bind_ok h
  obtain ⟨delta, h3, h⟩ := bind_ok h
  unfold LogisticT.denom at h1
  obtain ⟨e, h4, h1⟩ := bind_ok h1
  exact gradBlocks_bare h (bare_bin h3 hX (bare_bin h2 hN (bare_scalarOp h1 (bare_ufunc h4)))) hp hd

theorem negativeBinomial_keeps {s : ℝ} {X Nw : Num ℝ} (hX : X.Bare) (hN : Nw.Bare) : KeepsBare (NegativeBinomialT.gradLike s X Nw) := by
  intro y der r h hy p d hp hd
  unfold NegativeBinomialT.gradLike at h
  obtain ⟨m, h1, h⟩ := bind_ok h
  obtain ⟨n, h2, h⟩ := bind_ok h
  obtain ⟨a, h3, h⟩ := bind_ok h
  obtain ⟨a', h4, h⟩ := bind_ok h
  obtain ⟨q, h5, h⟩ := bind_ok h
  obtain ⟨b, h6, h⟩ := bind_ok h
  obtain ⟨delta, h7, h⟩ := bind_ok h
  exact gradBlocks_bare h (bare_bin h7 hX (bare_bin h6 (bare_bin h4 (bare_bin h3 hX (bare_scalarOp h2 hN)) (bare_ufunc h1)) (bare_scalarOp h5 (bare_ufunc h1)))) hp hd

theorem normalizedFinite_keeps {Nw : Num ℝ} (hN : Nw.Bare) : KeepsBare (NormalizedFiniteT.gradLike Nw) := by
  intro y der r h hy p d hp hd
  obtain ⟨g, h1, h2⟩ := mapM_at h hp
  obtain ⟨a, h3, h2⟩ := bind_ok h2
  obtain ⟨s, h4, h2⟩ := bind_ok h2
  exact ⟨g, h1, bare_sum h2 (bare_bin h4 (bare_bin h3 hN hd) hy)⟩

theorem finite_keeps {Nw : Num ℝ} (hN : Nw.Bare) : KeepsBare (FiniteT.gradLike Nw) := by
  intro y der r h hy p d hp hd
  unfold FiniteT.gradLike at h
  obtain ⟨z, hz, h⟩ := bind_ok h
  obtain ⟨g, h1, h2⟩ := mapM_at h hp
  obtain ⟨dz, h3, h2⟩ := bind_ok h2
  obtain ⟨a, h4, h2⟩ := bind_ok h2
  obtain ⟨b, h5, h2⟩ := bind_ok h2
  obtain ⟨c, h6, h2⟩ := bind_ok h2
  obtain ⟨s, h7, h2⟩ := bind_ok h2
  exact ⟨g, h1, bare_sum h2 (bare_bin h7 hN (bare_bin h6 (bare_bin h4 hd hy) (bare_bin h5 (bare_sum h3 hd) (bare_sum hz hy))))⟩

end Verif.Tens
