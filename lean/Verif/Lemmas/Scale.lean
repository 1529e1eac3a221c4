import Verif.Lemmas.LinQuadTerms

/-!
# Sums of scaled Tensors
-/

set_option linter.unusedSectionVars false

namespace Verif.Tens
open Verif.Params
open NDArray

/-- `b` is `a` times `c`, entry by entry. -/
def Scaled (c : ℝ) (a b : NDArray ℝ) : Prop := b.ndim = a.ndim ∧ b.shape = a.shape ∧ ∀ idx, b.get idx = a.get idx * c

theorem Scaled.bget {c : ℝ} {a b : NDArray ℝ} (h : Scaled c a b) (idx : Nat → Nat) : b.bget idx = a.bget idx * c := by
  unfold NDArray.bget
  rw [h.2.2, h.2.1]

theorem Scaled.map (c : ℝ) (a : NDArray ℝ) : Scaled c a (a.map fun v => v * c) := ⟨rfl, rfl, fun idx => map_get _ _ _⟩

theorem Scaled.swapaxes {c : ℝ} {a b : NDArray ℝ} (h : Scaled c a b) (i j : Nat) : Scaled c (a.swapaxes i j) (b.swapaxes i j) := by
  refine ⟨h.1, ?_, fun idx => ?_⟩
  · show (fun k => b.shape _) = fun k => a.shape _
    rw [h.2.1]
  · have e : ∀ A : NDArray ℝ, (A.swapaxes i j).get idx = A.get fun k => (fun k => if k < A.ndim then idx k else 0) (if k = i then j else if k = j then i else k) :=
      fun A => mk_get _ _ _ _
    rw [e, e, h.2.2, h.1]

theorem sumOver_mul (c : ℝ) : ∀ (l : List Nat) (F : List Nat → ℝ), sumOver l (fun i => F i * c) = sumOver l F * c
  | [], F => rfl
  | s :: ss, F => by
    show ∑ i ∈ Finset.range s, sumOver ss (fun l => F (i :: l) * c) = (∑ i ∈ Finset.range s, sumOver ss fun l => F (i :: l)) * c
    rw [Finset.sum_mul]
    exact Finset.sum_congr rfl fun i _ => sumOver_mul c ss fun l => F (i :: l)

theorem Scaled.sumAxes {c : ℝ} {a b : NDArray ℝ} (h : Scaled c a b) (l : List Nat) : Scaled c (a.sumAxes l) (b.sumAxes l) := by
  refine ⟨?_, ?_, fun idx => ?_⟩
  · show b.ndim - _ = a.ndim - _
    rw [h.1]
  · show (fun k => b.shape _) = fun k => a.shape _
    rw [h.2.1, h.1]
  · unfold NDArray.sumAxes
    rw [mk_get, h.1, h.2.1]
    refine Eq.trans ?_ (congrArg (· * c) (mk_get _ _ _ _).symm)
    beta_reduce
    rw [← sumOver_mul]
    simp only [h.2.2]

theorem Scaled.sumSwapX {c : ℝ} (p : Nat) (sel : List Nat) : ∀ (mp : List Int) (k : Nat) {a b : NDArray ℝ}, Scaled c a b →
    Scaled c (Tens.sumSwapX p sel k mp a) (Tens.sumSwapX p sel k mp b)
  | [], _, _, _, h => h
  | f :: fs, k, _, _, h => by
    unfold Tens.sumSwapX
    split_ifs
    · exact Scaled.sumSwapX p sel fs (k + 1) (h.swapaxes _ _)
    · exact Scaled.sumSwapX p sel fs (k + 1) h

theorem Scaled.sumSwapY {c : ℝ} (p x : Nat) (sel : List Nat) (xm : List Int) : ∀ (mp : List Int) (k : Nat) {a b : NDArray ℝ} (cross : List (Nat × Nat)), Scaled c a b →
    Scaled c (Tens.sumSwapY p x sel xm k mp a cross).1 (Tens.sumSwapY p x sel xm k mp b cross).1 ∧
      (Tens.sumSwapY p x sel xm k mp b cross).2 = (Tens.sumSwapY p x sel xm k mp a cross).2
  | [], _, _, _, _, h => ⟨h, rfl⟩
  | f :: fs, k, _, _, cross, h => by
    unfold Tens.sumSwapY
    split_ifs
    all_goals first
      | exact Scaled.sumSwapY p x sel xm fs (k + 1) _ h
      | exact Scaled.sumSwapY p x sel xm fs (k + 1) _ (h.swapaxes _ _)

theorem Scaled.sumCross {c : ℝ} (x : Nat) : ∀ (l : List (Nat × Nat)) {a b r : NDArray ℝ}, Scaled c a b → Tens.sumCross x l a = .ok r →
    ∃ s, Tens.sumCross x l b = .ok s ∧ Scaled c r s
  | [], a, b, r, h, hr => by cases hr; exact ⟨b, rfl, h⟩
  | (k, f) :: l, a, b, r, h, hr => by
    unfold Tens.sumCross at hr ⊢
    obtain ⟨n1, n2, n3⟩ := h
    unfold zipWith at hr ⊢
    rw [n1, n2]
    by_cases hc : ∀ k' < a.ndim, a.shape k' = (eyeAt a.ndim (a.shape k) k (x + f) : NDArray ℝ).shape k' ∨ a.shape k' = 1 ∨
        (eyeAt a.ndim (a.shape k) k (x + f) : NDArray ℝ).shape k' = 1
    · rw [if_pos hc] at hr ⊢
      dsimp only at hr ⊢
      refine Scaled.sumCross x l ?_ hr
      refine ⟨rfl, rfl, fun idx => ?_⟩
      rw [mk_get, mk_get, Scaled.bget ⟨n1, n2, n3⟩]
      ring
    · rw [if_neg hc] at hr
      cases hr

/-- `(c * t).sum()` is `c * t.sum()`. -/
theorem sumAll_scale (c : ℝ) {t r : Tensor ℝ} (hr : (Num.tensor t).sumAll = .ok (.tensor r)) :
    ∃ s, (Num.tensor ⟨t.values.map fun v => v * c, t.xDim, t.yDim, t.dim, t.xMap, t.yMap⟩).sumAll = .ok (.tensor s) ∧
      Scaled c r.values s.values := by
  have hr : t.sum .all true = .ok r := by
    unfold Num.sumAll Num.sum at hr
    dsimp only at hr
    cases h : t.sum .all true with
    | error e => rw [h] at hr; cases hr
    | ok r' => rw [h] at hr; cases hr; rfl
  suffices ∃ s, (⟨t.values.map fun v => v * c, t.xDim, t.yDim, t.dim, t.xMap, t.yMap⟩ : Tensor ℝ).sum .all true = .ok s ∧
      Scaled c r.values s.values by
    obtain ⟨s, h1, h2⟩ := this
    refine ⟨s, ?_, h2⟩
    unfold Num.sumAll Num.sum
    dsimp only
    rw [h1]
  have hn : Tensor.n (⟨t.values.map fun v => v * c, t.xDim, t.yDim, t.dim, t.xMap, t.yMap⟩ : Tensor ℝ) = t.n := rfl
  have h1 := Scaled.sumSwapX (t.xDim + t.yDim) (List.range t.n) t.xMap 0 (Scaled.map c t.values)
  have h2 := Scaled.sumSwapY (t.xDim + t.yDim) t.xDim (List.range t.n) t.xMap t.yMap 0 [] h1
  unfold Tensor.sum at hr ⊢
  dsimp only at hr ⊢
  rw [hn, map_ndim]
  rw [if_pos rfl] at hr ⊢
  by_cases hi : ∃ a ∈ ((List.range t.n).map (t.xDim + t.yDim + ·)) ++ (List.range t.dim).map (t.xDim + t.yDim + t.n + ·), t.values.ndim ≤ a
  · rw [if_pos hi] at hr; cases hr
  rw [if_neg hi] at hr ⊢
  by_cases hd : ¬ (((List.range t.n).map (t.xDim + t.yDim + ·)) ++ (List.range t.dim).map (t.xDim + t.yDim + t.n + ·)).Nodup
  · rw [if_pos hd] at hr; cases hr
  rw [if_neg hd] at hr ⊢
  have h3 := h2.1.sumAxes (((List.range t.n).map (t.xDim + t.yDim + ·)) ++ (List.range t.dim).map (t.xDim + t.yDim + t.n + ·))
  cases hx : Tens.sumCross t.xDim (Tens.sumSwapY (t.xDim + t.yDim) t.xDim (List.range t.n) t.xMap 0 t.yMap
      (Tens.sumSwapX (t.xDim + t.yDim) (List.range t.n) 0 t.xMap t.values) []).2
      ((Tens.sumSwapY (t.xDim + t.yDim) t.xDim (List.range t.n) t.xMap 0 t.yMap
      (Tens.sumSwapX (t.xDim + t.yDim) (List.range t.n) 0 t.xMap t.values) []).1.sumAxes
        (((List.range t.n).map (t.xDim + t.yDim + ·)) ++ (List.range t.dim).map (t.xDim + t.yDim + t.n + ·))) with
  | error e =>
    rw [hx] at hr
    cases hr
  | ok v =>
    rw [hx] at hr
    obtain ⟨s, s1, s2⟩ := Scaled.sumCross t.xDim _ h3 hx
    obtain ⟨rfl, hle⟩ := mkTensor_ok hr
    rw [h2.2, s1]
    refine ⟨⟨s, t.xDim, t.yDim, 0, [], []⟩, ?_, s2⟩
    dsimp only
    unfold mkTensor
    rw [if_neg (by rw [s2.1]; omega)]
    rfl

/-- `a * t` for a number that is not 0. -/
theorem py_mul_tensor {a : ℝ} (ha : a ≠ 0) (t : Tensor ℝ) : ∃ w : NDArray ℝ,
    Py.mul (.num a) (.arr (.tensor t)) = .ok (.arr (.tensor ⟨w, t.xDim, t.yDim, t.dim, t.xMap, t.yMap⟩)) ∧
      (w = t.values ∧ a = 1 ∨ w = t.values.map fun v => v * a) := by
  by_cases h1 : a = 1
  · refine ⟨t.values, ?_, Or.inl ⟨rfl, h1⟩⟩
    show (Num.scalarOp (.tensor t) .mul a).map Py.arr = _
    unfold Num.scalarOp Tensor.binScalar
    simp only [ha, h1, false_and, true_and, true_or, if_true, if_false, one_ne_zero]
    rfl
  · refine ⟨t.values.map fun v => v * a, ?_, Or.inr rfl⟩
    show (Num.scalarOp (.tensor t) .mul a).map Py.arr = _
    unfold Num.scalarOp Tensor.binScalar
    simp [ha, h1]
    rfl

end Verif.Tens
