import Verif.Props.TensorAdd
import Verif.Lemmas.TensorMul

/-!
# C51: multiplication and division of Tensors
-/

set_option linter.unusedSectionVars false

namespace Verif.Tens
open Verif.Params (Err)
open NDArray

variable {α : Type} [Field α] [DecidableEq α]

/-- Operands that `bin_op` multiplies correctly: in each of the spaces `x` and `y`, the maps have the
same length and agree (or differ in value axes with at least two entries), or one operand has no map
there, and either no axes there, or axes whose diagonal `arr_take_diag` can take. -/
def MulOk (t o : Tensor α) : Prop :=
  SpaceOk 0 (t.xDim + t.yDim) 0 (o.xDim + o.yDim) t.xDim o.xDim t.n o.n t.xMap o.xMap t.values o.values ∧
  SpaceOk t.xDim (t.xDim + t.yDim) o.xDim (o.xDim + o.yDim) t.yDim o.yDim t.n o.n t.yMap o.yMap
    t.values o.values

/-- The three operations of C51. -/
theorem Op.mult_iff (op : Op) : ¬ op.additive ↔ op = .mul ∨ op = .div ∨ op = .rdiv := by
  cases op <;> simp [Op.additive]

/-- The branch of `bin_op` for two arrays and a multiplication or division. -/
theorem Tensor.binTensor_mult {t o : Tensor α} {op : Op} (hop : ¬ op.additive)
    (h1 : o.values.ndim ≠ 0) (h2 : t.values.ndim ≠ 0) {r : Num α} (hr : t.binTensor o op = .ok r) :
    Compat t o ∧ ∃ l1 r1 xm l2 r2 ym v,
      mulStep 0 (t.xDim + t.yDim) 0 (o.xDim + o.yDim) t.xDim o.xDim t.xMap o.xMap t.values o.values =
        .ok (l1, r1, xm) ∧
      mulStep t.xDim (t.xDim + t.yDim) o.xDim (o.xDim + o.yDim) t.yDim o.yDim t.yMap o.yMap l1 r1 =
        .ok (l2, r2, ym) ∧
      reshapedOp op l2
        (t.reshapeIdx (max t.xDim o.xDim) (max t.yDim o.yDim) (max t.n o.n) (max t.dim o.dim)) r2
        (o.reshapeIdx (max t.xDim o.xDim) (max t.yDim o.yDim) (max t.n o.n) (max t.dim o.dim)) = .ok v ∧
      r = .tensor ⟨v, max t.xDim o.xDim, max t.yDim o.yDim, max t.dim o.dim, xm, ym⟩ := by
  unfold Tensor.binTensor at hr
  rw [if_neg h1, if_neg h2] at hr
  by_cases c3 : ¬ (t.n = 0 ∨ o.n = 0 ∨ t.n = o.n) ∨ ¬ (t.dim = 0 ∨ o.dim = 0 ∨ t.dim = o.dim) ∨
      ¬ (t.xDim = 0 ∨ o.xDim = 0 ∨ t.xDim = o.xDim) ∨ ¬ (t.yDim = 0 ∨ o.yDim = 0 ∨ t.yDim = o.yDim)
  · rw [if_pos c3] at hr; cases hr
  rw [if_neg c3] at hr
  have hc : Compat t o :=
    ⟨not_not.1 fun h => c3 (Or.inr (Or.inr (Or.inl h))), not_not.1 fun h => c3 (Or.inr (Or.inr (Or.inr h))),
      not_not.1 fun h => c3 (Or.inl h), not_not.1 fun h => c3 (Or.inr (Or.inl h))⟩
  refine ⟨hc, ?_⟩
  dsimp only at hr
  rw [if_neg (fun h => hop (op.additive_iff.2 h))] at hr
  have hx : ∀ l r : NDArray α, t.mulX o l r =
      mulStep 0 (t.xDim + t.yDim) 0 (o.xDim + o.yDim) t.xDim o.xDim t.xMap o.xMap l r := fun _ _ => rfl
  have hy : ∀ l r : NDArray α, t.mulY o l r =
      mulStep t.xDim (t.xDim + t.yDim) o.xDim (o.xDim + o.yDim) t.yDim o.yDim t.yMap o.yMap l r := by
    intro l r
    unfold mulStep Tensor.mulY
    by_cases hm : o.yMap = []
    · rw [hm]
      refine if_congr Iff.rfl rfl ?_
      rw [if_neg (fun h : ([] : List Int) ≠ [] ∧ _ => h.1 rfl)]
      split_ifs <;> rfl
    · refine if_congr Iff.rfl rfl ?_
      rw [if_congr (and_iff_right hm) rfl rfl]
  rw [hx] at hr
  cases e1 : mulStep 0 (t.xDim + t.yDim) 0 (o.xDim + o.yDim) t.xDim o.xDim t.xMap o.xMap t.values o.values with
  | error e => rw [e1] at hr; cases hr
  | ok s1 =>
    obtain ⟨l1, r1, xm⟩ := s1
    rw [e1] at hr
    dsimp only at hr
    rw [hy] at hr
    cases e2 : mulStep t.xDim (t.xDim + t.yDim) o.xDim (o.xDim + o.yDim) t.yDim o.yDim t.yMap o.yMap l1 r1 with
    | error e => rw [e2] at hr; cases hr
    | ok s2 =>
      obtain ⟨l2, r2, ym⟩ := s2
      rw [e2] at hr
      dsimp only at hr
      cases e3 : reshapedOp op l2
        (t.reshapeIdx (max t.xDim o.xDim) (max t.yDim o.yDim) (max t.n o.n) (max t.dim o.dim)) r2
        (o.reshapeIdx (max t.xDim o.xDim) (max t.yDim o.yDim) (max t.n o.n) (max t.dim o.dim)) with
      | error e => rw [e3] at hr; cases hr
      | ok v =>
        rw [e3] at hr
        dsimp only at hr
        cases e4 : mkTensor v (max t.xDim o.xDim) (max t.yDim o.yDim) (max t.dim o.dim) xm ym with
        | error e => rw [e4] at hr; cases hr
        | ok s =>
          rw [e4] at hr
          cases hr
          exact ⟨l1, r1, xm, l2, r2, ym, v, rfl, e2, e3, by rw [(mkTensor_ok e4).1]⟩

theorem Op.mult_zero_left {op : Op} (h : ¬ op.additive) (c : α) : op.app 0 c = 0 := by
  rcases op.mult_iff.1 h with rfl | rfl | rfl <;> simp [Op.app]

/-- `TakePre` survives changes of other axes to size 1. -/
theorem TakePre.mono {q p : Nat} {m : List Int} {x y : NDArray α} (h : TakePre q p 0 m x)
    (hn : y.ndim = x.ndim) (hs : ∀ k < x.ndim, y.shape k = x.shape k ∨ (y.shape k = 1 ∧ k < q)) :
    TakePre q p 0 m y := by
  intro j hj hj0
  obtain ⟨b1, b2, b3, b4, b5⟩ := h j hj hj0
  rw [hn]
  refine ⟨b1, b2, b3, ?_, fun k hk1 hk2 => ?_⟩
  · rw [(hs _ (by omega)).resolve_right (by omega), (hs _ b2).resolve_right (by omega)]; exact b4
  · rcases hs k (by omega) with e | ⟨e, -⟩
    · rw [e]; exact b5 k hk1 hk2
    · exact Or.inl e

/-- The condition for `y` still holds after the step for `x`. -/
theorem MulOk.second {t o : Tensor α} (hok : MulOk t o) (ht : t.WF) (hc : Compat t o)
    (rx : 0 < t.n → ∀ f ∈ o.xMap, f < (t.n : Int)) (ry : 0 < t.n → ∀ f ∈ o.yMap, f < (t.n : Int))
    {l1 r1 : NDArray α} {xm : List Int}
    (e1 : mulStep 0 (t.xDim + t.yDim) 0 (o.xDim + o.yDim) t.xDim o.xDim t.xMap o.xMap t.values o.values =
        .ok (l1, r1, xm)) :
    SpaceOk t.xDim (t.xDim + t.yDim) o.xDim (o.xDim + o.yDim) t.yDim o.yDim t.n o.n t.yMap o.yMap
      l1 r1 := by
  have hnt := ht.nd
  obtain ⟨x1, x2, x3, x4, x5, x6⟩ := mulStep_ok hok.1 ht.xRange rx e1
  rcases hok.2 with ⟨h1, h2⟩ | ⟨h1, h2⟩ | ⟨h1, h2⟩
  · refine Or.inl ⟨h1, fun a ha hne => ?_⟩
    obtain ⟨b1, b2, b3, b4⟩ := h2 a ha hne
    have := ht.yRange _ (List.of_mem_zip ha).1
    have := ry (by omega) _ (List.of_mem_zip ha).2
    rw [(x4 _ (by omega)).resolve_right (by rintro ⟨-, j, hj, e⟩; omega),
      (x4 _ (by omega)).resolve_right (by rintro ⟨-, j, hj, e⟩; omega)]
    exact ⟨b1, b2, b3, b4⟩
  · refine Or.inr (Or.inl ⟨h1, h2.imp id fun h => ⟨h.1, h.2.1, h.2.2.mono x3 fun k hk => ?_⟩⟩)
    exact (x5 k hk).imp id fun ⟨h1, j, hj, e⟩ => ⟨h1, by omega⟩
  · refine Or.inr (Or.inr ⟨h1, h2.imp id fun h => ⟨h.1, h.2.1, h.2.2.mono x2 fun k hk => ?_⟩⟩)
    exact (x4 k hk).imp id fun ⟨h1, j, hj, e⟩ => ⟨h1, by omega⟩

/-- **C51.** `a * b` (`a / b`, `b / a`): whenever the operation returns, its result represents the
elementwise product (quotient) at every position, for operands that satisfy `MulOk`; for a quotient, at
positions where the divisor is not zero.  The other cases: see the counterexamples below. -/
theorem C51_mul_div_partial {t o : Tensor α} (ht : t.WF) (ho : o.WF) (hok : MulOk t o)
    {op : Op} (hop : ¬ op.additive) {r : Num α} (hr : t.binTensor o op = .ok r) (i : Idx)
    (hd : op = .div → o.dense i ≠ 0) (hd' : op = .rdiv → t.dense i ≠ 0) :
    r.dense i = op.app (t.dense i) (o.dense i) := by
  by_cases c1 : o.values.ndim = 0
  · obtain ⟨s, hb, rfl⟩ := Tensor.binTensor_zero_right c1 hr
    rw [Tensor.dense_zero ho c1]
    rw [Tensor.dense_zero ho c1] at hd
    set c := o.values.get fun _ => 0
    show s.dense i = _
    unfold Tensor.binScalar at hb
    have hop' := op.mult_iff.1 hop
    split_ifs at hb with g1 g2 g3 g4 g5 g6
    · exfalso; rcases hop' with rfl | rfl | rfl <;> simp at g1
    · exfalso; rcases hop' with rfl | rfl | rfl <;> simp at g2
    · cases hb
      rw [g3.1]
      have : (Tensor.const (0 : α)).dense i = 0 := if_pos ⟨agrees_nil _ _, agrees_nil _ _⟩
      rw [this]
      rcases g3.2 with rfl | rfl
      · exact (mul_zero _).symm
      · exact (zero_div _).symm
    · cases hb
      rw [g5.1]
      rcases g5.2 with rfl | rfl
      · exact (mul_one _).symm
      · exact (div_one _).symm
    · exfalso; rcases hop' with rfl | rfl | rfl <;> simp at g6
    · cases hb
      refine (Tensor.dense_map t (fun v => op.app v c) i).trans ?_
      unfold Tensor.dense
      split_ifs with g
      · rfl
      · exact (Op.mult_zero_left hop c).symm
  by_cases c2 : t.values.ndim = 0
  · obtain ⟨v, hv, v1, v2, v3⟩ := Tensor.binTensor_zero_left (t := t) (op := op) ho c1 c2
    rw [hv] at hr
    cases hr
    show Tensor.dense _ i = _
    rw [Tensor.dense_zero ht c2]
    unfold Tensor.dense at hd ⊢
    dsimp only
    have hf : Tensor.flat (⟨v, o.xDim, o.yDim, o.dim, o.xMap, o.yMap⟩ : Tensor α) i = o.flat i := by
      unfold Tensor.flat Tensor.n
      dsimp only
      rw [v1]
    rw [v3, hf]
    split_ifs with g
    · rfl
    · rw [if_neg g] at hd
      rcases op.mult_iff.1 hop with rfl | rfl | rfl
      · exact (mul_zero _).symm
      · exact absurd rfl (hd rfl)
      · exact (zero_div _).symm
  obtain ⟨hc, l1, r1, xm, l2, r2, ym, v, e1, e2, e3, rfl⟩ := Tensor.binTensor_mult hop c1 c2 hr
  obtain ⟨f1, f2⟩ := hc.fits
  have hnt := ht.nd
  have hno := ho.nd
  have rx : 0 < t.n → ∀ f ∈ o.xMap, f < (t.n : Int) := by
    intro h0 f hf
    have := ho.xRange f hf
    have := hc.2.2.1
    omega
  have ry : 0 < t.n → ∀ f ∈ o.yMap, f < (t.n : Int) := by
    intro h0 f hf
    have := ho.yRange f hf
    have := hc.2.2.1
    omega
  obtain ⟨x1, x2, x3, x4, x5, x6⟩ := mulStep_ok hok.1 ht.xRange rx e1
  have hok2 := hok.second ht hc rx ry e1
  obtain ⟨y1, y2, y3, -, -, y6⟩ := mulStep_ok hok2 ht.yRange ry e2
  obtain ⟨v1, v2, -, -⟩ := reshapedOp_ok hnt (by rw [y2, x2]) hno (by rw [y3, x3]) f1 f2 op e3
  show Tensor.dense _ i = _
  unfold Tensor.dense at hd hd' ⊢
  rw [Tensor.flat_result v1]
  dsimp only
  rw [v2]
  have X := x6 i.x i.n (t.flat i) (o.flat i) (fun k hk => by rw [Nat.zero_add]; exact Tensor.flat_x i hk)
    (fun k hk => Tensor.flat_n i hk) (fun k hk => by rw [Nat.zero_add]; exact Tensor.flat_x i hk)
    (fun k hk => Tensor.flat_n i hk)
  have Y := y6 i.y i.n (t.flat i) (o.flat i) (fun k hk => Tensor.flat_y i hk)
    (fun k hk => Tensor.flat_n i hk) (fun k hk => Tensor.flat_y i hk)
    (fun k hk => Tensor.flat_n i hk)
  by_cases A : (Agrees t.xMap i.x i.n ∧ Agrees t.yMap i.y i.n) ∧ (Agrees o.xMap i.x i.n ∧ Agrees o.yMap i.y i.n)
  · obtain ⟨⟨A1, A2⟩, A3, A4⟩ := A
    have hxm : Agrees xm i.x i.n := by rcases x1 with rfl | rfl <;> assumption
    have hym : Agrees ym i.y i.n := by rcases y1 with rfl | rfl <;> assumption
    obtain ⟨X1, X2⟩ := X hxm
    obtain ⟨Y1, Y2⟩ := Y hym
    rw [if_pos ⟨hxm, hym⟩, if_pos ⟨A1, A2⟩, if_pos ⟨A3, A4⟩, Y1, Y2, if_pos ⟨A2, A4⟩, X1, X2,
      if_pos ⟨A1, A3⟩]
  · have hz : op.app (if Agrees t.xMap i.x i.n ∧ Agrees t.yMap i.y i.n then t.values.bget (t.flat i) else 0)
        (if Agrees o.xMap i.x i.n ∧ Agrees o.yMap i.y i.n then o.values.bget (o.flat i) else 0) = 0 := by
      rcases not_and_or.1 A with B | B
      · rw [if_neg B]; exact Op.mult_zero_left hop _
      · rw [if_neg B]
        rcases op.mult_iff.1 hop with rfl | rfl | rfl
        · exact mul_zero _
        · exact absurd (if_neg B) (hd rfl)
        · exact zero_div _
    rw [hz]
    by_cases M : Agrees xm i.x i.n ∧ Agrees ym i.y i.n
    · rw [if_pos M]
      obtain ⟨X1, X2⟩ := X M.1
      obtain ⟨Y1, Y2⟩ := Y M.2
      have : l2.bget (t.flat i) = 0 := by
        rw [Y1]
        split_ifs with g
        · rw [X1, if_neg fun h => A ⟨⟨h.1, g.1⟩, h.2, g.2⟩]
        · rfl
      rw [this]; exact Op.mult_zero_left hop _
    · rw [if_neg M]

/-- **C51.** Operands in diagonal storage give a Tensor in diagonal storage. -/
theorem C51_mul_div_storage {t o : Tensor α} (ht : t.WF) (ho : o.WF) (hok : MulOk t o)
    {op : Op} (hop : ¬ op.additive) {r : Num α} (hr : t.binTensor o op = .ok r) :
    ∃ s, r = .tensor s ∧ s.WF := by
  by_cases c1 : o.values.ndim = 0
  · obtain ⟨s, hb, rfl⟩ := Tensor.binTensor_zero_right c1 hr
    exact ⟨s, rfl, Tensor.binScalar_wf ht hb⟩
  by_cases c2 : t.values.ndim = 0
  · obtain ⟨v, hv, v1, v2, v3⟩ := Tensor.binTensor_zero_left (t := t) (op := op) ho c1 c2
    rw [hv] at hr
    cases hr
    refine ⟨_, rfl, ?_⟩
    have hn : Tensor.n (⟨v, o.xDim, o.yDim, o.dim, o.xMap, o.yMap⟩ : Tensor α) = o.n := by
      unfold Tensor.n; dsimp only; rw [v1]
    have h1 := ho.ndim
    have h2 := ho.xLen
    have h3 := ho.yLen
    refine ⟨by rw [v1]; exact ho.ndim, ho.xLen, ho.yLen, by rw [hn]; exact ho.xRange,
      by rw [hn]; exact ho.yRange, fun k hk h0 => ?_, fun k hk h0 => ?_⟩
    · show v.shape k = 1
      have hk' : k < o.xMap.length := hk
      rw [v2 k (by omega)]; exact ho.xOne k hk h0
    · show v.shape (o.xDim + k) = 1
      have hk' : k < o.yMap.length := hk
      rw [v2 _ (by omega)]; exact ho.yOne k hk h0
  obtain ⟨hc, l1, r1, xm, l2, r2, ym, v, e1, e2, e3, rfl⟩ := Tensor.binTensor_mult hop c1 c2 hr
  obtain ⟨f1, f2⟩ := hc.fits
  have hnt := ht.nd
  have hno := ho.nd
  have a1 := ht.xLen
  have a2 := ht.yLen
  have b1 := ho.xLen
  have b2 := ho.yLen
  have rx : 0 < t.n → ∀ f ∈ o.xMap, f < (t.n : Int) := by
    intro h0 f hf
    have := ho.xRange f hf
    have := hc.2.2.1
    omega
  have ry : 0 < t.n → ∀ f ∈ o.yMap, f < (t.n : Int) := by
    intro h0 f hf
    have := ho.yRange f hf
    have := hc.2.2.1
    omega
  have hok2 := hok.second ht hc rx ry e1
  obtain ⟨x1, x2, x3, x4, x5, x6⟩ := mulStep_ok hok.1 ht.xRange rx e1
  obtain ⟨y1, y2, y3, y4, y5, y6⟩ := mulStep_ok hok2 ht.yRange ry e2
  have X := mulStep_one hok.1 (fun j hj h0 => by rw [Nat.zero_add]; exact ht.xOne j hj h0)
    (fun j hj h0 => by rw [Nat.zero_add]; exact ho.xOne j hj h0) e1
  have Y := mulStep_one hok2
    (fun j hj h0 => by
      rcases x4 (t.xDim + j) (by omega) with e | ⟨e, -⟩
      · rw [e]; exact ht.yOne j hj h0
      · exact e)
    (fun j hj h0 => by
      rcases x5 (o.xDim + j) (by omega) with e | ⟨e, -⟩
      · rw [e]; exact ho.yOne j hj h0
      · exact e) e2
  obtain ⟨v1, v2, v3, v4⟩ := reshapedOp_ok hnt (by rw [y2, x2]) hno (by rw [y3, x3]) f1 f2 op e3
  refine ⟨_, rfl, ?_⟩
  have hn : Tensor.n (⟨v, max t.xDim o.xDim, max t.yDim o.yDim, max t.dim o.dim, xm, ym⟩ :
      Tensor α) = max t.n o.n := by
    unfold Tensor.n; dsimp only; rw [v1]; unfold Tensor.n; omega
  refine ⟨?_, ?_, ?_, ?_, ?_, fun k hk h0 => ?_, fun k hk h0 => ?_⟩
  · show _ ≤ v.ndim; dsimp only; omega
  · show xm.length ≤ max t.xDim o.xDim; rcases x1 with rfl | rfl <;> omega
  · show ym.length ≤ max t.yDim o.yDim; rcases y1 with rfl | rfl <;> omega
  · rw [hn]; intro f hf
    rcases x1 with rfl | rfl
    · have := ht.xRange f hf; omega
    · have := ho.xRange f hf; omega
  · rw [hn]; intro f hf
    rcases y1 with rfl | rfl
    · have := ht.yRange f hf; omega
    · have := ho.yRange f hf; omega
  · have hk' : k < max t.xDim o.xDim := by
      have : k < xm.length := hk
      rcases x1 with rfl | rfl <;> omega
    obtain ⟨X1, X2⟩ := X k hk h0
    rw [Nat.zero_add] at X1 X2
    refine v3 k hk' ?_ ?_
    · by_cases c : t.xDim = 0
      · exact Or.inl c
      · right
        have := X1.resolve_left c
        rcases y4 k (by rw [x2]; have := hc.1; omega) with e | ⟨e, -⟩
        · rw [e]; exact this
        · exact e
    · by_cases c : o.xDim = 0
      · exact Or.inl c
      · right
        have := X2.resolve_left c
        rcases y5 k (by rw [x3]; have := hc.1; omega) with e | ⟨e, -⟩
        · rw [e]; exact this
        · exact e
  · have hk' : k < max t.yDim o.yDim := by
      have : k < ym.length := hk
      rcases y1 with rfl | rfl <;> omega
    obtain ⟨Y1, Y2⟩ := Y k hk h0
    exact v4 k hk' Y1 Y2

/-- **C51.** The same with `toarray()`. -/
theorem C51_toarray_partial {t o : Tensor α} (ht : t.WF) (ho : o.WF) (hok : MulOk t o)
    {r : Num α} (hr : t.binTensor o .mul = .ok r) :
    ∃ s a b c, r = .tensor s ∧ t.toarray = .ok a ∧ o.toarray = .ok b ∧ s.toarray = .ok c ∧
      ∀ i, InRange a (t.flat i) → InRange b (o.flat i) → InRange c (s.flat i) →
        c.get (s.flat i) = a.get (t.flat i) * b.get (o.flat i) := by
  obtain ⟨s, rfl, hw⟩ := C51_mul_div_storage ht ho hok (by simp [Op.additive]) hr
  obtain ⟨a, ha, a1, a2, a3⟩ := Tensor.toarray_ok ht
  obtain ⟨b, hb, b1, b2, b3⟩ := Tensor.toarray_ok ho
  obtain ⟨c, hc, c1, c2, c3⟩ := Tensor.toarray_ok hw
  refine ⟨s, a, b, c, rfl, ha, hb, hc, fun i ia ib ic => ?_⟩
  rw [a3 i ia, b3 i ib, c3 i ic]
  exact C51_mul_div_partial ht ho hok (by simp [Op.additive]) hr i (by simp) (by simp)

/-- **C51.** `a * b` of Tensors that satisfy `MulOk` represents the same array as `b * a`. -/
theorem C51_commutative_partial {t o : Tensor α} (ht : t.WF) (ho : o.WF) (hok : MulOk t o)
    (hok' : MulOk o t) {r r' : Num α} (hr : t.binTensor o .mul = .ok r)
    (hr' : o.binTensor t .mul = .ok r') (i : Idx) : r.dense i = r'.dense i := by
  rw [C51_mul_div_partial ht ho hok (by simp [Op.additive]) hr i (by simp) (by simp),
    C51_mul_div_partial ho ht hok' (by simp [Op.additive]) hr' i (by simp) (by simp)]
  exact mul_comm _ _

/-- **C51.** The cases used by `Func` products and compositions satisfy the hypothesis: a Tensor without
`x` and `y` axes times any Tensor. -/
theorem C51_value_tensor_ok {t o : Tensor α} (ht : t.WF) (hx : t.xDim = 0) (hy : t.yDim = 0) :
    MulOk t o ∧ MulOk o t := by
  have h1 := ht.xLen
  have h2 := ht.yLen
  have e1 : t.xMap = [] := List.eq_nil_of_length_eq_zero (by omega)
  have e2 : t.yMap = [] := List.eq_nil_of_length_eq_zero (by omega)
  exact ⟨⟨Or.inr (Or.inr ⟨e1, Or.inl hx⟩), Or.inr (Or.inr ⟨e2, Or.inl hy⟩)⟩,
    ⟨Or.inr (Or.inl ⟨e1, Or.inl hx⟩), Or.inr (Or.inl ⟨e2, Or.inl hy⟩)⟩⟩

/-- **C51.** … and a Tensor with `x` axes only times a Tensor with `y` axes only (the products of
gradients in a Hessian). -/
theorem C51_gradients_ok {t o : Tensor α} (ht : t.WF) (ho : o.WF) (hy : t.yDim = 0) (hx : o.xDim = 0) :
    MulOk t o ∧ MulOk o t := by
  have h1 := ht.yLen
  have h2 := ho.xLen
  have e1 : t.yMap = [] := List.eq_nil_of_length_eq_zero (by omega)
  have e2 : o.xMap = [] := List.eq_nil_of_length_eq_zero (by omega)
  exact ⟨⟨Or.inr (Or.inl ⟨e2, Or.inl hx⟩), Or.inr (Or.inr ⟨e1, Or.inl hy⟩)⟩,
    ⟨Or.inr (Or.inr ⟨e2, Or.inl hx⟩), Or.inr (Or.inl ⟨e1, Or.inl hy⟩)⟩⟩

/-- **C51.** … and Tensors with the same maps. -/
theorem C51_same_maps_ok {t o : Tensor α} (hx : t.xMap = o.xMap) (hy : t.yMap = o.yMap) : MulOk t o := by
  have : ∀ m : List Int, ∀ p (x : NDArray α), CrossPre p (m.zip m) x := by
    intro m p x a ha hne
    exfalso
    rw [List.zip_eq_zipWith, List.zipWith_self] at ha
    obtain ⟨f, -, rfl⟩ := List.mem_map.1 ha
    exact hne rfl
  constructor
  · rw [hx]; exact Or.inl ⟨rfl, this _ _ _⟩
  · rw [hy]; exact Or.inl ⟨rfl, this _ _ _⟩

/-- **C51.** Two operands that map the same `x` axis to different value axes with at least two entries:
`bin_op` raises `ValueError`, unless the two value axes are the last two axes of the array. -/
theorem C51_cross_raises {t o : Tensor α} {a b : Nat} (ht : t.WF) (ho : o.WF) (hc : Compat t o)
    (ha : t.xMap = [(a : Int)]) (hb : o.xMap = [(b : Int)]) (hab : a ≠ b)
    (hs : t.values.shape (t.xDim + t.yDim + a) ≠ 1)
    (hl : ¬ ((a + 2 = t.n + t.dim ∧ b + 1 = t.n + t.dim) ∨ (a + 1 = t.n + t.dim ∧ b + 2 = t.n + t.dim))) :
    t.binTensor o .mul = .error .valueError := by
  have hnt := ht.nd
  have hno := ho.nd
  have r1 := ht.xRange a (by rw [ha]; simp)
  have r2 := ho.xRange b (by rw [hb]; simp)
  obtain ⟨h1, h2, h3, h4⟩ := hc
  unfold Tensor.binTensor
  rw [if_neg (by omega), if_neg (by omega),
    if_neg (fun h => h.elim (· h3) fun h => h.elim (· h4) fun h => h.elim (· h1) (· h2))]
  dsimp only
  rw [if_neg (by simp)]
  have : t.mulX o t.values o.values = .error .valueError := by
    unfold Tensor.mulX
    rw [ha, hb]
    dsimp only
    rw [if_pos (by simp)]
    simp only [List.zip_cons_cons, List.zip_nil_right]
    unfold arrExpandCrossDiag
    rw [if_neg (by omega)]
    dsimp only
    rw [show ((t.xDim + t.yDim : ℕ) + (a : Int)).toNat = t.xDim + t.yDim + a by omega,
      show ((t.xDim + t.yDim : ℕ) + (b : Int)).toNat = t.xDim + t.yDim + b by omega]
    unfold broadcastEye
    rw [if_neg hs, if_neg (by omega)]
  rw [this]

/-- **C51.** If in each of the spaces `x` and `y` one operand has no axes (as in the two cases above),
compatible shapes are enough for `bin_op` to return. -/
theorem C51_mul_div_succeeds {t o : Tensor α} (ht : t.WF) (ho : o.WF) (hc : Compat t o)
    (hx : t.xDim = 0 ∨ o.xDim = 0) (hy : t.yDim = 0 ∨ o.yDim = 0)
    (hsh : ShapesFit t t.values o o.values) {op : Op} (hop : ¬ op.additive)
    (hz : op = .div → o.values.ndim ≠ 0) :
    ∃ r, t.binTensor o op = .ok r := by
  unfold Tensor.binTensor
  by_cases c1 : o.values.ndim = 0
  · rw [if_pos c1]
    cases hb : t.binScalar (o.values.get fun _ => 0) op with
    | ok s => exact ⟨_, rfl⟩
    | error e =>
      obtain ⟨-, rfl⟩ := (C49_raises_iff ht _ op).1 ⟨e, hb⟩
      exact absurd c1 (hz rfl)
  rw [if_neg c1]
  by_cases c2 : t.values.ndim = 0
  · obtain ⟨v, hv, -⟩ := Tensor.binTensor_zero_left (t := t) (op := op) ho c1 c2
    unfold Tensor.binTensor at hv
    rw [if_neg c1] at hv
    exact ⟨_, hv⟩
  rw [if_neg c2]
  obtain ⟨h1, h2, h3, h4⟩ := hc
  rw [if_neg (fun h => h.elim (· h3) fun h => h.elim (· h4) fun h => h.elim (· h1) (· h2))]
  dsimp only
  rw [if_neg (fun h => hop (op.additive_iff.2 h))]
  obtain ⟨f1, f2⟩ := Compat.fits ⟨h1, h2, h3, h4⟩
  have a1 := ht.xLen
  have a2 := ht.yLen
  have b1 := ho.xLen
  have b2 := ho.yLen
  have ex : ∃ m, t.mulX o t.values o.values = .ok (t.values, o.values, m) := by
    unfold Tensor.mulX
    dsimp only
    rcases hx with hx | hx
    · rw [if_neg (by rw [not_not]; exact List.eq_nil_of_length_eq_zero (by omega)),
        if_neg (fun h => h.2 hx)]
      exact ⟨_, rfl⟩
    · have : o.xMap = [] := List.eq_nil_of_length_eq_zero (by omega)
      split_ifs with g1 g2 g3 g4
      · exact absurd hx g2.2
      · rw [this, List.zip_nil_right]; exact ⟨_, rfl⟩
      · exact absurd this g3.1
      · exact ⟨_, rfl⟩
  have ey : ∃ m, t.mulY o t.values o.values = .ok (t.values, o.values, m) := by
    unfold Tensor.mulY
    dsimp only
    rcases hy with hy | hy
    · rw [if_neg (by rw [not_not]; exact List.eq_nil_of_length_eq_zero (by omega)),
        if_neg (fun h => h hy)]
      exact ⟨_, rfl⟩
    · have : o.yMap = [] := List.eq_nil_of_length_eq_zero (by omega)
      split_ifs with g1 g2 g3
      · exact absurd hy g2.2
      · rw [this, List.zip_nil_right]; exact ⟨_, rfl⟩
      · rw [this]; exact ⟨_, rfl⟩
      · exact ⟨_, rfl⟩
  obtain ⟨xm, ex⟩ := ex
  obtain ⟨ym, ey⟩ := ey
  obtain ⟨v, hv⟩ := reshapedOp_isOk ht.nd rfl ho.nd rfl f1 f2 op hsh
  obtain ⟨v1, -⟩ := reshapedOp_ok ht.nd rfl ho.nd rfl f1 f2 op hv
  rw [ex]
  dsimp only
  rw [ey]
  dsimp only
  rw [hv]
  dsimp only
  rw [mkTensor_isOk (by omega)]
  exact ⟨_, rfl⟩

/-- The hypotheses hold for a Tensor of values times `diag3`, for its quotient, and for `full3 * diag3`,
where the diagonal of `full3` is taken. -/
example : (∃ r, (⟨⟨1, fun _ => 3, fun idx => (idx 0 + 7 : ℚ)⟩, 0, 0, 0, [], []⟩ : Tensor ℚ).binTensor
        diag3 .mul = .ok r ∧ r.dense ⟨fun _ => 1, fun _ => 0, fun _ => 1, fun _ => 0⟩ = 16 ∧
        r.dense ⟨fun _ => 0, fun _ => 0, fun _ => 1, fun _ => 0⟩ = 0) ∧
    (∃ r, full3.binTensor diag3 .mul = .ok r ∧
      r.dense ⟨fun _ => 1, fun _ => 0, fun _ => 1, fun _ => 0⟩ = 20) ∧ MulOk full3 diag3 := by
  have h1 : (⟨⟨1, fun _ => 3, fun idx => (idx 0 + 7 : ℚ)⟩, 0, 0, 0, [], []⟩ : Tensor ℚ).WF :=
    Tensor.wf_nomap (by decide)
  have h2 : MulOk full3 diag3 := by
    refine ⟨Or.inr (Or.inr ⟨rfl, Or.inr ⟨by decide, by decide, ?_⟩⟩), Or.inl ⟨rfl, fun a ha => by cases ha⟩⟩
    intro j hj h0
    have : j = 0 := by have : j < 1 := hj; omega
    subst this
    refine ⟨by decide, by decide, by decide, by decide, fun m _ hm => ?_⟩
    exact absurd hm (by omega)
  obtain ⟨r, hr⟩ := C51_mul_div_succeeds (op := .mul) h1 diag3_wf ⟨by decide, by decide, by decide, by decide⟩
    (Or.inl rfl) (Or.inl rfl) ⟨by decide, by decide, by decide, by decide⟩ (by simp [Op.additive]) (by simp)
  refine ⟨⟨r, hr, ?_, ?_⟩, ⟨_, rfl, ?_⟩, h2⟩
  · rw [C51_mul_div_partial h1 diag3_wf (C51_value_tensor_ok h1 rfl rfl).1 (by simp [Op.additive]) hr _
      (by simp) (by simp)]
    show (((1 : ℕ) : ℚ) + 7) * (((1 : ℕ) : ℚ) + 1) = 16; norm_num
  · rw [C51_mul_div_partial h1 diag3_wf (C51_value_tensor_ok h1 rfl rfl).1 (by simp [Op.additive]) hr _
      (by simp) (by simp)]
    show (((1 : ℕ) : ℚ) + 7) * 0 = 0; norm_num
  · rw [C51_mul_div_partial full3_wf diag3_wf h2 (op := .mul) (by simp [Op.additive]) rfl _
      (by simp) (by simp)]
    show (10 : ℚ) * (((1 : ℕ) : ℚ) + 1) = 20; norm_num

/-- **C51, counterexample.** Taking the diagonal of an operand without maps along an axis with at least two
axes behind it exchanges axes: here the product reads the wrong entry. -/
theorem C51_take_diag_counterexample : ∃ (t o : Tensor ℚ) (r : Num ℚ) (i : Idx), t.WF ∧ o.WF ∧
    Compat t o ∧ ShapesFit t t.values o o.values ∧ t.InBox i ∧ o.InBox i ∧
    t.binTensor o .mul = .ok r ∧ t.dense i * o.dense i = 1 ∧ r.dense i = 0 := by
  refine ⟨⟨⟨4, fun _ => 2, fun idx => (idx 2 : ℚ)⟩, 1, 0, 0, [], []⟩,
    ⟨⟨4, fun k => if k = 0 then 1 else 2, fun _ => 1⟩, 1, 0, 0, [0], []⟩, _,
    ⟨fun _ => 0, fun _ => 0, fun k => if k = 1 then 1 else 0, fun _ => 0⟩,
    Tensor.wf_nomap (by decide), ⟨by decide, by decide, by decide, by decide, by decide, by decide, by decide⟩,
    ⟨by decide, by decide, by decide, by decide⟩, ⟨by decide, by decide, by decide, by decide⟩, ?_, ?_,
    rfl, ?_, ?_⟩
  · unfold Tensor.InBox; decide
  · unfold Tensor.InBox; decide
  · show ((1 : ℕ) : ℚ) * 1 = 1; norm_num
  · show ((0 : ℕ) : ℚ) * 1 = 0; norm_num

/-- **C51, counterexample.** An operand without maps that has `x` axes, times one with a `y` map: the new
axis is inserted among the `x` axes, and the product reads the wrong entry. -/
theorem C51_y_map_counterexample : ∃ (t o : Tensor ℚ) (r : Num ℚ) (i : Idx), t.WF ∧ o.WF ∧
    Compat t o ∧ ShapesFit t t.values o o.values ∧ t.InBox i ∧ o.InBox i ∧
    t.binTensor o .mul = .ok r ∧ t.dense i * o.dense i = 0 ∧ r.dense i = 1 := by
  refine ⟨⟨⟨3, fun _ => 2, fun idx => (idx 0 : ℚ)⟩, 1, 1, 0, [], []⟩,
    ⟨⟨2, fun k => if k = 0 then 1 else 2, fun _ => 1⟩, 0, 1, 0, [], [0]⟩, _,
    ⟨fun _ => 0, fun _ => 1, fun _ => 1, fun _ => 0⟩,
    Tensor.wf_nomap (by decide), ⟨by decide, by decide, by decide, by decide, by decide, by decide, by decide⟩,
    ⟨by decide, by decide, by decide, by decide⟩, ⟨by decide, by decide, by decide, by decide⟩, ?_, ?_,
    rfl, ?_, ?_⟩
  · unfold Tensor.InBox; decide
  · unfold Tensor.InBox; decide
  · show ((0 : ℕ) : ℚ) * 1 = 0; norm_num
  · show ((1 : ℕ) : ℚ) * 1 = 1; norm_num

/-- **C51, counterexample.** Maps of different lengths: the entries of the longer one are lost. -/
theorem C51_length_counterexample : ∃ (t o : Tensor ℚ) (r : Num ℚ) (i : Idx), t.WF ∧ o.WF ∧
    Compat t o ∧ ShapesFit t t.values o o.values ∧ t.InBox i ∧ o.InBox i ∧
    t.binTensor o .mul = .ok r ∧ t.dense i * o.dense i = 0 ∧ r.dense i = 1 := by
  refine ⟨⟨⟨4, fun k => if k = 0 then 1 else 2, fun _ => 1⟩, 2, 0, 0, [0], []⟩,
    ⟨⟨4, fun k => if k ≤ 1 then 1 else 2, fun _ => 1⟩, 2, 0, 0, [0, 1], []⟩, _,
    ⟨fun _ => 0, fun _ => 0, fun k => if k = 1 then 1 else 0, fun _ => 0⟩,
    ⟨by decide, by decide, by decide, by decide, by decide, by decide, by decide⟩,
    ⟨by decide, by decide, by decide, by decide, by decide, by decide, by decide⟩,
    ⟨by decide, by decide, by decide, by decide⟩, ⟨by decide, by decide, by decide, by decide⟩, ?_, ?_,
    rfl, ?_, ?_⟩
  · unfold Tensor.InBox; decide
  · unfold Tensor.InBox; decide
  · show (1 : ℚ) * 0 = 0; norm_num
  · show (1 : ℚ) * 1 = 1; norm_num

end Verif.Tens
