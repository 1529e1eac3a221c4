import Verif.Lemmas.TensorExpand
import Mathlib.Tactic.NormNum

/-!
# C48, C49: `toarray` and scalar arithmetic
-/

set_option linter.unusedSectionVars false

namespace Verif.Tens
open Verif.Params (Err)
open NDArray

variable {α : Type} [Field α] [DecidableEq α]

/-- Every multi-index is a position. -/
def Tensor.idxOf {β : Type} (t : Tensor β) (idx : Nat → Nat) : Idx :=
  ⟨idx, fun k => idx (t.xDim + k), fun k => idx (t.xDim + t.yDim + k),
    fun k => idx (t.xDim + t.yDim + t.n + k)⟩

theorem Tensor.flat_idxOf {β : Type} (t : Tensor β) (idx : Nat → Nat) : t.flat (t.idxOf idx) = idx := by
  funext k
  unfold Tensor.flat Tens.flat Tensor.idxOf
  dsimp only
  split_ifs
  · rfl
  · congr 1; omega
  · congr 1; omega
  · congr 1; omega

/-- **C48.** `toarray()` never raises on diagonal storage; it has one axis per axis of the Tensor,
mapped axes have the size of the value axis they are mapped to, and at every position inside it the
entry is the stored one if all mapped axes agree with their value axes, and zero otherwise. -/
theorem C48_toarray {t : Tensor α} (h : t.WF) :
    ∃ a, t.toarray = .ok a ∧ a.ndim = t.xDim + t.yDim + t.n + t.dim ∧
      (∀ k, a.shape k = t.fullShape k) ∧
      ∀ i : Idx, InRange a (t.flat i) → a.get (t.flat i) =
        if Agrees t.xMap i.x i.n ∧ Agrees t.yMap i.y i.n then t.values.bget (t.flat i) else 0 := by
  obtain ⟨a, h1, h2, h3, h4⟩ := Tensor.toarray_ok h
  exact ⟨a, h1, h2.trans h.nd, h3, h4⟩

/-- **C48.** Without maps, `toarray()` is the stored array. -/
theorem C48_unmapped (v : NDArray α) (xDim yDim dim : Nat) :
    (⟨v, xDim, yDim, dim, [], []⟩ : Tensor α).toarray = .ok v := rfl

/-- **C48.** The hypothesis that mapped axes are stored with size 1 is what makes the expansion
possible: an axis of another size that differs from its value axis makes `toarray()` raise. -/
theorem C48_needs_diagonal_storage {t : Tensor α} {f : Nat} (hx : t.xMap = [(f : Int)])
    (hp : 0 < t.values.ndim) (h1 : t.values.shape 0 ≠ 1)
    (h2 : t.values.shape (t.xDim + t.yDim + f) ≠ 1)
    (h3 : t.values.shape 0 ≠ t.values.shape (t.xDim + t.yDim + f)) :
    t.toarray = .error .valueError := by
  unfold Tensor.toarray
  rw [hx]
  unfold arrExpandDiag
  rw [if_neg (by omega)]
  have : zipWith (· * ·) t.values (eyeAt t.values.ndim
      (t.values.shape (t.xDim + t.yDim + (f : Int).toNat)) (0 + 0) (t.xDim + t.yDim + (f : Int).toNat)) =
      (.error .valueError : Except Err (NDArray α)) := by
    unfold zipWith
    rw [if_neg]
    intro hh
    have := hh 0 hp
    rw [Int.toNat_natCast] at this
    have e : (eyeAt t.values.ndim (t.values.shape (t.xDim + t.yDim + f)) (0 + 0)
        (t.xDim + t.yDim + f) : NDArray α).shape 0 = t.values.shape (t.xDim + t.yDim + f) := by
      unfold eyeAt
      simp
    rw [e] at this
    omega
  rw [this]

/-- A gradient of a function of a vector of 3 entries, `grad_tensor(val, params, 0, True)`: one `x`
axis mapped to value axis 0, with the values `1, 2, 3`, over ℚ. -/
def diag3 : Tensor ℚ := ⟨⟨2, fun k => if k = 0 then 1 else 3, fun idx => idx 1 + 1⟩, 1, 0, 0, [0], []⟩

theorem diag3_wf : diag3.WF where
  ndim := by decide
  xLen := by decide
  yLen := by decide
  xRange := by decide
  yRange := by decide
  xOne := by decide
  yOne := by decide

/-- The case of `C48_toarray` for `diag3`: the matrix `diag(1, 2, 3)`. -/
example : ∃ a, diag3.toarray = .ok a ∧ a.ndim = 2 ∧ a.shape 0 = 3 ∧ a.shape 1 = 3 ∧
    a.get (diag3.flat ⟨fun _ => 2, fun _ => 0, fun _ => 2, fun _ => 0⟩) = 3 ∧
    a.get (diag3.flat ⟨fun _ => 1, fun _ => 0, fun _ => 2, fun _ => 0⟩) = 0 := by
  obtain ⟨a, h1, h2, h3, h4⟩ := C48_toarray diag3_wf
  have s0 : a.shape 0 = 3 := by rw [h3]; decide
  have s1 : a.shape 1 = 3 := by rw [h3]; decide
  refine ⟨a, h1, h2, s0, s1, ?_, ?_⟩
  · rw [h4, if_pos (by decide)]
    · show ((2 : ℕ) : ℚ) + 1 = 3; norm_num
    · intro k hk
      rw [h2] at hk
      have : k = 0 ∨ k = 1 := by
        have : k < 2 := hk
        omega
      rcases this with rfl | rfl
      · rw [s0]; decide
      · rw [s1]; decide
  · rw [h4, if_neg (by decide)]
    intro k hk
    rw [h2] at hk
    have : k = 0 ∨ k = 1 := by
      have : k < 2 := hk
      omega
    rcases this with rfl | rfl
    · rw [s0]; decide
    · rw [s1]; decide

/-! ### scalars -/

theorem Tensor.WF.map {t : Tensor α} (h : t.WF) (f : α → α) : (⟨t.values.map f, t.xDim, t.yDim, t.dim,
    t.xMap, t.yMap⟩ : Tensor α).WF :=
  ⟨h.ndim, h.xLen, h.yLen, h.xRange, h.yRange, h.xOne, h.yOne⟩

theorem Tensor.wf_nomap {v : NDArray α} {xDim yDim dim : Nat} (h : xDim + yDim + dim ≤ v.ndim) :
    (⟨v, xDim, yDim, dim, [], []⟩ : Tensor α).WF :=
  ⟨h, by simp, by simp, by simp, by simp, by simp, by simp⟩

/-- `toarray` in terms of multi-indices. -/
theorem Tensor.toarray_get {t : Tensor α} (h : t.WF) {a : NDArray α} (ha : t.toarray = .ok a) :
    a.ndim = t.values.ndim ∧ (∀ k, a.shape k = t.fullShape k) ∧
    ∀ i, InRange a (t.flat i) → a.get (t.flat i) = t.dense i := by
  obtain ⟨a', h1, h2, h3, h4⟩ := Tensor.toarray_ok h
  rw [h1] at ha
  cases ha
  exact ⟨h2, h3, h4⟩

/-- Mapping the stored values by a function with `f 0 = 0` (or one that matters only on the diagonal)
maps the represented array. -/
theorem Tensor.map_toarray {t : Tensor α} (h : t.WF) {a : NDArray α} (ha : t.toarray = .ok a)
    (f : α → α) :
    ∃ b, (⟨t.values.map f, t.xDim, t.yDim, t.dim, t.xMap, t.yMap⟩ : Tensor α).toarray = .ok b ∧
      ∀ idx, InRange a idx → (f 0 = 0 ∨ a.get idx ≠ 0) → b.get idx = f (a.get idx) := by
  obtain ⟨a1, a2, a3⟩ := Tensor.toarray_get h ha
  obtain ⟨b, b1, b2, b3, b4⟩ := Tensor.toarray_ok (h.map f)
  refine ⟨b, b1, fun idx hidx hf => ?_⟩
  have e := t.flat_idxOf idx
  have hb : InRange b idx := by
    intro k hk
    rw [b3]
    have := hidx k (by rw [a1]; rw [b2] at hk; exact hk)
    rw [a2] at this
    exact this
  have ha' := a3 (t.idxOf idx) (by rw [e]; exact hidx)
  have hb' := b4 (t.idxOf idx) (by
    show InRange b (t.flat (t.idxOf idx))
    rw [e]; exact hb)
  have hb'' : b.get idx = (⟨t.values.map f, t.xDim, t.yDim, t.dim, t.xMap, t.yMap⟩ : Tensor α).dense
      (t.idxOf idx) := by
    rw [← hb']
    show b.get idx = b.get (t.flat (t.idxOf idx))
    rw [e]
  rw [e] at ha'
  rw [hb'', ha']
  rw [ha'] at hf
  unfold Tensor.dense at hf ⊢
  show (if Agrees t.xMap _ _ ∧ Agrees t.yMap _ _ then (t.values.map f).bget (t.flat _) else 0) = _
  split_ifs with hc
  · rw [map_bget]
  · rw [if_neg hc] at hf
    rcases hf with hf | hf
    · exact hf.symm
    · exact absurd rfl hf

/-- **C49.** Negation commutes with `toarray()`. -/
theorem C49_neg {t : Tensor α} (h : t.WF) {a : NDArray α} (ha : t.toarray = .ok a) :
    ∃ b, t.neg.toarray = .ok b ∧ ∀ idx, InRange a idx → b.get idx = - a.get idx := by
  obtain ⟨b, b1, b2⟩ := Tensor.map_toarray h ha (- ·)
  exact ⟨b, b1, fun idx hi => b2 idx hi (Or.inl neg_zero)⟩

/-- **C49.** Exactly the division by the scalar 0 raises. -/
theorem C49_raises_iff {t : Tensor α} (h : t.WF) (c : α) (op : Op) :
    (∃ e, t.binScalar c op = .error e) ↔ c = 0 ∧ op = .div := by
  obtain ⟨a, ha, -⟩ := Tensor.toarray_ok h
  unfold Tensor.binScalar
  rw [ha]
  constructor
  · rintro ⟨e, he⟩
    split_ifs at he with h1 h2 h3 h4
    exact h4
  · rintro ⟨rfl, rfl⟩
    exact ⟨.zeroDivision, by simp⟩

/-- **C49.** Addition, subtraction (either side), multiplication and division with a scalar, and the
division of a scalar by a Tensor, give at every position of the array the operation on the entry, for
all scalars including 0 and 1 — for `scalar / Tensor` at the positions where the entry is not zero. -/
theorem C49_scalar_partial {t : Tensor α} (h : t.WF) {a : NDArray α} (ha : t.toarray = .ok a) (c : α) (op : Op)
    {r : Tensor α} (hr : t.binScalar c op = .ok r) :
    ∃ b, r.toarray = .ok b ∧ ∀ idx, InRange a idx → (op = .rdiv → a.get idx ≠ 0) →
      b.get idx = match op with
        | .add => a.get idx + c
        | .sub => a.get idx - c
        | .rsub => c - a.get idx
        | .mul => a.get idx * c
        | .div => a.get idx / c
        | .rdiv => c / a.get idx := by
  unfold Tensor.binScalar at hr
  rw [ha] at hr
  split_ifs at hr with h1 h2 h3 h4 h5 h6
  · cases hr
    refine ⟨a, ha, fun idx _ _ => ?_⟩
    obtain ⟨rfl, rfl | rfl⟩ := h1 <;> simp
  · cases hr
    obtain ⟨rfl, rfl⟩ := h2
    obtain ⟨b, b1, b2⟩ := C49_neg h ha
    exact ⟨b, b1, fun idx hi _ => by rw [b2 idx hi]; simp⟩
  · cases hr
    obtain ⟨rfl, rfl | rfl⟩ := h3
    · exact ⟨_, rfl, fun idx hi _ => by simp; rfl⟩
    · exact ⟨_, rfl, fun idx hi _ => by simp; rfl⟩
  · cases hr
    refine ⟨a, ha, fun idx _ _ => ?_⟩
    obtain ⟨rfl, rfl | rfl⟩ := h5 <;> simp
  · cases hr
    refine ⟨_, rfl, fun idx _ _ => ?_⟩
    rw [map_get]
    rcases h6 with rfl | rfl | rfl <;> rfl
  · cases hr
    obtain ⟨b, b1, b2⟩ := Tensor.map_toarray h ha fun v => op.app v c
    refine ⟨b, b1, fun idx hi hd => ?_⟩
    have h0 : op.app 0 c = 0 ∨ a.get idx ≠ 0 := by
      cases op with
      | add => simp at h6
      | sub => simp at h6
      | rsub => simp at h6
      | mul => left; exact zero_mul c
      | div => left; exact zero_div c
      | rdiv => right; exact hd rfl
    rw [b2 idx hi h0]
    cases op <;> rfl

/-- `C49_scalar_partial` applies: `diag3 + 5`, `2 - diag3` and `diag3 / 2` do not raise. -/
example : (∃ r, diag3.binScalar 5 .add = .ok r) ∧ (∃ r, diag3.binScalar 2 .rsub = .ok r) ∧
    ∃ r, diag3.binScalar 2 .div = .ok r := by
  have key : ∀ c op, ¬ (c = 0 ∧ op = Op.div) → ∃ r, diag3.binScalar c op = .ok r := by
    intro c op hc
    cases hr : diag3.binScalar c op with
    | ok r => exact ⟨r, rfl⟩
    | error e => exact absurd ((C49_raises_iff diag3_wf c op).1 ⟨e, hr⟩) hc
  exact ⟨key 5 .add (by simp), key 2 .rsub (by simp), key 2 .div (by norm_num)⟩

/-- **C49, counterexample.** `scalar / Tensor` of a Tensor with mapped axes divides the stored entries
only: off the diagonal, where the array entry is 0 and numpy's `1 / toarray()` is infinite, the result
is 0. -/
theorem C49_rdiv_counterexample : ∃ (t : Tensor ℚ) (a b : NDArray ℚ) (r : Tensor ℚ) (idx : Nat → Nat),
    t.WF ∧ t.toarray = .ok a ∧ t.binScalar 1 .rdiv = .ok r ∧ r.toarray = .ok b ∧ InRange a idx ∧
      a.get idx = 0 ∧ b.get idx = 0 ∧ r.xMap = [0] ∧ ∀ k, r.values.get k = 1 / t.values.get k := by
  obtain ⟨a, h1, h2, h3, h4⟩ := Tensor.toarray_ok diag3_wf
  have hr : diag3.binScalar 1 .rdiv = .ok ⟨diag3.values.map fun v => Op.rdiv.app v 1, diag3.xDim,
      diag3.yDim, diag3.dim, diag3.xMap, diag3.yMap⟩ := by
    unfold Tensor.binScalar
    rw [if_neg (by decide), if_neg (by decide), if_neg (by decide), if_neg (by decide),
      if_neg (by decide), if_neg (by decide)]
  obtain ⟨b, b1, b2, b3, b4⟩ := Tensor.toarray_ok (diag3_wf.map fun v => Op.rdiv.app v 1)
  let i : Idx := ⟨fun _ => 1, fun _ => 0, fun _ => 2, fun _ => 0⟩
  have hi : ∀ k < 2, diag3.flat i k < diag3.fullShape k := by decide
  refine ⟨diag3, a, b, _, diag3.flat i, diag3_wf, h1, hr, b1, ?_, ?_, ?_, rfl, ?_⟩
  · intro k hk; rw [h3]; exact hi k (by rw [h2] at hk; exact hk)
  · rw [h4]
    · exact if_neg (by decide)
    · intro k hk; rw [h3]; exact hi k (by rw [h2] at hk; exact hk)
  · have := b4 i (by intro k hk; rw [b3]; exact hi k (by rw [b2] at hk; exact hk))
    refine Eq.trans this (if_neg (by decide))
  · intro k
    exact map_get (fun v => Op.rdiv.app v (1 : ℚ)) diag3.values k

end Verif.Tens
