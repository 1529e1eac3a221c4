import Verif.Spec.Tensor
import Mathlib.Tactic.Ring

/-!
# Facts about the numpy operations
-/

namespace Verif.Tens
open Verif.Params (Err)
namespace NDArray

variable {α β : Type}

theorem get_congr (a : NDArray α) {i j : Nat → Nat} (h : ∀ k < a.ndim, i k = j k) :
    a.get i = a.get j := by
  unfold get
  congr 1
  funext k
  by_cases hk : k < a.ndim
  · rw [if_pos hk, if_pos hk, h k hk]
  · rw [if_neg hk, if_neg hk]

theorem bget_congr (a : NDArray α) {i j : Nat → Nat}
    (h : ∀ k < a.ndim, a.shape k ≠ 1 → i k = j k) : a.bget i = a.bget j := by
  unfold bget
  apply get_congr
  intro k hk
  by_cases h1 : a.shape k = 1
  · rw [if_pos h1, if_pos h1]
  · rw [if_neg h1, if_neg h1, h k hk h1]

theorem bget_congr' (a : NDArray α) {i j : Nat → Nat} (h : ∀ k < a.ndim, i k = j k) :
    a.bget i = a.bget j := a.bget_congr fun k hk _ => h k hk

theorem get_eq_bget (a : NDArray α) {idx : Nat → Nat} (h : InRange a idx) : a.get idx = a.bget idx := by
  unfold bget
  apply get_congr
  intro k hk
  have := h k hk
  by_cases h1 : a.shape k = 1
  · rw [if_pos h1]; omega
  · rw [if_neg h1]

theorem mk_get (nd : Nat) (sh : Nat → Nat) (raw : (Nat → Nat) → α) (idx : Nat → Nat) :
    (⟨nd, sh, raw⟩ : NDArray α).get idx = raw fun k => if k < nd then idx k else 0 := rfl

/-! ### moving axes -/

theorem reaxis_get (a : NDArray α) {nd : Nat} {sh pos : Nat → Nat} (hp : ∀ j < a.ndim, pos j < nd)
    (idx : Nat → Nat) : (a.reaxis nd sh pos).get idx = a.get fun j => idx (pos j) := by
  unfold reaxis
  rw [mk_get]
  apply get_congr
  intro k hk
  exact if_pos (hp k hk)

theorem reaxis_bget (a : NDArray α) {nd : Nat} {sh pos : Nat → Nat} (hp : ∀ j < a.ndim, pos j < nd)
    (hs : ∀ j < a.ndim, sh (pos j) = a.shape j) (idx : Nat → Nat) :
    (a.reaxis nd sh pos).bget idx = a.bget fun j => idx (pos j) := by
  unfold bget
  rw [reaxis_get a hp]
  apply get_congr
  intro k hk
  show (if sh (pos k) = 1 then 0 else idx (pos k)) = _
  rw [hs k hk]

@[simp] theorem reaxis_ndim (a : NDArray α) (nd : Nat) (sh pos : Nat → Nat) :
    (a.reaxis nd sh pos).ndim = nd := rfl

@[simp] theorem swapaxes_ndim (a : NDArray α) (i j : Nat) : (a.swapaxes i j).ndim = a.ndim := rfl

theorem swapaxes_shape (a : NDArray α) (i j k : Nat) :
    (a.swapaxes i j).shape k = a.shape (if k = i then j else if k = j then i else k) := rfl

theorem swapaxes_bget (a : NDArray α) {i j : Nat} (hi : i < a.ndim) (hj : j < a.ndim) (idx : Nat → Nat) :
    (a.swapaxes i j).bget idx = a.bget fun k => idx (if k = i then j else if k = j then i else k) := by
  unfold swapaxes
  apply reaxis_bget
  · intro k hk; split_ifs <;> omega
  · intro k hk
    congr 1
    split_ifs <;> omega

theorem swapaxes_get (a : NDArray α) {i j : Nat} (hi : i < a.ndim) (hj : j < a.ndim) (idx : Nat → Nat) :
    (a.swapaxes i j).get idx = a.get fun k => idx (if k = i then j else if k = j then i else k) := by
  unfold swapaxes
  apply reaxis_get
  intro k hk; split_ifs <;> omega

theorem expandDims_bget (a : NDArray α) {i : Nat} (idx : Nat → Nat) :
    (a.expandDims i).bget idx = a.bget fun j => idx (if j < i then j else j + 1) := by
  unfold expandDims
  apply reaxis_bget
  · intro j hj; split_ifs <;> omega
  · intro j hj
    by_cases h : j < i
    · rw [if_pos h, if_pos h]
    · rw [if_neg h, if_neg (by omega), if_neg (by omega)]; rfl

/-! ### new axes -/

theorem axisOf_posOf (l : List Bool) (j : Nat) : axisOf l (posOf l j) = some j := by
  induction l generalizing j with
  | nil => rfl
  | cons b l ih =>
    cases b with
    | false => show axisOf l (posOf l j) = _; exact ih j
    | true =>
      cases j with
      | zero => rfl
      | succ j => show (axisOf l (posOf l j)).map (· + 1) = _; rw [ih]; rfl

theorem posOf_lt (l : List Bool) {nd j : Nat} (h : l.count true ≤ nd) (hj : j < nd) :
    posOf l j < nd + l.count false := by
  induction l generalizing nd j with
  | nil => simpa [posOf] using hj
  | cons b l ih =>
    cases b with
    | false =>
      have : posOf l j < nd + l.count false := ih (by simpa using h) hj
      show posOf l j + 1 < _
      rw [List.count_cons_self]; omega
    | true =>
      rw [List.count_cons_self] at h
      rw [List.count_cons_of_ne (by simp)]
      cases j with
      | zero => show 0 < _; omega
      | succ j =>
        have : posOf l j < (nd - 1) + l.count false := ih (by omega) (by omega)
        show posOf l j + 1 < _; omega

theorem newAxes_ok {a r : NDArray α} {l : List Bool} (h : a.newAxes l = .ok r) :
    r.ndim = a.ndim + l.count false ∧
    (∀ j < a.ndim, r.shape (posOf l j) = a.shape j) ∧
    (∀ k, axisOf l k = none → r.shape k = 1) ∧
    (∀ k j, axisOf l k = some j → r.shape k = a.shape j) ∧
    (∀ idx, r.bget idx = a.bget fun j => idx (posOf l j)) ∧
    ∀ idx, r.get idx = a.get fun j => idx (posOf l j) := by
  unfold newAxes at h
  split_ifs at h with hc
  cases h
  have hp : ∀ j < a.ndim, posOf l j < a.ndim + l.count false := fun j hj =>
    posOf_lt l (by omega) hj
  have hs : ∀ j < a.ndim,
      (match axisOf l (posOf l j) with | none => 1 | some j => a.shape j) = a.shape j := by
    intro j _; rw [axisOf_posOf]
  refine ⟨rfl, hs, ?_, ?_, fun idx => a.reaxis_bget hp hs idx, fun idx => a.reaxis_get hp idx⟩
  · intro k hk
    show (match axisOf l k with | none => 1 | some j => a.shape j) = 1
    rw [hk]
  · intro k j hk
    show (match axisOf l k with | none => 1 | some j => a.shape j) = _
    rw [hk]

theorem newAxes_isOk {a : NDArray α} {l : List Bool} (h : l.count true ≤ a.ndim) :
    ∃ r, a.newAxes l = .ok r := by
  unfold newAxes
  rw [if_neg (by omega)]
  exact ⟨_, rfl⟩

theorem posOf_true (a : Nat) (l : List Bool) (j : Nat) :
    posOf (List.replicate a true ++ l) j = if j < a then j else a + posOf l (j - a) := by
  induction a generalizing j with
  | zero => simp
  | succ a ih =>
    rw [List.replicate_succ, List.cons_append]
    cases j with
    | zero => rfl
    | succ j =>
      show posOf (List.replicate a true ++ l) j + 1 = _
      rw [ih]
      by_cases h : j < a
      · rw [if_pos h, if_pos (by omega)]
      · rw [if_neg h, if_neg (by omega), show j + 1 - (a + 1) = j - a by omega]; omega

theorem posOf_false (a : Nat) (l : List Bool) (j : Nat) :
    posOf (List.replicate a false ++ l) j = a + posOf l j := by
  induction a with
  | zero => simp
  | succ a ih =>
    rw [List.replicate_succ, List.cons_append]
    show posOf (List.replicate a false ++ l) j + 1 = _
    rw [ih]; omega

theorem posOf_block {x X : Nat} (h : x = 0 ∨ x = X) (l : List Bool) (j : Nat) :
    posOf (List.replicate X (decide (0 < x)) ++ l) j = if j < x then j else X + posOf l (j - x) := by
  rcases Nat.eq_zero_or_pos x with h0 | h0
  · subst h0
    rw [decide_eq_false (by omega), posOf_false, if_neg (by omega), Nat.sub_zero]
  · have : x = X := by rcases h with h | h; omega; exact h
    subst this
    rw [decide_eq_true h0, posOf_true]

theorem count_block_true {x X : Nat} (h : x = 0 ∨ x = X) :
    (List.replicate X (decide (0 < x))).count true = x := by
  rcases Nat.eq_zero_or_pos x with h0 | h0
  · subst h0; rw [decide_eq_false (by omega)]; simp [List.count_replicate]
  · have : x = X := by rcases h with h | h; omega; exact h
    subst this
    rw [decide_eq_true h0]; simp

theorem count_block_false {x X : Nat} (h : x = 0 ∨ x = X) :
    (List.replicate X (decide (0 < x))).count false = X - x := by
  rcases Nat.eq_zero_or_pos x with h0 | h0
  · subst h0; rw [decide_eq_false (by omega)]; simp
  · have : x = X := by rcases h with h | h; omega; exact h
    subst this
    rw [decide_eq_true h0]; simp [List.count_replicate]

theorem axisOf_true (a : Nat) (l : List Bool) (k : Nat) :
    axisOf (List.replicate a true ++ l) k = if k < a then some k else (axisOf l (k - a)).map (a + ·) := by
  induction a generalizing k with
  | zero => simp
  | succ a ih =>
    rw [List.replicate_succ, List.cons_append]
    cases k with
    | zero => rfl
    | succ k =>
      show (axisOf (List.replicate a true ++ l) k).map (· + 1) = _
      rw [ih]
      by_cases h : k < a
      · rw [if_pos h, if_pos (by omega)]; rfl
      · rw [if_neg h, if_neg (by omega), show k + 1 - (a + 1) = k - a by omega, Option.map_map]
        congr 1
        funext z; simp only [Function.comp]; omega

theorem axisOf_false (a : Nat) (l : List Bool) (k : Nat) :
    axisOf (List.replicate a false ++ l) k = if k < a then none else axisOf l (k - a) := by
  induction a generalizing k with
  | zero => simp
  | succ a ih =>
    rw [List.replicate_succ, List.cons_append]
    cases k with
    | zero => rfl
    | succ k =>
      show axisOf (List.replicate a false ++ l) k = _
      rw [ih]
      by_cases h : k < a
      · rw [if_pos h, if_pos (by omega)]
      · rw [if_neg h, if_neg (by omega), show k + 1 - (a + 1) = k - a by omega]

theorem axisOf_block {x X : Nat} (h : x = 0 ∨ x = X) (l : List Bool) (k : Nat) :
    axisOf (List.replicate X (decide (0 < x)) ++ l) k =
      if k < X then (if x = 0 then none else some k) else (axisOf l (k - X)).map (x + ·) := by
  rcases Nat.eq_zero_or_pos x with h0 | h0
  · subst h0
    rw [decide_eq_false (by omega), axisOf_false]
    by_cases hk : k < X
    · rw [if_pos hk, if_pos hk, if_pos rfl]
    · rw [if_neg hk, if_neg hk]
      cases axisOf l (k - X) <;> simp
  · have : x = X := by rcases h with h | h; omega; exact h
    subst this
    rw [decide_eq_true h0, axisOf_true]
    by_cases hk : k < x
    · rw [if_pos hk, if_pos hk, if_neg (by omega)]
    · rw [if_neg hk, if_neg hk]

/-! ### elementwise operations -/

theorem map_get (f : α → β) (a : NDArray α) (idx : Nat → Nat) : (a.map f).get idx = f (a.get idx) := by
  unfold map
  rw [mk_get]
  congr 1
  apply get_congr
  intro k hk
  rw [if_pos hk]

theorem map_bget (f : α → β) (a : NDArray α) (idx : Nat → Nat) :
    (a.map f).bget idx = f (a.bget idx) := by
  unfold bget
  rw [map_get]; rfl

@[simp] theorem map_ndim (f : α → β) (a : NDArray α) : (a.map f).ndim = a.ndim := rfl

@[simp] theorem map_shape (f : α → β) (a : NDArray α) : (a.map f).shape = a.shape := rfl

theorem zipWith_ok {f : α → α → α} {a b r : NDArray α} (h : zipWith f a b = .ok r)
    (hn : b.ndim = a.ndim) :
    r.ndim = a.ndim ∧ (∀ k, r.shape k = if a.shape k = 1 then b.shape k else a.shape k) ∧
    (∀ k < a.ndim, a.shape k = b.shape k ∨ a.shape k = 1 ∨ b.shape k = 1) ∧
    ∀ idx, r.bget idx = f (a.bget idx) (b.bget idx) := by
  unfold zipWith at h
  split_ifs at h with hc
  cases h
  refine ⟨rfl, fun k => rfl, hc, fun idx => ?_⟩
  unfold bget
  rw [mk_get]
  congr 1
  · apply get_congr
    intro k hk
    by_cases h1 : a.shape k = 1
    · rw [if_pos h1, if_pos h1]
    · rw [if_neg h1, if_neg h1]; dsimp only; rw [if_pos hk]
      show (if (if a.shape k = 1 then b.shape k else a.shape k) = 1 then 0 else idx k) = idx k
      rw [if_neg h1, if_neg h1]
  · apply get_congr
    intro k hk
    rw [hn] at hk
    by_cases h1 : b.shape k = 1
    · rw [if_pos h1, if_pos h1]
    · rw [if_neg h1, if_neg h1]; dsimp only; rw [if_pos hk]
      show (if (if a.shape k = 1 then b.shape k else a.shape k) = 1 then 0 else idx k) = idx k
      by_cases h2 : a.shape k = 1
      · rw [if_pos h2, if_neg h1]
      · rw [if_neg h2, if_neg h2]

theorem zipWith_isOk {f : α → α → α} {a b : NDArray α}
    (h : ∀ k < a.ndim, a.shape k = b.shape k ∨ a.shape k = 1 ∨ b.shape k = 1) :
    ∃ r, zipWith f a b = .ok r := by
  unfold zipWith
  rw [if_pos h]
  exact ⟨_, rfl⟩

theorem padFront_self (a : NDArray α) : (a.padFront a.ndim).ndim = a.ndim ∧
    (∀ k, (a.padFront a.ndim).shape k = a.shape k) ∧
    (∀ idx, (a.padFront a.ndim).bget idx = a.bget idx) := by
  refine ⟨rfl, fun k => ?_, fun idx => ?_⟩
  · show (if k < a.ndim - a.ndim then 1 else a.shape (k - (a.ndim - a.ndim))) = _
    rw [if_neg (by omega)]; congr 1; omega
  · unfold padFront
    rw [reaxis_bget]
    · apply bget_congr'
      intro k hk; congr 1; omega
    · intro j hj; omega
    · intro j hj
      rw [if_neg (by omega)]; congr 1; omega

/-- Broadcasting of arrays with the same number of axes. -/
theorem binary_ok {f : α → α → α} {a b r : NDArray α} (h : binary f a b = .ok r)
    (hn : b.ndim = a.ndim) :
    r.ndim = a.ndim ∧ (∀ k, r.shape k = if a.shape k = 1 then b.shape k else a.shape k) ∧
    (∀ k < a.ndim, a.shape k = b.shape k ∨ a.shape k = 1 ∨ b.shape k = 1) ∧
    ∀ idx, r.bget idx = f (a.bget idx) (b.bget idx) := by
  unfold binary at h
  rw [hn, max_self] at h
  have ha := a.padFront_self
  have hb := b.padFront_self
  rw [hn] at hb
  obtain ⟨h1, h2, h3, h4⟩ := zipWith_ok h (by rw [ha.1, hb.1])
  refine ⟨h1.trans ha.1, fun k => ?_, fun k hk => ?_, fun idx => ?_⟩
  · rw [h2, ha.2.1, hb.2.1]
  · have := h3 k (by rw [ha.1]; exact hk)
    rwa [ha.2.1, hb.2.1] at this
  · rw [h4, ha.2.2, hb.2.2]

theorem binary_isOk {f : α → α → α} {a b : NDArray α} (hn : b.ndim = a.ndim)
    (h : ∀ k < a.ndim, a.shape k = b.shape k ∨ a.shape k = 1 ∨ b.shape k = 1) :
    ∃ r, binary f a b = .ok r := by
  unfold binary
  rw [hn, max_self]
  have ha := a.padFront_self
  have hb := b.padFront_self
  rw [hn] at hb
  apply zipWith_isOk
  intro k hk
  rw [ha.2.1, hb.2.1]
  exact h k hk

theorem bcast_eq_one {s t : Nat} : (if s = 1 then t else s) = 1 ↔ s = 1 ∧ t = 1 := by
  by_cases h : s = 1
  · simp [h]
  · simp [h]

theorem scalar_bget (c : α) (idx : Nat → Nat) : (scalar c).bget idx = c := rfl

theorem eyeAt_bget [Zero α] [One α] {nd n i j : Nat} (hi : i < nd) (hj : j < nd) (idx : Nat → Nat) :
    (eyeAt nd n i j : NDArray α).bget idx = if n = 1 ∨ idx i = idx j then 1 else 0 := by
  unfold bget
  unfold eyeAt
  rw [mk_get]
  simp only [hi, hj, if_true, true_or, or_true]
  by_cases h : n = 1
  · simp [h]
  · simp [h]

end NDArray
end Verif.Tens
