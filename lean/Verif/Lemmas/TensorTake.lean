import Verif.Lemmas.TensorReshape

/-!
# `arr_take_diag`
-/

set_option linter.unusedSectionVars false

namespace Verif.Tens
open Verif.Params (Err)
open NDArray

variable {α : Type}

theorem diagonal_bget (a : NDArray α) {a1 a2 : Nat} (h1 : a1 < a2) (h2 : a2 < a.ndim)
    (hs : a.shape a1 = a.shape a2) (idx : Nat → Nat) :
    (a.diagonal a1 a2).bget idx = a.bget fun j => idx (if j = a1 ∨ j = a2 then a.ndim - 2
      else if j < a1 then j else if j < a2 then j - 1 else j - 2) := by
  unfold diagonal
  apply reaxis_bget
  · intro j hj; split_ifs <;> omega
  · intro j hj
    by_cases c : j = a1 ∨ j = a2
    · rw [if_pos c, if_pos rfl, hs, Nat.min_self]
      rcases c with rfl | rfl
      · exact hs.symm
      · rfl
    · rw [if_neg c]
      rw [not_or] at c
      by_cases c1 : j < a1
      · rw [if_pos c1, if_neg (by omega), if_pos c1]
      · rw [if_neg c1]
        by_cases c2 : j < a2
        · rw [if_pos c2, if_neg (by omega), if_neg (by omega), if_pos (by omega)]; congr 1; omega
        · rw [if_neg c2, if_neg (by omega), if_neg (by omega), if_neg (by omega)]; congr 1; omega

/-- One step of `arr_take_diag` for an axis `a1` and a value axis `a2` that is one of the last two axes;
the new axis is inserted at `k`, which is right if the axes between `k` and `a1` have size 1. -/
theorem takeStep_ok (a : NDArray α) {a1 a2 k : Nat} (hk : k ≤ a1) (h1 : a1 < a2) (h2 : a2 < a.ndim)
    (h3 : a.ndim ≤ a2 + 2) (hs : a.shape a1 = a.shape a2) (hone : ∀ j, k ≤ j → j < a1 → a.shape j = 1) :
    (((a.diagonal a1 a2).swapaxes (a.ndim - 2) (a2 - 1)).expandDims k).ndim = a.ndim ∧
    (∀ j < a.ndim, (((a.diagonal a1 a2).swapaxes (a.ndim - 2) (a2 - 1)).expandDims k).shape j =
      if j = a1 then 1 else a.shape j) ∧
    ∀ idx, (((a.diagonal a1 a2).swapaxes (a.ndim - 2) (a2 - 1)).expandDims k).bget idx =
      a.bget fun j => if j = a1 then idx a2 else idx j := by
  have hd : (a.diagonal a1 a2).ndim = a.ndim - 1 := rfl
  refine ⟨?_, fun j hj => ?_, fun idx => ?_⟩
  · show a.ndim - 1 + 1 = a.ndim; omega
  · have key : ∀ m < a.ndim - 1, ((a.diagonal a1 a2).swapaxes (a.ndim - 2) (a2 - 1)).shape m =
        a.shape (if m < a1 then m else m + 1) := by
      intro m hm
      rw [swapaxes_shape]
      show (if _ = a.ndim - 2 then min (a.shape a1) (a.shape a2) else a.shape _) = _
      rw [hs, Nat.min_self]
      by_cases c : m = a2 - 1
      · have : (if m = a.ndim - 2 then a2 - 1 else if m = a2 - 1 then a.ndim - 2 else m) = a.ndim - 2 := by
          split_ifs <;> omega
        rw [this, if_pos rfl, if_neg (by omega)]; congr 1; omega
      · have : (if m = a.ndim - 2 then a2 - 1 else if m = a2 - 1 then a.ndim - 2 else m) =
            if m = a.ndim - 2 then a2 - 1 else m := by split_ifs <;> rfl
        rw [this]
        rw [if_neg (by split_ifs <;> omega)]
        congr 1
        split_ifs <;> omega
    show (if j < k then _ else if j = k then 1 else _) = _
    by_cases c1 : j < k
    · rw [if_pos c1, key j (by omega), if_pos (by omega), if_neg (by omega)]
    · rw [if_neg c1]
      by_cases c2 : j = k
      · rw [if_pos c2]
        split_ifs with c3
        · rfl
        · exact (hone j (by omega) (by omega)).symm
      · rw [if_neg c2, key (j - 1) (by omega)]
        by_cases c3 : j = a1
        · rw [if_pos c3, if_pos (by omega), hone _ (by omega) (by omega)]
        · rw [if_neg c3]
          by_cases c4 : j < a1
          · rw [if_pos (by omega), hone _ (by omega) (by omega), hone _ (by omega) c4]
          · rw [if_neg (by omega)]; congr 1; omega
  · rw [expandDims_bget, swapaxes_bget _ (by omega) (by omega), diagonal_bget a h1 h2 hs]
    apply bget_congr
    intro j hj hj1
    have hjk : j < k ∨ a1 ≤ j := by
      by_contra hc
      exact hj1 (hone j (by omega) (by omega))
    by_cases c : j = a1 ∨ j = a2
    · rw [if_pos c]
      have e : (if j = a1 then idx a2 else idx j) = idx a2 := by
        rcases c with rfl | rfl
        · rw [if_pos rfl]
        · split_ifs <;> rfl
      rw [e, if_pos rfl]
      congr 1
      split_ifs <;> omega
    · rw [if_neg c]
      rw [not_or] at c
      rw [if_neg c.1]
      congr 1
      split_ifs <;> omega

/-- When `arr_take_diag` is right: each mapped axis comes before its value axis, which is one of the last
two axes and has the same size; axes between the position `k0 + j` (where the new axis is inserted) and
the mapped axis have size 1 or are mapped. -/
def TakePre (q p k0 : Nat) (fs : List Int) (arr : NDArray α) : Prop :=
  ∀ j < fs.length, 0 ≤ fs.getD j (-1) → q + k0 + j < p ∧ p + (fs.getD j (-1)).toNat < arr.ndim ∧
    arr.ndim ≤ p + (fs.getD j (-1)).toNat + 2 ∧
    arr.shape (q + k0 + j) = arr.shape (p + (fs.getD j (-1)).toNat) ∧
    ∀ m, k0 + j ≤ m → m < q + k0 + j → arr.shape m = 1 ∨
      ∃ l < j, 0 ≤ fs.getD l (-1) ∧ m = q + k0 + l

theorem arrTakeDiag_ok {q p : Nat} (fs : List Int) (k0 : Nat) (arr : NDArray α)
    (h : TakePre q p k0 fs arr) :
    (arrTakeDiag q p k0 fs arr).ndim = arr.ndim ∧
    (∀ m < arr.ndim, (∀ j < fs.length, 0 ≤ fs.getD j (-1) → m ≠ q + k0 + j) →
      (arrTakeDiag q p k0 fs arr).shape m = arr.shape m) ∧
    (∀ j < fs.length, 0 ≤ fs.getD j (-1) → (arrTakeDiag q p k0 fs arr).shape (q + k0 + j) = 1) ∧
    ∀ idx, DiagAgree q p k0 fs idx → (arrTakeDiag q p k0 fs arr).bget idx = arr.bget idx := by
  induction fs generalizing k0 arr with
  | nil => exact ⟨rfl, fun _ _ _ => rfl, fun j hj => by simp at hj, fun _ _ => rfl⟩
  | cons f fs ih =>
    unfold arrTakeDiag
    by_cases h0 : f < 0
    · rw [if_pos h0]
      have hpre : TakePre q p (k0 + 1) fs arr := by
        intro j hj hj0
        obtain ⟨b1, b2, b3, b4, b5⟩ := h (j + 1) (by simpa using hj) hj0
        rw [show q + (k0 + 1) + j = q + k0 + (j + 1) by omega]
        refine ⟨b1, b2, b3, b4, fun m hm1 hm2 => ?_⟩
        rcases b5 m (by omega) hm2 with hb | ⟨l, hl, hl0, hlm⟩
        · exact Or.inl hb
        · cases l with
          | zero => exact absurd hl0 (by simpa using h0)
          | succ l => exact Or.inr ⟨l, by omega, hl0, by omega⟩
      obtain ⟨e1, e2, e3, e4⟩ := ih (k0 + 1) arr hpre
      refine ⟨e1, fun m hmn hm => e2 m hmn fun j hj hj0 => ?_, fun j hj hj0 => ?_, fun idx hd => ?_⟩
      · have := hm (j + 1) (by simpa using hj) hj0
        omega
      · cases j with
        | zero => exact absurd hj0 (by simpa using h0)
        | succ j =>
          rw [show q + k0 + (j + 1) = q + (k0 + 1) + j by omega]
          exact e3 j (by simpa using hj) hj0
      · exact e4 idx (diagAgree_cons.1 hd).2
    · rw [if_neg h0]
      dsimp only
      obtain ⟨b1, b2, b3, b4, b5⟩ := h 0 (by simp) (by simpa using h0)
      simp only [List.getD_cons_zero, Nat.add_zero] at b1 b2 b3 b4 b5
      obtain ⟨s1, s2, s3⟩ := takeStep_ok arr (a1 := q + k0) (a2 := p + f.toNat) (k := k0) (by omega)
        (by omega) b2 b3 b4 (fun j hj1 hj2 => (b5 j hj1 hj2).resolve_right fun ⟨l, hl, _⟩ => by omega)
      rw [show (arr.diagonal (q + k0) (p + f.toNat)).ndim - 1 = arr.ndim - 2 by
        show arr.ndim - 1 - 1 = _; omega]
      set arr1 := ((arr.diagonal (q + k0) (p + f.toNat)).swapaxes (arr.ndim - 2)
        (p + f.toNat - 1)).expandDims k0 with harr1
      have hpre : TakePre q p (k0 + 1) fs arr1 := by
        intro j hj hj0
        obtain ⟨c1, c2, c3, c4, c5⟩ := h (j + 1) (by simpa using hj) hj0
        rw [show q + (k0 + 1) + j = q + k0 + (j + 1) by omega, s1]
        simp only [List.getD_cons_succ] at c1 c2 c3 c4 c5
        refine ⟨c1, c2, c3, ?_, fun m hm1 hm2 => ?_⟩
        · rw [s2 _ (by omega), s2 _ c2, if_neg (by omega), if_neg (by omega)]; exact c4
        · rw [s2 m (by omega)]
          by_cases hmq : m = q + k0
          · exact Or.inl (if_pos hmq)
          · rw [if_neg hmq]
            rcases c5 m (by omega) hm2 with hb | ⟨l, hl, hl0, hlm⟩
            · exact Or.inl hb
            · cases l with
              | zero => exact absurd hlm hmq
              | succ l => exact Or.inr ⟨l, by omega, hl0, by omega⟩
      obtain ⟨e1, e2, e3, e4⟩ := ih (k0 + 1) arr1 hpre
      refine ⟨e1.trans s1, fun m hmn hm => ?_, fun j hj hj0 => ?_, fun idx hd => ?_⟩
      · rw [e2 m (by omega), s2 m hmn, if_neg (by have := hm 0 (by simp) (by simpa using h0); omega)]
        intro j hj hj0
        have := hm (j + 1) (by simpa using hj) hj0
        omega
      · cases j with
        | zero =>
          rw [e2 _ (by omega), s2 _ (by omega), if_pos (by omega)]
          intro j hj hj0; omega
        | succ j =>
          rw [show q + k0 + (j + 1) = q + (k0 + 1) + j by omega]
          exact e3 j (by simpa using hj) hj0
      · obtain ⟨d1, d2⟩ := diagAgree_cons.1 hd
        rw [e4 idx d2, s3]
        apply bget_congr'
        intro j hj
        split_ifs with hjq
        · rw [hjq, d1 (by omega)]
        · rfl

end Verif.Tens
