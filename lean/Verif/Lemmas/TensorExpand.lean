import Verif.Lemmas.NDArray
import Mathlib.Data.List.GetD

/-!
# `arr_expand_diag` and `toarray`
-/

set_option linter.unusedSectionVars false

namespace Verif.Tens
open Verif.Params (Err)
open NDArray

variable {α : Type} [Field α]

/-- The mapped axes, at positions `q + k0, …`, are in range, of size 1, and their value axes exist. -/
def DiagPre (q p k0 : Nat) (fs : List Int) (arr : NDArray α) : Prop :=
  ∀ j < fs.length, 0 ≤ fs.getD j (-1) → q + k0 + j < p ∧ p + (fs.getD j (-1)).toNat < arr.ndim ∧
    arr.shape (q + k0 + j) = 1

/-- The mapped axes of a multi-index agree with their value axes. -/
def DiagAgree (q p k0 : Nat) (fs : List Int) (idx : Nat → Nat) : Prop :=
  ∀ j < fs.length, 0 ≤ fs.getD j (-1) → idx (q + k0 + j) = idx (p + (fs.getD j (-1)).toNat)

instance (q p k0 : Nat) (fs : List Int) (idx : Nat → Nat) : Decidable (DiagAgree q p k0 fs idx) :=
  inferInstanceAs (Decidable (∀ j < fs.length, _))

theorem forall_cons {P : Nat → Int → Prop} {f : Int} {fs : List Int} :
    (∀ j < (f :: fs).length, 0 ≤ (f :: fs).getD j (-1) → P j ((f :: fs).getD j (-1))) ↔
      (0 ≤ f → P 0 f) ∧ ∀ j < fs.length, 0 ≤ fs.getD j (-1) → P (j + 1) (fs.getD j (-1)) := by
  constructor
  · intro h
    refine ⟨fun h0 => ?_, fun j hj h0 => ?_⟩
    · exact h 0 (by simp) h0
    · exact h (j + 1) (by simpa using hj) h0
  · rintro ⟨h1, h2⟩ j hj h0
    cases j with
    | zero => exact h1 h0
    | succ j => exact h2 j (by simpa using hj) h0

theorem diagAgree_cons {q p k0 : Nat} {f : Int} {fs : List Int} {idx : Nat → Nat} :
    DiagAgree q p k0 (f :: fs) idx ↔
      (0 ≤ f → idx (q + k0) = idx (p + f.toNat)) ∧ DiagAgree q p (k0 + 1) fs idx := by
  unfold DiagAgree
  rw [forall_cons (P := fun j f => idx (q + k0 + j) = idx (p + f.toNat))]
  simp only [Nat.add_zero]
  have : ∀ j, q + k0 + (j + 1) = q + (k0 + 1) + j := fun j => by omega
  simp only [this]

theorem diagPre_cons {q p k0 : Nat} {f : Int} {fs : List Int} {arr : NDArray α} :
    DiagPre q p k0 (f :: fs) arr ↔
      (0 ≤ f → q + k0 < p ∧ p + f.toNat < arr.ndim ∧ arr.shape (q + k0) = 1) ∧
        DiagPre q p (k0 + 1) fs arr := by
  unfold DiagPre
  rw [forall_cons (P := fun j f => q + k0 + j < p ∧ p + f.toNat < arr.ndim ∧ arr.shape (q + k0 + j) = 1)]
  simp only [Nat.add_zero]
  have : ∀ j, q + k0 + (j + 1) = q + (k0 + 1) + j := fun j => by omega
  simp only [this]

/-- `arr_expand_diag` never raises on diagonal storage, and yields the diagonal array. -/
theorem arrExpandDiag_ok {q p : Nat} (fs : List Int) (k0 : Nat) (arr : NDArray α)
    (h : DiagPre q p k0 fs arr) :
    ∃ r, arrExpandDiag q p k0 fs arr = .ok r ∧ r.ndim = arr.ndim ∧
      (∀ m, (∀ j < fs.length, 0 ≤ fs.getD j (-1) → m ≠ q + k0 + j) → r.shape m = arr.shape m) ∧
      (∀ j < fs.length, 0 ≤ fs.getD j (-1) →
        r.shape (q + k0 + j) = arr.shape (p + (fs.getD j (-1)).toNat)) ∧
      ∀ idx, (∀ j < fs.length, 0 ≤ fs.getD j (-1) → arr.shape (p + (fs.getD j (-1)).toNat) = 1 →
          idx (q + k0 + j) = idx (p + (fs.getD j (-1)).toNat)) →
        r.bget idx = if DiagAgree q p k0 fs idx then arr.bget idx else 0 := by
  induction fs generalizing k0 arr with
  | nil =>
    refine ⟨arr, rfl, rfl, fun _ _ => rfl, fun j hj => by simp at hj, fun idx _ => ?_⟩
    rw [if_pos]
    intro j hj
    simp at hj
  | cons f fs ih =>
    rw [diagPre_cons] at h
    obtain ⟨hf, hfs⟩ := h
    unfold arrExpandDiag
    by_cases h0 : f < 0
    · rw [if_pos h0]
      obtain ⟨r, h1, h2, h3, h4, h5⟩ := ih (k0 + 1) arr hfs
      refine ⟨r, h1, h2, ?_, ?_, ?_⟩
      · intro m hm
        apply h3
        intro j hj hj0
        have := hm (j + 1) (by simpa using hj) hj0
        omega
      · intro j hj hj0
        cases j with
        | zero => exact absurd hj0 (by simpa using h0)
        | succ j =>
          have := h4 j (by simpa using hj) hj0
          rw [show q + k0 + (j + 1) = q + (k0 + 1) + j by omega]
          exact this
      · intro idx hidx
        rw [h5 idx]
        · refine if_congr ?_ rfl rfl
          rw [diagAgree_cons]
          constructor
          · intro h; exact ⟨fun h' => absurd h' (by omega), h⟩
          · intro h; exact h.2
        · intro j hj hj0 h1
          have := hidx (j + 1) (by simpa using hj) hj0 h1
          rw [show q + k0 + (j + 1) = q + (k0 + 1) + j by omega] at this
          exact this
    · rw [if_neg h0]
      obtain ⟨hq, hp, hone⟩ := hf (by omega)
      set N := arr.shape (p + f.toNat) with hN
      have hsh : ∀ k, (eyeAt arr.ndim N (q + k0) (p + f.toNat) : NDArray α).shape k =
          if k = q + k0 ∨ k = p + f.toNat then N else 1 := fun k => rfl
      have hok : ∃ r, zipWith (· * ·) arr (eyeAt arr.ndim N (q + k0) (p + f.toNat) : NDArray α) = .ok r := by
        apply zipWith_isOk
        intro k hk
        rw [hsh]
        by_cases hk1 : k = q + k0
        · right; left; rw [hk1]; exact hone
        · by_cases hk2 : k = p + f.toNat
          · left; rw [if_pos (Or.inr hk2), hk2]
          · right; right; rw [if_neg (not_or.2 ⟨hk1, hk2⟩)]
      obtain ⟨arr1, ha⟩ := hok
      rw [ha]
      obtain ⟨a1, a2, a3, a4⟩ := zipWith_ok ha rfl
      have a2' : ∀ m, arr1.shape m = if m = q + k0 then N else arr.shape m := by
        intro m
        rw [a2, hsh]
        by_cases hm : m = q + k0
        · rw [if_pos hm, if_pos (by rw [hm]; exact hone), if_pos (Or.inl hm)]
        · rw [if_neg hm]
          by_cases hm2 : m = p + f.toNat
          · rw [if_pos (Or.inr hm2), hm2, ← hN]; split_ifs <;> rfl
          · rw [if_neg (not_or.2 ⟨hm, hm2⟩)]; split_ifs with h1
            · exact h1.symm
            · rfl
      have hpre : DiagPre q p (k0 + 1) fs arr1 := by
        intro j hj hj0
        obtain ⟨b1, b2, b3⟩ := hfs j hj hj0
        refine ⟨b1, by rw [a1]; exact b2, ?_⟩
        rw [a2', if_neg (by omega)]; exact b3
      obtain ⟨r, h1, h2, h3, h4, h5⟩ := ih (k0 + 1) arr1 hpre
      refine ⟨r, h1, h2.trans a1, ?_, ?_, ?_⟩
      · intro m hm
        have hm0 := hm 0 (by simp) (by simpa using h0)
        rw [h3 m, a2', if_neg (by omega)]
        intro j hj hj0
        have := hm (j + 1) (by simpa using hj) hj0
        omega
      · intro j hj hj0
        cases j with
        | zero =>
          rw [h3, a2', if_pos (by omega)]
          · rfl
          · intro j hj hj0; omega
        | succ j =>
          have hj' : j < fs.length := by simpa using hj
          have := h4 j hj' hj0
          rw [show q + k0 + (j + 1) = q + (k0 + 1) + j by omega, this, a2']
          obtain ⟨b1, _⟩ := hfs j hj' hj0
          rw [if_neg (by omega)]
          rfl
      · intro idx hidx
        rw [h5 idx, a4, eyeAt_bget (by omega) hp]
        · by_cases hag : DiagAgree q p (k0 + 1) fs idx
          · rw [if_pos hag]
            by_cases h0' : idx (q + k0) = idx (p + f.toNat)
            · rw [if_pos (Or.inr h0'), if_pos, mul_one]
              rw [diagAgree_cons]; exact ⟨fun _ => h0', hag⟩
            · rw [if_neg, if_neg, mul_zero]
              · rw [diagAgree_cons]; intro hh; exact h0' (hh.1 (by omega))
              · rintro (hh | hh)
                · exact h0' (hidx 0 (by simp) (by simpa using h0) hh)
                · exact h0' hh
          · rw [if_neg hag, if_neg]
            rw [diagAgree_cons]; intro hh; exact hag hh.2
        · intro j hj hj0 hs
          obtain ⟨b1, _⟩ := hfs j hj hj0
          rw [a2', if_neg (by omega)] at hs
          have := hidx (j + 1) (by simpa using hj) hj0 hs
          rw [show q + k0 + (j + 1) = q + (k0 + 1) + j by omega] at this
          exact this

section
variable {β : Type} {t : Tensor β}

theorem Tensor.flat_x (i : Idx) {k : Nat} (hk : k < t.xDim) : t.flat i k = i.x k := by
  unfold Tensor.flat Tens.flat; rw [if_pos hk]

theorem Tensor.flat_y (i : Idx) {k : Nat} (hk : k < t.yDim) : t.flat i (t.xDim + k) = i.y k := by
  unfold Tensor.flat Tens.flat
  rw [if_neg (by omega), if_pos (by omega)]; congr 1; omega

theorem Tensor.flat_n (i : Idx) {k : Nat} (hk : k < t.n) : t.flat i (t.xDim + t.yDim + k) = i.n k := by
  unfold Tensor.flat Tens.flat
  rw [if_neg (by omega), if_neg (by omega), if_pos (by omega)]; congr 1; omega

theorem Tensor.flat_d (i : Idx) (k : Nat) : t.flat i (t.xDim + t.yDim + t.n + k) = i.d k := by
  unfold Tensor.flat Tens.flat
  rw [if_neg (by omega), if_neg (by omega), if_neg (by omega)]; congr 1; omega

theorem Tensor.WF.nd (h : t.WF) : t.values.ndim = t.xDim + t.yDim + t.n + t.dim := by
  have := h.ndim
  unfold Tensor.n
  omega

theorem getD_mem {l : List Int} {k : Nat} (h0 : 0 ≤ l.getD k (-1)) : l.getD k (-1) ∈ l := by
  by_cases hk : k < l.length
  · rw [List.getD_eq_getElem _ _ hk]; exact List.getElem_mem hk
  · rw [List.getD_eq_default _ _ (by omega)] at h0; omega

theorem Tensor.WF.xR (h : t.WF) {k : Nat} (h0 : 0 ≤ t.xMap.getD k (-1)) :
    (t.xMap.getD k (-1)).toNat < t.n := by
  have := h.xRange _ (getD_mem h0); omega

theorem Tensor.WF.yR (h : t.WF) {k : Nat} (h0 : 0 ≤ t.yMap.getD k (-1)) :
    (t.yMap.getD k (-1)).toNat < t.n := by
  have := h.yRange _ (getD_mem h0); omega

theorem Tensor.WF.diagX (h : t.WF) (i : Idx) :
    DiagAgree 0 (t.xDim + t.yDim) 0 t.xMap (t.flat i) ↔ Agrees t.xMap i.x i.n := by
  unfold DiagAgree Agrees
  refine forall_congr' fun k => forall_congr' fun hk => forall_congr' fun h0 => ?_
  have := h.xLen
  rw [show 0 + 0 + k = k by omega, Tensor.flat_x i (by omega), Tensor.flat_n i (h.xR h0)]

theorem Tensor.WF.diagY (h : t.WF) (i : Idx) :
    DiagAgree t.xDim (t.xDim + t.yDim) 0 t.yMap (t.flat i) ↔ Agrees t.yMap i.y i.n := by
  unfold DiagAgree Agrees
  refine forall_congr' fun k => forall_congr' fun hk => forall_congr' fun h0 => ?_
  have := h.yLen
  rw [show t.xDim + 0 + k = t.xDim + k by omega, Tensor.flat_y i (by omega), Tensor.flat_n i (h.yR h0)]

end

variable {t : Tensor α}

omit [Field α] in
theorem getD_neg_of_ge {l : List Int} {k : Nat} (h : l.length ≤ k) : ¬ 0 ≤ l.getD k (-1) := by
  rw [List.getD_eq_default _ _ h]; omega

theorem Tensor.toarray_ok (h : t.WF) : ∃ r, t.toarray = .ok r ∧ r.ndim = t.values.ndim ∧
    (∀ k, r.shape k = t.fullShape k) ∧
    ∀ i, InRange r (t.flat i) → r.get (t.flat i) = t.dense i := by
  have hnd := h.nd
  have hxl := h.xLen
  have hyl := h.yLen
  have h1 : DiagPre 0 (t.xDim + t.yDim) 0 t.xMap t.values := by
    intro j hj h0
    have := h.xR h0
    exact ⟨by omega, by omega, by rw [show 0 + 0 + j = j by omega]; exact h.xOne j hj h0⟩
  obtain ⟨a, ha, a1, a2, a3, a4⟩ := arrExpandDiag_ok t.xMap 0 t.values h1
  have h2 : DiagPre t.xDim (t.xDim + t.yDim) 0 t.yMap a := by
    intro j hj h0
    have := h.yR h0
    refine ⟨by omega, by omega, ?_⟩
    rw [a2 _ (by intro j' hj' _; omega), show t.xDim + 0 + j = t.xDim + j by omega]
    exact h.yOne j hj h0
  obtain ⟨r, hr, r1, r2, r3, r4⟩ := arrExpandDiag_ok t.yMap 0 a h2
  have hn : ∀ f, a.shape (t.xDim + t.yDim + f) = t.values.shape (t.xDim + t.yDim + f) := by
    intro f; apply a2; intro j hj _; omega
  have hn' : ∀ f, r.shape (t.xDim + t.yDim + f) = t.values.shape (t.xDim + t.yDim + f) := by
    intro f; rw [r2, hn]; intro j hj _; omega
  have hx : ∀ j < t.xMap.length, 0 ≤ t.xMap.getD j (-1) → r.shape j =
      t.values.shape (t.xDim + t.yDim + (t.xMap.getD j (-1)).toNat) := by
    intro j hj h0
    rw [r2, ← a3 j hj h0]
    · rw [show 0 + 0 + j = j by omega]
    · intro j' hj' _; omega
  have hy : ∀ j < t.yMap.length, 0 ≤ t.yMap.getD j (-1) → r.shape (t.xDim + j) =
      t.values.shape (t.xDim + t.yDim + (t.yMap.getD j (-1)).toNat) := by
    intro j hj h0
    rw [← hn, ← r3 j hj h0, show t.xDim + 0 + j = t.xDim + j by omega]
  refine ⟨r, ?_, r1.trans a1, ?_, ?_⟩
  · unfold Tensor.toarray; rw [ha]; exact hr
  · intro k
    unfold Tensor.fullShape
    by_cases hk : k < t.xDim
    · rw [if_pos hk]
      by_cases h0 : 0 ≤ t.xMap.getD k (-1)
      · rw [if_pos h0]
        apply hx k _ h0
        by_contra hlt; exact getD_neg_of_ge (by omega) h0
      · rw [if_neg h0, r2, a2]
        · intro j hj h0' e
          rw [show k = j by omega] at h0; exact h0 h0'
        · intro j hj h0'; omega
    · rw [if_neg hk]
      by_cases hk2 : k < t.xDim + t.yDim
      · rw [if_pos hk2]
        by_cases h0 : 0 ≤ t.yMap.getD (k - t.xDim) (-1)
        · rw [if_pos h0]
          have := hy (k - t.xDim) (by by_contra hlt; exact getD_neg_of_ge (by omega) h0) h0
          rwa [show t.xDim + (k - t.xDim) = k by omega] at this
        · rw [if_neg h0, r2, a2]
          · intro j hj h0'; omega
          · intro j hj h0' e
            rw [show k - t.xDim = j by omega] at h0; exact h0 h0'
      · rw [if_neg hk2]
        have := hn' (k - (t.xDim + t.yDim))
        rwa [show t.xDim + t.yDim + (k - (t.xDim + t.yDim)) = k by omega] at this
  · intro i hi
    have hir : ∀ k < r.ndim, t.flat i k < r.shape k := hi
    have hz : ∀ f < t.n, t.values.shape (t.xDim + t.yDim + f) = 1 → t.flat i (t.xDim + t.yDim + f) = 0 := by
      intro f hf h1
      have := hir (t.xDim + t.yDim + f) (by omega)
      rw [hn', h1] at this; omega
    rw [get_eq_bget r hi, r4, a4]
    · unfold Tensor.dense
      by_cases hY : DiagAgree t.xDim (t.xDim + t.yDim) 0 t.yMap (t.flat i)
      · by_cases hX : DiagAgree 0 (t.xDim + t.yDim) 0 t.xMap (t.flat i)
        · rw [if_pos hY, if_pos hX, if_pos ⟨(h.diagX i).1 hX, (h.diagY i).1 hY⟩]
        · rw [if_pos hY, if_neg hX, if_neg fun hh => hX ((h.diagX i).2 hh.1)]
      · rw [if_neg hY, if_neg fun hh => hY ((h.diagY i).2 hh.2)]
    · intro j hj h0 hs
      have := hir j (by omega)
      rw [hx j hj h0, hs] at this
      rw [hz _ (h.xR h0) hs, show 0 + 0 + j = j by omega]; omega
    · intro j hj h0 hs
      have := hir (t.xDim + j) (by have := h.yR h0; omega)
      rw [hy j hj h0, ← hn, hs] at this
      rw [hn] at hs
      rw [hz _ (h.yR h0) hs, show t.xDim + 0 + j = t.xDim + j by omega]; omega

end Verif.Tens
