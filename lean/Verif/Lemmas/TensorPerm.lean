import Verif.Lemmas.TensorExpand
import Mathlib.Data.List.Sort
import Mathlib.Data.List.Perm.Basic

/-!
# `argsort`, index masks and `transpose`, for `expand`
-/

set_option linter.unusedSectionVars false

namespace Verif.Tens
open NDArray

theorem posOf_append (l₁ l₂ : List Bool) (j : Nat) :
    posOf (l₁ ++ l₂) j =
      if j < l₁.count true then posOf l₁ j else l₁.length + posOf l₂ (j - l₁.count true) := by
  induction l₁ generalizing j with
  | nil => simp
  | cons b l₁ ih =>
    cases b with
    | false =>
      show posOf (l₁ ++ l₂) j + 1 = _
      rw [ih]
      have : (false :: l₁).count true = l₁.count true := by simp
      rw [this]
      split_ifs
      · rfl
      · rw [List.length_cons]; omega
    | true =>
      have hc : (true :: l₁).count true = l₁.count true + 1 := by simp
      rw [hc]
      cases j with
      | zero => rw [if_pos (by omega)]; rfl
      | succ j =>
        show posOf (l₁ ++ l₂) j + 1 = _
        rw [ih]
        by_cases h : j < l₁.count true
        · rw [if_pos h, if_pos (by omega)]; rfl
        · rw [if_neg h, if_neg (by omega), List.length_cons, Nat.add_sub_add_right]; omega

/-- The `r`-th selected position of a mask is the `r`-th element satisfying the predicate. -/
theorem posOf_filter (P : Nat → Bool) (m s r : Nat) (hr : r < ((List.range' s m).filter P).length) :
    posOf ((List.range' s m).map P) r + s = ((List.range' s m).filter P).getD r 0 := by
  induction m generalizing s r with
  | zero => simp at hr
  | succ m ih =>
    rw [List.range'_succ] at hr ⊢
    rw [List.map_cons]
    cases hP : P s with
    | false =>
      rw [List.filter_cons_of_neg (by simp [hP])] at hr ⊢
      rw [← ih (s + 1) r hr]
      show posOf _ r + 1 + s = _
      omega
    | true =>
      rw [List.filter_cons_of_pos hP] at hr ⊢
      cases r with
      | zero => show 0 + s = s; omega
      | succ r =>
        rw [List.getD_cons_succ, ← ih (s + 1) r (by simpa using hr)]
        show posOf _ r + 1 + s = _
        omega

theorem argsort_perm (l : List Nat) : (argsort l).Perm (List.range l.length) :=
  List.perm_insertionSort _ _

theorem argsort_length (l : List Nat) : (argsort l).length = l.length := by
  rw [(argsort_perm l).length_eq, List.length_range]

theorem argsort_mem {l : List Nat} {k : Nat} : k ∈ argsort l ↔ k < l.length := by
  rw [(argsort_perm l).mem_iff, List.mem_range]

theorem argsort_nodup (l : List Nat) : (argsort l).Nodup :=
  (argsort_perm l).nodup_iff.2 List.nodup_range

/-- The values in the order of `argsort` are the elements in increasing order. -/
theorem argsort_map {l : List Nat} (hn : l.Nodup) {newsize : Nat} (hlt : ∀ w ∈ l, w < newsize) :
    (argsort l).map (fun k => l.getD k 0) = (List.range newsize).filter fun k => decide (k ∈ l) := by
  have hmap : (List.range l.length).map (fun k => l.getD k 0) = l := by
    apply List.ext_getElem
    · simp
    · intro k h1 h2
      rw [List.getElem_map, List.getElem_range, List.getD_eq_getElem _ _ h2]
  have hp : ((argsort l).map fun k => l.getD k 0).Perm ((List.range newsize).filter fun k => decide (k ∈ l)) := by
    refine ((argsort_perm l).map _).trans ?_
    rw [hmap]
    refine (List.perm_ext_iff_of_nodup hn (List.nodup_range.filter _)).2 fun a => ?_
    rw [List.mem_filter, List.mem_range]
    simp only [decide_eq_true_eq]
    exact ⟨fun h => ⟨hlt a h, h⟩, fun h => h.2⟩
  refine hp.eq_of_pairwise (le := (· ≤ ·)) (fun a b _ _ => Nat.le_antisymm) ?_ ?_
  · rw [List.pairwise_map]
    have : IsTrans Nat fun i j => l.getD i 0 ≤ l.getD j 0 := ⟨fun a b c h1 h2 => Nat.le_trans h1 h2⟩
    have : Std.Total fun i j => l.getD i 0 ≤ l.getD j 0 := ⟨fun a b => Nat.le_total _ _⟩
    exact List.pairwise_insertionSort (fun i j => l.getD i 0 ≤ l.getD j 0) _
  · exact (List.pairwise_le_range).filter _

theorem whereMask_count {l : List Nat} (hn : l.Nodup) {newsize : Nat} (hlt : ∀ w ∈ l, w < newsize) :
    (whereMask l newsize).count true = l.length := by
  unfold whereMask
  rw [List.count_eq_countP, List.countP_map, List.countP_eq_length_filter]
  have : ((fun x => x == true) ∘ fun k => decide (k ∈ l)) = fun k => decide (k ∈ l) := by
    funext k; simp
  rw [this, ← argsort_map hn hlt, List.length_map, argsort_length]

theorem whereMask_count_false {l : List Nat} (hn : l.Nodup) {newsize : Nat} (hlt : ∀ w ∈ l, w < newsize) :
    l.length + (whereMask l newsize).count false = newsize := by
  rw [← whereMask_count hn hlt]
  have h := List.length_eq_countP_add_countP (fun b : Bool => b == true) (l := whereMask l newsize)
  rw [List.count_eq_countP, List.count_eq_countP]
  have h2 : (whereMask l newsize).length = newsize := by simp [whereMask]
  have h3 : (whereMask l newsize).countP (fun a => decide ¬(a == true) = true) =
      (whereMask l newsize).countP (· == false) := by
    apply List.countP_congr
    intro a _
    cases a <;> simp
  omega

/-- Axis `k` of the block ends up at `where[k]`. -/
theorem whereMask_pos {l : List Nat} (hn : l.Nodup) {newsize : Nat} (hlt : ∀ w ∈ l, w < newsize)
    {k : Nat} (hk : k < l.length) :
    posOf (whereMask l newsize) ((argsort l).idxOf k) = l.getD k 0 := by
  have hmem : k ∈ argsort l := argsort_mem.2 hk
  have hi : (argsort l).idxOf k < (argsort l).length := List.idxOf_lt_length_iff.2 hmem
  have hm := argsort_map hn hlt
  have h := posOf_filter (fun k => decide (k ∈ l)) newsize 0 ((argsort l).idxOf k) (by
    rw [← List.range_eq_range', ← hm, List.length_map]; exact hi)
  rw [← List.range_eq_range', ← hm, Nat.add_zero] at h
  unfold whereMask
  rw [h, List.getD_eq_getElem _ _ (by rw [List.length_map]; exact hi), List.getElem_map]
  congr 1
  exact List.getElem_idxOf hi

variable {α : Type}

theorem permBlock_idxOf (nd start : Nat) (l : List Nat) (hnd : start + l.length ≤ nd) {j : Nat}
    (hj : j < nd) : (permBlock nd start l).idxOf j =
      if j < start then j else if j < start + l.length then start + (argsort l).idxOf (j - start) else j := by
  unfold permBlock
  rw [List.idxOf_append, List.idxOf_append]
  have range_idx : ∀ m k, k < m → (List.range m).idxOf k = k := by
    intro m k hk
    have := List.Nodup.idxOf_getElem (List.nodup_range (n := m)) k (by simpa using hk)
    rwa [List.getElem_range] at this
  have shift_idx : ∀ (s : Nat) (l : List Nat) (k : Nat), (l.map (s + ·)).idxOf (s + k) = l.idxOf k := by
    intro s l k
    induction l with
    | nil => rfl
    | cons a l ih =>
      rw [List.map_cons, List.idxOf_cons, List.idxOf_cons, ih]
      have : (s + a == s + k) = (a == k) := by
        rw [Bool.eq_iff_iff]; simp
      rw [this]
  by_cases h1 : j < start
  · rw [if_pos h1, if_pos (List.mem_append_left _ (List.mem_range.2 h1)), if_pos (List.mem_range.2 h1),
      range_idx _ _ h1]
  · rw [if_neg h1]
    by_cases h2 : j < start + l.length
    · rw [if_pos h2]
      have hm : j ∈ (argsort l).map (start + ·) :=
        List.mem_map.2 ⟨j - start, argsort_mem.2 (by omega), by omega⟩
      rw [if_pos (List.mem_append_right _ hm), if_neg (fun h => h1 (List.mem_range.1 h)), List.length_range]
      have := shift_idx start (argsort l) (j - start)
      rw [show start + (j - start) = j by omega] at this
      omega
    · rw [if_neg h2, if_neg, List.length_append, List.length_range, List.length_map, argsort_length]
      · have := shift_idx (start + l.length) (List.range (nd - (start + l.length))) (j - (start + l.length))
        rw [show start + l.length + (j - (start + l.length)) = j by omega,
          range_idx _ _ (by omega)] at this
        omega
      · rw [List.mem_append, not_or]
        refine ⟨fun h => h1 (List.mem_range.1 h), fun h => ?_⟩
        obtain ⟨k, hk, e⟩ := List.mem_map.1 h
        have := argsort_mem.1 hk
        omega

theorem permBlock_perm (nd start : Nat) (l : List Nat) (hnd : start + l.length ≤ nd) :
    (permBlock nd start l).Perm (List.range nd) := by
  unfold permBlock
  refine ((List.Perm.append_left _ ((argsort_perm l).map _)).append_right _).trans ?_
  rw [show nd = start + l.length + (nd - (start + l.length)) by omega, List.range_add, List.range_add]
  rw [show start + l.length + (nd - (start + l.length)) - (start + l.length) =
    nd - (start + l.length) by omega]

/-- `a.transpose(axes)` for a permutation. -/
theorem transpose_bget (a : NDArray α) {axes : List Nat} (h : axes.Perm (List.range a.ndim))
    (idx : Nat → Nat) : (a.transpose axes).bget idx = a.bget fun j => idx (axes.idxOf j) := by
  unfold transpose
  have hlt : ∀ j < a.ndim, axes.idxOf j < axes.length := fun j hj =>
    List.idxOf_lt_length_iff.2 (h.mem_iff.2 (List.mem_range.2 hj))
  apply reaxis_bget
  · intro j hj
    have := hlt j hj
    rwa [h.length_eq, List.length_range] at this
  · intro j hj
    congr 1
    rw [List.getD_eq_getElem _ _ (hlt j hj)]
    exact List.getElem_idxOf (hlt j hj)

theorem transpose_shape (a : NDArray α) {axes : List Nat} (h : axes.Perm (List.range a.ndim))
    {j : Nat} (hj : j < a.ndim) : (a.transpose axes).shape (axes.idxOf j) = a.shape j := by
  show a.shape (axes.getD _ _) = _
  have hlt : axes.idxOf j < axes.length := List.idxOf_lt_length_iff.2 (h.mem_iff.2 (List.mem_range.2 hj))
  congr 1
  rw [List.getD_eq_getElem _ _ hlt]
  exact List.getElem_idxOf hlt

end Verif.Tens
