import Verif.Lemmas.TensorReshape
import Mathlib.Algebra.BigOperators.Group.Finset.Piecewise
import Mathlib.Data.List.Perm.Subperm

/-!
# Sums over axes, and loops of `swapaxes`
-/

set_option linter.unusedSectionVars false

namespace Verif.Tens
open Verif.Params (Err)
open NDArray

variable {α : Type} [Field α] [DecidableEq α]

theorem sumAt_congr {s s' : Nat → Nat} (L : List Nat) {F G : (Nat → Nat) → α} {base base' : Nat → Nat}
    (hs : ∀ k ∈ L, s k = s' k)
    (h : ∀ n n', (∀ k ∈ L, n k = n' k ∧ n k < s k) → (∀ k, k ∉ L → n k = base k) →
      (∀ k, k ∉ L → n' k = base' k) → F n = G n') :
    sumAt s L F base = sumAt s' L G base' := by
  induction L generalizing base base' with
  | nil =>
    exact h base base' (fun k hk => by simp at hk) (fun _ _ => rfl) fun _ _ => rfl
  | cons a L ih =>
    unfold sumAt
    rw [hs a List.mem_cons_self]
    apply Finset.sum_congr rfl
    intro i hi
    rw [← hs a List.mem_cons_self] at hi
    apply ih fun k hk => hs k (List.mem_cons_of_mem _ hk)
    intro n n' h1 h2 h3
    by_cases ha : a ∈ L
    · apply h n n'
      · intro k hk
        rcases List.mem_cons.1 hk with rfl | hk
        · exact h1 _ ha
        · exact h1 k hk
      · intro k hk
        rw [List.mem_cons, not_or] at hk
        rw [h2 k hk.2, Function.update_of_ne hk.1]
      · intro k hk
        rw [List.mem_cons, not_or] at hk
        rw [h3 k hk.2, Function.update_of_ne hk.1]
    · apply h n n'
      · intro k hk
        rcases List.mem_cons.1 hk with rfl | hk
        · rw [h2 k ha, h3 k ha, Function.update_self, Function.update_self]
          exact ⟨rfl, Finset.mem_range.1 hi⟩
        · exact h1 k hk
      · intro k hk
        rw [List.mem_cons, not_or] at hk
        rw [h2 k hk.2, Function.update_of_ne hk.1]
      · intro k hk
        rw [List.mem_cons, not_or] at hk
        rw [h3 k hk.2, Function.update_of_ne hk.1]

/-- Renaming the axes. -/
theorem sumAt_map {s s' : Nat → Nat} {g : Nat → Nat} (hg : ∀ a b, g a = g b → a = b) (L : List Nat)
    {F G : (Nat → Nat) → α} {base base' : Nat → Nat} (hs : ∀ k ∈ L, s (g k) = s' k)
    (h : ∀ n n', (∀ k ∈ L, n (g k) = n' k ∧ n' k < s' k) → (∀ j, j ∉ L.map g → n j = base j) →
      (∀ k, k ∉ L → n' k = base' k) → F n = G n') :
    sumAt s (L.map g) F base = sumAt s' L G base' := by
  induction L generalizing base base' with
  | nil =>
    exact h base base' (fun k hk => by simp at hk) (fun _ _ => rfl) fun _ _ => rfl
  | cons a L ih =>
    rw [List.map_cons]
    unfold sumAt
    rw [hs a List.mem_cons_self]
    apply Finset.sum_congr rfl
    intro i hi
    apply ih fun k hk => hs k (List.mem_cons_of_mem _ hk)
    intro n n' h1 h2 h3
    apply h n n'
    · intro k hk
      by_cases hkL : k ∈ L
      · exact h1 k hkL
      · have hka : k = a := (List.mem_cons.1 hk).resolve_right hkL
        have : g k ∉ L.map g := by
          rw [List.mem_map]
          rintro ⟨b, hb, he⟩
          exact hkL (hg _ _ he ▸ hb)
        rw [h2 _ this, h3 k hkL, hka, Function.update_self, Function.update_self]
        exact ⟨rfl, Finset.mem_range.1 hi⟩
    · intro j hj
      rw [List.map_cons, List.mem_cons, not_or] at hj
      rw [h2 j hj.2, Function.update_of_ne hj.1]
    · intro k hk
      rw [List.mem_cons, not_or] at hk
      rw [h3 k hk.2, Function.update_of_ne hk.1]

theorem sumAt_zero (s : Nat → Nat) (L : List Nat) (base : Nat → Nat) :
    sumAt s L (fun _ => (0 : α)) base = 0 := by
  induction L generalizing base with
  | nil => rfl
  | cons a L ih => unfold sumAt; exact Finset.sum_eq_zero fun i _ => ih _

theorem sumAt_append (s : Nat → Nat) (L M : List Nat) (F : (Nat → Nat) → α) (base : Nat → Nat) :
    sumAt s (L ++ M) F base = sumAt s L (sumAt s M F) base := by
  induction L generalizing base with
  | nil => rfl
  | cons a L ih =>
    rw [List.cons_append]
    unfold sumAt
    exact Finset.sum_congr rfl fun i _ => ih _

/-- Sums over an axis whose position is fixed by the summand (`piv`) have one term only. -/
theorem sumAt_collapse (s : Nat → Nat) (L : List Nat) (hn : L.Nodup) (piv : Nat → Option Nat)
    (hp : ∀ a ∈ L, ∀ c, piv a = some c → c < s a) (F : (Nat → Nat) → α) (base : Nat → Nat) :
    sumAt s L (fun n => if ∀ a ∈ L, ∀ c, piv a = some c → n a = c then F n else 0) base =
      sumAt (fun a => if (piv a).isSome then 1 else s a) L
        (fun n => F fun a => if a ∈ L then (piv a).getD (n a) else n a) base := by
  induction L generalizing base F with
  | nil => simp [sumAt]
  | cons a L ih =>
    rw [List.nodup_cons] at hn
    unfold sumAt
    have step : ∀ i, sumAt s L (fun n => if ∀ b ∈ a :: L, ∀ c, piv b = some c → n b = c then F n else 0)
        (Function.update base a i) =
        if ∀ c, piv a = some c → i = c then
          sumAt s L (fun n => if ∀ b ∈ L, ∀ c, piv b = some c → n b = c then F n else 0)
            (Function.update base a i) else 0 := by
      intro i
      by_cases hc : ∀ c, piv a = some c → i = c
      · rw [if_pos hc]
        apply sumAt_congr L fun _ _ => rfl
        intro n n' h1 h2 h3
        have : n = n' := by
          funext k
          by_cases hk : k ∈ L
          · exact (h1 k hk).1
          · rw [h2 k hk, h3 k hk]
        subst this
        refine if_congr ?_ rfl rfl
        rw [List.forall_mem_cons]
        exact and_iff_right (by rw [h2 a hn.1, Function.update_self]; exact hc)
      · rw [if_neg hc]
        refine Eq.trans (sumAt_congr L (fun _ _ => rfl) ?_) (sumAt_zero s L (Function.update base a i))
        intro n n' h1 h2 h3
        rw [if_neg]
        intro h
        apply hc
        intro c hc'
        have := h a List.mem_cons_self c hc'
        rwa [h2 a hn.1, Function.update_self] at this
    simp only [step]
    cases hpa : piv a with
    | none =>
      simp only [Option.isSome_none, Bool.false_eq_true, if_false]
      apply Finset.sum_congr rfl
      intro i _
      rw [if_pos (by simp), ih hn.2 fun b hb => hp b (List.mem_cons_of_mem _ hb)]
      apply sumAt_congr L fun _ _ => rfl
      intro n n' h1 h2 h3
      congr 1
      funext k
      have hkn : n k = n' k := by
        by_cases hk : k ∈ L
        · exact (h1 k hk).1
        · rw [h2 k hk, h3 k hk]
      by_cases hk : k ∈ L
      · rw [if_pos hk, if_pos (List.mem_cons_of_mem _ hk), hkn]
      · rw [if_neg hk, hkn]
        by_cases hka : k = a
        · rw [if_pos (by rw [hka]; exact List.mem_cons_self), hka, hpa]; rfl
        · rw [if_neg (by rw [List.mem_cons, not_or]; exact ⟨hka, hk⟩)]
    | some c =>
      simp only [Option.isSome_some, if_true, Finset.range_one, Finset.sum_singleton]
      have hcs := hp a List.mem_cons_self c hpa
      rw [Finset.sum_eq_single c]
      · rw [if_pos (by intro c' hc'; cases hc'; rfl), ih hn.2 fun b hb => hp b (List.mem_cons_of_mem _ hb)]
        apply sumAt_congr L fun _ _ => rfl
        intro n n' h1 h2 h3
        congr 1
        funext k
        by_cases hk : k ∈ L
        · rw [if_pos hk, if_pos (List.mem_cons_of_mem _ hk), (h1 k hk).1]
        · rw [if_neg hk]
          by_cases hka : k = a
          · rw [if_pos (by rw [hka]; exact List.mem_cons_self), hka, hpa, h2 a hn.1, Function.update_self]; rfl
          · rw [if_neg (by rw [List.mem_cons, not_or]; exact ⟨hka, hk⟩), h2 k hk, h3 k hk,
              Function.update_of_ne hka, Function.update_of_ne hka]
      · intro i _ hi
        rw [if_neg]
        intro h
        exact hi (h c rfl)
      · intro h
        exact absurd (Finset.mem_range.2 hcs) h

/-! ### `sum(axes)` -/

theorem sumOver_eq (s : Nat → Nat) (axes : List Nat) (hn : axes.Nodup) (G : (Nat → Nat) → α)
    (base : Nat → Nat) :
    sumOver (axes.map s) (fun l => G fun j => if j ∈ axes then l.getD (axes.idxOf j) 0 else base j) =
      sumAt s axes G base := by
  induction axes generalizing base with
  | nil => simp [sumOver, sumAt]
  | cons a L ih =>
    rw [List.nodup_cons] at hn
    rw [List.map_cons]
    unfold sumOver sumAt
    apply Finset.sum_congr rfl
    intro i _
    rw [← ih hn.2]
    congr 1
    funext l
    show G _ = G _
    congr 1
    funext j
    by_cases hja : j = a
    · subst hja
      rw [if_pos List.mem_cons_self, List.idxOf_cons_self, if_neg hn.1, Function.update_self]
      rfl
    · by_cases hj : j ∈ L
      · rw [if_pos (List.mem_cons_of_mem _ hj), if_pos hj, List.idxOf_cons_ne _ (Ne.symm hja)]
        rfl
      · rw [if_neg (by rw [List.mem_cons, not_or]; exact ⟨hja, hj⟩), if_neg hj,
          Function.update_of_ne hja]

/-- The axes that remain, in order: axis `j` is at the position `j` minus the number of removed axes
before it. -/
theorem kept_getElem? {axes : List Nat} (hn : axes.Nodup) {N j : Nat} (hj : j < N) (hja : j ∉ axes) :
    ((List.range N).filter fun k => k ∉ axes)[j - (axes.filter (· < j)).length]? = some j := by
  obtain ⟨m, rfl⟩ : ∃ m, N = j + (m + 1) := ⟨N - j - 1, by omega⟩
  have e : List.range (j + (m + 1)) = List.range j ++ j :: (List.range m).map (j + 1 + ·) := by
    rw [List.range_add, List.range_succ_eq_map]
    simp only [List.map_cons, Nat.add_zero, List.map_map]
    congr 2
    apply List.map_congr_left
    intro k _
    simp only [Function.comp]
    omega
  have hperm : ((List.range j).filter fun k => k ∈ axes).Perm (axes.filter (· < j)) := by
    rw [List.perm_ext_iff_of_nodup (List.nodup_range.filter _) (hn.filter _)]
    intro k
    simp only [List.mem_filter, List.mem_range, decide_eq_true_eq]
    exact and_comm
  have hlen : ((List.range j).filter fun k => k ∉ axes).length = j - (axes.filter (· < j)).length := by
    have h := List.length_eq_length_filter_add (l := List.range j) (fun k => decide (k ∈ axes))
    rw [List.length_range, hperm.length_eq] at h
    have h2 : ((List.range j).filter fun k => !decide (k ∈ axes)) =
        (List.range j).filter fun k => k ∉ axes := by
      apply List.filter_congr
      intro k _
      simp
    rw [h2] at h
    omega
  rw [e, List.filter_append, List.filter_cons, if_pos (by simpa using hja),
    List.getElem?_append_right (by omega), hlen, Nat.sub_self]
  rfl

theorem kept_length {axes : List Nat} (hn : axes.Nodup) {N : Nat} (h : ∀ a ∈ axes, a < N) :
    ((List.range N).filter fun k => k ∉ axes).length = N - axes.length := by
  have hperm : ((List.range N).filter fun k => k ∈ axes).Perm axes := by
    rw [List.perm_ext_iff_of_nodup (List.nodup_range.filter _) hn]
    intro k
    simp only [List.mem_filter, List.mem_range, decide_eq_true_eq]
    exact ⟨fun h => h.2, fun hk => ⟨h k hk, hk⟩⟩
  have h' := List.length_eq_length_filter_add (l := List.range N) (fun k => decide (k ∈ axes))
  rw [List.length_range, hperm.length_eq] at h'
  have h2 : ((List.range N).filter fun k => !decide (k ∈ axes)) =
      (List.range N).filter fun k => k ∉ axes := by
    apply List.filter_congr
    intro k _
    simp
  rw [h2] at h'
  omega

theorem sumAxes_ok (a : NDArray α) {axes : List Nat} (hn : axes.Nodup) (h : ∀ k ∈ axes, k < a.ndim) :
    (a.sumAxes axes).ndim = a.ndim - axes.length ∧
    (∀ j < a.ndim, j ∉ axes → (a.sumAxes axes).shape (j - (axes.filter (· < j)).length) = a.shape j) ∧
    ∀ idx, (a.sumAxes axes).bget idx =
      sumAt a.shape axes a.bget fun j => idx (j - (axes.filter (· < j)).length) := by
  have hsh : ∀ j < a.ndim, j ∉ axes →
      (a.sumAxes axes).shape (j - (axes.filter (· < j)).length) = a.shape j := by
    intro j hj hja
    show a.shape _ = _
    rw [List.getD_eq_getElem?_getD, kept_getElem? hn hj hja]; rfl
  refine ⟨rfl, hsh, fun idx => ?_⟩
  unfold bget
  rw [show ∀ i, (a.sumAxes axes).get i = sumOver (axes.map a.shape) fun l => a.get fun j =>
      if j ∈ axes then l.getD (axes.idxOf j) 0
      else (fun k => if k < a.ndim - axes.length then i k else 0) (j - (axes.filter (· < j)).length)
    from fun i => rfl]
  rw [sumOver_eq a.shape axes hn a.get
    (fun j => (fun k => if k < a.ndim - axes.length then
      (if (a.sumAxes axes).shape k = 1 then 0 else idx k) else 0) (j - (axes.filter (· < j)).length))]
  apply sumAt_congr axes fun _ _ => rfl
  intro n n' h1 h2 h3
  apply get_congr
  intro k hk
  by_cases hka : k ∈ axes
  · obtain ⟨e1, e2⟩ := h1 k hka
    by_cases hs : a.shape k = 1
    · rw [if_pos hs]; omega
    · rw [if_neg hs, e1]
  · rw [h2 k hka, h3 k hka]
    have hlt : k - (axes.filter (· < k)).length < a.ndim - axes.length := by
      rw [← kept_length hn h]
      exact (List.getElem?_eq_some_iff.1 (kept_getElem? hn hk hka)).1
    dsimp only
    rw [if_pos hlt, hsh k hk hka]

/-! ### loops of `swapaxes` -/

/-- `for k, f in enumerate(mapping): if P(f): arr = arr.swapaxes(q + k, p + f)`, from position `k` on -/
def swapSel (q p : Nat) (P : Int → Prop) [DecidablePred P] : Nat → List Int → NDArray α → NDArray α
  | _, [], arr => arr
  | k, f :: fs, arr =>
    if P f then swapSel q p P (k + 1) fs (arr.swapaxes (q + k) (p + f.toNat))
    else swapSel q p P (k + 1) fs arr

/-- The axes that are exchanged. -/
def Paired (q p : Nat) (P : Int → Prop) (k0 : Nat) (fs : List Int) (m : Nat) : Prop :=
  ∃ j < fs.length, P (fs.getD j (-1)) ∧ (m = q + k0 + j ∨ m = p + (fs.getD j (-1)).toNat)

theorem paired_cons {q p : Nat} {P : Int → Prop} {k0 : Nat} {f : Int} {fs : List Int} {m : Nat} :
    Paired q p P k0 (f :: fs) m ↔
      (P f ∧ (m = q + k0 ∨ m = p + f.toNat)) ∨ Paired q p P (k0 + 1) fs m := by
  unfold Paired
  constructor
  · rintro ⟨j, hj, h1, h2⟩
    cases j with
    | zero => exact Or.inl ⟨h1, h2⟩
    | succ j =>
      refine Or.inr ⟨j, by simpa using hj, h1, h2.imp (fun h => by omega) id⟩
  · rintro (⟨h1, h2⟩ | ⟨j, hj, h1, h2⟩)
    · exact ⟨0, by simp, h1, h2⟩
    · exact ⟨j + 1, by simpa using hj, h1, h2.imp (fun h => by omega) id⟩

theorem swapSel_ok {q p : Nat} {P : Int → Prop} [DecidablePred P] (fs : List Int) (k0 : Nat) (arr : NDArray α)
    (hq : q + k0 + fs.length ≤ p) (hP : ∀ f ∈ fs, P f → 0 ≤ f ∧ p + f.toNat < arr.ndim)
    (hn : (fs.filter fun f => P f).Nodup) :
    (swapSel q p P k0 fs arr).ndim = arr.ndim ∧
    (∀ j < fs.length, P (fs.getD j (-1)) →
      (swapSel q p P k0 fs arr).shape (q + k0 + j) = arr.shape (p + (fs.getD j (-1)).toNat) ∧
      (swapSel q p P k0 fs arr).shape (p + (fs.getD j (-1)).toNat) = arr.shape (q + k0 + j)) ∧
    (∀ m, ¬ Paired q p P k0 fs m → (swapSel q p P k0 fs arr).shape m = arr.shape m) ∧
    ∀ idx idx' : Nat → Nat, (∀ j < fs.length, P (fs.getD j (-1)) →
        idx' (p + (fs.getD j (-1)).toNat) = idx (q + k0 + j) ∧
        idx' (q + k0 + j) = idx (p + (fs.getD j (-1)).toNat)) →
      (∀ m, ¬ Paired q p P k0 fs m → idx' m = idx m) →
      (swapSel q p P k0 fs arr).bget idx = arr.bget idx' := by
  induction fs generalizing k0 arr with
  | nil =>
    refine ⟨rfl, fun j hj => by simp at hj, fun _ _ => rfl, fun idx idx' _ h => ?_⟩
    have : idx' = idx := funext fun m => h m (by rintro ⟨j, hj, -⟩; simp at hj)
    rw [this]; rfl
  | cons f fs ih =>
    rw [List.length_cons] at hq
    unfold swapSel
    by_cases hf : P f
    · rw [if_pos hf]
      obtain ⟨f0, f1⟩ := hP f List.mem_cons_self hf
      rw [List.filter_cons, if_pos (by simpa using hf), List.nodup_cons] at hn
      obtain ⟨e1, e2, e3, e4⟩ := ih (k0 + 1) (arr.swapaxes (q + k0) (p + f.toNat)) (by omega)
        (fun g hg => hP g (List.mem_cons_of_mem _ hg)) hn.2
      have hne : ∀ j < fs.length, P (fs.getD j (-1)) → (fs.getD j (-1)).toNat ≠ f.toNat := by
        intro j hj hj0 he
        have hm : fs.getD j (-1) ∈ fs := by
          rw [List.getD_eq_getElem _ _ hj]; exact List.getElem_mem hj
        have := (hP _ (List.mem_cons_of_mem _ hm) hj0).1
        apply hn.1
        rw [show f = fs.getD j (-1) by omega]
        exact List.mem_filter.2 ⟨hm, by simpa using hj0⟩
      have np : ¬ Paired q p P (k0 + 1) fs (q + k0) ∧ ¬ Paired q p P (k0 + 1) fs (p + f.toNat) := by
        constructor
        · rintro ⟨j, hj, hj0, h | h⟩ <;> omega
        · rintro ⟨j, hj, hj0, h | h⟩
          · omega
          · exact hne j hj hj0 (by omega)
      refine ⟨e1, ?_, ?_, ?_⟩
      · intro j hj hj0
        cases j with
        | zero =>
          simp only [List.getD_cons_zero, Nat.add_zero]
          rw [e3 _ np.1, e3 _ np.2, swapaxes_shape, swapaxes_shape, if_pos rfl, if_neg (by omega), if_pos rfl]
          exact ⟨rfl, rfl⟩
        | succ j =>
          have hj' : j < fs.length := by simpa using hj
          simp only [List.getD_cons_succ] at hj0 ⊢
          obtain ⟨s1, s2⟩ := e2 j hj' hj0
          have := hne j hj' hj0
          rw [show q + k0 + (j + 1) = q + (k0 + 1) + j by omega, s1, s2, swapaxes_shape, swapaxes_shape,
            if_neg (by omega), if_neg (by omega), if_neg (by omega), if_neg (by omega)]
          exact ⟨rfl, rfl⟩
      · intro m hm
        rw [paired_cons, not_or] at hm
        rw [e3 m hm.2, swapaxes_shape]
        have h1 : m ≠ q + k0 := fun h => hm.1 ⟨hf, Or.inl h⟩
        have h2 : m ≠ p + f.toNat := fun h => hm.1 ⟨hf, Or.inr h⟩
        rw [if_neg h1, if_neg h2]
      · intro idx idx' h1 h2
        rw [e4 idx (fun m => idx' (if m = q + k0 then p + f.toNat else if m = p + f.toNat then q + k0 else m)),
          swapaxes_bget _ (by omega) f1]
        · apply bget_congr'
          intro m hm
          congr 1
          split_ifs <;> omega
        · intro j hj hj0
          have := hne j hj hj0
          obtain ⟨g1, g2⟩ := h1 (j + 1) (by simpa using hj) hj0
          simp only [List.getD_cons_succ] at g1 g2
          rw [if_neg (by omega), if_neg (by omega), if_neg (by omega), if_neg (by omega),
            show q + (k0 + 1) + j = q + k0 + (j + 1) by omega]
          exact ⟨g1, g2⟩
        · intro m hm
          obtain ⟨g1, g2⟩ := h1 0 (by simp) hf
          simp only [List.getD_cons_zero, Nat.add_zero] at g1 g2
          by_cases c1 : m = q + k0
          · rw [if_pos c1, c1]; exact g1
          · rw [if_neg c1]
            by_cases c2 : m = p + f.toNat
            · rw [if_pos c2, c2]; exact g2
            · rw [if_neg c2]
              apply h2
              rw [paired_cons]
              rintro (⟨-, h | h⟩ | h)
              · exact c1 h
              · exact c2 h
              · exact hm h
    · rw [if_neg hf]
      rw [List.filter_cons, if_neg (by simpa using hf)] at hn
      obtain ⟨e1, e2, e3, e4⟩ := ih (k0 + 1) arr (by omega)
        (fun g hg => hP g (List.mem_cons_of_mem _ hg)) hn
      have hpc : ∀ m, Paired q p P k0 (f :: fs) m ↔ Paired q p P (k0 + 1) fs m := by
        intro m
        rw [paired_cons]
        exact ⟨fun h => h.resolve_left fun h => hf h.1, Or.inr⟩
      refine ⟨e1, ?_, ?_, ?_⟩
      · intro j hj hj0
        cases j with
        | zero => exact absurd hj0 hf
        | succ j =>
          rw [show q + k0 + (j + 1) = q + (k0 + 1) + j by omega]
          exact e2 j (by simpa using hj) hj0
      · intro m hm
        exact e3 m (by rwa [hpc] at hm)
      · intro idx idx' h1 h2
        apply e4
        · intro j hj hj0
          rw [show q + (k0 + 1) + j = q + k0 + (j + 1) by omega]
          exact h1 (j + 1) (by simpa using hj) hj0
        · intro m hm
          exact h2 m (by rwa [hpc])

/-- The axis that is exchanged with axis `j`. -/
def swapPerm (q p : Nat) (P : Int → Prop) [DecidablePred P] (fs : List Int) (j : Nat) : Nat :=
  if p ≤ j ∧ P ((j - p : Nat) : Int) ∧ ((j - p : Nat) : Int) ∈ fs then q + fs.idxOf ((j - p : Nat) : Int)
  else if q ≤ j ∧ j - q < fs.length ∧ P (fs.getD (j - q) (-1)) then p + (fs.getD (j - q) (-1)).toNat
  else j

theorem idxOf_getD_of_filter_nodup {P : Int → Prop} [DecidablePred P] {fs : List Int}
    (hn : (fs.filter fun f => P f).Nodup) {j : Nat} (hj : j < fs.length) (hP : P (fs.getD j (-1))) :
    fs.idxOf (fs.getD j (-1)) = j := by
  induction fs generalizing j with
  | nil => simp at hj
  | cons f fs ih =>
    cases j with
    | zero => exact List.idxOf_cons_self
    | succ j =>
      rw [List.getD_cons_succ] at hP ⊢
      have hj' : j < fs.length := by simpa using hj
      have hm : fs.getD j (-1) ∈ fs := by
        rw [List.getD_eq_getElem _ _ hj']; exact List.getElem_mem hj'
      rw [List.filter_cons] at hn
      have hne : f ≠ fs.getD j (-1) := by
        intro he
        rw [if_pos (by rw [he]; simpa using hP), List.nodup_cons] at hn
        exact hn.1 (List.mem_filter.2 ⟨he ▸ hm, by rw [he]; simpa using hP⟩)
      rw [List.idxOf_cons_ne _ hne, ih _ hj' hP]
      by_cases hf : P f
      · rw [if_pos (by simpa using hf), List.nodup_cons] at hn; exact hn.2
      · rw [if_neg (by simpa using hf)] at hn; exact hn

theorem getD_idxOf {fs : List Int} {f : Int} (h : f ∈ fs) : fs.getD (fs.idxOf f) (-1) = f := by
  rw [List.getD_eq_getElem _ _ (List.idxOf_lt_length_iff.2 h)]
  exact List.getElem_idxOf _

theorem swapSel_perm {q p : Nat} {P : Int → Prop} [DecidablePred P] (fs : List Int) (arr : NDArray α)
    (hq : q + fs.length ≤ p) (hP : ∀ f ∈ fs, P f → 0 ≤ f ∧ p + f.toNat < arr.ndim)
    (hn : (fs.filter fun f => P f).Nodup) :
    (swapSel q p P 0 fs arr).ndim = arr.ndim ∧
    (∀ j, (swapSel q p P 0 fs arr).shape j = arr.shape (swapPerm q p P fs j)) ∧
    ∀ idx, (swapSel q p P 0 fs arr).bget idx = arr.bget fun j => idx (swapPerm q p P fs j) := by
  obtain ⟨e1, e2, e3, e4⟩ := swapSel_ok fs 0 arr (by omega) hP hn
  have hmem : ∀ j < fs.length, fs.getD j (-1) ∈ fs := fun j hj => by
    rw [List.getD_eq_getElem _ _ hj]; exact List.getElem_mem hj
  have s1 : ∀ j < fs.length, P (fs.getD j (-1)) → swapPerm q p P fs (q + j) = p + (fs.getD j (-1)).toNat := by
    intro j hj hj0
    unfold swapPerm
    rw [if_neg (by rintro ⟨h, -⟩; omega), show q + j - q = j by omega, if_pos ⟨by omega, hj, hj0⟩]
  have s2 : ∀ j < fs.length, P (fs.getD j (-1)) → swapPerm q p P fs (p + (fs.getD j (-1)).toNat) = q + j := by
    intro j hj hj0
    have h0 := (hP _ (hmem j hj) hj0).1
    have hc : ((p + (fs.getD j (-1)).toNat - p : Nat) : Int) = fs.getD j (-1) := by omega
    unfold swapPerm
    rw [hc, if_pos ⟨by omega, hj0, hmem j hj⟩, idxOf_getD_of_filter_nodup hn hj hj0]
  have s3 : ∀ m, ¬ Paired q p P 0 fs m → swapPerm q p P fs m = m := by
    intro m hm
    unfold swapPerm
    rw [if_neg, if_neg]
    · rintro ⟨h1, h2, h3⟩
      exact hm ⟨m - q, h2, h3, Or.inl (by omega)⟩
    · rintro ⟨h1, h2, h3⟩
      refine hm ⟨fs.idxOf ((m - p : Nat) : Int), List.idxOf_lt_length_iff.2 h3, ?_, Or.inr ?_⟩
      · rwa [getD_idxOf h3]
      · rw [getD_idxOf h3]; omega
  refine ⟨e1, ?_, ?_⟩
  · intro m
    by_cases hm : Paired q p P 0 fs m
    · obtain ⟨j, hj, hj0, rfl | rfl⟩ := hm
      · rw [(e2 j hj hj0).1, Nat.add_zero, s1 j hj hj0]
      · rw [(e2 j hj hj0).2, Nat.add_zero, s2 j hj hj0]
    · rw [e3 m hm, s3 m hm]
  · intro idx
    apply e4
    · intro j hj hj0
      rw [Nat.add_zero, s1 j hj hj0, s2 j hj hj0]
      exact ⟨rfl, rfl⟩
    · intro m hm
      rw [s3 m hm]

theorem sumSwapX_eq (p : Nat) (sel : List Nat) (k0 : Nat) (fs : List Int) (arr : NDArray α) :
    sumSwapX p sel k0 fs arr = swapSel 0 p (fun f => 0 ≤ f ∧ f.toNat ∈ sel) k0 fs arr := by
  induction fs generalizing k0 arr with
  | nil => rfl
  | cons f fs ih =>
    unfold sumSwapX swapSel
    rw [ih, ih, Nat.zero_add]

/-- The pairs of axes in the cross map (tensor.py:508-515). -/
theorem sumSwapY_ok (p xDim : Nat) (sel : List Nat) (xMap : List Int) (fs : List Int) (k0 : Nat)
    (val : NDArray α) (cross : List (Nat × Nat))
    (hn : (fs.filter fun f => 0 ≤ f ∧ f.toNat ∈ sel).Nodup)
    (hc : ∀ pr ∈ cross, pr.2 < k0 ∧ ∀ f ∈ fs, 0 ≤ f → f.toNat ∈ sel → f ∈ xMap → pr.1 ≠ xMap.idxOf f)
    (hcn : (cross.map Prod.snd).Nodup) :
    (sumSwapY p xDim sel xMap k0 fs val cross).1 =
      swapSel xDim p (fun f => (0 ≤ f ∧ f.toNat ∈ sel) ∧ f ∉ xMap) k0 fs val ∧
    ((sumSwapY p xDim sel xMap k0 fs val cross).2.map Prod.snd).Nodup ∧
    ∀ pr, pr ∈ (sumSwapY p xDim sel xMap k0 fs val cross).2 ↔ pr ∈ cross ∨
      ∃ j < fs.length, (0 ≤ fs.getD j (-1) ∧ (fs.getD j (-1)).toNat ∈ sel) ∧ fs.getD j (-1) ∈ xMap ∧
        pr = (xMap.idxOf (fs.getD j (-1)), k0 + j) := by
  induction fs generalizing k0 val cross with
  | nil =>
    refine ⟨rfl, hcn, fun pr => ?_⟩
    constructor
    · exact Or.inl
    · rintro (h | ⟨j, hj, -⟩)
      · exact h
      · simp at hj
  | cons f fs ih =>
    have hex : ∀ pr : Nat × Nat, (∃ j < (f :: fs).length, (0 ≤ (f :: fs).getD j (-1) ∧
        ((f :: fs).getD j (-1)).toNat ∈ sel) ∧ (f :: fs).getD j (-1) ∈ xMap ∧
        pr = (xMap.idxOf ((f :: fs).getD j (-1)), k0 + j)) ↔
        ((0 ≤ f ∧ f.toNat ∈ sel) ∧ f ∈ xMap ∧ pr = (xMap.idxOf f, k0)) ∨
        ∃ j < fs.length, (0 ≤ fs.getD j (-1) ∧ (fs.getD j (-1)).toNat ∈ sel) ∧ fs.getD j (-1) ∈ xMap ∧
          pr = (xMap.idxOf (fs.getD j (-1)), k0 + 1 + j) := by
      intro pr
      constructor
      · rintro ⟨j, hj, h1, h2, h3⟩
        cases j with
        | zero => exact Or.inl ⟨h1, h2, h3⟩
        | succ j =>
          refine Or.inr ⟨j, by simpa using hj, h1, h2, ?_⟩
          rw [h3, List.getD_cons_succ]
          congr 1; omega
      · rintro (⟨h1, h2, h3⟩ | ⟨j, hj, h1, h2, h3⟩)
        · exact ⟨0, by simp, h1, h2, h3⟩
        · refine ⟨j + 1, by simpa using hj, h1, h2, ?_⟩
          rw [h3, List.getD_cons_succ]
          congr 1; omega
    unfold sumSwapY swapSel
    by_cases hs : 0 ≤ f ∧ f.toNat ∈ sel
    · rw [if_neg (not_not_intro hs)]
      rw [List.filter_cons, if_pos (by simpa using hs), List.nodup_cons] at hn
      by_cases hx : f ∈ xMap
      · rw [if_pos hx, if_neg (fun h => h.2 hx)]
        have hfil : cross.filter (·.1 ≠ xMap.idxOf f) = cross := by
          rw [List.filter_eq_self]
          intro pr hpr
          simpa using (hc pr hpr).2 f List.mem_cons_self hs.1 hs.2 hx
        dsimp only
        rw [hfil]
        obtain ⟨e1, e2, e3⟩ := ih (k0 + 1) val (cross ++ [(xMap.idxOf f, k0)]) hn.2 (by
          intro pr hpr
          rcases List.mem_append.1 hpr with hpr | hpr
          · refine ⟨by have := (hc pr hpr).1; omega, fun g hg => (hc pr hpr).2 g (List.mem_cons_of_mem _ hg)⟩
          · rw [List.mem_singleton] at hpr
            subst hpr
            refine ⟨by omega, fun g hg g0 g1 g2 he => ?_⟩
            have : f = g := by
              have h1 := List.getElem_idxOf (List.idxOf_lt_length_iff.2 hx)
              have h2 := List.getElem_idxOf (List.idxOf_lt_length_iff.2 g2)
              rw [← h1, ← h2]
              congr 1
            exact hn.1 (List.mem_filter.2 ⟨this ▸ hg, by simpa using hs⟩)) (by
          rw [List.map_append, List.map_singleton]
          refine List.nodup_append.2 ⟨hcn, List.nodup_singleton _, ?_⟩
          intro a ha b hb
          rw [List.mem_map] at ha
          obtain ⟨pr, hpr, rfl⟩ := ha
          rw [List.mem_singleton] at hb
          have := (hc pr hpr).1
          dsimp only at hb
          omega)
        refine ⟨e1, e2, fun pr => ?_⟩
        rw [e3, hex, List.mem_append, List.mem_singleton, or_assoc]
        refine or_congr Iff.rfl (or_congr ?_ Iff.rfl)
        exact ⟨fun h => ⟨hs, hx, h⟩, fun h => h.2.2⟩
      · rw [if_neg hx, if_pos ⟨hs, hx⟩]
        obtain ⟨e1, e2, e3⟩ := ih (k0 + 1) (val.swapaxes (xDim + k0) (p + f.toNat)) cross hn.2
          (fun pr hpr => ⟨by have := (hc pr hpr).1; omega, fun g hg => (hc pr hpr).2 g (List.mem_cons_of_mem _ hg)⟩) hcn
        refine ⟨e1, e2, fun pr => ?_⟩
        rw [e3, hex]
        refine or_congr Iff.rfl ?_
        exact ⟨Or.inr, fun h => h.resolve_left fun h => hx h.2.1⟩
    · rw [if_pos hs, if_neg (fun h => hs h.1)]
      rw [List.filter_cons, if_neg (by simpa using hs)] at hn
      obtain ⟨e1, e2, e3⟩ := ih (k0 + 1) val cross hn
        (fun pr hpr => ⟨by have := (hc pr hpr).1; omega, fun g hg => (hc pr hpr).2 g (List.mem_cons_of_mem _ hg)⟩) hcn
      refine ⟨e1, e2, fun pr => ?_⟩
      rw [e3, hex]
      refine or_congr Iff.rfl ?_
      exact ⟨Or.inr, fun h => h.resolve_left fun h => hs h.1⟩

/-- Multiplication with the eyes of the cross map. -/
theorem sumCross_ok (xDim : Nat) (cross : List (Nat × Nat)) (val : NDArray α)
    (hn : (cross.map Prod.snd).Nodup)
    (hc : ∀ pr ∈ cross, pr.1 < xDim ∧ xDim + pr.2 < val.ndim ∧ val.shape (xDim + pr.2) = 1) :
    ∃ r, sumCross xDim cross val = .ok r ∧ r.ndim = val.ndim ∧
      (∀ k, (∀ pr ∈ cross, k ≠ xDim + pr.2) → r.shape k = val.shape k) ∧
      (∀ pr ∈ cross, r.shape (xDim + pr.2) = val.shape pr.1) ∧
      ∀ idx, r.bget idx = if ∀ pr ∈ cross, val.shape pr.1 = 1 ∨ idx pr.1 = idx (xDim + pr.2)
        then val.bget idx else 0 := by
  induction cross generalizing val with
  | nil => exact ⟨val, rfl, rfl, fun _ _ => rfl, fun pr h => by simp at h, fun idx => by simp⟩
  | cons pr cross ih =>
    obtain ⟨l, k⟩ := pr
    rw [List.map_cons, List.nodup_cons] at hn
    obtain ⟨h1, h2, h3⟩ := hc (l, k) List.mem_cons_self
    dsimp only at h1 h2 h3
    unfold sumCross
    obtain ⟨v, hv⟩ := zipWith_isOk (f := (· * ·)) (a := val)
      (b := eyeAt val.ndim (val.shape l) l (xDim + k)) (by
        intro m hm
        show val.shape m = (if m = l ∨ m = xDim + k then val.shape l else 1) ∨ _
        by_cases c1 : m = l
        · subst c1; left; rw [if_pos (Or.inl rfl)]
        · by_cases c2 : m = xDim + k
          · subst c2; exact Or.inr (Or.inl h3)
          · right; right
            show (if m = l ∨ m = xDim + k then val.shape l else 1) = 1
            rw [if_neg (by omega)])
    rw [hv]
    obtain ⟨z1, z2, -, z4⟩ := zipWith_ok hv rfl
    have vsh : ∀ m, v.shape m = if m = xDim + k then val.shape l else val.shape m := by
      intro m
      rw [z2]
      show (if val.shape m = 1 then (if m = l ∨ m = xDim + k then val.shape l else 1) else val.shape m) = _
      by_cases c2 : m = xDim + k
      · rw [if_pos c2, if_pos (by rw [c2, h3]), if_pos (Or.inr c2)]
      · rw [if_neg c2]
        by_cases c1 : m = l
        · rw [if_pos (Or.inl c1), c1]; simp
        · rw [if_neg (not_or.2 ⟨c1, c2⟩)]
          split_ifs with h
          · exact h.symm
          · rfl
    have hk : ∀ pr ∈ cross, xDim + pr.2 ≠ xDim + k := by
      intro pr hpr he
      apply hn.1
      exact List.mem_map.2 ⟨pr, hpr, by omega⟩
    obtain ⟨r, r1, r2, r3, r4, r5⟩ := ih v hn.2 (by
      intro pr hpr
      obtain ⟨g1, g2, g3⟩ := hc pr (List.mem_cons_of_mem _ hpr)
      refine ⟨g1, by rw [z1]; exact g2, ?_⟩
      rw [vsh, if_neg (hk pr hpr), g3])
    have vl : ∀ m < xDim, v.shape m = val.shape m := by
      intro m hm
      rw [vsh, if_neg (by omega)]
    refine ⟨r, r1, by rw [r2, z1], ?_, ?_, ?_⟩
    · intro m hm
      rw [r3 m fun pr hpr => hm pr (List.mem_cons_of_mem _ hpr), vsh,
        if_neg (hm (l, k) List.mem_cons_self)]
    · intro pr hpr
      rcases List.mem_cons.1 hpr with rfl | hpr
      · dsimp only
        rw [r3 _ fun pr hpr => (hk pr hpr).symm, vsh, if_pos rfl]
      · rw [r4 pr hpr, vl _ (hc pr (List.mem_cons_of_mem _ hpr)).1]
    · intro idx
      rw [r5, z4, eyeAt_bget (by omega) h2]
      have e : (∀ pr ∈ cross, v.shape pr.1 = 1 ∨ idx pr.1 = idx (xDim + pr.2)) ↔
          ∀ pr ∈ cross, val.shape pr.1 = 1 ∨ idx pr.1 = idx (xDim + pr.2) := by
        refine forall_congr' fun pr => forall_congr' fun hpr => ?_
        rw [vl _ (hc pr (List.mem_cons_of_mem _ hpr)).1]
      have ec : (∀ pr ∈ (l, k) :: cross, val.shape pr.1 = 1 ∨ idx pr.1 = idx (xDim + pr.2)) ↔
          (val.shape l = 1 ∨ idx l = idx (xDim + k)) ∧
          ∀ pr ∈ cross, val.shape pr.1 = 1 ∨ idx pr.1 = idx (xDim + pr.2) := List.forall_mem_cons
      by_cases c1 : ∀ pr ∈ cross, val.shape pr.1 = 1 ∨ idx pr.1 = idx (xDim + pr.2)
      · rw [if_pos (e.2 c1)]
        by_cases c2 : val.shape l = 1 ∨ idx l = idx (xDim + k)
        · rw [if_pos c2, if_pos (ec.2 ⟨c2, c1⟩), mul_one]
        · rw [if_neg c2, if_neg (fun h => c2 (ec.1 h).1), mul_zero]
      · rw [if_neg (fun h => c1 (e.1 h)), if_neg (fun h => c1 (ec.1 h).2)]

theorem arrSwapaxes_eq (q p : Nat) (k0 : Nat) (fs : List Int) (arr : NDArray α) :
    arrSwapaxes q p k0 fs arr = swapSel q p (fun f => 0 ≤ f) k0 fs arr := by
  induction fs generalizing k0 arr with
  | nil => rfl
  | cons f fs ih =>
    unfold arrSwapaxes swapSel
    rw [ih, ih]

end Verif.Tens
