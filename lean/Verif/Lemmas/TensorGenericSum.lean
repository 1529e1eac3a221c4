import Verif.Lemmas.TensorSum
import Mathlib.Algebra.CharZero.Defs
import Mathlib.Algebra.BigOperators.GroupWithZero.Finset
import Mathlib.Algebra.BigOperators.Ring.List
import Mathlib.Algebra.BigOperators.Ring.Finset
import Mathlib.Algebra.BigOperators.Group.List.Basic
import Mathlib.Tactic.FieldSimp
import Mathlib.Tactic.Ring

/-!
# Sums over broadcast axes
-/

set_option linter.unusedSectionVars false

namespace Verif.Tens
open Verif.Params (Err)
open NDArray

variable {α : Type} [Field α] [DecidableEq α]

theorem sumAt_mul (s : Nat → Nat) (L : List Nat) (c : α) (F : (Nat → Nat) → α) (base : Nat → Nat) :
    sumAt s L (fun n => c * F n) base = c * sumAt s L F base := by
  induction L generalizing base with
  | nil => rfl
  | cons a L ih =>
    unfold sumAt
    rw [Finset.mul_sum]
    exact Finset.sum_congr rfl fun i _ => ih _

theorem sumAt_add (s : Nat → Nat) (L : List Nat) (F G : (Nat → Nat) → α) (base : Nat → Nat) :
    sumAt s L (fun n => F n + G n) base = sumAt s L F base + sumAt s L G base := by
  induction L generalizing base with
  | nil => rfl
  | cons a L ih =>
    unfold sumAt
    rw [← Finset.sum_add_distrib]
    exact Finset.sum_congr rfl fun i _ => ih _

theorem sumAt_list {ι : Type} (s : Nat → Nat) (L : List Nat) (l : List ι) (F : ι → (Nat → Nat) → α)
    (base : Nat → Nat) :
    sumAt s L (fun n => (l.map fun e => F e n).sum) base = (l.map fun e => sumAt s L (F e) base).sum := by
  induction l with
  | nil => exact sumAt_zero s L base
  | cons e l ih =>
    simp only [List.map_cons, List.sum_cons]
    rw [sumAt_add, ih]

/-- A sum does not depend on the start in an axis on which the summand does not depend. -/
theorem sumAt_indep (s : Nat → Nat) (L : List Nat) {F : (Nat → Nat) → α} {a : Nat}
    (h : ∀ n i, F (Function.update n a i) = F n) (base : Nat → Nat) (i : Nat) :
    sumAt s L F (Function.update base a i) = sumAt s L F base := by
  induction L generalizing base with
  | nil => exact h base i
  | cons b L ih =>
    unfold sumAt
    refine Finset.sum_congr rfl fun j _ => ?_
    by_cases hb : a = b
    · subst hb
      rw [Function.update_idem]
    · rw [Function.update_comm hb, ih]

/-- Axes of size one on which the summand does not depend are repeated. -/
theorem sumAt_bcast [CharZero α] (s S : Nat → Nat) (L : List Nat) {F : (Nat → Nat) → α}
    (hp : ∀ a ∈ L, s a ≠ 0)
    (h : ∀ a ∈ L, s a = S a ∨ (s a = 1 ∧ ∀ n i, F (Function.update n a i) = F n)) (base : Nat → Nat) :
    sumAt S L F base = (((L.map S).prod : Nat) : α) / ((L.map s).prod : Nat) * sumAt s L F base := by
  induction L generalizing base with
  | nil => simp [sumAt]
  | cons a L ih =>
    have ih := fun base => ih (fun a h => hp a (List.mem_cons_of_mem _ h))
      (fun a ha => h a (List.mem_cons_of_mem _ ha)) base
    have hs : ((s a : Nat) : α) ≠ 0 := Nat.cast_ne_zero.2 (hp a List.mem_cons_self)
    have hq : (((L.map s).prod : Nat) : α) ≠ 0 := by
      rw [Nat.cast_ne_zero]
      refine List.prod_ne_zero fun hm => ?_
      obtain ⟨b, hb, e⟩ := List.mem_map.1 hm
      exact hp b (List.mem_cons_of_mem _ hb) e
    unfold sumAt
    rw [List.map_cons, List.map_cons, List.prod_cons, List.prod_cons, Nat.cast_mul, Nat.cast_mul]
    simp only [ih]
    rw [← Finset.mul_sum]
    rcases h a List.mem_cons_self with e | ⟨e, hi⟩
    · rw [← e]
      field_simp
    · have : ∀ i, sumAt s L F (Function.update base a i) = sumAt s L F base := sumAt_indep s L hi base
      simp only [this, e, Finset.sum_const, Finset.card_range, nsmul_eq_mul, Nat.cast_one, one_mul]
      field_simp

theorem foldl_zipWith_max (idx : List Nat) (l : List (Nat → Nat)) (c : Nat → Nat) :
    (l.map fun s => idx.map s).foldl (List.zipWith max) (idx.map c) =
      idx.map fun j => (l.map fun s => s j).foldl max (c j) := by
  induction l generalizing c with
  | nil => rfl
  | cons s l ih =>
    rw [List.map_cons, List.foldl_cons]
    have : List.zipWith max (idx.map c) (idx.map s) = idx.map fun j => max (c j) (s j) := by
      rw [List.zipWith_map, List.zipWith_self]
    rw [this, ih]
    rfl

theorem foldl_max_ge (l : List Nat) (c : Nat) : c ≤ l.foldl max c ∧ ∀ x ∈ l, x ≤ l.foldl max c := by
  induction l generalizing c with
  | nil => exact ⟨Nat.le_refl _, fun x hx => by cases hx⟩
  | cons y l ih =>
    obtain ⟨h1, h2⟩ := ih (max c y)
    refine ⟨by rw [List.foldl_cons]; omega, fun x hx => ?_⟩
    rw [List.foldl_cons]
    rcases List.mem_cons.1 hx with rfl | hx
    · omega
    · exact h2 x hx

theorem foldl_max_mem (l : List Nat) (c : Nat) : l.foldl max c = c ∨ l.foldl max c ∈ l := by
  induction l generalizing c with
  | nil => exact Or.inl rfl
  | cons y l ih =>
    rw [List.foldl_cons]
    rcases ih (max c y) with h | h
    · rw [h]
      rcases Nat.le_total c y with hc | hc
      · right; rw [Nat.max_eq_right hc]; exact List.mem_cons_self
      · left; exact Nat.max_eq_left hc
    · exact Or.inr (List.mem_cons_of_mem _ h)

end Verif.Tens
