import Verif.Lemmas.Markov

/-!
# The walks reach every state
-/

namespace Verif.Markov
open Finset Verif.MarkovSpec

variable {K : Type} [Field K] [LinearOrder K] [IsStrictOrderedRing K]

theorem stay_pos {s1 s2 f1 f2 : K} (h1 : 0 < s1) (h2 : 0 < s2) (h : s1 + s2 < 1)
    (hf1 : f1 ≤ 1) (hf2 : f2 ≤ 1) : 0 < 1 - (s1 * f1 + s2 * f2) := by
  have := mul_le_mul_of_nonneg_left hf1 h1.le
  have := mul_le_mul_of_nonneg_left hf2 h2.le
  linarith

theorem walk1P_nonneg {size : Nat} {skew : Vec K} {s1 s2 : K} (h1 : 0 < s1) (h2 : 0 < s2) (h : s1 + s2 < 1)
    (hf : ∀ x < 2 * size - 1, 0 < skew x ∧ skew x ≤ 1) {x : Nat} (hx : x < 2 * size - 1) (a : Nat) : 0 ≤ walk1P size skew s1 s2 x a ∧
      (a = x - 1 ∨ a = min (x + 1) (2 * size - 2) ∨ a = x → 0 < walk1P size skew s1 s2 x a) := by
  have f1 := hf x hx
  have f2 := hf (2 * size - 2 - x) (by omega)
  have p1 := mul_pos h1 f1.1
  have p2 := mul_pos h2 f2.1
  have p3 := stay_pos h1 h2 h f1.2 f2.2
  unfold walk1P
  constructor
  · refine add_nonneg (add_nonneg ?_ ?_) ?_ <;> split_ifs <;> first | exact le_rfl | exact p1.le | exact p2.le | exact p3.le
  · rintro (h | h | h)
    · rw [if_pos h]
      refine add_pos_of_pos_of_nonneg (add_pos_of_nonneg_of_pos ?_ p2) ?_ <;> split_ifs <;> first | exact le_rfl | exact p1.le | exact p3.le
    · rw [if_pos h]
      refine add_pos_of_pos_of_nonneg (add_pos_of_pos_of_nonneg p1 ?_) ?_ <;> split_ifs <;> first | exact le_rfl | exact p2.le | exact p3.le
    · rw [if_pos h]
      refine add_pos_of_nonneg_of_pos (add_nonneg ?_ ?_) p3 <;> split_ifs <;> first | exact le_rfl | exact p1.le | exact p2.le

theorem walk1Dist_pos {size : Nat} {skew : Vec K} {s1 s2 : K} (hs : 0 < size) (h1 : 0 < s1) (h2 : 0 < s2) (h : s1 + s2 < 1)
    (hf : ∀ x < 2 * size - 1, 0 < skew x ∧ skew x ≤ 1) {n a : Nat} (ha : a < 2 * size - 1) (hl : size - 1 ≤ a + n) (hr : a ≤ size - 1 + n) :
    0 < walk1Dist size skew s1 s2 n a := by
  induction n generalizing a with
  | zero =>
    unfold walk1Dist
    rw [if_pos (by omega)]
    exact one_pos
  | succ n ih =>
    have key : ∀ x, x < 2 * size - 1 → size - 1 ≤ x + n → x ≤ size - 1 + n → (a = x - 1 ∨ a = min (x + 1) (2 * size - 2) ∨ a = x) →
        0 < walk1Dist size skew s1 s2 (n + 1) a := by
      intro x hx h3 h4 h5
      refine Finset.sum_pos' (fun y hy => mul_nonneg (walk1Dist_nonneg h1 h2 h (fun z hz => ⟨(hf z hz).1.le, (hf z hz).2⟩) _ _)
        (walk1P_nonneg h1 h2 h hf (mem_range.1 hy) a).1) ⟨x, mem_range.2 hx, mul_pos (ih hx h3 h4) ((walk1P_nonneg h1 h2 h hf hx a).2 h5)⟩
    rcases lt_trichotomy a (size - 1) with c | c | c
    · exact key (a + 1) (by omega) (by omega) (by omega) (Or.inl (by omega))
    · exact key a ha (by omega) (by omega) (Or.inr (Or.inr rfl))
    · exact key (a - 1) (by omega) (by omega) (by omega) (Or.inr (Or.inl (by omega)))

theorem walk2P_nonneg {size : Nat} {skew : Mat K} {s1 s2 : K} (h1 : 0 < s1) (h2 : 0 < s2) (h : s1 + s2 < 1)
    (hf : ∀ x < size, ∀ y < size, 0 < skew x y ∧ skew x y ≤ 1) {x y : Nat} (hx : x < size) (hy : y < size) (a b : Nat) :
    0 ≤ walk2P size skew s1 s2 x y a b ∧
      ((a = min (x + 1) (size - 1) ∧ b = y) ∨ (a = x ∧ b = min (y + 1) (size - 1)) ∨ (a = x ∧ b = y) → 0 < walk2P size skew s1 s2 x y a b) := by
  have f1 := hf x hx y hy
  have f2 := hf y hy x hx
  have p1 := mul_pos h1 f1.1
  have p2 := mul_pos h2 f2.1
  have p3 := stay_pos h1 h2 h f1.2 f2.2
  unfold walk2P
  constructor
  · refine add_nonneg (add_nonneg ?_ ?_) ?_ <;> split_ifs <;> first | exact le_rfl | exact p1.le | exact p2.le | exact p3.le
  · rintro (h | h | h)
    · rw [if_pos h]
      refine add_pos_of_pos_of_nonneg (add_pos_of_pos_of_nonneg p1 ?_) ?_ <;> split_ifs <;> first | exact le_rfl | exact p2.le | exact p3.le
    · rw [if_pos h]
      refine add_pos_of_pos_of_nonneg (add_pos_of_nonneg_of_pos ?_ p2) ?_ <;> split_ifs <;> first | exact le_rfl | exact p1.le | exact p3.le
    · rw [if_pos h]
      refine add_pos_of_nonneg_of_pos (add_nonneg ?_ ?_) p3 <;> split_ifs <;> first | exact le_rfl | exact p1.le | exact p2.le

theorem walk2Dist_pos {size : Nat} {skew : Mat K} {s1 s2 : K} (h1 : 0 < s1) (h2 : 0 < s2) (h : s1 + s2 < 1)
    (hf : ∀ x < size, ∀ y < size, 0 < skew x y ∧ skew x y ≤ 1) {n a b : Nat} (ha : a < size) (hb : b < size) (hn : a + b ≤ n) :
    0 < walk2Dist size skew s1 s2 n a b := by
  induction n generalizing a b with
  | zero =>
    unfold walk2Dist
    rw [if_pos ⟨by omega, by omega⟩]
    exact one_pos
  | succ n ih =>
    have h0 : ∀ x y, 0 ≤ walk2Dist size skew s1 s2 n x y :=
      fun x y => walk2Dist_nonneg h1 h2 h (fun z hz w hw => ⟨(hf z hz w hw).1.le, (hf z hz w hw).2⟩) _ _ _
    have key : ∀ x y, x < size → y < size → x + y ≤ n → ((a = min (x + 1) (size - 1) ∧ b = y) ∨ (a = x ∧ b = min (y + 1) (size - 1)) ∨ (a = x ∧ b = y)) →
        0 < walk2Dist size skew s1 s2 (n + 1) a b := by
      intro x y hx hy h3 h5
      refine Finset.sum_pos' (fun x' hx' => Finset.sum_nonneg fun y' hy' => mul_nonneg (h0 _ _) (walk2P_nonneg h1 h2 h hf (mem_range.1 hx') (mem_range.1 hy') a b).1) ⟨x, mem_range.2 hx, ?_⟩
      exact Finset.sum_pos' (fun y' hy' => mul_nonneg (h0 _ _) (walk2P_nonneg h1 h2 h hf hx (mem_range.1 hy') a b).1)
        ⟨y, mem_range.2 hy, mul_pos (ih hx hy h3) ((walk2P_nonneg h1 h2 h hf hx hy a b).2 h5)⟩
    by_cases c : a = 0
    · by_cases d : b = 0
      · exact key a b ha hb (by omega) (Or.inr (Or.inr ⟨rfl, rfl⟩))
      · exact key a (b - 1) ha (by omega) (by omega) (Or.inr (Or.inl ⟨rfl, by omega⟩))
    · exact key (a - 1) b (by omega) hb (by omega) (Or.inl ⟨by omega, rfl⟩)

end Verif.Markov
