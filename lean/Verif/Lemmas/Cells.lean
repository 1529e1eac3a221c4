import Verif.Lemmas.NumSum
import Mathlib.Data.Fintype.BigOperators
import Mathlib.Algebra.BigOperators.Fin

/-!
# Sums over cells; change of layout; transposes
-/

set_option linter.unusedSectionVars false

namespace Verif.Tens
open Verif.Params (Err)
open NDArray

section
variable {α : Type} [Field α] [DecidableEq α]

/-- The position that agrees with `c` on the first `n` axes. -/
def extend (n : Nat) (s : Nat → Nat) (c : ∀ k : Fin n, Fin (s k)) (base : Nat → Nat) (k : Nat) : Nat :=
  if h : k < n then c ⟨k, h⟩ else base k

theorem sumAt_range (n : Nat) (s : Nat → Nat) (F : (Nat → Nat) → α) (base : Nat → Nat) :
    sumAt s (List.range n) F base = ∑ c : (∀ k : Fin n, Fin (s k)), F (extend n s c base) := by
  induction n generalizing F with
  | zero =>
    rw [List.range_zero]
    show F base = _
    rw [Fintype.sum_unique]
    congr 1
  | succ n ih =>
    rw [List.range_succ, sumAt_append, ih]
    rw [← (Fin.snocEquiv fun k : Fin (n + 1) => Fin (s k)).sum_comp, Fintype.sum_prod_type, Finset.sum_comm]
    refine Finset.sum_congr rfl fun c _ => ?_
    show ∑ i ∈ Finset.range (s n), F (Function.update (extend n s c base) n i) = _
    rw [Finset.sum_range]
    refine Finset.sum_congr rfl fun i _ => ?_
    congr 1
    funext k
    unfold extend
    by_cases hk : k = n
    · subst hk
      rw [Function.update_self, dif_pos (Nat.lt_succ_self _)]
      show (i : Nat) = ((Fin.snoc c i : ∀ j : Fin (k + 1), Fin (s j)) (Fin.last k) : Nat)
      rw [Fin.snoc_last]
    · rw [Function.update_of_ne hk]
      by_cases hk' : k < n
      · rw [dif_pos hk', dif_pos (by omega)]
        show _ = ((Fin.snoc c i : ∀ j : Fin (n + 1), Fin (s j)) (Fin.castSucc ⟨k, hk'⟩) : Nat)
        rw [Fin.snoc_castSucc]
      · rw [dif_neg hk', dif_neg (by omega)]

end

variable {α : Type} [Field α] [DecidableEq α]

theorem sumCells_eq (pr : Problem) (p q : Nat) (x y : Nat → Nat) (F : Idx → α) :
    (pr.layout p q).sumCells (fun n d => F ⟨x, y, n, d⟩) = ∑ c : pr.Cell, F (pr.at x y c) := by
  unfold Layout.sumCells
  rw [show (pr.layout p q).n = pr.n from rfl, sumAt_range, Fintype.sum_prod_type]
  refine Finset.sum_congr rfl fun c _ => ?_
  rw [show (pr.layout p q).d = pr.d from rfl]
  exact sumAt_range pr.d (fun k => pr.S (pr.n + k)) _ _

/-! ### change of layout -/

theorem Piece.change {L L' : Layout} {t : Tensor α} (h : Piece L t) (hn : L'.n = L.n) (hd : L'.d = L.d) (hS : L'.S = L.S)
    (hx : t.xDim = 0 ∨ (L'.a = L.a ∧ L'.PX = L.PX)) (hy : t.yDim = 0 ∨ (L'.b = L.b ∧ L'.PY = L.PY)) : Piece L' t := by
  refine ⟨h.wf, h.inj, ?_, ?_, by rw [hn]; exact h.hn, by rw [hd]; exact h.hd, ?_, ?_, ?_⟩
  · rcases hx with hx | hx
    · exact Or.inl hx
    · rw [hx.1]; exact h.hx
  · rcases hy with hy | hy
    · exact Or.inl hy
    · rw [hy.1]; exact h.hy
  · rw [hn, hS]; exact h.size
  · intro k hk
    rcases hx with hx | hx
    · omega
    · rw [hS, hx.2]; exact h.px k hk
  · intro k hk
    rcases hy with hy | hy
    · omega
    · rw [hS, hy.2]; exact h.py k hk

theorem FullPiece.change {L L' : Layout} {t : Tensor α} (h : FullPiece L t) (hn : L'.n = L.n) (hd : L'.d = L.d) (hS : L'.S = L.S)
    (hx : t.xDim = 0 ∨ (L'.a = L.a ∧ L'.PX = L.PX)) (hy : t.yDim = 0 ∨ (L'.b = L.b ∧ L'.PY = L.PY)) : FullPiece L' t := by
  refine ⟨h.1.change hn hd hS hx hy, ?_⟩
  unfold Tensor.FullOn
  rw [hn, hd, hS]
  exact h.2

theorem Item.change {L L' : Layout} {t : Tensor α} (h : Item L t) (hn : L'.n = L.n) (hd : L'.d = L.d) (hS : L'.S = L.S)
    (hx : t.xDim = 0 ∨ (L'.a = L.a ∧ L'.PX = L.PX)) (hy : t.yDim = 0 ∨ (L'.b = L.b ∧ L'.PY = L.PY)) : Item L' t :=
  h.imp (fun h => h.change hn hd hS hx hy) id

theorem NumPiece.change {L L' : Layout} {v : Num α} (h : NumPiece L v) (hn : L'.n = L.n) (hd : L'.d = L.d) (hS : L'.S = L.S)
    (hx : v.xDim = 0 ∨ (L'.a = L.a ∧ L'.PX = L.PX)) (hy : v.yDim = 0 ∨ (L'.b = L.b ∧ L'.PY = L.PY)) : NumPiece L' v := by
  cases v with
  | tensor t => exact Item.change h hn hd hS hx hy
  | generic g =>
    obtain ⟨h1, h2, h3, h4, h5, h6⟩ := h
    refine ⟨?_, ?_, by rw [hn]; exact h3, by rw [hd]; exact h4, h5, fun e he => ?_⟩
    · rcases hx with hx | hx
      · exact Or.inl hx
      · rw [hx.1]; exact h1
    · rcases hy with hy | hy
      · exact Or.inl hy
      · rw [hy.1]; exact h2
    · obtain ⟨t, e1, e2, e3, e4, e5⟩ := h6 e he
      refine ⟨t, e1, e2.change hn hd hS ?_ ?_, e3, e4, e5⟩
      · rcases hx with hx | hx
        · have : g.xDim = 0 := hx
          exact Or.inl (by omega)
        · exact Or.inr hx
      · rcases hy with hy | hy
        · have : g.yDim = 0 := hy
          exact Or.inl (by omega)
        · exact Or.inr hy

/-! ### transpose -/

theorem transpose_eq {t : Tensor α} (hy : t.yDim = 0) : t.transpose = ⟨t.values, 0, t.xDim, t.dim, t.yMap, t.xMap⟩ := by
  unfold Tensor.transpose
  rw [if_neg (by omega), hy]

theorem Piece.transpose {L : Layout} {t : Tensor α} (h : Piece L t) (hy : t.yDim = 0) : Piece L.flip t.transpose := by
  obtain ⟨w1, -, -, w4, -⟩ := C52_transpose_partial h.wf (Or.inr (Or.inl hy))
  have e := transpose_eq hy
  rw [e] at w1 w4 ⊢
  refine ⟨w1, ⟨h.inj.2, h.inj.1⟩, Or.inl rfl, h.hx, by rw [w4]; exact h.hn, h.hd, ?_, ?_, ?_⟩
  · intro k hk
    have := h.size k hk
    rw [hy] at this
    dsimp only
    rw [Nat.add_zero] at this
    rw [Nat.zero_add]
    exact this
  · intro k hk
    exact absurd hk (Nat.not_lt_zero _)
  · intro k hk
    have := h.px k hk
    dsimp only
    rw [Nat.zero_add]
    exact this

theorem Item.transpose {L : Layout} {t : Tensor α} (h : Item L t) (hy : t.yDim = 0) : Item L.flip t.transpose := by
  rcases h with h | h
  · exact Or.inl (h.transpose hy)
  · right
    obtain ⟨w1, -⟩ := C52_transpose_partial h.1 (Or.inr (Or.inl hy))
    refine ⟨w1, ?_, ?_⟩
    · rw [transpose_eq hy]; exact h.2.1
    · rw [transpose_eq hy]; exact h.2.2

theorem num_transpose {L : Layout} {v : Num α} (h : NumPiece L v) (hy : v.yDim = 0) :
    NumPiece L.flip v.transpose ∧ v.transpose.xDim = 0 ∧ v.transpose.yDim = v.xDim ∧
      ∀ i, v.transpose.dense i = v.dense i.swap := by
  cases v with
  | tensor t =>
    refine ⟨Item.transpose h hy, ?_, ?_, ?_⟩
    · show t.transpose.xDim = 0; rw [transpose_eq hy]
    · show t.transpose.yDim = t.xDim; rw [transpose_eq hy]
    · exact (C52_transpose_partial (Item.wf h) (Or.inr (Or.inl hy))).2.2.2.2.2
  | generic g =>
    obtain ⟨h1, h2, h3, h4, h5, h6⟩ := h
    have hy' : g.yDim = 0 := hy
    refine ⟨⟨h2, h1, h3, h4, ?_, ?_⟩, hy, rfl, ?_⟩
    · show g.elements.map transposeElem ≠ []
      simpa using h5
    · intro e he
      obtain ⟨e', he', rfl⟩ := List.mem_map.1 he
      obtain ⟨t, rfl, e2, e3, e4, e5⟩ := h6 e' he'
      have hty : t.yDim = 0 := by omega
      refine ⟨t.transpose, rfl, e2.transpose hty, ?_⟩
      rw [transpose_eq hty]
      exact ⟨Nat.zero_le _, e3, e5⟩
    · refine (C61_transpose_partial fun e he => ?_).2.2.2.2.2
      obtain ⟨t, rfl, e2, e3, e4, e5⟩ := h6 e he
      exact ⟨t, rfl, e2.wf, Or.inr (Or.inl (by omega))⟩

end Verif.Tens
