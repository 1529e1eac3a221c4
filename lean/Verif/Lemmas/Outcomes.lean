import Verif.Lemmas.Blocks

/-!
# Sums over the outcome axes
-/

set_option linter.unusedSectionVars false

namespace Verif.Tens
open Verif.Params (Err)
open NDArray

variable {α : Type} [Field α] [DecidableEq α]

theorem sumAt_congr' {s s' : Nat → Nat} (L : List Nat) (h : ∀ k ∈ L, s k = s' k) (F : (Nat → Nat) → α)
    (base : Nat → Nat) : sumAt s L F base = sumAt s' L F base := by
  induction L generalizing base with
  | nil => rfl
  | cons a L ih =>
    show ∑ i ∈ Finset.range (s a), _ = ∑ i ∈ Finset.range (s' a), _
    rw [h a List.mem_cons_self]
    exact Finset.sum_congr rfl fun i _ => ih (fun k hk => h k (List.mem_cons_of_mem _ hk)) _

/-- The sum over the outcomes. -/
def Layout.sumOut (L : Layout) (F : Idx → α) (i : Idx) : α :=
  sumAt (fun k => L.S (L.n + k)) (List.range L.d) (fun d => F ⟨i.x, i.y, i.n, d⟩) i.d

theorem sumOut_at (pr : Problem) (p q : Nat) (x y : Nat → Nat) (c : pr.Cell) (F : Idx → α) :
    (pr.layout p q).sumOut F (pr.at x y c) = ∑ u, F (pr.at x y (c.1, u)) := by
  unfold Layout.sumOut
  refine (sumAt_range pr.d (fun k => pr.S (pr.n + k)) _ _).trans ?_
  refine Finset.sum_congr rfl fun u _ => ?_
  refine congrArg F ?_
  show (⟨_, _, _, _⟩ : Idx) = ⟨_, _, _, _⟩
  congr 1
  funext k
  unfold extend
  by_cases h : k < pr.d
  · rw [dif_pos h, dif_pos h]
  · rw [dif_neg h, dif_neg h]
    show (if h : k < pr.d then (c.2 ⟨k, h⟩ : Nat) else 0) = 0
    rw [dif_neg h]

theorem Piece.sumDim {L : Layout} {t r : Tensor α} (h : Piece L t) (w : r.WF) (e1 : r.xDim = t.xDim)
    (e2 : r.yDim = t.yDim) (e3 : r.n = t.n) (e4 : r.dim = 0) (e5 : r.xMap = t.xMap) (e6 : r.yMap = t.yMap)
    (e7 : ∀ k < t.xDim + t.yDim + t.n, r.values.shape k = t.values.shape k) : Piece L r := by
  refine ⟨w, by rw [e5, e6]; exact h.inj, by rw [e1]; exact h.hx, by rw [e2]; exact h.hy, by rw [e3]; exact h.hn,
    Or.inl e4, ?_, ?_, ?_⟩
  · intro k hk
    rw [e4] at hk
    rw [e1, e2, e7 _ (by rw [h.hn]; omega)]
    exact h.size k (by omega)
  · intro k hk
    rw [e1] at hk
    rw [e5, e7 _ (by omega)]
    exact h.px k hk
  · intro k hk
    rw [e2] at hk
    rw [e6, e1, e7 _ (by omega)]
    exact h.py k hk

/-- `t.sum(False)` -/
theorem piece_sumOutcomes {L : Layout} {t : Tensor α} (h : Piece L t) (hd : t.dim = L.d)
    (hf : ∀ k < L.d, t.values.shape (t.xDim + t.yDim + (L.n + k)) = L.S (L.n + k)) :
    ∃ r, (Num.tensor t).sumOutcomes = .ok (.tensor r) ∧ Piece L r ∧ r.xDim = t.xDim ∧ r.yDim = t.yDim ∧
      ∀ i, r.dense i = L.sumOut t.dense i := by
  obtain ⟨r, e1, e2, e3, e4, e5, e6, e7, e8, e9, e10⟩ := C55_sum_dim h.wf
  refine ⟨r, ?_, h.sumDim e2 e3 e4 e5 e6 e7 e8 e9, e3, e4, fun i => ?_⟩
  · unfold Num.sumOutcomes Num.sum
    dsimp only
    rw [e1]
  · rw [e10]
    unfold Tensor.sumDense Layout.sumOut
    rw [if_pos rfl, h.hn, hd]
    show sumAt _ _ (fun d => t.dense ⟨i.x, i.y, fun f => i.n (f - 0), d⟩) i.d = _
    refine sumAt_congr' _ (fun k hk => ?_) _ _
    rw [← hf k (List.mem_range.1 hk), Nat.add_assoc]

theorem zero_sumOutcomes {t : Tensor α} (h : t.IsZero) :
    ∃ r, (Num.tensor t).sumOutcomes = .ok (.tensor r) ∧ r.IsZero := by
  obtain ⟨r, e1, e2, e3, e4, e5, e6, e7, e8, e9, e10⟩ := C55_sum_dim h.1
  obtain ⟨h1, h2, h3, h4, -⟩ := h.dims
  have hnd : r.values.ndim = 0 := by rw [e2.nd]; omega
  refine ⟨r, ?_, e2, hnd, ?_⟩
  · unfold Num.sumOutcomes Num.sum
    dsimp only
    rw [e1]
  · rw [← Tensor.dense_zero e2 hnd ⟨fun _ => 0, fun _ => 0, fun _ => 0, fun _ => 0⟩, e10]
    unfold Tensor.sumDense
    rw [if_pos rfl, h3]
    exact h.dense _

theorem num_sumOutcomes [CharZero α] {L : Layout} (hL : L.Ok) {v : Num α} (h : NumPiece L v) (hf : OutcomesFull L v) :
    ∃ r, v.sumOutcomes = .ok r ∧ NumPiece L r ∧ r.xDim = v.xDim ∧ r.yDim = v.yDim ∧
      ∀ i, r.dense i = L.sumOut v.dense i := by
  cases v with
  | tensor t =>
    have hz : t.IsZero → ∃ r, (Num.tensor t).sumOutcomes = .ok r ∧ NumPiece L r ∧ r.xDim = (Num.tensor t).xDim ∧
        r.yDim = (Num.tensor t).yDim ∧ ∀ i, r.dense i = L.sumOut (Num.tensor t).dense i := by
      intro hz
      obtain ⟨r, r1, r2⟩ := zero_sumOutcomes hz
      obtain ⟨h1, h2, h3, h4, -⟩ := hz.dims
      obtain ⟨k1, k2, k3, k4, -⟩ := r2.dims
      refine ⟨_, r1, Or.inr r2, ?_, ?_, fun i => ?_⟩
      · show r.xDim = t.xDim; omega
      · show r.yDim = t.yDim; omega
      · show r.dense i = L.sumOut t.dense i
        rw [r2.dense]
        unfold Layout.sumOut
        rw [show (fun d => t.dense ⟨i.x, i.y, i.n, d⟩) = fun _ => 0 from funext fun d => hz.dense _, sumAt_zero]
    rcases h with h | h
    · rcases hf with hf | hf
      · exact hz hf
      · obtain ⟨r, r1, r2, r3, r4, r5⟩ := piece_sumOutcomes h hf.1 hf.2
        exact ⟨_, r1, Or.inl r2, r3, r4, r5⟩
    · exact hz h
  | generic g =>
    obtain ⟨hg, hne⟩ := numPiece_generic h
    obtain ⟨f1, f2⟩ := hf
    have hp : ∀ t, .inl t ∈ g.elements → Piece L t ∧ t.dim = L.d ∧
        (∀ k < L.d, t.values.shape (t.xDim + t.yDim + (L.n + k)) = L.S (L.n + k)) ∧ t.xDim ≤ g.xDim ∧ t.yDim ≤ g.yDim := by
      intro t ht
      obtain ⟨t', e, a1, a2, a3⟩ := f2 _ ht
      cases e
      obtain ⟨t', e, b1, b2, b3, -⟩ := hg.els _ ht
      cases e
      refine ⟨b1.resolve_right fun hz => ?_, a2, a3, b2, b3⟩
      obtain ⟨-, -, -, h4, -⟩ := hz.dims
      have := hL.some
      omega
    obtain ⟨r, r1, r2, r3, r4, r5, r6, r7, r8⟩ := C58_sum_dim (g := g)
      (fun e he => by
        obtain ⟨t, rfl, -⟩ := f2 e he
        obtain ⟨k1, k2, -⟩ := hp t he
        exact ⟨t, rfl, k1.wf, by rw [k1.hn, hg.hn], by rw [k2, f1]⟩)
      (fun t o ht ho k hk => Or.inl (by
        rw [f1] at hk
        rw [hg.hn, Nat.add_assoc _ L.n, Nat.add_assoc _ L.n, (hp t ht).2.2.1 k hk, (hp o ho).2.2.1 k hk]))
      (fun t ht k hk => by
        rw [f1] at hk
        rw [hg.hn, Nat.add_assoc _ L.n, (hp t ht).2.2.1 k hk]
        exact hL.pos _ (by omega))
    refine ⟨.generic r, r1, ⟨by rw [r2]; exact hg.hx, by rw [r3]; exact hg.hy, by rw [r4]; exact hg.hn, Or.inl r5, ?_, ?_⟩,
      r2, r3, fun i => ?_⟩
    · intro h0
      rw [h0] at r6
      exact hne (List.eq_nil_of_length_eq_zero r6.symm)
    · intro e he
      obtain ⟨t, rfl, t1, t2, t3, u, hu, u1, u2, u3, u4, u5⟩ := r7 e he
      obtain ⟨k1, k2, k3, k4, k5⟩ := hp u hu
      refine ⟨t, rfl, Or.inl (k1.sumDim t1 u1 u2 (by rw [t2, k1.hn, hg.hn]) t3 u3 u4 u5), by omega, by omega, by omega⟩
    · show r.dense i = _
      rw [r8]
      unfold Generic.sumDimDense Layout.sumOut
      rw [f1, hg.hn]
      refine sumAt_congr' _ (fun k hk => ?_) _ _
      have hk := List.mem_range.1 hk
      refine elems_size (fun e he => ?_) hne (hL.pos _ (by omega))
      obtain ⟨t, rfl, -, -, h3⟩ := f2 e he
      exact ⟨t, rfl, h3 k hk⟩

/-- Sums and differences are no numbers if the first term is none. -/
theorem num_add_piece {L : Layout} (hL : L.Ok) {v w : Num α} (hv : ∀ t, v = .tensor t → Piece L t) (hw : NumPiece L w)
    {op : Op} (hop : op = .add ∨ op = .sub) {r : Num α} (h : v.bin w op = .ok r) {s : Tensor α} (hs : r = .tensor s) :
    Piece L s := by
  have hadd : op.additive := op.additive_iff.2 (by rcases hop with h | h <;> simp [h])
  subst hs
  cases v with
  | tensor t =>
    have ht := hv t rfl
    cases w with
    | tensor o =>
      have h' : t.binTensor o op = .ok (.tensor s) := h
      rcases hw with hw | hw
      · obtain ⟨r, e1, e2, ⟨s', rfl, e3, -⟩ | rfl⟩ := piece_add hL ht hw hadd
        · rw [e1] at h'; cases h'; exact e3
        · rw [e1] at h'; cases h'
      · unfold Tensor.binTensor at h'
        rw [if_pos hw.2.1, hw.2.2] at h'
        rcases hop with rfl | rfl <;>
        · simp [Tensor.binScalar] at h'
          rw [← h']; exact ht
    | generic g =>
      have h' : (match t.binGeneric g op with | .error e => .error e | .ok r => .ok (.generic r) : Except Err (Num α)) =
        .ok (.tensor s) := h
      cases e : t.binGeneric g op with
      | error _ => rw [e] at h'; cases h'
      | ok _ => rw [e] at h'; cases h'
  | generic g =>
    cases w with
    | tensor o =>
      have h' : (match g.binPrim (.tensor o) op with | .error e => .error e | .ok r => .ok (.generic r) :
        Except Err (Num α)) = .ok (.tensor s) := h
      cases e : g.binPrim (.tensor o) op with
      | error _ => rw [e] at h'; cases h'
      | ok _ => rw [e] at h'; cases h'
    | generic g' =>
      have h' : (match g.binGeneric g' op with | .error e => .error e | .ok r => .ok (.generic r) :
        Except Err (Num α)) = .ok (.tensor s) := h
      cases e : g.binGeneric g' op with
      | error _ => rw [e] at h'; cases h'
      | ok _ => rw [e] at h'; cases h'

theorem numFull_piece {L : Layout} {v : Num α} (h : NumFull L v) (t : Tensor α) (e : v = .tensor t) : Piece L t := by
  subst e; exact h.1

end Verif.Tens
