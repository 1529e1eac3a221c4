import Verif.Lemmas.ValueTensor
import Verif.Props.TensorGenericSumDim
import Verif.Props.TensorGenericStruct

/-!
# Sums and transposes of the derivative arrays of one problem
-/

set_option linter.unusedSectionVars false

namespace Verif.Tens
open Verif.Params (Err)
open NDArray

variable {α : Type} [Field α] [DecidableEq α]

/-! ### the sizes of the parameters -/

theorem FullPiece.shapeN {L : Layout} {t : Tensor α} (h : FullPiece L t) {k : Nat} (hk : k < L.n + L.d) :
    t.values.shape (t.xDim + t.yDim + k) = L.S k := h.2.2 k hk trivial

theorem Piece.mapX {L : Layout} {t : Tensor α} (h : Piece L t) {k : Nat} (h0 : 0 ≤ t.xMap.getD k (-1)) :
    k < t.xDim ∧ (t.xMap.getD k (-1)).toNat < L.n := by
  have hk := lt_of_getD_nonneg h0
  have h1 := h.wf.xLen
  have h2 := h.wf.xRange (t.xMap.getD k (-1)) (by rw [List.getD_eq_getElem _ _ hk]; exact List.getElem_mem hk)
  rw [h.hn] at h2
  omega

theorem Piece.mapY {L : Layout} {t : Tensor α} (h : Piece L t) {k : Nat} (h0 : 0 ≤ t.yMap.getD k (-1)) :
    k < t.yDim ∧ (t.yMap.getD k (-1)).toNat < L.n := by
  have hk := lt_of_getD_nonneg h0
  have h1 := h.wf.yLen
  have h2 := h.wf.yRange (t.yMap.getD k (-1)) (by rw [List.getD_eq_getElem _ _ hk]; exact List.getElem_mem hk)
  rw [h.hn] at h2
  omega

theorem FullPiece.fullX {L : Layout} {t : Tensor α} (h : FullPiece L t) {k : Nat} (hk : k < t.xDim) :
    t.fullShape k = L.PX k := by
  unfold Tensor.fullShape
  rw [if_pos hk]
  split_ifs with h0
  · rw [h.shapeN (by have := (h.1.mapX h0).2; omega), (h.1.px k hk).1 h0]
  · exact (h.1.px k hk).2 (by omega)

theorem FullPiece.fullY {L : Layout} {t : Tensor α} (h : FullPiece L t) {k : Nat} (hk : k < t.yDim) :
    t.fullShape (t.xDim + k) = L.PY k := by
  unfold Tensor.fullShape
  rw [if_neg (by omega), if_pos (by omega), show t.xDim + k - t.xDim = k by omega]
  split_ifs with h0
  · rw [h.shapeN (by have := (h.1.mapY h0).2; omega), (h.1.py k hk).1 h0]
  · exact (h.1.py k hk).2 (by omega)

/-- The sum over all features and outcomes. -/
def Layout.sumCells (L : Layout) (F : (Nat → Nat) → (Nat → Nat) → α) : α :=
  sumAt L.S (List.range L.n) (fun n => sumAt (fun k => L.S (L.n + k)) (List.range L.d) (fun d => F n d) fun _ => 0) fun _ => 0

theorem sumCells_congr {L : Layout} {F G : (Nat → Nat) → (Nat → Nat) → α}
    (h : ∀ n d, (∀ k < L.n, n k < L.S k) → (∀ k < L.d, d k < L.S (L.n + k)) → F n d = G n d) :
    L.sumCells F = L.sumCells G := by
  unfold Layout.sumCells
  refine sumAt_congr _ (fun _ _ => rfl) fun n n' h1 h2 h3 => ?_
  have e : n = n' := by
    funext k
    by_cases hk : k ∈ List.range L.n
    · exact (h1 k hk).1
    · rw [h2 k hk, h3 k hk]
  subst e
  refine sumAt_congr _ (fun _ _ => rfl) fun d d' g1 g2 g3 => ?_
  have e : d = d' := by
    funext k
    by_cases hk : k ∈ List.range L.d
    · exact (g1 k hk).1
    · rw [g2 k hk, g3 k hk]
  subst e
  exact h n d (fun k hk => (h1 k (List.mem_range.2 hk)).2) fun k hk => (g1 k (List.mem_range.2 hk)).2

/-- `t.sum()` -/
theorem full_sumAll {L : Layout} {t : Tensor α} (h : FullPiece L t) :
    ∃ r, (Num.tensor t).sumAll = .ok (.tensor r) ∧ r.WF ∧ r.xDim = t.xDim ∧ r.yDim = t.yDim ∧ r.n = 0 ∧ r.dim = 0 ∧
      (∀ k < t.xDim, r.fullShape k = L.PX k) ∧ (∀ k < t.yDim, r.fullShape (t.xDim + k) = L.PY k) ∧
      (r.xMap = [] ∧ r.yMap = []) ∧ ∀ i, (∀ k < t.xDim, i.x k < L.PX k) → (∀ k < t.yDim, i.y k < L.PY k) →
        r.dense i = L.sumCells fun n d => t.dense ⟨i.x, i.y, n, d⟩ := by
  obtain ⟨r, e1, e2, e3, e4, e5, e6, e7, e8, e9, -, e10⟩ := C55_sum_all_partial h.1.wf h.1.inj true
  have hnd : r.values.ndim = t.xDim + t.yDim := by
    rw [e2.nd, e3, e4, e5, e6]; simp
  refine ⟨r, ?_, e2, e3, e4, e5, e6, fun k hk => ?_, fun k hk => ?_, ⟨e7, e8⟩, fun i hx hy => ?_⟩
  · unfold Num.sumAll Num.sum
    dsimp only
    rw [e1]
  · rw [e9 k (by omega), h.fullX hk]
  · rw [e9 _ (by omega), h.fullY hk]
  · rw [e10 i]
    · unfold Tensor.sumDense Layout.sumCells
      rw [h.1.hn]
      refine sumAt_congr _ (fun k hk => ?_) fun n n' h1 h2 h3 => ?_
      · exact h.shapeN (by have := List.mem_range.1 hk; omega)
      · rw [if_pos rfl, h.2.1]
        have hn : ∀ k < L.n, n k = n' k := fun k hk => (h1 k (List.mem_range.2 hk)).1
        refine sumAt_congr _ (fun k hk => ?_) fun d d' g1 g2 g3 => ?_
        · have := h.shapeN (k := L.n + k) (by have := List.mem_range.1 hk; omega)
          rw [← this]; congr 1; omega
        · refine Tensor.dense_congr_bcast h.1.wf rfl rfl (fun f hf => Or.inl (hn f ?_))
            fun k hk => Or.inl (g1 k (List.mem_range.2 ?_)).1
          · rw [h.1.hn] at hf; exact hf
          · rw [h.2.1] at hk; exact hk
    · intro k hk
      rw [hnd] at hk
      unfold Tensor.flat
      rw [e9 k hk, e3, e4]
      by_cases hk' : k < t.xDim
      · rw [flat_x hk', h.fullX hk']; exact hx k hk'
      · obtain ⟨j, rfl⟩ : ∃ j, k = t.xDim + j := ⟨k - t.xDim, by omega⟩
        rw [flat_y (by omega), h.fullY (by omega)]; exact hy j (by omega)

/-- The size of an axis of a GenericTensor whose elements broadcast nothing. -/
theorem elems_size {g : Generic α} {k s : Nat}
    (h : ∀ e ∈ g.elements, ∃ t, e = .inl t ∧ t.values.shape (t.xDim + t.yDim + k) = s) (hne : g.elements ≠ [])
    (hpos : s ≠ 0) : g.size k = s := by
  have hall : ∀ v ∈ (g.elements.map fun e => match e with
    | .inl t => t.values.shape (t.xDim + t.yDim + k)
    | .inr a => a.shape k), v = s := by
    intro v hv
    obtain ⟨e, he, rfl⟩ := List.mem_map.1 hv
    obtain ⟨t, rfl, ht⟩ := h e he
    exact ht
  unfold Generic.size
  rcases foldl_max_mem (g.elements.map fun e => match e with
    | .inl t => t.values.shape (t.xDim + t.yDim + k)
    | .inr a => a.shape k) 1 with h1 | h1
  · obtain ⟨e, he⟩ := List.exists_mem_of_ne_nil _ hne
    have hm := List.mem_map_of_mem (f := fun e : Tensor α ⊕ NDArray α => match e with
      | .inl t => t.values.shape (t.xDim + t.yDim + k)
      | .inr a => a.shape k) he
    have := (foldl_max_ge (g.elements.map fun e => match e with
      | .inl t => t.values.shape (t.xDim + t.yDim + k)
      | .inr a => a.shape k) 1).2 _ hm
    have e := hall _ hm
    rw [e, h1] at this
    refine h1.trans ?_
    omega
  · exact hall _ h1

theorem fullElems_size {L : Layout} (hL : L.Ok) {g : Generic α} (h : FullElems L g.elements) (hne : g.elements ≠ [])
    {k : Nat} (hk : k < L.n + L.d) : g.size k = L.S k :=
  elems_size (fun e he => by
    obtain ⟨t, rfl, ht⟩ := h e he
    exact ⟨t, rfl, FullPiece.shapeN ht hk⟩) hne (hL.pos k hk)

theorem generic_sum_maps {g : Generic α} {sd : Bool} {r : Tensor α} (h : g.sum .all sd = .ok (.tensor r)) :
    r.xMap = [] ∧ r.yMap = [] := by
  unfold Generic.sum at h
  dsimp only at h
  rw [if_neg (by simp)] at h
  cases hs : elemShapes (g.sumIdx .all sd) g.elements with
  | error e => rw [hs] at h; cases h
  | ok shapes =>
    rw [hs] at h
    dsimp only at h
    rw [if_pos rfl] at h
    split at h
    · cases h
    · unfold mkTensor at h
      split_ifs at h with hc
      all_goals first | (cases h; exact ⟨rfl, rfl⟩) | cases h

open Classical in
/-- `g.sum()` -/
theorem generic_sumAll [CharZero α] {L : Layout} (hL : L.Ok) {g : Generic α} (hg : GP L g) (hne : g.elements ≠ [])
    (hf : FullElems L g.elements) :
    ∃ r, (Num.generic g).sumAll = .ok (.tensor r) ∧ r.WF ∧ r.xDim = g.xDim ∧ r.yDim = g.yDim ∧ r.n = 0 ∧ r.dim = 0 ∧
      (r.xMap = [] ∧ r.yMap = [] ∧
        (∀ k < g.xDim, if ∃ t, .inl t ∈ g.elements ∧ t.xDim ≠ 0 then r.values.shape k = L.PX k else r.values.shape k = 1) ∧
        ∀ k < g.yDim, if ∃ t, .inl t ∈ g.elements ∧ t.yDim ≠ 0 then r.values.shape (g.xDim + k) = L.PY k
          else r.values.shape (g.xDim + k) = 1) ∧
      ∀ i, (∀ k < g.xDim, i.x k < L.PX k) → (∀ k < g.yDim, i.y k < L.PY k) →
        r.dense i = L.sumCells fun n d => g.dense ⟨i.x, i.y, n, d⟩ := by
  have hp : ∀ t, .inl t ∈ g.elements → FullPiece L t ∧ t.xDim ≤ g.xDim ∧ t.yDim ≤ g.yDim ∧ t.dim ≤ g.dim := by
    intro t ht
    obtain ⟨t', e, h'⟩ := hf _ ht
    cases e
    obtain ⟨t', e, -, h''⟩ := hg.els _ ht
    cases e
    exact ⟨h', h''⟩
  have hdim : g.dim = L.d := by
    obtain ⟨e, he⟩ := List.exists_mem_of_ne_nil _ hne
    obtain ⟨t, rfl, ht⟩ := hf _ he
    have h1 := (hp t he).2.2.2
    have h2 := ht.2.1
    have h3 := hg.hd
    omega
  have hn := hg.hn
  have hxd : ∀ t, .inl t ∈ g.elements → t.xDim = 0 ∨ t.xDim = g.xDim := by
    intro t ht
    have h1 := (hp t ht).1.1.hx
    have h2 := (hp t ht).2.1
    have h3 := hg.hx
    omega
  have hyd : ∀ t, .inl t ∈ g.elements → t.yDim = 0 ∨ t.yDim = g.yDim := by
    intro t ht
    have h1 := (hp t ht).1.1.hy
    have h2 := (hp t ht).2.2.1
    have h3 := hg.hy
    omega
  have hreg : g.Regular := by
    intro e he
    obtain ⟨t, rfl, ht⟩ := hf _ he
    exact ⟨t, rfl, ht.1.wf, ht.1.inj, hxd t he, hyd t he, by rw [ht.1.hn, hn], by rw [ht.2.1, hdim]⟩
  have hsz : g.SizesFit := by
    intro t o ht ho
    have h1 := (hp t ht).1
    have h2 := (hp o ho).1
    have h3 := hxd t ht
    have h4 := hxd o ho
    have h5 := hyd t ht
    have h6 := hyd o ho
    refine ⟨fun a b k hk => Or.inl ?_, fun a b k hk => Or.inl ?_, fun k hk => Or.inl ?_, fun k hk => ?_⟩
    · rw [h1.fullX (by omega), h2.fullX (by omega)]
    · rw [h1.fullY (by omega), h2.fullY (by omega)]
    · rw [h1.shapeN (by omega), h2.shapeN (by omega)]
    · rw [h1.shapeN (by omega)]; exact hL.pos k (by omega)
  have hdf : g.DiagFits := by
    intro t o ht ho
    have h1 := (hp t ht).1
    have h2 := (hp o ho).1
    have h3 := hxd t ht
    have h4 := hxd o ho
    have h5 := hyd t ht
    have h6 := hyd o ho
    refine ⟨fun k h0 h => ?_, fun k h0 h => ?_⟩
    · obtain ⟨a, b⟩ := h1.1.mapX h0
      rw [h1.fullX a] at h
      refine ⟨fun c => ?_, ?_⟩
      · rw [h2.fullX (by omega), h]
      · rw [h2.shapeN (by omega), (h1.1.px k a).1 h0, h]
    · obtain ⟨a, b⟩ := h1.1.mapY h0
      rw [h1.fullY a] at h
      refine ⟨fun c => ?_, ?_⟩
      · rw [h2.fullY (by omega), h]
      · rw [h2.shapeN (by omega), (h1.1.py k a).1 h0, h]
  obtain ⟨r, e1, e2, e3, e4, e5, e6, e7, e8, e9⟩ := C58_sum_all_partial hreg hne hsz hdf true
  rw [if_pos rfl] at e6
  have hnd : r.values.ndim = g.xDim + g.yDim := by
    rw [e2.nd, e3, e4, e5, e6]; omega
  obtain ⟨m1, m2⟩ := generic_sum_maps e1
  have hfs : ∀ k, r.fullShape k = r.values.shape k := by
    intro k
    unfold Tensor.fullShape
    rw [m1, m2]
    simp
  have ox : ∀ t, .inl t ∈ g.elements → ∀ k < g.xDim, outShape g t k = if t.xDim = 0 then 1 else L.PX k := by
    intro t ht k hk
    unfold outShape
    rw [if_pos hk]
    split_ifs with c
    · rfl
    · exact (hp t ht).1.fullX (by have := hxd t ht; omega)
  have oy : ∀ t, .inl t ∈ g.elements → ∀ k < g.yDim, outShape g t (g.xDim + k) = if t.yDim = 0 then 1 else L.PY k := by
    intro t ht k hk
    unfold outShape
    rw [if_neg (by omega), if_pos (by omega), show g.xDim + k - g.xDim = k by omega]
    split_ifs with c
    · rfl
    · exact (hp t ht).1.fullY (by have := hyd t ht; omega)
  refine ⟨r, e1, e2, e3, e4, e5, e6, ⟨m1, m2, fun k hk => ?_, fun k hk => ?_⟩, fun i hx hy => ?_⟩
  · rw [← hfs]
    split_ifs with c
    · obtain ⟨t, ht, h0⟩ := c
      by_cases hp1 : L.PX k = 1
      · rw [hp1]
        exact e8 k (by omega) fun o ho => by rw [ox o ho k hk, hp1]; split_ifs <;> rfl
      · rcases e7 t ht k (by omega) with h2 | h2
        · rw [ox t ht k hk, if_neg h0] at h2; exact absurd h2 hp1
        · rw [ox t ht k hk, if_neg h0] at h2; exact h2.symm
    · exact e8 k (by omega) fun o ho => by
        rw [ox o ho k hk, if_pos]
        by_contra h
        exact c ⟨o, ho, h⟩
  · rw [← hfs]
    split_ifs with c
    · obtain ⟨t, ht, h0⟩ := c
      by_cases hp1 : L.PY k = 1
      · rw [hp1]
        exact e8 _ (by omega) fun o ho => by rw [oy o ho k hk, hp1]; split_ifs <;> rfl
      · rcases e7 t ht (g.xDim + k) (by omega) with h2 | h2
        · rw [oy t ht k hk, if_neg h0] at h2; exact absurd h2 hp1
        · rw [oy t ht k hk, if_neg h0] at h2; exact h2.symm
    · exact e8 _ (by omega) fun o ho => by
        rw [oy o ho k hk, if_pos]
        by_contra h
        exact c ⟨o, ho, h⟩
  -- axes that no element has are broadcast
  set i' : Idx := ⟨if ∃ t, .inl t ∈ g.elements ∧ t.xDim ≠ 0 then i.x else fun _ => 0,
    if ∃ t, .inl t ∈ g.elements ∧ t.yDim ≠ 0 then i.y else fun _ => 0, i.n, i.d⟩ with hi'
  have hX : ∀ k < g.xDim, i'.x k < r.fullShape k ∧ (r.fullShape k ≠ 1 → i'.x k = i.x k) := by
    intro k hk
    by_cases c : ∃ t, .inl t ∈ g.elements ∧ t.xDim ≠ 0
    · have ex : i'.x = i.x := by rw [hi']; dsimp only; rw [if_pos c]
      refine ⟨?_, fun _ => by rw [ex]⟩
      rw [ex]
      obtain ⟨t, ht, h0⟩ := c
      have h1 := hx k hk
      by_cases hp1 : L.PX k = 1
      · have : r.fullShape k = 1 := e8 k (by omega) fun o ho => by
          rw [ox o ho k hk, hp1]; split_ifs <;> rfl
        omega
      · rcases e7 t ht k (by omega) with h2 | h2
        · rw [ox t ht k hk, if_neg h0] at h2; exact absurd h2 hp1
        · rw [ox t ht k hk, if_neg h0] at h2; omega
    · have ex : i'.x = fun _ => 0 := by rw [hi']; dsimp only; rw [if_neg c]
      have : r.fullShape k = 1 := e8 k (by omega) fun o ho => by
        rw [ox o ho k hk, if_pos]
        by_contra h
        exact c ⟨o, ho, h⟩
      rw [this, ex]
      exact ⟨Nat.one_pos, fun h => absurd rfl h⟩
  have hY : ∀ k < g.yDim, i'.y k < r.fullShape (g.xDim + k) ∧ (r.fullShape (g.xDim + k) ≠ 1 → i'.y k = i.y k) := by
    intro k hk
    by_cases c : ∃ t, .inl t ∈ g.elements ∧ t.yDim ≠ 0
    · have ex : i'.y = i.y := by rw [hi']; dsimp only; rw [if_pos c]
      refine ⟨?_, fun _ => by rw [ex]⟩
      rw [ex]
      obtain ⟨t, ht, h0⟩ := c
      have h1 := hy k hk
      by_cases hp1 : L.PY k = 1
      · have : r.fullShape (g.xDim + k) = 1 := e8 _ (by omega) fun o ho => by
          rw [oy o ho k hk, hp1]; split_ifs <;> rfl
        omega
      · rcases e7 t ht (g.xDim + k) (by omega) with h2 | h2
        · rw [oy t ht k hk, if_neg h0] at h2; exact absurd h2 hp1
        · rw [oy t ht k hk, if_neg h0] at h2; omega
    · have ex : i'.y = fun _ => 0 := by rw [hi']; dsimp only; rw [if_neg c]
      have : r.fullShape (g.xDim + k) = 1 := e8 _ (by omega) fun o ho => by
        rw [oy o ho k hk, if_pos]
        by_contra h
        exact c ⟨o, ho, h⟩
      rw [this, ex]
      exact ⟨Nat.one_pos, fun h => absurd rfl h⟩
  have hin : r.InBox i' := by
    intro k hk
    rw [hnd] at hk
    unfold Tensor.flat
    rw [e3, e4]
    by_cases hk' : k < g.xDim
    · rw [flat_x hk']; exact (hX k hk').1
    · obtain ⟨j, rfl⟩ : ∃ j, k = g.xDim + j := ⟨k - g.xDim, by omega⟩
      rw [flat_y (by omega)]; exact (hY j (by omega)).1
  have hr : r.dense i = r.dense i' := by
    unfold Tensor.dense
    rw [m1, m2, if_pos ⟨agrees_nil _ _, agrees_nil _ _⟩, if_pos ⟨agrees_nil _ _, agrees_nil _ _⟩]
    apply bget_congr
    intro k hk h1
    rw [hnd] at hk
    unfold Tensor.flat
    rw [e3, e4]
    by_cases hk' : k < g.xDim
    · rw [flat_x hk', flat_x hk']; exact ((hX k hk').2 (by rw [hfs]; exact h1)).symm
    · obtain ⟨j, rfl⟩ : ∃ j, k = g.xDim + j := ⟨k - g.xDim, by omega⟩
      rw [flat_y (by omega), flat_y (by omega)]; exact ((hY j (by omega)).2 (by rw [hfs]; exact h1)).symm
  rw [hr, e9 i' hin]
  have hel : ∀ n d n' d', (∀ k < L.n, n k = n' k) → (∀ k < L.d, d k = d' k) →
      g.dense ⟨i'.x, i'.y, n, d⟩ = g.dense ⟨i.x, i.y, n', d'⟩ := by
    intro n d n' d' hn' hd'
    unfold Generic.dense
    congr 1
    apply List.map_congr_left
    intro e he
    obtain ⟨t, rfl, ht⟩ := hf _ he
    show t.dense _ = t.dense _
    have hxe : t.xDim ≠ 0 → i'.x = i.x := fun h => by
      rw [hi']; dsimp only; rw [if_pos ⟨t, he, h⟩]
    have hye : t.yDim ≠ 0 → i'.y = i.y := fun h => by
      rw [hi']; dsimp only; rw [if_pos ⟨t, he, h⟩]
    have l1 := ht.1.wf.xLen
    have l2 := ht.1.wf.yLen
    have l3 := ht.1.nd
    have l4 := ht.1.hn
    have l5 := ht.2.1
    unfold Tensor.dense
    refine if_congr (and_congr ?_ ?_) ?_ rfl
    · refine forall_congr' fun k => forall_congr' fun hk => forall_congr' fun h0 => ?_
      dsimp only
      rw [hxe (by omega), hn' _ (ht.1.mapX h0).2]
    · refine forall_congr' fun k => forall_congr' fun hk => forall_congr' fun h0 => ?_
      dsimp only
      rw [hye (by omega), hn' _ (ht.1.mapY h0).2]
    · apply bget_congr'
      intro k hk
      unfold Tensor.flat Tens.flat
      dsimp only
      split_ifs with c1 c2 c3
      · rw [hxe (by omega)]
      · rw [hye (by omega)]
      · exact hn' _ (by omega)
      · exact hd' _ (by omega)
  unfold Generic.sumDense Layout.sumCells
  rw [hn, hdim]
  refine sumAt_congr _ (fun k hk => ?_) fun n n' h1 h2 h3 => ?_
  · exact fullElems_size hL hf hne (by have := List.mem_range.1 hk; omega)
  · rw [if_pos rfl]
    refine sumAt_congr _ (fun k hk => ?_) fun d d' g1 g2 g3 => ?_
    · exact fullElems_size hL hf hne (by have := List.mem_range.1 hk; omega)
    · exact hel _ _ _ _ (fun k hk => (h1 k (List.mem_range.2 hk)).1) fun k hk => (g1 k (List.mem_range.2 hk)).1

/-- The axes of the first parameter are axes of some Tensor of `v`. -/
def Num.HasX : Num α → Prop
  | .tensor _ => True
  | .generic g => g.xDim ≠ 0 → ∃ t, .inl t ∈ g.elements ∧ t.xDim ≠ 0

/-- The same for the second parameter. -/
def Num.HasY : Num α → Prop
  | .tensor _ => True
  | .generic g => g.yDim ≠ 0 → ∃ t, .inl t ∈ g.elements ∧ t.yDim ≠ 0

/-- `v.sum()` -/
theorem num_sumAll [CharZero α] {L : Layout} (hL : L.Ok) {v : Num α} (h : NumPiece L v) (hf : NumFull L v) :
    ∃ r, v.sumAll = .ok (.tensor r) ∧ r.WF ∧ r.xDim = v.xDim ∧ r.yDim = v.yDim ∧ r.n = 0 ∧ r.dim = 0 ∧
      (r.xMap = [] ∧ r.yMap = [] ∧ (∀ k < r.xDim, r.values.shape k = L.PX k ∨ r.values.shape k = 1) ∧
        ∀ k < r.yDim, r.values.shape (r.xDim + k) = L.PY k ∨ r.values.shape (r.xDim + k) = 1) ∧
      (v.HasX → ∀ k < r.xDim, r.values.shape k = L.PX k) ∧ (v.HasY → ∀ k < r.yDim, r.values.shape (r.xDim + k) = L.PY k) ∧
      ∀ i, (∀ k < L.a, i.x k < L.PX k) → (∀ k < L.b, i.y k < L.PY k) →
        r.dense i = L.sumCells fun n d => v.dense ⟨i.x, i.y, n, d⟩ := by
  classical
  cases v with
  | tensor t =>
    obtain ⟨r, e1, e2, e3, e4, e5, e6, sx, sy, em, e7⟩ := full_sumAll hf
    have h1 := hf.1.hx
    have h2 := hf.1.hy
    have hfs : ∀ k, r.fullShape k = r.values.shape k := by
      intro k
      unfold Tensor.fullShape
      rw [em.1, em.2]
      simp
    have kx : ∀ k < r.xDim, r.values.shape k = L.PX k := fun k hk => by rw [← hfs, sx k (by omega)]
    have ky : ∀ k < r.yDim, r.values.shape (r.xDim + k) = L.PY k := fun k hk => by rw [← hfs, e3, sy k (by omega)]
    exact ⟨r, e1, e2, e3, e4, e5, e6, ⟨em.1, em.2, fun k hk => Or.inl (kx k hk), fun k hk => Or.inl (ky k hk)⟩, fun _ => kx, fun _ => ky,
      fun i hx hy => e7 i (fun k hk => hx k (by omega)) fun k hk => hy k (by omega)⟩
  | generic g =>
    obtain ⟨hg, hne⟩ := numPiece_generic h
    obtain ⟨r, e1, e2, e3, e4, e5, e6, ⟨m1, m2, mx, my⟩, e7⟩ := generic_sumAll hL hg hne hf
    have h1 := hg.hx
    have h2 := hg.hy
    refine ⟨r, e1, e2, e3, e4, e5, e6, ⟨m1, m2, fun k hk => ?_, fun k hk => ?_⟩, fun hX k hk => ?_, fun hY k hk => ?_,
      fun i hx hy => e7 i (fun k hk => hx k (by omega)) fun k hk => hy k (by omega)⟩
    · have := mx k (by omega)
      split_ifs at this
      · exact Or.inl this
      · exact Or.inr this
    · have := my k (by omega)
      rw [e3]
      split_ifs at this
      · exact Or.inl this
      · exact Or.inr this
    · have := mx k (by omega)
      rwa [if_pos (hX (by omega))] at this
    · have := my k (by omega)
      rw [e3]
      rwa [if_pos (hY (by omega))] at this

end Verif.Tens
