import Verif.Props.TensorAdd
import Verif.Lemmas.TensorPerm

/-!
# C53: expand
-/

set_option linter.unusedSectionVars false

namespace Verif.Tens
open Verif.Params (Err)
open NDArray

variable {α : Type} [Field α] [DecidableEq α]

theorem axisOf_false_at {l : List Bool} {k : Nat} (h : l[k]? = some false) : axisOf l k = none := by
  induction l generalizing k with
  | nil => simp at h
  | cons b l ih =>
    cases k with
    | zero =>
      simp at h
      subst h
      rfl
    | succ k =>
      simp at h
      cases b with
      | true => unfold axisOf; rw [ih h]; rfl
      | false => exact ih h

/-- `values.transpose(rng)[idx]`: the block of axes after the first `start` is sent to `where`, the
axes after it follow. -/
theorem expandBlock_ok (v : NDArray α) {start : Nat} {wher : List Nat} (hn : wher.Nodup) {newsize : Nat}
    (hlt : ∀ w ∈ wher, w < newsize) {rest : Nat} (hnd : v.ndim = start + wher.length + rest) :
    ∃ r, (v.transpose (permBlock v.ndim start wher)).newAxes
        (List.replicate start true ++ whereMask wher newsize ++ List.replicate rest true) = .ok r ∧
      r.ndim = start + newsize + rest ∧
      (∀ k < start, r.shape k = v.shape k) ∧
      (∀ idx, r.bget idx = v.bget fun j => idx (if j < start then j
        else if j < start + wher.length then start + wher.getD (j - start) 0
        else newsize + j - wher.length)) ∧
      (∀ j < wher.length, r.shape (start + wher.getD j 0) = v.shape (start + j)) ∧
      (∀ k < newsize, k ∉ wher → r.shape (start + k) = 1) ∧
      ∀ k < rest, r.shape (start + newsize + k) = v.shape (start + wher.length + k) := by
  have hp := permBlock_perm v.ndim start wher (by omega)
  have hc := whereMask_count hn hlt
  have hcf := whereMask_count_false hn hlt
  have hml : (whereMask wher newsize).length = newsize := by simp [whereMask]
  set mask := List.replicate start true ++ whereMask wher newsize ++ List.replicate rest true with hmask
  have hct : mask.count true = v.ndim := by
    rw [hmask, List.count_append, List.count_append, hc]
    simp; omega
  have hcff : mask.count false = newsize - wher.length := by
    rw [hmask, List.count_append, List.count_append]
    simp [List.count_replicate]; omega
  have hnd' : (v.transpose (permBlock v.ndim start wher)).ndim = v.ndim := rfl
  obtain ⟨r, hr⟩ := newAxes_isOk (a := v.transpose (permBlock v.ndim start wher)) (l := mask) (by omega)
  obtain ⟨r1, r2, r3, -, r5, -⟩ := newAxes_ok hr
  have hpos : ∀ j < v.ndim, posOf mask ((permBlock v.ndim start wher).idxOf j) = if j < start then j
        else if j < start + wher.length then start + wher.getD (j - start) 0
        else newsize + j - wher.length := by
    intro j hj
    rw [permBlock_idxOf _ _ _ (by omega) hj, hmask, List.append_assoc, posOf_true]
    by_cases h1 : j < start
    · rw [if_pos h1, if_pos h1, if_pos h1]
    · rw [if_neg h1, if_neg h1]
      by_cases h2 : j < start + wher.length
      · rw [if_pos h2, if_pos h2, if_neg (by omega), posOf_append, hc,
          show start + (argsort wher).idxOf (j - start) - start = (argsort wher).idxOf (j - start) by omega]
        have := List.idxOf_lt_length_iff.2 (argsort_mem.2 (show j - start < wher.length by omega))
        rw [argsort_length] at this
        rw [if_pos this, whereMask_pos hn hlt (by omega)]
      · have h3 := posOf_true rest [] (j - start - wher.length)
        rw [List.append_nil, if_pos (by omega)] at h3
        rw [if_neg h2, if_neg h2, if_neg h1, posOf_append, hc, if_neg (by omega), hml, h3]
        omega
  have hsh : ∀ j < v.ndim, r.shape (if j < start then j
        else if j < start + wher.length then start + wher.getD (j - start) 0
        else newsize + j - wher.length) = v.shape j := by
    intro j hj
    have hi : (permBlock v.ndim start wher).idxOf j < v.ndim := by
      have := List.idxOf_lt_length_iff.2 (hp.mem_iff.2 (List.mem_range.2 hj))
      rwa [hp.length_eq, List.length_range] at this
    rw [← hpos j hj, r2 _ (by rw [hnd']; exact hi)]
    exact transpose_shape v hp hj
  refine ⟨r, hr, ?_, ?_, ?_, ?_, ?_, ?_⟩
  · rw [r1, hnd', hcff]; omega
  · intro k hk
    have := hsh k (by omega)
    rwa [if_pos hk] at this
  · intro idx
    rw [r5, transpose_bget _ hp]
    apply bget_congr'
    intro j hj
    rw [hpos j hj]
  · intro j hj
    have := hsh (start + j) (by omega)
    rwa [if_neg (by omega), if_pos (by omega), Nat.add_sub_cancel_left] at this
  · intro k hk hnk
    apply r3
    apply axisOf_false_at
    rw [hmask, List.append_assoc, List.getElem?_append_right (by simp), List.length_replicate,
      Nat.add_sub_cancel_left, List.getElem?_append_left (by rw [hml]; exact hk)]
    unfold whereMask
    rw [List.getElem?_map, List.getElem?_range hk]
    simp [hnk]
  · intro k hk
    have := hsh (start + wher.length + k) (by omega)
    rwa [if_neg (by omega), if_neg (by omega),
      show newsize + (start + wher.length + k) - wher.length = start + newsize + k by omega] at this

/-- `compose_mappings(where, map)` for a map into the value axes. -/
theorem composeMappings_where {wher : List Nat} {m : List Int} (h : ∀ f ∈ m, f < wher.length) :
    ∃ m', composeMappings (wher.map fun (w : Nat) => (w : Int)) m = .ok m' ∧ m'.length = m.length ∧
      ∀ k, m'.getD k (-1) = if 0 ≤ m.getD k (-1) then ((wher.getD (m.getD k (-1)).toNat 0 : Nat) : Int)
        else -1 := by
  unfold composeMappings
  induction m with
  | nil => exact ⟨[], rfl, rfl, fun k => by simp⟩
  | cons f m ih =>
    obtain ⟨m', h1, h2, h3⟩ := ih fun g hg => h g (List.mem_cons_of_mem _ hg)
    have hf := h f List.mem_cons_self
    rw [List.mapM_cons, h1]
    by_cases h0 : f < 0
    · rw [if_pos h0]
      refine ⟨-1 :: m', rfl, by simp [h2], fun k => ?_⟩
      cases k with
      | zero => simp [h0]
      | succ k => simpa using h3 k
    · rw [if_neg h0]
      have hlt : f.toNat < wher.length := by omega
      have : (wher.map fun (w : Nat) => (w : Int))[f.toNat]? = some ((wher.getD f.toNat 0 : Nat) : Int) := by
        rw [List.getElem?_map, List.getElem?_eq_getElem hlt, List.getD_eq_getElem _ _ hlt]; rfl
      rw [this]
      refine ⟨((wher.getD f.toNat 0 : Nat) : Int) :: m', rfl, by simp [h2], fun k => ?_⟩
      cases k with
      | zero => simp only [List.getD_cons_zero]; rw [if_pos (by omega)]
      | succ k => simpa using h3 k

theorem getD_mem_nat {l : List Nat} {k : Nat} (h : k < l.length) : l.getD k 0 ∈ l := by
  rw [List.getD_eq_getElem _ _ h]; exact List.getElem_mem h

theorem agrees_compose {wher : List Nat} {m m' : List Int} (h2 : m'.length = m.length)
    (h3 : ∀ k, m'.getD k (-1) = if 0 ≤ m.getD k (-1) then ((wher.getD (m.getD k (-1)).toNat 0 : Nat) : Int)
        else -1) (v n : Nat → Nat) :
    Agrees m' v n ↔ Agrees m v fun k => n (wher.getD k 0) := by
  unfold Agrees
  rw [h2]
  refine forall_congr' fun k => forall_congr' fun hk => ?_
  rw [h3]
  by_cases h0 : 0 ≤ m.getD k (-1)
  · rw [if_pos h0]
    constructor
    · intro h _; have := h (by omega); rwa [Int.toNat_natCast] at this
    · intro h _; have := h h0; rwa [Int.toNat_natCast]
  · rw [if_neg h0]
    constructor
    · intro _ h; exact absurd h h0
    · intro _ h; omega

/-- The map `m'` is `m`, followed by `where` for the mapped axes. -/
def MapThrough (wher : List Nat) (m m' : List Int) : Prop :=
  m'.length = m.length ∧
    ∀ k, m'.getD k (-1) = if 0 ≤ m.getD k (-1) then ((wher.getD (m.getD k (-1)).toNat 0 : Nat) : Int) else -1

theorem expand_values_full {t : Tensor α} (h : t.WF) {wher : List Nat} (hn : wher.Nodup) {newsize : Nat}
    (hlt : ∀ w ∈ wher, w < newsize) (hlen : wher.length = t.n) :
    ∃ r, t.expand wher newsize false = .ok r ∧ r.WF ∧
      (¬ (t.values.ndim = 0 ∧ t.values.get (fun _ => 0) = 0) →
        (r.xDim = t.xDim ∧ r.yDim = t.yDim ∧ r.n = newsize ∧ r.dim = t.dim) ∧
        MapThrough wher t.xMap r.xMap ∧ MapThrough wher t.yMap r.yMap ∧
        (∀ k < t.xDim + t.yDim, r.values.shape k = t.values.shape k) ∧
        (∀ j < wher.length, r.values.shape (t.xDim + t.yDim + wher.getD j 0) = t.values.shape (t.xDim + t.yDim + j)) ∧
        (∀ k < newsize, k ∉ wher → r.values.shape (t.xDim + t.yDim + k) = 1) ∧
        ∀ k < t.dim, r.values.shape (t.xDim + t.yDim + newsize + k) =
          t.values.shape (t.xDim + t.yDim + wher.length + k)) ∧
      ∀ i : Idx, r.dense i = t.dense { i with n := fun k => i.n (wher.getD k 0) } := by
  have hnd := h.nd
  unfold Tensor.expand
  rw [if_neg (not_not.2 hlt)]
  by_cases hz : t.values.ndim = 0 ∧ t.values.get (fun _ => 0) = 0
  · rw [if_pos hz]
    refine ⟨_, rfl, Tensor.wf_nomap (by simp [NDArray.scalar]), fun h' => absurd hz h', fun i => ?_⟩
    rw [Tensor.dense_zero h hz.1, hz.2]
    unfold Tensor.const
    rw [Tensor.dense_nomap, scalar_bget]
  rw [if_neg hz, if_neg (by simp), if_neg (by simp [hlen])]
  obtain ⟨xm, x1, x2, x3⟩ := composeMappings_where (wher := wher) (m := t.xMap)
    (fun f hf => by rw [hlen]; exact h.xRange f hf)
  obtain ⟨ym, y1, y2, y3⟩ := composeMappings_where (wher := wher) (m := t.yMap)
    (fun f hf => by rw [hlen]; exact h.yRange f hf)
  obtain ⟨v, v1, v2, v3, v4, v5, v6, v7⟩ := expandBlock_ok t.values (start := t.xDim + t.yDim) hn hlt
    (rest := t.dim) (by omega)
  rw [x1, y1]
  dsimp only
  rw [v1]
  dsimp only
  rw [mkTensor_isOk (by omega)]
  have hN : Tensor.n (⟨v, t.xDim, t.yDim, t.dim, xm, ym⟩ : Tensor α) = newsize := by
    unfold Tensor.n; dsimp only; omega
  have a1 := h.xLen
  have a2 := h.yLen
  have range : ∀ (m m' : List Int), (∀ f ∈ m, f < (t.n : Int)) → (∀ k, m'.getD k (-1) =
      if 0 ≤ m.getD k (-1) then ((wher.getD (m.getD k (-1)).toNat 0 : Nat) : Int) else -1) →
      ∀ f ∈ m', f < (newsize : Int) := by
    intro m m' hm h3 f hf
    obtain ⟨k, hk, rfl⟩ := List.getElem_of_mem hf
    rw [← List.getD_eq_getElem _ (-1) hk, h3]
    split_ifs with h0
    · have := hm _ (getD_mem h0)
      have := hlt _ (getD_mem_nat (l := wher) (k := (m.getD k (-1)).toNat) (by omega))
      omega
    · omega
  have one : ∀ {m m' : List Int}, (∀ k, m'.getD k (-1) =
      if 0 ≤ m.getD k (-1) then ((wher.getD (m.getD k (-1)).toNat 0 : Nat) : Int) else -1) →
      ∀ {k}, 0 ≤ m'.getD k (-1) → 0 ≤ m.getD k (-1) := by
    intro m m' h3 k h0
    rw [h3] at h0
    by_contra hc
    rw [if_neg hc] at h0
    omega
  refine ⟨_, rfl, ?_, fun _ => ⟨⟨rfl, rfl, hN, rfl⟩, ⟨x2, x3⟩, ⟨y2, y3⟩, v3, v5, v6, v7⟩, fun i => ?_⟩
  · refine ⟨by dsimp only; omega, by dsimp only; omega, by dsimp only; omega, ?_, ?_, ?_, ?_⟩
    · rw [hN]; exact range _ _ h.xRange x3
    · rw [hN]; exact range _ _ h.yRange y3
    · intro k hk h0
      have hk' : k < t.xMap.length := by rw [← x2]; exact hk
      show v.shape k = 1
      rw [v3 k (by omega)]
      exact h.xOne k hk' (one x3 h0)
    · intro k hk h0
      have hk' : k < t.yMap.length := by rw [← y2]; exact hk
      show v.shape (t.xDim + k) = 1
      rw [v3 _ (by omega)]
      exact h.yOne k hk' (one y3 h0)
  · unfold Tensor.dense
    dsimp only
    refine if_congr (and_congr (agrees_compose x2 x3 _ _) (agrees_compose y2 y3 _ _)) ?_ rfl
    rw [v4]
    apply bget_congr'
    intro j hj
    unfold Tensor.flat
    rw [hN]
    unfold Tens.flat
    dsimp only
    by_cases c1 : j < t.xDim + t.yDim
    · rw [if_pos c1]
      by_cases c2 : j < t.xDim
      · rw [if_pos c2, if_pos c2]
      · rw [if_neg c2, if_neg c2, if_pos c1, if_pos c1]
    · rw [if_neg c1]
      by_cases c3 : j < t.xDim + t.yDim + wher.length
      · have := hlt _ (getD_mem_nat (l := wher) (k := j - (t.xDim + t.yDim)) (by omega))
        rw [if_pos c3, if_neg (by omega), if_neg (by omega), if_pos (by omega), if_neg (by omega),
          if_neg c1, if_pos (by omega)]
        have e1 : t.xDim + t.yDim + wher.getD (j - (t.xDim + t.yDim)) 0 - t.xDim - t.yDim =
          wher.getD (j - t.xDim - t.yDim) 0 := by
          rw [show j - (t.xDim + t.yDim) = j - t.xDim - t.yDim by omega]; omega
        rw [e1]
      · rw [if_neg c3, if_neg (by omega), if_neg (by omega), if_neg (by omega), if_neg (by omega),
          if_neg c1, if_neg (by omega)]
        congr 1; omega

/-- **C53.** `expand(where, newsize)` for distinct axes `where`: value axis `k` of the Tensor becomes
value axis `where[k]`; the result has `newsize` value axes (the scalar 0 stays a scalar), the same `x`,
`y` and `dim` axes, and is constant along the new axes. -/
theorem C53_expand_values {t : Tensor α} (h : t.WF) {wher : List Nat} (hn : wher.Nodup) {newsize : Nat}
    (hlt : ∀ w ∈ wher, w < newsize) (hlen : wher.length = t.n) :
    ∃ r, t.expand wher newsize false = .ok r ∧ r.WF ∧
      (¬ (t.values.ndim = 0 ∧ t.values.get (fun _ => 0) = 0) →
        r.xDim = t.xDim ∧ r.yDim = t.yDim ∧ r.n = newsize ∧ r.dim = t.dim) ∧
      ∀ i : Idx, r.dense i = t.dense { i with n := fun k => i.n (wher.getD k 0) } := by
  obtain ⟨r, r1, r2, r3, r4⟩ := expand_values_full h hn hlt hlen
  exact ⟨r, r1, r2, fun hz => (r3 hz).1, r4⟩

theorem expand_dim_full {t : Tensor α} (h : t.WF) {wher : List Nat} (hn : wher.Nodup) {newsize : Nat}
    (hlt : ∀ w ∈ wher, w < newsize) (hlen : wher.length = t.dim) :
    ∃ r, t.expand wher newsize true = .ok r ∧ r.WF ∧
      (¬ (t.values.ndim = 0 ∧ t.values.get (fun _ => 0) = 0) →
        (r.xDim = t.xDim ∧ r.yDim = t.yDim ∧ r.n = t.n ∧ r.dim = newsize) ∧
        r.xMap = t.xMap ∧ r.yMap = t.yMap ∧
        (∀ k < t.xDim + t.yDim + t.n, r.values.shape k = t.values.shape k) ∧
        (∀ j < wher.length, r.values.shape (t.xDim + t.yDim + t.n + wher.getD j 0) =
          t.values.shape (t.xDim + t.yDim + t.n + j)) ∧
        (∀ k < newsize, k ∉ wher → r.values.shape (t.xDim + t.yDim + t.n + k) = 1)) ∧
      ∀ i : Idx, r.dense i = t.dense { i with d := fun k => i.d (wher.getD k 0) } := by
  have hnd := h.nd
  unfold Tensor.expand
  rw [if_neg (not_not.2 hlt)]
  by_cases hz : t.values.ndim = 0 ∧ t.values.get (fun _ => 0) = 0
  · rw [if_pos hz]
    refine ⟨_, rfl, Tensor.wf_nomap (by simp [NDArray.scalar]), fun h' => absurd hz h', fun i => ?_⟩
    rw [Tensor.dense_zero h hz.1, hz.2]
    unfold Tensor.const
    rw [Tensor.dense_nomap, scalar_bget]
  rw [if_neg hz, if_pos rfl, if_neg (by simp [hlen])]
  obtain ⟨v, v1, v2, v3, v4, v5, v6, v7⟩ := expandBlock_ok t.values (start := t.xDim + t.yDim + t.n) hn hlt
    (rest := 0) (by omega)
  rw [List.replicate_zero, List.append_nil] at v1
  dsimp only
  rw [v1]
  dsimp only
  rw [mkTensor_isOk (by omega)]
  have hN : Tensor.n (⟨v, t.xDim, t.yDim, newsize, t.xMap, t.yMap⟩ : Tensor α) = t.n := by
    show v.ndim - t.xDim - t.yDim - newsize = t.n; omega
  have a1 := h.xLen
  have a2 := h.yLen
  refine ⟨_, rfl, ?_, fun _ => ⟨⟨rfl, rfl, hN, rfl⟩, rfl, rfl, v3, v5, v6⟩, fun i => ?_⟩
  · refine ⟨by dsimp only; omega, h.xLen, h.yLen, by rw [hN]; exact h.xRange, by rw [hN]; exact h.yRange,
      fun k hk h0 => ?_, fun k hk h0 => ?_⟩
    · have hk' : k < t.xMap.length := hk
      show v.shape k = 1
      rw [v3 k (by omega)]
      exact h.xOne k hk h0
    · have hk' : k < t.yMap.length := hk
      show v.shape (t.xDim + k) = 1
      rw [v3 _ (by omega)]
      exact h.yOne k hk h0
  · unfold Tensor.dense
    dsimp only
    congr 1
    rw [v4]
    apply bget_congr'
    intro j hj
    unfold Tensor.flat
    rw [hN]
    unfold Tens.flat
    dsimp only
    by_cases c1 : j < t.xDim + t.yDim + t.n
    · rw [if_pos c1, if_pos c1]
      split_ifs <;> rfl
    · have := getD_mem_nat (l := wher) (k := j - (t.xDim + t.yDim + t.n)) (by omega)
      rw [if_neg c1, if_pos (show j < t.xDim + t.yDim + t.n + wher.length by omega),
        if_neg (show ¬ t.xDim + t.yDim + t.n + wher.getD (j - (t.xDim + t.yDim + t.n)) 0 < t.xDim by omega),
        if_neg (show ¬ t.xDim + t.yDim + t.n + wher.getD (j - (t.xDim + t.yDim + t.n)) 0 < t.xDim + t.yDim by
          omega),
        if_neg (show ¬ t.xDim + t.yDim + t.n + wher.getD (j - (t.xDim + t.yDim + t.n)) 0 <
          t.xDim + t.yDim + t.n by omega),
        if_neg (show ¬ j < t.xDim by omega), if_neg (show ¬ j < t.xDim + t.yDim by omega), if_neg c1]
      rw [show j - (t.xDim + t.yDim + t.n) = j - t.xDim - t.yDim - t.n by omega]
      congr 1; omega

/-- **C53.** `expand(where, newsize, dim=True)`: the same for the `dim` axes. -/
theorem C53_expand_dim {t : Tensor α} (h : t.WF) {wher : List Nat} (hn : wher.Nodup) {newsize : Nat}
    (hlt : ∀ w ∈ wher, w < newsize) (hlen : wher.length = t.dim) :
    ∃ r, t.expand wher newsize true = .ok r ∧ r.WF ∧
      (¬ (t.values.ndim = 0 ∧ t.values.get (fun _ => 0) = 0) →
        r.xDim = t.xDim ∧ r.yDim = t.yDim ∧ r.n = t.n ∧ r.dim = newsize) ∧
      ∀ i : Idx, r.dense i = t.dense { i with d := fun k => i.d (wher.getD k 0) } := by
  obtain ⟨r, r1, r2, r3, r4⟩ := expand_dim_full h hn hlt hlen
  exact ⟨r, r1, r2, fun hz => (r3 hz).1, r4⟩

/-- **C53.** `expand` raises exactly if an axis is out of range or the number of axes is wrong (the
scalar 0 can be expanded with any number of axes). -/
theorem C53_raises_iff {t : Tensor α} (h : t.WF) {wher : List Nat} (hn : wher.Nodup) (newsize : Nat)
    (dim : Bool) : (∃ e, t.expand wher newsize dim = .error e) ↔
      (∃ w ∈ wher, newsize ≤ w) ∨ (¬ (t.values.ndim = 0 ∧ t.values.get (fun _ => 0) = 0) ∧
        wher.length ≠ if dim then t.dim else t.n) := by
  constructor
  · rintro ⟨e, he⟩
    by_contra hc
    rw [not_or] at hc
    obtain ⟨h1, h2⟩ := hc
    have hlt : ∀ w ∈ wher, w < newsize := fun w hw => by
      by_contra hw'; exact h1 ⟨w, hw, by omega⟩
    by_cases hz : t.values.ndim = 0 ∧ t.values.get (fun _ => 0) = 0
    · unfold Tensor.expand at he
      rw [if_neg (not_not.2 hlt), if_pos hz] at he
      cases he
    · have hl : wher.length = if dim then t.dim else t.n := not_not.1 fun hh => h2 ⟨hz, hh⟩
      cases dim with
      | true => obtain ⟨r, hr, -⟩ := C53_expand_dim h hn hlt hl; rw [hr] at he; cases he
      | false => obtain ⟨r, hr, -⟩ := C53_expand_values h hn hlt hl; rw [hr] at he; cases he
  · rintro (⟨w, hw, hw'⟩ | ⟨hz, hl⟩)
    · unfold Tensor.expand
      rw [if_pos fun hh => by have := hh w hw; omega]
      exact ⟨_, rfl⟩
    · by_cases h1 : ∀ w ∈ wher, w < newsize
      · unfold Tensor.expand
        rw [if_neg (not_not.2 h1), if_neg hz]
        cases dim with
        | true => rw [if_pos rfl, if_pos (show wher.length ≠ t.dim from hl)]; exact ⟨_, rfl⟩
        | false => rw [if_neg (by simp), if_pos (show wher.length ≠ t.n from hl)]; exact ⟨_, rfl⟩
      · unfold Tensor.expand
        rw [if_pos h1]
        exact ⟨_, rfl⟩

/-- The hypotheses hold for `diag3` (one `x` axis mapped to its value axis) expanded to value axis 1 of
3: the entries follow the axis. -/
example : ∃ r, diag3.expand [1] 3 false = .ok r ∧
    r.dense ⟨fun _ => 1, fun _ => 0, fun k => k, fun _ => 0⟩ = 2 ∧
    r.dense ⟨fun _ => 2, fun _ => 0, fun k => k, fun _ => 0⟩ = 0 := by
  obtain ⟨r, hr, -, -, hd⟩ := C53_expand_values diag3_wf (wher := [1]) (newsize := 3) (by decide)
    (by decide) (by decide)
  refine ⟨r, hr, ?_, ?_⟩
  · rw [hd]; show ((1 : ℕ) : ℚ) + 1 = 2; norm_num
  · rw [hd]; exact if_neg (by decide)

end Verif.Tens
