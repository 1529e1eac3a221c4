import Verif.Props.TensorDot
import Verif.Lemmas.TensorPiece
import Verif.Props.TensorGenericSum
import Verif.Model.ComposeTensor
import Verif.Spec.Sheet

/-!
# Tensors whose parameter axes all have size 1

The derivatives of the functions that act on each position separately are stored in this way; so are the contractions
of such Tensors.
-/

set_option linter.unusedSectionVars false

namespace Verif.Tens
open Verif.Params (Err)
open NDArray

theorem cut_of {len j : Nat} {s : Nat → Nat} (h : j < len) : cut len s j = s j := if_pos h

theorem cut_cut {q len : Nat} (h : q ≤ len) (s : Nat → Nat) : cut q (cut len s) = cut q s := by
  funext j
  unfold cut
  split_ifs <;> first | rfl | omega

theorem cut_congr {len : Nat} {s s' : Nat → Nat} (h : ∀ j < len, s j = s' j) : cut len s = cut len s' := by
  funext j
  unfold cut
  split_ifs with hj
  · exact h j hj
  · rfl

theorem idMap_getD {q k : Nat} (h : k < q) : (idMap q).getD k (-1) = k := by
  unfold idMap
  rw [List.getD_eq_getElem _ _ (by simpa using h)]
  simp

theorem idMap_length (q : Nat) : (idMap q).length = q := by simp [idMap]

theorem mem_idMap {q : Nat} {f : Int} : f ∈ idMap q ↔ 0 ≤ f ∧ f < q := by
  unfold idMap
  rw [List.mem_map]
  constructor
  · rintro ⟨k, hk, rfl⟩
    have := List.mem_range.1 hk
    omega
  · rintro ⟨h1, h2⟩
    exact ⟨f.toNat, List.mem_range.2 (by omega), by omega⟩

theorem idMap_nodup (q : Nat) : (idMap q).Nodup := by
  unfold idMap
  exact (List.nodup_map_iff (fun a b h => by exact_mod_cast h)).2 List.nodup_range

variable {α : Type} [Field α] [DecidableEq α]

section
variable {S : Nat → Nat} {nx ny len d q a b : Nat} {xm ym : List Int} {t o : Tensor α} {F G : (Nat → Nat) → α}

theorem Slab.n (h : Slab S nx ny len d xm ym t G) : t.n + d = len := by
  have h1 := h.nd
  have h2 := h.le
  unfold Tensor.n
  rw [h.hx, h.hy, h.hd]
  omega

theorem Slab.congr (h : Slab S nx ny len d xm ym t G) {G' : (Nat → Nat) → α}
    (hG : ∀ s, (∀ j < len, s j < S j) → (∀ j ≥ len, s j = 0) → G s = G' s) : Slab S nx ny len d xm ym t G' :=
  { h with
    get := fun idx hi => by
      rw [h.get idx hi]
      exact hG _ (fun j hj => by rw [cut_of hj]; exact hi j hj) fun j hj => if_neg (by omega) }

theorem Sheet.congr (h : Sheet S nx ny len d xm ym t G) {G' : (Nat → Nat) → α}
    (hG : ∀ s, (∀ j < len, s j < S j) → (∀ j ≥ len, s j = 0) → G s = G' s) : Sheet S nx ny len d xm ym t G' :=
  { h.toSlab.congr hG with full := h.full }

theorem Sheet.sizes (h : Sheet S nx ny len d xm ym t G) {S' : Nat → Nat} (hS : ∀ j < len, S' j = S j) :
    Sheet S' nx ny len d xm ym t G :=
  { h with
    size := fun j hj => by rw [hS j hj]; exact h.size j hj
    get := fun idx hi => h.get idx fun j hj => by rw [← hS j hj]; exact hi j hj
    full := fun j hj => by rw [hS j hj]; exact h.full j hj }

theorem Slab.dropDim (h : Slab S nx ny len d xm ym t G) : Slab S nx ny len 0 xm ym t.dropDim G :=
  ⟨h.hx, h.hy, rfl, h.hxm, h.hym, h.nd, Nat.zero_le _, h.one, h.size, h.get⟩

theorem Sheet.dropDim (h : Sheet S nx ny len d xm ym t G) : Sheet S nx ny len 0 xm ym t.dropDim G :=
  { h.toSlab.dropDim with full := h.full }

/-! ### sums with one term -/

theorem sumAt_one {β : Type} [AddCommMonoid β] {size : Nat → Nat} {F : (Nat → Nat) → β} :
    ∀ {l : List Nat} {idx : Nat → Nat}, (∀ k ∈ l, size k = 1) → (∀ k ∈ l, idx k = 0) → sumAt size l F idx = F idx
  | [], idx, _, _ => rfl
  | k :: l, idx, h1, h2 => by
    have hu : Function.update idx k 0 = idx := by
      rw [← h2 k List.mem_cons_self]
      exact Function.update_eq_self k idx
    show ∑ i ∈ Finset.range (size k), _ = _
    rw [h1 k List.mem_cons_self, Finset.sum_range_one, hu]
    exact sumAt_one (fun j hj => h1 j (List.mem_cons_of_mem _ hj)) fun j hj => h2 j (List.mem_cons_of_mem _ hj)

theorem composeMappings_id {m : List Int} (h : ∀ f ∈ m, 0 ≤ f ∧ f < q) : composeMappings (idMap q) m = .ok m := by
  obtain ⟨r, e1, e2, e3⟩ := composeMappings_ok (m1 := idMap q) (m2 := m) (fun f hf _ => by
    have := h f hf
    rw [idMap_length]; omega)
  rw [e1]
  congr 1
  apply List.ext_getElem e2
  intro k h1 h2
  have hk := e3 k h2
  have hm := h _ (List.getElem_mem h2)
  rw [List.getD_eq_getElem _ _ h1, List.getD_eq_getElem _ _ h2, if_pos hm.1, idMap_getD (by omega)] at hk
  omega

theorem idMap_perm_lt {p k : Nat} (hp : q ≤ p) (hk : k < q) : mapPerm 0 p (idMap q) k = p + k := by
  have h0 : 0 ≤ (idMap q).getD k (-1) := by rw [idMap_getD hk]; omega
  rw [mapPerm_mapped (by rw [idMap_length]; exact hp) h0, idMap_getD hk]
  rfl

theorem idMap_perm_mid {p k : Nat} (hp : q ≤ p) (hk : q ≤ k) (hk2 : k < p) : mapPerm 0 p (idMap q) k = k := by
  refine mapPerm_unmapped (q := 0) (by rw [idMap_length]; exact hp) hk2 fun h => ?_
  have := lt_of_getD_nonneg h
  rw [idMap_length] at this
  omega

theorem idMap_perm_val {p k : Nat} (hk : k < q) : mapPerm 0 p (idMap q) (p + k) = k := by
  have h0 : 0 ≤ (idMap q).getD k (-1) := by rw [idMap_getD hk]; omega
  have := mapPerm_val (p := p) (m := idMap q) ((idMap_nodup q).filter _) h0
  rwa [idMap_getD hk] at this

theorem idMap_perm_val' {p k : Nat} (hp : q ≤ p) (hk : q ≤ k) : mapPerm 0 p (idMap q) (p + k) = p + k := by
  refine mapPerm_val' (by rw [idMap_length]; exact hp) fun h => ?_
  have := mem_idMap.1 h
  omega

/-- The array computed by both contractions, for a Tensor whose `q` axes `x` are mapped to its first `q` other axes. -/
theorem contract_id {ov tv : NDArray α} {A B : Nat} (hq : q ≤ len) (ho : ov.ndim = A + q) (ht : tv.ndim = q + B + len)
    (one : ∀ k < q + B, tv.shape k = 1) (full : ∀ j < len, tv.shape (q + B + j) = S j)
    (osize : ∀ j < q, ov.shape (A + j) = S j ∨ ov.shape (A + j) = 1) {maskL maskR : List Bool}
    (hmL : maskL = List.replicate (A + q) true ++ List.replicate (B + len) false)
    (hmR : maskR = List.replicate A false ++ List.replicate tv.ndim true) :
    ∃ L R M, ov.newAxes maskL = .ok L ∧ (arrSwapaxes 0 (q + B) 0 (idMap q) tv).newAxes maskR = .ok R ∧
      NDArray.binary (· * ·) L R = .ok M ∧
      ((arrSwapaxes A (A + (q + B)) 0 (idMap q) M).sumAxes ((List.range q).map (A + ·))).ndim = A + B + len ∧
      (∀ j < A, ((arrSwapaxes A (A + (q + B)) 0 (idMap q) M).sumAxes ((List.range q).map (A + ·))).shape j = ov.shape j) ∧
      (∀ c < B, ((arrSwapaxes A (A + (q + B)) 0 (idMap q) M).sumAxes ((List.range q).map (A + ·))).shape (A + c) = 1) ∧
      (∀ j < len, ((arrSwapaxes A (A + (q + B)) 0 (idMap q) M).sumAxes ((List.range q).map (A + ·))).shape (A + B + j) = S j) ∧
      ∀ J, ((arrSwapaxes A (A + (q + B)) 0 (idMap q) M).sumAxes ((List.range q).map (A + ·))).bget J =
        ov.bget (fun j => if j < A then J j else J (A + B + (j - A))) *
          tv.bget fun j => if j < q then 0 else J (A + (j - q)) := by
  obtain ⟨L, R, M, hL, hR, hM, z1, z2, z3, z4⟩ := contract_sum (ov := ov) (tv := tv) (A := A) (N := q) (C := B + len) (dO := 0)
    (dT := 0) (D := 0) (p := q + B) (xm := idMap q) (by omega) (by omega) (Or.inl rfl) (Or.inl rfl) (by rw [idMap_length]) (by omega)
    (fun f hf _ => by have := mem_idMap.1 hf; omega) ((idMap_nodup q).filter _)
    (fun k hk => by
      rw [idMap_perm_lt (by omega) hk, full k (by omega)]
      rcases osize k hk with h | h
      · exact Or.inl h
      · exact Or.inr (Or.inl h))
    (fun h => absurd rfl h) (maskL := maskL) (maskR := maskR) (by rw [hmL]; simp) (Or.inl (by rw [hmR]; simp))
    (fun k h0 => by
      have := lt_of_getD_nonneg h0
      rw [idMap_length] at this
      exact one k (by omega))
  refine ⟨L, R, M, hL, hR, hM, by omega, z2, ?_, ?_, ?_⟩
  · intro c hc
    rw [z3 c (by omega), idMap_perm_mid (by omega) (by omega) (by omega), if_neg (by omega)]
    exact one _ (by omega)
  · intro j hj
    rw [show A + B + j = A + (B + j) by omega, z3 _ (by omega), show q + (B + j) = q + B + j by omega, full j hj]
    by_cases hjq : j < q
    · rw [idMap_perm_val hjq, if_pos hjq]
      rcases osize j hjq with h | h
      · rw [h]; unfold bsize; split_ifs with h1
        · rfl
        · rfl
      · rw [h]; rfl
    · rw [idMap_perm_val' (by omega) (by omega), if_neg (by omega)]
  · intro J
    rw [z4 J, sumAt_one]
    · congr 1
      · apply bget_congr'
        intro j hj
        by_cases c1 : j < A
        · rw [if_pos c1, if_pos c1]
        · rw [if_neg c1, if_neg c1, if_pos (by omega), idMap_getD (by omega), if_pos (by omega)]
          congr 1
          omega
    · intro k hk
      rw [idMap_getD (List.mem_range.1 hk), if_pos (by omega)]
    · intro k hk; rfl

/-- `t.dot_left(o)` -/
theorem sheet_dotLeft (hq : 0 < q) (hql : q ≤ len) (ht : Sheet S q ny len d (idMap q) ym t F)
    (ho : Slab S a 0 q 0 xm [] o G) (hxm : ∀ f ∈ xm, 0 ≤ f ∧ f < q) :
    ∃ r, t.dotLeft o = .ok r ∧ Sheet S a ny len d xm ym r fun s => G (cut q s) * F s := by
  have hon := ho.n
  have htn := ht.toSlab.n
  have htd := ht.nd
  have hod := ho.nd
  obtain ⟨L, R, M, hL, hR, hM, z1, z2, z3, z4, z5⟩ := contract_id (ov := o.values) (tv := t.values) (A := a) (B := ny) (S := S) hql
    (by omega) (by omega) ht.one ht.full (fun j hj => ho.size j hj) (maskL := _) (maskR := _) rfl rfl
  set Z := (arrSwapaxes a (a + (q + ny)) 0 (idMap q) M).sumAxes ((List.range q).map (a + ·)) with hZ
  refine ⟨⟨Z, a, ny, d, xm, ym⟩, ?_, ?_⟩
  · unfold Tensor.dotLeft
    rw [if_neg (by rw [ht.hx]; omega)]
    unfold Tensor.dotLeftCore
    have hne : idMap q ≠ [] := by
      intro h
      have := idMap_length q
      rw [h] at this
      simp at this
      omega
    have e1 : List.replicate (a + q) true ++ List.replicate (ny + t.n) false ++ List.replicate 0 true ++
        List.replicate (max d 0 - 0) false = List.replicate (a + q) true ++ List.replicate (ny + len) false := by
      rw [List.replicate_zero, List.append_nil, List.append_assoc, List.replicate_append_replicate,
        show ny + t.n + (max d 0 - 0) = ny + len by omega]
    have e2 : List.replicate a false ++ List.replicate t.values.ndim true ++ List.replicate (max d 0 - d) false =
        List.replicate a false ++ List.replicate t.values.ndim true := by
      rw [show max d 0 - d = 0 by omega, List.replicate_zero, List.append_nil]
    simp only [ht.hx, ht.hy, ht.hd, ht.hxm, ht.hym, ho.hx, ho.hd, ho.hxm, show o.n = q by omega, e1, e2, hL, hR, hM]
    rw [if_pos hne, composeMappings_id hxm]
    simp only
    rw [← hZ, mkTensor, if_neg (by omega), show max d 0 = d by omega]
  · refine ⟨⟨rfl, rfl, rfl, rfl, rfl, z1, ht.le, ?_, fun j hj => Or.inl (z4 j hj), ?_⟩, z4⟩
    · intro k hk
      by_cases hka : k < a
      · exact (z2 k hka).trans (ho.one k (by omega))
      · have := z3 (k - a) (by omega)
        rwa [show a + (k - a) = k by omega] at this
    · intro idx hi
      show Z.bget idx = _
      rw [z5 idx, ho.get _ (fun j hj => by
        rw [if_neg (by omega), show a + ny + (a + 0 + j - a) = a + ny + j by omega]
        exact hi j (by omega)), ht.get _ (fun j hj => by
        rw [if_neg (by omega), show a + (q + ny + j - q) = a + ny + j by omega]
        exact hi j hj), cut_cut hql]
      congr 2
      · refine cut_congr fun j hj => ?_
        rw [if_neg (by omega)]
        congr 1; omega
      · refine cut_congr fun j hj => ?_
        rw [if_neg (by omega)]
        congr 1; omega

/-! ### `slice(None)` at the end of an index -/

theorem newAxes_append_true {v : NDArray α} {l : List Bool} {m : Nat} (h : l.count true + m ≤ v.ndim) :
    v.newAxes (l ++ List.replicate m true) = v.newAxes l := by
  unfold newAxes
  have e1 : (l ++ List.replicate m true).count true = l.count true + m := by simp
  have e2 : (l ++ List.replicate m true).count false = l.count false := by simp [List.count_replicate]
  rw [e1, e2, if_neg (by omega), if_neg (by omega)]
  congr 1
  congr 1
  · funext k
    rw [axisOf_append_true]
  · funext j
    exact posOf_append_true l m j

theorem arrSwapaxes_ndim (q p : Nat) : ∀ (fs : List Int) (k : Nat) (v : NDArray α), (arrSwapaxes q p k fs v).ndim = v.ndim
  | [], _, _ => rfl
  | f :: fs, k, v => by
    unfold arrSwapaxes
    split_ifs
    · rw [arrSwapaxes_ndim]; rfl
    · rw [arrSwapaxes_ndim]

/-- `t.dot_right(o)` -/
theorem sheet_dotRight (hq : 0 < q) (hql : q ≤ len) (ht : Sheet S q 0 len d (idMap q) [] t F)
    (ho : Slab S a b q 0 xm ym o G) (hxm : ∀ f ∈ xm, 0 ≤ f ∧ f < q) (hym : ∀ f ∈ ym, 0 ≤ f ∧ f < q) :
    ∃ r, t.dotRight o = .ok (some r) ∧ Sheet S a b len d xm ym r fun s => G (cut q s) * F s := by
  have hon := ho.n
  have htn := ht.toSlab.n
  have htd := ht.nd
  have hod := ho.nd
  have hle := ht.le
  obtain ⟨L, R, M, hL, hR, hM, z1, z2, z3, z4, z5⟩ := contract_id (ov := o.values) (tv := t.values) (A := a + b) (B := 0) (S := S) hql
    (by omega) (by omega) ht.one ht.full (fun j hj => ho.size j hj) (maskL := _) (maskR := _) rfl rfl
  set Z := (arrSwapaxes (a + b) (a + b + (q + 0)) 0 (idMap q) M).sumAxes ((List.range q).map (a + b + ·)) with hZ
  refine ⟨⟨Z, a, b, d, xm, ym⟩, ?_, ?_⟩
  · unfold Tensor.dotRight
    rw [if_neg (by omega), if_neg (by rw [ht.hx, ht.hy]; omega)]
    have hne : idMap q ≠ [] := by
      intro h
      have := idMap_length q
      rw [h] at this
      simp at this
      omega
    have e1 : List.replicate (a + b + q) true ++ List.replicate t.n false ++ List.replicate 0 true ++
        List.replicate (max d 0 - 0) false = List.replicate (a + b + q) true ++ List.replicate (0 + len) false := by
      rw [List.replicate_zero, List.append_nil, List.append_assoc, List.replicate_append_replicate,
        show t.n + (max d 0 - 0) = 0 + len by omega]
    have e2 : (arrSwapaxes 0 q 0 (idMap q) t.values).newAxes (List.replicate (a + b) false ++ List.replicate (q + t.n) true ++ List.replicate (max d 0 - d) false) =
        .ok R := by
      have hR' : (arrSwapaxes 0 q 0 (idMap q) t.values).newAxes (List.replicate (a + b) false ++ List.replicate (q + t.n) true ++ List.replicate d true) = .ok R := by
        rw [List.append_assoc, List.replicate_append_replicate, show q + t.n + d = t.values.ndim by omega]
        exact hR
      rw [newAxes_append_true] at hR'
      · rw [show max d 0 - d = 0 by omega, List.replicate_zero, List.append_nil]
        exact hR'
      · rw [arrSwapaxes_ndim, List.count_append, List.count_replicate, List.count_replicate]
        simp
        omega
    simp only [ht.hx, ht.hd, ht.hxm, ho.hx, ho.hy, ho.hd, ho.hxm, ho.hym, show o.n = q by omega, e1, e2, hL, hM]
    rw [if_neg hne]
    simp only [composeMappings_id hxm, composeMappings_id hym]
    rw [show a + b + q = a + b + (q + 0) by omega, ← hZ, mkTensor, if_neg (by omega), show max d 0 = d by omega]
  · refine ⟨⟨rfl, rfl, rfl, rfl, rfl, z1, ht.le, ?_, fun j hj => Or.inl (z4 j hj), ?_⟩, z4⟩
    · intro k hk
      exact (z2 k hk).trans (ho.one k (by omega))
    · intro idx hi
      show Z.bget idx = _
      rw [z5 idx, ho.get _ (fun j hj => by
        rw [if_neg (by omega), show a + b + 0 + (a + b + j - (a + b)) = a + b + j by omega]
        exact hi j (by omega)), ht.get _ (fun j hj => by
        rw [if_neg (by omega), show a + b + (q + 0 + j - q) = a + b + j by omega]
        exact hi j hj), cut_cut hql]
      congr 2
      · refine cut_congr fun j hj => ?_
        rw [if_neg (by omega)]
        congr 1; omega
      · refine cut_congr fun j hj => ?_
        rw [if_neg (by omega)]
        congr 1; omega

/-! ### transposition -/

/-- Moving an axis of size 1 over axes of size 1 -/
theorem moveaxis_ones {v : NDArray α} {P src dst : Nat} (h1 : ∀ k < P, v.shape k = 1) (hP : P ≤ v.ndim) (hs : src < P) (hd : dst ≤ src) :
    (v.moveaxis src dst).ndim = v.ndim ∧ (∀ k, (v.moveaxis src dst).shape k = v.shape k) ∧
      ∀ idx, (v.moveaxis src dst).bget idx = v.bget idx := by
  have hsh : ∀ k, (v.moveaxis src dst).shape k = v.shape k := by
    intro k
    show v.shape _ = _
    by_cases hk : k < P
    · rw [h1 k hk]
      apply h1
      split_ifs <;> omega
    · rw [if_neg (by omega), if_neg (by omega), if_neg (by omega)]
  refine ⟨rfl, hsh, fun idx => ?_⟩
  unfold bget
  unfold moveaxis
  rw [reaxis_get]
  · apply get_congr
    intro j hj
    by_cases hjP : j < P
    · have hp : (if j < dst then j else if j < src then j + 1 else if j = src then dst else j) < P := by split_ifs <;> omega
      rw [if_pos (h1 j hjP)]
      have := (hsh (if j < dst then j else if j < src then j + 1 else if j = src then dst else j)).trans (h1 _ hp)
      exact if_pos this
    · have hp : (if j < dst then j else if j < src then j + 1 else if j = src then dst else j) = j := by split_ifs <;> omega
      rw [hp]
      have := hsh j
      show (if (v.moveaxis src dst).shape j = 1 then 0 else idx j) = _
      rw [this]
  · intro j hj
    split_ifs <;> omega

theorem moveaxis_fold {P src : Nat} (hs : src < P) : ∀ (l : List Nat) {v : NDArray α}, (∀ k ∈ l, k ≤ src) → (∀ k < P, v.shape k = 1) → P ≤ v.ndim →
    (l.foldl (fun val k => val.moveaxis src k) v).ndim = v.ndim ∧ (∀ k, (l.foldl (fun val k => val.moveaxis src k) v).shape k = v.shape k) ∧
      ∀ idx, (l.foldl (fun val k => val.moveaxis src k) v).bget idx = v.bget idx
  | [], v, _, _, _ => ⟨rfl, fun _ => rfl, fun _ => rfl⟩
  | k :: l, v, hl, h1, hP => by
    obtain ⟨a1, a2, a3⟩ := moveaxis_ones h1 hP hs (hl k List.mem_cons_self)
    obtain ⟨b1, b2, b3⟩ := moveaxis_fold hs l (v := v.moveaxis src k) (fun j hj => hl j (List.mem_cons_of_mem _ hj))
      (fun j hj => by rw [a2]; exact h1 j hj) (by omega)
    exact ⟨by rw [List.foldl_cons, b1, a1], fun j => by rw [List.foldl_cons, b2, a2], fun idx => by rw [List.foldl_cons, b3, a3]⟩

theorem transpose_values (h : Slab S nx ny len d xm ym t G) : t.transpose.values.ndim = t.values.ndim ∧
    (∀ k, t.transpose.values.shape k = t.values.shape k) ∧ ∀ idx, t.transpose.values.bget idx = t.values.bget idx := by
  unfold Tensor.transpose
  dsimp only
  by_cases hc : 0 < t.xDim ∧ 0 < t.yDim
  · rw [if_pos hc]
    have hx := h.hx
    have hy := h.hy
    refine moveaxis_fold (P := nx + ny) (by omega) _ (fun k hk => ?_) h.one (by have := h.nd; omega)
    have := List.mem_range.1 hk
    omega
  · rw [if_neg hc]
    exact ⟨rfl, fun _ => rfl, fun _ => rfl⟩

theorem Slab.transpose (h : Slab S nx ny len d xm ym t G) : Slab S ny nx len d ym xm t.transpose G := by
  obtain ⟨a1, a2, a3⟩ := transpose_values h
  refine ⟨h.hy, h.hx, h.hd, h.hym, h.hxm, ?_, h.le, fun k hk => ?_, fun j hj => ?_, fun idx hi => ?_⟩
  · rw [a1, h.nd]; omega
  · rw [a2]; exact h.one k (by omega)
  · rw [a2, Nat.add_comm ny nx]; exact h.size j hj
  · rw [a3, Nat.add_comm ny nx]
    exact h.get idx fun j hj => by have := hi j hj; rwa [Nat.add_comm ny nx] at this

theorem Sheet.transpose (h : Sheet S nx ny len d xm ym t G) : Sheet S ny nx len d ym xm t.transpose G :=
  { h.toSlab.transpose with
    full := fun j hj => by
      rw [(transpose_values h.toSlab).2.1, Nat.add_comm ny nx]; exact h.full j hj }

/-! ### sums -/

theorem sheet_add (hlen : 0 < len) (ht : Sheet S nx ny len d xm ym t F) (ho : Sheet S nx ny len d xm ym o G) :
    ∃ r, t.binTensor o .add = .ok (.tensor r) ∧ Sheet S nx ny len d xm ym r fun s => F s + G s := by
  have htn := ht.toSlab.n
  have hon := ho.toSlab.n
  have htd := ht.nd
  have hod := ho.nd
  have hle := ht.le
  have hnn : o.n = t.n := by omega
  have ht4 : t.values.ndim = t.xDim + t.yDim + t.n + t.dim := by rw [ht.hx, ht.hy, ht.hd]; omega
  have ho4 : o.values.ndim = o.xDim + o.yDim + o.n + o.dim := by rw [ho.hx, ho.hy, ho.hd]; omega
  have hft : Fits t nx ny t.n d := ⟨Or.inr ht.hx, Or.inr ht.hy, Or.inr rfl, Or.inr ht.hd⟩
  have hfo : Fits o nx ny t.n d := ⟨Or.inr ho.hx, Or.inr ho.hy, Or.inr hnn, Or.inr ho.hd⟩
  have hsh : ShapesFit t t.values o o.values := by
    refine ⟨fun _ _ k hk => Or.inl ?_, fun _ _ k hk => Or.inl ?_, fun _ _ k hk => Or.inl ?_, fun _ _ k hk => Or.inl ?_⟩
    · rw [ht.hx] at hk
      rw [ht.one k (by omega), ho.one k (by omega)]
    · rw [ht.hy] at hk
      rw [ht.hx, ho.hx, ht.one _ (by omega), ho.one _ (by omega)]
    · rw [ht.hx, ht.hy, ho.hx, ho.hy, ht.full _ (by omega), ho.full _ (by omega)]
    · rw [ht.hd] at hk
      rw [ht.hx, ht.hy, ho.hx, ho.hy, hnn, Nat.add_assoc, ht.full _ (by omega), ho.full _ (by omega)]
  obtain ⟨v, hv⟩ := reshapedOp_isOk ht4 rfl ho4 rfl hft hfo .add hsh
  obtain ⟨v1, v2, -⟩ := reshapedOp_ok ht4 rfl ho4 rfl hft hfo .add hv
  obtain ⟨s1, s2, s3, s4⟩ := reshapedOp_shape ht4 ho4 hft hfo .add hv
  have bs : ∀ {x y : Nat}, x = y → bsize x y = x := by
    rintro x y rfl; unfold bsize; split_ifs <;> rfl
  have full : ∀ j < len, v.shape (nx + ny + j) = S j := by
    intro j hj
    by_cases hjn : j < t.n
    · rw [s3 j hjn, if_neg (by omega), if_neg (by omega), ht.hx, ht.hy, ho.hx, ho.hy, bs, ht.full j hj]
      rw [ht.full j hj, ho.full j hj]
    · have := s4 (j - t.n) (by omega)
      rw [show nx + ny + t.n + (j - t.n) = nx + ny + j by omega, ht.hd, ho.hd, if_neg (by omega), if_neg (by omega), ht.hx, ht.hy, ho.hx,
        ho.hy, hnn, show nx + ny + t.n + (j - t.n) = nx + ny + j by omega, ht.full j hj, ho.full j hj, bs rfl] at this
      exact this
  refine ⟨⟨v, nx, ny, d, xm, ym⟩, ?_, ⟨⟨rfl, rfl, rfl, rfl, rfl, by show v.ndim = _; omega, ht.le, ?_, fun j hj => Or.inl (full j hj), ?_⟩, full⟩⟩
  · unfold Tensor.binTensor
    rw [if_neg (by omega), if_neg (by omega)]
    rw [if_neg]
    · simp only [ht.hx, ht.hy, ht.hd, ho.hx, ho.hy, ho.hd, hnn, max_self, ht.hxm, ho.hxm, ht.hym, ho.hym, true_or, and_self, if_true]
      rw [hv]
      simp only [mkTensor]
      rw [if_neg (by omega)]
    · rw [ht.hx, ht.hy, ht.hd, ho.hx, ho.hy, ho.hd, hnn]
      simp
  · intro k hk
    show v.shape k = 1
    by_cases hkx : k < nx
    · rw [s1 k hkx, ht.hx, ho.hx, if_neg (by omega), if_neg (by omega), ht.one k hk, ho.one k hk]; rfl
    · have := s2 (k - nx) (by omega)
      rw [show nx + (k - nx) = k by omega, ht.hy, ho.hy, if_neg (by omega), if_neg (by omega), ht.hx, ho.hx,
        show nx + (k - nx) = k by omega, ht.one k hk, ho.one k hk] at this
      exact this
  · intro idx hi
    show v.bget idx = _
    have hidx : v.bget idx = v.bget (Tens.flat nx ny t.n ⟨idx, fun k => idx (nx + k), fun k => idx (nx + ny + k), fun k => idx (nx + ny + t.n + k)⟩) := by
      apply bget_congr'
      intro k hk
      unfold Tens.flat
      split_ifs
      · rfl
      all_goals (dsimp only; congr 1; omega)
    have hf : ∀ {w : Tensor α}, w.xDim = nx → w.yDim = ny → w.n = t.n → w.values.bget (w.flat ⟨idx, fun k => idx (nx + k), fun k => idx (nx + ny + k), fun k => idx (nx + ny + t.n + k)⟩) =
        w.values.bget idx := by
      intro w w1 w2 w3
      apply bget_congr'
      intro k hk
      unfold Tensor.flat Tens.flat
      rw [w1, w2, w3]
      split_ifs
      · rfl
      all_goals (dsimp only; congr 1; omega)
    rw [hidx, v2, hf ht.hx ht.hy rfl, hf ho.hx ho.hy hnn, ht.get idx hi, ho.get idx hi]
    rfl

end

end Verif.Tens
