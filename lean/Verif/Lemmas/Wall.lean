import Verif.Lemmas.ComposeNum
import Verif.Spec.Collapse

/-!
# Contractions with Tensors of which the last two parameter axes are not mapped
-/

set_option linter.unusedSectionVars false

namespace Verif.Tens
open Verif.Params (Err)
open NDArray

variable {α : Type} [Field α] [DecidableEq α]

/-- The map of the gradient of `CollapseMatrix` -/
def wallMap (n : Nat) : List Int := idMap n ++ [-1, -1]

/-- The position `s` in the first `n` axes and `i`, `j` in the next two -/
def putAt (n : Nat) (s : Nat → Nat) (i j : Nat) : Nat → Nat := fun k => if k < n then s k else if k = n then i else if k = n + 1 then j else 0

theorem wallMap_length (n : Nat) : (wallMap n).length = n + 2 := by simp [wallMap, idMap_length]

theorem wallMap_lt {n k : Nat} (h : k < n) : (wallMap n).getD k (-1) = k := by
  unfold wallMap
  rw [List.getD_append _ _ _ _ (by rw [idMap_length]; exact h), idMap_getD h]

theorem wallMap_ge {n k : Nat} (h : n ≤ k) : (wallMap n).getD k (-1) = -1 := by
  unfold wallMap
  rw [List.getD_append_right _ _ _ _ (by rw [idMap_length]; exact h), idMap_length]
  match k - n with
  | 0 => rfl
  | 1 => rfl
  | (_ + 2) => rfl

theorem wallMap_nonneg {n k : Nat} : 0 ≤ (wallMap n).getD k (-1) ↔ k < n := by
  constructor
  · intro h
    by_contra hc
    rw [wallMap_ge (by omega)] at h
    omega
  · intro h
    rw [wallMap_lt h]
    omega

theorem mem_wallMap {n : Nat} {f : Int} (h : f ∈ wallMap n) (h0 : 0 ≤ f) : f.toNat < n := by
  unfold wallMap at h
  rcases List.mem_append.1 h with h | h
  · have := mem_idMap.1 h; omega
  · simp at h; omega

theorem wallMap_nodup (n : Nat) : ((wallMap n).filter fun f => 0 ≤ f).Nodup := by
  unfold wallMap
  rw [List.filter_append]
  have : ([-1, -1] : List Int).filter (fun f => 0 ≤ f) = [] := rfl
  rw [this, List.append_nil]
  exact (idMap_nodup n).filter _

theorem wallMap_ne (n : Nat) : wallMap n ≠ [] := by simp [wallMap]

theorem composeMappings_wall {n : Nat} {m : List Int} (h : ∀ f ∈ m, 0 ≤ f ∧ f < n) : composeMappings (wallMap n) m = .ok m := by
  obtain ⟨r, e1, e2, e3⟩ := composeMappings_ok (m1 := wallMap n) (m2 := m) (fun f hf _ => by
    have := h f hf
    rw [wallMap_length]; omega)
  rw [e1]
  congr 1
  apply List.ext_getElem e2
  intro k h1 h2
  have hk := e3 k h2
  have hm := h _ (List.getElem_mem h2)
  rw [List.getD_eq_getElem _ _ h1, List.getD_eq_getElem _ _ h2, if_pos hm.1, wallMap_lt (by omega)] at hk
  omega

/-- `W` are the entries of a Tensor whose first `n` parameter axes are mapped to its first value axes, and whose other two parameter axes have the sizes of the
axes `n` and `n + 1` of the arrays with the sizes `S`; the value and `dim` axes have the sizes `S'`. -/
structure Wall (S S' : Nat → Nat) (n d : Nat) (t : Tensor α) (W : Nat → Nat → (Nat → Nat) → α) : Prop where
  hx : t.xDim = n + 2
  hy : t.yDim = 0
  hd : t.dim = d
  hxm : t.xMap = wallMap n
  hym : t.yMap = []
  nd : t.values.ndim = n + 2 + (n + d)
  one : ∀ k < n, t.values.shape k = 1
  mid : ∀ k < 2, t.values.shape (n + k) = S (n + k)
  full : ∀ j < n + d, t.values.shape (n + 2 + j) = S' j
  get : ∀ idx, (∀ k < 2, idx (n + k) < S (n + k)) → (∀ j < n + d, idx (n + 2 + j) < S' j) →
    t.values.bget idx = W (idx n) (idx (n + 1)) (cut (n + d) fun j => idx (n + 2 + j))

section
variable {S S' : Nat → Nat} {n d a b : Nat} {xm ym : List Int} {t o : Tensor α} {W : Nat → Nat → (Nat → Nat) → α} {G : (Nat → Nat) → α}

/-- The array computed by both contractions -/
theorem contract_wall {ov tv : NDArray α} {A : Nat} (ho : ov.ndim = A + (n + 2)) (ht : tv.ndim = n + 2 + (n + d)) (hS : ∀ k < n, S' k = S k)
    (one : ∀ k < n, tv.shape k = 1) (mid : ∀ k < 2, tv.shape (n + k) = S (n + k)) (full : ∀ j < n + d, tv.shape (n + 2 + j) = S' j)
    (osize : ∀ j < n + 2, ov.shape (A + j) = S j ∨ ov.shape (A + j) = 1) {maskL maskR : List Bool}
    (hmL : maskL = List.replicate (A + (n + 2)) true ++ List.replicate (n + d) false)
    (hmR : maskR = List.replicate A false ++ List.replicate tv.ndim true) :
    ∃ L R M, ov.newAxes maskL = .ok L ∧ (arrSwapaxes 0 (n + 2) 0 (wallMap n) tv).newAxes maskR = .ok R ∧
      NDArray.binary (· * ·) L R = .ok M ∧
      ((arrSwapaxes A (A + (n + 2)) 0 (wallMap n) M).sumAxes ((List.range (n + 2)).map (A + ·))).ndim = A + (n + d) ∧
      (∀ j < A, ((arrSwapaxes A (A + (n + 2)) 0 (wallMap n) M).sumAxes ((List.range (n + 2)).map (A + ·))).shape j = ov.shape j) ∧
      (∀ j < n + d, ((arrSwapaxes A (A + (n + 2)) 0 (wallMap n) M).sumAxes ((List.range (n + 2)).map (A + ·))).shape (A + j) = S' j) ∧
      ∀ J, ((arrSwapaxes A (A + (n + 2)) 0 (wallMap n) M).sumAxes ((List.range (n + 2)).map (A + ·))).bget J =
        ∑ i ∈ Finset.range (S n), ∑ j ∈ Finset.range (S (n + 1)),
          ov.bget (fun k => if k < A then J k else putAt n (fun k => J (A + k)) i j (k - A)) *
            tv.bget fun k => if k < n + 2 then putAt n (fun _ => 0) i j k else J (A + (k - (n + 2))) := by
  have hperm : ∀ k < n, mapPerm 0 (n + 2) (wallMap n) k = n + 2 + k := by
    intro k hk
    rw [mapPerm_mapped (by rw [wallMap_length]) (wallMap_nonneg.2 hk), wallMap_lt hk]
    rfl
  have hun : ∀ k, n ≤ k → k < n + 2 → mapPerm 0 (n + 2) (wallMap n) k = k := fun k h1 h2 =>
    mapPerm_unmapped (q := 0) (by rw [wallMap_length]) h2 fun h => by have := wallMap_nonneg.1 h; omega
  obtain ⟨L, R, M, hL, hR, hM, z1, z2, z3, z4⟩ := contract_sum (ov := ov) (tv := tv) (A := A) (N := n + 2) (C := n + d) (dO := 0)
    (dT := 0) (D := 0) (p := n + 2) (xm := wallMap n) (by omega) (by omega) (Or.inl rfl) (Or.inl rfl) (by rw [wallMap_length]) (by omega)
    (fun f hf h0 => by have := mem_wallMap hf h0; omega) (wallMap_nodup n)
    (fun k hk => by
      by_cases c : k < n
      · rw [hperm k c, full k (by omega), hS k c]
        rcases osize k hk with h | h
        · exact Or.inl h
        · exact Or.inr (Or.inl h)
      · rw [hun k (by omega) hk]
        obtain ⟨i, hi, rfl⟩ : ∃ i < 2, k = n + i := ⟨k - n, by omega, by omega⟩
        rw [mid i hi]
        rcases osize _ hk with h | h
        · exact Or.inl h
        · exact Or.inr (Or.inl h))
    (fun h => absurd rfl h) (maskL := maskL) (maskR := maskR) (by rw [hmL]; simp) (Or.inl (by rw [hmR]; simp))
    (fun k h0 => one k (wallMap_nonneg.1 h0))
  refine ⟨L, R, M, hL, hR, hM, by omega, z2, ?_, ?_⟩
  · intro j hj
    rw [z3 j hj, full j hj]
    by_cases hjn : j < n
    · have := mapPerm_val (p := n + 2) (m := wallMap n) (wallMap_nodup n) (wallMap_nonneg.2 hjn)
      rw [wallMap_lt hjn] at this
      rw [show n + 2 + j = n + 2 + ((j : Int)).toNat from rfl, this, if_pos (by omega), hS j hjn]
      rcases osize j (by omega) with h | h
      · rw [h]; unfold bsize; split_ifs <;> rfl
      · rw [h]; rfl
    · rw [mapPerm_val' (by rw [wallMap_length]) fun h => by have := mem_wallMap h (by omega); omega, if_neg (by omega)]
  · intro J
    rw [z4 J, show n + 2 = (n + 1) + 1 from rfl, List.range_succ, List.range_succ, List.append_assoc, sumAt_append, sumAt_one (l := List.range n)]
    · have hsz : ∀ k, n ≤ k → k < n + 2 → (if 0 ≤ (wallMap n).getD k (-1) then 1 else bsize (ov.shape (A + k)) (tv.shape k)) = S k := by
        intro k h1 h2
        rw [if_neg (fun h => by have := wallMap_nonneg.1 h; omega)]
        obtain ⟨i, hi, rfl⟩ : ∃ i < 2, k = n + i := ⟨k - n, by omega, by omega⟩
        rw [mid i hi]
        rcases osize _ h2 with h | h
        · rw [h]; unfold bsize; split_ifs <;> rfl
        · rw [h]; rfl
      show ∑ i ∈ Finset.range (if 0 ≤ (wallMap n).getD n (-1) then 1 else bsize (ov.shape (A + n)) (tv.shape n)),
        ∑ j ∈ Finset.range (if 0 ≤ (wallMap n).getD (n + 1) (-1) then 1 else bsize (ov.shape (A + (n + 1))) (tv.shape (n + 1))), _ = _
      rw [hsz n le_rfl (by omega), hsz (n + 1) (by omega) (by omega)]
      refine Finset.sum_congr rfl fun i _ => Finset.sum_congr rfl fun j _ => ?_
      show _ * _ = _
      have hu : ∀ k < n + 2, Function.update (Function.update (fun _ => 0) n i) (n + 1) j k = putAt n (fun _ => 0) i j k := by
        intro k hk
        unfold putAt
        by_cases c1 : k < n
        · rw [if_pos c1, Function.update_of_ne (by omega), Function.update_of_ne (by omega)]
        · rw [if_neg c1]
          by_cases c2 : k = n
          · rw [if_pos c2, c2, Function.update_of_ne (by omega), Function.update_self]
          · have : k = n + 1 := by omega
            rw [if_neg c2, if_pos this, this, Function.update_self]
      congr 1
      · apply bget_congr'
        intro k hk
        by_cases c1 : k < A
        · rw [if_pos c1, if_pos c1]
        · rw [if_neg c1, if_neg c1, if_pos (by omega)]
          by_cases c2 : k - A < n
          · rw [if_pos (wallMap_nonneg.2 c2), wallMap_lt c2]
            unfold putAt
            rw [if_pos c2]
            congr 1
            omega
          · rw [if_neg (fun h => c2 (wallMap_nonneg.1 h)), hu _ (by omega)]
            unfold putAt
            rw [if_neg c2, if_neg c2]
      · apply bget_congr'
        intro k hk
        by_cases c : k < n + 2
        · rw [if_pos (by omega), if_pos c, hu k c]
        · rw [if_neg (by omega), if_neg c]
    · intro k hk
      rw [if_pos (wallMap_nonneg.2 (List.mem_range.1 hk))]
    · intro k _; rfl

theorem putAt_lt {s : Nat → Nat} {i j k : Nat} (h : k < n) : putAt n s i j k = s k := if_pos h

theorem putAt_n {s : Nat → Nat} {i j : Nat} : putAt n s i j n = i := by simp [putAt]

theorem putAt_n1 {s : Nat → Nat} {i j : Nat} : putAt n s i j (n + 1) = j := by simp [putAt]

theorem putAt_bound {s : Nat → Nat} {i j : Nat} (hs : ∀ k < n, s k < S k) (hi : i < S n) (hj : j < S (n + 1)) : ∀ k < n + 2, putAt n s i j k < S k := by
  intro k hk
  by_cases c : k < n
  · rw [putAt_lt c]; exact hs k c
  · have : k = n ∨ k = n + 1 := by omega
    rcases this with rfl | rfl
    · rw [putAt_n]; exact hi
    · rw [putAt_n1]; exact hj

theorem putAt_congr {s s' : Nat → Nat} {i j : Nat} (h : ∀ k < n, s k = s' k) : putAt n s i j = putAt n s' i j := by
  funext k
  unfold putAt
  split_ifs with c
  · exact h k c
  all_goals rfl

theorem cut_putAt {s : Nat → Nat} {i j : Nat} : cut (n + 2) (putAt n s i j) = putAt n s i j := by
  funext k
  unfold cut putAt
  split_ifs <;> first | rfl | omega

/-- The value of the contractions -/
theorem wall_value {ov tv : NDArray α} {A : Nat} (hS : ∀ k < n, S' k = S k) (ho : ∀ idx, (∀ j < n + 2, idx (A + j) < S j) → ov.bget idx = G (cut (n + 2) fun j => idx (A + j)))
    (ht : ∀ idx, (∀ k < 2, idx (n + k) < S (n + k)) → (∀ j < n + d, idx (n + 2 + j) < S' j) → tv.bget idx = W (idx n) (idx (n + 1)) (cut (n + d) fun j => idx (n + 2 + j)))
    {J : Nat → Nat} (hJ : ∀ j < n + d, J (A + j) < S' j) :
    ∑ i ∈ Finset.range (S n), ∑ j ∈ Finset.range (S (n + 1)),
          ov.bget (fun k => if k < A then J k else putAt n (fun k => J (A + k)) i j (k - A)) *
            tv.bget (fun k => if k < n + 2 then putAt n (fun _ => 0) i j k else J (A + (k - (n + 2)))) =
      ∑ i ∈ Finset.range (S n), ∑ j ∈ Finset.range (S (n + 1)), G (putAt n (cut (n + d) fun j => J (A + j)) i j) * W i j (cut (n + d) fun j => J (A + j)) := by
  refine Finset.sum_congr rfl fun i hi => Finset.sum_congr rfl fun j hj => ?_
  have hi := Finset.mem_range.1 hi
  have hj := Finset.mem_range.1 hj
  have e : (fun k => if A + k < A then J (A + k) else putAt n (fun k => J (A + k)) i j (A + k - A)) = putAt n (fun k => J (A + k)) i j := by
    funext k
    rw [if_neg (by omega), show A + k - A = k by omega]
  rw [ho _ (fun k hk => ?_), ht _ (fun k hk => ?_) fun k hk => ?_]
  · congr 1
    · rw [e, cut_putAt]
      congr 1
      refine putAt_congr fun k hk => ?_
      rw [cut_of (by omega)]
    · rw [if_pos (by omega), putAt_n, if_pos (by omega), putAt_n1]
      congr 1
      refine cut_congr fun k hk => ?_
      rw [if_neg (by omega)]
      congr 1
      omega
  · rw [if_pos (by omega)]
    have : k = 0 ∨ k = 1 := by omega
    rcases this with rfl | rfl
    · rw [Nat.add_zero, putAt_n]; exact hi
    · rw [putAt_n1]; exact hj
  · rw [if_neg (by omega)]
    have := hJ k hk
    rwa [show A + (n + 2 + k - (n + 2)) = A + k by omega]
  · show (if A + k < A then J (A + k) else putAt n (fun k => J (A + k)) i j (A + k - A)) < S k
    rw [if_neg (by omega), show A + k - A = k by omega]
    refine putAt_bound (fun k hk => ?_) hi hj k hk
    rw [← hS k hk]; exact hJ k (by omega)

/-- `t.dot_left(o)` -/
theorem wall_dotLeft (hS : ∀ k < n, S' k = S k) (ht : Wall S S' n d t W) (ho : Slab S a 0 (n + 2) 0 xm [] o G) (hxm : ∀ f ∈ xm, 0 ≤ f ∧ f < n) :
    ∃ r, t.dotLeft o = .ok r ∧ Sheet S' a 0 (n + d) d xm [] r fun s => ∑ i ∈ Finset.range (S n), ∑ j ∈ Finset.range (S (n + 1)), G (putAt n s i j) * W i j s := by
  have hon := ho.n
  have htd := ht.nd
  have hod := ho.nd
  have htn : t.n = n := by unfold Tensor.n; rw [ht.hx, ht.hy, ht.hd]; omega
  obtain ⟨L, R, M, hL, hR, hM, z1, z2, z3, z4⟩ := contract_wall (ov := o.values) (tv := t.values) (A := a) (S := S) (S' := S') (d := d) (by omega) (by omega) hS ht.one ht.mid ht.full
    (fun j hj => ho.size j hj) (maskL := _) (maskR := _) rfl rfl
  set Z := (arrSwapaxes a (a + (n + 2)) 0 (wallMap n) M).sumAxes ((List.range (n + 2)).map (a + ·)) with hZ
  refine ⟨⟨Z, a, 0, d, xm, []⟩, ?_, ?_⟩
  · unfold Tensor.dotLeft
    rw [if_neg (by rw [ht.hx]; omega)]
    unfold Tensor.dotLeftCore
    have e1 : List.replicate (a + (n + 2)) true ++ List.replicate (0 + t.n) false ++ List.replicate 0 true ++
        List.replicate (max d 0 - 0) false = List.replicate (a + (n + 2)) true ++ List.replicate (n + d) false := by
      rw [List.replicate_zero, List.append_nil, List.append_assoc, List.replicate_append_replicate,
        show 0 + t.n + (max d 0 - 0) = n + d by omega]
    have e2 : List.replicate a false ++ List.replicate t.values.ndim true ++ List.replicate (max d 0 - d) false =
        List.replicate a false ++ List.replicate t.values.ndim true := by
      rw [show max d 0 - d = 0 by omega, List.replicate_zero, List.append_nil]
    simp only [ht.hx, ht.hy, ht.hd, ht.hxm, ht.hym, ho.hx, ho.hd, ho.hxm, show o.n = n + 2 by omega, e1, e2, hL, hR, hM, Nat.add_zero]
    rw [if_pos (wallMap_ne n), composeMappings_wall hxm]
    simp only
    rw [← hZ, mkTensor, if_neg (by omega), show max d 0 = d by omega]
  · refine ⟨⟨rfl, rfl, rfl, rfl, rfl, by show Z.ndim = _; omega, by omega, ?_, fun j hj => Or.inl (z3 j hj), ?_⟩, z3⟩
    · intro k hk
      exact (z2 k hk).trans (ho.one k (by omega))
    · intro idx hi
      show Z.bget idx = _
      rw [z4 idx]
      exact wall_value hS (fun idx h => ho.get idx h) ht.get hi

/-- `t.dot_right(o)` -/
theorem wall_dotRight (hS : ∀ k < n, S' k = S k) (ht : Wall S S' n d t W) (ho : Slab S a b (n + 2) 0 xm ym o G) (hxm : ∀ f ∈ xm, 0 ≤ f ∧ f < n) (hym : ∀ f ∈ ym, 0 ≤ f ∧ f < n) :
    ∃ r, t.dotRight o = .ok (some r) ∧ Sheet S' a b (n + d) d xm ym r fun s => ∑ i ∈ Finset.range (S n), ∑ j ∈ Finset.range (S (n + 1)), G (putAt n s i j) * W i j s := by
  have hon := ho.n
  have htd := ht.nd
  have hod := ho.nd
  have htn : t.n = n := by unfold Tensor.n; rw [ht.hx, ht.hy, ht.hd]; omega
  obtain ⟨L, R, M, hL, hR, hM, z1, z2, z3, z4⟩ := contract_wall (ov := o.values) (tv := t.values) (A := a + b) (S := S) (S' := S') (d := d) (by omega) (by omega) hS ht.one ht.mid ht.full
    (fun j hj => ho.size j hj) (maskL := _) (maskR := _) rfl rfl
  set Z := (arrSwapaxes (a + b) (a + b + (n + 2)) 0 (wallMap n) M).sumAxes ((List.range (n + 2)).map (a + b + ·)) with hZ
  refine ⟨⟨Z, a, b, d, xm, ym⟩, ?_, ?_⟩
  · unfold Tensor.dotRight
    rw [if_neg (by omega), if_neg (by rw [ht.hx, ht.hy]; omega)]
    have e1 : List.replicate (a + b + (n + 2)) true ++ List.replicate t.n false ++ List.replicate 0 true ++
        List.replicate (max d 0 - 0) false = List.replicate (a + b + (n + 2)) true ++ List.replicate (n + d) false := by
      rw [List.replicate_zero, List.append_nil, List.append_assoc, List.replicate_append_replicate,
        show t.n + (max d 0 - 0) = n + d by omega]
    have e2 : (arrSwapaxes 0 (n + 2) 0 (wallMap n) t.values).newAxes (List.replicate (a + b) false ++ List.replicate (n + 2 + t.n) true ++ List.replicate (max d 0 - d) false) =
        .ok R := by
      have hR' : (arrSwapaxes 0 (n + 2) 0 (wallMap n) t.values).newAxes (List.replicate (a + b) false ++ List.replicate (n + 2 + t.n) true ++ List.replicate d true) = .ok R := by
        rw [List.append_assoc, List.replicate_append_replicate, show n + 2 + t.n + d = t.values.ndim by omega]
        exact hR
      rw [newAxes_append_true] at hR'
      · rw [show max d 0 - d = 0 by omega, List.replicate_zero, List.append_nil]
        exact hR'
      · rw [arrSwapaxes_ndim, List.count_append, List.count_replicate, List.count_replicate]
        simp
        omega
    simp only [ht.hx, ht.hd, ht.hxm, ho.hx, ho.hy, ho.hd, ho.hxm, ho.hym, show o.n = n + 2 by omega, e1, e2, hL, hM]
    rw [if_neg (wallMap_ne n)]
    simp only [composeMappings_wall hxm, composeMappings_wall hym]
    rw [← hZ, mkTensor, if_neg (by omega), show max d 0 = d by omega]
  · refine ⟨⟨rfl, rfl, rfl, rfl, rfl, z1, by omega, ?_, fun j hj => Or.inl (z3 j hj), ?_⟩, z3⟩
    · intro k hk
      exact (z2 k hk).trans (ho.one k (by omega))
    · intro idx hi
      show Z.bget idx = _
      rw [z4 idx]
      exact wall_value hS (fun idx h => ho.get idx h) ht.get hi

/-- The sum of the entries of `v` over two axes, with the weights `W` -/
def wallSum (S : Nat → Nat) (n : Nat) (W : Nat → Nat → (Nat → Nat) → α) (s' : Nat → Nat) (F : (Nat → Nat) → α) (s : Nat → Nat) : α :=
  ∑ i ∈ Finset.range (S n), ∑ j ∈ Finset.range (S (n + 1)), F (putAt n s i j) * W i j s'

theorem wallSum_add (s' : Nat → Nat) (F F' : (Nat → Nat) → α) (s : Nat → Nat) : wallSum S n W s' (fun s => F s + F' s) s = wallSum S n W s' F s + wallSum S n W s' F' s := by
  unfold wallSum
  simp only [add_mul, Finset.sum_add_distrib]

theorem wallSum_zero (s' : Nat → Nat) (s : Nat → Nat) : wallSum S n W s' (fun _ => 0) s = 0 := by
  unfold wallSum
  simp

theorem wall_read (hS : ∀ k < n, S' k = S k) {r : Tensor α} (ho : Slab S a b (n + 2) 0 xm ym o G) (hxm : ∀ f ∈ xm, 0 ≤ f ∧ f < n) (hym : ∀ f ∈ ym, 0 ≤ f ∧ f < n)
    (hr : Sheet S' a b (n + d) d xm ym r fun s => ∑ i ∈ Finset.range (S n), ∑ j ∈ Finset.range (S (n + 1)), G (putAt n s i j) * W i j s)
    (x y : Nat → Nat) {s : Nat → Nat} (hs : ∀ j < n + d, s j < S' j) : r.read x y s = wallSum S n W (cut (n + d) s) (fun s => o.read x y s) s := by
  rw [hr.toSlab.read hs]
  unfold wallSum
  have e : ∀ i ∈ Finset.range (S n), ∀ j ∈ Finset.range (S (n + 1)), o.read x y (putAt n s i j) = if Agrees xm x s ∧ Agrees ym y s then G (putAt n s i j) else 0 := by
    intro i hi j hj
    rw [ho.read (putAt_bound (fun k hk => by rw [← hS k hk]; exact hs k (by omega)) (Finset.mem_range.1 hi) (Finset.mem_range.1 hj)), cut_putAt]
    simp only [agrees_congr_iff hxm (s := putAt n s i j) (s' := s) (fun k hk => putAt_lt hk), agrees_congr_iff hym (s := putAt n s i j) (s' := s) (fun k hk => putAt_lt hk)]
  by_cases c : Agrees xm x s ∧ Agrees ym y s
  · rw [if_pos c]
    refine Finset.sum_congr rfl fun i hi => Finset.sum_congr rfl fun j hj => ?_
    show _ = o.read x y (putAt n s i j) * _
    rw [e i hi j hj, if_pos c, putAt_congr (s := cut (n + d) s) (s' := s) fun k hk => cut_of (by omega)]
  · rw [if_neg c]
    symm
    refine Finset.sum_eq_zero fun i hi => Finset.sum_eq_zero fun j hj => ?_
    show o.read x y (putAt n s i j) * _ = 0
    rw [e i hi j hj, if_neg c, zero_mul]

variable {fl : Prop} {X Y : List Int → Prop} {A B : Nat}

theorem part_wallLeft (hS : ∀ k < n, S' k = S k) (ht : Wall S S' n d t W) (hX : ∀ xm, X xm → ∀ f ∈ xm, 0 ≤ f ∧ f < n) (ho : Part fl S (n + 2) 0 X (· = []) o) :
    ∃ r, t.dotLeft o = .ok r ∧ Part True S' (n + d) d X (· = []) r ∧ r.xDim = o.xDim ∧ r.yDim = 0 ∧
      ∀ x y s, (∀ j < n + d, s j < S' j) → r.read x y s = wallSum S n W (cut (n + d) s) (fun s => o.read x y s) s := by
  obtain ⟨om, _, G, g1, g2, g3, rfl⟩ := ho
  obtain ⟨r, r1, r2⟩ := wall_dotLeft hS ht g1 (hX om g3)
  exact ⟨r, r1, ⟨om, [], _, r2.toSlab, fun _ => r2.full, g3, rfl⟩, by rw [r2.hx, g1.hx], r2.hy,
    fun x y s hs => wall_read hS g1 (hX om g3) (fun f hf => by cases hf) r2 x y hs⟩

theorem part_wallRight (hS : ∀ k < n, S' k = S k) (ht : Wall S S' n d t W) (hX : ∀ xm, X xm → ∀ f ∈ xm, 0 ≤ f ∧ f < n) (hY : ∀ xm, Y xm → ∀ f ∈ xm, 0 ≤ f ∧ f < n)
    (ho : Part fl S (n + 2) 0 X Y o) :
    ∃ r, t.dotRight o = .ok (some r) ∧ Part True S' (n + d) d X Y r ∧ r.xDim = o.xDim ∧ r.yDim = o.yDim ∧
      ∀ x y s, (∀ j < n + d, s j < S' j) → r.read x y s = wallSum S n W (cut (n + d) s) (fun s => o.read x y s) s := by
  obtain ⟨om, pm, G, g1, g2, g3, g4⟩ := ho
  obtain ⟨r, r1, r2⟩ := wall_dotRight hS ht g1 (hX om g3) (hY pm g4)
  exact ⟨r, r1, ⟨om, pm, _, r2.toSlab, fun _ => r2.full, g3, g4⟩, by rw [r2.hx, g1.hx], by rw [r2.hy, g1.hy],
    fun x y s hs => wall_read hS g1 (hX om g3) (hY pm g4) r2 x y hs⟩

theorem Wall.tn (ht : Wall S S' n d t W) : t.n = n := by
  have := ht.nd
  unfold Tensor.n
  rw [ht.hx, ht.hy, ht.hd]
  omega

/-- `t.dot_left(w)` -/
theorem stack_wallLeft (hS : ∀ k < n, S' k = S k) (ht : Wall S S' n d t W) (hX : ∀ xm, X xm → ∀ f ∈ xm, 0 ≤ f ∧ f < n) {w : Num α}
    (hw : Stack fl S (n + 2) 0 A B X (· = []) w) :
    ∃ r, t.dotLeftNum w = .ok r ∧ Stack True S' (n + d) d A 0 X (· = []) r ∧ (w.Single → r.Single) ∧
      ∀ x y s, (∀ j < n + d, s j < S' j) → r.read x y s = wallSum S n W (cut (n + d) s) (fun s => w.read x y s) s := by
  cases w with
  | tensor o =>
    obtain ⟨r, r1, r2, -, -, r3⟩ := part_wallLeft hS ht hX hw
    refine ⟨.tensor r, ?_, r2, fun _ => trivial, r3⟩
    show (t.dotLeft o).map _ = _
    rw [r1]; rfl
  | generic g =>
    obtain ⟨h1, h2, h3, h4, h5, h6⟩ := hw
    obtain ⟨l, l1, l2⟩ := mapElems_ok (f := fun o : Tensor α => t.dotLeft o) (fun o r => Part True S' (n + d) d X (· = []) r ∧ r.xDim = o.xDim ∧ r.yDim = 0 ∧
        ∀ x y s, (∀ j < n + d, s j < S' j) → r.read x y s = wallSum S n W (cut (n + d) s) (fun s => o.read x y s) s) (es := g.elements)
      (fun e he => by
        obtain ⟨o, rfl, ho, -⟩ := h6 e he
        obtain ⟨r, r1, r2⟩ := part_wallLeft hS ht hX ho
        exact ⟨o, rfl, r, r1, r2⟩)
    have hc : ¬ (t.xDim ≠ g.n ∧ t.yDim = g.n) := by rw [ht.hx]; omega
    have htn := ht.tn
    have htd := ht.hd
    refine ⟨.generic ⟨g.xDim, t.yDim, t.n, max t.dim g.dim, l⟩, ?_, ⟨?_, by show t.n + d = _; omega, ?_, h4, Or.inl ht.hy, ?_⟩, fun h => h.elim, ?_⟩
    · show (mapElems (fun o => (if t.xDim ≠ g.n ∧ t.yDim = g.n then t.transpose else t).dotLeft o) g.elements).map _ = _
      simp only [if_neg hc]
      rw [l1]; rfl
    · intro hl
      have hl : l = [] := hl
      rw [hl] at l2
      cases hg : g.elements with
      | nil => exact h1 hg
      | cons a as => rw [hg] at l2; cases l2
    · show max t.dim g.dim = d
      omega
    · intro e he
      obtain ⟨e', he', o, r, rfl, rfl, r1, r2, r3, -⟩ := forall2_mem l2 e he
      obtain ⟨t', e1, -, b, -⟩ := h6 _ he'
      cases e1
      exact ⟨_, rfl, r1, by rw [r2]; exact b, by rw [r3]; exact Nat.zero_le _⟩
    · intro x y s hs
      show readElems l x y s = wallSum S n W (cut (n + d) s) (fun s => readElems g.elements x y s) s
      clear h1 h2 h3 h4 h5 h6 l1 hc
      generalize g.elements = es at l2
      induction l2 with
      | nil => simp [readElems, wallSum_zero]
      | cons hab _ ih =>
        obtain ⟨o, r, rfl, rfl, -, -, -, k⟩ := hab
        simp only [readElems_cons]
        rw [wallSum_add, ih, k x y s hs]

/-- `t.dot_right(w)` where `w` is not `Tensor(0)` -/
theorem stack_wallRight (hS : ∀ k < n, S' k = S k) (ht : Wall S S' n d t W) (hX : ∀ xm, X xm → ∀ f ∈ xm, 0 ≤ f ∧ f < n) (hY : ∀ xm, Y xm → ∀ f ∈ xm, 0 ≤ f ∧ f < n)
    {w : Num α} (hw : Stack fl S (n + 2) 0 A B X Y w) :
    ∃ r, t.dotRightNum w = .ok (.arr r) ∧ Stack True S' (n + d) d A B X Y r ∧
      ∀ x y s, (∀ j < n + d, s j < S' j) → r.read x y s = wallSum S n W (cut (n + d) s) (fun s => w.read x y s) s := by
  cases w with
  | tensor o =>
    obtain ⟨r, r1, r2, -, -, r3⟩ := part_wallRight hS ht hX hY hw
    refine ⟨.tensor r, ?_, r2, r3⟩
    unfold Tensor.dotRightNum
    dsimp only
    rw [r1]; rfl
  | generic g =>
    obtain ⟨h1, h2, h3, h4, h5, h6⟩ := hw
    have htn := ht.tn
    have htd := ht.hd
    have hl : ∃ l, g.elements.mapM t.dotRightElem = .ok l ∧ List.Forall₂ (fun e e' => ∃ o r, e = .inl o ∧ e' = .inl r ∧ Part True S' (n + d) d X Y r ∧ r.xDim = o.xDim ∧ r.yDim = o.yDim ∧
        ∀ x y s, (∀ j < n + d, s j < S' j) → r.read x y s = wallSum S n W (cut (n + d) s) (fun s => o.read x y s) s) g.elements l := by
      clear h1 h4 h5
      generalize g.elements = es at *
      induction es with
      | nil => exact ⟨[], rfl, .nil⟩
      | cons e es ih =>
        obtain ⟨o, rfl, ho, -⟩ := h6 e List.mem_cons_self
        obtain ⟨r, r1, r2⟩ := part_wallRight hS ht hX hY ho
        obtain ⟨l, l1, l2⟩ := ih fun e he => h6 e (List.mem_cons_of_mem _ he)
        refine ⟨.inl r :: l, ?_, .cons ⟨o, r, rfl, rfl, r2⟩ l2⟩
        rw [List.mapM_cons, l1]
        have : t.dotRightElem (.inl o) = .ok (.inl r) := by
          unfold Tensor.dotRightElem
          dsimp only
          rw [r1]; rfl
        rw [this]; rfl
    obtain ⟨l, l1, l2⟩ := hl
    refine ⟨.generic ⟨g.xDim, g.yDim, t.n, max t.dim g.dim, l⟩, ?_, ⟨?_, by show t.n + d = _; omega, ?_, h4, h5, ?_⟩, ?_⟩
    · unfold Tensor.dotRightNum
      dsimp only
      rw [if_neg (by rw [ht.hx, ht.hy]; omega), l1]; rfl
    · intro hl
      have hl : l = [] := hl
      rw [hl] at l2
      cases hg : g.elements with
      | nil => exact h1 hg
      | cons a as => rw [hg] at l2; cases l2
    · show max t.dim g.dim = d
      omega
    · intro e he
      obtain ⟨e', he', o, r, rfl, rfl, r1, r2, r3, -⟩ := forall2_mem l2 e he
      obtain ⟨t', e1, -, b, b'⟩ := h6 _ he'
      cases e1
      exact ⟨_, rfl, r1, by rw [r2]; exact b, by rw [r3]; exact b'⟩
    · intro x y s hs
      show readElems l x y s = wallSum S n W (cut (n + d) s) (fun s => readElems g.elements x y s) s
      clear h1 h2 h3 h4 h5 h6 l1
      generalize g.elements = es at l2
      induction l2 with
      | nil => simp [readElems, wallSum_zero]
      | cons hab _ ih =>
        obtain ⟨o, r, rfl, rfl, -, -, -, k⟩ := hab
        simp only [readElems_cons]
        rw [wallSum_add, ih, k x y s hs]

end

end Verif.Tens
