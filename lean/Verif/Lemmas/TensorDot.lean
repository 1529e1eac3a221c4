import Verif.Lemmas.TensorSum

/-!
# Contractions: `dot_left`, `dot_right`
-/

set_option linter.unusedSectionVars false

namespace Verif.Tens
open Verif.Params (Err)
open NDArray

variable {α : Type} [Field α] [DecidableEq α]

/-! ### index tuples -/

theorem axisOf_replicate_true (a k : Nat) : axisOf (List.replicate a true) k = some k := by
  have := axisOf_true a [] k
  rw [List.append_nil] at this
  rw [this]
  by_cases h : k < a
  · rw [if_pos h]
  · rw [if_neg h]
    show some (a + (k - a)) = _
    congr 1; omega

theorem maskL_ok (v : NDArray α) {A C d D : Nat} (hnd : v.ndim = A + d) (hd : d ≤ D) :
    ∃ r, v.newAxes (List.replicate A true ++ List.replicate C false ++ List.replicate d true ++
        List.replicate (D - d) false) = .ok r ∧ r.ndim = A + C + D ∧
      (∀ k < A, r.shape k = v.shape k) ∧ (∀ k < C, r.shape (A + k) = 1) ∧
      (∀ k < d, r.shape (A + C + k) = v.shape (A + k)) ∧ (∀ k < D - d, r.shape (A + C + d + k) = 1) ∧
      ∀ idx, r.bget idx = v.bget fun j => idx (if j < A then j else j + C) := by
  set mask := List.replicate A true ++ List.replicate C false ++ List.replicate d true ++
        List.replicate (D - d) false with hmask
  have hct : mask.count true = v.ndim := by
    rw [hmask, List.count_append, List.count_append, List.count_append]
    simp [List.count_replicate]; omega
  have hcf : mask.count false = C + (D - d) := by
    rw [hmask, List.count_append, List.count_append, List.count_append]
    simp [List.count_replicate]
  obtain ⟨r, hr⟩ := newAxes_isOk (a := v) (l := mask) (by omega)
  obtain ⟨r1, r2, r3, r4, r5, -⟩ := newAxes_ok hr
  have hax : ∀ k, axisOf mask k = if k < A then some k
      else if k < A + C then none
      else if k < A + C + d then some (k - C)
      else if k < A + C + D then none else some (k - C - (D - d)) := by
    intro k
    rw [hmask, List.append_assoc, List.append_assoc, axisOf_true]
    by_cases h1 : k < A
    · rw [if_pos h1, if_pos h1]
    · rw [if_neg h1, if_neg h1, axisOf_false]
      by_cases h2 : k < A + C
      · rw [if_pos (by omega), if_pos h2]; rfl
      · rw [if_neg (by omega), if_neg h2, axisOf_true]
        by_cases h3 : k < A + C + d
        · rw [if_pos (by omega), if_pos h3]
          show some (A + (k - A - C)) = _
          congr 1; omega
        · rw [if_neg (by omega), if_neg h3, ← List.append_nil (List.replicate (D - d) false), axisOf_false]
          by_cases h4 : k < A + C + D
          · rw [if_pos (by omega), if_pos h4]; rfl
          · rw [if_neg (by omega), if_neg h4]
            show some (A + (d + (k - A - C - d - (D - d)))) = _
            congr 1; omega
  have hpos : ∀ j < v.ndim, posOf mask j = if j < A then j else j + C := by
    intro j hj
    rw [hmask, List.append_assoc, List.append_assoc, posOf_true]
    by_cases h1 : j < A
    · rw [if_pos h1, if_pos h1]
    · rw [if_neg h1, if_neg h1, posOf_false, posOf_true, if_pos (by omega)]
      omega
  refine ⟨r, hr, by omega, ?_, ?_, ?_, ?_, ?_⟩
  · intro k hk
    exact r4 k k (by rw [hax, if_pos hk])
  · intro k hk
    exact r3 _ (by rw [hax, if_neg (by omega), if_pos (by omega)])
  · intro k hk
    refine r4 _ _ ?_
    rw [hax, if_neg (by omega), if_neg (by omega), if_pos (by omega)]
    congr 1; omega
  · intro k hk
    exact r3 _ (by rw [hax, if_neg (by omega), if_neg (by omega), if_neg (by omega), if_pos (by omega)])
  · intro idx
    rw [r5]
    apply bget_congr'
    intro j hj
    rw [hpos j hj]

theorem maskR_ok (v : NDArray α) {A B d D : Nat} (hnd : v.ndim = B + d) (hd : d = 0 ∨ d = D)
    {mask : List Bool} (hm : mask = List.replicate A false ++ List.replicate v.ndim true ++
        List.replicate (D - d) false ∨
      mask = List.replicate A false ++ List.replicate B true ++ List.replicate (D - d) false) :
    ∃ r, v.newAxes mask = .ok r ∧ r.ndim = A + B + D ∧
      (∀ k < A, r.shape k = 1) ∧ (∀ k < v.ndim, r.shape (A + k) = v.shape k) ∧
      (∀ k < D - d, r.shape (A + B + d + k) = 1) ∧
      ∀ idx, r.bget idx = v.bget fun j => idx (A + j) := by
  have hm' : ∃ b, (b = B ∨ b = v.ndim) ∧
      mask = List.replicate A false ++ List.replicate b true ++ List.replicate (D - d) false := by
    rcases hm with h | h
    · exact ⟨_, Or.inr rfl, h⟩
    · exact ⟨_, Or.inl rfl, h⟩
  obtain ⟨b, hb, hmask⟩ := hm'
  have hct : mask.count true = b := by
    rw [hmask, List.count_append, List.count_append]
    simp [List.count_replicate]
  have hcf : mask.count false = A + (D - d) := by
    rw [hmask, List.count_append, List.count_append]
    simp [List.count_replicate]
  obtain ⟨r, hr⟩ := newAxes_isOk (a := v) (l := mask) (by omega)
  obtain ⟨r1, r2, r3, r4, r5, -⟩ := newAxes_ok hr
  have hax : ∀ k, axisOf mask k = if k < A then none
      else if k < A + b then some (k - A)
      else if k < A + b + (D - d) then none else some (k - A - (D - d)) := by
    intro k
    rw [hmask, List.append_assoc, axisOf_false]
    by_cases h1 : k < A
    · rw [if_pos h1, if_pos h1]
    · rw [if_neg h1, if_neg h1, axisOf_true]
      by_cases h2 : k < A + b
      · rw [if_pos (by omega), if_pos h2]
      · rw [if_neg (by omega), if_neg h2, ← List.append_nil (List.replicate (D - d) false), axisOf_false]
        by_cases h4 : k < A + b + (D - d)
        · rw [if_pos (by omega), if_pos h4]; rfl
        · rw [if_neg (by omega), if_neg h4]
          show some (b + (k - A - b - (D - d))) = _
          congr 1; omega
  have hax' : ∀ k < v.ndim, axisOf mask (A + k) = some k := by
    intro k hk
    rw [hax, if_neg (by omega)]
    by_cases h2 : A + k < A + b
    · rw [if_pos h2]; congr 1; omega
    · rw [if_neg h2, if_neg (by omega)]
      congr 1; omega
  have hpos : ∀ j < v.ndim, posOf mask j = A + j := by
    intro j hj
    rw [hmask, List.append_assoc, posOf_false, posOf_true]
    by_cases h1 : j < b
    · rw [if_pos h1]
    · rw [if_neg h1, ← List.append_nil (List.replicate (D - d) false), posOf_false]
      show A + (b + (D - d + (j - b))) = _
      omega
  refine ⟨r, hr, by omega, ?_, ?_, ?_, ?_⟩
  · intro k hk
    exact r3 k (by rw [hax, if_pos hk])
  · intro k hk
    exact r4 _ _ (hax' k hk)
  · intro k hk
    refine r3 _ ?_
    rw [hax, if_neg (by omega), if_neg (by omega), if_pos (by omega)]
  · intro idx
    rw [r5]
    apply bget_congr'
    intro j hj
    rw [hpos j hj]

/-! ### exchanged axes -/

section perm
variable {q p : Nat} {P : Int → Prop} [DecidablePred P] {fs : List Int}

theorem swapPerm_left (hq : q + fs.length ≤ p) {j : Nat} (hj : j < fs.length) (h : P (fs.getD j (-1))) :
    swapPerm q p P fs (q + j) = p + (fs.getD j (-1)).toNat := by
  unfold swapPerm
  rw [if_neg (by rintro ⟨h, -⟩; omega), show q + j - q = j by omega, if_pos ⟨by omega, hj, h⟩]

theorem swapPerm_right (h0 : ∀ f ∈ fs, P f → 0 ≤ f) (hn : (fs.filter fun f => P f).Nodup)
    {j : Nat} (hj : j < fs.length) (h : P (fs.getD j (-1))) :
    swapPerm q p P fs (p + (fs.getD j (-1)).toNat) = q + j := by
  have hm : fs.getD j (-1) ∈ fs := by
    rw [List.getD_eq_getElem _ _ hj]; exact List.getElem_mem hj
  have h0' := h0 _ hm h
  have hc : ((p + (fs.getD j (-1)).toNat - p : Nat) : Int) = fs.getD j (-1) := by omega
  unfold swapPerm
  rw [hc, if_pos ⟨by omega, h, hm⟩, idxOf_getD_of_filter_nodup hn hj h]

theorem swapPerm_else {m : Nat} (hm : ¬ Paired q p P 0 fs m) : swapPerm q p P fs m = m := by
  unfold swapPerm
  rw [if_neg, if_neg]
  · rintro ⟨h1, h2, h3⟩
    exact hm ⟨m - q, h2, h3, Or.inl (by omega)⟩
  · rintro ⟨h1, h2, h3⟩
    refine hm ⟨fs.idxOf ((m - p : Nat) : Int), List.idxOf_lt_length_iff.2 h3, ?_, Or.inr ?_⟩
    · rwa [getD_idxOf h3]
    · rw [getD_idxOf h3]; omega

theorem swapPerm_swapPerm (hq : q + fs.length ≤ p) (h0 : ∀ f ∈ fs, P f → 0 ≤ f)
    (hn : (fs.filter fun f => P f).Nodup) (m : Nat) :
    swapPerm q p P fs (swapPerm q p P fs m) = m := by
  by_cases hm : Paired q p P 0 fs m
  · obtain ⟨j, hj, hj0, rfl | rfl⟩ := hm
    · rw [Nat.add_zero, swapPerm_left hq hj hj0, swapPerm_right h0 hn hj hj0]
    · rw [swapPerm_right h0 hn hj hj0, swapPerm_left hq hj hj0]
  · rw [swapPerm_else hm, swapPerm_else hm]

theorem swapPerm_shift (X j : Nat) :
    swapPerm (X + q) (X + p) P fs (X + j) = X + swapPerm q p P fs j := by
  unfold swapPerm
  rw [show X + j - (X + p) = j - p by omega, show X + j - (X + q) = j - q by omega]
  have e1 : (X + p ≤ X + j) ↔ p ≤ j := by omega
  have e2 : (X + q ≤ X + j) ↔ q ≤ j := by omega
  simp only [e1, e2]
  split_ifs <;> omega

theorem swapPerm_lt {j : Nat} (hq : q ≤ p) (hj : j < q) : swapPerm q p P fs j = j := by
  unfold swapPerm
  rw [if_neg (by rintro ⟨h, -⟩; omega), if_neg (by rintro ⟨h, -⟩; omega)]

end perm

/-- The axes exchanged by a map. -/
abbrev mapPerm (q p : Nat) (m : List Int) : Nat → Nat := swapPerm q p (fun f => 0 ≤ f) m

theorem mapPerm_ge {p N B : Nat} {xm : List Int} (hl : xm.length ≤ N) (hB : N ≤ B)
    (hxm : ∀ f ∈ xm, 0 ≤ f → p + f.toNat < B) {j : Nat} (hj : B ≤ j) : mapPerm 0 p xm j = j := by
  apply swapPerm_else
  rintro ⟨k, hk, h0, h | h⟩
  · omega
  · have hm : xm.getD k (-1) ∈ xm := by
      rw [List.getD_eq_getElem _ _ hk]; exact List.getElem_mem hk
    have := hxm _ hm h0
    omega

theorem mapPerm_lt {p N B : Nat} {xm : List Int} (hl : xm.length ≤ N) (hB : N ≤ B)
    (hxm : ∀ f ∈ xm, 0 ≤ f → p + f.toNat < B) {j : Nat} (hj : j < B) : mapPerm 0 p xm j < B := by
  by_cases hm : Paired 0 p (fun f => 0 ≤ f) 0 xm j
  · unfold mapPerm swapPerm
    split_ifs with h1 h2
    · have := List.idxOf_lt_length_iff.2 h1.2.2
      omega
    · have hk := h2.2.1
      have hm : xm.getD (j - 0) (-1) ∈ xm := by
        rw [List.getD_eq_getElem _ _ hk]; exact List.getElem_mem hk
      exact hxm _ hm h2.2.2
    · exact hj
  · rw [mapPerm, swapPerm_else hm]; exact hj

/-- `other[l_idx] * swapped[r_idx]`, with the axes exchanged back. -/
theorem contract_ok {ov tv : NDArray α} {A N C dO dT D p : Nat} {xm : List Int}
    (ho : ov.ndim = A + N + dO) (ht : tv.ndim = N + C + dT) (hO : dO = 0 ∨ dO = D) (hT : dT = 0 ∨ dT = D)
    (hl : xm.length ≤ N) (hp : N ≤ p) (hxm : ∀ f ∈ xm, 0 ≤ f → p + f.toNat < N + C)
    (hn : (xm.filter fun f => 0 ≤ f).Nodup)
    (fit : ∀ k < N, Bcast (ov.shape (A + k)) (tv.shape (mapPerm 0 p xm k)))
    (fitd : dO ≠ 0 → dT ≠ 0 → ∀ k < D, Bcast (ov.shape (A + N + k)) (tv.shape (N + C + k)))
    {maskL maskR : List Bool}
    (hmL : maskL = List.replicate (A + N) true ++ List.replicate C false ++ List.replicate dO true ++
      List.replicate (D - dO) false)
    (hmR : maskR = List.replicate A false ++ List.replicate tv.ndim true ++ List.replicate (D - dT) false ∨
      maskR = List.replicate A false ++ List.replicate (N + C) true ++ List.replicate (D - dT) false) :
    ∃ L R M, ov.newAxes maskL = .ok L ∧ (arrSwapaxes 0 p 0 xm tv).newAxes maskR = .ok R ∧
      NDArray.binary (· * ·) L R = .ok M ∧
      (arrSwapaxes A (A + p) 0 xm M).ndim = A + N + C + D ∧
      (∀ j < A, (arrSwapaxes A (A + p) 0 xm M).shape j = ov.shape j) ∧
      (∀ j < N + C, (arrSwapaxes A (A + p) 0 xm M).shape (A + j) =
        if mapPerm 0 p xm j < N then bsize (ov.shape (A + mapPerm 0 p xm j)) (tv.shape j) else tv.shape j) ∧
      ∀ m, (arrSwapaxes A (A + p) 0 xm M).bget m =
        ov.bget (fun j => m (if j < A then j else if j < A + N then A + mapPerm 0 p xm (j - A) else j + C)) *
          tv.bget fun j => m (A + j) := by
  have h0 : ∀ f ∈ xm, 0 ≤ f → 0 ≤ f := fun _ _ h => h
  have inv := swapPerm_swapPerm (q := 0) (p := p) (P := fun f : Int => 0 ≤ f) (fs := xm) (by omega) h0 hn
  obtain ⟨t1, t2, t3⟩ := swapSel_perm (q := 0) (p := p) (P := fun f => 0 ≤ f) xm tv (by omega)
    (fun f hf h => ⟨h, by have := hxm f hf h; omega⟩) hn
  rw [← arrSwapaxes_eq] at t1 t2 t3
  set T := arrSwapaxes 0 p 0 xm tv with hTd
  replace t2 : ∀ j, T.shape j = tv.shape (mapPerm 0 p xm j) := t2
  replace t3 : ∀ idx, T.bget idx = tv.bget fun j => idx (mapPerm 0 p xm j) := t3
  replace inv : ∀ j, mapPerm 0 p xm (mapPerm 0 p xm j) = j := inv
  obtain ⟨L, hL, L1, L2, L3, L4, L5, L6⟩ := maskL_ok ov (A := A + N) (C := C) (d := dO) (D := D) ho (by omega)
  obtain ⟨R, hR, R1, R2, R3, R4, R5⟩ := maskR_ok T (A := A) (B := N + C) (d := dT) (D := D)
    (mask := maskR) (by rw [t1, ht]) hT (by rw [t1]; exact hmR)
  rw [← hmL] at hL
  have hdims : ∀ k < D, Bcast (L.shape (A + N + C + k)) (R.shape (A + (N + C) + k)) := by
    intro k hk
    rcases hO with h | h
    · have := L5 k (by omega)
      rw [h, Nat.add_zero] at this
      exact Or.inr (Or.inl this)
    · rcases hT with h' | h'
      · have := R4 k (by omega)
        rw [h', Nat.add_zero] at this
        exact Or.inr (Or.inr this)
      · rw [L4 k (by omega), show A + (N + C) + k = A + (N + C + k) by omega, R3 _ (by omega), t2,
          mapPerm_ge (B := N + C) hl (by omega) hxm (by omega)]
        exact fitd (by omega) (by omega) k hk
  obtain ⟨M, hM⟩ := binary_isOk (f := (· * ·)) (a := L) (b := R) (by omega) (by
    intro k hk
    by_cases c1 : k < A
    · exact Or.inr (Or.inr (R2 k c1))
    · by_cases c2 : k < A + N
      · obtain ⟨j, rfl⟩ : ∃ j, k = A + j := ⟨k - A, by omega⟩
        rw [L2 _ c2, R3 _ (by omega), t2]
        exact fit j (by omega)
      · by_cases c3 : k < A + N + C
        · have := L3 (k - (A + N)) (by omega)
          rw [show A + N + (k - (A + N)) = k by omega] at this
          exact Or.inr (Or.inl this)
        · have := hdims (k - (A + N + C)) (by omega)
          rwa [show A + N + C + (k - (A + N + C)) = k by omega,
            show A + (N + C) + (k - (A + N + C)) = k by omega] at this)
  obtain ⟨M1, M2, -, M4⟩ := binary_ok hM (by omega)
  obtain ⟨w1, w2, w3⟩ := swapSel_perm (q := A) (p := A + p) (P := fun f => 0 ≤ f) xm M (by omega)
    (fun f hf h => ⟨h, by have := hxm f hf h; omega⟩) hn
  rw [← arrSwapaxes_eq] at w1 w2 w3
  have sh : ∀ j, swapPerm A (A + p) (fun f : Int => 0 ≤ f) xm (A + j) = A + mapPerm 0 p xm j := fun j =>
    swapPerm_shift (q := 0) A j
  have shl : ∀ j < A, swapPerm A (A + p) (fun f : Int => 0 ≤ f) xm j = j := fun j hj =>
    swapPerm_lt (by omega) hj
  refine ⟨L, R, M, hL, hR, hM, by omega, ?_, ?_, ?_⟩
  · intro j hj
    rw [w2, shl j hj, M2, R2 j hj, L2 j (by omega)]
    split_ifs with h
    · exact h.symm
    · rfl
  · intro j hj
    have hlt := mapPerm_lt (p := p) hl (show N ≤ N + C by omega) hxm hj
    rw [w2, sh, M2, R3 _ (by omega), t2, inv]
    by_cases c : mapPerm 0 p xm j < N
    · rw [if_pos c, L2 _ (by omega)]
    · rw [if_neg c]
      have := L3 (mapPerm 0 p xm j - N) (by omega)
      rw [show A + N + (mapPerm 0 p xm j - N) = A + mapPerm 0 p xm j by omega] at this
      rw [this, if_pos rfl]
  · intro m
    rw [w3, M4, L6, R5, t3]
    congr 1
    · apply bget_congr'
      intro j hj
      by_cases c1 : j < A
      · rw [if_pos (by omega), if_pos c1, shl j c1]
      · rw [if_neg c1]
        by_cases c2 : j < A + N
        · rw [if_pos c2, if_pos c2]
          obtain ⟨k, rfl⟩ : ∃ k, j = A + k := ⟨j - A, by omega⟩
          rw [sh, show A + k - A = k by omega]
        · rw [if_neg c2, if_neg c2]
          obtain ⟨k, rfl⟩ : ∃ k, j = A + k := ⟨j - A, by omega⟩
          rw [show A + k + C = A + (k + C) by omega, sh,
            mapPerm_ge (B := N + C) hl (by omega) hxm (by omega)]
    · apply bget_congr'
      intro j hj
      rw [sh, inv]

/-- `a.sum(tuple(A + np.arange(N)))` -/
theorem blockSum_ok (a : NDArray α) {A N : Nat} (h : A + N ≤ a.ndim) :
    (a.sumAxes ((List.range N).map (A + ·))).ndim = a.ndim - N ∧
    (∀ j < A, (a.sumAxes ((List.range N).map (A + ·))).shape j = a.shape j) ∧
    (∀ j, A ≤ j → j < a.ndim - N → (a.sumAxes ((List.range N).map (A + ·))).shape j = a.shape (j + N)) ∧
    ∀ J, (a.sumAxes ((List.range N).map (A + ·))).bget J =
      sumAt (fun k => a.shape (A + k)) (List.range N)
        (fun n => a.bget fun j => if j < A then J j else if j < A + N then n (j - A) else J (j - N)) fun _ => 0 := by
  set axes := (List.range N).map (A + ·) with hax
  have hmem : ∀ j, j ∈ axes ↔ A ≤ j ∧ j < A + N := by
    intro j
    rw [hax, List.mem_map]
    constructor
    · rintro ⟨b, hb, rfl⟩
      have := List.mem_range.1 hb
      omega
    · rintro ⟨h1, h2⟩
      exact ⟨j - A, List.mem_range.2 (by omega), by omega⟩
  have hn : axes.Nodup := List.nodup_range.map fun a b h => by simpa using h
  have hf1 : ∀ j ≤ A, (axes.filter (· < j)).length = 0 := by
    intro j hj
    rw [List.length_eq_zero_iff, List.filter_eq_nil_iff]
    intro b hb
    have := (hmem b).1 hb
    simp; omega
  have hf2 : ∀ j, A + N ≤ j → (axes.filter (· < j)).length = N := by
    intro j hj
    have : axes.filter (· < j) = axes := by
      rw [List.filter_eq_self]
      intro b hb
      have := (hmem b).1 hb
      simp; omega
    rw [this, hax]; simp
  obtain ⟨s1, s2, s3⟩ := sumAxes_ok a hn (fun k hk => by have := (hmem k).1 hk; omega)
  refine ⟨by rw [s1, hax]; simp, ?_, ?_, ?_⟩
  · intro j hj
    have := s2 j (by omega) (fun h => by have := (hmem j).1 h; omega)
    rwa [hf1 j (by omega), Nat.sub_zero] at this
  · intro j h1 h2
    have := s2 (j + N) (by omega) (fun h => by have := (hmem _).1 h; omega)
    rwa [hf2 _ (by omega), Nat.add_sub_cancel] at this
  · intro J
    rw [s3]
    rw [hax]
    apply sumAt_map (g := (A + ·)) (fun a b h => by simpa using h)
    · intro k _; rfl
    · intro m m' m1 m2 m3
      apply bget_congr'
      intro j hj
      by_cases c1 : j < A
      · rw [if_pos c1, m2 j (fun h => by have := (hmem j).1 h; omega), ← hax, hf1 j (by omega), Nat.sub_zero]
      · rw [if_neg c1]
        by_cases c2 : j < A + N
        · rw [if_pos c2]
          have := (m1 (j - A) (List.mem_range.2 (by omega))).1
          rwa [show A + (j - A) = j by omega] at this
        · rw [if_neg c2, m2 j (fun h => by have := (hmem j).1 h; omega), ← hax, hf2 j (by omega)]

theorem composeMappings_ok {m1 m2 : List Int} (h : ∀ f ∈ m2, 0 ≤ f → f.toNat < m1.length) :
    ∃ m, composeMappings m1 m2 = .ok m ∧ m.length = m2.length ∧
      ∀ k < m2.length, m.getD k (-1) = if 0 ≤ m2.getD k (-1) then m1.getD (m2.getD k (-1)).toNat (-1) else -1 := by
  induction m2 with
  | nil => exact ⟨[], rfl, rfl, fun k hk => by simp at hk⟩
  | cons f m2 ih =>
    obtain ⟨m, e1, e2, e3⟩ := ih fun g hg => h g (List.mem_cons_of_mem _ hg)
    have hc : composeMappings m1 (f :: m2) = .ok ((if 0 ≤ f then m1.getD f.toNat (-1) else -1) :: m) := by
      unfold composeMappings at e1 ⊢
      rw [List.mapM_cons, e1]
      by_cases hf : f < 0
      · rw [if_pos hf, if_neg (by omega)]; rfl
      · have hl := h f List.mem_cons_self (by omega)
        rw [if_neg hf, if_pos (by omega), List.getElem?_eq_getElem hl, List.getD_eq_getElem _ _ hl]; rfl
    refine ⟨_, hc, by simp [e2], ?_⟩
    intro k hk
    cases k with
    | zero => rfl
    | succ k => exact e3 k (by simpa using hk)

theorem composeMappings_error {m1 m2 : List Int} (h : ∃ f ∈ m2, 0 ≤ f ∧ m1.length ≤ f.toNat) :
    composeMappings m1 m2 = .error .indexError := by
  induction m2 with
  | nil => obtain ⟨f, hf, -⟩ := h; simp at hf
  | cons f m2 ih =>
    unfold composeMappings at ih ⊢
    rw [List.mapM_cons]
    by_cases hf : f < 0
    · rw [if_pos hf]
      obtain ⟨g, hg, g0, g1⟩ := h
      rcases List.mem_cons.1 hg with rfl | hg
      · omega
      · rw [ih ⟨g, hg, g0, g1⟩]; rfl
    · rw [if_neg hf]
      cases hc : m1[f.toNat]? with
      | none => rfl
      | some v =>
        obtain ⟨g, hg, g0, g1⟩ := h
        rcases List.mem_cons.1 hg with rfl | hg
        · rw [List.getElem?_eq_none g1] at hc; cases hc
        · rw [ih ⟨g, hg, g0, g1⟩]; rfl

end Verif.Tens
