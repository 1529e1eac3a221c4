import Verif.Model.Params
import Verif.Spec.Params

namespace Verif.Params

variable {α β : Type}

/-- Specification of placing: fixed entries from `fx`, free entries from `fr`, in order. -/
def merge : List Bool → List β → List β → List β
  | true :: ms, fr, f :: fx => f :: merge ms fr fx
  | false :: ms, f :: fr, fx => f :: merge ms fr fx
  | _, _, _ => []

@[simp] theorem notMask_cons (b : Bool) (m : List Bool) : notMask (b :: m) = (!b) :: notMask m := rfl
@[simp] theorem notMask_nil : notMask [] = [] := rfl

theorem notMask_count (m : List Bool) : (notMask m).count true = m.count false := by
  induction m with
  | nil => rfl
  | cons b m ih => cases b <;> simp [ih]

theorem sel_length (m : List Bool) (l : List β) (h : l.length = m.length) :
    (sel m l).length = m.count true := by
  induction m generalizing l with
  | nil => cases l <;> simp [sel]
  | cons b m ih =>
    cases l with
    | nil => simp at h
    | cons a l => cases b <;> simp [sel, ih l (by simpa using h)]

theorem merge_length (m : List Bool) (fr fx : List β) (h1 : fr.length = m.count false)
    (h2 : fx.length = m.count true) : (merge m fr fx).length = m.length := by
  induction m generalizing fr fx with
  | nil => simp [merge]
  | cons b m ih =>
    cases b with
    | true =>
      cases fx with
      | nil => simp at h2
      | cons f fx =>
        simp only [merge, List.length_cons]
        rw [ih fr fx (by simpa using h1) (by simpa using h2)]
    | false =>
      cases fr with
      | nil => simp at h1
      | cons f fr =>
        simp only [merge, List.length_cons]
        rw [ih fr fx (by simpa using h1) (by simpa using h2)]

theorem sel_merge_fixed (m : List Bool) (fr fx : List β) (h1 : fr.length = m.count false)
    (h2 : fx.length = m.count true) : sel m (merge m fr fx) = fx := by
  induction m generalizing fr fx with
  | nil => cases fx with
    | nil => simp [sel]
    | cons => simp at h2
  | cons b m ih =>
    cases b with
    | true =>
      cases fx with
      | nil => simp at h2
      | cons f fx => simp [merge, sel, ih fr fx (by simpa using h1) (by simpa using h2)]
    | false =>
      cases fr with
      | nil => simp at h1
      | cons f fr => simp [merge, sel, ih fr fx (by simpa using h1) (by simpa using h2)]

theorem sel_merge_free (m : List Bool) (fr fx : List β) (h1 : fr.length = m.count false)
    (h2 : fx.length = m.count true) : sel (notMask m) (merge m fr fx) = fr := by
  induction m generalizing fr fx with
  | nil => cases fr with
    | nil => simp [merge, sel]
    | cons => simp at h1
  | cons b m ih =>
    cases b with
    | true =>
      cases fx with
      | nil => simp at h2
      | cons f fx => simp [merge, sel, ih fr fx (by simpa using h1) (by simpa using h2)]
    | false =>
      cases fr with
      | nil => simp at h1
      | cons f fr => simp [merge, sel, ih fr fx (by simpa using h1) (by simpa using h2)]

theorem merge_sel (m : List Bool) (l : List β) (h : l.length = m.length) :
    merge m (sel (notMask m) l) (sel m l) = l := by
  induction m generalizing l with
  | nil => cases l with
    | nil => simp [merge]
    | cons => simp at h
  | cons b m ih =>
    cases l with
    | nil => simp at h
    | cons a l => cases b <;> simp [merge, sel, ih l (by simpa using h)]

/-! ### np.insert with the indices of `fix_map` -/

theorem sel_range'_ge (m : List Bool) (s n : Nat) :
    ∀ x ∈ sel m (List.range' s n), s ≤ x := by
  induction m generalizing s n with
  | nil => simp [sel]
  | cons b m ih =>
    cases n with
    | zero => simp [List.range', sel]
    | succ n =>
      intro x hx
      cases b with
      | true =>
        simp only [List.range'_succ, sel, List.mem_cons] at hx
        rcases hx with rfl | hx
        · exact Nat.le_refl _
        · have := ih (s + 1) n x hx; omega
      | false =>
        simp only [List.range'_succ, sel] at hx
        have := ih (s + 1) n x hx; omega

theorem addsub_range' (m : List Bool) (s n k c : Nat) (hk : k ≤ s)
    (hc : c = (sel m (List.range' s n)).length) :
    List.zipWith (· + ·)
      (List.zipWith (· - ·) (sel m (List.range' s n)) (List.range' k c))
      (List.range' k c) = sel m (List.range' s n) := by
  induction m generalizing s n k c with
  | nil => simp [sel]
  | cons b m ih =>
    cases n with
    | zero => simp [List.range', sel]
    | succ n =>
      cases b with
      | true =>
        simp only [List.range'_succ, sel] at hc ⊢
        subst hc
        simp only [List.length_cons, List.range'_succ, List.zipWith_cons_cons]
        rw [ih (s + 1) n (k + 1) _ (by omega) rfl]
        congr 1; omega
      | false =>
        simp only [List.range'_succ, sel] at hc ⊢
        exact ih (s + 1) n k c (by omega) hc

theorem pos_fixMap (m : List Bool) :
    List.zipWith (· + ·) (fixMap m) (List.range (fixMap m).length) = whereTrue m := by
  have hlen : (fixMap m).length = (whereTrue m).length := by simp [fixMap]
  rw [hlen]
  simp only [fixMap, whereTrue, List.range_eq_range']
  exact addsub_range' m 0 m.length 0 _ (Nat.le_refl _) rfl

theorem lookupPos_cons_ne (q : Nat × β) (pairs : List (Nat × β)) (p : Nat) (h : q.1 ≠ p) :
    lookupPos (q :: pairs) p = lookupPos pairs p := by
  unfold lookupPos
  rw [List.find?_cons_of_neg]
  simpa using h

theorem interleave_congr (p1 p2 : List (Nat × β)) (ps : List Nat) (arr : List β)
    (h : ∀ p ∈ ps, lookupPos p1 p = lookupPos p2 p) :
    interleave p1 ps arr = interleave p2 ps arr := by
  induction ps generalizing arr with
  | nil => rfl
  | cons p ps ih =>
    simp only [interleave, h p (by simp)]
    cases lookupPos p2 p with
    | some v => simp only [ih arr (fun q hq => h q (by simp [hq]))]
    | none => cases arr with
      | nil => rfl
      | cons a as => simp only [ih as (fun q hq => h q (by simp [hq]))]

theorem lookupPos_none (pairs : List (Nat × β)) (p : Nat) (h : ∀ q ∈ pairs, q.1 ≠ p) :
    lookupPos pairs p = none := by
  unfold lookupPos
  rw [Option.map_eq_none_iff, List.find?_eq_none]
  intro q hq; simpa using h q hq

theorem interleave_merge (m : List Bool) (s : Nat) (arr vals : List β)
    (h1 : arr.length = m.count false) (h2 : vals.length = m.count true) :
    interleave ((sel m (List.range' s m.length)).zip vals) (List.range' s m.length) arr
      = merge m arr vals := by
  induction m generalizing s arr vals with
  | nil => simp [interleave, merge]
  | cons b m ih =>
    simp only [List.length_cons, List.range'_succ]
    cases b with
    | true =>
      cases vals with
      | nil => simp at h2
      | cons v vals =>
        simp only [sel, List.zip_cons_cons, interleave, merge]
        have : lookupPos ((s, v) :: (sel m (List.range' (s + 1) m.length)).zip vals) s = some v := by
          simp [lookupPos]
        simp only [this]
        congr 1
        rw [← ih (s + 1) arr vals (by simpa using h1) (by simpa using h2)]
        apply interleave_congr
        intro p hp
        apply lookupPos_cons_ne
        have := (List.mem_range'_1.mp hp).1
        simp; omega
    | false =>
      cases arr with
      | nil => simp at h1
      | cons a arr =>
        simp only [sel, interleave, merge]
        have : lookupPos ((sel m (List.range' (s + 1) m.length)).zip vals) s = none := by
          apply lookupPos_none
          intro q hq
          have := sel_range'_ge m (s + 1) m.length q.1 (List.of_mem_zip hq).1
          omega
        simp only [this]
        rw [ih (s + 1) arr vals (by simpa using h1) (by simpa using h2)]

theorem sel_range'_bound (m : List Bool) (s n k c : Nat) (hn : n = m.length)
    (hk : k ≤ s) :
    ∀ x ∈ List.zipWith (· - ·) (sel m (List.range' s n)) (List.range' k c),
      x ≤ (s - k) + m.count false := by
  induction m generalizing s n k c with
  | nil => simp [sel]
  | cons b m ih =>
    subst hn
    simp only [List.length_cons, List.range'_succ]
    cases b with
    | true =>
      cases c with
      | zero => simp
      | succ c =>
        intro x hx
        simp only [sel, List.range'_succ, List.zipWith_cons_cons, List.mem_cons] at hx
        rcases hx with rfl | hx
        · omega
        · have := ih (s + 1) _ (k + 1) c rfl (by omega) x hx
          simp at this ⊢; omega
    | false =>
      intro x hx
      simp only [sel] at hx
      have := ih (s + 1) _ k c rfl (by omega) x hx
      simp at this ⊢; omega

theorem npInsert_fixMap (m : List Bool) (arr vals : List β)
    (h1 : arr.length = m.count false) (h2 : vals.length = m.count true) :
    npInsert arr (fixMap m) vals = .ok (merge m arr vals) := by
  have hwl : (whereTrue m).length = m.count true := by
    unfold whereTrue; rw [sel_length _ _ (by simp)]
  have hlen : (fixMap m).length = m.count true := by simp [fixMap, hwl]
  unfold npInsert
  rw [if_neg, if_neg]
  · simp only [pos_fixMap]
    have ht : arr.length + (fixMap m).length = m.length := by
      rw [h1, hlen]
      clear h1 h2 hwl hlen
      induction m with
      | nil => rfl
      | cons b m ih => cases b <;> simp <;> omega
    rw [ht]
    simp only [whereTrue, List.range_eq_range']
    rw [interleave_merge m 0 arr vals h1 h2]
  · rw [hlen, h2]; simp
  · simp only [List.any_eq_true, not_exists, not_and]
    intro x hx
    have := sel_range'_bound m 0 m.length 0 (whereTrue m).length rfl (Nat.le_refl _) x (by
      simpa only [fixMap, whereTrue, List.range_eq_range'] using hx)
    simp; omega

theorem npInsertScalar_fixMap (m : List Bool) (arr : List β) (v : β)
    (h1 : arr.length = m.count false) :
    npInsertScalar arr (fixMap m) v = .ok (merge m arr (List.replicate (m.count true) v)) := by
  have hwl : (whereTrue m).length = m.count true := by
    unfold whereTrue; rw [sel_length _ _ (by simp)]
  have hlen : (fixMap m).length = m.count true := by simp [fixMap, hwl]
  unfold npInsertScalar
  rw [hlen, npInsert_fixMap m arr _ h1 (by simp)]

theorem merge_getElem? (m : List Bool) (fr fx : List β) (h1 : fr.length = m.count false)
    (h2 : fx.length = m.count true) (j : Nat) :
    (merge m fr fx)[j]? = m[j]?.bind (fun b =>
      if b then fx[(m.take j).count true]? else fr[(m.take j).count false]?) := by
  induction m generalizing fr fx j with
  | nil => simp [merge]
  | cons b m ih =>
    cases b with
    | true =>
      cases fx with
      | nil => simp at h2
      | cons f fx =>
        cases j with
        | zero => simp [merge]
        | succ j => simp [merge, ih fr fx (by simpa using h1) (by simpa using h2) j]
    | false =>
      cases fr with
      | nil => simp at h1
      | cons f fr =>
        cases j with
        | zero => simp [merge]
        | succ j => simp [merge, ih fr fx (by simpa using h1) (by simpa using h2) j]

/-- Closed form of the loop: cut the flat vector and the fill vector and merge. -/
def place : List (Param α) → List α → List α → List (Param α)
  | [], _, _ => []
  | p :: ps, fr, fx =>
    { p with values := merge p.mask (fr.take (p.mask.count false)) (fx.take (p.mask.count true)) }
      :: place ps (fr.drop (p.mask.count false)) (fx.drop (p.mask.count true))

def totalFixed (params : List (Param α)) : Nat :=
  (params.map fun p => p.mask.count true).sum

theorem reshapeArrayFrom_array (flat fills : List α) (s0 f0 : Nat) (params : List (Param α))
    (hwf : ∀ p ∈ params, p.WF) (h1 : s0 + totalFree params ≤ flat.length)
    (h2 : f0 + totalFixed params ≤ fills.length) :
    reshapeArrayFrom flat (.array fills) s0 f0 params
      = .ok (place params (flat.drop s0) (fills.drop f0)) := by
  induction params generalizing s0 f0 with
  | nil => rfl
  | cons p ps ih =>
    have hp := hwf p (by simp)
    simp only [totalFree, totalFixed, List.map_cons, List.sum_cons] at h1 h2
    have hc : p.count = p.mask.count false := notMask_count _
    have hf : p.fixedCount = p.mask.count true := rfl
    have hl1 : (slice flat s0 (s0 + p.count)).length = p.mask.count false := by
      simp [slice, hc]; omega
    have hl2 : (slice fills f0 (f0 + p.fixedCount)).length = p.mask.count true := by
      simp [slice, hf]; omega
    simp only [reshapeArrayFrom, npInsert_fixMap _ _ _ hl1 hl2]
    have hr : reshape (merge p.mask (slice flat s0 (s0 + p.count))
        (slice fills f0 (f0 + p.fixedCount))) p.shape = .ok (merge p.mask
        (slice flat s0 (s0 + p.count)) (slice fills f0 (f0 + p.fixedCount))) := by
      unfold reshape
      rw [merge_length _ _ _ hl1 hl2, if_pos hp.2]
    have := ih (s0 + p.count) (f0 + p.fixedCount) (fun q hq => hwf q (by simp [hq]))
      (by simp only [totalFree, hc]; omega) (by simp only [totalFixed, hf]; omega)
    simp only [bind, Except.bind, hr, this, pure, Except.pure]
    simp only [place, slice, hc, hf, List.drop_drop]
    simp

theorem reshapeArrayFrom_scalar (flat : List α) (v : α) (s0 f0 : Nat) (params : List (Param α))
    (hwf : ∀ p ∈ params, p.WF) (h1 : s0 + totalFree params ≤ flat.length) :
    reshapeArrayFrom flat (.scalar v) s0 f0 params
      = .ok (place params (flat.drop s0) (List.replicate (totalFixed params) v)) := by
  induction params generalizing s0 f0 with
  | nil => rfl
  | cons p ps ih =>
    have hp := hwf p (by simp)
    simp only [totalFree, List.map_cons, List.sum_cons] at h1
    have hc : p.count = p.mask.count false := notMask_count _
    have hl1 : (slice flat s0 (s0 + p.count)).length = p.mask.count false := by
      simp [slice, hc]; omega
    simp only [reshapeArrayFrom, npInsertScalar_fixMap _ _ _ hl1]
    have hr : reshape (merge p.mask (slice flat s0 (s0 + p.count))
        (List.replicate (p.mask.count true) v)) p.shape = .ok (merge p.mask
        (slice flat s0 (s0 + p.count)) (List.replicate (p.mask.count true) v)) := by
      unfold reshape
      rw [merge_length _ _ _ hl1 (by simp), if_pos hp.2]
    have := ih (s0 + p.count) (f0 + p.fixedCount) (fun q hq => hwf q (by simp [hq]))
      (by simp only [totalFree, hc]; omega)
    simp only [bind, Except.bind, hr, this, pure, Except.pure]
    simp only [place, slice, hc, List.drop_drop, totalFixed, List.map_cons, List.sum_cons]
    simp

theorem place_layout (params : List (Param α)) (fr fx : List α) :
    SameLayout (place params fr fx) params := by
  unfold SameLayout
  induction params generalizing fr fx with
  | nil => rfl
  | cons p ps ih => simp [place, ih]

theorem place_wf (params : List (Param α)) (fr fx : List α) (hwf : ∀ p ∈ params, p.WF)
    (h1 : totalFree params ≤ fr.length) (h2 : totalFixed params ≤ fx.length) :
    ∀ p ∈ place params fr fx, p.WF := by
  induction params generalizing fr fx with
  | nil => simp [place]
  | cons p ps ih =>
    simp only [totalFree, totalFixed, List.map_cons, List.sum_cons] at h1 h2
    intro q hq
    simp only [place, List.mem_cons] at hq
    rcases hq with rfl | hq
    · have hp := hwf p (by simp)
      constructor
      · simp only
        rw [merge_length, hp.2]
        · simp; omega
        · simp; omega
      · exact hp.2
    · exact ih _ _ (fun q hq => hwf q (by simp [hq]))
        (by simp only [totalFree, List.length_drop]; omega)
        (by simp only [totalFixed, List.length_drop]; omega) q hq

/-- Free entries of placed parameters are the flat vector. -/
theorem place_free (params : List (Param α)) (fr fx : List α)
    (h1 : fr.length = totalFree params) (h2 : fx.length = totalFixed params) :
    ((place params fr fx).map Param.compressed).flatten = fr := by
  induction params generalizing fr fx with
  | nil => simp [place, totalFree] at h1 ⊢; exact h1
  | cons p ps ih =>
    simp only [totalFree, totalFixed, List.map_cons, List.sum_cons] at h1 h2
    simp only [place, List.map_cons, List.flatten_cons]
    rw [ih _ _ (by simp only [totalFree, List.length_drop]; omega)
      (by simp only [totalFixed, List.length_drop]; omega)]
    simp only [Param.compressed]
    rw [sel_merge_free _ _ _ (by simp; omega) (by simp; omega), List.take_append_drop]

theorem place_fixed (params : List (Param α)) (fr fx : List α)
    (h1 : fr.length = totalFree params) (h2 : fx.length = totalFixed params) :
    ((place params fr fx).map (fun p => sel p.mask p.values)).flatten = fx := by
  induction params generalizing fr fx with
  | nil => simp [place, totalFixed] at h2 ⊢; exact h2
  | cons p ps ih =>
    simp only [totalFree, totalFixed, List.map_cons, List.sum_cons] at h1 h2
    simp only [place, List.map_cons, List.flatten_cons]
    rw [ih _ _ (by simp only [totalFree, List.length_drop]; omega)
      (by simp only [totalFixed, List.length_drop]; omega)]
    rw [sel_merge_fixed _ _ _ (by simp; omega) (by simp; omega), List.take_append_drop]

theorem WF.compressed_length {p : Param α} (hp : p.WF) :
    p.compressed.length = p.mask.count false := by
  unfold Param.compressed
  rw [sel_length _ _ (by simp [notMask, hp.1, hp.2]), notMask_count]

theorem WF.fixed_length {p : Param α} (hp : p.WF) :
    (sel p.mask p.values).length = p.mask.count true := by
  rw [sel_length _ _ (by rw [hp.1, hp.2])]

theorem flatten_length (params : List (Param α)) (hwf : ∀ p ∈ params, p.WF) :
    (params.map Param.compressed).flatten.length = totalFree params := by
  induction params with
  | nil => rfl
  | cons p ps ih =>
    simp only [List.map_cons, List.flatten_cons, List.length_append, totalFree, List.sum_cons]
    rw [ih (fun q hq => hwf q (by simp [hq])), WF.compressed_length (hwf p (by simp))]
    rfl

theorem fixed_length (params : List (Param α)) (hwf : ∀ p ∈ params, p.WF) :
    (params.map (fun p => sel p.mask p.values)).flatten.length = totalFixed params := by
  induction params with
  | nil => rfl
  | cons p ps ih =>
    simp only [List.map_cons, List.flatten_cons, List.length_append, totalFixed, List.sum_cons]
    rw [ih (fun q hq => hwf q (by simp [hq])), WF.fixed_length (hwf p (by simp))]
    rfl

theorem place_self (params : List (Param α)) (hwf : ∀ p ∈ params, p.WF) :
    place params (params.map Param.compressed).flatten
      (params.map (fun p => sel p.mask p.values)).flatten = params := by
  induction params with
  | nil => rfl
  | cons p ps ih =>
    have hp := hwf p (by simp)
    have h1 := WF.compressed_length hp
    have h2 := WF.fixed_length hp
    simp only [List.map_cons, List.flatten_cons, place]
    rw [List.take_append_of_le_length (by omega), List.take_append_of_le_length (by omega),
      List.take_of_length_le (by omega), List.take_of_length_le (by omega),
      List.drop_append_of_le_length (by omega), List.drop_append_of_le_length (by omega),
      List.drop_of_length_le (by omega), List.drop_of_length_le (by omega)]
    simp only [List.nil_append]
    rw [ih (fun q hq => hwf q (by simp [hq]))]
    congr 1
    simp only [Param.compressed]
    rw [merge_sel _ _ (by rw [hp.1, hp.2])]

/-- Entry-level description of placed parameters. -/
theorem place_entry_free (params : List (Param α)) (fr fx : List α)
    (h1 : totalFree params ≤ fr.length) (h2 : totalFixed params ≤ fx.length)
    (i j : Nat) (h : isFree params i j) :
    entry (place params fr fx) i j = fr[freeRank params i j]? := by
  obtain ⟨p, hp, hj⟩ := h
  induction params generalizing fr fx i with
  | nil => simp at hp
  | cons q ps ih =>
    simp only [totalFree, totalFixed, List.map_cons, List.sum_cons] at h1 h2
    cases i with
    | zero =>
      simp only [List.getElem?_cons_zero, Option.some.injEq] at hp
      subst hp
      simp only [entry, place, List.getElem?_cons_zero, Option.bind_some, freeRank, List.take_zero,
        totalFree, List.map_nil, List.sum_nil, Option.map_some, Option.getD_some, Nat.zero_add]
      rw [merge_getElem? _ _ _ (by simp; omega) (by simp; omega), hj]
      simp only [Option.bind_some, Bool.false_eq_true, if_false]
      rw [List.getElem?_take, if_pos]
      have hlt : j < q.mask.length := (List.getElem?_eq_some_iff.mp hj).1
      have hj' : q.mask[j] = false := (List.getElem?_eq_some_iff.mp hj).2
      conv => rhs; rw [← List.take_append_drop j q.mask]
      rw [List.count_append, List.drop_eq_getElem_cons hlt, hj']
      simp
    | succ i =>
      simp only [List.getElem?_cons_succ] at hp
      have := ih (fr.drop (q.mask.count false)) (fx.drop (q.mask.count true))
        (by simp only [totalFree, List.length_drop]; omega)
        (by simp only [totalFixed, List.length_drop]; omega) i hp
      simp only [entry, place, List.getElem?_cons_succ] at this ⊢
      rw [this, List.getElem?_drop]
      simp [freeRank, totalFree, hp, Nat.add_assoc]

theorem place_entry_fixed_const (params : List (Param α)) (fr : List α) (v : α)
    (h1 : totalFree params ≤ fr.length)
    (i j : Nat) (h : isFixed params i j) :
    entry (place params fr (List.replicate (totalFixed params) v)) i j = some v := by
  obtain ⟨p, hp, hj⟩ := h
  induction params generalizing fr i with
  | nil => simp at hp
  | cons q ps ih =>
    simp only [totalFree, List.map_cons, List.sum_cons] at h1
    cases i with
    | zero =>
      simp only [List.getElem?_cons_zero, Option.some.injEq] at hp
      subst hp
      simp only [entry, place, List.getElem?_cons_zero, Option.bind_some, totalFixed,
        List.map_cons, List.sum_cons]
      rw [merge_getElem? _ _ _ (by simp; omega) (by simp), hj]
      have hlt : j < q.mask.length := (List.getElem?_eq_some_iff.mp hj).1
      have hj' : q.mask[j] = true := (List.getElem?_eq_some_iff.mp hj).2
      have : (q.mask.take j).count true < q.mask.count true := by
        conv => rhs; rw [← List.take_append_drop j q.mask]
        rw [List.count_append, List.drop_eq_getElem_cons hlt, hj']
        simp
      simp only [Option.bind_some, if_true]
      rw [List.getElem?_take, if_pos this, List.getElem?_replicate, if_pos (by omega)]
    | succ i =>
      simp only [List.getElem?_cons_succ] at hp
      have := ih (fr.drop (q.mask.count false))
        (by simp only [totalFree, List.length_drop]; omega) i hp
      simp only [entry, place, List.getElem?_cons_succ, totalFixed, List.map_cons,
        List.sum_cons] at this ⊢
      rw [← this]
      congr 2
      simp

theorem place_entry_fixed_self (params : List (Param α)) (fr : List α)
    (hwf : ∀ p ∈ params, p.WF) (h1 : totalFree params ≤ fr.length)
    (i j : Nat) (h : isFixed params i j) :
    entry (place params fr (params.map (fun p => sel p.mask p.values)).flatten) i j
      = entry params i j := by
  obtain ⟨p, hp, hj⟩ := h
  induction params generalizing fr i with
  | nil => simp at hp
  | cons q ps ih =>
    have hq := hwf q (by simp)
    have hfl := WF.fixed_length hq
    simp only [totalFree, List.map_cons, List.sum_cons] at h1
    cases i with
    | zero =>
      simp only [List.getElem?_cons_zero, Option.some.injEq] at hp
      subst hp
      simp only [entry, place, List.getElem?_cons_zero, Option.bind_some,
        List.map_cons, List.flatten_cons]
      rw [List.take_append_of_le_length (by omega),
        List.take_of_length_le (l := sel q.mask q.values) (by omega)]
      have e1 := merge_getElem? q.mask (sel (notMask q.mask) q.values) (sel q.mask q.values)
        (WF.compressed_length hq) hfl j
      rw [merge_sel _ _ (by rw [hq.1, hq.2]), hj] at e1
      rw [merge_getElem? _ _ _ (by simp; omega) hfl, hj, e1]
      rfl
    | succ i =>
      simp only [List.getElem?_cons_succ] at hp
      have := ih (fr.drop (q.mask.count false)) (fun q hq => hwf q (by simp [hq]))
        (by simp only [totalFree, List.length_drop]; omega) i hp
      simp only [entry, place, List.getElem?_cons_succ, List.map_cons,
        List.flatten_cons] at this ⊢
      rw [List.drop_append_of_le_length (by omega),
        List.drop_of_length_le (l := sel q.mask q.values) (by omega), List.nil_append, this]

theorem interleave_length_le (pairs : List (Nat × β)) (ps : List Nat) (arr : List β) :
    (interleave pairs ps arr).length ≤ ps.length := by
  induction ps generalizing arr with
  | nil => simp [interleave]
  | cons p ps ih =>
    simp only [interleave]
    cases lookupPos pairs p with
    | some v => simpa using ih arr
    | none => cases arr with
      | nil => simp
      | cons a as => simpa using ih as

theorem npInsert_length_le {arr : List β} {idx : List Nat} {vals out : List β}
    (h : npInsert arr idx vals = .ok out) : out.length ≤ arr.length + idx.length := by
  unfold npInsert at h
  split at h
  · cases h
  · split at h
    · cases h
    · cases h
      have := interleave_length_le ((List.zipWith (· + ·) idx (List.range idx.length)).zip vals)
        (List.range (arr.length + idx.length)) arr
      simpa using this

theorem fixMap_length (m : List Bool) : (fixMap m).length = m.count true := by
  have hwl : (whereTrue m).length = m.count true := by
    unfold whereTrue; rw [sel_length _ _ (by simp)]
  simp [fixMap, hwl]

theorem count_add (m : List Bool) : m.count false + m.count true = m.length := by
  induction m with
  | nil => rfl
  | cons b m ih => cases b <;> simp <;> omega

theorem reshapeArrayFrom_ok_length (flat : List α) (val : Fill α) (s0 f0 : Nat)
    (params rs : List (Param α)) (hwf : ∀ p ∈ params, p.WF) (hs : s0 ≤ flat.length)
    (h : reshapeArrayFrom flat val s0 f0 params = .ok rs) :
    s0 + totalFree params ≤ flat.length := by
  induction params generalizing s0 f0 rs with
  | nil => simpa [totalFree] using hs
  | cons p ps ih =>
    have hp := hwf p (by simp)
    have hc : p.count = p.mask.count false := notMask_count _
    have hca := count_add p.mask
    have hfl := fixMap_length p.mask
    have key : ∀ data : List α, data.length ≤ (slice flat s0 (s0 + p.count)).length +
        (fixMap p.mask).length → (∃ r, reshape data p.shape = .ok r) →
        s0 + p.count ≤ flat.length := by
      intro data hd ⟨r, hr⟩
      unfold reshape at hr
      split at hr
      · rename_i hl
        have hp2 := hp.2
        simp only [slice, List.length_take, List.length_drop] at hd
        omega
      · cases hr
    simp only [reshapeArrayFrom, bind, Except.bind] at h
    have hstep : s0 + p.count ≤ flat.length ∧
        ∃ r, reshapeArrayFrom flat val (s0 + p.count) (f0 + p.fixedCount) ps = .ok r := by
      cases val with
      | scalar v =>
        simp only at h
        split at h
        · cases h
        · rename_i data hdata
          split at h
          · cases h
          · rename_i data' hdata'
            split at h
            · cases h
            · rename_i rest hrest
              exact ⟨key data (npInsert_length_le hdata) ⟨_, hdata'⟩, _, hrest⟩
      | array vs =>
        simp only at h
        split at h
        · cases h
        · rename_i data hdata
          split at h
          · cases h
          · rename_i data' hdata'
            split at h
            · cases h
            · rename_i rest hrest
              exact ⟨key data (npInsert_length_le hdata) ⟨_, hdata'⟩, _, hrest⟩
    obtain ⟨h1, r, hr⟩ := hstep
    have := ih (s0 + p.count) (f0 + p.fixedCount) r (fun q hq => hwf q (by simp [hq])) h1 hr
    simp only [totalFree, List.map_cons, List.sum_cons] at this ⊢
    omega

/-! ### Blocks of matrices -/

theorem mapM_ok_of {γ δ : Type} (l : List γ) (f : γ → Except Err δ) (g : γ → δ)
    (h : ∀ x ∈ l, f x = .ok (g x)) : l.mapM f = .ok (l.map g) := by
  induction l with
  | nil => rfl
  | cons a l ih =>
    rw [List.mapM_cons, h a (by simp), ih (fun x hx => h x (by simp [hx]))]
    rfl

theorem offsets_getD (params : List (Param α)) (s i : Nat) (hi : i ≤ params.length) :
    (offsets s params).getD i 0 = s + totalFree (params.take i) := by
  induction params generalizing s i with
  | nil =>
    have : i = 0 := by simpa using hi
    subst this; simp [offsets, totalFree]
  | cons p ps ih =>
    cases i with
    | zero => simp [offsets, totalFree]
    | succ i =>
      have := ih (s + p.count) i (by simpa using hi)
      have hc : p.count = p.mask.count false := notMask_count _
      rw [offsets, List.getD_cons_succ, this]
      simp only [List.take_succ_cons, totalFree, List.map_cons, List.sum_cons, hc]
      omega

theorem merge_map {γ : Type} (f : β → γ) (m : List Bool) (fr fx : List β) :
    (merge m fr fx).map f = merge m (fr.map f) (fx.map f) := by
  induction m generalizing fr fx with
  | nil => simp [merge]
  | cons b m ih =>
    cases b with
    | true => cases fx with
      | nil => simp [merge]
      | cons x fx => simp [merge, ih]
    | false => cases fr with
      | nil => simp [merge]
      | cons x fr => simp [merge, ih]

theorem mem_merge {m : List Bool} {fr fx : List β} {x : β} (h : x ∈ merge m fr fx) :
    x ∈ fr ∨ x ∈ fx := by
  induction m generalizing fr fx with
  | nil => simp [merge] at h
  | cons b m ih =>
    cases b with
    | true => cases fx with
      | nil => simp [merge] at h
      | cons y fx =>
        simp only [merge, List.mem_cons] at h ⊢
        rcases h with h | h
        · exact .inr (.inl h)
        · rcases ih h with h | h
          · exact .inl h
          · exact .inr (.inr h)
    | false => cases fr with
      | nil => simp [merge] at h
      | cons y fr =>
        simp only [merge, List.mem_cons] at h ⊢
        rcases h with h | h
        · exact .inl (.inl h)
        · rcases ih h with h | h
          · exact .inl (.inr h)
          · exact .inr h

theorem reshapeBlock_ok (matrix : List (List α)) (si sj : Nat) (mi mj : List Bool) (val : α)
    (N : Nat) (hN : matrix.length = N) (hsq : ∀ r ∈ matrix, r.length = N)
    (hi : si + mi.count false ≤ N) (hj : sj + mj.count false ≤ N) :
    ∃ b, reshapeBlock matrix si (si + mi.count false) sj (sj + mj.count false) mi mj val = .ok b ∧
      b.length = mi.length ∧ (∀ r ∈ b, r.length = mj.length) ∧
      ∀ x y : Nat, (b[x]?.bind (·[y]?)) =
        (mi[x]?).bind fun bi => (mj[y]?).bind fun bj =>
          if bi = false ∧ bj = false then
            matrix[si + (mi.take x).count false]?.bind
              (·[sj + (mj.take y).count false]?)
          else some val := by
  have hbl : ((slice matrix si (si + mi.count false)).map
      (fun row => slice row sj (sj + mj.count false))).length = mi.count false := by
    simp only [slice, List.length_map, List.length_take, List.length_drop]; omega
  have hrl : ∀ r ∈ (slice matrix si (si + mi.count false)).map
      (fun row => slice row sj (sj + mj.count false)), r.length = mj.count false := by
    intro r hr
    simp only [List.mem_map] at hr
    obtain ⟨row, hrow, rfl⟩ := hr
    have : row ∈ matrix := List.mem_of_mem_drop (List.mem_of_mem_take hrow)
    have := hsq row this
    simp only [slice, List.length_take, List.length_drop]; omega
  have hfill : sj + mj.count false - sj = mj.count false := by omega
  unfold reshapeBlock
  simp only [npInsertScalar_fixMap _ _ _ hbl, bind, Except.bind, hfill]
  have hrows : ∀ r ∈ merge mi ((slice matrix si (si + mi.count false)).map
      (fun row => slice row sj (sj + mj.count false)))
      (List.replicate (mi.count true) (List.replicate (mj.count false) val)),
      r.length = mj.count false := by
    intro r hr
    rcases mem_merge hr with hr | hr
    · exact hrl r hr
    · rw [List.eq_of_mem_replicate hr]; simp
  rw [mapM_ok_of _ _ (fun row => merge mj row (List.replicate (mj.count true) val))
    (fun r hr => npInsertScalar_fixMap mj r val (hrows r hr))]
  have hlen : (merge mi ((slice matrix si (si + mi.count false)).map
      (fun row => slice row sj (sj + mj.count false)))
      (List.replicate (mi.count true) (List.replicate (mj.count false) val))).length
      = mi.length := merge_length _ _ _ hbl (by simp)
  have hlen2 : ∀ r ∈ (merge mi ((slice matrix si (si + mi.count false)).map
      (fun row => slice row sj (sj + mj.count false)))
      (List.replicate (mi.count true) (List.replicate (mj.count false) val))).map
        (fun row => merge mj row (List.replicate (mj.count true) val)), r.length = mj.length := by
    intro r hr
    simp only [List.mem_map] at hr
    obtain ⟨row, hrow, rfl⟩ := hr
    exact merge_length _ _ _ (hrows row hrow) (by simp)
  refine ⟨_, ?_, ?_, hlen2, ?_⟩
  · simp only []
    rw [if_pos]
    · rfl
    · refine ⟨by rw [List.length_map, hlen], ?_⟩
      rw [List.all_eq_true]
      intro r hr
      simpa using hlen2 r hr
  · rw [List.length_map, hlen]
  · intro x y
    rw [List.getElem?_map, merge_getElem? _ _ _ hbl (by simp)]
    cases hx : mi[x]? with
    | none => simp
    | some bi =>
      have hxl : x < mi.length := (List.getElem?_eq_some_iff.mp hx).1
      have hxb : mi[x] = bi := (List.getElem?_eq_some_iff.mp hx).2
      simp only [Option.bind_some]
      cases bi with
      | true =>
        have : (mi.take x).count true < mi.count true := by
          conv => rhs; rw [← List.take_append_drop x mi]
          rw [List.count_append, List.drop_eq_getElem_cons hxl, hxb]; simp
        simp only [if_true]
        rw [List.getElem?_replicate, if_pos this]
        simp only [Option.map_some, Option.bind_some]
        rw [merge_getElem? _ _ _ (by simp) (by simp)]
        cases hy : mj[y]? with
        | none => simp
        | some bj =>
          have hyl : y < mj.length := (List.getElem?_eq_some_iff.mp hy).1
          have hyb : mj[y] = bj := (List.getElem?_eq_some_iff.mp hy).2
          simp only [Option.bind_some]
          cases bj with
          | true =>
            have : (mj.take y).count true < mj.count true := by
              conv => rhs; rw [← List.take_append_drop y mj]
              rw [List.count_append, List.drop_eq_getElem_cons hyl, hyb]; simp
            simp [this]
          | false =>
            have : (mj.take y).count false < mj.count false := by
              conv => rhs; rw [← List.take_append_drop y mj]
              rw [List.count_append, List.drop_eq_getElem_cons hyl, hyb]; simp
            simp [this]
      | false =>
        have hxc : (mi.take x).count false < mi.count false := by
          conv => rhs; rw [← List.take_append_drop x mi]
          rw [List.count_append, List.drop_eq_getElem_cons hxl, hxb]; simp
        simp only [Bool.false_eq_true, if_false, true_and]
        have hin : si + (mi.take x).count false < matrix.length := by omega
        rw [List.getElem?_map]
        simp only [slice]
        rw [List.getElem?_take, if_pos (by omega), List.getElem?_drop,
          List.getElem?_eq_getElem hin]
        simp only [Option.map_some, Option.bind_some]
        have hrl' := hsq _ (List.getElem_mem hin)
        rw [merge_getElem? _ _ _ (by
          simp only [List.length_take, List.length_drop]; omega) (by simp)]
        cases hy : mj[y]? with
        | none => simp
        | some bj =>
          have hyl : y < mj.length := (List.getElem?_eq_some_iff.mp hy).1
          have hyb : mj[y] = bj := (List.getElem?_eq_some_iff.mp hy).2
          simp only [Option.bind_some]
          cases bj with
          | true =>
            have : (mj.take y).count true < mj.count true := by
              conv => rhs; rw [← List.take_append_drop y mj]
              rw [List.count_append, List.drop_eq_getElem_cons hyl, hyb]; simp
            simp [this]
          | false =>
            have : (mj.take y).count false < mj.count false := by
              conv => rhs; rw [← List.take_append_drop y mj]
              rw [List.count_append, List.drop_eq_getElem_cons hyl, hyb]; simp
            simp only [Bool.false_eq_true, if_false, if_true]
            rw [List.getElem?_take, if_pos (by omega), List.getElem?_drop]

end Verif.Params
