import Verif.Lemmas.Wall
import Verif.Lemmas.ActsLeaf
import Verif.Model.CollapseTensor

/-!
# The Tensors returned by `CollapseMatrix`
-/

set_option linter.unusedSectionVars false

namespace Verif.Tens
open Verif.Params (Err)
open Verif.Markov (Cond collapseInit)
open NDArray

section
variable {α : Type} [Field α] [DecidableEq α]

/-- The weight of the result `i : j` in the sum for the outcome `s n` -/
def resultWeight (n : Nat) (i j : Nat) (s : Nat → Nat) : α := if matchResult i j = s n then 1 else 0

theorem holds0 (i j : Nat) : (⟨1, -1, 0, 1⟩ : Cond).holds i j = true ↔ matchResult i j = 0 := by
  unfold Cond.holds matchResult
  rw [beq_iff_eq]
  simp only [Int.sign_eq_one_iff_pos]
  split_ifs <;> simp <;> omega

theorem holds1 (i j : Nat) : (⟨1, -1, 0, 0⟩ : Cond).holds i j = true ↔ matchResult i j = 1 := by
  unfold Cond.holds matchResult
  rw [beq_iff_eq]
  simp only [Int.sign_eq_zero_iff_zero]
  split_ifs <;> simp <;> omega

theorem holds2 (i j : Nat) : (⟨1, -1, 0, -1⟩ : Cond).holds i j = true ↔ matchResult i j = 2 := by
  unfold Cond.holds matchResult
  rw [beq_iff_eq]
  simp only [Int.sign_eq_neg_one_iff_neg]
  split_ifs <;> simp <;> omega

variable {S S' : Nat → Nat} {n d : Nat} {v : NDArray α}

theorem mask_sum_get (hv : v.ndim = n + 2) (q : Cond) (s : Nat → Nat) :
    ((maskLast v q).sumAxes [v.ndim - 2, v.ndim - 1]).get s =
      ∑ i ∈ Finset.range (v.shape n), ∑ j ∈ Finset.range (v.shape (n + 1)), v.get (putAt n s i j) * if q.holds i j then 1 else 0 := by
  have e1 : v.ndim - 2 = n := by omega
  have e2 : v.ndim - 1 = n + 1 := by omega
  unfold sumAxes
  rw [mk_get, e1, e2]
  show (∑ i ∈ Finset.range (v.shape n), ∑ j ∈ Finset.range (v.shape (n + 1)), (maskLast v q).get _) = _
  refine Finset.sum_congr rfl fun i _ => Finset.sum_congr rfl fun j _ => ?_
  unfold maskLast
  rw [mk_get]
  have h1 : ∀ k < n + 2, (if k < n + 2 then (if k ∈ [n, n + 1] then [i, j].getD ([n, n + 1].idxOf k) 0 else
      if k - ([n, n + 1].filter (· < k)).length < n + 2 - [n, n + 1].length then s (k - ([n, n + 1].filter (· < k)).length) else 0) else 0) = putAt n s i j k := by
    intro k hk
    rw [if_pos hk]
    unfold putAt
    by_cases c : k < n
    · have : ([n, n + 1].filter (· < k)).length = 0 := by
        rw [List.length_eq_zero_iff, List.filter_eq_nil_iff]
        intro x hx
        simp at hx ⊢
        omega
      rw [if_neg (by simp; omega), this, Nat.sub_zero, if_pos (by simp; exact c), if_pos c]
    · rw [if_neg c]
      by_cases c2 : k = n
      · subst c2; simp
      · have : k = n + 1 := by omega
        subst this
        simp [List.idxOf_cons]
  have hnd : (maskLast v q).ndim = n + 2 := hv
  rw [e1, e2, hv]
  congr 1
  · refine get_congr v fun k hk => ?_
    rw [hv] at hk
    exact h1 k hk
  · have a1 := h1 n (by omega)
    have a2 := h1 (n + 1) (by omega)
    have b1 : putAt n s i j n = i := by unfold putAt; simp
    have b2 : putAt n s i j (n + 1) = j := by unfold putAt; simp
    rw [b1] at a1
    rw [b2] at a2
    simp only [a1, a2]

theorem conditionsOf_none : conditionsOf none = .ok [⟨1, -1, 0, 1⟩, ⟨1, -1, 0, 0⟩, ⟨1, -1, 0, -1⟩] := rfl

theorem pick_one {β : Type} (x : β) : pick [x] 0 = .ok x := rfl

theorem stack3 {a b c : NDArray α} {n : Nat} (ha : a.ndim = n) (hb : b.ndim = n) (hc : c.ndim = n) :
    ∃ r, stackLast [a, b, c] = .ok r ∧ r.ndim = n + 1 ∧ (∀ k < n, r.shape k = a.shape k) ∧ r.shape n = 3 ∧
      ∀ s, s n < 3 → r.get s = ([a, b, c].getD (s n) a).get s := by
  subst ha
  refine ⟨_, rfl, rfl, fun k hk => if_pos hk, if_neg (by omega), fun s hs => ?_⟩
  rw [mk_get]
  dsimp only
  rw [if_pos (by omega)]
  refine get_congr _ fun k hk => if_pos ?_
  have : ∀ x ∈ [a, b, c], x.ndim = a.ndim := by
    intro x hx
    simp at hx
    rcases hx with rfl | rfl | rfl
    · rfl
    · exact hb
    · exact hc
  rw [List.getD_eq_getElem _ _ (by simpa using hs), this _ (List.getElem_mem _)] at hk
  omega

/-- The values -/
theorem collapse_call (hv : v.ndim = n + 2) (hs : ∀ j < n + 2, v.shape j = S j) (hS : ∀ k < n, S' k = S k) (hT : S' n = 3) :
    ∃ t, collapseCallT none [⟨v, 0, 0, d, [], []⟩] = .ok (.arr (.tensor t)) ∧ Sheet S' 0 0 (n + 1) 1 [] [] t
      fun s => ∑ i ∈ Finset.range (S n), ∑ j ∈ Finset.range (S (n + 1)), v.get (putAt n s i j) * resultWeight n i j s := by
  have hnd : ∀ q, ((maskLast v q).sumAxes [v.ndim - 2, v.ndim - 1]).ndim = n := by
    intro q
    show v.ndim - 2 = n
    omega
  have hsh : ∀ q, ∀ k < n, ((maskLast v q).sumAxes [v.ndim - 2, v.ndim - 1]).shape k = S k := by
    intro q k hk
    have := (blockSum_ok (maskLast v q) (A := n) (N := 2) (by show n + 2 ≤ v.ndim; omega)).2.1 k hk
    have e : (List.range 2).map (n + ·) = [v.ndim - 2, v.ndim - 1] := by
      show [n + 0, n + 1] = _
      rw [show v.ndim - 2 = n + 0 by omega, show v.ndim - 1 = n + 1 by omega]
    rw [e] at this
    rw [this]
    exact hs k (by omega)
  obtain ⟨r, r1, r2, r3, r4, r5⟩ := stack3 (hnd ⟨1, -1, 0, 1⟩) (hnd ⟨1, -1, 0, 0⟩) (hnd ⟨1, -1, 0, -1⟩)
  obtain ⟨t, t1, t2⟩ := sheet_value (d := 1) (len := n + 1) (R := S') (W := r) r2 (fun j hj => by
      by_cases c : j < n
      · rw [r3 j c, hsh _ j c, hS j c]
      · rw [show j = n by omega, r4, hT]) (by omega)
  refine ⟨t, ?_, t2.congr fun s hb _ => ?_⟩
  · unfold collapseCallT twoAxes
    rw [pick_one, ok_bind', if_neg (by show ¬ v.ndim < 2; omega), ok_bind', conditionsOf_none, ok_bind']
    show (stackLast [_, _, _] >>= _) = _
    rw [r1, ok_bind']
    unfold ofArray
    rw [t1]; rfl
  · have hb := hb n (by omega)
    rw [hT] at hb
    rw [r5 s hb]
    obtain c | c | c : s n = 0 ∨ s n = 1 ∨ s n = 2 := by omega
    all_goals
      rw [c]
      simp only [List.getD_cons_zero, List.getD_cons_succ]
      rw [mask_sum_get hv, hs n (by omega), hs (n + 1) (by omega)]
      refine Finset.sum_congr rfl fun i _ => Finset.sum_congr rfl fun j _ => ?_
      unfold resultWeight
      rw [c]
      simp only [holds0, holds1, holds2]

theorem mask_one_get (hv : v.ndim = n + 2) (q : Cond) (s : Nat → Nat) :
    (maskLast (v.map fun _ => (1 : α)) q).get s = if q.holds (s n) (s (n + 1)) then 1 else 0 := by
  unfold maskLast
  rw [mk_get, map_get, one_mul, map_ndim, hv, show n + 2 - 2 = n by omega, show n + 2 - 1 = n + 1 by omega]
  dsimp only
  simp only [show n < n + 2 by omega, show n + 1 < n + 2 by omega, if_true]

theorem rot_of_le {S : Nat → Nat} {n : Nat} (h : n ≤ 2) : ∀ k < n, S ((k + 2) % n) = S k := by
  intro k hk
  obtain rfl | rfl : n = 1 ∨ n = 2 := by omega
  · rw [show k = 0 by omega]
  · rw [Nat.add_mod_right, Nat.mod_eq_of_lt hk]

/-- The gradient, if moving the feature axes by two places does not change their sizes -/
theorem collapse_grad (h0 : 0 < n) (h2 : ∀ k < n, S ((k + 2) % n) = S k) (hv : v.ndim = n + 2) (hs : ∀ j < n + 2, v.shape j = S j) (hS : ∀ k < n, S' k = S k) (hT : S' n = 3) :
    ∃ t, collapseGradT none [⟨v, 0, 0, d, [], []⟩] = .ok (.arr (.tensor t)) ∧ Wall S S' n 1 t (resultWeight n) := by
  have hnd : ∀ q, (maskLast (v.map fun _ => (1 : α)) q).ndim = n + 2 := fun q => hv
  have hsh : ∀ q, ∀ k < n + 2, (maskLast (v.map fun _ => (1 : α)) q).shape k = S k := fun q k hk => hs k hk
  obtain ⟨r, r1, r2, r3, r4, r5⟩ := stack3 (hnd ⟨1, -1, 0, 1⟩) (hnd ⟨1, -1, 0, 0⟩) (hnd ⟨1, -1, 0, -1⟩)
  have r6 : ∀ s, s (n + 2) < 3 → r.get s = resultWeight n (s n) (s (n + 1)) fun _ => s (n + 2) := by
    intro s hb
    rw [r5 s hb]
    obtain c | c | c : s (n + 2) = 0 ∨ s (n + 2) = 1 ∨ s (n + 2) = 2 := by omega
    all_goals
      rw [c]
      simp only [List.getD_cons_zero, List.getD_cons_succ]
      rw [mask_one_get hv]
      unfold resultWeight
      simp only [holds0, holds1, holds2]
  -- the axes after the two exchanges
  have w2 : ((r.swapaxes 0 n).swapaxes 1 (n + 1)).ndim = n + 3 := r2
  have w3 : (∀ k < 2, ((r.swapaxes 0 n).swapaxes 1 (n + 1)).shape k = S (n + k)) ∧ (∀ k < n, ((r.swapaxes 0 n).swapaxes 1 (n + 1)).shape (2 + k) = S k) ∧
      ((r.swapaxes 0 n).swapaxes 1 (n + 1)).shape (2 + n) = 3 := by
    simp only [swapaxes_shape]
    obtain rfl | hn : n = 1 ∨ 2 ≤ n := by omega
    · refine ⟨fun k hk => ?_, fun k hk => ?_, ?_⟩
      · obtain rfl | rfl : k = 0 ∨ k = 1 := by omega
        · simp [r3, hsh]
        · simp [r3, hsh]
      · obtain rfl : k = 0 := by omega
        simp [r3, hsh]
      · simpa using r4
    · have key : ∀ {k v : Nat}, (if (if k = 1 then n + 1 else if k = n + 1 then 1 else k) = 0 then n else
          if (if k = 1 then n + 1 else if k = n + 1 then 1 else k) = n then 0 else (if k = 1 then n + 1 else if k = n + 1 then 1 else k)) = v → v < n + 2 →
          r.shape (if (if k = 1 then n + 1 else if k = n + 1 then 1 else k) = 0 then n else
            if (if k = 1 then n + 1 else if k = n + 1 then 1 else k) = n then 0 else (if k = 1 then n + 1 else if k = n + 1 then 1 else k)) = S v := by
        intro k v e hv'
        rw [e, r3 _ hv', hsh _ _ hv']
      refine ⟨fun k hk => key (v := n + k) ?_ (by omega), fun k hk => ?_, ?_⟩
      · split_ifs <;> first | omega | contradiction
      · rw [← h2 k hk]
        by_cases c : k + 2 < n
        · rw [Nat.mod_eq_of_lt c]
          exact key (v := k + 2) (by split_ifs <;> first | omega | contradiction) (by omega)
        · rw [show (k + 2) % n = k + 2 - n by rw [Nat.mod_eq_sub_mod (by omega), Nat.mod_eq_of_lt (by omega)]]
          exact key (v := k + 2 - n) (by split_ifs <;> first | omega | contradiction) (by omega)
      · rw [show (if (if 2 + n = 1 then n + 1 else if 2 + n = n + 1 then 1 else 2 + n) = 0 then n else
            if (if 2 + n = 1 then n + 1 else if 2 + n = n + 1 then 1 else 2 + n) = n then 0 else (if 2 + n = 1 then n + 1 else if 2 + n = n + 1 then 1 else 2 + n)) = n + 2 by
          split_ifs <;> first | omega | contradiction]
        exact r4
  have w4 : ∀ s, s (2 + n) < 3 → ((r.swapaxes 0 n).swapaxes 1 (n + 1)).get s = resultWeight n (s 0) (s 1) fun _ => s (2 + n) := by
    intro s hb
    have k0 : (if (if n = 0 then n else if n = n then 0 else n) = 1 then n + 1 else if (if n = 0 then n else if n = n then 0 else n) = n + 1 then 1 else
        (if n = 0 then n else if n = n then 0 else n)) = 0 := by split_ifs <;> first | omega | contradiction
    have k1 : (if (if n + 1 = 0 then n else if n + 1 = n then 0 else n + 1) = 1 then n + 1 else if (if n + 1 = 0 then n else if n + 1 = n then 0 else n + 1) = n + 1 then 1 else
        (if n + 1 = 0 then n else if n + 1 = n then 0 else n + 1)) = 1 := by split_ifs <;> first | omega | contradiction
    have k2 : (if (if n + 2 = 0 then n else if n + 2 = n then 0 else n + 2) = 1 then n + 1 else if (if n + 2 = 0 then n else if n + 2 = n then 0 else n + 2) = n + 1 then 1 else
        (if n + 2 = 0 then n else if n + 2 = n then 0 else n + 2)) = 2 + n := by split_ifs <;> first | omega | contradiction
    rw [swapaxes_get _ (by rw [swapaxes_ndim]; omega) (by rw [swapaxes_ndim]; omega), swapaxes_get _ (by omega) (by omega), r6]
    · rw [k0, k1, k2]
    · rw [k2]; exact hb
  obtain ⟨z, z1⟩ := newAxes_isOk (a := (r.swapaxes 0 n).swapaxes 1 (n + 1)) (l := List.replicate n false) (by rw [List.count_replicate]; simp)
  obtain ⟨z2, -, z4, z5, -, z7⟩ := newAxes_ok z1
  have hax : ∀ k, axisOf (List.replicate n false) k = if k < n then none else some (k - n) := by
    intro k
    have := axisOf_false n [] k
    rw [List.append_nil] at this
    rw [this]; rfl
  have hpo : ∀ k, posOf (List.replicate n false) k = n + k := by
    intro k
    have := posOf_false n [] k
    rw [List.append_nil] at this
    rw [this]; rfl
  rw [w2, List.count_replicate_self] at z2
  have y1 : ∀ k < n, z.shape k = 1 := fun k hk => z4 k (by rw [hax, if_pos hk])
  have y2 : ∀ k, z.shape (n + k) = ((r.swapaxes 0 n).swapaxes 1 (n + 1)).shape k := fun k => z5 (n + k) k (by rw [hax, if_neg (by omega)]; congr 1; omega)
  have y3 : ∀ j < n + 1, z.shape (n + 2 + j) = S' j := by
    intro j hj
    rw [Nat.add_assoc, y2]
    by_cases c : j < n
    · rw [w3.2.1 j c, hS j c]
    · obtain rfl : j = n := by omega
      rw [w3.2.2, hT]
  refine ⟨⟨z, n + 2, 0, 1, wallMap n, []⟩, ?_, rfl, rfl, rfl, rfl, rfl, by show z.ndim = _; omega, y1, fun k hk => (y2 k).trans (w3.1 k hk), y3, fun idx hm hi => ?_⟩
  · unfold collapseGradT twoAxes
    rw [pick_one, ok_bind']
    have e : (v.map fun _ => (1 : α)).ndim = n + 2 := hv
    dsimp only
    rw [e, if_neg (by omega), ok_bind', conditionsOf_none, ok_bind']
    show (stackLast [_, _, _] >>= _) = _
    rw [r1, ok_bind', show n + 2 - 2 = n by omega, show n + 2 - 1 = n + 1 by omega, z1, ok_bind']
    unfold mkTensor
    rw [if_neg (by omega)]
    rfl
  · show z.bget idx = _
    have e : z.bget idx = z.get fun k => if k < n then 0 else idx k := by
      unfold bget
      refine get_congr z fun k hk => ?_
      by_cases c : k < n
      · rw [if_pos (y1 k c), if_pos c]
      · rw [if_neg c]
        by_cases c1 : z.shape k = 1
        · rw [if_pos c1]
          by_cases c2 : k < n + 2
          · obtain ⟨i, rfl⟩ : ∃ i, k = n + i := ⟨k - n, by omega⟩
            have := hm i (by omega)
            rw [y2, w3.1 i (by omega)] at c1
            omega
          · obtain ⟨i, rfl⟩ : ∃ i, k = n + 2 + i := ⟨k - (n + 2), by omega⟩
            have := hi i (by omega)
            rw [y3 i (by omega)] at c1
            omega
        · rw [if_neg c1]
    have hb := hi n (by omega)
    rw [e, z7, w4]
    · simp only [hpo]
      rw [if_neg (by omega), if_neg (by omega), if_neg (by omega)]
      unfold resultWeight
      rw [cut_of (by omega), show n + (2 + n) = n + 2 + n by omega]
      rfl
    · rw [hpo, if_neg (by omega), show n + (2 + n) = n + 2 + n by omega]
      omega

end

end Verif.Tens
