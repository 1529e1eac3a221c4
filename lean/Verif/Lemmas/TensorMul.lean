import Verif.Lemmas.TensorTake

/-!
# The steps of `bin_op` for multiplication
-/

set_option linter.unusedSectionVars false

namespace Verif.Tens
open Verif.Params (Err)
open NDArray

variable {α : Type} [Field α] [DecidableEq α]

theorem broadcastEye_ok {nd n i j : Nat} {e : NDArray α} (hn : n ≠ 1) (h : broadcastEye nd n i j = .ok e) :
    e = eyeAt nd n i j ∧ 2 ≤ nd ∧ ((i = nd - 2 ∧ j = nd - 1) ∨ (i = nd - 1 ∧ j = nd - 2)) := by
  unfold broadcastEye at h
  rw [if_neg hn] at h
  split_ifs at h with hc
  cases h
  exact ⟨rfl, hc⟩

/-- Pairs of mapped value axes that differ exist and do not have size 1. -/
def CrossPre (p : Nat) (l : List (Int × Int)) (arr : NDArray α) : Prop :=
  ∀ a ∈ l, a.1 ≠ a.2 → 0 ≤ a.1 ∧ 0 ≤ a.2 ∧ arr.shape (p + a.1.toNat) ≠ 1 ∧ arr.shape (p + a.2.toNat) ≠ 1

/-- The value axes of each pair are read at the same position. -/
def CrossAgree (p : Nat) (l : List (Int × Int)) (idx : Nat → Nat) : Prop :=
  ∀ a ∈ l, a.1 ≠ a.2 → idx (p + a.1.toNat) = idx (p + a.2.toNat)

instance (p : Nat) (l : List (Int × Int)) (idx : Nat → Nat) : Decidable (CrossAgree p l idx) :=
  inferInstanceAs (Decidable (∀ a ∈ l, _))

theorem arrExpandCrossDiag_ok {p : Nat} (l : List (Int × Int)) (arr : NDArray α) (h : CrossPre p l arr)
    {r : NDArray α} (hr : arrExpandCrossDiag p l arr = .ok r) :
    r.ndim = arr.ndim ∧ (∀ k, r.shape k = arr.shape k) ∧
    ∀ idx, r.bget idx = if CrossAgree p l idx then arr.bget idx else 0 := by
  induction l generalizing arr with
  | nil =>
    cases hr
    exact ⟨rfl, fun _ => rfl, fun idx => (if_pos (by intro a ha; simp at ha)).symm⟩
  | cons a l ih =>
    obtain ⟨i, j⟩ := a
    unfold arrExpandCrossDiag at hr
    by_cases hij : i = j
    · rw [if_pos hij] at hr
      obtain ⟨e1, e2, e3⟩ := ih arr (fun a ha => h a (List.mem_cons_of_mem _ ha)) hr
      refine ⟨e1, e2, fun idx => (e3 idx).trans (if_congr ?_ rfl rfl)⟩
      unfold CrossAgree
      rw [List.forall_mem_cons]
      exact ⟨fun h => ⟨fun hne => absurd hij hne, h⟩, fun h => h.2⟩
    · rw [if_neg hij] at hr
      obtain ⟨i0, j0, si, sj⟩ := h (i, j) List.mem_cons_self hij
      dsimp only at hr i0 j0 si sj
      rw [show ((p : Int) + i).toNat = p + i.toNat by omega,
        show ((p : Int) + j).toNat = p + j.toNat by omega] at hr
      cases he : (broadcastEye arr.ndim (arr.shape (p + i.toNat)) (p + i.toNat) (p + j.toNat) :
          Except Err (NDArray α)) with
      | error e => rw [he] at hr; cases hr
      | ok e =>
        rw [he] at hr
        dsimp only at hr
        obtain ⟨rfl, hnd, hij'⟩ := broadcastEye_ok si he
        cases hz : zipWith (· * ·) arr (eyeAt arr.ndim (arr.shape (p + i.toNat)) (p + i.toNat) (p + j.toNat))
          with
        | error e => rw [hz] at hr; cases hr
        | ok arr1 =>
          rw [hz] at hr
          dsimp only at hr
          obtain ⟨z1, z2, z3, z4⟩ := zipWith_ok hz rfl
          have hsh : ∀ k, arr1.shape k = arr.shape k := by
            intro k
            rw [z2]
            split_ifs with h1
            · rw [h1]
              show (if k = p + i.toNat ∨ k = p + j.toNat then _ else 1) = 1
              rw [if_neg]
              rintro (rfl | rfl)
              · exact si h1
              · exact sj h1
            · rfl
          obtain ⟨e1, e2, e3⟩ := ih arr1 (fun a ha hne => by
            have := h a (List.mem_cons_of_mem _ ha) hne
            rw [hsh, hsh]; exact this) hr
          refine ⟨e1.trans z1, fun k => (e2 k).trans (hsh k), fun idx => ?_⟩
          rw [e3, z4, eyeAt_bget (by omega) (by omega)]
          have hca : CrossAgree p ((i, j) :: l) idx ↔
              (i ≠ j → idx (p + i.toNat) = idx (p + j.toNat)) ∧ CrossAgree p l idx := by
            unfold CrossAgree
            rw [List.forall_mem_cons]
          rw [if_congr hca rfl rfl]
          by_cases c1 : CrossAgree p l idx
          · rw [if_pos c1]
            by_cases c2 : idx (p + i.toNat) = idx (p + j.toNat)
            · rw [if_pos (Or.inr c2), if_pos ⟨fun _ => c2, c1⟩, mul_one]
            · rw [if_neg, if_neg fun h => c2 (h.1 hij), mul_zero]
              rintro (h1 | h1)
              · exact si h1
              · exact c2 h1
          · rw [if_neg c1, if_neg fun h => c1 h.2]

/-- The step of `bin_op` for one of the spaces `x` and `y` (tensor.py:896-906, 908-918). -/
def mulStep (q p q' p' tDim oDim : Nat) (a b : List Int) (l r : NDArray α) :
    Except Err (NDArray α × NDArray α × List Int) :=
  if a ≠ [] then
    match arrExpandCrossDiag p (a.zip b) l with
    | .error e => .error e
    | .ok l => .ok (l, if b = [] ∧ oDim ≠ 0 then arrTakeDiag q' p' 0 a r else r, a)
  else .ok (if b ≠ [] ∧ tDim ≠ 0 then arrTakeDiag q p 0 b l else l, r, b)

/-- Operands for which the step is right, for the maps `a` (left) and `b` (right):
both maps have the same length and agree, except where both map to value axes of size at least 2; or
one operand has no map, and either no axes in this space, or its diagonal can be taken
(`Nt`, `No`: numbers of value axes). -/
def SpaceOk (q p q' p' tDim oDim Nt No : Nat) (a b : List Int) (l r : NDArray α) : Prop :=
  (a.length = b.length ∧ CrossPre p (a.zip b) l) ∨
  (b = [] ∧ (oDim = 0 ∨ ((∀ f ∈ a, f < (No : Int)) ∧ a.length ≤ oDim ∧ TakePre q' p' 0 a r))) ∨
  (a = [] ∧ (tDim = 0 ∨ ((∀ f ∈ b, f < (Nt : Int)) ∧ b.length ≤ tDim ∧ TakePre q p 0 b l)))

theorem agrees_iff_zip {a b : List Int} {v n : Nat → Nat} (hl : a.length = b.length)
    (h0 : ∀ c ∈ a.zip b, c.1 ≠ c.2 → 0 ≤ c.1 ∧ 0 ≤ c.2) (ha : Agrees a v n) :
    (∀ c ∈ a.zip b, c.1 ≠ c.2 → n c.1.toNat = n c.2.toNat) ↔ Agrees b v n := by
  have hm : ∀ k < a.length, (a.getD k (-1), b.getD k (-1)) ∈ a.zip b := by
    intro k hk
    have hk' : k < (a.zip b).length := by rw [List.length_zip]; omega
    have := List.getElem_mem hk'
    rwa [List.getElem_zip, ← List.getD_eq_getElem a (-1) hk, ← List.getD_eq_getElem b (-1) (by omega)] at this
  constructor
  · intro h k hk hk0
    by_cases e : a.getD k (-1) = b.getD k (-1)
    · rw [← e] at hk0 ⊢
      exact ha k (by omega) hk0
    · have := h _ (hm k (by omega)) e
      dsimp only at this
      rw [← this]
      exact ha k (by omega) (h0 _ (hm k (by omega)) e).1
  · intro h c hc hne
    obtain ⟨k, hk, rfl⟩ := List.mem_iff_getElem.1 hc
    have hk' : k < a.length ∧ k < b.length := by rw [List.length_zip] at hk; omega
    obtain ⟨h1, h2⟩ := h0 _ hc hne
    rw [List.getElem_zip] at *
    dsimp only at *
    rw [← List.getD_eq_getElem a (-1) hk'.1, ← List.getD_eq_getElem b (-1) hk'.2] at *
    rw [← ha k hk'.1 h1, ← h k hk'.2 h2]

/-- What the step does. -/
theorem mulStep_ok {q p q' p' tDim oDim Nt No : Nat} {a b : List Int} {l r : NDArray α}
    (hok : SpaceOk q p q' p' tDim oDim Nt No a b l r)
    (ha : ∀ f ∈ a, f < (Nt : Int)) (hb : 0 < Nt → ∀ f ∈ b, f < (Nt : Int))
    {l1 r1 : NDArray α} {m : List Int} (hs : mulStep q p q' p' tDim oDim a b l r = .ok (l1, r1, m)) :
    (m = a ∨ m = b) ∧ l1.ndim = l.ndim ∧ r1.ndim = r.ndim ∧
    (∀ k < l.ndim, l1.shape k = l.shape k ∨ (l1.shape k = 1 ∧ ∃ j < tDim, k = q + j)) ∧
    (∀ k < r.ndim, r1.shape k = r.shape k ∨ (r1.shape k = 1 ∧ ∃ j < oDim, k = q' + j)) ∧
    (∀ (v n tf uf : Nat → Nat),
      (∀ k < tDim, tf (q + k) = v k) → (∀ k < Nt, tf (p + k) = n k) →
      (∀ k < oDim, uf (q' + k) = v k) → (∀ k < No, uf (p' + k) = n k) →
      Agrees m v n →
        l1.bget tf = (if Agrees a v n ∧ Agrees b v n then l.bget tf else 0) ∧ r1.bget uf = r.bget uf) := by
  have nil : ∀ v n, Agrees [] v n := fun v n k hk => by simp at hk
  have take : ∀ {q p D : Nat} {m : List Int} {x : NDArray α}, m.length ≤ D → TakePre q p 0 m x →
      (arrTakeDiag q p 0 m x).ndim = x.ndim ∧
      (∀ k < x.ndim, (arrTakeDiag q p 0 m x).shape k = x.shape k ∨
        ((arrTakeDiag q p 0 m x).shape k = 1 ∧ ∃ j < D, k = q + j)) := by
    intro q p D m x hl ht
    obtain ⟨t1, t2, t3, -⟩ := arrTakeDiag_ok m 0 x ht
    refine ⟨t1, fun k hk => ?_⟩
    by_cases hc : ∀ j < m.length, 0 ≤ m.getD j (-1) → k ≠ q + 0 + j
    · exact Or.inl (t2 k hk hc)
    · push Not at hc
      obtain ⟨j, hj, hj0, rfl⟩ := hc
      exact Or.inr ⟨t3 j hj hj0, j, by omega, by omega⟩
  have diag : ∀ {q p D N : Nat} {m : List Int} {v n f : Nat → Nat}, m.length ≤ D → (∀ f ∈ m, f < (N : Int)) →
      (∀ k < D, f (q + k) = v k) → (∀ k < N, f (p + k) = n k) → Agrees m v n →
      DiagAgree q p 0 m f := by
    intro q p D N m v n f hl hm h1 h2 hag j hj hj0
    have := hm _ (getD_mem hj0)
    rw [Nat.add_zero, h1 j (by omega), h2 _ (by omega)]
    exact hag j hj hj0
  unfold mulStep at hs
  by_cases ha0 : a = []
  · rw [if_neg (not_not.2 ha0)] at hs
    simp only [Except.ok.injEq, Prod.mk.injEq] at hs
    obtain ⟨s1, s2, s3⟩ := hs
    subst s1 s2 s3
    by_cases hbt : b ≠ [] ∧ tDim ≠ 0
    · rw [if_pos hbt]
      have htp : (∀ f ∈ b, f < (Nt : Int)) ∧ b.length ≤ tDim ∧ TakePre q p 0 b l := by
        rcases hok with ⟨h1, -⟩ | ⟨h1, -⟩ | ⟨-, h1⟩
        · exact absurd (List.eq_nil_of_length_eq_zero (by rw [← h1, ha0]; rfl)) hbt.1
        · exact absurd h1 hbt.1
        · exact h1.resolve_left hbt.2
      obtain ⟨t1, t2⟩ := take htp.2.1 htp.2.2
      refine ⟨Or.inr rfl, t1, rfl, t2, fun k _ => Or.inl rfl, ?_⟩
      intro v n tf uf e1 e2 e3 e4 hag
      obtain ⟨-, -, -, t4⟩ := arrTakeDiag_ok b 0 l htp.2.2
      rw [ha0, if_pos ⟨nil v n, hag⟩]
      exact ⟨t4 tf (diag htp.2.1 htp.1 e1 e2 hag), rfl⟩
    · rw [if_neg hbt]
      refine ⟨Or.inr rfl, rfl, rfl, fun k _ => Or.inl rfl, fun k _ => Or.inl rfl, ?_⟩
      intro v n tf uf e1 e2 e3 e4 hag
      rw [ha0, if_pos ⟨nil v n, hag⟩]
      exact ⟨rfl, rfl⟩
  · rw [if_pos ha0] at hs
    cases hx : arrExpandCrossDiag p (a.zip b) l with
    | error e => rw [hx] at hs; cases hs
    | ok l' =>
      rw [hx] at hs
      simp only [Except.ok.injEq, Prod.mk.injEq] at hs
      obtain ⟨s1, s2, s3⟩ := hs
      subst s1 s2 s3
      by_cases hb0 : b = []
      · rw [hb0, List.zip_nil_right] at hx
        cases hx
        by_cases ho : oDim ≠ 0
        · rw [if_pos ⟨hb0, ho⟩]
          have htp : (∀ f ∈ a, f < (No : Int)) ∧ a.length ≤ oDim ∧ TakePre q' p' 0 a r := by
            rcases hok with ⟨h1, -⟩ | ⟨-, h1⟩ | ⟨h1, -⟩
            · exact absurd (List.eq_nil_of_length_eq_zero (by rw [h1, hb0]; rfl)) ha0
            · exact h1.resolve_left ho
            · exact absurd h1 ha0
          obtain ⟨t1, t2⟩ := take htp.2.1 htp.2.2
          refine ⟨Or.inl rfl, rfl, t1, fun k _ => Or.inl rfl, t2, ?_⟩
          intro v n tf uf e1 e2 e3 e4 hag
          obtain ⟨-, -, -, t4⟩ := arrTakeDiag_ok a 0 r htp.2.2
          rw [hb0, if_pos ⟨hag, nil v n⟩]
          exact ⟨rfl, t4 uf (diag htp.2.1 htp.1 e3 e4 hag)⟩
        · rw [if_neg fun h => ho h.2]
          refine ⟨Or.inl rfl, rfl, rfl, fun k _ => Or.inl rfl, fun k _ => Or.inl rfl, ?_⟩
          intro v n tf uf e1 e2 e3 e4 hag
          rw [hb0, if_pos ⟨hag, nil v n⟩]
          exact ⟨rfl, rfl⟩
      · rw [if_neg fun h => hb0 h.1]
        obtain ⟨hlen, hcp⟩ : a.length = b.length ∧ CrossPre p (a.zip b) l := by
          rcases hok with h | ⟨h1, -⟩ | ⟨h1, -⟩
          · exact h
          · exact absurd h1 hb0
          · exact absurd h1 ha0
        obtain ⟨c1, c2, c3⟩ := arrExpandCrossDiag_ok _ l hcp hx
        refine ⟨Or.inl rfl, c1, rfl, fun k _ => Or.inl (c2 k), fun k _ => Or.inl rfl, ?_⟩
        intro v n tf uf e1 e2 e3 e4 hag
        refine ⟨?_, rfl⟩
        rw [c3]
        refine if_congr ?_ rfl rfl
        rw [and_iff_right hag, ← agrees_iff_zip hlen (fun c hc hne => ⟨(hcp c hc hne).1, (hcp c hc hne).2.1⟩) hag]
        refine forall_congr' fun c => forall_congr' fun hc => forall_congr' fun hne => ?_
        obtain ⟨h1, h2, -⟩ := hcp c hc hne
        have h3 := ha _ (List.of_mem_zip hc).1
        have h4 := hb (by omega) _ (List.of_mem_zip hc).2
        rw [e2 _ (by omega), e2 _ (by omega)]

/-- After the step, the mapped axes of both operands have size 1. -/
theorem mulStep_one {q p q' p' tDim oDim Nt No : Nat} {a b : List Int} {l r : NDArray α}
    (hok : SpaceOk q p q' p' tDim oDim Nt No a b l r)
    (wa : ∀ j < a.length, 0 ≤ a.getD j (-1) → l.shape (q + j) = 1)
    (wb : ∀ j < b.length, 0 ≤ b.getD j (-1) → r.shape (q' + j) = 1)
    {l1 r1 : NDArray α} {m : List Int} (hs : mulStep q p q' p' tDim oDim a b l r = .ok (l1, r1, m)) :
    ∀ j < m.length, 0 ≤ m.getD j (-1) →
      (tDim = 0 ∨ l1.shape (q + j) = 1) ∧ (oDim = 0 ∨ r1.shape (q' + j) = 1) := by
  unfold mulStep at hs
  by_cases ha0 : a = []
  · rw [if_neg (not_not.2 ha0)] at hs
    simp only [Except.ok.injEq, Prod.mk.injEq] at hs
    obtain ⟨s1, s2, s3⟩ := hs
    subst s1 s2 s3
    intro j hj hj0
    refine ⟨?_, Or.inr (wb j hj hj0)⟩
    by_cases hbt : b ≠ [] ∧ tDim ≠ 0
    · rw [if_pos hbt]
      have htp : TakePre q p 0 b l := by
        rcases hok with ⟨h1, -⟩ | ⟨h1, -⟩ | ⟨-, h1⟩
        · exact absurd (List.eq_nil_of_length_eq_zero (by rw [← h1, ha0]; rfl)) hbt.1
        · exact absurd h1 hbt.1
        · exact (h1.resolve_left hbt.2).2.2
      exact Or.inr ((arrTakeDiag_ok b 0 l htp).2.2.1 j hj hj0)
    · left
      by_contra hc
      refine hbt ⟨?_, hc⟩
      rintro rfl
      simp at hj
  · rw [if_pos ha0] at hs
    cases hx : arrExpandCrossDiag p (a.zip b) l with
    | error e => rw [hx] at hs; cases hs
    | ok l' =>
      rw [hx] at hs
      simp only [Except.ok.injEq, Prod.mk.injEq] at hs
      obtain ⟨s1, s2, s3⟩ := hs
      subst s1 s2 s3
      intro j hj hj0
      by_cases hb0 : b = []
      · rw [hb0, List.zip_nil_right] at hx
        cases hx
        refine ⟨Or.inr (wa j hj hj0), ?_⟩
        by_cases ho : oDim ≠ 0
        · rw [if_pos ⟨hb0, ho⟩]
          have htp : TakePre q' p' 0 a r := by
            rcases hok with ⟨h1, -⟩ | ⟨-, h1⟩ | ⟨h1, -⟩
            · exact absurd (List.eq_nil_of_length_eq_zero (by rw [h1, hb0]; rfl)) ha0
            · exact (h1.resolve_left ho).2.2
            · exact absurd h1 ha0
          exact Or.inr ((arrTakeDiag_ok a 0 r htp).2.2.1 j hj hj0)
        · exact Or.inl (not_not.1 ho)
      · rw [if_neg fun h => hb0 h.1]
        obtain ⟨hlen, hcp⟩ : a.length = b.length ∧ CrossPre p (a.zip b) l := by
          rcases hok with h | ⟨h1, -⟩ | ⟨h1, -⟩
          · exact h
          · exact absurd h1 hb0
          · exact absurd h1 ha0
        obtain ⟨c1, c2, c3⟩ := arrExpandCrossDiag_ok _ l hcp hx
        rw [c2]
        refine ⟨Or.inr (wa j hj hj0), Or.inr (wb j (by omega) ?_)⟩
        by_cases e : a.getD j (-1) = b.getD j (-1)
        · rw [← e]; exact hj0
        · have hk' : j < (a.zip b).length := by rw [List.length_zip]; omega
          have hm := List.getElem_mem hk'
          rw [List.getElem_zip, ← List.getD_eq_getElem a (-1) hj,
            ← List.getD_eq_getElem b (-1) (by omega)] at hm
          exact (hcp _ hm e).2.1

end Verif.Tens
