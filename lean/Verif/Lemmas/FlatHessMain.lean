import Verif.Lemmas.FlatMain

/-!
# `flat_hess` on Tensors
-/

set_option linter.unusedSectionVars false

namespace Verif.Tens
open Verif.Params
open NDArray

section
variable {pr : Problem} {m : Nat} {θ : Theta} {params : List (Param ℝ)}

theorem AtPoint.asRow (hat : AtPoint pr m θ params) : ∃ Q : Nat → Param ℝ, params = row m Q ∧
    ∀ p < m, (Q p).shape = pr.sizes p ∧ (Q p).mask.length = (Q p).shape.prod := by
  have key : ∀ p, ∃ q, p < m → params[p]? = some q ∧ q.shape = pr.sizes p ∧ q.mask.length = q.shape.prod := by
    intro p
    by_cases hp : p < m
    · obtain ⟨q, q1, q2, q3, -⟩ := hat.each p hp
      exact ⟨q, fun _ => ⟨q1, q2, q3⟩⟩
    · by_cases h0 : 0 < m
      · obtain ⟨q, -⟩ := hat.each 0 h0
        exact ⟨q, fun c => absurd c hp⟩
      · exact ⟨⟨[], [], []⟩, fun c => absurd c hp⟩
  choose Q hQ using key
  refine ⟨Q, ?_, fun p hp => (hQ p hp).2⟩
  apply List.ext_getElem?
  intro k
  by_cases hk : k < m
  · rw [(hQ k hk).1, row_getElem? hk]
  · rw [List.getElem?_eq_none (by rw [hat.len]; omega), List.getElem?_eq_none (by simp [row]; omega)]

theorem maskSelect_array {p : Nat} {q : Param ℝ} (hs : q.shape = pr.sizes p) (hm : q.mask.length = q.shape.prod) {v : NDArray ℝ} {F : Nat → ℝ}
    (h1 : v.ndim = pr.nd p) (h2 : ∀ k < pr.nd p, v.shape k = pr.P p k)
    (h3 : ∀ a, pr.Entry p ((cOrder pr m).e p a) → v.bget ((cOrder pr m).e p a) = F a) :
    maskSelect v q = .ok ((Flat.freeOf q).map F) := by
  have hl : q.shape.length = pr.nd p := by rw [hs, sizes_length]
  unfold maskSelect
  rw [if_pos ⟨by omega, fun k hk => by rw [h2 k (by omega), hs, sizes_getD (by omega)]⟩]
  refine congrArg _ (List.map_congr_left fun a ha => ?_)
  have ha' : a < q.shape.prod := hm ▸ freeOf_lt ha
  rw [hs] at ha'
  have hE : pr.Entry p ((cOrder pr m).e p a) := entry_iff.2 ha'
  rw [← h3 a hE, get_eq_bget1 fun k hk hk1 => ?_, hs]
  · rfl
  · have : unravel (pr.sizes p) a k < pr.P p k := hE.1 k (by omega)
    have := h2 k (by omega)
    rw [hs]
    omega

theorem row_map {β γ : Type} {m : Nat} {f : Nat → β} {g : β → γ} : (row m f).map g = row m fun p => g (f p) := by
  unfold row
  rw [List.map_map]; rfl

/-- The border of one constraint. -/
theorem borderRow_ok (hat : AtPoint pr m θ params) {t : TTerm ℝ} {g : Con} (ht : IsConstraint (cOrder pr m) t g.val g.der)
    {args : List (Tensor ℝ)} (ha : (cOrder pr m).IsArgs θ t.paramMap args) :
    ∃ gg B, t.f.grads args = .ok gg ∧ borderRow params t.paramMap gg = .ok (row m B) ∧
      ∀ x ∈ params.zipIdx, maskSelect (B x.2) x.1 = .ok ((Flat.freeOf x.1).map (g.der θ x.2)) := by
  obtain ⟨Q, hQ, hQ'⟩ := hat.asRow
  obtain ⟨T, t1, t2⟩ := ht.grad θ args ha
  have hn : t.paramMap.Nodup := ht.inc.imp fun h => Nat.ne_of_lt h
  have hz : ∀ p < m, (zerosLike (Q p)).ndim = pr.nd p ∧ (∀ k < pr.nd p, (zerosLike (Q p)).shape k = pr.P p k) ∧
      ∀ x, (zerosLike (Q p)).bget x = 0 := by
    intro p hp
    refine ⟨?_, fun k hk => ?_, fun x => rfl⟩
    · show (Q p).shape.length = _
      rw [(hQ' p hp).1, sizes_length]
    · show (Q p).shape.getD k 1 = _
      rw [(hQ' p hp).1, sizes_getD hk]
  have key : ∀ p, ∃ w : NDArray ℝ, (p ∉ t.paramMap → w = zerosLike (Q p)) ∧
      (p ∈ t.paramMap → (do
        let s ← Py.sum (.arr (.tensor (T (t.paramMap.idxOf p))))
        let v ← s.values
        addInto (zerosLike (Q p)) v) = .ok w) ∧
      (p < m → w.ndim = pr.nd p ∧ (∀ k < pr.nd p, w.shape k = pr.P p k) ∧
        ∀ a, pr.Entry p ((cOrder pr m).e p a) → w.bget ((cOrder pr m).e p a) = g.der θ p a) := by
    intro p
    by_cases hp : p ∈ t.paramMap
    · obtain ⟨r, r1, r2, r3, r4⟩ := t2 (t.paramMap.idxOf p) (List.idxOf_lt_length_of_mem hp)
      rw [getD_idxOf0 hp] at r2 r3 r4
      have hpm := ht.lt p hp
      obtain ⟨z1, z2, z3⟩ := hz p hpm
      obtain ⟨w, hw⟩ := binary_isOk (f := fun x y : ℝ => x + y) (a := zerosLike (Q p)) (b := r.values) (by omega) fun k hk => by
        rw [z2 k (by omega)]
        rcases r3 k (by omega) with c | c
        · exact Or.inl c.symm
        · exact Or.inr (Or.inr c)
      obtain ⟨w1, w2, -, w4⟩ := binary_ok hw (by omega)
      have w5 : ∀ k < pr.nd p, w.shape k = pr.P p k := by
        intro k hk
        rw [w2]
        split_ifs with c
        · rw [z2 k hk] at c
          rcases r3 k (by omega) with d | d <;> omega
        · exact z2 k hk
      refine ⟨w, fun c => absurd hp c, fun _ => ?_, fun _ => ⟨by omega, w5, fun a hE => ?_⟩⟩
      · have e1 : Py.sum (.arr (.tensor (T (t.paramMap.idxOf p)))) = .ok (.arr (.tensor r)) := by
          show ((Num.tensor _).sumAll).map Py.arr = _
          rw [r1]; rfl
        rw [e1]
        show addInto (zerosLike (Q p)) r.values = _
        unfold addInto
        rw [hw]
        show (if _ then _ else _) = _
        rw [if_pos ⟨w1, fun k hk => by rw [w5 k (by omega), z2 k (by omega)]⟩]
      · rw [w4, z3, zero_add, r4 a hE]
    · refine ⟨zerosLike (Q p), fun _ => rfl, fun c => absurd c hp, fun hpm => ?_⟩
      obtain ⟨z1, z2, z3⟩ := hz p hpm
      exact ⟨z1, z2, fun a _ => by rw [z3, ht.zero θ p a hp]⟩
  choose B b1 b2 b3 using key
  refine ⟨_, B, t1, ?_, fun x hx => ?_⟩
  · unfold borderRow
    rw [hQ, row_map]
    refine updateRow_ok (D := fun k => Py.arr (.tensor (T k))) (op := fun (y : NDArray ℝ) d => do
        let s ← d.sum
        let v ← s.values
        addInto y v) hn ht.lt (fun k hk => ?_) fun p hp => b1 p hp
    have hk' : t.paramMap.getD k 0 ∈ t.paramMap := by rw [List.getD_eq_getElem _ _ hk]; exact List.getElem_mem hk
    have := b2 _ hk'
    rwa [idxOf_getD hn hk] at this
  · obtain ⟨x1, x2, x3⟩ := hat.mem_zipIdx hx
    obtain ⟨c1, c2, c3⟩ := b3 x.2 x1
    exact maskSelect_array x2 x3 c1 c2 c3

theorem hessCons_ok (hat : AtPoint pr m θ params) : ∀ {cs : List (TTerm ℝ)} {gs : List Con},
    List.Forall₂ (fun t g => IsConstraint (cOrder pr m) t g.val g.der) cs gs → ∀ R : Nat → Nat → Tensor ℝ,
    ∃ Bs : List (Nat → NDArray ℝ), hessCons params cs (triangle m fun p q => .arr (.tensor (R p q))) =
      .ok (triangle m fun p q => .arr (.tensor (R p q)), Bs.map (row m)) ∧
      List.Forall₂ (fun B g => ∀ x ∈ params.zipIdx, maskSelect (B x.2) x.1 = .ok ((Flat.freeOf x.1).map (g.der θ x.2))) Bs gs
  | [], _, .nil, R => ⟨[], rfl, .nil⟩
  | t :: ts, _, .cons (b := g) (l₂ := gs) ht hts, R => by
    obtain ⟨args, a1, a2⟩ := args_ok hat ht.lt
    obtain ⟨gg, B, g1, g2, g3⟩ := borderRow_ok hat ht a2
    obtain ⟨U, u1⟩ := ht.hess θ args a2
    have hl : updateBlocks t.paramMap (triangle t.paramMap.length fun k l => Py.arr (.tensor (U k l))) (fun z d => do
        let d0 ← Py.mul (.num 0) d
        z.add d0) (triangle m fun p q => .arr (.tensor (R p q))) = .ok (triangle m fun p q => .arr (.tensor (R p q))) := by
      refine updateBlocks_ok ht.inc ht.lt (fun k hk l hl => ?_) fun p q _ => rfl
      rw [py_zero_mul]
      exact py_add_zero _
    obtain ⟨Bs, h1, h2⟩ := hessCons_ok hat hts R
    refine ⟨B :: Bs, ?_, .cons g3 h2⟩
    unfold hessCons
    rw [a1]
    simp only [bind, Except.bind, g1, u1, g2] at hl ⊢
    rw [hl]
    simp only [h1]
    rfl

theorem hessRegs_step (t : TTerm ℝ) (φ : Pen) (ht : IsPenalty (cOrder pr m) t φ.val φ.der φ.hes) {args : List (Tensor ℝ)}
    (ha : (cOrder pr m).IsArgs θ t.paramMap args)
    {H : Nat → Nat → Num ℝ} {h : Nat → Nat → Nat → Nat → ℝ} (hH : ∀ p < m, ∀ q ≤ p, pr.IsBlock (cOrder pr m).e p q (H p q) (h p q)) :
    ∃ (hg : List (List (Py ℝ))) (H' : Nat → Nat → Num ℝ), t.f.hesses args = .ok hg ∧
      updateBlocks t.paramMap hg Py.sub (triangle m fun p q => .arr (H p q)) = .ok (triangle m fun p q => .arr (H' p q)) ∧
      ∀ p < m, ∀ q ≤ p, pr.IsBlock (cOrder pr m).e p q (H' p q) (fun a b => h p q a b - φ.hes θ p q a b) ∧
        (pr.Whole2 p q (H p q) → pr.Whole2 p q (H' p q)) := by
  obtain ⟨D, d1, d2⟩ := ht.hess θ args ha
  have hn : t.paramMap.Nodup := ht.inc.imp fun h => Nat.ne_of_lt h
  have hmono : ∀ p ∈ t.paramMap, ∀ q ∈ t.paramMap, q ≤ p → t.paramMap.idxOf q ≤ t.paramMap.idxOf p := by
    intro p hp q hq hqp
    by_contra c
    have l1 := List.idxOf_lt_length_of_mem hp
    have l2 := List.idxOf_lt_length_of_mem hq
    have := List.pairwise_iff_getElem.1 ht.inc _ _ l1 l2 (by omega)
    rw [List.getElem_idxOf, List.getElem_idxOf] at this
    omega
  have key : ∀ p q, ∃ w, (p ∉ t.paramMap ∨ q ∉ t.paramMap ∨ p < q → w = H p q) ∧
      (p ∈ t.paramMap → q ∈ t.paramMap → q ≤ p →
        Py.sub (.arr (H p q)) (.arr (D (t.paramMap.idxOf p) (t.paramMap.idxOf q))) = .ok (.arr w)) ∧
      (p < m → q ≤ p → pr.IsBlock (cOrder pr m).e p q w (fun a b => h p q a b - φ.hes θ p q a b) ∧
        (pr.Whole2 p q (H p q) → pr.Whole2 p q w)) := by
    intro p q
    by_cases hp : p ∈ t.paramMap
    · by_cases hq : q ∈ t.paramMap
      · by_cases hqp : q ≤ p
        · have := d2 (t.paramMap.idxOf p) (List.idxOf_lt_length_of_mem hp) (t.paramMap.idxOf q) (hmono p hp q hq hqp)
          rw [getD_idxOf0 hp, getD_idxOf0 hq] at this
          obtain ⟨r, r1, r2, r3⟩ := isBlock_sub (hH p (ht.lt p hp) q hqp) this
          exact ⟨r, fun c => by rcases c with c | c | c <;> first | exact absurd hp c | exact absurd hq c | omega,
            fun _ _ _ => r1, fun _ _ => ⟨r2, r3⟩⟩
        · exact ⟨H p q, fun _ => rfl, fun _ _ c => absurd c hqp, fun _ c => absurd c hqp⟩
      · refine ⟨H p q, fun _ => rfl, fun _ c => absurd c hq, fun hpm hqp => ⟨?_, id⟩⟩
        have := hH p hpm q hqp
        simpa only [ht.zero2 θ p q _ _ (Or.inr hq), sub_zero] using this
    · refine ⟨H p q, fun _ => rfl, fun c => absurd c hp, fun hpm hqp => ⟨?_, id⟩⟩
      have := hH p hpm q hqp
      simpa only [ht.zero2 θ p q _ _ (Or.inl hp), sub_zero] using this
  choose H' k1 k2 k3 using key
  refine ⟨_, H', d1, ?_, fun p hp q hq => k3 p q hp hq⟩
  refine updateBlocks_ok (D := fun k l => Py.arr (D k l)) ht.inc ht.lt (fun k hk l hl => ?_) fun p q hpq => by rw [k1 p q hpq]
  have hk' : t.paramMap.getD k 0 ∈ t.paramMap := by rw [List.getD_eq_getElem _ _ hk]; exact List.getElem_mem hk
  have hl' : t.paramMap.getD l 0 ∈ t.paramMap := by
    rw [List.getD_eq_getElem _ _ (by omega)]; exact List.getElem_mem (by omega)
  have hle : t.paramMap.getD l 0 ≤ t.paramMap.getD k 0 := by
    rcases Nat.lt_or_eq_of_le hl with c | c
    · rw [List.getD_eq_getElem _ _ hk, List.getD_eq_getElem _ _ (by omega)]
      exact Nat.le_of_lt (List.pairwise_iff_getElem.1 ht.inc l k (by omega) hk c)
    · rw [c]
  have := k2 _ _ hk' hl' hle
  rwa [idxOf_getD hn hk, idxOf_getD hn (by omega)] at this

theorem hessRegs_ok (hat : AtPoint pr m θ params) : ∀ {rs : List (TTerm ℝ)} {φs : List Pen},
    List.Forall₂ (fun t φ => IsPenalty (cOrder pr m) t φ.val φ.der φ.hes) rs φs →
    ∀ {H : Nat → Nat → Num ℝ} {h : Nat → Nat → Nat → Nat → ℝ},
    (∀ p < m, ∀ q ≤ p, pr.IsBlock (cOrder pr m).e p q (H p q) (h p q)) →
    ∃ H' : Nat → Nat → Num ℝ, hessRegs (params.map paramTensor) rs (triangle m fun p q => .arr (H p q)) =
        .ok (triangle m fun p q => .arr (H' p q)) ∧
      ∀ p < m, ∀ q ≤ p, pr.IsBlock (cOrder pr m).e p q (H' p q) (fun a b => h p q a b - (φs.map fun φ => φ.hes θ p q a b).sum) ∧
        (pr.Whole2 p q (H p q) → pr.Whole2 p q (H' p q))
  | [], _, .nil, H, h, hH => ⟨H, rfl, fun p hp q hq => ⟨by simpa using hH p hp q hq, id⟩⟩
  | t :: ts, _, .cons (b := φ) (l₂ := φs) ht hts, H, h, hH => by
    obtain ⟨args, a1, a2⟩ := args_ok hat ht.lt
    obtain ⟨hg, H1, g1, g2, g3⟩ := hessRegs_step t φ ht a2 hH
    obtain ⟨H', h1, h2⟩ := hessRegs_ok hat hts fun p hp q hq => (g3 p hp q hq).1
    refine ⟨H', ?_, fun p hp q hq => ⟨?_, fun hw => (h2 p hp q hq).2 ((g3 p hp q hq).2 hw)⟩⟩
    · unfold hessRegs
      rw [a1]
      simp only [bind, Except.bind, g1, g2]
      exact h1
    · have := (h2 p hp q hq).1
      simpa only [List.map_cons, List.sum_cons, sub_sub] using this

end

end Verif.Tens
