import Verif.Props.FuncWrapTensor

/-!
# C64: `Affine` and `Sum` on Tensors
-/

set_option linter.unusedSectionVars false

namespace Verif.Tens
open Verif.Params (Err)
open NDArray

section
variable {pr : Problem} {m : Nat} {N : Numbering pr m} {K : Nat → Prop}

theorem Solid.isVal {L : Layout} {V : Tensor ℝ} (h : Solid K L (.tensor V)) (hx : V.xDim = 0) (hy : V.yDim = 0) : IsVal L V := by
  rcases h with h | h
  · exact ⟨h.1, hx, hy, Or.inr h.2.1⟩
  · exact ⟨h.1.wf, hx, hy, Or.inl h.1⟩

theorem Solid.onPiece {L : Layout} {V : Tensor ℝ} (h : Solid K L (.tensor V)) (hp : Piece L V) (hd : V.dim = L.d) :
    OnPiece K L V := by
  rcases h with h | h
  · refine ⟨hp, hd, fun k hk _ => ?_⟩
    have h1 := hp.nd
    have h2 := h.2.1
    omega
  · exact h

/-! ### multiples -/

theorem Store.times_ne (s : Store) {c : ℝ} (hc : c ≠ 0) : s.times c = s := by
  cases s
  simp [Store.times, hc]

theorem mulAll_zero {Q : Tensor ℝ → Prop} {es : List (Tensor ℝ ⊕ NDArray ℝ)} (h : ElemsAll Q es) :
    mulAll (.scalar 0) .mul es = .ok (es.map fun _ => .inl (Tensor.const 0)) := by
  induction es with
  | nil => rfl
  | cons e es ih =>
    obtain ⟨t, rfl, -⟩ := h e List.mem_cons_self
    have he : elemBin (.inl t) (.scalar (0 : ℝ)) .mul = .ok (.tensor (Tensor.const 0)) := by
      simp [elemBin, Tensor.binPrim, Tensor.binScalar]
    unfold mulAll
    rw [he, ih h.tail]
    rfl

theorem sumDense_zeros {β : Type} (es : List β) (i : Idx) :
    sumDense (es.map fun _ => (.inl (Tensor.const 0) : Tensor ℝ ⊕ NDArray ℝ)) i = 0 := by
  induction es with
  | nil => rfl
  | cons e es ih =>
    rw [List.map_cons, sumDense_cons, ih, add_zero]
    exact zeroN_dense i

/-- `0 * v` -/
theorem solid_smul_zero {L : Layout} {v : Num ℝ} (h : NumPiece L v) (hs : NumSolid K L v) :
    ∃ r, v.scalarOp .mul 0 = .ok r ∧ NumPiece L r ∧ NumSolid K L r ∧ (∀ t, v = .tensor t → r = zeroN) ∧ r.Mapped ∧
      (v.Dead → r.Dead) ∧ (v.Single → r.Single) ∧ (v.Single → r.Dead) ∧ ∀ i, r.dense i = 0 := by
  cases v with
  | tensor t =>
    refine ⟨zeroN, ?_, zeroN_piece, zeroN_solid, fun _ _ => rfl, zeroN_mapped, fun _ => zeroN_dead, fun _ => zeroN_single, fun _ => zeroN_dead,
      zeroN_dense⟩
    unfold Num.scalarOp Tensor.binScalar
    simp [zeroN]
  | generic g =>
    obtain ⟨h1, h2, h3, h4, h5, h6⟩ := h
    have hz : ∀ {Q : Tensor ℝ → Prop}, Q (Tensor.const 0) → ElemsAll Q (g.elements.map fun _ => (.inl (Tensor.const 0) : Tensor ℝ ⊕ NDArray ℝ)) := by
      intro Q hQ e he
      obtain ⟨_, _, rfl⟩ := List.mem_map.1 he
      exact ⟨_, rfl, hQ⟩
    have z0 : (Tensor.const (0 : ℝ)).IsZero := zeroN_dead
    refine ⟨.generic ⟨g.xDim, g.yDim, g.n, g.dim, g.elements.map fun _ => .inl (Tensor.const 0)⟩, ?_,
      ⟨h1, h2, h3, h4, fun hh => h5 (List.map_eq_nil_iff.1 hh), hz ⟨Or.inr z0, Nat.zero_le _, Nat.zero_le _, Nat.zero_le _⟩⟩,
      ⟨hs.1, hz (Or.inl z0)⟩, fun t ht => (by cases ht), hz (zeroN_mapped), fun h => h, fun h => h, fun h => (h : False).elim,
      fun i => sumDense_zeros _ i⟩
    have : g.binPrim (.scalar 0) .mul = .ok ⟨g.xDim, g.yDim, g.n, g.dim, g.elements.map fun _ => .inl (Tensor.const 0)⟩ := by
      unfold Generic.binPrim
      simp only [mulAll_zero hs.2, Generic.dims]
    unfold Num.scalarOp
    dsimp only
    rw [this]

theorem Values.smul_ne {θ : Theta} {val : Val} {der : Der} {hess : Hes} {V : Tensor ℝ} {D : Nat → Num ℝ}
    {H : Nat → Nat → Num ℝ} (h : Values pr N K θ val der hess V D H) {c : ℝ} (hc : c ≠ 0) :
    ∃ V' D' H', Py.mul (.num c) (.arr (.tensor V)) = .ok (.arr (.tensor V')) ∧
      (∀ p < m, Py.mul (.num c) (.arr (D p)) = .ok (.arr (D' p))) ∧
      (∀ p < m, ∀ q ≤ p, Py.mul (.num c) (.arr (H p q)) = .ok (.arr (H' p q))) ∧
      Values pr N K θ (fun θ n d => c * val θ n d) (fun θ p a n d => c * der θ p a n d)
        (fun θ p q a b n d => c * hess θ p q a b n d) V' D' H' ∧
      ∀ s, Stored pr m s V D H → Stored pr m s V' D' H' := by
  have hDs : ∀ p < m, ∃ r, Py.mul (.num c) (.arr (D p)) = .ok (.arr r) ∧ NumPiece (pr.layout p p).noY r ∧
      NumSolid K (pr.layout p p).noY r ∧ (D p).Kept r ∧ ∀ i, r.dense i = (D p).dense i * c := by
    intro p hp
    obtain ⟨r, r1, r2, r3, -, r6, r5⟩ := solid_smul hc (h.dp p hp) (solid_iff.1 (h.ds p hp))
    exact ⟨r, by show ((D p).scalarOp .mul c).map Py.arr = _; rw [r1]; rfl, r2, r3, r6, r5⟩
  have hHs : ∀ p < m, ∀ q ≤ p, ∃ r, Py.mul (.num c) (.arr (H p q)) = .ok (.arr r) ∧ NumPiece (pr.layout p q) r ∧
      NumSolid K (pr.layout p q) r ∧ (H p q).Kept r ∧ ∀ i, r.dense i = (H p q).dense i * c := by
    intro p hp q hq
    obtain ⟨r, r1, r2, r3, -, r6, r5⟩ := solid_smul hc (h.hp p hp q hq) (solid_iff.1 (h.hs p hp q hq))
    exact ⟨r, by show ((H p q).scalarOp .mul c).map Py.arr = _; rw [r1]; rfl, r2, r3, r6, r5⟩
  choose! D' d1 d2 d3 d5 d4 using hDs
  choose! H' e1 e2 e3 e5 e4 using hHs
  obtain ⟨r, v1, v2, v3, v4, -, v5⟩ := solid_smul hc (v := .tensor V) (L := pr.layout 0 0) (OnItem.item (solid_iff.1 h.vs))
    (solid_iff.1 h.vs)
  obtain ⟨V', rfl, vx, vy, vp⟩ := v4 V rfl
  refine ⟨V', D', H', by show ((Num.tensor V).scalarOp .mul c).map Py.arr = _; rw [v1]; rfl, d1, e1,
    ⟨by rw [vx, h.vx], by rw [vy, h.vy], solid_iff.2 v3, fun n d hnd x y => ?_, d2, fun p hp => solid_iff.2 (d3 p hp),
      fun p hp a ha n d hnd y => ?_, e2, fun p hp q hq => solid_iff.2 (e3 p hp q hq), fun p hp q hq a b ha hb n d hnd => ?_⟩, ?_⟩
  · have := v5 ⟨x, y, n, d⟩
    dsimp only [Num.dense] at this
    rw [this, h.v n d hnd, mul_comm]
  · rw [d4 p hp, h.d p hp a ha n d hnd, mul_comm]
  · rw [e4 p hp q hq, h.h p hp q hq a b ha hb n d hnd, mul_comm]
  · intro s hst
    refine ⟨fun ht => ?_, fun hm p hp => (d5 p hp).mapped (hst.mapD hm p hp),
      fun hm p hp q hq => (e5 p hp q hq).mapped (hst.mapH hm p hp q hq), fun p hp hu => (d5 p hp).spans _ (hst.live p hp hu),
      fun hm p hp => (d5 p hp).clean (hst.cleanD hm p hp), fun hm p hp q hq => (e5 p hp q hq).clean (hst.cleanH hm p hp q hq),
      fun p hp hu => (d5 p hp).single (hst.single p hp hu), fun p hp hu => (d5 p hp).dead (hst.dead p hp hu),
      fun p hp q hq hu => (e5 p hp q hq).live (hst.liveH p hp q hq hu), fun hm p hp => (d5 p hp).wide _ (hst.wide hm p hp)⟩
    have hp : OnPiece s.full (pr.layout 0 0) V := hst.tot ht
    obtain ⟨r, w1, -, -, w4, -⟩ := solid_smul hc (v := .tensor V) (L := pr.layout 0 0) (OnItem.item (Or.inr hp)) (Or.inr hp)
    obtain ⟨V2, rfl, -, -, wp⟩ := w4 V rfl
    rw [w1] at v1
    cases v1
    exact wp hp

theorem Values.smul {θ : Theta} {val : Val} {der : Der} {hess : Hes} {V : Tensor ℝ} {D : Nat → Num ℝ}
    {H : Nat → Nat → Num ℝ} (h : Values pr N K θ val der hess V D H) (c : ℝ) :
    ∃ V' D' H', Py.mul (.num c) (.arr (.tensor V)) = .ok (.arr (.tensor V')) ∧
      (∀ p < m, Py.mul (.num c) (.arr (D p)) = .ok (.arr (D' p))) ∧
      (∀ p < m, ∀ q ≤ p, Py.mul (.num c) (.arr (H p q)) = .ok (.arr (H' p q))) ∧
      Values pr N K θ (fun θ n d => c * val θ n d) (fun θ p a n d => c * der θ p a n d)
        (fun θ p q a b n d => c * hess θ p q a b n d) V' D' H' ∧
      ∀ s : Store, Stored pr m s V D H → Stored pr m (s.times c) V' D' H' := by
  by_cases hc : c = 0
  · subst hc
    have hDs : ∀ p < m, ∃ r, Py.mul (.num 0) (.arr (D p)) = .ok (.arr r) ∧ NumPiece (pr.layout p p).noY r ∧
        NumSolid K (pr.layout p p).noY r ∧ r.Mapped ∧ ((D p).Dead → r.Dead) ∧ ((D p).Single → r.Single) ∧ ((D p).Single → r.Dead) ∧ ∀ i, r.dense i = 0 := by
      intro p hp
      obtain ⟨r, r1, r2, r3, -, r4⟩ := solid_smul_zero (h.dp p hp) (solid_iff.1 (h.ds p hp))
      exact ⟨r, by show ((D p).scalarOp .mul 0).map Py.arr = _; rw [r1]; rfl, r2, r3, r4⟩
    have hHs : ∀ p < m, ∀ q ≤ p, ∃ r, Py.mul (.num 0) (.arr (H p q)) = .ok (.arr r) ∧ NumPiece (pr.layout p q) r ∧
        NumSolid K (pr.layout p q) r ∧ r.Mapped ∧ ∀ i, r.dense i = 0 := by
      intro p hp q hq
      obtain ⟨r, r1, r2, r3, -, r4, -, -, -, r5⟩ := solid_smul_zero (h.hp p hp q hq) (solid_iff.1 (h.hs p hp q hq))
      exact ⟨r, by show ((H p q).scalarOp .mul 0).map Py.arr = _; rw [r1]; rfl, r2, r3, r4, r5⟩
    choose! D' d1 d2 d3 d4 d5 d6 d7 d8 using hDs
    choose! H' e1 e2 e3 e4 e5 using hHs
    obtain ⟨r, v1, -, v3, v4, -⟩ := solid_smul_zero (v := .tensor V) (L := pr.layout 0 0) (OnItem.item (solid_iff.1 h.vs)) (solid_iff.1 h.vs)
    obtain rfl := v4 V rfl
    refine ⟨Tensor.const 0, D', H', by show ((Num.tensor V).scalarOp .mul 0).map Py.arr = _; rw [v1]; rfl, d1, e1,
      ⟨rfl, rfl, solid_iff.2 v3, fun n d _ x y => ?_, d2, fun p hp => solid_iff.2 (d3 p hp),
        fun p hp a _ n d _ y => ?_, e2, fun p hp q hq => solid_iff.2 (e3 p hp q hq), fun p hp q hq a b _ _ n d _ => ?_⟩, fun s hst => ?_⟩
    · rw [zero_mul]; exact zeroN_dense _
    · rw [d8 p hp, zero_mul]
    · rw [e5 p hp q hq, zero_mul]
    · exact ⟨fun h => absurd rfl h.2, fun _ p hp => d4 p hp, fun _ p hp q hq => e4 p hp q hq, fun p hp h => absurd rfl h.2,
        fun h => absurd rfl h.2, fun h => absurd rfl h.2, fun p hp hs => d6 p hp (hst.single p hp hs),
        fun p hp hs => hs.elim (fun h => d5 p hp (hst.dead p hp h)) fun h => d7 p hp (hst.single p hp h.2),
        fun p hp q hq h => absurd rfl h.2, fun h => absurd rfl h.2⟩
  · obtain ⟨V', D', H', h1, h2, h3, h4, h5⟩ := h.smul_ne hc
    exact ⟨V', D', H', h1, h2, h3, h4, fun s hst => by rw [s.times_ne hc]; exact h5 s hst⟩

/-! ### a number added to the values -/

theorem Values.shift {θ : Theta} {val : Val} {der : Der} {hess : Hes} {V : Tensor ℝ} {D : Nat → Num ℝ}
    {H : Nat → Nat → Num ℝ} (h : Values pr N K θ val der hess V D H) {b : ℝ}
    (hb : b = 0 ∨ Piece (pr.layout 0 0) V ∧ V.dim = pr.d) :
    ∃ V', Py.add (.arr (.tensor V)) (.num b) = .ok (.arr (.tensor V')) ∧
      Values pr N K θ (fun θ n d => val θ n d + b) der hess V' D H ∧
      ∀ s, Stored pr m s V D H → Stored pr m s V' D H := by
  have hv := Solid.isVal h.vs h.vx h.vy
  obtain ⟨s, s1, s2, s3, s4, s5⟩ := num_scalar hv (op := .add) (c := b) (by simp)
  have hs1 : Py.add (.arr (.tensor V)) (.num b) = .ok (.arr (.tensor s)) := by
    show ((Num.tensor V).scalarOp .add b).map Py.arr = _
    rw [s1]; rfl
  have hadd : b ≠ 0 ∨ Op.additive .add := Or.inr (by simp [Op.additive])
  have hsol : Solid K (pr.layout 0 0) (.tensor s) := by
    have key : ∀ hp : Piece (pr.layout 0 0) V ∧ V.dim = pr.d, OnPiece K (pr.layout 0 0) s := fun hp =>
      s4 hadd (Solid.onPiece h.vs hp.1 hp.2)
    rcases hb with rfl | hb
    · have : (Num.tensor V).scalarOp .add 0 = .ok (.tensor V) := by
        unfold Num.scalarOp Tensor.binScalar; simp
      rw [this] at s1
      cases s1
      exact h.vs
    · exact solid_iff.2 (Or.inr (key hb))
  refine ⟨s, hs1, { h with vx := s2.hx, vy := s2.hy, vs := hsol, v := fun n d hnd x y => ?_ },
    fun s hst => { hst with tot := fun ht => s4 hadd (hst.tot ht) }⟩
  rw [s5]
  show V.dense _ + b = _
  rw [h.v n d hnd]

/-! ### sums -/

/-- How the sum of two functions is stored. -/
def Store.plus (s s2 : Store) : Store :=
  ⟨s.tot ∨ s2.tot, fun k => s.tot ∧ s.full k ∨ s2.tot ∧ s2.full k, s.mapped ∧ s2.mapped, fun p => s.used p ∨ s2.used p, s.clean ∧ s2.clean,
    fun p => s.single p ∧ s2.dead p ∨ s.dead p ∧ s2.single p, fun p => s.dead p ∧ s2.dead p,
    fun p q => s.curved p q ∨ s2.curved p q⟩

/-- What a sum of derivative arrays preserves. -/
structure Num.SumKept (v : Num ℝ) (a : Nat) (w r : Num ℝ) : Prop where
  mapped : v.Mapped → w.Mapped → r.Mapped
  live : v.Live ∨ w.Live → r.Live
  clean : v.Clean → w.Clean → r.Clean
  dead : v.Dead → w.Dead → r.Dead
  single : v.Single ∧ w.Dead ∨ v.Dead ∧ w.Single → r.Single
  wide : v.Wide a → w.Wide a → r.Wide a

theorem sum_kept {L : Layout} (hL : L.Ok) {v w r : Num ℝ} (hv : NumPiece L v) (hw : NumPiece L w) (h : v.bin w .add = .ok r) :
    v.SumKept L.a w r where
  wide m1 m2 := wide_bin hL hv hw m1 m2 h
  mapped m1 m2 := mapped_bin hL hv hw m1 m2 h
  live hl := live_bin hL hv hw hl h
  clean c1 c2 := clean_bin hL hv hw c1 c2 h
  dead d1 d2 := (dead_left hL d1 hw h).2.1 d2
  single hs := by
    rcases hs with ⟨h1, h2⟩ | ⟨h1, h2⟩
    · rw [dead_right hv h2 h]; exact h1
    · exact (dead_left hL h1 hw h).1 h2

theorem Values.add (hpr : pr.Ok) {θ : Theta} {val val2 : Val} {der der2 : Der} {hess hess2 : Hes} {V V2 : Tensor ℝ}
    {D D2 : Nat → Num ℝ} {H H2 : Nat → Nat → Num ℝ} (h : Values pr N K θ val der hess V D H)
    (h2 : Values pr N K θ val2 der2 hess2 V2 D2 H2) :
    ∃ V' D' H', Py.add (.arr (.tensor V)) (.arr (.tensor V2)) = .ok (.arr (.tensor V')) ∧
      (∀ p < m, Py.add (.arr (D p)) (.arr (D2 p)) = .ok (.arr (D' p))) ∧
      (∀ p < m, ∀ q ≤ p, Py.add (.arr (H p q)) (.arr (H2 p q)) = .ok (.arr (H' p q))) ∧
      Values pr N K θ (fun θ n d => val θ n d + val2 θ n d) (fun θ p a n d => der θ p a n d + der2 θ p a n d)
        (fun θ p q a b n d => hess θ p q a b n d + hess2 θ p q a b n d) V' D' H' ∧
      ∀ s s2, Stored pr m s V D H → Stored pr m s2 V2 D2 H2 →
        Stored pr m (s.plus s2) V' D' H' := by
  have hDs : ∀ p < m, ∃ r, Py.add (.arr (D p)) (.arr (D2 p)) = .ok (.arr r) ∧ NumPiece (pr.layout p p).noY r ∧
      NumSolid K (pr.layout p p).noY r ∧ ((D p).SumKept (pr.nd p) (D2 p) r ∧
      ((D p).Spans (pr.nd p) ∨ (D2 p).Spans (pr.nd p) → r.Spans (pr.nd p))) ∧
      ∀ i, r.dense i = (D p).dense i + (D2 p).dense i := by
    intro p hp
    have hL : (pr.layout p p).noY.Ok := ⟨hpr.2, hpr.1⟩
    obtain ⟨r, r1, r2, r3, r5⟩ := solid_add (L := (pr.layout p p).noY) ⟨hpr.2, hpr.1⟩ (h.dp p hp) (h2.dp p hp)
      (solid_iff.1 (h.ds p hp)) (solid_iff.1 (h2.ds p hp))
    exact ⟨r, by show ((D p).bin (D2 p) .add).map Py.arr = _; rw [r1]; rfl, r2, r3,
      ⟨sum_kept hL (h.dp p hp) (h2.dp p hp) r1, fun hs => spans_of_tall hL (tall_add hL (Or.inl rfl) (h.dp p hp) (h2.dp p hp)
        (hs.imp (spans_tall (h.dp p hp)) (spans_tall (h2.dp p hp))) r1)⟩, r5⟩
  have hHs : ∀ p < m, ∀ q ≤ p, ∃ r, Py.add (.arr (H p q)) (.arr (H2 p q)) = .ok (.arr r) ∧ NumPiece (pr.layout p q) r ∧
      NumSolid K (pr.layout p q) r ∧ (H p q).SumKept (pr.nd p) (H2 p q) r ∧
      ∀ i, r.dense i = (H p q).dense i + (H2 p q).dense i := by
    intro p hp q hq
    obtain ⟨r, r1, r2, r3, r5⟩ := solid_add (L := pr.layout p q) (hpr.layout _ _) (h.hp p hp q hq) (h2.hp p hp q hq)
      (solid_iff.1 (h.hs p hp q hq)) (solid_iff.1 (h2.hs p hp q hq))
    exact ⟨r, by show ((H p q).bin (H2 p q) .add).map Py.arr = _; rw [r1]; rfl, r2, r3,
      sum_kept (hpr.layout _ _) (h.hp p hp q hq) (h2.hp p hp q hq) r1, r5⟩
  choose! D' d1 d2 d3 d5 d4 using hDs
  choose! H' e1 e2 e3 e5 e4 using hHs
  have i1 := Solid.isVal h.vs h.vx h.vy
  have i2 := Solid.isVal h2.vs h2.vx h2.vy
  have hadd : Op.additive .add := by simp [Op.additive]
  obtain ⟨s, s1, s2, s3, s4, s5, s6, s7⟩ := val_op (hpr.layout 0 0) i1 i2 (op := .add) (by simp) (by simp)
  obtain ⟨r, r1, -, r3, -⟩ := solid_add (hpr.layout 0 0) (v := .tensor V) (w := .tensor V2)
    (OnItem.item (solid_iff.1 h.vs)) (OnItem.item (solid_iff.1 h2.vs)) (solid_iff.1 h.vs) (solid_iff.1 h2.vs)
  rw [s1] at r1
  cases r1
  refine ⟨s, D', H', by show ((Num.tensor V).bin (.tensor V2) .add).map Py.arr = _; rw [s1]; rfl, d1, e1,
    ⟨s2.hx, s2.hy, solid_iff.2 r3, fun n d hnd x y => ?_, d2, fun p hp => solid_iff.2 (d3 p hp),
      fun p hp a ha n d hnd y => ?_, e2, fun p hp q hq => solid_iff.2 (e3 p hp q hq), fun p hp q hq a b ha hb n d hnd => ?_⟩, ?_⟩
  · rw [s7 _ (by simp)]
    show V.dense _ + V2.dense _ = _
    rw [h.v n d hnd, h2.v n d hnd]
  · rw [d4 p hp, h.d p hp a ha n d hnd, h2.d p hp a ha n d hnd]
  · rw [e4 p hp q hq, h.h p hp q hq a b ha hb n d hnd, h2.h p hp q hq a b ha hb n d hnd]
  · intro st st2 hst hst2
    refine ⟨fun ht => ?_, fun hm p hp => (d5 p hp).1.mapped (hst.mapD hm.1 p hp) (hst2.mapD hm.2 p hp),
      fun hm p hp q hq => (e5 p hp q hq).mapped (hst.mapH hm.1 p hp q hq) (hst2.mapH hm.2 p hp q hq),
      fun p hp hu => (d5 p hp).2 (hu.imp (hst.live p hp) (hst2.live p hp)),
      fun hm p hp => (d5 p hp).1.clean (hst.cleanD hm.1 p hp) (hst2.cleanD hm.2 p hp),
      fun hm p hp q hq => (e5 p hp q hq).clean (hst.cleanH hm.1 p hp q hq) (hst2.cleanH hm.2 p hp q hq),
      fun p hp hu => (d5 p hp).1.single (hu.imp (fun h => ⟨hst.single p hp h.1, hst2.dead p hp h.2⟩) fun h => ⟨hst.dead p hp h.1, hst2.single p hp h.2⟩),
      fun p hp hu => (d5 p hp).1.dead (hst.dead p hp hu.1) (hst2.dead p hp hu.2),
      fun p hp q hq hu => (e5 p hp q hq).live (hu.imp (hst.liveH p hp q hq) (hst2.liveH p hp q hq)),
      fun hm p hp => (d5 p hp).1.wide (hst.wide hm.1 p hp) (hst2.wide hm.2 p hp)⟩
    have t1 : st.tot → OnPiece st.full (pr.layout 0 0) s := fun h => s6 (hst.tot h) (Or.inr (Or.inl hadd))
    have t2 : st2.tot → OnPiece st2.full (pr.layout 0 0) s := fun h => s5 (hst2.tot h)
    have t3 : Piece (pr.layout 0 0) s ∧ s.dim = pr.d := by
      rcases ht with ht | ht
      · exact ⟨(t1 ht).1, (t1 ht).2.1⟩
      · exact ⟨(t2 ht).1, (t2 ht).2.1⟩
    refine ⟨t3.1, t3.2, fun k hk hf => ?_⟩
    rcases hf with ⟨ht, hf⟩ | ⟨ht, hf⟩
    · exact (t1 ht).2.2 k hk hf
    · exact (t2 ht).2.2 k hk hf

/-! ### Affine -/

theorem smooth_affine {dom : Theta → Prop} {val : Val} {der : Der} {hess : Hes} (h : Smooth pr N dom val der hess) (c b : ℝ) :
    Smooth pr N dom (fun θ n d => c * val θ n d + b) (fun θ p a n d => c * der θ p a n d)
      (fun θ p q a b n d => c * hess θ p q a b n d) where
  hd θ hθ p hp a ha n d hnd := (HasDerivAt.const_mul c (h.hd θ hθ p hp a ha n d hnd)).add_const b
  hh θ hθ p hp q hq a b ha hb n d hnd := HasDerivAt.const_mul c (h.hh θ hθ p hp q hq a b ha hb n d hnd)

theorem mapM_row {β γ : Type} {f : β → Except Err γ} {m : Nat} {g : Nat → β} {g' : Nat → γ} (h : ∀ p < m, f (g p) = .ok (g' p)) :
    (row m g).mapM f = .ok (row m g') := by
  unfold row
  rw [List.mapM_map]
  exact mapM_list fun p hp => h p (List.mem_range.1 hp)

theorem mapM_triangle {β γ : Type} {f : β → Except Err γ} {m : Nat} {g : Nat → Nat → β} {g' : Nat → Nat → γ}
    (h : ∀ p < m, ∀ q ≤ p, f (g p q) = .ok (g' p q)) :
    (triangle m g).mapM (fun l => l.mapM f) = .ok (triangle m g') :=
  mapM_row fun p hp => mapM_row fun q hq => h p hp q (by omega)

/-- **C64.** `Affine(f, a, b)` (that is, `a * f + b`): `eval` and the three methods return `a * val + b` with its
derivatives.  (If `b ≠ 0`, the values of `a * f` must not be the number `Tensor(0)`.) -/
theorem C64_affine {s : Store} {dom : Theta → Prop} {f : TFunc ℝ} {val : Val} (hf : Computes pr N K s dom f val) {a b : ℝ}
    (hb : b = 0 ∨ s.tot ∧ a ≠ 0) :
    Computes pr N K (s.times a) dom (affineT f a b) fun θ n d => a * val θ n d + b := by
  obtain ⟨⟨der, hess, hsm, hret⟩, hg, hh⟩ := hf
  refine ⟨⟨_, _, smooth_affine hsm a b, fun θ hθ ps hps => ?_⟩, ?_, ?_⟩
  · obtain ⟨⟨V, D, H, ev, hv, ht⟩, V', D', H', ev', hv', ht'⟩ := hret _ hθ ps hps
    constructor
    · obtain ⟨V1, D1, H1, e1, e2, e3, e4, e5⟩ := hv.smul a
      obtain ⟨V2, k1, k2, k3⟩ := e4.shift (b := b) (hb.imp id fun h => ⟨((e5 s ht).tot h).1, ((e5 s ht).tot h).2.1⟩)
      refine ⟨V2, D1, H1, ?_, k2, k3 _ (e5 s ht)⟩
      show (do
        let e ← f.eval ps
        let v ← Py.mul (.num a) e.val
        let v ← Py.add v (.num b)
        let g ← e.grad.mapM (Py.mul (.num a))
        let h ← e.hess.mapM fun l => l.mapM (Py.mul (.num a))
        .ok ⟨v, g, h⟩ : Except Err (Ev3 ℝ)) = _
      rw [ev, ok_bind']
      dsimp only
      rw [e1, ok_bind', k1, ok_bind', mapM_row e2, ok_bind', mapM_triangle e3, ok_bind']
    · obtain ⟨s1, s2, s3⟩ := (sep_iff hps.1).1 ev'
      obtain ⟨V1, D1, H1, e1, e2, e3, e4, e5⟩ := hv'.smul a
      obtain ⟨V2, k1, k2, k3⟩ := e4.shift (b := b) (hb.imp id fun h => ⟨((e5 s ht').tot h).1, ((e5 s ht').tot h).2.1⟩)
      have zD : f.gradNull = true → ∀ p < m, D' p = zeroN := by
        intro hn p hp
        have := s2 p hp
        rw [hg hn] at this
        injection this with this
        injection this with this
        exact this.symm
      have zH : f.hessNull = true → ∀ p < m, ∀ q ≤ p, H' p q = zeroN := by
        intro hn p hp q hq
        have := s3 p hp q hq
        rw [hh hn] at this
        injection this with this
        injection this with this
        exact this.symm
      refine ⟨V2, fun p => if f.gradNull = true then zeroN else D1 p, fun p q => if f.hessNull = true then zeroN else H1 p q,
        (sep_iff hps.1).2 ⟨?_, fun p hp => ?_, fun p hp q hq => ?_⟩, ?_, ?_⟩
      · show (do
          let v ← f.call ps
          let v ← Py.mul (.num a) v
          Py.add v (.num b) : Except Err (Py ℝ)) = _
        rw [s1, ok_bind', e1, ok_bind', k1]
      · show (if f.gradNull = true then nullFunc else do
          let v ← f.grad ps p
          Py.mul (.num a) v : Except Err (Py ℝ)) = _
        dsimp only
        by_cases hn : f.gradNull = true
        · rw [if_pos hn, if_pos hn]; rfl
        · rw [if_neg hn, if_neg hn, s2 p hp, ok_bind', e2 p hp]
      · show (if f.hessNull = true then nullFunc else do
          let v ← f.hess ps p q
          Py.mul (.num a) v : Except Err (Py ℝ)) = _
        dsimp only
        by_cases hn : f.hessNull = true
        · rw [if_pos hn, if_pos hn]; rfl
        · rw [if_neg hn, if_neg hn, s3 p hp q hq, ok_bind', e3 p hp q hq]
      · have j1 : Values pr N K θ (fun θ n d => a * val θ n d + b) (fun θ p x n d => a * der θ p x n d)
            (fun θ p q x y n d => a * hess θ p q x y n d) V2 (fun p => if f.gradNull = true then zeroN else D1 p) H1 := by
          by_cases hn : f.gradNull = true
          · simp only [if_pos hn]
            refine k2.withZeroDer fun p hp x hx n d hnd => ?_
            rw [← hv'.d p hp x hx n d hnd (fun _ => 0), zD hn p hp, zeroN_dense, mul_zero]
          · simp only [if_neg hn]
            exact k2
        by_cases hn : f.hessNull = true
        · simp only [if_pos hn]
          refine j1.withZeroHess fun p hp q hq x y hx hy n d hnd => ?_
          rw [← hv'.h p hp q hq x y hx hy n d hnd, zH hn p hp q hq, zeroN_dense, mul_zero]
        · simp only [if_neg hn]
          exact j1
      · have j1 : Stored pr m (s.times a) V2 (fun p => if f.gradNull = true then zeroN else D1 p) H1 := by
          by_cases hn : f.gradNull = true
          · simp only [if_pos hn]
            refine (k3 _ (e5 s ht')).withZeroDer fun p hp hu => ?_
            have := ht'.live p hp hu.1
            rw [zD hn p hp] at this
            exact zeroN_not_live this.live
          · simp only [if_neg hn]
            exact k3 _ (e5 s ht')
        by_cases hn : f.hessNull = true
        · simp only [if_pos hn]
          refine j1.withZeroHess fun p hp q hq hu => ?_
          have := ht'.liveH p hp q hq hu.1
          rw [zH hn p hp q hq] at this
          exact zeroN_not_live this
        · simp only [if_neg hn]
          exact j1
  · intro hn ps i
    show (if f.gradNull = true then nullFunc else _ : Except Err (Py ℝ)) = _
    rw [if_pos (show f.gradNull = true from hn)]; rfl
  · intro hn ps i j
    show (if f.hessNull = true then nullFunc else _ : Except Err (Py ℝ)) = _
    rw [if_pos (show f.hessNull = true from hn)]; rfl

/-- The same for `a ≠ 0`. -/
theorem affine_computes {s : Store} {dom : Theta → Prop} {f : TFunc ℝ} {val : Val} (hf : Computes pr N K s dom f val) {a b : ℝ}
    (ha : a ≠ 0) (hb : b = 0 ∨ s.tot) : Computes pr N K s dom (affineT f a b) fun θ n d => a * val θ n d + b := by
  have := C64_affine hf (a := a) (b := b) (hb.imp id fun h => ⟨h, ha⟩)
  rwa [s.times_ne ha] at this

/-! ### Sum -/

theorem smooth_add {dom dom2 : Theta → Prop} {val val2 : Val} {der der2 : Der} {hess hess2 : Hes}
    (h : Smooth pr N dom val der hess) (h2 : Smooth pr N dom2 val2 der2 hess2) :
    Smooth pr N (fun θ => dom θ ∧ dom2 θ) (fun θ n d => val θ n d + val2 θ n d)
      (fun θ p a n d => der θ p a n d + der2 θ p a n d)
      (fun θ p q a b n d => hess θ p q a b n d + hess2 θ p q a b n d) where
  hd θ hθ p hp a ha n d hnd := HasDerivAt.add (h.hd θ hθ.1 p hp a ha n d hnd) (h2.hd θ hθ.2 p hp a ha n d hnd)
  hh θ hθ p hp q hq a b ha hb n d hnd :=
    HasDerivAt.add (h.hh θ hθ.1 p hp q hq a b ha hb n d hnd) (h2.hh θ hθ.2 p hp q hq a b ha hb n d hnd)

theorem values_zero (θ : Theta) : Values pr N K θ (fun _ _ _ => 0) (fun _ _ _ _ _ => 0) (fun _ _ _ _ _ _ _ => 0)
    (Tensor.const 0) (fun _ => zeroN) (fun _ _ => zeroN) where
  vx := rfl
  vy := rfl
  vs := solid_iff.2 zeroN_solid
  v _ _ _ _ _ := zeroN_dense _
  dp _ _ := zeroN_piece
  ds _ _ := solid_iff.2 zeroN_solid
  d _ _ _ _ _ _ _ _ := zeroN_dense _
  hp _ _ _ _ := zeroN_piece
  hs _ _ _ _ := solid_iff.2 zeroN_solid
  h _ _ _ _ _ _ _ _ _ _ _ := zeroN_dense _

theorem smooth_zero (dom : Theta → Prop) : Smooth pr N dom (fun _ _ _ => 0) (fun _ _ _ _ _ => 0) (fun _ _ _ _ _ _ _ => 0) where
  hd _ _ _ _ _ _ _ _ _ := hasDerivAt_const _ _
  hh _ _ _ _ _ _ _ _ _ _ _ _ _ := hasDerivAt_const _ _

theorem scalarOp_zero {α : Type} [Field α] [DecidableEq α] {K : Nat → Prop} {L : Layout} {v : Num α} (hp : NumPiece L v)
    (hs : NumSolid K L v) : v.scalarOp .add 0 = .ok v := by
  cases v with
  | tensor t => unfold Num.scalarOp Tensor.binScalar; simp
  | generic g =>
    have hne := (numPiece_generic hp).2
    have hm : mergeInto (.scalar 0) .add g.elements = .ok (some g.elements) := by
      rcases hg : g.elements with _ | ⟨e, es⟩
      · exact absurd hg hne
      · obtain ⟨t, rfl, -⟩ := hs.2 e (by rw [hg]; exact List.mem_cons_self)
        have : elemBin (.inl t) (.scalar (0 : α)) .add = .ok (.tensor t) := by
          show (match t.binScalar 0 .add with | .error e => .error e | .ok r => .ok (.tensor r) : Except Err (Num α)) = _
          simp [Tensor.binScalar]
        unfold mergeInto
        rw [this]
    have : g.binPrim (.scalar 0) .add = .ok g := by
      unfold Generic.binPrim
      simp only [hm, Generic.dims]
    unfold Num.scalarOp
    dsimp only
    rw [this]

/-- `0 + v` is `v`. -/
theorem zero_radd {L : Layout} {v : Num ℝ} (hp : NumPiece L v) (hs : NumSolid K L v) : Py.add (.num 0) (.arr v) = .ok (.arr v) := by
  show (v.scalarOp .add 0).map Py.arr = _
  rw [scalarOp_zero hp hs]; rfl

theorem foldlM_row_succ {β γ : Type} (f : β → γ → Except Err β) (b : β) (r : Nat) (g : Nat → γ) :
    (row (r + 1) g).foldlM f b = ((row r g).foldlM f b).bind fun c => f c (g r) := by
  unfold row
  rw [List.range_succ, List.map_append, List.foldlM_append]
  show ((List.map g (List.range r)).foldlM f b).bind (fun c => List.foldlM f c [g r]) = _
  congr 1
  funext c
  show (f c (g r)).bind (fun s => .ok s) = _
  cases f c (g r) <;> rfl

theorem ok_bind2 {β γ : Type} (a : β) (f : β → Except Err γ) : (Except.ok a : Except Err β).bind f = f a := rfl

/-- What is known about the terms of a sum, at the parameters `θ`: `x i` is returned by the `i`-th atom. -/
def TermsAt (pr : Problem) {m : Nat} (N : Numbering pr m) (K : Nat → Prop) (r : Nat) (s : Nat → Store) (θ : Theta)
    (val : Nat → Val) (der : Nat → Der) (hess : Nat → Hes) (x : Nat → Except Err (Ev3 ℝ)) : Prop :=
  ∀ i < r, Returns pr N K (s i) θ (val i) (der i) (hess i) (x i)

/-- The sum of the first terms. -/
def sumVal (r : Nat) (w : Nat → ℝ) (val : Nat → Val) : Val := fun θ n d => ∑ i ∈ Finset.range r, w i * val i θ n d

def sumDer (r : Nat) (w : Nat → ℝ) (der : Nat → Der) : Der := fun θ p a n d => ∑ i ∈ Finset.range r, w i * der i θ p a n d

def sumHess (r : Nat) (w : Nat → ℝ) (hess : Nat → Hes) : Hes := fun θ p q a b n d =>
  ∑ i ∈ Finset.range r, w i * hess i θ p q a b n d

theorem smooth_sum {r : Nat} {w : Nat → ℝ} {dom : Nat → Theta → Prop} {val : Nat → Val} {der : Nat → Der} {hess : Nat → Hes}
    (h : ∀ i < r, Smooth pr N (dom i) (val i) (der i) (hess i)) :
    Smooth pr N (fun θ => ∀ i < r, dom i θ) (sumVal r w val) (sumDer r w der) (sumHess r w hess) where
  hd θ hθ p hp a ha n d hnd := HasDerivAt.fun_sum fun i hi =>
    HasDerivAt.const_mul (w i) ((h i (Finset.mem_range.1 hi)).hd θ (hθ i (Finset.mem_range.1 hi)) p hp a ha n d hnd)
  hh θ hθ p hp q hq a b ha hb n d hnd := HasDerivAt.fun_sum fun i hi =>
    HasDerivAt.const_mul (w i) ((h i (Finset.mem_range.1 hi)).hh θ (hθ i (Finset.mem_range.1 hi)) p hp q hq a b ha hb n d hnd)

theorem stored_succ {r : Nat} {st : Nat → Store} {V : Tensor ℝ} {D : Nat → Num ℝ} {H : Nat → Nat → Num ℝ}
    (h : Stored pr m ((Store.sum r st).plus (st r)) V D H) :
    Stored pr m (Store.sum (r + 1) st) V D H := by
  have key : ∀ {P : Nat → Prop}, (∃ i < r + 1, P i) → (∃ i < r, P i) ∨ P r := by
    rintro P ⟨i, hi, hp⟩
    by_cases hir : i < r
    · exact Or.inl ⟨i, hir, hp⟩
    · obtain rfl : i = r := by omega
      exact Or.inr hp
  have key2 : (Store.sum (r + 1) st).mapped → (Store.sum r st).mapped ∧ (st r).mapped := fun hm =>
    ⟨fun i hi => hm i (by omega), hm r (by omega)⟩
  have key3 : (Store.sum (r + 1) st).clean → (Store.sum r st).clean ∧ (st r).clean := fun hm =>
    ⟨fun i hi => hm i (by omega), hm r (by omega)⟩
  refine ⟨fun ht => ?_, fun hm => h.mapD (key2 hm), fun hm => h.mapH (key2 hm), fun p hp hu => h.live p hp (key hu),
    fun hm => h.cleanD (key3 hm), fun hm => h.cleanH (key3 hm), fun p hp hu => h.single p hp ?_,
    fun p hp hu => h.dead p hp ⟨fun i hi => hu i (by omega), hu r (by omega)⟩,
    fun p hp q hq hu => h.liveH p hp q hq (key hu), fun hm => h.wide (key3 hm)⟩
  rotate_left
  · obtain ⟨i, hi, h1, h2⟩ := hu
    by_cases hir : i < r
    · exact Or.inl ⟨⟨i, hir, h1, fun j hj => h2 j (by omega)⟩, h2 r (by omega) (by omega)⟩
    · obtain rfl : i = r := by omega
      exact Or.inr ⟨fun j hj => h2 j (by omega) (by omega), h1⟩
  obtain ⟨t1, t2, t3⟩ := h.tot (key ht)
  refine ⟨t1, t2, fun k hk hf => t3 k hk ?_⟩
  rcases key hf with ⟨i, hi, hf⟩ | hf
  · exact Or.inl ⟨⟨i, hi, hf.1⟩, i, hi, hf⟩
  · exact Or.inr hf

/-- `Sum.eval` -/
theorem sum_eval (hpr : pr.Ok) {θ : Theta} {ps : List (Tensor ℝ)} (hm : ps.length = m) {w : Nat → ℝ} {f : Nat → TFunc ℝ} {g : Nat → Wrap}
    {st : Nat → Store} {val : Nat → Val} {der : Nat → Der} {hess : Nat → Hes} :
    ∀ {r : Nat}, TermsAt pr N K r st θ val der hess (fun i => (wrapT (f i) (g i)).eval ps) →
    Returns pr N K (Store.sum r fun i => (st i).times (w i)) θ (sumVal r w val) (sumDer r w der) (sumHess r w hess)
      ((sumT (row r fun i => (w i, f i, g i)) 0).eval ps)
  | 0, _ => by
    refine ⟨Tensor.const 0, fun _ => zeroN, fun _ _ => zeroN, ?_, ?_, ⟨fun ⟨i, hi, _⟩ => absurd hi (Nat.not_lt_zero i),
      fun _ _ _ => zeroN_mapped, fun _ _ _ _ _ => zeroN_mapped, fun _ _ ⟨i, hi, _⟩ => absurd hi (Nat.not_lt_zero i),
      fun _ _ _ => zeroN_clean, fun _ _ _ _ _ => zeroN_clean, fun _ _ _ => zeroN_single, fun _ _ _ => zeroN_dead,
      fun _ _ _ _ ⟨i, hi, _⟩ => absurd hi (Nat.not_lt_zero i), fun _ _ _ => zeroN_wide _⟩⟩
    · show (Except.ok _ : Except Err (Ev3 ℝ)) = _
      congr 1
      rw [hm, zero_triangle]
      congr 1
      unfold row
      apply List.ext_getElem
      · simp
      · intro k h1 h2
        rw [List.getElem_map, List.getElem_replicate]; rfl
    · have := values_zero (pr := pr) (N := N) (K := K) θ
      exact ⟨this.vx, this.vy, this.vs, fun n d hnd x y => by rw [this.v n d hnd]; simp [sumVal], this.dp, this.ds,
        fun p hp a ha n d hnd y => by rw [this.d p hp a ha n d hnd]; simp [sumDer], this.hp, this.hs,
        fun p hp q hq a b ha hb n d hnd => by rw [this.h p hp q hq a b ha hb n d hnd]; simp [sumHess]⟩
  | r + 1, ht => by
    obtain ⟨V, D, H, e, hv, htot⟩ := sum_eval hpr hm (r := r) fun i hi => ht i (by omega)
    obtain ⟨V1, D1, H1, e1, hv1, htot1⟩ := ht r (by omega)
    obtain ⟨V2, D2, H2, m1, m2, m3, m4, m5⟩ := hv1.smul (w r)
    obtain ⟨V3, D3, H3, s1, s2, s3, s4, s5⟩ := hv.add hpr m4
    refine ⟨V3, D3, H3, ?_, ?_, ?_⟩
    · show (row (r + 1) fun i => (w i, f i, g i)).foldlM _ _ = _
      rw [foldlM_row_succ]
      have e' : (row r fun i => (w i, f i, g i)).foldlM (fun acc a => sumStep ps.length acc a ps)
          ⟨zeroT, List.replicate ps.length zeroT, (List.range ps.length).map fun i => List.replicate (i + 1) zeroT⟩ =
          .ok ⟨.arr (.tensor V), row m fun p => .arr (D p), triangle m fun p q => .arr (H p q)⟩ := e
      rw [e', ok_bind2]
      unfold sumStep
      have e1' : (g r).eval (f r) ps =
          .ok ⟨.arr (.tensor V1), row m fun p => .arr (D1 p), triangle m fun p q => .arr (H1 p q)⟩ := e1
      dsimp only
      rw [e1', ok_bind']
      dsimp only
      rw [m1, ok_bind', s1, ok_bind', hm]
      have hgs : (List.range m).mapM (fun i => (do
          let x ← pick (row m fun p => Py.arr (D p)) i
          let y ← pick (row m fun p => Py.arr (D1 p)) i
          let y ← Py.mul (.num (w r)) y
          Py.add x y : Except Err (Py ℝ))) = .ok (row m fun p => .arr (D3 p)) := by
        refine mapM_list fun p hp => ?_
        have hp := List.mem_range.1 hp
        rw [pick_range hp, ok_bind', pick_range hp, ok_bind', m2 p hp, ok_bind', s2 p hp]
      have hhs : (List.range m).mapM (fun i => (List.range (i + 1)).mapM fun j => (do
          let x ← pick2 (triangle m fun p q => Py.arr (H p q)) i j
          let y ← pick2 (triangle m fun p q => Py.arr (H1 p q)) i j
          let y ← Py.mul (.num (w r)) y
          Py.add x y : Except Err (Py ℝ))) = .ok (triangle m fun p q => .arr (H3 p q)) := by
        refine mapM_list fun p hp => mapM_list fun q hq => ?_
        have hp := List.mem_range.1 hp
        have hq : q ≤ p := by have := List.mem_range.1 hq; omega
        rw [pick2_range hp hq, ok_bind', pick2_range hp hq, ok_bind', m3 p hp q hq, ok_bind', s3 p hp q hq]
      rw [hgs, ok_bind', hhs, ok_bind']
    · have a1 : sumVal (r + 1) w val = fun θ n d => sumVal r w val θ n d + w r * val r θ n d := by
        funext θ n d; exact Finset.sum_range_succ _ _
      have a2 : sumDer (r + 1) w der = fun θ p a n d => sumDer r w der θ p a n d + w r * der r θ p a n d := by
        funext θ p a n d; exact Finset.sum_range_succ _ _
      have a3 : sumHess (r + 1) w hess = fun θ p q a b n d => sumHess r w hess θ p q a b n d + w r * hess r θ p q a b n d := by
        funext θ p q a b n d; exact Finset.sum_range_succ _ _
      rw [a1, a2, a3]
      exact s4
    · exact stored_succ (s5 _ _ htot (m5 _ htot1))

/-- The three methods of `Sum` -/
theorem sum_sep (hpr : pr.Ok) {θ : Theta} {ps : List (Tensor ℝ)} (hm : ps.length = m) {w : Nat → ℝ} {f : Nat → TFunc ℝ} {g : Nat → Wrap}
    {st : Nat → Store} {val : Nat → Val} {der : Nat → Der} {hess : Nat → Hes} {r : Nat} (hr : 0 < r)
    (ht : TermsAt pr N K r st θ val der hess (fun i => (wrapT (f i) (g i)).sep ps)) :
    Returns pr N K (Store.sum r fun i => (st i).times (w i)) θ (sumVal r w val) (sumDer r w der) (sumHess r w hess)
      ((sumT (row r fun i => (w i, f i, g i)) 0).sep ps) := by
  -- the weighted terms
  have hterm : ∀ i < r, ∃ V D H, Values pr N K θ (fun θ n d => w i * val i θ n d) (fun θ p a n d => w i * der i θ p a n d)
        (fun θ p q a b n d => w i * hess i θ p q a b n d) V D H ∧
      Stored pr m ((st i).times (w i)) V D H ∧
      ((do let v ← (g i).call (f i) ps; Py.mul (.num (w i)) v : Except Err (Py ℝ)) = .ok (.arr (.tensor V))) ∧
      (∀ p < m, (do let v ← (g i).grad (f i) ps p; Py.mul (.num (w i)) v : Except Err (Py ℝ)) = .ok (.arr (D p))) ∧
      ∀ p < m, ∀ q ≤ p, (do let v ← (g i).hess (f i) ps p q; Py.mul (.num (w i)) v : Except Err (Py ℝ)) = .ok (.arr (H p q)) := by
    intro i hi
    obtain ⟨V, D, H, e, hv, htot⟩ := ht i hi
    obtain ⟨s1, s2, s3⟩ := (sep_iff hm).1 e
    obtain ⟨V2, D2, H2, m1, m2, m3, m4, m5⟩ := hv.smul (w i)
    have s1' : (g i).call (f i) ps = .ok (.arr (.tensor V)) := s1
    refine ⟨V2, D2, H2, m4, m5 _ htot, by rw [s1', ok_bind', m1], fun p hp => ?_, fun p hp q hq => ?_⟩
    · have : (g i).grad (f i) ps p = .ok (.arr (D p)) := s2 p hp
      rw [this, ok_bind', m2 p hp]
    · have : (g i).hess (f i) ps p q = .ok (.arr (H p q)) := s3 p hp q hq
      rw [this, ok_bind', m3 p hp q hq]
  have : Inhabited (Tensor ℝ) := ⟨Tensor.const 0⟩
  choose! V D H h1 h2 h3 h4 h5 using hterm
  -- partial sums
  have hsum : ∀ s, s < r → ∃ V' D' H', pySum (row (s + 1) fun i => .arr (.tensor (V i))) = .ok (.arr (.tensor V')) ∧
      (∀ p < m, pySum (row (s + 1) fun i => .arr (D i p)) = .ok (.arr (D' p))) ∧
      (∀ p < m, ∀ q ≤ p, pySum (row (s + 1) fun i => .arr (H i p q)) = .ok (.arr (H' p q))) ∧
      Values pr N K θ (sumVal (s + 1) w val) (sumDer (s + 1) w der) (sumHess (s + 1) w hess) V' D' H' ∧
      Stored pr m (Store.sum (s + 1) fun i => (st i).times (w i)) V' D' H' := by
    intro s
    induction s with
    | zero =>
      intro hs
      have hv := h1 0 hs
      refine ⟨V 0, D 0, H 0, ?_, fun p hp => ?_, fun p hp q hq => ?_, ?_, ?_⟩
      · show (Py.add (.num 0) (.arr (.tensor (V 0)))).bind _ = _
        rw [zero_radd (L := pr.layout 0 0) (v := .tensor (V 0)) (OnItem.item (solid_iff.1 hv.vs)) (solid_iff.1 hv.vs)]; rfl
      · show (Py.add (.num 0) (.arr (D 0 p))).bind _ = _
        rw [zero_radd (hv.dp p hp) (solid_iff.1 (hv.ds p hp))]; rfl
      · show (Py.add (.num 0) (.arr (H 0 p q))).bind _ = _
        rw [zero_radd (hv.hp p hp q hq) (solid_iff.1 (hv.hs p hp q hq))]; rfl
      · have a1 : sumVal 1 w val = fun θ n d => w 0 * val 0 θ n d := by funext θ n d; simp [sumVal]
        have a2 : sumDer 1 w der = fun θ p a n d => w 0 * der 0 θ p a n d := by funext θ p a n d; simp [sumDer]
        have a3 : sumHess 1 w hess = fun θ p q a b n d => w 0 * hess 0 θ p q a b n d := by
          funext θ p q a b n d; simp [sumHess]
        rw [Nat.zero_add, a1, a2, a3]
        exact hv
      · have hst := h2 0 hs
        have key : ∀ {P : Nat → Prop}, (∃ i < 0 + 1, P i) → P 0 := by
          rintro P ⟨i, hi, hp⟩
          obtain rfl : i = 0 := by omega
          exact hp
        exact ⟨fun t => ⟨(hst.tot (key t)).1, (hst.tot (key t)).2.1, fun k hk hf => (hst.tot (key t)).2.2 k hk (key hf).2⟩,
          fun hm => hst.mapD (hm 0 (by omega)), fun hm => hst.mapH (hm 0 (by omega)),
          fun p hp hu => hst.live p hp (key hu), fun hm => hst.cleanD (hm 0 (by omega)), fun hm => hst.cleanH (hm 0 (by omega)),
          fun p hp hu => hst.single p hp (key hu).1, fun p hp hu => hst.dead p hp (hu 0 (by omega)),
          fun p hp q hq hu => hst.liveH p hp q hq (key hu), fun hm => hst.wide (hm 0 (by omega))⟩
    | succ s ih =>
      intro hs
      obtain ⟨V', D', H', k1, k2, k3, k4, k5⟩ := ih (by omega)
      obtain ⟨V3, D3, H3, s1, s2, s3, s4, s5⟩ := k4.add hpr (h1 (s + 1) hs)
      refine ⟨V3, D3, H3, ?_, fun p hp => ?_, fun p hp q hq => ?_, ?_, ?_⟩
      · unfold pySum at k1 ⊢; rw [foldlM_row_succ, k1, ok_bind2, s1]
      · have := k2 p hp
        unfold pySum at this ⊢; rw [foldlM_row_succ, this, ok_bind2, s2 p hp]
      · have := k3 p hp q hq
        unfold pySum at this ⊢; rw [foldlM_row_succ, this, ok_bind2, s3 p hp q hq]
      · have a1 : sumVal (s + 1 + 1) w val = fun θ n d => sumVal (s + 1) w val θ n d + w (s + 1) * val (s + 1) θ n d := by
          funext θ n d; exact Finset.sum_range_succ _ _
        have a2 : sumDer (s + 1 + 1) w der = fun θ p a n d => sumDer (s + 1) w der θ p a n d + w (s + 1) * der (s + 1) θ p a n d := by
          funext θ p a n d; exact Finset.sum_range_succ _ _
        have a3 : sumHess (s + 1 + 1) w hess = fun θ p q a b n d =>
            sumHess (s + 1) w hess θ p q a b n d + w (s + 1) * hess (s + 1) θ p q a b n d := by
          funext θ p q a b n d; exact Finset.sum_range_succ _ _
        rw [a1, a2, a3]
        exact s4
      · exact stored_succ (s5 _ _ k5 (h2 _ hs))
  obtain ⟨V', D', H', k1, k2, k3, k4, k5⟩ := hsum (r - 1) (by omega)
  rw [show r - 1 + 1 = r by omega] at k1 k2 k3 k4 k5
  obtain ⟨V3, j1, j2, j3⟩ := k4.shift (b := 0) (Or.inl rfl)
  refine ⟨V3, D', H', (sep_iff hm).2 ⟨?_, fun p hp => ?_, fun p hp q hq => ?_⟩, ?_, j3 _ k5⟩
  · show (do
      let l ← (row r fun i => (w i, f i, g i)).mapM _
      let s ← pySum l
      Py.add s (.num 0) : Except Err (Py ℝ)) = _
    rw [mapM_row (g' := fun i => Py.arr (.tensor (V i))) fun i hi => h3 i hi, ok_bind', k1, ok_bind', j1]
  · show (do
      let l ← (row r fun i => (w i, f i, g i)).mapM _
      pySum l : Except Err (Py ℝ)) = _
    rw [mapM_row (g' := fun i => Py.arr (D i p)) fun i hi => h4 i hi p hp, ok_bind', k2 p hp]
  · show (do
      let l ← (row r fun i => (w i, f i, g i)).mapM _
      pySum l : Except Err (Py ℝ)) = _
    rw [mapM_row (g' := fun i => Py.arr (H i p q)) fun i hi => h5 i hi p hp q hq, ok_bind', k3 p hp q hq]
  · have : (fun θ n d => sumVal r w val θ n d + 0) = sumVal r w val := by funext θ n d; exact add_zero _
    rw [this] at j2
    exact j2

/-- **C64.** A `Sum` of at least one atom, without a constant term (`eval` ignores it): `eval` and the three methods return the weighted sum
of the functions of the atoms, with its derivatives. -/
theorem C64_sum_partial (hpr : pr.Ok) {r : Nat} (hr : 0 < r) {w : Nat → ℝ} {f : Nat → TFunc ℝ} {g : Nat → Wrap}
    {st : Nat → Store} {dom : Nat → Theta → Prop} {val : Nat → Val}
    (hf : ∀ i < r, Computes pr N K (st i) (dom i) (wrapT (f i) (g i)) (val i)) :
    Computes pr N K (Store.sum r fun i => (st i).times (w i)) (fun θ => ∀ i < r, dom i θ) (sumT (row r fun i => (w i, f i, g i)) 0)
      fun θ n d => ∑ i ∈ Finset.range r, w i * val i θ n d := by
  have hok := fun i hi => (hf i hi).ok
  choose! der hess h1 h2 using hok
  refine ⟨⟨sumDer r w der, sumHess r w hess, smooth_sum h1, fun θ hθ ps hps => ?_⟩, fun h => (by cases h), fun h => (by cases h)⟩
  exact ⟨sum_eval hpr hps.1 fun i hi => (h2 i hi θ (hθ i hi) ps hps).1,
    sum_sep hpr hps.1 hr fun i hi => (h2 i hi θ (hθ i hi) ps hps).2⟩

theorem Store.sum_congr {r : Nat} {s s' : Nat → Store} (h : ∀ i < r, s i = s' i) : Store.sum r s = Store.sum r s' := by
  have e : ∀ (P Q : Nat → Store → Prop), (∀ i < r, P i (s i) = Q i (s' i)) → (∃ i < r, P i (s i)) = ∃ i < r, Q i (s' i) :=
    fun P Q hpq => propext ⟨fun ⟨i, hi, hp⟩ => ⟨i, hi, by rw [← hpq i hi]; exact hp⟩, fun ⟨i, hi, hp⟩ => ⟨i, hi, by rw [hpq i hi]; exact hp⟩⟩
  have a : ∀ (P : Nat → Store → Prop), (∀ i < r, P i (s i)) = ∀ i < r, P i (s' i) :=
    fun P => propext ⟨fun hp i hi => by rw [← h i hi]; exact hp i hi, fun hp i hi => by rw [h i hi]; exact hp i hi⟩
  unfold Store.sum
  congr 1
  · exact e (fun _ x => x.tot) (fun _ x => x.tot) fun i hi => by rw [h i hi]
  · funext k; exact e (fun _ x => x.tot ∧ x.full k) (fun _ x => x.tot ∧ x.full k) fun i hi => by rw [h i hi]
  · exact a fun _ x => x.mapped
  · funext p; exact e (fun _ x => x.used p) (fun _ x => x.used p) fun i hi => by rw [h i hi]
  · exact a fun _ x => x.clean
  · funext p
    refine propext ⟨fun ⟨i, hi, h1, h2⟩ => ⟨i, hi, by rw [← h i hi]; exact h1, fun j hj hji => by rw [← h j hj]; exact h2 j hj hji⟩,
      fun ⟨i, hi, h1, h2⟩ => ⟨i, hi, by rw [h i hi]; exact h1, fun j hj hji => by rw [h j hj]; exact h2 j hj hji⟩⟩
  · funext p; exact a fun _ x => x.dead p
  · funext p q; exact e (fun _ x => x.curved p q) (fun _ x => x.curved p q) fun i hi => by rw [h i hi]

/-- The same for weights that are not zero. -/
theorem sum_computes (hpr : pr.Ok) {r : Nat} (hr : 0 < r) {w : Nat → ℝ} (hw : ∀ i < r, w i ≠ 0) {f : Nat → TFunc ℝ} {g : Nat → Wrap}
    {st : Nat → Store} {dom : Nat → Theta → Prop} {val : Nat → Val}
    (hf : ∀ i < r, Computes pr N K (st i) (dom i) (wrapT (f i) (g i)) (val i)) :
    Computes pr N K (Store.sum r st) (fun θ => ∀ i < r, dom i θ) (sumT (row r fun i => (w i, f i, g i)) 0)
      fun θ n d => ∑ i ∈ Finset.range r, w i * val i θ n d := by
  have := C64_sum_partial hpr hr (w := w) hf
  rwa [Store.sum_congr fun i hi => (st i).times_ne (hw i hi)] at this

end

end Verif.Tens
