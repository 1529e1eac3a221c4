import Verif.Lemmas.FuncTensor

/-!
# C64: `FuncWrap` on Tensors
-/

set_option linter.unusedSectionVars false

namespace Verif.Tens
open Verif.Params (Err)
open NDArray

theorem Piece.novars {α : Type} [Field α] [DecidableEq α] {L L' : Layout} {t : Tensor α} (h : Piece L t) (hx : t.xDim = 0) (hy : t.yDim = 0) (hn : L'.n = L.n)
    (hd : L'.d = L.d) (hS : L'.S = L.S) : Piece L' t :=
  ⟨h.wf, h.inj, Or.inl hx, Or.inl hy, by rw [hn]; exact h.hn, by rw [hd]; exact h.hd, by rw [hn, hS]; exact h.size,
    fun k hk => by omega, fun k hk => by omega⟩

theorem OnItem.novars {α : Type} [Field α] [DecidableEq α] {L L' : Layout} {K : Nat → Prop} {t : Tensor α} (h : OnItem K L t) (hx : t.xDim = 0) (hy : t.yDim = 0)
    (hn : L'.n = L.n) (hd : L'.d = L.d) (hS : L'.S = L.S) : OnItem K L' t := by
  rcases h with h | h
  · exact Or.inl h
  · refine Or.inr ⟨h.1.novars hx hy hn hd hS, ?_, ?_⟩
    · rw [hd]; exact h.2.1
    · rw [hn, hd, hS]; exact h.2.2

/-- `Tensor(0)` as a derivative -/
def zeroN : Num ℝ := .tensor (Tensor.const 0)

theorem zeroN_piece {L : Layout} : NumPiece L zeroN := Or.inr Tensor.isZero_const

theorem zeroN_solid {L : Layout} {K : Nat → Prop} : NumSolid K L zeroN := Or.inl Tensor.isZero_const

theorem zeroN_mapped : zeroN.Mapped := Tensor.mapped_const 0

theorem zeroN_wide (a : Nat) : zeroN.Wide a := Or.inl Tensor.isZero_const

theorem zeroN_not_live : ¬ zeroN.Live := fun h => h Tensor.isZero_const

theorem zeroN_dead : zeroN.Dead := Tensor.isZero_const

theorem zeroN_clean : zeroN.Clean := trivial

theorem zeroN_single : zeroN.Single := trivial

theorem zeroN_dense (i : Idx) : zeroN.dense i = 0 := Tensor.isZero_const.dense i

section
variable {pr0 : Problem} {m0 : Nat} {N0 : Numbering pr0 m0} {pr : Problem} {m : Nat} {N : Numbering pr m}
  {pm fm dm : List Nat} {K0 K : Nat → Prop}

/-- The function of the parameters, positions… that a `FuncWrap` computes. -/
def wrapVal (pm fm dm : List Nat) (val : Val) : Val := fun θ n d => val (θ.sub pm) (through fm n) (through dm d)

def wrapDer (pm fm dm : List Nat) (der : Der) : Der := fun θ p a n d =>
  (pm.findIdx? (· == p)).elim 0 fun k => der (θ.sub pm) k a (through fm n) (through dm d)

def wrapHess (pm fm dm : List Nat) (hess : Hes) : Hes := fun θ p q a b n d =>
  (pm.findIdx? (· == p)).elim 0 fun k => (pm.findIdx? (· == q)).elim 0 fun l =>
    hess (θ.sub pm) k l a b (through fm n) (through dm d)

def wrapD (pm : List Nat) (D : Nat → Num ℝ) (p : Nat) : Num ℝ := (pm.findIdx? (· == p)).elim zeroN D

def wrapH (pm : List Nat) (H : Nat → Nat → Num ℝ) (p q : Nat) : Num ℝ :=
  (pm.findIdx? (· == p)).elim zeroN fun k => (pm.findIdx? (· == q)).elim zeroN (H k)

theorem wrap_smooth (h : Inside N0 N pm fm dm) {dom : Theta → Prop} {val : Val} {der : Der} {hess : Hes}
    (hs : Smooth pr0 N0 dom val der hess) :
    Smooth pr N (fun θ => dom (θ.sub pm)) (wrapVal pm fm dm val) (wrapDer pm fm dm der) (wrapHess pm fm dm hess) := by
  constructor
  · intro θ hθ p hp a ha n d hnd
    unfold wrapVal wrapDer
    cases hi : pm.findIdx? (· == p) with
    | none => exact partial_other (F := fun θ => val θ (through fm n) (through dm d)) (findIdx_none hi) a
    | some k =>
      obtain ⟨hk, rfl⟩ := findIdx_some hi
      have hk' : k < m0 := by rw [← h.pmLen]; exact hk
      refine partial_sub (F := fun θ => val θ (through fm n) (through dm d)) h.nodup hk ?_
      refine hs.hd _ hθ k hk' a ?_ _ _ (h.pos hnd)
      rw [h.e k hk']
      exact (h.entry hk').2 ha
  · intro θ hθ p hp q hq a b ha hb n d hnd
    unfold wrapDer wrapHess
    cases hi : pm.findIdx? (· == p) with
    | none =>
      show HasPartial (fun _ => (0 : ℝ)) θ q b 0
      exact hasDerivAt_const _ _
    | some k =>
      obtain ⟨hk, rfl⟩ := findIdx_some hi
      have hk' : k < m0 := by rw [← h.pmLen]; exact hk
      cases hj : pm.findIdx? (· == q) with
      | none => exact partial_other (F := fun θ => der θ k a (through fm n) (through dm d)) (findIdx_none hj) b
      | some l =>
        obtain ⟨hl, rfl⟩ := findIdx_some hj
        have hl' : l < m0 := by rw [← h.pmLen]; exact hl
        have hlk := sorted_get h.pmS hk hl hq
        refine partial_sub (F := fun θ => der θ k a (through fm n) (through dm d)) h.nodup hl ?_
        refine hs.hh _ hθ k hk' l hlk a b ?_ ?_ _ _ (h.pos hnd)
        · rw [h.e k hk']; exact (h.entry hk').2 ha
        · rw [h.e l hl']; exact (h.entry hl').2 hb

theorem wrap_values (hpr : pr.Ok) (h : Inside N0 N pm fm dm) (hK : Carries pr0 pr fm dm K0 K) {θ : Theta}
    {val : Val} {der : Der} {hess : Hes} {V : Tensor ℝ} {D : Nat → Num ℝ} {H : Nat → Nat → Num ℝ}
    (hv : Values pr0 N0 K0 (θ.sub pm) val der hess V D H) :
    ∃ V' D1 H1, (⟨pm, fm, pr.n, dm, pr.d, []⟩ : Wrap).expand (.arr (.tensor V)) = .ok (.arr (.tensor V')) ∧
      (∀ k < m0, (⟨pm, fm, pr.n, dm, pr.d, []⟩ : Wrap).expand (.arr (D k)) = .ok (.arr (D1 k))) ∧
      (∀ k < m0, ∀ l ≤ k, (⟨pm, fm, pr.n, dm, pr.d, []⟩ : Wrap).expand (.arr (H k l)) = .ok (.arr (H1 k l))) ∧
      Values pr N K θ (wrapVal pm fm dm val) (wrapDer pm fm dm der) (wrapHess pm fm dm hess) V' (wrapD pm D1)
        (wrapH pm H1) ∧
      ∀ s, Stored pr0 m0 s V D H → Stored pr m (s.wrap pr0 pr pm fm dm) V' (wrapD pm D1) (wrapH pm H1) := by
  have hDs : ∀ k < m0, ∃ r, (⟨pm, fm, pr.n, dm, pr.d, []⟩ : Wrap).expand (.arr (D k)) = .ok (.arr r) ∧
      NumPiece (pr.layout (pm.getD k 0) (pm.getD k 0)).noY r ∧
      NumSolid K (pr.layout (pm.getD k 0) (pm.getD k 0)).noY r ∧ (D k).Kept r ∧
      ∀ i : Idx, r.dense i = (D k).dense ⟨i.x, i.y, fun k => i.n (fm.getD k 0), fun k => i.d (dm.getD k 0)⟩ := by
    intro k hk
    obtain ⟨r, r1, r2, r3, -, r6, r5⟩ := wrap_expand (L := (pr.layout (pm.getD k 0) (pm.getD k 0)).noY)
      ⟨hpr.2, hpr.1⟩ (h.embedsNoY hk) (K0 := K0) (K := K) hK pm (hv.dp k hk) (solid_iff.1 (hv.ds k hk))
    exact ⟨r, r1, r2, r3, r6, r5⟩
  have hHs : ∀ k < m0, ∀ l ≤ k, ∃ r, (⟨pm, fm, pr.n, dm, pr.d, []⟩ : Wrap).expand (.arr (H k l)) = .ok (.arr r) ∧
      NumPiece (pr.layout (pm.getD k 0) (pm.getD l 0)) r ∧
      NumSolid K (pr.layout (pm.getD k 0) (pm.getD l 0)) r ∧ (H k l).Kept r ∧
      ∀ i : Idx, r.dense i = (H k l).dense ⟨i.x, i.y, fun k => i.n (fm.getD k 0), fun k => i.d (dm.getD k 0)⟩ := by
    intro k hk l hl
    obtain ⟨r, r1, r2, r3, -, r6, r5⟩ := wrap_expand (L := pr.layout (pm.getD k 0) (pm.getD l 0))
      (hpr.layout _ _) (h.embeds hk (lt_of_le_of_lt hl hk)) (K0 := K0) (K := K) hK pm (hv.hp k hk l hl)
      (solid_iff.1 (hv.hs k hk l hl))
    exact ⟨r, r1, r2, r3, r6, r5⟩
  choose! D1 d1 d2 d3 d5 d4 using hDs
  choose! H1 e1 e2 e3 e5 e4 using hHs
  -- the value
  have hE : (⟨0, 0, pr0.n, pr0.d, pr0.S, fun _ => 0, fun _ => 0⟩ : Layout).Embeds
      ⟨0, 0, pr.n, pr.d, pr.S, fun _ => 0, fun _ => 0⟩ fm dm :=
    ⟨h.fmN, h.fmLt, h.fmLen, h.dmN, h.dmLt, h.dmLen, fun k hk => (h.fmS k hk).symm, fun k hk => (h.dmS k hk).symm,
      rfl, rfl, fun _ _ => rfl, fun _ _ => rfl⟩
  have hVi : OnItem K0 (⟨0, 0, pr0.n, pr0.d, pr0.S, fun _ => 0, fun _ => 0⟩ : Layout) V :=
    OnItem.novars (L := pr0.layout 0 0) (solid_iff.1 hv.vs) hv.vx hv.vy rfl rfl rfl
  obtain ⟨r, v1, v2, v3, v4, -, v5⟩ := wrap_expand (L := ⟨0, 0, pr.n, pr.d, pr.S, fun _ => 0, fun _ => 0⟩)
    ⟨hpr.2, hpr.1⟩ hE (K0 := K0) (K := K) hK pm (v := .tensor V) hVi.item hVi
  obtain ⟨V', rfl, vx, vy, vp⟩ := v4 V rfl
  have vx : V'.xDim = 0 := by have := hv.vx; omega
  have vy : V'.yDim = 0 := by have := hv.vy; omega
  -- positions
  have hn : ∀ n : Nat → Nat, ∀ k < pr0.n, n (fm.getD k 0) = through fm n k := fun n k hk =>
    (through_of (by rw [h.fmLen]; exact hk)).symm
  have hd : ∀ d : Nat → Nat, ∀ k < pr0.d, d (dm.getD k 0) = through dm d k := fun d k hk =>
    (through_of (by rw [h.dmLen]; exact hk)).symm
  refine ⟨V', D1, H1, v1, d1, e1, ⟨vx, vy, solid_iff.2 ?_, ?_, ?_, ?_, ?_, ?_, ?_, ?_⟩, ?_⟩
  · exact OnItem.novars v3 vx vy rfl rfl rfl
  · intro n d hnd x y
    have := v5 ⟨x, y, n, d⟩
    dsimp only [Num.dense] at this
    rw [this, Tensor.dense_congr (n' := through fm n) (d' := through dm d) hVi (hn n) (hd d)]
    exact hv.v _ _ (h.pos hnd) x y
  · intro p hp
    unfold wrapD
    cases hi : pm.findIdx? (· == p) with
    | none => exact zeroN_piece
    | some k =>
      obtain ⟨hk, rfl⟩ := findIdx_some hi
      exact d2 k (by rw [← h.pmLen]; exact hk)
  · intro p hp
    refine solid_iff.2 ?_
    unfold wrapD
    cases hi : pm.findIdx? (· == p) with
    | none => exact zeroN_solid
    | some k =>
      obtain ⟨hk, rfl⟩ := findIdx_some hi
      exact d3 k (by rw [← h.pmLen]; exact hk)
  · intro p hp a ha n d hnd y
    unfold wrapD wrapDer
    cases hi : pm.findIdx? (· == p) with
    | none => exact zeroN_dense _
    | some k =>
      obtain ⟨hk, rfl⟩ := findIdx_some hi
      have hk' : k < m0 := by rw [← h.pmLen]; exact hk
      show (D1 k).dense _ = _
      rw [d4 k hk']
      dsimp only [Option.elim]
      rw [Num.dense_congr (n' := through fm n) (d' := through dm d) (solid_iff.1 (hv.ds k hk')) (hn n) (hd d), ← h.e k hk']
      refine hv.d k hk' a ?_ _ _ (h.pos hnd) y
      rw [h.e k hk']
      exact (h.entry hk').2 ha
  · intro p hp q hq
    unfold wrapH
    cases hi : pm.findIdx? (· == p) with
    | none => exact zeroN_piece
    | some k =>
      obtain ⟨hk, rfl⟩ := findIdx_some hi
      cases hj : pm.findIdx? (· == q) with
      | none => exact zeroN_piece
      | some l =>
        obtain ⟨hl, rfl⟩ := findIdx_some hj
        exact e2 k (by rw [← h.pmLen]; exact hk) l (sorted_get h.pmS hk hl hq)
  · intro p hp q hq
    refine solid_iff.2 ?_
    unfold wrapH
    cases hi : pm.findIdx? (· == p) with
    | none => exact zeroN_solid
    | some k =>
      obtain ⟨hk, rfl⟩ := findIdx_some hi
      cases hj : pm.findIdx? (· == q) with
      | none => exact zeroN_solid
      | some l =>
        obtain ⟨hl, rfl⟩ := findIdx_some hj
        exact e3 k (by rw [← h.pmLen]; exact hk) l (sorted_get h.pmS hk hl hq)
  · intro p hp q hq a b ha hb n d hnd
    unfold wrapH wrapHess
    cases hi : pm.findIdx? (· == p) with
    | none => exact zeroN_dense _
    | some k =>
      obtain ⟨hk, rfl⟩ := findIdx_some hi
      have hk' : k < m0 := by rw [← h.pmLen]; exact hk
      cases hj : pm.findIdx? (· == q) with
      | none => exact zeroN_dense _
      | some l =>
        obtain ⟨hl, rfl⟩ := findIdx_some hj
        have hl' : l < m0 := by rw [← h.pmLen]; exact hl
        have hlk := sorted_get h.pmS hk hl hq
        show (H1 k l).dense _ = _
        rw [e4 k hk' l hlk]
        dsimp only [Option.elim]
        rw [Num.dense_congr (n' := through fm n) (d' := through dm d) (solid_iff.1 (hv.hs k hk' l hlk)) (hn n) (hd d),
          ← h.e k hk', ← h.e l hl']
        refine hv.h k hk' l hlk a b ?_ ?_ _ _ (h.pos hnd)
        · rw [h.e k hk']; exact (h.entry hk').2 ha
        · rw [h.e l hl']; exact (h.entry hl').2 hb
  · intro s hst
    refine ⟨fun ht => ?_, fun hm p hp => ?_, fun hm p hp q hq => ?_, fun p hp hu => ?_, fun hm p hp => ?_, fun hm p hp q hq => ?_, fun p hp hu => ?_, fun p hp hu => ?_, fun p hp q hq hu => ?_,
      fun hm p hp => ?_⟩
    · have hp := hst.tot ht.1
      have h0 := ht.2
      have hnd := hp.1.nd
      have h2 := hp.1.hn
      have h3 : (pr0.layout 0 0).n = pr0.n := rfl
      have hVd := hp.2.1
      have hVj : OnItem s.full (⟨0, 0, pr0.n, pr0.d, pr0.S, fun _ => 0, fun _ => 0⟩ : Layout) V :=
        Or.inr ⟨hp.1.novars hv.vx hv.vy rfl rfl rfl, hp.2⟩
      obtain ⟨r, w1, -, -, w4, -⟩ := wrap_expand (L := ⟨0, 0, pr.n, pr.d, pr.S, fun _ => 0, fun _ => 0⟩)
        ⟨hpr.2, hpr.1⟩ hE (K0 := s.full) (K := (s.wrap pr0 pr pm fm dm).full) (fun k _ h => h) pm (v := .tensor V) hVj.item hVj
      obtain ⟨V2, rfl, -, -, wp⟩ := w4 V rfl
      rw [show (⟨pm, fm, pr.n, dm, pr.d, []⟩ : Wrap).expand (.arr (.tensor V)) = .ok (.arr (.tensor V2)) from w1] at v1
      cases v1
      have := wp (fun hz => by omega)
      exact ⟨this.1.novars vx vy rfl rfl rfl, this.2⟩
    · unfold wrapD
      cases hi : pm.findIdx? (· == p) with
      | none => exact zeroN_mapped
      | some k =>
        obtain ⟨hk, rfl⟩ := findIdx_some hi
        have hk' : k < m0 := by rw [← h.pmLen]; exact hk
        exact (d5 k hk').mapped (hst.mapD hm k hk')
    · unfold wrapH
      cases hi : pm.findIdx? (· == p) with
      | none => exact zeroN_mapped
      | some k =>
        obtain ⟨hk, rfl⟩ := findIdx_some hi
        have hk' : k < m0 := by rw [← h.pmLen]; exact hk
        cases hj : pm.findIdx? (· == q) with
        | none => exact zeroN_mapped
        | some l =>
          obtain ⟨hl, rfl⟩ := findIdx_some hj
          have hlk := sorted_get h.pmS hk hl hq
          exact (e5 k hk' l hlk).mapped (hst.mapH hm k hk' l hlk)
    · obtain ⟨k, hk, rfl, huk⟩ := hu
      have hk' : k < m0 := by rw [← h.pmLen]; exact hk
      unfold wrapD
      cases hi : pm.findIdx? (· == pm.getD k 0) with
      | none => exact absurd (getD_mem_nat hk) (findIdx_none hi)
      | some l =>
        obtain ⟨hl, he⟩ := findIdx_some hi
        obtain rfl := nodup_get h.nodup hl hk he
        have he : pr.nd (pm.getD l 0) = pr0.nd l := (h.embedsNoY hk').ha
        exact he ▸ (d5 l hk').spans _ (hst.live l hk' huk)
    · unfold wrapD
      cases hi : pm.findIdx? (· == p) with
      | none => exact zeroN_clean
      | some k =>
        obtain ⟨hk, rfl⟩ := findIdx_some hi
        have hk' : k < m0 := by rw [← h.pmLen]; exact hk
        exact (d5 k hk').clean (hst.cleanD hm k hk')
    · unfold wrapH
      cases hi : pm.findIdx? (· == p) with
      | none => exact zeroN_clean
      | some k =>
        obtain ⟨hk, rfl⟩ := findIdx_some hi
        have hk' : k < m0 := by rw [← h.pmLen]; exact hk
        cases hj : pm.findIdx? (· == q) with
        | none => exact zeroN_clean
        | some l =>
          obtain ⟨hl, rfl⟩ := findIdx_some hj
          have hlk := sorted_get h.pmS hk hl hq
          exact (e5 k hk' l hlk).clean (hst.cleanH hm k hk' l hlk)
    · unfold wrapD
      cases hi : pm.findIdx? (· == p) with
      | none => exact zeroN_single
      | some k =>
        obtain ⟨hk, rfl⟩ := findIdx_some hi
        have hk' : k < m0 := by rw [← h.pmLen]; exact hk
        exact (d5 k hk').single (hst.single k hk' (hu k hk rfl))
    · unfold wrapD
      cases hi : pm.findIdx? (· == p) with
      | none => exact zeroN_dead
      | some k =>
        obtain ⟨hk, rfl⟩ := findIdx_some hi
        have hk' : k < m0 := by rw [← h.pmLen]; exact hk
        exact (d5 k hk').dead (hst.dead k hk' (hu k hk rfl))
    · obtain ⟨k, hk, l, hl, rfl, rfl, hkl⟩ := hu
      have hk' : k < m0 := by rw [← h.pmLen]; exact hk
      unfold wrapH
      cases hi : pm.findIdx? (· == pm.getD k 0) with
      | none => exact absurd (getD_mem_nat hk) (findIdx_none hi)
      | some k2 =>
        obtain ⟨hk2, he⟩ := findIdx_some hi
        obtain rfl := nodup_get h.nodup hk2 hk he
        cases hj : pm.findIdx? (· == pm.getD l 0) with
        | none => exact absurd (getD_mem_nat hl) (findIdx_none hj)
        | some l2 =>
          obtain ⟨hl2, he2⟩ := findIdx_some hj
          obtain rfl := nodup_get h.nodup hl2 hl he2
          have hlk := sorted_get h.pmS hk hl hq
          exact (e5 k2 hk' l2 hlk).live (hst.liveH k2 hk' l2 hlk hkl)
    · unfold wrapD
      cases hi : pm.findIdx? (· == p) with
      | none => exact zeroN_wide _
      | some k =>
        obtain ⟨hk, rfl⟩ := findIdx_some hi
        have hk' : k < m0 := by rw [← h.pmLen]; exact hk
        rw [← h.nd k hk']
        exact (d5 k hk').wide _ (hst.wide hm k hk')

/-! ### the loop of `eval` -/

theorem index_some {w : Wrap} {p k : Nat} (h : w.pm.findIdx? (· == p) = some k) : w.index p = .ok k := by
  unfold Wrap.index; rw [h]

theorem index_none {w : Wrap} {p : Nat} (h : w.pm.findIdx? (· == p) = none) : w.index p = .error .valueError := by
  unfold Wrap.index; rw [h]

theorem hessLine_ok {w : Wrap} {H H1 : Nat → Nat → Num ℝ} (hH : ∀ k < m0, ∀ l ≤ k, w.expand (.arr (H k l)) = .ok (.arr (H1 k l)))
    {k : Nat} (hk : k < m0) : ∀ js : List Nat, (∀ j ∈ js, ∀ l, w.pm.findIdx? (· == j) = some l → l ≤ k) →
    w.hessLine (triangle m0 fun p q => .arr (H p q)) k (js.map fun j => w.pm.findIdx? (· == j)) =
      .ok (js.map (fun j => .arr ((w.pm.findIdx? (· == j)).elim zeroN (H1 k))) ++ [.arr (H1 k k)])
  | [], _ => by
    show (do
      let v ← pick2 (triangle m0 fun p q => Py.arr (H p q)) k k
      let v ← w.expand v
      .ok [v] : Except Err (List (Py ℝ))) = _
    rw [pick2_range hk (le_refl k), ok_bind', hH k hk k (le_refl k), ok_bind']
    rfl
  | j :: js, hj => by
    have ih := hessLine_ok hH hk js fun i hi => hj i (List.mem_cons_of_mem _ hi)
    rw [List.map_cons, List.map_cons]
    cases hi : w.pm.findIdx? (· == j) with
    | none =>
      show (do
        let r ← w.hessLine _ k _
        .ok (zeroT :: r) : Except Err (List (Py ℝ))) = _
      rw [ih]; rfl
    | some l =>
      have hl := hj j List.mem_cons_self l hi
      show (do
        let v ← pick2 (triangle m0 fun p q => Py.arr (H p q)) k l
        let v ← w.expand v
        let r ← w.hessLine _ k _
        .ok (v :: r) : Except Err (List (Py ℝ))) = _
      rw [pick2_range hk hl, ok_bind', hH k hk l hl, ok_bind', ih]
      rfl

theorem evalLoop_ok {w : Wrap} (hs : w.pm.Pairwise (· < ·)) (hlen : w.pm.length = m0) {D D1 : Nat → Num ℝ}
    {H H1 : Nat → Nat → Num ℝ} (hD : ∀ k < m0, w.expand (.arr (D k)) = .ok (.arr (D1 k)))
    (hH : ∀ k < m0, ∀ l ≤ k, w.expand (.arr (H k l)) = .ok (.arr (H1 k l))) : ∀ (r i : Nat),
    w.evalLoop (row m0 fun p => .arr (D p)) (triangle m0 fun p q => .arr (H p q)) i
      ((List.range i).map fun j => w.pm.findIdx? (· == j)) r =
      .ok ((List.range' i r).map fun p => .arr (wrapD w.pm D1 p),
        (List.range' i r).map fun p => row (p + 1) fun q => .arr (wrapH w.pm H1 p q))
  | 0, i => rfl
  | r + 1, i => by
    have ih := evalLoop_ok hs hlen hD hH r (i + 1)
    rw [List.range_succ, List.map_append, List.map_cons, List.map_nil] at ih
    rw [List.range'_succ, List.map_cons, List.map_cons]
    unfold Wrap.evalLoop
    cases hi : w.pm.findIdx? (· == i) with
    | none =>
      rw [hi] at ih
      rw [index_none hi]
      dsimp only
      rw [ih, ok_bind']
      have e1 : wrapD w.pm D1 i = zeroN := by unfold wrapD; rw [hi]; rfl
      have e2 : (row (i + 1) fun q => Py.arr (wrapH w.pm H1 i q)) = List.replicate (i + 1) zeroT := by
        have e3 : ∀ q, wrapH w.pm H1 i q = zeroN := fun q => by unfold wrapH; rw [hi]; rfl
        simp only [e3]
        unfold row
        apply List.ext_getElem
        · simp
        · intro k h1 h2
          rw [List.getElem_map, List.getElem_replicate]; rfl
      rw [e1, e2]; rfl
    | some k =>
      obtain ⟨hk, hki⟩ := findIdx_some hi
      have hk' : k < m0 := by rw [← hlen]; exact hk
      rw [hi] at ih
      rw [index_some hi]
      dsimp only
      rw [pick_range hk', ok_bind', hD k hk']
      dsimp only
      rw [hessLine_ok hH hk']
      dsimp only
      rw [ih, ok_bind']
      · have e1 : wrapD w.pm D1 i = D1 k := by unfold wrapD; rw [hi]; rfl
        have e2 : (row (i + 1) fun q => Py.arr (wrapH w.pm H1 i q)) =
            (List.range i).map (fun j => .arr ((w.pm.findIdx? (· == j)).elim zeroN (H1 k))) ++ [.arr (H1 k k)] := by
          unfold row
          rw [List.range_succ, List.map_append]
          unfold wrapH
          rw [hi]
          simp only [List.map_cons, List.map_nil, Option.elim, hi]
        rw [e1, e2]
      · intro j hj l hl
        obtain ⟨hl1, hl2⟩ := findIdx_some hl
        have := List.mem_range.1 hj
        exact sorted_get hs hk hl1 (by omega)

/-! ### the theorem -/

theorem Values.withZeroHess {θ : Theta} {val : Val} {der : Der} {hess : Hes} {V : Tensor ℝ} {D : Nat → Num ℝ}
    {H : Nat → Nat → Num ℝ} (h : Values pr N K θ val der hess V D H)
    (hz : ∀ p < m, ∀ q ≤ p, ∀ a b, pr.Entry p (N.e p a) → pr.Entry q (N.e q b) → ∀ n d, pr.Pos n d →
      hess θ p q a b n d = 0) : Values pr N K θ val der hess V D fun _ _ => zeroN :=
  { h with
    hp := fun _ _ _ _ => zeroN_piece
    hs := fun _ _ _ _ => solid_iff.2 zeroN_solid
    h := fun p hp q hq a b ha hb n d hnd => by rw [zeroN_dense, hz p hp q hq a b ha hb n d hnd] }

theorem Values.withZeroDer {θ : Theta} {val : Val} {der : Der} {hess : Hes} {V : Tensor ℝ} {D : Nat → Num ℝ}
    {H : Nat → Nat → Num ℝ} (h : Values pr N K θ val der hess V D H)
    (hz : ∀ p < m, ∀ a, pr.Entry p (N.e p a) → ∀ n d, pr.Pos n d → der θ p a n d = 0) :
    Values pr N K θ val der hess V (fun _ => zeroN) H :=
  { h with
    dp := fun _ _ => zeroN_piece
    ds := fun _ _ => solid_iff.2 zeroN_solid
    d := fun p hp a ha n d hnd y => by rw [zeroN_dense, hz p hp a ha n d hnd] }

theorem Stored.withZeroHess {s : Store} {V : Tensor ℝ} {D : Nat → Num ℝ} {H : Nat → Nat → Num ℝ} (h : Stored pr m s V D H)
    (hz : ∀ p < m, ∀ q ≤ p, ¬ s.curved p q) : Stored pr m s V D fun _ _ => zeroN :=
  { h with
    mapH := fun _ _ _ _ _ => zeroN_mapped
    cleanH := fun _ _ _ _ _ => zeroN_clean
    liveH := fun p hp q hq hu => absurd hu (hz p hp q hq) }

theorem Stored.withZeroDer {s : Store} {V : Tensor ℝ} {D : Nat → Num ℝ} {H : Nat → Nat → Num ℝ} (h : Stored pr m s V D H)
    (hz : ∀ p < m, ¬ s.used p) : Stored pr m s V (fun _ => zeroN) H :=
  { h with
    mapD := fun _ _ _ => zeroN_mapped
    live := fun p hp hu => absurd hu (hz p hp)
    cleanD := fun _ _ _ => zeroN_clean
    single := fun _ _ _ => zeroN_single
    dead := fun _ _ _ => zeroN_dead
    wide := fun _ _ _ => zeroN_wide _ }

theorem wrapDer_zero (h : Inside N0 N pm fm dm) {θ : Theta} {der : Der}
    (hz : ∀ p < m0, ∀ a, pr0.Entry p (N0.e p a) → ∀ n d, pr0.Pos n d → der (θ.sub pm) p a n d = 0) :
    ∀ p < m, ∀ a, pr.Entry p (N.e p a) → ∀ n d, pr.Pos n d → wrapDer pm fm dm der θ p a n d = 0 := by
  intro p hp a ha n d hnd
  unfold wrapDer
  cases hi : pm.findIdx? (· == p) with
  | none => rfl
  | some k =>
    obtain ⟨hk, rfl⟩ := findIdx_some hi
    have hk' : k < m0 := by rw [← h.pmLen]; exact hk
    exact hz k hk' a (by rw [h.e k hk']; exact (h.entry hk').2 ha) _ _ (h.pos hnd)

theorem wrapHess_zero (h : Inside N0 N pm fm dm) {θ : Theta} {hess : Hes}
    (hz : ∀ p < m0, ∀ q ≤ p, ∀ a b, pr0.Entry p (N0.e p a) → pr0.Entry q (N0.e q b) → ∀ n d, pr0.Pos n d →
      hess (θ.sub pm) p q a b n d = 0) :
    ∀ p < m, ∀ q ≤ p, ∀ a b, pr.Entry p (N.e p a) → pr.Entry q (N.e q b) → ∀ n d, pr.Pos n d →
      wrapHess pm fm dm hess θ p q a b n d = 0 := by
  intro p hp q hq a b ha hb n d hnd
  unfold wrapHess
  cases hi : pm.findIdx? (· == p) with
  | none => rfl
  | some k =>
    obtain ⟨hk, rfl⟩ := findIdx_some hi
    have hk' : k < m0 := by rw [← h.pmLen]; exact hk
    cases hj : pm.findIdx? (· == q) with
    | none => rfl
    | some l =>
      obtain ⟨hl, rfl⟩ := findIdx_some hj
      have hl' : l < m0 := by rw [← h.pmLen]; exact hl
      exact hz k hk' l (sorted_get h.pmS hk hl hq) a b (by rw [h.e k hk']; exact (h.entry hk').2 ha)
        (by rw [h.e l hl']; exact (h.entry hl').2 hb) _ _ (h.pos hnd)

theorem zero_triangle (n : Nat) : ((List.range n).map fun i => List.replicate (i + 1) (zeroT : Py ℝ)) =
    triangle n fun _ _ => .arr zeroN := by
  unfold triangle row
  refine List.map_congr_left fun i _ => ?_
  apply List.ext_getElem
  · simp
  · intro k h1 h2
    rw [List.getElem_map, List.getElem_replicate]; rfl

/-- **C64.** `FuncWrap(f, param_map, feat_map, n_feat, dim_map, n_dim)`, for a function `f` that returns `val` with its
derivatives: its `eval` and its three methods return the function `val` of the parameters in `param_map`, at the position in the
features `feat_map` and in the outcomes `dim_map`, with its first and second derivatives (zero for the other parameters). -/
theorem C64_wrap_partial (hpr : pr.Ok) (h : Inside N0 N pm fm dm) (hK : Carries pr0 pr fm dm K0 K) {s : Store}
    {dom : Theta → Prop} {f : TFunc ℝ} {val : Val} (hf : Computes pr0 N0 K0 s dom f val) :
    Computes pr N K (s.wrap pr0 pr pm fm dm) (fun θ => dom (θ.sub pm)) (wrapT f ⟨pm, fm, pr.n, dm, pr.d, []⟩)
      fun θ n d => val (θ.sub pm) (through fm n) (through dm d) := by
  obtain ⟨⟨der, hess, hsm, hret⟩, hg, hh⟩ := hf
  set w : Wrap := ⟨pm, fm, pr.n, dm, pr.d, []⟩ with hw
  refine ⟨⟨wrapDer pm fm dm der, wrapHess pm fm dm hess, wrap_smooth h hsm, fun θ hθ ps hps => ?_⟩, ?_, ?_⟩
  · obtain ⟨qs, q1, q2⟩ := h.params hps fm pr.n dm pr.d []
    obtain ⟨⟨V, D, H, ev, hv, ht⟩, V', D', H', ev', hv', ht'⟩ := hret _ hθ qs q2
    obtain ⟨s1, s2, s3⟩ := (sep_iff q2.1).1 ev'
    have hm := hps.1
    -- vanishing derivatives of `f`
    have zg : f.gradNull = true → ∀ p < m0, ∀ a, pr0.Entry p (N0.e p a) → ∀ n d, pr0.Pos n d →
        der (θ.sub pm) p a n d = 0 := by
      intro hn p hp a ha n d hnd
      have e : D' p = zeroN := by
        have := s2 p hp
        rw [hg hn] at this
        injection this with this
        injection this with this
        exact this.symm
      rw [← hv'.d p hp a ha n d hnd (fun _ => 0), e, zeroN_dense]
    have zh : f.hessNull = true → ∀ p < m0, ∀ q ≤ p, ∀ a b, pr0.Entry p (N0.e p a) → pr0.Entry q (N0.e q b) →
        ∀ n d, pr0.Pos n d → hess (θ.sub pm) p q a b n d = 0 := by
      intro hn p hp q hq a b ha hb n d hnd
      have e : H' p q = zeroN := by
        have := s3 p hp q hq
        rw [hh hn] at this
        injection this with this
        injection this with this
        exact this.symm
      rw [← hv'.h p hp q hq a b ha hb n d hnd, e, zeroN_dense]
    have nc : f.hessNull = true → ∀ p < m, ∀ q ≤ p, ¬ (s.wrap pr0 pr pm fm dm).curved p q := by
      rintro hn p hp q hq ⟨k, hk, l, hl, rfl, rfl, hkl⟩
      have hk' : k < m0 := by rw [← h.pmLen]; exact hk
      have hlk := sorted_get h.pmS hk hl hq
      have e : H' k l = zeroN := by
        have := s3 k hk' l hlk
        rw [hh hn] at this
        injection this with this
        injection this with this
        exact this.symm
      have := ht'.liveH k hk' l hlk hkl
      rw [e] at this
      exact zeroN_not_live this
    constructor
    · obtain ⟨W, D1, H1, w1, w2, w3, w4, w5⟩ := wrap_values hpr h hK hv
      have hev : (wrapT f w).eval ps = (if f.hessNull = true then (do
          let g ← (List.range ps.length).mapM (w.evalGrad (row m0 fun p => .arr (D p)))
          .ok ⟨.arr (.tensor W), g, (List.range ps.length).map fun i => List.replicate (i + 1) zeroT⟩) else (do
          let (gs, hs) ← w.evalLoop (row m0 fun p => .arr (D p)) (triangle m0 fun p q => .arr (H p q)) 0 [] ps.length
          .ok ⟨.arr (.tensor W), gs, hs⟩) : Except Err (Ev3 ℝ)) := by
        show Wrap.eval w f ps = _
        unfold Wrap.eval
        rw [q1, ok_bind', ev, ok_bind']
        dsimp only
        rw [w1, ok_bind']
      by_cases hn : f.hessNull = true
      · rw [if_pos hn] at hev
        refine ⟨W, wrapD pm D1, fun _ _ => zeroN, ?_, w4.withZeroHess (wrapHess_zero h (zh hn)), (w5 s ht).withZeroHess (nc hn)⟩
        rw [hev, mapM_list (g := fun p => Py.arr (wrapD pm D1 p)), ok_bind', hm, zero_triangle]
        · rfl
        · intro p _
          unfold Wrap.evalGrad wrapD
          cases hi : pm.findIdx? (· == p) with
          | none =>
            rw [index_none (w := w) hi]
            rfl
          | some k =>
            obtain ⟨hk, -⟩ := findIdx_some hi
            have hk' : k < m0 := by rw [← h.pmLen]; exact hk
            rw [index_some (w := w) hi, ok_bind', pick_range hk', ok_bind', w2 k hk']
            rfl
      · rw [if_neg hn] at hev
        refine ⟨W, wrapD pm D1, wrapH pm H1, ?_, w4, w5 s ht⟩
        have := evalLoop_ok (w := w) h.pmS h.pmLen w2 w3 ps.length 0
        rw [List.range_zero, List.map_nil] at this
        rw [hev, this, ok_bind', hm, ← List.range_eq_range']
        rfl
    · obtain ⟨W, D1, H1, w1, w2, w3, w4, w5⟩ := wrap_values hpr h hK hv'
      have hcall : (wrapT f w).call ps = .ok (.arr (.tensor W)) := by
        show Wrap.call w f ps = _
        unfold Wrap.call
        rw [q1, ok_bind', s1, ok_bind', w1]
      have hgrad : ∀ p < m, (wrapT f w).grad ps p = .ok (.arr (if f.gradNull = true then zeroN else wrapD pm D1 p)) := by
        intro p hp
        show Wrap.grad w f ps p = _
        unfold Wrap.grad
        by_cases hn : f.gradNull = true
        · rw [if_pos hn, if_pos hn]; rfl
        · rw [if_neg hn, if_neg hn, q1, ok_bind']
          unfold wrapD
          cases hi : pm.findIdx? (· == p) with
          | none =>
            rw [index_none (w := w) hi]
            rfl
          | some k =>
            obtain ⟨hk, -⟩ := findIdx_some hi
            have hk' : k < m0 := by rw [← h.pmLen]; exact hk
            rw [index_some (w := w) hi, ok_bind', s2 k hk', ok_bind', w2 k hk']
            rfl
      have hhess : ∀ p < m, ∀ q ≤ p,
          (wrapT f w).hess ps p q = .ok (.arr (if f.hessNull = true then zeroN else wrapH pm H1 p q)) := by
        intro p hp q hq
        show Wrap.hess w f ps p q = _
        unfold Wrap.hess
        by_cases hn : f.hessNull = true
        · rw [if_pos hn, if_pos hn]; rfl
        · rw [if_neg hn, if_neg hn, q1, ok_bind']
          unfold wrapH
          cases hi : pm.findIdx? (· == p) with
          | none =>
            rw [index_none (w := w) hi]
            rfl
          | some k =>
            obtain ⟨hk, hkp⟩ := findIdx_some hi
            have hk' : k < m0 := by rw [← h.pmLen]; exact hk
            rw [index_some (w := w) hi, ok_bind']
            cases hj : pm.findIdx? (· == q) with
            | none =>
              rw [index_none (w := w) hj]
              rfl
            | some l =>
              obtain ⟨hl, hlq⟩ := findIdx_some hj
              have hlk : l ≤ k := sorted_get h.pmS hk hl (by omega)
              rw [index_some (w := w) hj, ok_bind', s3 k hk' l hlk, ok_bind', w3 k hk' l hlk]
              rfl
      refine ⟨W, fun p => if f.gradNull = true then zeroN else wrapD pm D1 p,
        fun p q => if f.hessNull = true then zeroN else wrapH pm H1 p q, (sep_iff hm).2 ⟨hcall, hgrad, hhess⟩, ?_,
        ?_⟩
      · have k1 : Values pr N K θ (wrapVal pm fm dm val) (wrapDer pm fm dm der) (wrapHess pm fm dm hess) W
            (fun p => if f.gradNull = true then zeroN else wrapD pm D1 p) (wrapH pm H1) := by
          by_cases hn : f.gradNull = true
          · simp only [if_pos hn]
            exact w4.withZeroDer (wrapDer_zero h (zg hn))
          · simp only [if_neg hn]
            exact w4
        by_cases hn : f.hessNull = true
        · simp only [if_pos hn]
          exact k1.withZeroHess (wrapHess_zero h (zh hn))
        · simp only [if_neg hn]
          exact k1
      · have j1 : Stored pr m (s.wrap pr0 pr pm fm dm) W (fun p => if f.gradNull = true then zeroN else wrapD pm D1 p) (wrapH pm H1) := by
          by_cases hn : f.gradNull = true
          · simp only [if_pos hn]
            refine (w5 s ht').withZeroDer fun p hp ⟨k, hk, _, huk⟩ => ?_
            have hk' : k < m0 := by rw [← h.pmLen]; exact hk
            have e : D' k = zeroN := by
              have := s2 k hk'
              rw [hg hn] at this
              injection this with this
              injection this with this
              exact this.symm
            have := ht'.live k hk' huk
            rw [e] at this
            exact zeroN_not_live this.live
          · simp only [if_neg hn]
            exact w5 s ht'
        by_cases hn : f.hessNull = true
        · simp only [if_pos hn]
          exact j1.withZeroHess (nc hn)
        · simp only [if_neg hn]
          exact j1
  · intro hn ps i
    show Wrap.grad w f ps i = _
    unfold Wrap.grad
    rw [if_pos (show f.gradNull = true from hn)]; rfl
  · intro hn ps i j
    show Wrap.hess w f ps i j = _
    unfold Wrap.hess
    rw [if_pos (show f.hessNull = true from hn)]; rfl

end

end Verif.Tens
