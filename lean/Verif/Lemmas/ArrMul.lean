import Verif.Lemmas.FuncTensor
import Verif.Lemmas.Blocks

/-!
# Arrays with flags

How sums and products of derivative arrays are stored, in terms of what is known about the factors.
-/

set_option linter.unusedSectionVars false

namespace Verif.Tens
open Verif.Params (Err)
open NDArray

variable {α : Type} [Field α] [DecidableEq α]

/-- What is known about an array: the axes `ax` have full size; the parameter axes are mapped; it is not `Tensor(0)`; no element is
`Tensor(0)`; it is a Tensor; it is `Tensor(0)`; every Tensor that is not `Tensor(0)` has all axes of the parameter (only for first derivatives); some Tensor has all axes of the parameter (only for first derivatives). -/
structure Flags where
  ax : Nat → Prop
  mapped : Prop
  live : Prop
  clean : Prop
  single : Prop
  dead : Prop
  wide : Prop
  span : Prop

/-- `v` is an array of the layout `L` with the flags `f`. -/
structure Arr (L : Layout) (f : Flags) (v : Num α) : Prop where
  piece : NumPiece L v
  base : NumAll (OnItem (fun _ => False) L) v
  on : ∀ k, f.ax k → NumAll (OnItem (fun j => j = k) L) v
  mapped : f.mapped → v.Mapped
  live : f.live → v.Live
  clean : f.clean → v.Clean
  single : f.single → v.Single
  dead : f.dead → v.Dead

/-- `g` says less than `f`. -/
structure Flags.Le (g f : Flags) : Prop where
  ax : ∀ k, g.ax k → f.ax k
  mapped : g.mapped → f.mapped
  live : g.live → f.live
  clean : g.clean → f.clean
  single : g.single → f.single
  dead : g.dead → f.dead
  wide : g.wide → f.wide
  span : g.span → f.span

theorem Arr.mono {L : Layout} {f g : Flags} {v : Num α} (h : Arr L f v) (hl : g.Le f) : Arr L g v :=
  ⟨h.piece, h.base, fun k hk => h.on k (hl.ax k hk), fun x => h.mapped (hl.mapped x), fun x => h.live (hl.live x),
    fun x => h.clean (hl.clean x), fun x => h.single (hl.single x), fun x => h.dead (hl.dead x)⟩

theorem onItem_join {L : Layout} {K : Nat → Prop} {t : Tensor α} (h0 : OnItem (fun _ => False) L t)
    (h : ∀ k, K k → OnItem (fun j => j = k) L t) : OnItem K L t := by
  rcases h0 with h0 | h0
  · exact Or.inl h0
  by_cases hz : t.IsZero
  · exact Or.inl hz
  refine Or.inr ⟨h0.1, h0.2.1, fun k hk hK => ?_⟩
  exact ((h k hK).resolve_left hz).2.2 k hk rfl

theorem onItem_mono {L : Layout} {K K' : Nat → Prop} {t : Tensor α} (h : OnItem K L t) (hK : ∀ k, K' k → K k) : OnItem K' L t :=
  h.imp id fun h => ⟨h.1, h.2.1, fun k hk hk' => h.2.2 k hk (hK k hk')⟩

theorem numAll_join {L : Layout} {K : Nat → Prop} {v : Num α} (h0 : NumAll (OnItem (fun _ => False) L) v)
    (h : ∀ k, K k → NumAll (OnItem (fun j => j = k) L) v) : NumAll (OnItem K L) v := by
  cases v with
  | tensor t => exact onItem_join h0 h
  | generic g =>
    intro e he
    obtain ⟨t, rfl, ht⟩ := h0 e he
    refine ⟨t, rfl, onItem_join ht fun k hk => ?_⟩
    obtain ⟨t', e1, e2⟩ := h k hk _ he
    cases e1
    exact e2

theorem Arr.solid {L : Layout} (hL : L.Ok) {f : Flags} {v : Num α} (h : Arr L f v) {K : Nat → Prop} (hK : ∀ k, K k → f.ax k) : NumSolid K L v :=
  (numAll_join h.base fun k hk => h.on k (hK k hk)).solid hL

/-! ### products of Tensors -/

theorem mul_isZero {t o : Tensor α} (ho : o.IsZero) : t.binTensor o .mul = .ok (.tensor (Tensor.const 0)) := by
  unfold Tensor.binTensor
  rw [if_pos ho.2.1, ho.2.2]
  simp [Tensor.binScalar]

/-- What a product of two Tensors is. -/
theorem mul_cases {L : Layout} (hL : L.Ok) {t o s : Tensor α} (ht : Item L t) (ho : Item L o) (hx : t.xDim = 0 ∨ o.xDim = 0)
    (hy : t.yDim = 0 ∨ o.yDim = 0) (h : t.binTensor o .mul = .ok (.tensor s)) :
    (o.IsZero ∧ s.IsZero) ∨ (Piece L o ∧ Piece L s ∧ (∀ {K : Nat → Prop}, o.FullOn K L → s.FullOn K L) ∧
      (Piece L t → ∀ {K : Nat → Prop}, t.FullOn K L → s.FullOn K L)) := by
  rcases ho with ho | ho
  · right
    rcases ht with ht | ht
    · obtain ⟨s', e1, e2, -, -, -, e6, -⟩ := piece_mul hL ht ho hx hy (op := .mul) (by simp [Op.additive])
      rw [h] at e1
      cases e1
      exact ⟨ho, e2, fun hf => e6 (Or.inl hf), fun _ _ hf => e6 (Or.inr hf)⟩
    · obtain ⟨s', e1, e2, -, -, -, e6, -⟩ := zero_op_piece hL ht ho .mul
      rw [h] at e1
      cases e1
      exact ⟨ho, e2, e6, fun hp => absurd ht (hp.live hL)⟩
  · rw [mul_isZero ho] at h
    cases h
    exact Or.inl ⟨ho, Tensor.isZero_const⟩

theorem mul_onItem {L : Layout} (hL : L.Ok) (K : Nat → Prop) : MulGives (α := α) L (OnItem K L) (OnItem K L) (OnItem K L) := by
  have key : ∀ t o s : Tensor α, Item L t → Item L o → (t.xDim = 0 ∨ o.xDim = 0) → (t.yDim = 0 ∨ o.yDim = 0) → OnItem K L o →
      t.binTensor o .mul = .ok (.tensor s) → OnItem K L s := by
    intro t o s ht ho hx hy qo h
    rcases mul_cases hL ht ho hx hy h with ⟨-, h⟩ | ⟨hp, hs, h1, -⟩
    · exact Or.inl h
    · exact Or.inr ⟨hs, h1 (qo.resolve_left (hp.live hL)).2⟩
  intro t o s ht ho hx hy qt qo h
  rcases h with h | h
  · exact key t o s ht ho hx hy qo h
  · exact key o t s ho ht hx.symm hy.symm qt h

theorem mul_either {L : Layout} (hL : L.Ok) (K K' : Nat → Prop) : MulGives (α := α) L (fun t => OnItem K L t ∧ ¬ t.IsZero)
    (fun t => OnItem K' L t ∧ ¬ t.IsZero) (fun t => OnItem (fun k => K k ∨ K' k) L t ∧ ¬ t.IsZero) := by
  have key : ∀ t o s : Tensor α, Item L t → Item L o → (t.xDim = 0 ∨ o.xDim = 0) → (t.yDim = 0 ∨ o.yDim = 0) → ∀ K K' : Nat → Prop,
      OnItem K L t ∧ ¬ t.IsZero → OnItem K' L o ∧ ¬ o.IsZero →
      t.binTensor o .mul = .ok (.tensor s) → OnItem (fun k => K k ∨ K' k) L s ∧ ¬ s.IsZero := by
    intro t o s ht ho hx hy K K' qt qo h
    rcases mul_cases hL ht ho hx hy h with ⟨h, -⟩ | ⟨hp, hs, h1, h2⟩
    · exact absurd h qo.2
    · have f1 := h1 (qo.1.resolve_left qo.2).2
      have f2 := h2 (qt.1.resolve_left qt.2).1 (qt.1.resolve_left qt.2).2
      exact ⟨Or.inr ⟨hs, f1.1, fun k hk hK => hK.elim (f2.2 k hk) (f1.2 k hk)⟩, hs.live hL⟩
  intro t o s ht ho hx hy qt qo h
  rcases h with h | h
  · exact key t o s ht ho hx hy K K' qt qo h
  · obtain ⟨a, b⟩ := key o t s ho ht hx.symm hy.symm K' K qo qt h
    exact ⟨onItem_mono a fun k hk => hk.symm, b⟩

/-- Sums of Tensors that are not `Tensor(0)`. -/
theorem add_either {L : Layout} (hL : L.Ok) (K : Nat → Prop) : AddClosed (α := α) L (fun t => OnItem K L t ∧ ¬ t.IsZero) :=
  fun t o s ht ho qt qo h => ⟨add_onItem hL K t o s ht ho qt.1 qo.1 h, add_notZero hL t o s ht ho qt.2 qo.2 h⟩

theorem mul_mapped {L : Layout} (hL : L.Ok) : MulGives (α := α) L Tensor.Mapped Tensor.Mapped Tensor.Mapped := by
  have key : ∀ t o s : Tensor α, Item L t → Item L o → (t.xDim = 0 ∨ o.xDim = 0) → (t.yDim = 0 ∨ o.yDim = 0) → t.Mapped → o.Mapped →
      t.binTensor o .mul = .ok (.tensor s) → s.Mapped := by
    intro t o s ht ho hx hy mt mo h
    rcases ho with ho | ho
    swap
    · rw [mul_isZero ho] at h
      cases h
      exact Tensor.mapped_const 0
    unfold Tensor.binTensor at h
    rw [if_neg (ho.ne hL)] at h
    by_cases h2 : t.values.ndim = 0
    · rw [if_pos h2] at h
      cases hb : NDArray.binary Op.mul.app t.values o.values with
      | error e => rw [hb] at h; cases h
      | ok v =>
        rw [hb] at h
        dsimp only at h
        unfold mkTensor at h
        by_cases hm : v.ndim < o.xDim + o.yDim + o.dim
        · rw [if_pos hm] at h; cases h
        rw [if_neg hm] at h
        cases h
        exact mo
    rw [if_neg h2] at h
    have ht : Piece L t := ht.resolve_right fun h => h2 h.2.1
    obtain ⟨k1, k2, k3, k4⟩ := ht.compat ho
    rw [if_neg (fun h => h.elim (· k3) fun h => h.elim (· k4) fun h => h.elim (· k1) (· k2))] at h
    dsimp only at h
    have hop : ¬ (Op.mul).additive := by simp [Op.additive]
    rw [if_neg (fun h => hop ((Op.additive_iff _).2 h)), mulX_disjoint ht.wf ho.wf hx] at h
    dsimp only at h
    rw [mulY_disjoint ht.wf ho.wf hy] at h
    dsimp only at h
    cases hv : reshapedOp Op.mul t.values
          (t.reshapeIdx (max t.xDim o.xDim) (max t.yDim o.yDim) (max t.n o.n) (max t.dim o.dim)) o.values
          (o.reshapeIdx (max t.xDim o.xDim) (max t.yDim o.yDim) (max t.n o.n) (max t.dim o.dim)) with
    | error e => rw [hv] at h; cases h
    | ok v =>
      rw [hv] at h
      dsimp only at h
      cases hk : mkTensor v (max t.xDim o.xDim) (max t.yDim o.yDim) (max t.dim o.dim) (t.xMap ++ o.xMap)
          (t.yMap ++ o.yMap) with
      | error e => rw [hk] at h; cases h
      | ok s' =>
        rw [hk] at h
        cases h
        obtain ⟨rfl, -⟩ := mkTensor_ok hk
        have a1 := ht.wf.xLen
        have a2 := ht.wf.yLen
        have b1 := ho.wf.xLen
        have b2 := ho.wf.yLen
        refine ⟨fun k hk => ?_, fun k hk => ?_⟩
        · dsimp only at hk ⊢
          rcases hx with hx | hx
          · have e : t.xMap = [] := List.eq_nil_of_length_eq_zero (by omega)
            rw [e, List.nil_append]
            exact mo.1 k (by omega)
          · have e : o.xMap = [] := List.eq_nil_of_length_eq_zero (by omega)
            rw [e, List.append_nil]
            exact mt.1 k (by omega)
        · dsimp only at hk ⊢
          rcases hy with hy | hy
          · have e : t.yMap = [] := List.eq_nil_of_length_eq_zero (by omega)
            rw [e, List.nil_append]
            exact mo.2 k (by omega)
          · have e : o.yMap = [] := List.eq_nil_of_length_eq_zero (by omega)
            rw [e, List.append_nil]
            exact mt.2 k (by omega)
  intro t o s ht ho hx hy mt mo h
  rcases h with h | h
  · exact key t o s ht ho hx hy mt mo h
  · exact key o t s ho ht hx.symm hy.symm mo mt h

/-! ### products of arrays -/

/-- Nothing is lost in the product. -/
def Flags.ok (f g : Flags) : Prop := (f.live ∧ f.clean) ∧ g.clean ∧ (g.live ∨ f.single)

/-- What is known about a product. -/
def Flags.times (f g : Flags) : Flags where
  ax k := f.ax k ∧ g.ax k ∨ f.ok g ∧ (f.ax k ∨ g.ax k) ∨ f.single ∧ g.dead
  mapped := f.mapped ∧ g.mapped
  live := g.live
  clean := f.ok g ∨ f.single ∧ g.single ∨ f.single ∧ g.dead
  single := f.single ∧ g.single
  dead := f.single ∧ g.dead
  wide := g.wide ∧ g.clean
  span := f.live ∧ g.span

theorem NumAll.and {P Q : Tensor α → Prop} {v : Num α} (h : NumAll P v) (h' : NumAll Q v) : NumAll (fun t => P t ∧ Q t) v := by
  cases v with
  | tensor t => exact ⟨h, h'⟩
  | generic g =>
    intro e he
    obtain ⟨t, rfl, ht⟩ := h e he
    obtain ⟨t', e1, e2⟩ := h' _ he
    cases e1
    exact ⟨t, rfl, ht, e2⟩

theorem Arr.firm {L : Layout} {f : Flags} {v : Num α} (h : Arr L f v) (hl : f.live) (hc : f.clean) : NumAll (fun t => ¬ t.IsZero) v :=
  firm_iff.2 ⟨h.live hl, h.clean hc⟩

theorem Arr.ax {L : Layout} {f : Flags} {v : Num α} (h : Arr L f v) : NumAll (OnItem f.ax L) v := numAll_join h.base h.on

theorem Arr.mul {L : Layout} (hL : L.Ok) {f g : Flags} {v w : Num α} (hv : Arr L f v) (hw : Arr L g w)
    (hx : v.xDim = 0 ∨ w.xDim = 0) (hy : v.yDim = 0 ∨ w.yDim = 0) :
    ∃ r, v.bin w .mul = .ok r ∧ Arr L (f.times g) r ∧ r.xDim ≤ max v.xDim w.xDim ∧ r.yDim ≤ max v.yDim w.yDim ∧
      ∀ i, r.dense i = v.dense i * w.dense i := by
  obtain ⟨r, r1, r2, r3, r4, -, -, r7⟩ := num_mul hL hv.piece hw.piece hx hy
  have hboth : ∀ K, NumAll (OnItem K L) v → NumAll (OnItem K L) w → NumAll (OnItem K L) r := fun K h1 h2 =>
    all_mul hL (add_onItem hL K) (mul_onItem hL K) hv.piece hw.piece hx hy h1 h2 r1
  have heither : NumAll (fun t => ¬ t.IsZero) v → NumAll (fun t => ¬ t.IsZero) w →
      NumAll (fun t => OnItem (fun k => f.ax k ∨ g.ax k) L t ∧ ¬ t.IsZero) r := fun h1 h2 =>
    all_mul hL (add_either hL _) (mul_either hL f.ax g.ax) hv.piece hw.piece hx hy (hv.ax.and h1) (hw.ax.and h2) r1
  have hdead : f.single → w.Dead → r.Dead := by
    intro hs hd
    cases v with
    | generic _ => exact (hv.single hs).elim
    | tensor t =>
      cases w with
      | generic _ => exact hd.elim
      | tensor o =>
        have e : (Num.tensor t).bin (.tensor o) .mul = t.binTensor o .mul := rfl
        rw [e, mul_isZero hd] at r1
        cases r1
        exact Tensor.isZero_const
  have hsingle : f.single → g.single → r.Single := by
    intro hs hd
    have h1 := hv.single hs
    have h2 := hw.single hd
    cases v with
    | generic _ => exact h1.elim
    | tensor t =>
      cases w with
      | generic _ => exact h2.elim
      | tensor o =>
        obtain ⟨s, e1, -⟩ := item_mul hL hv.piece hw.piece hx hy
        have e : (Num.tensor t).bin (.tensor o) .mul = t.binTensor o .mul := rfl
        rw [e, e1] at r1
        cases r1
        trivial
  have hok : f.ok g → (f.single ∧ w.Dead) ∨ NumAll (fun t => OnItem (fun k => f.ax k ∨ g.ax k) L t ∧ ¬ t.IsZero) r := by
    rintro ⟨⟨h1, h2⟩, h3, h4⟩
    rcases dead_or_live (v := w) with hd | hl
    · rcases h4 with h4 | h4
      · right
        exact heither (hv.firm h1 h2) (hw.firm h4 h3)
      · exact Or.inl ⟨h4, hd⟩
    · right
      exact heither (hv.firm h1 h2) (firm_iff.2 ⟨hl, hw.clean h3⟩)
  refine ⟨r, r1, ⟨r2, hboth _ hv.base hw.base, fun k hk => ?_, fun h => ?_, fun h => ?_, fun h => ?_, fun h => hsingle h.1 h.2,
    fun h => hdead h.1 (hw.dead h.2)⟩, r3, r4, r7⟩
  · rcases hk with ⟨h1, h2⟩ | ⟨h1, h2⟩ | ⟨h1, h2⟩
    rotate_left 2
    · have := hdead h1 (hw.dead h2)
      cases r with
      | generic _ => exact this.elim
      | tensor s => exact Or.inl this
    · exact hboth _ (hv.on k h1) (hw.on k h2)
    · rcases hok h1 with ⟨hs, hd⟩ | h3
      · have := hdead hs hd
        cases r with
        | generic _ => exact this.elim
        | tensor s => exact Or.inl this
      · exact h3.mono fun t ht => onItem_mono ht.1 fun j hj => by subst hj; exact h2
  · exact num_mapped_iff.2 (all_mul hL (add_mapped hL) (mul_mapped hL) hv.piece hw.piece hx hy (num_mapped_iff.1 (hv.mapped h.1))
      (num_mapped_iff.1 (hw.mapped h.2)) r1)
  · have hl := hw.live h
    cases r with
    | generic _ => trivial
    | tensor s =>
      cases v with
      | generic g =>
        cases w with
        | tensor t =>
          obtain ⟨s, -, e⟩ := generic_result (x := g.binPrim (.tensor t) .mul) r1
          cases e
        | generic o =>
          obtain ⟨s, -, e⟩ := generic_result (x := g.binGeneric o .mul) r1
          cases e
      | tensor t =>
        cases w with
        | generic g =>
          obtain ⟨s, -, e⟩ := generic_result (x := t.binGeneric g .mul) r1
          cases e
        | tensor o =>
          rcases mul_cases hL hv.piece hw.piece hx hy r1 with ⟨h, -⟩ | ⟨-, h, -⟩
          · exact absurd h hl
          · exact h.live hL
  · rcases h with h | h | h
    rotate_left 2
    · have := hdead h.1 (hw.dead h.2)
      cases r with
      | generic _ => exact this.elim
      | tensor s => trivial
    · rcases hok h with ⟨hs, hd⟩ | h3
      · have := hdead hs hd
        cases r with
        | generic _ => exact this.elim
        | tensor s => trivial
      · exact (firm_iff.1 (h3.mono fun t ht => ht.2)).2
    · have := hsingle h.1 h.2
      cases r with
      | generic _ => exact this.elim
      | tensor s => trivial

/-- The product of values with a derivative has all axes of the parameter if the derivative does. -/
theorem wide_mul {L : Layout} (hL : L.Ok) {V : Tensor α} {w r : Num α} (hV : Item L V) (hx : V.xDim = 0) (hy : V.yDim = 0) (hw : NumPiece L w)
    (ww : w.Wide L.a) (cw : w.Clean) (h : (Num.tensor V).bin w .mul = .ok r) : r.Wide L.a := by
  cases w with
  | tensor o =>
    obtain ⟨s, e1, -⟩ := item_mul hL hV hw (Or.inl hx) (Or.inl hy)
    have e : (Num.tensor V).bin (.tensor o) .mul = V.binTensor o .mul := rfl
    rw [e, e1] at h
    cases h
    by_cases hz : o.IsZero
    · rw [mul_isZero hz] at e1
      cases e1
      exact Or.inl Tensor.isZero_const
    · rcases hV with hV | hV
      · obtain ⟨s', e2, -, e3, -⟩ := piece_mul hL hV (hw.resolve_right hz) (Or.inl hx) (Or.inl hy) (op := .mul) (by simp [Op.additive])
        rw [e1] at e2
        cases e2
        exact Or.inr (by rw [e3, hx, ww.resolve_left hz, Nat.zero_max])
      · obtain ⟨s', e2, -, e3, -⟩ := zero_op_piece hL hV (hw.resolve_right hz) .mul
        rw [e1] at e2
        cases e2
        exact Or.inr (e3.trans (ww.resolve_left hz))
  | generic g =>
    obtain ⟨s, hb, rfl⟩ := generic_result (x := g.binPrim (.tensor V) .mul) h
    have cw' : ElemsAll (fun t => ¬ t.IsZero) g.elements := cw
    have ww' : ElemsAll (fun t => t.IsZero ∨ t.xDim = L.a) g.elements := ww
    refine gp_mul_all hL (P := fun t => ¬ t.IsZero ∧ t.xDim = L.a) (Q := fun t => t.IsZero ∨ t.xDim = L.a) (numPiece_generic hw).1 (Or.inr hx) (Or.inr hy)
      (fun t s ht h1 h2 pt hb => ?_) (fun e he => ?_) hb
    · by_cases hz : V.IsZero
      · rw [mul_isZero hz] at hb
        cases hb
        exact Or.inl Tensor.isZero_const
      · obtain ⟨s', e2, -, e3, -⟩ := piece_mul hL (ht.resolve_right pt.1) (hV.resolve_right hz) (Or.inr hx) (Or.inr hy) (op := .mul) (by simp [Op.additive])
        rw [hb] at e2
        cases e2
        exact Or.inr (by rw [e3, hx, pt.2, Nat.max_zero])
    · obtain ⟨t, e1, e2⟩ := cw' e he
      obtain ⟨t', e3, e4⟩ := ww' e he
      rw [e1] at e3
      cases e3
      exact ⟨t, e1, e2, e4.resolve_left e2⟩

/-! ### sums of arrays -/

/-- What is known about a sum. -/
def Flags.plus (f g : Flags) : Flags where
  ax k := f.ax k ∧ g.ax k
  mapped := f.mapped ∧ g.mapped
  live := f.live ∨ g.live
  clean := f.clean ∧ g.clean
  single := f.single ∧ g.dead ∨ f.dead ∧ g.single
  dead := f.dead ∧ g.dead
  wide := f.wide ∧ g.wide
  span := f.span ∨ g.span

theorem Arr.add {L : Layout} (hL : L.Ok) {f g : Flags} {v w : Num α} (hv : Arr L f v) (hw : Arr L g w) :
    ∃ r, v.bin w .add = .ok r ∧ Arr L (f.plus g) r ∧ ∀ i, r.dense i = v.dense i + w.dense i := by
  obtain ⟨r, r1, r2, -, -, -, r6⟩ := num_add hL hv.piece hw.piece (Or.inl rfl)
  have hboth : ∀ K, NumAll (OnItem K L) v → NumAll (OnItem K L) w → NumAll (OnItem K L) r := fun K h1 h2 =>
    all_add hL (add_onItem hL K) hv.piece hw.piece h1 h2 r1
  refine ⟨r, r1, ⟨r2, hboth _ hv.base hw.base, fun k hk => hboth _ (hv.on k hk.1) (hw.on k hk.2),
    fun h => mapped_bin hL hv.piece hw.piece (hv.mapped h.1) (hw.mapped h.2) r1,
    fun h => live_bin hL hv.piece hw.piece (h.imp hv.live hw.live) r1,
    fun h => clean_bin hL hv.piece hw.piece (hv.clean h.1) (hw.clean h.2) r1, fun h => ?_,
    fun h => (dead_left hL (hv.dead h.1) hw.piece r1).2.1 (hw.dead h.2)⟩, r6⟩
  rcases h with ⟨h1, h2⟩ | ⟨h1, h2⟩
  · rw [dead_right hv.piece (hw.dead h2) r1]; exact hv.single h1
  · exact (dead_left hL (hv.dead h1) hw.piece r1).1 (hw.single h2)

end Verif.Tens
