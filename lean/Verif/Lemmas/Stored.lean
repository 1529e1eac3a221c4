import Verif.Lemmas.ExpandPiece

/-!
# How sums are stored
-/

set_option linter.unusedSectionVars false

namespace Verif.Tens
open Verif.Params (Err)
open NDArray

variable {α : Type} [Field α] [DecidableEq α]

theorem Tensor.mapped_novars {t : Tensor α} (hx : t.xDim = 0) (hy : t.yDim = 0) : t.Mapped :=
  ⟨fun k hk => by omega, fun k hk => by omega⟩

theorem Tensor.mapped_const (c : α) : (Tensor.const c).Mapped := Tensor.mapped_novars rfl rfl

theorem Piece.live {L : Layout} (hL : L.Ok) {t : Tensor α} (h : Piece L t) : ¬ t.IsZero := fun hz => h.ne hL hz.2.1

/-- The maps of a sum. -/
theorem mapped_binTensor {L : Layout} (hL : L.Ok) {t o : Tensor α} (ht : Item L t) (ho : Item L o) (mt : t.Mapped) (mo : o.Mapped)
    {r : Num α} (h : t.binTensor o .add = .ok r) : r.Mapped := by
  have nz : ∀ {t : Tensor α}, Item L t → t.values.ndim = 0 → t.IsZero := by
    intro t ht h0
    rcases ht with ht | ht
    · exact absurd h0 (ht.ne hL)
    · exact ht
  unfold Tensor.binTensor at h
  by_cases h1 : o.values.ndim = 0
  · have := nz ho h1
    rw [if_pos h1, this.2.2] at h
    have e : t.binScalar (0 : α) .add = .ok t := by simp [Tensor.binScalar]
    rw [e] at h
    cases h
    exact mt
  rw [if_neg h1] at h
  by_cases h2 : t.values.ndim = 0
  · rw [if_pos h2] at h
    cases hb : NDArray.binary Op.add.app t.values o.values with
    | error e => rw [hb] at h; cases h
    | ok v =>
      rw [hb] at h
      dsimp only at h
      unfold mkTensor at h
      by_cases hm : v.ndim < o.xDim + o.yDim + o.dim
      · rw [if_pos hm] at h; cases h
      rw [if_neg hm] at h
      cases h
      exact mo
  rw [if_neg h2] at h
  dsimp only at h
  split_ifs at h with h3 h4 h5
  · cases hb : reshapedOp Op.add t.values (t.reshapeIdx (max t.xDim o.xDim) (max t.yDim o.yDim) (max t.n o.n) (max t.dim o.dim))
        o.values (o.reshapeIdx (max t.xDim o.xDim) (max t.yDim o.yDim) (max t.n o.n) (max t.dim o.dim)) with
    | error e => rw [hb] at h; cases h
    | ok v =>
      rw [hb] at h
      dsimp only at h
      unfold mkTensor at h
      split_ifs at h with hm
      cases h
      refine ⟨fun k hk => ?_, fun k hk => ?_⟩
      · dsimp only at hk ⊢
        by_cases hc : k < t.xDim
        · exact mt.1 k hc
        · rw [h5.1]; exact mo.1 k (by omega)
      · dsimp only at hk ⊢
        by_cases hc : k < t.yDim
        · exact mt.2 k hc
        · rw [h5.2]; exact mo.2 k (by omega)
  · cases h
    intro e he
    dsimp only at he
    rcases List.mem_cons.1 he with rfl | he
    · exact ⟨t, rfl, mt⟩
    · rw [List.mem_singleton.1 he]
      exact ⟨o, rfl, mo⟩
  · exact absurd (Or.inl rfl) h4

theorem add_mapped {L : Layout} (hL : L.Ok) : AddClosed (α := α) L Tensor.Mapped := fun _ _ _ ht ho mt mo h => mapped_binTensor hL ht ho mt mo h

abbrev MappedElems (es : List (Tensor α ⊕ NDArray α)) : Prop := ElemsAll Tensor.Mapped es

theorem gp_add_mapped {L : Layout} (hL : L.Ok) {g : Generic α} (hg : GP L g) (mg : MappedElems g.elements) {o : Tensor α} (ho : Item L o)
    (mo : o.Mapped) {r : Generic α} (h : g.binPrim (.tensor o) .add = .ok r) : MappedElems r.elements :=
  gp_add_all hL (add_mapped hL) hg mg ho mo h

theorem num_mapped_iff {v : Num α} : v.Mapped ↔ NumAll Tensor.Mapped v := by cases v <;> exact Iff.rfl

/-- The maps of a sum. -/
theorem mapped_bin {L : Layout} (hL : L.Ok) {v w r : Num α} (hv : NumPiece L v) (hw : NumPiece L w) (mv : v.Mapped) (mw : w.Mapped)
    (h : v.bin w .add = .ok r) : r.Mapped :=
  num_mapped_iff.2 (all_add hL (add_mapped hL) hv hw (num_mapped_iff.1 mv) (num_mapped_iff.1 mw) h)

/-- A sum is only stored as `Tensor(0)` if both summands are. -/
theorem live_bin {L : Layout} (hL : L.Ok) {v w r : Num α} (hv : NumPiece L v) (hw : NumPiece L w) (hl : v.Live ∨ w.Live)
    (h : v.bin w .add = .ok r) : r.Live := by
  cases r with
  | generic g => trivial
  | tensor s =>
    cases v with
    | generic g =>
      exfalso
      cases w with
      | tensor t =>
        replace h : (match g.binPrim (.tensor t) .add with | .error e => .error e | .ok r => .ok (.generic r) : Except Err (Num α)) = .ok _ := h
        cases hb : g.binPrim (.tensor t) .add with
        | error e => rw [hb] at h; cases h
        | ok s => rw [hb] at h; cases h
      | generic o =>
        replace h : (match g.foldBin .add o.elements with | .error e => .error e | .ok r => .ok (.generic r) : Except Err (Num α)) = .ok _ := h
        cases hb : g.foldBin .add o.elements with
        | error e => rw [hb] at h; cases h
        | ok s => rw [hb] at h; cases h
    | tensor t =>
      cases w with
      | generic g =>
        exfalso
        replace h : (match g.binPrim (.tensor t) .add with | .error e => .error e | .ok r => .ok (.generic r) : Except Err (Num α)) = .ok _ := h
        cases hb : g.binPrim (.tensor t) .add with
        | error e => rw [hb] at h; cases h
        | ok s => rw [hb] at h; cases h
      | tensor o =>
        replace h : t.binTensor o .add = .ok (.tensor s) := h
        show ¬ s.IsZero
        rcases hw with hw | hw
        · rcases hv with hv | hv
          · obtain ⟨r, e1, -, ⟨s', rfl, e3, -⟩ | rfl⟩ := piece_add hL hv hw (op := .add) (by simp [Op.additive])
            · rw [h] at e1
              cases e1
              exact e3.live hL
            · rw [h] at e1; cases e1
          · obtain ⟨s', e1, e2, -⟩ := zero_op_piece hL hv hw .add
            rw [h] at e1
            cases e1
            exact e2.live hL
        · have : t.binTensor o .add = .ok (.tensor t) := by
            unfold Tensor.binTensor
            rw [if_pos hw.2.1, hw.2.2]
            simp [Tensor.binScalar]
          rw [h] at this
          cases this
          exact hl.resolve_right fun h => h hw

theorem add_notZero {L : Layout} (hL : L.Ok) : AddClosed (α := α) L fun t => ¬ t.IsZero := fun _ _ _ ht ho mt _ h =>
  live_bin hL (v := .tensor _) (w := .tensor _) ht ho (Or.inl mt) h

/-- A sum has all axes of the parameter if the summands do. -/
theorem add_wide {L : Layout} (hL : L.Ok) : AddClosed (α := α) L fun t => t.IsZero ∨ t.xDim = L.a := by
  intro t o s ht ho qt qo h
  by_cases hz : o.IsZero
  · rw [item_add_zero hz] at h
    cases h
    exact qt
  have ho' := ho.resolve_right hz
  have hxo := qo.resolve_left hz
  rcases ht with ht | ht
  · obtain ⟨r, e1, -, ⟨s', rfl, -, e4, -⟩ | rfl⟩ := piece_add hL ht ho' (op := .add) (by simp [Op.additive])
    · rw [h] at e1
      cases e1
      have := ht.hx
      exact Or.inr (by rw [e4, hxo]; omega)
    · rw [h] at e1; cases e1
  · obtain ⟨s', e1, -, e3, -⟩ := zero_op_piece hL ht ho' .add
    rw [h] at e1
    cases e1
    exact Or.inr (e3.trans hxo)

theorem num_wide_iff {a : Nat} {v : Num α} : v.Wide a ↔ NumAll (fun t => t.IsZero ∨ t.xDim = a) v := by cases v <;> exact Iff.rfl

theorem wide_bin {L : Layout} (hL : L.Ok) {v w r : Num α} (hv : NumPiece L v) (hw : NumPiece L w) (mv : v.Wide L.a) (mw : w.Wide L.a)
    (h : v.bin w .add = .ok r) : r.Wide L.a :=
  num_wide_iff.2 (all_add hL (add_wide hL) hv hw (num_wide_iff.1 mv) (num_wide_iff.1 mw) h)

/-- Adding `Tensor(0)`. -/
theorem dead_left {L : Layout} (hL : L.Ok) {v w r : Num α} (hv : v.Dead) (hw : NumPiece L w) (h : v.bin w .add = .ok r) :
    (w.Single → r.Single) ∧ (w.Dead → r.Dead) ∧ (w.Clean → r.Clean) := by
  cases v with
  | generic g => exact hv.elim
  | tensor t =>
    cases w with
    | generic g =>
      obtain ⟨hg, hne⟩ := numPiece_generic hw
      obtain ⟨s, hb, rfl⟩ := generic_result (x := g.binPrim (.tensor t) .add) h
      have : ElemsAll (Item L) g.elements := fun e he => by
        obtain ⟨t, e1, e2, -⟩ := hg.els e he
        exact ⟨t, e1, e2⟩
      rw [generic_add_zero hne this hv] at hb
      cases hb
      exact ⟨fun h => h, fun h => h, fun h => h⟩
    | tensor o =>
      rcases hw with hw | hw
      · obtain ⟨s, e1, e2, -⟩ := zero_op_piece hL hv hw .add
        have : (Num.tensor t).bin (.tensor o) .add = t.binTensor o .add := rfl
        rw [this, e1] at h
        cases h
        exact ⟨fun _ => trivial, fun hz => absurd hz (hw.live hL), fun _ => trivial⟩
      · have : (Num.tensor t).bin (.tensor o) .add = t.binTensor o .add := rfl
        rw [this, item_add_zero hw] at h
        cases h
        exact ⟨fun _ => trivial, fun _ => hv, fun _ => trivial⟩

theorem dead_right {L : Layout} {v w r : Num α} (hv : NumPiece L v) (hw : w.Dead) (h : v.bin w .add = .ok r) :
    r = v := by
  cases w with
  | generic g => exact hw.elim
  | tensor o =>
    cases v with
    | generic g =>
      obtain ⟨hg, hne⟩ := numPiece_generic hv
      obtain ⟨s, hb, rfl⟩ := generic_result (x := g.binPrim (.tensor o) .add) h
      have : ElemsAll (Item L) g.elements := fun e he => by
        obtain ⟨t, e1, e2, -⟩ := hg.els e he
        exact ⟨t, e1, e2⟩
      rw [generic_add_zero hne this hw] at hb
      cases hb
      rfl
    | tensor t =>
      have : (Num.tensor t).bin (.tensor o) .add = t.binTensor o .add := rfl
      rw [this, item_add_zero hw] at h
      cases h
      rfl

theorem dead_or_live {v : Num α} : v.Dead ∨ v.Live := by
  cases v with
  | tensor t => exact em _
  | generic g => exact Or.inr trivial

/-- A sum has no element `Tensor(0)` if the summands have none. -/
theorem clean_bin {L : Layout} (hL : L.Ok) {v w r : Num α} (hv : NumPiece L v) (hw : NumPiece L w) (cv : v.Clean) (cw : w.Clean)
    (h : v.bin w .add = .ok r) : r.Clean := by
  rcases dead_or_live (v := v) with dv | lv
  · exact (dead_left hL dv hw h).2.2 cw
  rcases dead_or_live (v := w) with dw | lw
  · rw [dead_right hv dw h]; exact cv
  · exact (firm_iff.1 (all_add hL (add_notZero hL) hv hw (firm_iff.2 ⟨lv, cv⟩) (firm_iff.2 ⟨lw, cw⟩) h)).2

end Verif.Tens
