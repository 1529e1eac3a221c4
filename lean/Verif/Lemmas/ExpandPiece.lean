import Verif.Lemmas.AddClosed
import Verif.Lemmas.Blocks
import Verif.Lemmas.ValueTensor
import Verif.Props.TensorGenericStruct
import Verif.Spec.FuncTensor

/-!
# `expand`, multiplication with a number and addition for the Tensors of a problem
-/

set_option linter.unusedSectionVars false

namespace Verif.Tens
open Verif.Params (Err)
open NDArray

variable {α : Type} [Field α] [DecidableEq α]

/-- The maps `fm` of the features and `dm` of the outcomes send the problem `L0` into the problem `L`. -/
structure Layout.Embeds (L0 L : Layout) (fm dm : List Nat) : Prop where
  fmN : fm.Nodup
  fmLt : ∀ k ∈ fm, k < L.n
  fmLen : fm.length = L0.n
  dmN : dm.Nodup
  dmLt : ∀ k ∈ dm, k < L.d
  dmLen : dm.length = L0.d
  fmS : ∀ k < L0.n, L.S (fm.getD k 0) = L0.S k
  dmS : ∀ k < L0.d, L.S (L.n + dm.getD k 0) = L0.S (L0.n + k)
  ha : L.a = L0.a
  hb : L.b = L0.b
  hX : ∀ k < L0.a, L.PX k = L0.PX k
  hY : ∀ k < L0.b, L.PY k = L0.PY k

theorem MapThrough.eq {wher : List Nat} {m m' : List Int} (h : MapThrough wher m m') :
    m' = m.map fun f => if 0 ≤ f then ((wher.getD f.toNat 0 : Nat) : Int) else -1 := by
  apply List.ext_getElem
  · rw [List.length_map]; exact h.1
  · intro k h1 h2
    have h3 : k < m.length := by rw [← h.1]; exact h1
    rw [List.getElem_map, ← List.getD_eq_getElem _ (-1) h1, h.2, List.getD_eq_getElem _ _ h3]

theorem MapThrough.nodup {wher : List Nat} (hn : wher.Nodup) {m m' : List Int} (h : MapThrough wher m m')
    (hr : ∀ f ∈ m, f < (wher.length : Int)) (hm : (m.filter fun f => 0 ≤ f).Nodup) :
    (m'.filter fun f => 0 ≤ f).Nodup := by
  rw [h.eq, List.filter_map]
  have e : (m.filter ((fun f : Int => decide (0 ≤ f)) ∘ fun f : Int =>
      if 0 ≤ f then ((wher.getD f.toNat 0 : Nat) : Int) else -1)) = m.filter fun f => 0 ≤ f := by
    apply List.filter_congr
    intro f _
    by_cases h0 : 0 ≤ f
    · simp [h0]
    · simp [h0]
  rw [e]
  refine List.Nodup.map_on (fun f hf g hg hfg => ?_) hm
  obtain ⟨f1, f2⟩ := List.mem_filter.1 hf
  obtain ⟨g1, g2⟩ := List.mem_filter.1 hg
  simp only [decide_eq_true_eq] at f2 g2
  rw [if_pos f2, if_pos g2] at hfg
  have k1 := hr f f1
  have k2 := hr g g1
  have l1 : f.toNat < wher.length := by omega
  have l2 : g.toNat < wher.length := by omega
  rw [List.getD_eq_getElem _ _ l1, List.getD_eq_getElem _ _ l2] at hfg
  have := (hn.getElem_inj_iff (hi := l1) (hj := l2)).1 (by exact_mod_cast hfg)
  omega

/-- The axes of `L` that carry the axes `K0` of `L0`. -/
def CarriedBy (L0 L : Layout) (fm dm : List Nat) (K0 K : Nat → Prop) : Prop :=
  ∀ k < L.n + L.d, K k → (∃ j < L0.n, k = fm.getD j 0 ∧ K0 j) ∨ ∃ j < L0.d, k = L.n + dm.getD j 0 ∧ K0 (L0.n + j)

/-- The two expansions, for a Tensor of the inner problem. -/
theorem expand_piece {L0 L : Layout} (hL : L.Ok) {fm dm : List Nat} (he : L0.Embeds L fm dm) {t : Tensor α}
    (h : Piece L0 t) (hd : t.dim = L0.d) (hz : ¬ (t.values.ndim = 0 ∧ t.values.get (fun _ => 0) = 0)) :
    ∃ a c, t.expand fm L.n false = .ok a ∧ a.expand dm L.d true = .ok c ∧ Piece L c ∧ c.dim = L.d ∧
      c.xDim = t.xDim ∧ c.yDim = t.yDim ∧
      (∀ {K0 K : Nat → Prop}, CarriedBy L0 L fm dm K0 K → t.FullOn K0 L0 → c.FullOn K L) ∧
      (t.Mapped → c.Mapped) ∧
      ∀ i : Idx, c.dense i = t.dense ⟨i.x, i.y, fun k => i.n (fm.getD k 0), fun k => i.d (dm.getD k 0)⟩ := by
  have hn0 := hL.some
  obtain ⟨a, a1, a2, a3, a4⟩ := expand_values_full h.wf he.fmN he.fmLt (by rw [he.fmLen, h.hn])
  obtain ⟨⟨b1, b2, b3, b4⟩, b5, b6, b7, b8, b9, b10⟩ := a3 hz
  have hnd := a2.nd
  obtain ⟨c, c1, c2, c3, c4⟩ := expand_dim_full a2 he.dmN he.dmLt (by rw [he.dmLen, b4, hd])
  obtain ⟨⟨d1, d2, d3, d4⟩, d5, d6, d7, d8, d9⟩ := c3 fun hh => by omega
  have e1 := he.fmLen
  have e2 := he.dmLen
  have e3 := h.hn
  -- the sizes of the axes of the result
  have sp : ∀ k < t.xDim + t.yDim, c.values.shape k = t.values.shape k := fun k hk => by
    rw [d7 k (by omega), b7 k hk]
  have sn : ∀ j < L0.n, c.values.shape (t.xDim + t.yDim + fm.getD j 0) = t.values.shape (t.xDim + t.yDim + j) := by
    intro j hj
    have := he.fmLt _ (getD_mem_nat (l := fm) (k := j) (by omega))
    rw [d7 _ (by omega), b8 j (by omega)]
  have sn1 : ∀ k < L.n, k ∉ fm → c.values.shape (t.xDim + t.yDim + k) = 1 := by
    intro k hk hk'
    rw [d7 _ (by omega), b9 k hk hk']
  have sd : ∀ j < L0.d, c.values.shape (t.xDim + t.yDim + (L.n + dm.getD j 0)) =
      t.values.shape (t.xDim + t.yDim + (L0.n + j)) := by
    intro j hj
    have := d8 j (by omega)
    rw [b1, b2, b3] at this
    rw [← Nat.add_assoc, this, b10 j (by omega), e1, ← Nat.add_assoc]
  have sd1 : ∀ k < L.d, k ∉ dm → c.values.shape (t.xDim + t.yDim + (L.n + k)) = 1 := by
    intro k hk hk'
    have := d9 k hk hk'
    rw [b1, b2, b3] at this
    rw [← Nat.add_assoc, this]
  have mem : ∀ {l : List Nat} {k : Nat}, k ∈ l → ∃ j < l.length, k = l.getD j 0 := by
    intro l k hk
    obtain ⟨j, hj, rfl⟩ := List.getElem_of_mem hk
    exact ⟨j, hj, (List.getD_eq_getElem _ _ hj).symm⟩
  have hxl := h.wf.xLen
  have hyl := h.wf.yLen
  refine ⟨a, c, a1, c1, ⟨c2, ⟨?_, ?_⟩, ?_, ?_, by rw [d3, b3], Or.inr d4, fun k hk => ?_, fun k hk => ?_, fun k hk => ?_⟩,
    d4, by rw [d1, b1], by rw [d2, b2], fun hc hf => ⟨d4, fun k hk hK => ?_⟩, fun hm => ⟨fun k hk => ?_, fun k hk => ?_⟩, fun i => ?_⟩
  · rw [d5]; exact b5.nodup he.fmN (fun f hf => by rw [e1, ← e3]; exact h.wf.xRange f hf) h.inj.1
  · rw [d6]; exact b6.nodup he.fmN (fun f hf => by rw [e1, ← e3]; exact h.wf.yRange f hf) h.inj.2
  · rw [d1, b1, he.ha]; exact h.hx
  · rw [d2, b2, he.hb]; exact h.hy
  · rw [d1, b1, d2, b2]
    rw [d4] at hk
    by_cases hkn : k < L.n
    · by_cases hkf : k ∈ fm
      · obtain ⟨j, hj, rfl⟩ := mem hkf
        rw [sn j (by omega), he.fmS j (by omega)]
        exact h.size j (by omega)
      · exact Or.inr (sn1 k hkn hkf)
    · obtain ⟨j, rfl⟩ : ∃ j, k = L.n + j := ⟨k - L.n, by omega⟩
      by_cases hkf : j ∈ dm
      · obtain ⟨l, hl, rfl⟩ := mem hkf
        rw [sd l (by omega), he.dmS l (by omega)]
        exact h.size _ (by omega)
      · exact Or.inr (sd1 j (by omega) hkf)
  · rw [d1, b1] at hk
    have hk' : k < L0.a := by have := h.hx; omega
    rw [d5, he.hX k hk', b5.2 k]
    constructor
    · intro h0
      by_cases hm : 0 ≤ t.xMap.getD k (-1)
      · rw [if_pos hm, Int.toNat_natCast]
        have := h.wf.xRange _ (getD_mem hm)
        rw [he.fmS _ (by omega)]
        exact (h.px k hk).1 hm
      · rw [if_neg hm] at h0; omega
    · intro h0
      by_cases hm : 0 ≤ t.xMap.getD k (-1)
      · rw [if_pos hm] at h0; omega
      · rw [sp k (by omega)]; exact (h.px k hk).2 (by omega)
  · rw [d2, b2] at hk
    have hk' : k < L0.b := by have := h.hy; omega
    rw [d6, he.hY k hk', b6.2 k, d1, b1]
    constructor
    · intro h0
      by_cases hm : 0 ≤ t.yMap.getD k (-1)
      · rw [if_pos hm, Int.toNat_natCast]
        have := h.wf.yRange _ (getD_mem hm)
        rw [he.fmS _ (by omega)]
        exact (h.py k hk).1 hm
      · rw [if_neg hm] at h0; omega
    · intro h0
      by_cases hm : 0 ≤ t.yMap.getD k (-1)
      · rw [if_pos hm] at h0; omega
      · rw [sp _ (by omega)]; exact (h.py k hk).2 (by omega)
  · rw [d1, b1, d2, b2]
    rcases hc k hk hK with ⟨j, hj, rfl, hK0⟩ | ⟨j, hj, rfl, hK0⟩
    · rw [sn j hj, he.fmS j hj]; exact hf.2 j (by omega) hK0
    · rw [sd j hj, he.dmS j hj]; exact hf.2 _ (by omega) hK0
  · rw [d5, b5.2 k, if_pos (hm.1 k (by omega))]
    omega
  · rw [d6, b6.2 k, if_pos (hm.2 k (by omega))]
    omega
  · rw [c4, a4]

/-- A Tensor with all outcome axes, in which the axes `K` are not broadcast, or `Tensor(0)`. -/
def OnItem (K : Nat → Prop) (L : Layout) (t : Tensor α) : Prop := t.IsZero ∨ OnPiece K L t

theorem OnItem.item {K : Nat → Prop} {L : Layout} {t : Tensor α} (h : OnItem K L t) : Item L t :=
  h.elim Or.inr fun h => Or.inl h.1

theorem OnItem.dim {K : Nat → Prop} {L : Layout} {t : Tensor α} (h : OnItem K L t) : t.dim ≤ L.d :=
  h.elim (fun h => by rw [h.dims.2.2.1]; exact Nat.zero_le _) fun h => h.2.1.le

/-- The same for a derivative array. -/
def NumSolid (K : Nat → Prop) (L : Layout) : Num α → Prop
  | .tensor t => OnItem K L t
  | .generic g => 0 < L.n ∧ ElemsAll (OnItem K L) g.elements

theorem NumSolid.all {K : Nat → Prop} {L : Layout} {v : Num α} (h : NumSolid K L v) : NumAll (OnItem K L) v := by
  cases v with
  | tensor t => exact h
  | generic g => exact h.2

theorem NumAll.solid {L : Layout} (hL : L.Ok) {K : Nat → Prop} {v : Num α} (h : NumAll (OnItem K L) v) : NumSolid K L v := by
  cases v with
  | tensor t => exact h
  | generic g => exact ⟨hL.some, h⟩

/-- No Tensor of `v` is `Tensor(0)`. -/
def Num.Firm (v : Num α) : Prop := NumAll (fun t => ¬ t.IsZero) v

theorem firm_iff {v : Num α} : v.Firm ↔ v.Live ∧ v.Clean := by
  cases v with
  | tensor t => exact ⟨fun h => ⟨h, trivial⟩, fun h => h.1⟩
  | generic g => exact ⟨fun h => ⟨trivial, h⟩, fun h => h.2⟩

/-- What `expand` and multiplication with numbers preserve. -/
structure Num.Kept (v r : Num α) : Prop where
  mapped : v.Mapped → r.Mapped
  live : v.Live → r.Live
  clean : v.Clean → r.Clean
  dead : v.Dead → r.Dead
  single : v.Single → r.Single
  wide : ∀ a, v.Wide a → r.Wide a
  spans : ∀ a, v.Spans a → r.Spans a

theorem expand_item {L0 L : Layout} (hL : L.Ok) {fm dm : List Nat} (he : L0.Embeds L fm dm) {K0 K : Nat → Prop}
    (hc : CarriedBy L0 L fm dm K0 K) {t : Tensor α} (h : OnItem K0 L0 t) :
    ∃ a c, t.expand fm L.n false = .ok a ∧ a.expand dm L.d true = .ok c ∧ OnItem K L c ∧
      c.xDim ≤ t.xDim ∧ c.yDim ≤ t.yDim ∧
      (¬ (t.values.ndim = 0 ∧ t.values.get (fun _ => 0) = 0) → OnPiece K L c) ∧ (t.Mapped → c.Mapped) ∧
      (c.IsZero ∨ (¬ t.IsZero ∧ c.xDim = t.xDim)) ∧
      ∀ i : Idx, c.dense i = t.dense ⟨i.x, i.y, fun k => i.n (fm.getD k 0), fun k => i.d (dm.getD k 0)⟩ := by
  by_cases hz : t.values.ndim = 0 ∧ t.values.get (fun _ => 0) = 0
  · have hwf := h.item.wf
    refine ⟨Tensor.const 0, Tensor.const 0, ?_, ?_, Or.inl Tensor.isZero_const, Nat.zero_le _, Nat.zero_le _,
      fun h => absurd hz h, fun _ => ⟨fun k hk => absurd hk (Nat.not_lt_zero k), fun k hk => absurd hk (Nat.not_lt_zero k)⟩,
      Or.inl Tensor.isZero_const, fun i => ?_⟩
    · unfold Tensor.expand
      rw [if_neg (not_not.2 he.fmLt), if_pos hz]
    · unfold Tensor.expand
      rw [if_neg (not_not.2 he.dmLt), if_pos ⟨rfl, rfl⟩]
    · have : t.IsZero := ⟨hwf, hz⟩
      rw [Tensor.isZero_const.dense, this.dense]
  · have hp : OnPiece K0 L0 t := h.resolve_left fun h => hz h.2
    obtain ⟨a, c, a1, c1, c2, c3, c4, c5, c6, c8, c7⟩ := expand_piece hL he hp.1 hp.2.1 hz
    have := c6 hc hp.2
    exact ⟨a, c, a1, c1, Or.inr ⟨c2, this⟩, c4.le, c5.le, fun _ => ⟨c2, this⟩, c8, Or.inr ⟨fun h => hz h.2, c4⟩, c7⟩

theorem mapElems_two {f g : Tensor α → Except Err (Tensor α)} {es : List (Tensor α ⊕ NDArray α)}
    (Q : Tensor α → Tensor α → Prop)
    (h : ∀ e ∈ es, ∃ t, e = .inl t ∧ ∃ a c, f t = .ok a ∧ g a = .ok c ∧ Q t c) :
    ∃ l l', mapElems f es = .ok l ∧ mapElems g l = .ok l' ∧
      List.Forall₂ (fun e e' => ∃ t r, e = .inl t ∧ e' = .inl r ∧ Q t r) es l' := by
  induction es with
  | nil => exact ⟨[], [], rfl, rfl, .nil⟩
  | cons e es ih =>
    obtain ⟨t, rfl, a, c, ha, hc, hq⟩ := h e List.mem_cons_self
    obtain ⟨l, l', hl, hl', hf⟩ := ih fun e he => h e (List.mem_cons_of_mem _ he)
    exact ⟨.inl a :: l, .inl c :: l', by simp only [mapElems, ha, hl], by simp only [mapElems, hc, hl'],
      .cons ⟨t, c, rfl, rfl, hq⟩ hf⟩

theorem mapElems_flip {g : Tensor α → Except Err (Tensor α)} {l l' : List (Tensor α ⊕ NDArray α)}
    (h : mapElems g l = .ok l') : mapElems (fun t => t.flip [] false) l = .ok l := by
  induction l generalizing l' with
  | nil => rfl
  | cons e l ih =>
    cases e with
    | inr a => simp [mapElems] at h
    | inl t =>
      unfold mapElems at h
      split at h
      · cases h
      · split at h
        · cases h
        · rename_i h'
          have : t.flip [] false = .ok t := rfl
          simp only [mapElems, this, ih h']

theorem forall2_mem {A B : Type} {P : A → B → Prop} {l : List A} {l' : List B}
    (h : List.Forall₂ P l l') : ∀ b ∈ l', ∃ a ∈ l, P a b := by
  induction h with
  | nil => intro b hb; cases hb
  | cons h _ ih =>
    intro b hb
    rcases List.mem_cons.1 hb with rfl | hb
    · exact ⟨_, List.mem_cons_self, h⟩
    · obtain ⟨a, m, r⟩ := ih b hb
      exact ⟨a, List.mem_cons_of_mem _ m, r⟩

theorem forall2_mem_left {A B : Type} {P : A → B → Prop} {l : List A} {l' : List B}
    (h : List.Forall₂ P l l') : ∀ a ∈ l, ∃ b ∈ l', P a b := by
  induction h with
  | nil => intro a ha; cases ha
  | cons h _ ih =>
    intro a ha
    rcases List.mem_cons.1 ha with rfl | ha
    · exact ⟨_, List.mem_cons_self, h⟩
    · obtain ⟨b, m, r⟩ := ih a ha
      exact ⟨b, List.mem_cons_of_mem _ m, r⟩

theorem ok_bind' {β γ : Type} (a : β) (f : β → Except Err γ) : ((Except.ok a : Except Err β) >>= f) = f a := rfl

theorem map_ok {β γ : Type} (f : β → γ) (a : β) : (Except.ok a : Except Err β).map f = .ok (f a) := rfl

/-- `_expand` for a derivative array of the inner problem, without flips. -/
theorem wrap_expand {L0 L : Layout} (hL : L.Ok) {fm dm : List Nat} (he : L0.Embeds L fm dm) {K0 K : Nat → Prop}
    (hc : CarriedBy L0 L fm dm K0 K) (pm : List Nat) {v : Num α} (h : NumPiece L0 v) (hs : NumSolid K0 L0 v) :
    ∃ r, (⟨pm, fm, L.n, dm, L.d, []⟩ : Wrap).expand (.arr v) = .ok (.arr r) ∧ NumPiece L r ∧ NumSolid K L r ∧
      (∀ t, v = .tensor t → ∃ s, r = .tensor s ∧ s.xDim ≤ t.xDim ∧ s.yDim ≤ t.yDim ∧
        (¬ (t.values.ndim = 0 ∧ t.values.get (fun _ => 0) = 0) → OnPiece K L s)) ∧ v.Kept r ∧
      ∀ i : Idx, r.dense i = v.dense ⟨i.x, i.y, fun k => i.n (fm.getD k 0), fun k => i.d (dm.getD k 0)⟩ := by
  cases v with
  | tensor t =>
    obtain ⟨a, c, a1, c1, c2, c3, c4, c5, c8, c9, c6⟩ := expand_item hL he hc hs
    refine ⟨.tensor c, ?_, c2.item, c2, fun t' ht' => ?_, ⟨c8, fun hl hz => ?_, fun _ => trivial, fun hz => ?_, fun _ => trivial, fun a ha => ?_, fun a ha => ?_⟩, c6⟩
    · show (do
        let a ← (t.expand fm L.n false).map Num.tensor
        let b ← a.flip []
        let c ← b.expand dm L.d true
        .ok (Py.arr c) : Except Err (Py α)) = _
      rw [a1, map_ok, ok_bind']
      show (do
        let b ← ((a.flip [] false).map Num.tensor)
        let c ← b.expand dm L.d true
        .ok (Py.arr c) : Except Err (Py α)) = _
      have hf : a.flip [] false = .ok a := rfl
      rw [hf, map_ok, ok_bind']
      show (do
        let c ← ((a.expand dm L.d true).map Num.tensor)
        .ok (Py.arr c) : Except Err (Py α)) = _
      rw [c1]; rfl
    · cases ht'; exact ⟨c, rfl, c3, c4, c5⟩
    · have h1 := (c5 fun h0 => hl ⟨hs.item.wf, h0⟩).1.ne hL
      exact h1 hz.2.1
    · have : t.expand fm L.n false = .ok (Tensor.const 0) := by
        unfold Tensor.expand
        rw [if_neg (not_not.2 he.fmLt), if_pos hz.2]
      rw [this] at a1
      cases a1
      have : (Tensor.const (0 : α)).expand dm L.d true = .ok (Tensor.const 0) := by
        unfold Tensor.expand
        rw [if_neg (not_not.2 he.dmLt), if_pos ⟨rfl, rfl⟩]
      rw [this] at c1
      cases c1
      exact Tensor.isZero_const
    · rcases c9 with hz | ⟨hz, hx⟩
      · exact Or.inl hz
      · exact Or.inr (hx.trans (ha.resolve_left hz))
    · have h1 : ¬ c.IsZero := fun hz => (c5 fun h0 => ha.1 ⟨hs.item.wf, h0⟩).1.ne hL hz.2.1
      exact ⟨h1, (c9.resolve_left h1).2.trans ha.2⟩
  | generic g =>
    obtain ⟨h1, h2, h3, h4, h5, h6⟩ := h
    obtain ⟨hn0, hs⟩ := hs
    obtain ⟨l, l', k1, k2, k3⟩ := mapElems_two (f := fun t : Tensor α => t.expand fm L.n false)
      (g := fun t : Tensor α => t.expand dm L.d true) (es := g.elements)
      (fun t c => ((¬ t.IsZero → ¬ c.IsZero) ∧ (c.IsZero ∨ (¬ t.IsZero ∧ c.xDim = t.xDim))) ∧ OnItem K L c ∧ c.xDim ≤ t.xDim ∧ c.yDim ≤ t.yDim ∧ (t.Mapped → c.Mapped) ∧ ∀ i : Idx, c.dense i =
        t.dense ⟨i.x, i.y, fun k => i.n (fm.getD k 0), fun k => i.d (dm.getD k 0)⟩) (by
        intro e he'
        obtain ⟨t, rfl, ht⟩ := hs e he'
        obtain ⟨a, c, a1, c1, c2, c3, c4, c5, c8, c9, c6⟩ := expand_item hL he hc ht
        exact ⟨t, rfl, a, c, a1, c1, ⟨fun hl hz => (c5 fun h0 => hl ⟨ht.item.wf, h0⟩).1.ne hL hz.2.1, c9⟩, c2, c3, c4, c8, c6⟩)
    refine ⟨.generic ⟨g.xDim, g.yDim, L.n, L.d, l'⟩, ?_, ⟨?_, ?_, rfl, Or.inr rfl, fun hnil => h5 ?_, ?_⟩, ⟨hL.some, ?_⟩,
      fun t ht => (by cases ht), ⟨fun hm e he' => ?_, fun _ => trivial, fun hl e he' => ?_, fun h => h, fun h => h, fun a ha e he' => ?_, fun a ha => ?_⟩, fun i => ?_⟩
    · show (do
        let a ← (g.expand fm L.n false).map Num.generic
        let b ← a.flip []
        let c ← b.expand dm L.d true
        .ok (Py.arr c) : Except Err (Py α)) = _
      have e1 : g.expand fm L.n false = .ok ⟨g.xDim, g.yDim, L.n, g.dim, l⟩ := by
        unfold Generic.expand; rw [k1]; rfl
      rw [e1, map_ok, ok_bind']
      show (do
        let b ← ((Generic.flip ⟨g.xDim, g.yDim, L.n, g.dim, l⟩ [] false).map Num.generic)
        let c ← b.expand dm L.d true
        .ok (Py.arr c) : Except Err (Py α)) = _
      have f1 := mapElems_flip k2
      have hf : Generic.flip ⟨g.xDim, g.yDim, L.n, g.dim, l⟩ [] false = .ok ⟨g.xDim, g.yDim, L.n, g.dim, l⟩ := by
        unfold Generic.flip; dsimp only; rw [f1]
      rw [hf, map_ok, ok_bind']
      show (do
        let c ← ((Generic.expand ⟨g.xDim, g.yDim, L.n, g.dim, l⟩ dm L.d true).map Num.generic)
        .ok (Py.arr c) : Except Err (Py α)) = _
      have e2 : Generic.expand ⟨g.xDim, g.yDim, L.n, g.dim, l⟩ dm L.d true = .ok ⟨g.xDim, g.yDim, L.n, L.d, l'⟩ := by
        unfold Generic.expand; dsimp only; rw [k2]; rfl
      rw [e2]; rfl
    · rw [he.ha]; exact h1
    · rw [he.hb]; exact h2
    · have := k3.length_eq
      rw [show l' = [] from hnil] at this
      exact List.eq_nil_of_length_eq_zero this
    · have hr := forall2_mem k3
      intro e he'
      obtain ⟨e0, m0, t, c, rfl, rfl, q1, q2, q3, q4, -, -⟩ := hr e he'
      obtain ⟨t', e1, -, e3, e4, -⟩ := h6 _ m0
      cases e1
      exact ⟨c, rfl, q2.item, le_trans q3 e3, le_trans q4 e4, q2.dim⟩
    · exact forall2_right k3 fun a b ⟨t, r, _, h2, _, h3, _⟩ => ⟨r, h2, h3⟩
    · obtain ⟨e0, m0, t, c, rfl, rfl, -, -, -, -, q5, -⟩ := forall2_mem k3 e he'
      obtain ⟨t', e1, e2⟩ := hm _ m0
      cases e1
      exact ⟨c, rfl, q5 e2⟩
    · obtain ⟨e0, m0, t, c, rfl, rfl, q0, -⟩ := forall2_mem k3 e he'
      obtain ⟨t', e1, e2⟩ := hl _ m0
      cases e1
      exact ⟨c, rfl, q0.1 e2⟩
    · obtain ⟨e0, m0, t, c, rfl, rfl, q0, -⟩ := forall2_mem k3 e he'
      obtain ⟨t', e1, e2⟩ := ha _ m0
      cases e1
      rcases q0.2 with hz | ⟨hz, hx⟩
      · exact ⟨c, rfl, Or.inl hz⟩
      · exact ⟨c, rfl, Or.inr (hx.trans (e2.resolve_left hz))⟩
    · obtain ⟨t0, m0, hz, hx⟩ := ha
      obtain ⟨e', m1, t, c, e1, rfl, q0, -⟩ := forall2_mem_left k3 _ m0
      cases e1
      exact ⟨c, m1, q0.1 hz, (q0.2.resolve_left (q0.1 hz)).2.trans hx⟩
    · refine forall2_sum k3 ?_
      rintro a b ⟨t, r, rfl, rfl, -, -, -, -, -, h⟩
      exact h i

/-! ### sums -/

/-- `g + Tensor(0)` is `g`. -/
theorem generic_add_zero {Q : Tensor α → Prop} {g : Generic α} (hne : g.elements ≠ []) (hs : ElemsAll Q g.elements)
    {o : Tensor α} (ho : o.IsZero) : g.binPrim (.tensor o) .add = .ok g := by
  obtain ⟨o1, o2, o3, o4, -, -⟩ := ho.dims
  have hd : g.dims (.tensor o) = (g.xDim, g.yDim, g.n, g.dim) := by
    show (max g.xDim o.xDim, max g.yDim o.yDim, max g.n o.n, max g.dim o.dim) = _
    rw [o1, o2, o3, o4]; simp
  have hm : mergeInto (.tensor o) .add g.elements = .ok (some g.elements) := by
    rcases hg : g.elements with _ | ⟨e, es⟩
    · exact absurd hg hne
    · obtain ⟨t, rfl, -⟩ := hs e (by rw [hg]; exact List.mem_cons_self)
      have : elemBin (.inl t) (.tensor o) .add = .ok (.tensor t) := by
        show t.binTensor o .add = _
        unfold Tensor.binTensor
        rw [if_pos ho.2.1, ho.2.2]
        simp [Tensor.binScalar]
      unfold mergeInto
      rw [this]
  unfold Generic.binPrim
  simp only [hm, hd]

theorem item_add_zero {t o : Tensor α} (ho : o.IsZero) : t.binTensor o .add = .ok (.tensor t) := by
  unfold Tensor.binTensor
  rw [if_pos ho.2.1, ho.2.2]
  simp [Tensor.binScalar]

/-- A sum of two Tensors that are not broadcast along the axes `K`. -/
theorem add_onItem {L : Layout} (hL : L.Ok) (K : Nat → Prop) : AddClosed (α := α) L (OnItem K L) := by
  intro t o s ht ho qt qo h
  rcases qo with qo | qo
  · rw [item_add_zero qo] at h
    cases h
    exact qt
  rcases qt with qt | qt
  · obtain ⟨s', e1, e2, -, -, -, e6, -⟩ := zero_op_piece hL qt qo.1 .add
    rw [h] at e1
    cases e1
    exact Or.inr ⟨e2, e6 qo.2⟩
  · obtain ⟨r', e1, -, ⟨s', rfl, -, -, -, -, e7⟩ | rfl⟩ := item_add hL ht ho (op := .add) (by simp [Op.additive])
    · rw [h] at e1
      cases e1
      exact Or.inr (e7 qt qo)
    · rw [h] at e1
      cases e1

/-- Sum of derivative arrays. -/
theorem solid_add {L : Layout} (hL : L.Ok) {v w : Num α} (hv : NumPiece L v) (hw : NumPiece L w) {K : Nat → Prop}
    (sv : NumSolid K L v) (sw : NumSolid K L w) :
    ∃ r, v.bin w .add = .ok r ∧ NumPiece L r ∧ NumSolid K L r ∧ ∀ i, r.dense i = v.dense i + w.dense i := by
  obtain ⟨r, r1, r2, -, -, -, r6⟩ := num_add hL hv hw (Or.inl rfl)
  exact ⟨r, r1, r2, (all_add hL (add_onItem hL K) hv hw sv.all sw.all r1).solid hL, r6⟩

/-! ### multiples -/

/-- `c * t` for `c ≠ 0` -/
theorem item_smul {L : Layout} {c : α} (hc : c ≠ 0) {t : Tensor α} (h : Item L t) :
    ∃ s, t.binScalar c .mul = .ok s ∧ Item L s ∧ s.xDim = t.xDim ∧ s.yDim = t.yDim ∧ s.dim = t.dim ∧
      (∀ {K : Nat → Prop}, OnPiece K L t → OnPiece K L s) ∧ (t.IsZero → s.IsZero) ∧ (t.Mapped → s.Mapped) ∧
      (s.IsZero → t.IsZero) ∧ ∀ i, s.dense i = t.dense i * c := by
  unfold Tensor.binScalar
  rw [if_neg (by simp), if_neg (by simp), if_neg (by simp [hc]), if_neg (by simp)]
  by_cases h1 : c = 1
  · rw [if_pos ⟨h1, Or.inl rfl⟩]
    exact ⟨t, rfl, h, rfl, rfl, rfl, fun h => h, fun h => h, fun h => h, fun h => h, fun i => by rw [h1, mul_one]⟩
  · rw [if_neg (by simp [h1]), if_neg (by simp)]
    have hp : Piece L t → Piece L ⟨t.values.map fun v => Op.mul.app v c, t.xDim, t.yDim, t.dim, t.xMap, t.yMap⟩ :=
      fun h => ⟨h.wf.map _, h.inj, h.hx, h.hy, h.hn, h.hd, h.size, h.px, h.py⟩
    have hz : t.IsZero → Tensor.IsZero (⟨t.values.map fun v => Op.mul.app v c, t.xDim, t.yDim, t.dim, t.xMap, t.yMap⟩ :
        Tensor α) := by
      intro h
      refine ⟨h.1.map _, h.2.1, ?_⟩
      dsimp only
      rw [map_get, h.2.2]
      exact zero_mul c
    refine ⟨_, rfl, h.imp hp hz, rfl, rfl, rfl, fun h => ⟨hp h.1, h.2⟩, hz, fun h => h, fun hs => ⟨h.wf, hs.2.1, ?_⟩, fun i => ?_⟩
    · have := hs.2.2
      dsimp only at this
      rw [map_get] at this
      exact (mul_eq_zero.1 this).resolve_right hc
    rw [Tensor.dense_map]
    unfold Tensor.dense
    split_ifs
    · rfl
    · exact (zero_mul c).symm

theorem mulAll_scalar {L : Layout} {c : α} (hc : c ≠ 0) {X Y D : Nat} {es : List (Tensor α ⊕ NDArray α)}
    (hes : Elems L X Y D es) :
    ∃ es', mulAll (.scalar c) .mul es = .ok es' ∧ Elems L X Y D es' ∧ es'.length = es.length ∧
      (∀ {K : Nat → Prop}, ElemsAll (OnItem K L) es → ElemsAll (OnItem K L) es') ∧
      (ElemsAll Tensor.Mapped es → ElemsAll Tensor.Mapped es') ∧
      (ElemsAll (fun t => ¬ t.IsZero) es → ElemsAll (fun t => ¬ t.IsZero) es') ∧
      (∀ a, ElemsAll (fun t => t.IsZero ∨ t.xDim = a) es → ElemsAll (fun t => t.IsZero ∨ t.xDim = a) es') ∧
      (∀ a, (∃ t, .inl t ∈ es ∧ ¬ t.IsZero ∧ t.xDim = a) → ∃ t, .inl t ∈ es' ∧ ¬ t.IsZero ∧ t.xDim = a) ∧
      ∀ i, sumDense es' i = sumDense es i * c := by
  induction es with
  | nil =>
    refine ⟨[], rfl, fun e he => (by cases he), rfl, fun _ e he => (by cases he), fun _ e he => (by cases he), fun _ e he => (by cases he),
      fun _ _ e he => (by cases he), fun _ ⟨t, ht, _⟩ => (by cases ht), fun i => ?_⟩
    show (0 : α) = 0 * _; rw [zero_mul]
  | cons e es ih =>
    obtain ⟨es', i1, i2, i3, i4, i6, i7, i8, i9, i5⟩ := ih fun e he => hes e (List.mem_cons_of_mem _ he)
    obtain ⟨t, rfl, ht, b1, b2, b3⟩ := hes e List.mem_cons_self
    obtain ⟨s, k1, k2, k3, k4, k5, k6, k9, k8, k10, k7⟩ := item_smul hc ht
    refine ⟨.inl s :: es', ?_, ?_, by simp [i3], fun hf => ElemsAll.cons (hf.head.imp k9 k6) (i4 hf.tail),
      fun hf => ElemsAll.cons (k8 hf.head) (i6 hf.tail), fun hf => ElemsAll.cons (fun hz => hf.head (k10 hz)) (i7 hf.tail),
      fun a hf => ElemsAll.cons (hf.head.imp k9 fun h => k3.trans h) (i8 a hf.tail), fun a ⟨u, hu, qu⟩ => ?_, fun i => ?_⟩
    · have he : elemBin (.inl t) (.scalar c) .mul = .ok (.tensor s) := by
        show (match t.binScalar c .mul with | .error e => .error e | .ok r => .ok (.tensor r) : Except Err (Num α)) = _
        rw [k1]
      unfold mulAll
      rw [he, i1]
    · intro e he
      rcases List.mem_cons.1 he with rfl | he
      · exact ⟨s, rfl, k2, by omega, by omega, by omega⟩
      · exact i2 e he
    · rcases List.mem_cons.1 hu with hu | hu
      · cases hu
        exact ⟨s, List.mem_cons_self, fun hz => qu.1 (k10 hz), k3.trans qu.2⟩
      · obtain ⟨w, w1, w2⟩ := i9 a ⟨u, hu, qu⟩
        exact ⟨w, List.mem_cons_of_mem _ w1, w2⟩
    · rw [sumDense_cons, sumDense_cons, i5 i]
      show s.dense i + _ = (t.dense i + _) * c
      rw [k7]; ring

/-- `c * v` for `c ≠ 0` -/
theorem solid_smul {L : Layout} {c : α} (hc : c ≠ 0) {v : Num α} (h : NumPiece L v) {K : Nat → Prop} (hs : NumSolid K L v) :
    ∃ r, v.scalarOp .mul c = .ok r ∧ NumPiece L r ∧ NumSolid K L r ∧
      (∀ t, v = .tensor t → ∃ s, r = .tensor s ∧ s.xDim = t.xDim ∧ s.yDim = t.yDim ∧ (OnPiece K L t → OnPiece K L s)) ∧
      v.Kept r ∧ ∀ i, r.dense i = v.dense i * c := by
  cases v with
  | tensor t =>
    obtain ⟨s, k1, k2, k3, k4, k5, k6, k7, k9, k10, k8⟩ := item_smul hc h
    refine ⟨.tensor s, ?_, k2, ?_, fun t' ht => ?_, ⟨k9, fun hl hz => hl (k10 hz), fun _ => trivial, k7, fun _ => trivial, fun a ha => ha.imp k7 fun h => k3.trans h, fun a ha => ⟨fun hz => ha.1 (k10 hz), k3.trans ha.2⟩⟩, k8⟩
    · unfold Num.scalarOp; dsimp only; rw [k1]
    · rcases hs with hs | hs
      · exact Or.inl (k7 hs)
      · exact Or.inr (k6 hs)
    · cases ht; exact ⟨s, rfl, k3, k4, k6⟩
  | generic g =>
    obtain ⟨h1, h2, h3, h4, h5, h6⟩ := h
    obtain ⟨es', e1, e2, e3, e4, e6, e7, e8, e9, e5⟩ := mulAll_scalar hc (X := g.xDim) (Y := g.yDim) (D := g.dim) h6
    refine ⟨.generic ⟨g.xDim, g.yDim, g.n, g.dim, es'⟩, ?_, ⟨h1, h2, h3, h4, fun hh => h5 ?_, e2⟩, ⟨hs.1, e4 hs.2⟩,
      fun t ht => (by cases ht), ⟨e6, fun _ => trivial, e7, fun h => h, fun h => h, e8, e9⟩, e5⟩
    · have : g.binPrim (.scalar c) .mul = .ok ⟨g.xDim, g.yDim, g.n, g.dim, es'⟩ := by
        unfold Generic.binPrim
        simp only [e1, Generic.dims]
      unfold Num.scalarOp
      dsimp only
      rw [this]
    · rw [show es' = [] from hh] at e3
      exact List.eq_nil_of_length_eq_zero e3.symm

end Verif.Tens
