import Verif.Lemmas.NumSum
import Verif.Lemmas.AddClosed

/-!
# Sums and products with all axes of the parameters
-/

set_option linter.unusedSectionVars false

namespace Verif.Tens
open Verif.Params (Err)
open NDArray

variable {α : Type} [Field α] [DecidableEq α]

/-- A Tensor with all axes of both parameters. -/
def Tall (L : Layout) (t : Tensor α) : Prop := Piece L t ∧ t.xDim = L.a ∧ t.yDim = L.b

def TallIn (L : Layout) (es : List (Tensor α ⊕ NDArray α)) : Prop := ∃ t, .inl t ∈ es ∧ Tall L t

/-- Some Tensor of `v` has all axes of both parameters. -/
def NumTall (L : Layout) : Num α → Prop
  | .tensor t => Tall L t
  | .generic g => TallIn L g.elements

theorem Tall.neg {L : Layout} {t : Tensor α} (h : Tall L t) : Tall L t.neg := ⟨h.1.neg, h.2⟩

theorem TallIn.neg {L : Layout} {es : List (Tensor α ⊕ NDArray α)} (h : TallIn L es) : TallIn L (es.map negElem) := by
  obtain ⟨t, h1, h2⟩ := h
  exact ⟨t.neg, List.mem_map.2 ⟨.inl t, h1, rfl⟩, h2.neg⟩

theorem numTall_dims {L : Layout} {v : Num α} (hv : NumPiece L v) (h : NumTall L v) : v.xDim = L.a ∧ v.yDim = L.b ∧ v.HasX ∧ v.HasY := by
  cases v with
  | tensor t => exact ⟨h.2.1, h.2.2, trivial, trivial⟩
  | generic g =>
    obtain ⟨t, h1, h2, h3, h4⟩ := h
    obtain ⟨p1, p2, -, -, -, p6⟩ := hv
    obtain ⟨t', e1, -, q1, q2, -⟩ := p6 _ h1
    cases e1
    have e1 : g.xDim = L.a := by omega
    have e2 : g.yDim = L.b := by omega
    exact ⟨e1, e2, fun h => ⟨t, h1, by omega⟩, fun h => ⟨t, h1, by omega⟩⟩

/-! ### sums -/

theorem tall_binTensor {L : Layout} (hL : L.Ok) {op : Op} (hop : op.additive) {t o : Tensor α} (ht : Item L t) (ho : Item L o) (q : Tall L t ∨ Tall L o)
    {r : Num α} (h : t.binTensor o op = .ok r) : NumTall L r := by
  have gen : ∀ {x y n d : Nat}, NumTall L (.generic ⟨x, y, n, d, addElems op t o⟩ : Num α) := by
    intro x y n d
    have h' : ∃ t' o', addElems op t o = [.inl t', .inl o'] ∧ (t' = t ∨ t' = t.neg) ∧ (o' = o ∨ o' = o.neg) := by
      cases op <;> exact ⟨_, _, rfl, by simp, by simp⟩
    obtain ⟨t', o', e, h1, h2⟩ := h'
    show TallIn L (addElems op t o)
    rw [e]
    rcases q with q | q
    · refine ⟨t', by simp, ?_⟩
      rcases h1 with rfl | rfl
      · exact q
      · exact q.neg
    · refine ⟨o', by simp, ?_⟩
      rcases h2 with rfl | rfl
      · exact q
      · exact q.neg
  rcases ho with ho | ho
  · rcases ht with ht | ht
    · obtain ⟨r', e1, -, ⟨s, rfl, e3, e4, e5, -⟩ | rfl⟩ := piece_add hL ht ho hop
      · rw [h] at e1
        cases e1
        have a1 := ht.hx
        have a2 := ht.hy
        have a3 := ho.hx
        have a4 := ho.hy
        refine ⟨e3, ?_, ?_⟩
        · rcases q with q | q
          · have := q.2.1; omega
          · have := q.2.1; omega
        · rcases q with q | q
          · have := q.2.2; omega
          · have := q.2.2; omega
      · rw [h] at e1
        cases e1
        exact gen
    · obtain ⟨s, e1, e2, e3, e4, -⟩ := zero_op_piece hL ht ho op
      rw [h] at e1
      cases e1
      rcases q with q | q
      · exact absurd ht.2.1 (q.1.ne hL)
      · exact ⟨e2, by rw [e3, q.2.1], by rw [e4, q.2.2]⟩
  · have q' : Tall L t := q.resolve_right fun q => absurd ho.2.1 (q.1.ne hL)
    have hz : ∃ s, t.binScalar 0 op = .ok s ∧ (s = t ∨ s = t.neg) := by
      rcases op.additive_iff.1 hop with rfl | rfl | rfl <;> simp [Tensor.binScalar]
    obtain ⟨s, e1, e2⟩ := hz
    unfold Tensor.binTensor at h
    rw [if_pos ho.2.1, ho.2.2, e1] at h
    cases h
    rcases e2 with rfl | rfl
    · exact q'
    · exact q'.neg

theorem tall_mergeInto {L : Layout} (hL : L.Ok) {op : Op} (hop : op.additive) {o : Tensor α} (ho : Item L o) {X Y D : Nat} {es : List (Tensor α ⊕ NDArray α)}
    (hes : Elems L X Y D es) : ∀ {es'}, mergeInto (.tensor o) op es = .ok (some es') → (TallIn L es ∨ Tall L o) → TallIn L es' := by
  induction es with
  | nil => intro es' h; cases h
  | cons e es ih =>
    intro es' h q
    obtain ⟨t, rfl, ht, -⟩ := hes e List.mem_cons_self
    unfold mergeInto at h
    cases hb : elemBin (.inl t) (.tensor o) op with
    | error err => rw [hb] at h; cases h
    | ok r =>
      have hm := fun q => tall_binTensor hL hop ht ho q (show t.binTensor o op = .ok r from hb)
      rw [hb] at h
      cases r with
      | tensor s =>
        cases h
        rcases q with ⟨u, hu, qu⟩ | q
        · rcases List.mem_cons.1 hu with hu | hu
          · cases hu
            exact ⟨s, List.mem_cons_self, hm (Or.inl qu)⟩
          · exact ⟨u, List.mem_cons_of_mem _ hu, qu⟩
        · exact ⟨s, List.mem_cons_self, hm (Or.inr q)⟩
      | generic g =>
        dsimp only at h
        cases hr : mergeInto (.tensor o) op es with
        | error err => rw [hr] at h; cases h
        | ok m =>
          rw [hr] at h
          cases m with
          | none => cases h
          | some l =>
            cases h
            have ih' := ih (fun e he => hes e (List.mem_cons_of_mem _ he)) hr
            rcases q with ⟨u, hu, qu⟩ | q
            · rcases List.mem_cons.1 hu with hu | hu
              · exact ⟨u, by rw [hu]; exact List.mem_cons_self, qu⟩
              · obtain ⟨w, w1, w2⟩ := ih' (Or.inl ⟨u, hu, qu⟩)
                exact ⟨w, List.mem_cons_of_mem _ w1, w2⟩
            · obtain ⟨w, w1, w2⟩ := ih' (Or.inr q)
              exact ⟨w, List.mem_cons_of_mem _ w1, w2⟩

theorem tall_gp {L : Layout} (hL : L.Ok) {op : Op} (hop : op.additive) {g : Generic α} (hg : GP L g) {o : Tensor α} (ho : Item L o)
    (q : TallIn L g.elements ∨ Tall L o) {r : Generic α} (h : g.binPrim (.tensor o) op = .ok r) : TallIn L r.elements := by
  have app : ∀ {es : List (Tensor α ⊕ NDArray α)} {o' : Tensor α}, (TallIn L es ∨ Tall L o') → TallIn L (es ++ [.inl o']) := by
    rintro es o' (⟨t, h1, h2⟩ | h)
    · exact ⟨t, List.mem_append_left _ h1, h2⟩
    · exact ⟨o', by simp, h⟩
  have hneg : ∀ {X Y D : Nat} {es : List (Tensor α ⊕ NDArray α)}, Elems L X Y D es → Elems L X Y D (es.map negElem) := by
    intro X Y D es hes e he
    obtain ⟨e', h1, rfl⟩ := List.mem_map.1 he
    obtain ⟨t, rfl, ht, h2⟩ := hes e' h1
    exact ⟨t.neg, rfl, ht.neg, h2⟩
  unfold Generic.binPrim at h
  rcases op.additive_iff.1 hop with rfl | rfl | rfl
  · dsimp only at h
    cases hm : mergeInto (.tensor o) .add g.elements with
    | error e => rw [hm] at h; cases h
    | ok m =>
      rw [hm] at h
      cases m with
      | none =>
        cases h
        exact app q
      | some l =>
        cases h
        exact tall_mergeInto hL hop ho hg.els hm q
  · dsimp only at h
    cases hm : mergeInto (.tensor o) .sub g.elements with
    | error e => rw [hm] at h; cases h
    | ok m =>
      rw [hm] at h
      cases m with
      | none =>
        cases h
        exact app (o' := o.neg) (q.imp_right Tall.neg)
      | some l =>
        cases h
        exact tall_mergeInto hL hop ho hg.els hm q
  · dsimp only at h
    cases hm : mergeInto (.tensor o) .add (g.elements.map negElem) with
    | error e => rw [hm] at h; cases h
    | ok m =>
      rw [hm] at h
      cases m with
      | none =>
        cases h
        exact app (q.imp_left TallIn.neg)
      | some l =>
        cases h
        exact tall_mergeInto hL (op := .add) (by simp [Op.additive]) ho (hneg hg.els) hm (q.imp_left TallIn.neg)

theorem tall_foldBin {L : Layout} (hL : L.Ok) {op : Op} (hop : op.additive) {es : List (Tensor α ⊕ NDArray α)} {X Y D : Nat}
    (hes : Elems L X Y D es) : ∀ {g : Generic α}, GP L g → (TallIn L g.elements ∨ TallIn L es) → ∀ {r}, g.foldBin op es = .ok r → TallIn L r.elements := by
  induction es with
  | nil =>
    intro g hg q r h
    cases h
    exact q.resolve_right fun ⟨t, h, _⟩ => by cases h
  | cons e es ih =>
    intro g hg q r h
    obtain ⟨t, rfl, ht, -⟩ := hes e List.mem_cons_self
    obtain ⟨g', r1, r2, -⟩ := gp_add hL hg ht hop
    unfold Generic.foldBin at h
    have he : elemPrim (Sum.inl t : Tensor α ⊕ NDArray α) = .tensor t := rfl
    rw [he, r1] at h
    refine ih (fun e he => hes e (List.mem_cons_of_mem _ he)) r2 ?_ h
    rcases q with q | ⟨u, hu, qu⟩
    · exact Or.inl (tall_gp hL hop hg ht (Or.inl q) r1)
    · rcases List.mem_cons.1 hu with hu | hu
      · cases hu
        exact Or.inl (tall_gp hL hop hg ht (Or.inr qu) r1)
      · exact Or.inr ⟨u, hu, qu⟩

/-- A sum or difference has all axes of both parameters if one operand has them. -/
theorem tall_add {L : Layout} (hL : L.Ok) {op : Op} (hop : op = .add ∨ op = .sub) {v w r : Num α} (hv : NumPiece L v) (hw : NumPiece L w)
    (q : NumTall L v ∨ NumTall L w) (h : v.bin w op = .ok r) : NumTall L r := by
  have hadd : op.additive := op.additive_iff.2 (by rcases hop with h | h <;> simp [h])
  cases v with
  | tensor t =>
    cases w with
    | tensor o => exact tall_binTensor hL hadd hv hw q h
    | generic g =>
      rcases hop with rfl | rfl
      · obtain ⟨s, hb, rfl⟩ := generic_result (x := g.binPrim (.tensor t) .add) h
        exact tall_gp hL hadd (numPiece_generic hw).1 hv q.symm hb
      · obtain ⟨s, hb, rfl⟩ := generic_result (x := g.binPrim (.tensor t) .rsub) h
        exact tall_gp hL (op := .rsub) (by simp [Op.additive]) (numPiece_generic hw).1 hv q.symm hb
  | generic g =>
    cases w with
    | tensor t =>
      obtain ⟨s, hb, rfl⟩ := generic_result (x := g.binPrim (.tensor t) op) h
      exact tall_gp hL hadd (numPiece_generic hv).1 hw q hb
    | generic o =>
      have e : g.binGeneric o op = g.foldBin op o.elements := by rcases hop with rfl | rfl <;> rfl
      obtain ⟨s, hb, rfl⟩ := generic_result (x := g.binGeneric o op) h
      rw [e] at hb
      exact tall_foldBin hL hadd (numPiece_generic hw).1.els (numPiece_generic hv).1 q hb

/-! ### products with values -/

theorem tall_mulAll {L : Layout} (hL : L.Ok) {op : Op} (hop : ¬ op.additive) {o : Tensor α} (ho : Piece L o) (hx : o.xDim = 0) (hy : o.yDim = 0)
    {es : List (Tensor α ⊕ NDArray α)} (q : TallIn L es) : ∀ {es'}, mulAll (.tensor o) op es = .ok es' → TallIn L es' := by
  induction es with
  | nil => obtain ⟨t, h, -⟩ := q; cases h
  | cons e es ih =>
    intro es' h
    unfold mulAll at h
    cases hb : elemBin e (.tensor o) op with
    | error err => rw [hb] at h; cases h
    | ok r =>
      rw [hb] at h
      cases r with
      | generic g => cases h
      | tensor s =>
        dsimp only at h
        cases hr : mulAll (.tensor o) op es with
        | error err => rw [hr] at h; cases h
        | ok l =>
          rw [hr] at h
          cases h
          obtain ⟨u, hu, qu⟩ := q
          rcases List.mem_cons.1 hu with hu | hu
          · cases hu
            obtain ⟨s', e1, e2, e3, e4, -⟩ := piece_mul hL qu.1 ho (Or.inr hx) (Or.inr hy) hop
            have hb' : u.binTensor o op = .ok (.tensor s) := hb
            rw [e1] at hb'
            cases hb'
            exact ⟨_, List.mem_cons_self, e2, by rw [e3, hx, qu.2.1, Nat.max_zero], by rw [e4, hy, qu.2.2, Nat.max_zero]⟩
          · obtain ⟨w, w1, w2⟩ := ih ⟨u, hu, qu⟩ hr
            exact ⟨w, List.mem_cons_of_mem _ w1, w2⟩

theorem tall_gpMul {L : Layout} (hL : L.Ok) {op : Op} (hop : op = .mul ∨ op = .div) {o : Tensor α} (ho : Piece L o) (hx : o.xDim = 0) (hy : o.yDim = 0)
    {g r : Generic α} (q : TallIn L g.elements) (h : g.binPrim (.tensor o) op = .ok r) : TallIn L r.elements := by
  have hadd : ¬ op.additive := by rcases hop with rfl | rfl <;> simp [Op.additive]
  unfold Generic.binPrim at h
  rcases hop with rfl | rfl
  · dsimp only at h
    cases hm : mulAll (.tensor o) .mul g.elements with
    | error e => rw [hm] at h; cases h
    | ok m => rw [hm] at h; cases h; exact tall_mulAll hL hadd ho hx hy q hm
  · dsimp only at h
    cases hm : mulAll (.tensor o) .div g.elements with
    | error e => rw [hm] at h; cases h
    | ok m => rw [hm] at h; cases h; exact tall_mulAll hL hadd ho hx hy q hm

/-- A product with or a quotient by values has all axes of both parameters if the other factor has them. -/
theorem tall_scale {L : Layout} (hL : L.Ok) {op : Op} (hop : op = .mul ∨ op = .div) {o : Tensor α} (ho : Piece L o) (hx : o.xDim = 0) (hy : o.yDim = 0)
    {v r : Num α} (q : NumTall L v) (h : v.bin (.tensor o) op = .ok r) : NumTall L r := by
  have hadd : ¬ op.additive := by rcases hop with rfl | rfl <;> simp [Op.additive]
  cases v with
  | tensor t =>
    obtain ⟨s', e1, e2, e3, e4, -⟩ := piece_mul hL q.1 ho (Or.inr hx) (Or.inr hy) hadd
    have h' : t.binTensor o op = .ok r := h
    rw [e1] at h'
    cases h'
    exact ⟨e2, by rw [e3, hx, q.2.1, Nat.max_zero], by rw [e4, hy, q.2.2, Nat.max_zero]⟩
  | generic g =>
    obtain ⟨s, hb, rfl⟩ := generic_result (x := g.binPrim (.tensor o) op) h
    exact tall_gpMul hL hop ho hx hy q hb

/-- The same for the product in the other order. -/
theorem tall_times {L : Layout} (hL : L.Ok) {o : Tensor α} (ho : Piece L o) (hx : o.xDim = 0) (hy : o.yDim = 0) {v r : Num α} (q : NumTall L v)
    (h : (Num.tensor o).bin v .mul = .ok r) : NumTall L r := by
  cases v with
  | tensor t =>
    obtain ⟨s', e1, e2, e3, e4, -⟩ := piece_mul hL ho q.1 (Or.inl hx) (Or.inl hy) (op := .mul) (by simp [Op.additive])
    have h' : o.binTensor t .mul = .ok r := h
    rw [e1] at h'
    cases h'
    exact ⟨e2, by rw [e3, hx, q.2.1, Nat.zero_max], by rw [e4, hy, q.2.2, Nat.zero_max]⟩
  | generic g =>
    obtain ⟨s, hb, rfl⟩ := generic_result (x := g.binPrim (.tensor o) .mul) h
    exact tall_gpMul hL (Or.inl rfl) ho hx hy q hb

/-! ### products of derivatives -/

theorem add_tall {L : Layout} (hL : L.Ok) : AddClosed (α := α) L (Tall L) := fun _ _ _ ht ho qt _ h => tall_binTensor hL (by simp [Op.additive]) ht ho (Or.inl qt) h

theorem mul_tall {L : Layout} (hL : L.Ok) : MulGives (α := α) L (fun t => ¬ t.IsZero ∧ t.xDim = L.a) (fun t => ¬ t.IsZero ∧ t.yDim = L.b) (Tall L) := by
  rintro t o s ht ho hx hy ⟨pt, qt⟩ ⟨po, qo⟩ h
  have ht' := ht.resolve_right pt
  have ho' := ho.resolve_right po
  have a1 := ht'.hy
  have a2 := ho'.hx
  rcases h with h | h
  · obtain ⟨s', e1, e2, e3, e4, -⟩ := piece_mul hL ht' ho' hx hy (op := .mul) (by simp [Op.additive])
    rw [e1] at h
    cases h
    exact ⟨e2, by omega, by omega⟩
  · obtain ⟨s', e1, e2, e3, e4, -⟩ := piece_mul hL ho' ht' hx.symm hy.symm (op := .mul) (by simp [Op.additive])
    rw [e1] at h
    cases h
    exact ⟨e2, by omega, by omega⟩

theorem numTall_of_all {L : Layout} {v : Num α} (hv : NumPiece L v) (h : NumAll (Tall L) v) : NumTall L v := by
  cases v with
  | tensor t => exact h
  | generic g =>
    obtain ⟨e, he⟩ := List.exists_mem_of_ne_nil _ (numPiece_generic hv).2
    obtain ⟨t, rfl, ht⟩ := h e he
    exact ⟨t, he, ht⟩

/-- A Tensor of `v` has the property `P`. -/
def NumAny (P : Tensor α → Prop) : Num α → Prop
  | .tensor t => P t
  | .generic g => ∃ t, .inl t ∈ g.elements ∧ P t

theorem any_mulAll {P Q : Tensor α → Prop} {o : Tensor α} {es : List (Tensor α ⊕ NDArray α)} 
    (hQ : ∀ t s, .inl t ∈ es → P t → t.binTensor o .mul = .ok (.tensor s) → Q s)
    (q : ∃ t, .inl t ∈ es ∧ P t) : ∀ {es'}, mulAll (.tensor o) .mul es = .ok es' → ∃ t, .inl t ∈ es' ∧ Q t := by
  induction es with
  | nil => obtain ⟨t, h, -⟩ := q; cases h
  | cons e es ih =>
    intro es' h
    unfold mulAll at h
    cases hb : elemBin e (.tensor o) .mul with
    | error err => rw [hb] at h; cases h
    | ok r =>
      rw [hb] at h
      cases r with
      | generic g => cases h
      | tensor s =>
        dsimp only at h
        cases hr : mulAll (.tensor o) .mul es with
        | error err => rw [hr] at h; cases h
        | ok l =>
          rw [hr] at h
          cases h
          obtain ⟨u, hu, qu⟩ := q
          rcases List.mem_cons.1 hu with hu' | hu'
          · cases hu'
            exact ⟨_, List.mem_cons_self, hQ u s List.mem_cons_self qu hb⟩
          · obtain ⟨w, w1, w2⟩ := ih (fun t s ht => hQ t s (List.mem_cons_of_mem _ ht)) ⟨u, hu', qu⟩ hr
            exact ⟨w, List.mem_cons_of_mem _ w1, w2⟩

theorem any_gpMul {P Q : Tensor α → Prop} {o : Tensor α} {g r : Generic α}
    (hQ : ∀ t s, .inl t ∈ g.elements → P t → t.binTensor o .mul = .ok (.tensor s) → Q s)
    (q : ∃ t, .inl t ∈ g.elements ∧ P t) (h : g.binPrim (.tensor o) .mul = .ok r) : ∃ t, .inl t ∈ r.elements ∧ Q t := by
  unfold Generic.binPrim at h
  dsimp only at h
  cases hm : mulAll (.tensor o) .mul g.elements with
  | error e => rw [hm] at h; cases h
  | ok m => rw [hm] at h; cases h; exact any_mulAll hQ q hm

theorem tall_foldMul {L : Layout} (hL : L.Ok) {g : Generic α} (hg : GP L g) (pg : ∃ t, .inl t ∈ g.elements ∧ ¬ t.IsZero ∧ t.xDim = L.a)
    {es : List (Tensor α ⊕ NDArray α)} {X Y D : Nat} (hes : Elems L X Y D es) (hx : g.xDim = 0 ∨ X = 0) (hy : g.yDim = 0 ∨ Y = 0) {gt : Generic α} (hgt : GP L gt)
    (qt : TallIn L gt.elements ∨ ∃ t, .inl t ∈ es ∧ ¬ t.IsZero ∧ t.yDim = L.b) {r : Generic α} (h : g.foldMul gt es = .ok r) : TallIn L r.elements := by
  induction es generalizing gt with
  | nil =>
    cases h
    exact qt.resolve_right fun ⟨t, ht, _⟩ => by cases ht
  | cons e es ih =>
    obtain ⟨o, rfl, ho, b1, b2, b3⟩ := hes e List.mem_cons_self
    obtain ⟨m, m1, m2, m3, m4, m5, m6, -, m7⟩ := gp_mul hL hg (Or.inl ⟨rfl, ho⟩) (by omega) (by omega)
    obtain ⟨gt', f1, f2, f3, f4, f5, f6, f7⟩ := gp_foldBin hL (Or.inl rfl) m2.els hgt
    unfold Generic.foldMul at h
    have he : elemPrim (Sum.inl o : Tensor α ⊕ NDArray α) = .tensor o := rfl
    rw [he, m1] at h
    dsimp only at h
    rw [f1] at h
    refine ih (fun e he => hes e (List.mem_cons_of_mem _ he)) f2 ?_ h
    rcases qt with qt | ⟨u, hu, qu⟩
    · exact Or.inl (tall_foldBin hL (by simp [Op.additive]) m2.els hgt (Or.inl qt) f1)
    · rcases List.mem_cons.1 hu with hu | hu
      · cases hu
        refine Or.inl (tall_foldBin hL (by simp [Op.additive]) m2.els hgt (Or.inr ?_) f1)
        refine any_gpMul (P := fun t => ¬ t.IsZero ∧ t.xDim = L.a) (fun t s ht pt hb => ?_) pg m1
        obtain ⟨t', e1, ht', c1, c2, c3⟩ := hg.els _ ht
        cases e1
        exact mul_tall hL t o s ht' ho (by omega) (by omega) pt qu (Or.inl hb)
      · exact Or.inr ⟨u, hu, qu⟩

/-- The product of two derivatives has all axes of both parameters. -/
theorem tall_mul {L : Layout} (hL : L.Ok) {v w r : Num α} (hv : NumPiece L v) (hw : NumPiece L w) (hx : v.xDim = 0 ∨ w.xDim = 0) (hy : v.yDim = 0 ∨ w.yDim = 0)
    (pv : NumAny (fun t => ¬ t.IsZero ∧ t.xDim = L.a) v) (pw : NumAny (fun t => ¬ t.IsZero ∧ t.yDim = L.b) w) (h : v.bin w .mul = .ok r) : NumTall L r := by
  cases v with
  | tensor t =>
    cases w with
    | tensor o =>
      obtain ⟨s, e1, -⟩ := item_mul hL hv hw hx hy
      have e : (Num.tensor t).bin (.tensor o) .mul = t.binTensor o .mul := rfl
      rw [e, e1] at h
      cases h
      exact mul_tall hL t o s hv hw hx hy pv pw (Or.inl e1)
    | generic g =>
      obtain ⟨s, hb, rfl⟩ := generic_result (x := g.binPrim (.tensor t) .mul) h
      refine any_gpMul (P := fun t => ¬ t.IsZero ∧ t.yDim = L.b) (fun o s ho po hb => ?_) pw hb
      obtain ⟨t', e1, ht', c1, c2, c3⟩ := (numPiece_generic hw).1.els _ ho
      cases e1
      have hx' : t.xDim = 0 ∨ g.xDim = 0 := hx
      have hy' : t.yDim = 0 ∨ g.yDim = 0 := hy
      exact mul_tall hL t o s hv ht' (by omega) (by omega) pv po (Or.inr hb)
  | generic g =>
    obtain ⟨hg, hne⟩ := numPiece_generic hv
    cases w with
    | tensor o =>
      obtain ⟨s, hb, rfl⟩ := generic_result (x := g.binPrim (.tensor o) .mul) h
      refine any_gpMul (P := fun t => ¬ t.IsZero ∧ t.xDim = L.a) (fun t s ht pt hb => ?_) pv hb
      obtain ⟨t', e1, ht', c1, c2, c3⟩ := hg.els _ ht
      cases e1
      have hx' : g.xDim = 0 ∨ o.xDim = 0 := hx
      have hy' : g.yDim = 0 ∨ o.yDim = 0 := hy
      exact mul_tall hL t o s ht' hw (by omega) (by omega) pt pw (Or.inl hb)
    | generic o =>
      obtain ⟨hh, hne'⟩ := numPiece_generic hw
      obtain ⟨s, hb, rfl⟩ := generic_result (x := g.foldMul ⟨max g.xDim o.xDim, max g.yDim o.yDim, max g.n o.n,
          max g.dim o.dim, []⟩ o.elements) h
      have d1 := hg.hx
      have d2 := hg.hy
      have d3 := hg.hn
      have d4 := hg.hd
      have e1 := hh.hx
      have e2 := hh.hy
      have e3 := hh.hn
      have e4 := hh.hd
      refine tall_foldMul hL hg pv hh.els hx hy ?_ (Or.inr pw) hb
      exact ⟨by dsimp only; omega, by dsimp only; omega, by dsimp only; omega, by dsimp only; omega, fun e he => by cases he⟩

end Verif.Tens
