import Verif.Lemmas.NumPiece

/-!
# Properties of the Tensors of sums and products

If a property of Tensors is preserved by the sum of two Tensors (when this sum is a Tensor), then it is preserved by sums
of derivative arrays: every Tensor of the result is an old one or such a sum.
-/

set_option linter.unusedSectionVars false

namespace Verif.Tens
open Verif.Params (Err)
open NDArray

variable {α : Type} [Field α] [DecidableEq α]

/-- All elements are Tensors with the property `Q`. -/
def ElemsAll (Q : Tensor α → Prop) (es : List (Tensor α ⊕ NDArray α)) : Prop := ∀ e ∈ es, ∃ t, e = .inl t ∧ Q t

/-- All Tensors of `v` have the property `Q`. -/
def NumAll (Q : Tensor α → Prop) : Num α → Prop
  | .tensor t => Q t
  | .generic g => ElemsAll Q g.elements

/-- A sum has the property `Q` if the summands do. -/
def AddClosed (L : Layout) (Q : Tensor α → Prop) : Prop :=
  ∀ t o s, Item L t → Item L o → Q t → Q o → t.binTensor o .add = .ok (.tensor s) → Q s

/-- A product (in both orders) of Tensors with the properties `P` and `R` has the property `Q`. -/
def MulGives (L : Layout) (P R Q : Tensor α → Prop) : Prop :=
  ∀ t o s, Item L t → Item L o → (t.xDim = 0 ∨ o.xDim = 0) → (t.yDim = 0 ∨ o.yDim = 0) → P t → R o →
    (t.binTensor o .mul = .ok (.tensor s) ∨ o.binTensor t .mul = .ok (.tensor s)) → Q s

theorem ElemsAll.cons {Q : Tensor α → Prop} {t : Tensor α} {es : List (Tensor α ⊕ NDArray α)} (h : Q t) (hs : ElemsAll Q es) :
    ElemsAll Q (.inl t :: es) := by
  intro e he
  rcases List.mem_cons.1 he with rfl | he
  · exact ⟨t, rfl, h⟩
  · exact hs e he

theorem ElemsAll.tail {Q : Tensor α → Prop} {e : Tensor α ⊕ NDArray α} {es : List (Tensor α ⊕ NDArray α)} (hs : ElemsAll Q (e :: es)) :
    ElemsAll Q es := fun e he => hs e (List.mem_cons_of_mem _ he)

theorem ElemsAll.head {Q : Tensor α → Prop} {t : Tensor α} {es : List (Tensor α ⊕ NDArray α)} (hs : ElemsAll Q (.inl t :: es)) : Q t := by
  obtain ⟨t', e1, e2⟩ := hs _ List.mem_cons_self
  cases e1
  exact e2

theorem ElemsAll.append {Q : Tensor α → Prop} {es es' : List (Tensor α ⊕ NDArray α)} (h : ElemsAll Q es) (h' : ElemsAll Q es') :
    ElemsAll Q (es ++ es') := fun e he => (List.mem_append.1 he).elim (h e) (h' e)

theorem NumAll.mono {P Q : Tensor α → Prop} (h : ∀ t, P t → Q t) {v : Num α} (hv : NumAll P v) : NumAll Q v := by
  cases v with
  | tensor t => exact h t hv
  | generic g =>
    intro e he
    obtain ⟨t, e1, e2⟩ := hv e he
    exact ⟨t, e1, h t e2⟩

/-! ### sums -/

theorem all_binTensor {L : Layout} (hL : L.Ok) {Q : Tensor α → Prop} (hQ : AddClosed L Q) {t o : Tensor α} (ht : Item L t) (ho : Item L o)
    (qt : Q t) (qo : Q o) {r : Num α} (h : t.binTensor o .add = .ok r) : NumAll Q r := by
  obtain ⟨r', e1, -, ⟨s, rfl, -⟩ | rfl⟩ := item_add hL ht ho (op := .add) (by simp [Op.additive])
  · rw [h] at e1
    cases e1
    exact hQ t o s ht ho qt qo h
  · rw [h] at e1
    cases e1
    exact ElemsAll.cons qt (ElemsAll.cons qo fun e he => by cases he)

theorem mergeInto_all {L : Layout} (hL : L.Ok) {Q : Tensor α → Prop} (hQ : AddClosed L Q) {o : Tensor α} (ho : Item L o) (qo : Q o) {X Y D : Nat}
    {es : List (Tensor α ⊕ NDArray α)} (hes : Elems L X Y D es) (qs : ElemsAll Q es) :
    ∀ {es'}, mergeInto (.tensor o) .add es = .ok (some es') → ElemsAll Q es' := by
  induction es with
  | nil => intro es' h; cases h
  | cons e es ih =>
    intro es' h
    obtain ⟨t, rfl, ht, -⟩ := hes e List.mem_cons_self
    have mt := qs.head
    unfold mergeInto at h
    cases hb : elemBin (.inl t) (.tensor o) .add with
    | error err => rw [hb] at h; cases h
    | ok r =>
      have hm := all_binTensor hL hQ ht ho mt qo (show t.binTensor o .add = .ok r from hb)
      rw [hb] at h
      cases r with
      | tensor s => cases h; exact ElemsAll.cons hm qs.tail
      | generic g =>
        dsimp only at h
        cases hr : mergeInto (.tensor o) .add es with
        | error err => rw [hr] at h; cases h
        | ok m =>
          rw [hr] at h
          cases m with
          | none => cases h
          | some l =>
            cases h
            exact ElemsAll.cons mt (ih (fun e he => hes e (List.mem_cons_of_mem _ he)) qs.tail hr)

theorem gp_add_all {L : Layout} (hL : L.Ok) {Q : Tensor α → Prop} (hQ : AddClosed L Q) {g : Generic α} (hg : GP L g)
    (qg : ElemsAll Q g.elements) {o : Tensor α} (ho : Item L o) (qo : Q o) {r : Generic α} (h : g.binPrim (.tensor o) .add = .ok r) :
    ElemsAll Q r.elements := by
  unfold Generic.binPrim at h
  dsimp only at h
  cases hm : mergeInto (.tensor o) .add g.elements with
  | error e => rw [hm] at h; cases h
  | ok m =>
    rw [hm] at h
    cases m with
    | none =>
      cases h
      refine qg.append fun e he => ?_
      have := List.mem_singleton.1 he
      rw [if_pos rfl] at this
      exact ⟨o, this, qo⟩
    | some l =>
      cases h
      exact mergeInto_all hL hQ ho qo hg.els qg hm

theorem gp_foldBin_all {L : Layout} (hL : L.Ok) {Q : Tensor α → Prop} (hQ : AddClosed L Q) {es : List (Tensor α ⊕ NDArray α)} {X Y D : Nat}
    (hes : Elems L X Y D es) (qs : ElemsAll Q es) :
    ∀ {g : Generic α}, GP L g → ElemsAll Q g.elements → ∀ {r}, g.foldBin .add es = .ok r → ElemsAll Q r.elements := by
  induction es with
  | nil => intro g hg mg r h; cases h; exact mg
  | cons e es ih =>
    intro g hg mg r h
    obtain ⟨t, rfl, ht, -⟩ := hes e List.mem_cons_self
    obtain ⟨g', r1, r2, -⟩ := gp_add hL hg ht (op := .add) (by simp [Op.additive])
    unfold Generic.foldBin at h
    have he : elemPrim (Sum.inl t : Tensor α ⊕ NDArray α) = .tensor t := rfl
    rw [he, r1] at h
    exact ih (fun e he => hes e (List.mem_cons_of_mem _ he)) qs.tail r2 (gp_add_all hL hQ hg mg ht qs.head r1) h

/-- The result of a sum of a GenericTensor and a Tensor is a GenericTensor. -/
theorem generic_result {x : Except Err (Generic α)} {r : Num α}
    (h : (match x with | .error e => .error e | .ok r => .ok (.generic r) : Except Err (Num α)) = .ok r) : ∃ g, x = .ok g ∧ r = .generic g := by
  cases x with
  | error e => cases h
  | ok g => cases h; exact ⟨g, rfl, rfl⟩

/-- Sums. -/
theorem all_add {L : Layout} (hL : L.Ok) {Q : Tensor α → Prop} (hQ : AddClosed L Q) {v w r : Num α} (hv : NumPiece L v) (hw : NumPiece L w)
    (qv : NumAll Q v) (qw : NumAll Q w) (h : v.bin w .add = .ok r) : NumAll Q r := by
  cases v with
  | tensor t =>
    cases w with
    | tensor o => exact all_binTensor hL hQ hv hw qv qw h
    | generic g =>
      obtain ⟨s, hb, rfl⟩ := generic_result (x := g.binPrim (.tensor t) .add) h
      exact gp_add_all hL hQ (numPiece_generic hw).1 qw hv qv hb
  | generic g =>
    cases w with
    | tensor t =>
      obtain ⟨s, hb, rfl⟩ := generic_result (x := g.binPrim (.tensor t) .add) h
      exact gp_add_all hL hQ (numPiece_generic hv).1 qv hw qw hb
    | generic o =>
      obtain ⟨s, hb, rfl⟩ := generic_result (x := g.foldBin .add o.elements) h
      exact gp_foldBin_all hL hQ (numPiece_generic hw).1.els qw (numPiece_generic hv).1 qv hb

/-! ### products -/

theorem mulAll_all {L : Layout} (hL : L.Ok) {P Q : Tensor α → Prop} {o : Tensor α}
    {X Y D : Nat} (hx : X = 0 ∨ o.xDim = 0) (hy : Y = 0 ∨ o.yDim = 0)
    (hQ : ∀ t s, Item L t → (t.xDim = 0 ∨ o.xDim = 0) → (t.yDim = 0 ∨ o.yDim = 0) → P t → t.binTensor o .mul = .ok (.tensor s) → Q s)
    {es : List (Tensor α ⊕ NDArray α)} (hes : Elems L X Y D es)
    (ps : ElemsAll P es) : ∀ {es'}, mulAll (.tensor o) .mul es = .ok es' → ElemsAll Q es' := by
  induction es with
  | nil => intro es' h; cases h; intro e he; cases he
  | cons e es ih =>
    intro es' h
    obtain ⟨t, rfl, ht, b1, b2, b3⟩ := hes e List.mem_cons_self
    unfold mulAll at h
    cases hb : elemBin (.inl t) (.tensor o) .mul with
    | error err => rw [hb] at h; cases h
    | ok r =>
      rw [hb] at h
      cases r with
      | generic g => dsimp only at h; cases h
      | tensor s =>
        dsimp only at h
        cases hr : mulAll (.tensor o) .mul es with
        | error err => rw [hr] at h; cases h
        | ok l =>
          rw [hr] at h
          cases h
          exact ElemsAll.cons (hQ t s ht (by omega) (by omega) ps.head hb)
            (ih (fun e he => hes e (List.mem_cons_of_mem _ he)) ps.tail hr)

theorem gp_mul_all {L : Layout} (hL : L.Ok) {P Q : Tensor α → Prop} {o : Tensor α} {g : Generic α} (hg : GP L g)
    (hx : g.xDim = 0 ∨ o.xDim = 0) (hy : g.yDim = 0 ∨ o.yDim = 0)
    (hQ : ∀ t s, Item L t → (t.xDim = 0 ∨ o.xDim = 0) → (t.yDim = 0 ∨ o.yDim = 0) → P t → t.binTensor o .mul = .ok (.tensor s) → Q s)
    (pg : ElemsAll P g.elements) {r : Generic α} (h : g.binPrim (.tensor o) .mul = .ok r) : ElemsAll Q r.elements := by
  replace h : (match mulAll (.tensor o) .mul g.elements with
      | .error e => .error e
      | .ok els => .ok ⟨max g.xDim o.xDim, max g.yDim o.yDim, max g.n o.n, max g.dim o.dim, els⟩ : Except Err (Generic α)) = .ok r := h
  cases hm : mulAll (.tensor o) .mul g.elements with
  | error e => rw [hm] at h; cases h
  | ok els =>
    rw [hm] at h
    cases h
    exact mulAll_all hL hx hy hQ hg.els pg hm

theorem gp_foldMul_all {L : Layout} (hL : L.Ok) {P R Q : Tensor α → Prop} (hQ : AddClosed L Q) (hM : MulGives L P R Q)
    {g : Generic α} (hg : GP L g) (hne : g.elements ≠ []) (pg : ElemsAll P g.elements)
    {es : List (Tensor α ⊕ NDArray α)} {X Y D : Nat} (hes : Elems L X Y D es) (rs : ElemsAll R es)
    (hx : g.xDim = 0 ∨ X = 0) (hy : g.yDim = 0 ∨ Y = 0) {gt : Generic α} (hgt : GP L gt) (qt : ElemsAll Q gt.elements)
    {r : Generic α} (h : g.foldMul gt es = .ok r) : ElemsAll Q r.elements := by
  induction es generalizing gt with
  | nil => cases h; exact qt
  | cons e es ih =>
    obtain ⟨o, rfl, ho, b1, b2, b3⟩ := hes e List.mem_cons_self
    obtain ⟨m, m1, m2, m3, m4, m5, m6, -, m7⟩ := gp_mul hL hg (Or.inl ⟨rfl, ho⟩) (by omega) (by omega)
    obtain ⟨gt', f1, f2, f3, f4, f5, f6, f7⟩ := gp_foldBin hL (Or.inl rfl) m2.els hgt
    unfold Generic.foldMul at h
    have he : elemPrim (Sum.inl o : Tensor α ⊕ NDArray α) = .tensor o := rfl
    rw [he, m1] at h
    dsimp only at h
    rw [f1] at h
    refine ih (fun e he => hes e (List.mem_cons_of_mem _ he)) rs.tail f2 ?_ h
    refine gp_foldBin_all hL hQ m2.els ?_ hgt qt f1
    exact gp_mul_all hL hg (by omega) (by omega) (fun t s ht h1 h2 pt hb => hM t o s ht ho h1 h2 pt rs.head (Or.inl hb)) pg m1

/-- Products. -/
theorem all_mul {L : Layout} (hL : L.Ok) {P R Q : Tensor α → Prop} (hQ : AddClosed L Q) (hM : MulGives L P R Q) {v w r : Num α}
    (hv : NumPiece L v) (hw : NumPiece L w) (hx : v.xDim = 0 ∨ w.xDim = 0) (hy : v.yDim = 0 ∨ w.yDim = 0)
    (pv : NumAll P v) (rw' : NumAll R w) (h : v.bin w .mul = .ok r) : NumAll Q r := by
  cases v with
  | tensor t =>
    cases w with
    | tensor o =>
      obtain ⟨s, e1, -⟩ := item_mul hL hv hw hx hy
      have e : (Num.tensor t).bin (.tensor o) .mul = t.binTensor o .mul := rfl
      rw [e, e1] at h
      cases h
      exact hM t o s hv hw hx hy pv rw' (Or.inl e1)
    | generic g =>
      obtain ⟨s, hb, rfl⟩ := generic_result (x := g.binPrim (.tensor t) .mul) h
      exact gp_mul_all hL (numPiece_generic hw).1 hx.symm hy.symm
        (fun o s ho h1 h2 ro hb => hM t o s hv ho h1.symm h2.symm pv ro (Or.inr hb)) rw' hb
  | generic g =>
    obtain ⟨hg, hne⟩ := numPiece_generic hv
    cases w with
    | tensor o =>
      obtain ⟨s, hb, rfl⟩ := generic_result (x := g.binPrim (.tensor o) .mul) h
      exact gp_mul_all hL hg hx hy (fun t s ht h1 h2 pt hb => hM t o s ht hw h1 h2 pt rw' (Or.inl hb)) pv hb
    | generic o =>
      obtain ⟨hh, hne'⟩ := numPiece_generic hw
      obtain ⟨s, hb, rfl⟩ := generic_result (x := g.foldMul ⟨max g.xDim o.xDim, max g.yDim o.yDim, max g.n o.n,
          max g.dim o.dim, []⟩ o.elements) h
      have d1 := hg.hx
      have d2 := hg.hy
      have d3 := hg.hn
      have d4 := hg.hd
      have e1 := hh.hx
      have e2 := hh.hy
      have e3 := hh.hn
      have e4 := hh.hd
      refine gp_foldMul_all hL hQ hM hg hne pv hh.els rw' hx hy ?_ (fun e he => by cases he) hb
      exact ⟨by dsimp only; omega, by dsimp only; omega, by dsimp only; omega, by dsimp only; omega, fun e he => by cases he⟩

end Verif.Tens
