import Verif.Lemmas.TensorPiece

/-!
# Arithmetic of the derivative arrays of one problem (Tensors and GenericTensors)
-/

set_option linter.unusedSectionVars false

namespace Verif.Tens
open Verif.Params (Err)
open NDArray

variable {α : Type} [Field α] [DecidableEq α]

/-- Elements that are Tensors of the problem (or zeros) with at most the given numbers of axes. -/
def Elems (L : Layout) (X Y D : Nat) (es : List (Tensor α ⊕ NDArray α)) : Prop :=
  ∀ e ∈ es, ∃ t, e = .inl t ∧ Item L t ∧ t.xDim ≤ X ∧ t.yDim ≤ Y ∧ t.dim ≤ D

/-- Elements in which the axes `K` are not broadcast. -/
def OnElems (K : Nat → Prop) (L : Layout) (es : List (Tensor α ⊕ NDArray α)) : Prop :=
  ∀ e ∈ es, ∃ t, e = .inl t ∧ OnPiece K L t

/-- Elements without broadcast axes. -/
abbrev FullElems (L : Layout) (es : List (Tensor α ⊕ NDArray α)) : Prop := OnElems (fun _ => True) L es

theorem Elems.mono {L : Layout} {X Y D X' Y' D' : Nat} {es : List (Tensor α ⊕ NDArray α)} (h : Elems L X Y D es)
    (h1 : X ≤ X') (h2 : Y ≤ Y') (h3 : D ≤ D') : Elems L X' Y' D' es := by
  intro e he
  obtain ⟨t, e1, e2, e3, e4, e5⟩ := h e he
  exact ⟨t, e1, e2, by omega, by omega, by omega⟩

theorem Elems.neg {L : Layout} {X Y D : Nat} {es : List (Tensor α ⊕ NDArray α)} (h : Elems L X Y D es) :
    Elems L X Y D (es.map negElem) := by
  intro e he
  obtain ⟨e', he', rfl⟩ := List.mem_map.1 he
  obtain ⟨t, rfl, e2, e3⟩ := h e' he'
  exact ⟨t.neg, rfl, e2.neg, e3⟩

theorem OnElems.neg {K : Nat → Prop} {L : Layout} {es : List (Tensor α ⊕ NDArray α)} (h : OnElems K L es) :
    OnElems K L (es.map negElem) := by
  intro e he
  obtain ⟨e', he', rfl⟩ := List.mem_map.1 he
  obtain ⟨t, rfl, e2⟩ := h e' he'
  exact ⟨t.neg, rfl, e2.neg⟩

theorem mulAll_items {L : Layout} (hL : L.Ok) {o : Tensor α} {op : Op} (ho : (op = .mul ∧ Item L o) ∨ (op = .div ∧ Piece L o))
    {X Y D : Nat} (hx : X = 0 ∨ o.xDim = 0) (hy : Y = 0 ∨ o.yDim = 0)
    {es : List (Tensor α ⊕ NDArray α)} (hes : Elems L X Y D es) :
    ∃ es', mulAll (.tensor o) op es = .ok es' ∧ Elems L (max X o.xDim) (max Y o.yDim) (max D o.dim) es' ∧
      es'.length = es.length ∧ (∀ {K : Nat → Prop}, OnPiece K L o → OnElems K L es') ∧
      ∀ i, (op = .div → o.dense i ≠ 0) → sumDense es' i = op.app (sumDense es i) (o.dense i) := by
  induction es with
  | nil =>
    refine ⟨[], rfl, fun e he => (by cases he), rfl, fun _ e he => (by cases he), fun i _ => ?_⟩
    rcases ho with ⟨rfl, -⟩ | ⟨rfl, -⟩
    · show (0 : α) = 0 * _; rw [zero_mul]
    · show (0 : α) = 0 / _; rw [zero_div]
  | cons e es ih =>
    obtain ⟨es', i1, i2, i3, i4, i5⟩ := ih fun e he => hes e (List.mem_cons_of_mem _ he)
    obtain ⟨t, rfl, ht, b1, b2, b3⟩ := hes e List.mem_cons_self
    have key : ∃ s, t.binTensor o op = .ok (.tensor s) ∧ Item L s ∧ s.xDim ≤ max t.xDim o.xDim ∧
      s.yDim ≤ max t.yDim o.yDim ∧ s.dim ≤ max t.dim o.dim ∧ (∀ {K : Nat → Prop}, OnPiece K L o → OnPiece K L s) ∧
      ∀ i, (op = .div → o.dense i ≠ 0) → s.dense i = op.app (t.dense i) (o.dense i) := by
      rcases ho with ⟨rfl, ho⟩ | ⟨rfl, ho⟩
      · obtain ⟨s, k1, k2, k3, k4, k5, k6, k7⟩ := item_mul hL ht ho (by omega) (by omega)
        exact ⟨s, k1, k2, k3, k4, k5, k6, fun i _ => k7 i⟩
      · obtain ⟨s, k1, k2, k3, k4, k5, k6, k7⟩ := item_div hL ht ho (by omega) (by omega)
        exact ⟨s, k1, k2, k3, k4, k5, k6, fun i hi => k7 i (hi rfl)⟩
    obtain ⟨s, k1, k2, k3, k4, k5, k6, k7⟩ := key
    refine ⟨.inl s :: es', ?_, ?_, ?_, ?_, ?_⟩
    · unfold mulAll
      have he : elemBin (.inl t) (.tensor o) op = .ok (.tensor s) := k1
      rw [he, i1]
    · intro e he
      rcases List.mem_cons.1 he with rfl | he
      · exact ⟨s, rfl, k2, by omega, by omega, by omega⟩
      · exact i2 e he
    · rw [List.length_cons, List.length_cons, i3]
    · intro K hf e he
      rcases List.mem_cons.1 he with rfl | he
      · exact ⟨s, rfl, k6 hf⟩
      · exact i4 hf e he
    · intro i hi
      rw [sumDense_cons, sumDense_cons, i5 i hi]
      show s.dense i + _ = _
      rw [k7 i hi]
      rcases ho with ⟨rfl, -⟩ | ⟨rfl, -⟩
      · exact (add_mul _ _ _).symm
      · exact (add_div _ _ _).symm

theorem mergeInto_items {L : Layout} (hL : L.Ok) {o : Tensor α} (ho : Item L o) {op : Op} (hop : op = .add ∨ op = .sub)
    {X Y D : Nat} {es : List (Tensor α ⊕ NDArray α)} (hes : Elems L X Y D es) :
    ∃ m, mergeInto (.tensor o) op es = .ok m ∧ (m = none ∨ ∃ es', m = some es' ∧ es' ≠ [] ∧
      Elems L (max X o.xDim) (max Y o.yDim) (max D o.dim) es' ∧
      (∀ {K : Nat → Prop}, OnElems K L es → OnPiece K L o → OnElems K L es') ∧
      ∀ i, sumDense es' i = op.app (sumDense es i) (o.dense i)) := by
  have hadd : op.additive := op.additive_iff.2 (by rcases hop with h | h <;> simp [h])
  induction es with
  | nil => exact ⟨none, rfl, Or.inl rfl⟩
  | cons e es ih =>
    have hes' : Elems L X Y D es := fun e he => hes e (List.mem_cons_of_mem _ he)
    obtain ⟨m, i1, i2⟩ := ih hes'
    obtain ⟨t, rfl, ht, b1, b2, b3⟩ := hes e List.mem_cons_self
    obtain ⟨r, k1, k2, k3⟩ := item_add hL ht ho hadd
    unfold mergeInto
    have he : elemBin (.inl t) (.tensor o) op = .ok r := k1
    rw [he]
    rcases k3 with ⟨s, rfl, k3, k4, k5, k6, k7⟩ | rfl
    · refine ⟨_, rfl, Or.inr ⟨_, rfl, List.cons_ne_nil _ _, ?_, ?_, ?_⟩⟩
      · intro e he
        rcases List.mem_cons.1 he with rfl | he
        · exact ⟨s, rfl, k3, by omega, by omega, by omega⟩
        · exact hes'.mono (le_max_left _ _) (le_max_left _ _) (le_max_left _ _) e he
      · intro K hf hfo e he
        rcases List.mem_cons.1 he with rfl | he
        · obtain ⟨t', e1, e2⟩ := hf _ List.mem_cons_self
          cases e1
          exact ⟨s, rfl, k7 e2 hfo⟩
        · exact hf e (List.mem_cons_of_mem _ he)
      · intro i
        have := k2 i
        rw [sumDense_cons, sumDense_cons]
        show s.dense i + _ = op.app (t.dense i + _) _
        replace this : s.dense i = op.app (t.dense i) (o.dense i) := this
        rw [this]
        rcases hop with rfl | rfl <;> simp only [Op.app] <;> ring
    · rw [i1]
      rcases i2 with rfl | ⟨es', rfl, -, j2, j3, j4⟩
      · exact ⟨none, rfl, Or.inl rfl⟩
      · refine ⟨_, rfl, Or.inr ⟨_, rfl, List.cons_ne_nil _ _, ?_, ?_, ?_⟩⟩
        · intro e he
          rcases List.mem_cons.1 he with rfl | he
          · exact ⟨t, rfl, ht, by omega, by omega, by omega⟩
          · exact j2 e he
        · intro K hf hfo e he
          rcases List.mem_cons.1 he with rfl | he
          · exact hf _ List.mem_cons_self
          · exact j3 (fun e he => hf e (List.mem_cons_of_mem _ he)) hfo e he
        · intro i
          rw [sumDense_cons, sumDense_cons, j4 i]
          rcases hop with rfl | rfl <;> simp only [Op.app] <;> ring

/-- A GenericTensor of the problem (possibly without elements). -/
structure GP (L : Layout) (g : Generic α) : Prop where
  hx : g.xDim = 0 ∨ g.xDim = L.a
  hy : g.yDim = 0 ∨ g.yDim = L.b
  hn : g.n = L.n
  hd : g.dim = 0 ∨ g.dim = L.d
  els : Elems L g.xDim g.yDim g.dim g.elements

theorem Item.xDim {L : Layout} {t : Tensor α} (h : Item L t) : (t.xDim = 0 ∨ t.xDim = L.a) ∧
    (t.yDim = 0 ∨ t.yDim = L.b) ∧ (t.n = L.n ∨ t.n = 0) ∧ (t.dim = 0 ∨ t.dim = L.d) := by
  rcases h with h | h
  · exact ⟨h.hx, h.hy, Or.inl h.hn, h.hd⟩
  · obtain ⟨h1, h2, h3, h4, -⟩ := h.dims
    exact ⟨Or.inl h1, Or.inl h2, Or.inr h4, Or.inl h3⟩

theorem gp_dims {L : Layout} {g : Generic α} (hg : GP L g) {o : Tensor α} (ho : Item L o) :
    (max g.xDim o.xDim = 0 ∨ max g.xDim o.xDim = L.a) ∧ (max g.yDim o.yDim = 0 ∨ max g.yDim o.yDim = L.b) ∧
      max g.n o.n = L.n ∧ (max g.dim o.dim = 0 ∨ max g.dim o.dim = L.d) := by
  obtain ⟨h1, h2, h3, h4⟩ := ho.xDim
  have := hg.hx
  have := hg.hy
  have := hg.hn
  have := hg.hd
  refine ⟨?_, ?_, ?_, ?_⟩ <;> omega

theorem GP.neg {L : Layout} {g : Generic α} (hg : GP L g) : GP L g.neg :=
  ⟨hg.hx, hg.hy, hg.hn, hg.hd, hg.els.neg⟩

/-- `g + o`, `g - o`, `o - g` for a Tensor of the problem. -/
theorem gp_add {L : Layout} (hL : L.Ok) {g : Generic α} (hg : GP L g) {o : Tensor α} (ho : Item L o) {op : Op}
    (hop : op.additive) :
    ∃ r, g.binPrim (.tensor o) op = .ok r ∧ GP L r ∧ r.elements ≠ [] ∧ r.xDim = max g.xDim o.xDim ∧
      r.yDim = max g.yDim o.yDim ∧
      (∀ {K : Nat → Prop}, OnElems K L g.elements → OnPiece K L o → OnElems K L r.elements) ∧
      ∀ i, r.dense i = op.app (g.dense i) (o.dense i) := by
  have main : ∀ op : Op, (op = .add ∨ op = .sub) → ∀ g : Generic α, GP L g →
      ∃ r, g.binPrim (.tensor o) op = .ok r ∧ GP L r ∧ r.elements ≠ [] ∧ r.xDim = max g.xDim o.xDim ∧
      r.yDim = max g.yDim o.yDim ∧
      (∀ {K : Nat → Prop}, OnElems K L g.elements → OnPiece K L o → OnElems K L r.elements) ∧
      ∀ i, r.dense i = op.app (g.dense i) (o.dense i) := by
    intro op hop g hg
    obtain ⟨d1, d2, d3, d4⟩ := gp_dims hg ho
    obtain ⟨m, m1, m2⟩ := mergeInto_items hL ho hop hg.els
    have e : g.binPrim (.tensor o) op = match mergeInto (.tensor o) op g.elements with
      | .error e => .error e
      | .ok (some els) => .ok ⟨max g.xDim o.xDim, max g.yDim o.yDim, max g.n o.n, max g.dim o.dim, els⟩
      | .ok none => .ok ⟨max g.xDim o.xDim, max g.yDim o.yDim, max g.n o.n, max g.dim o.dim,
          g.elements ++ [if op = .add then (Prim.tensor o).elem else negElem (Prim.tensor o).elem]⟩ := by
      rcases hop with rfl | rfl <;> rfl
    rw [e, m1]
    rcases m2 with rfl | ⟨es', rfl, n1, n2, n3, n4⟩
    · refine ⟨_, rfl, ⟨d1, d2, d3, d4, ?_⟩, by simp, rfl, rfl, ?_, ?_⟩
      · intro e he
        rcases List.mem_append.1 he with he | he
        · exact hg.els.mono (le_max_left _ _) (le_max_left _ _) (le_max_left _ _) e he
        · have := List.mem_singleton.1 he
          rcases hop with rfl | rfl
          · rw [if_pos rfl] at this
            exact ⟨o, this, ho, le_max_right _ _, le_max_right _ _, le_max_right _ _⟩
          · rw [if_neg (by simp)] at this
            exact ⟨o.neg, this, ho.neg, le_max_right _ _, le_max_right _ _, le_max_right _ _⟩
      · intro K hf hfo e he
        rcases List.mem_append.1 he with he | he
        · exact hf e he
        · have := List.mem_singleton.1 he
          rcases hop with rfl | rfl
          · rw [if_pos rfl] at this
            exact ⟨o, this, hfo⟩
          · rw [if_neg (by simp)] at this
            exact ⟨o.neg, this, hfo.neg⟩
      · intro i
        show sumDense (_ ++ _) i = op.app (sumDense g.elements i) _
        rw [sumDense_append]
        have : ∀ e : Tensor α ⊕ NDArray α, sumDense [e] i = elemDense e i := fun e => by
          unfold sumDense; simp
        rw [this]
        rcases hop with rfl | rfl
        · rw [if_pos rfl, elemDense_elem]; rfl
        · rw [if_neg (by simp), elemDense_neg, elemDense_elem]
          exact (sub_eq_add_neg _ _).symm
    · exact ⟨_, rfl, ⟨d1, d2, d3, d4, n2⟩, n1, rfl, rfl, n3, n4⟩
  rcases op.additive_iff.1 hop with rfl | rfl | rfl
  · exact main _ (Or.inl rfl) g hg
  · exact main _ (Or.inr rfl) g hg
  · have e : g.binPrim (.tensor o) .rsub = g.neg.binPrim (.tensor o) .add := rfl
    rw [e]
    obtain ⟨r, r1, r2, r3, r4, r5, r6, r7⟩ := main .add (Or.inl rfl) g.neg hg.neg
    refine ⟨r, r1, r2, r3, r4, r5, fun hf => r6 hf.neg, fun i => ?_⟩
    rw [r7 i, (C57_neg g i).1]
    show -_ + _ = _ - _
    ring

/-- `g * o`, `g / o` for a Tensor of the problem that does not share a parameter with `g`. -/
theorem gp_mul {L : Layout} (hL : L.Ok) {g : Generic α} (hg : GP L g) {o : Tensor α} {op : Op}
    (ho : (op = .mul ∧ Item L o) ∨ (op = .div ∧ Piece L o))
    (hx : g.xDim = 0 ∨ o.xDim = 0) (hy : g.yDim = 0 ∨ o.yDim = 0) :
    ∃ r, g.binPrim (.tensor o) op = .ok r ∧ GP L r ∧ (g.elements ≠ [] → r.elements ≠ []) ∧
      r.xDim = max g.xDim o.xDim ∧ r.yDim = max g.yDim o.yDim ∧ r.dim = max g.dim o.dim ∧
      (∀ {K : Nat → Prop}, OnPiece K L o → OnElems K L r.elements) ∧
      ∀ i, (op = .div → o.dense i ≠ 0) → r.dense i = op.app (g.dense i) (o.dense i) := by
  have hoi : Item L o := by
    rcases ho with ⟨-, h⟩ | ⟨-, h⟩
    · exact h
    · exact Or.inl h
  obtain ⟨d1, d2, d3, d4⟩ := gp_dims hg hoi
  obtain ⟨es', m1, m2, m3, m4, m5⟩ := mulAll_items hL ho hx hy hg.els
  have e : g.binPrim (.tensor o) op = match mulAll (.tensor o) op g.elements with
      | .error e => .error e
      | .ok els => .ok ⟨max g.xDim o.xDim, max g.yDim o.yDim, max g.n o.n, max g.dim o.dim, els⟩ := by
    rcases ho with ⟨rfl, -⟩ | ⟨rfl, -⟩ <;> rfl
  rw [e, m1]
  refine ⟨_, rfl, ⟨d1, d2, d3, d4, m2⟩, fun hne h => hne ?_, rfl, rfl, rfl, m4, m5⟩
  rw [show es' = [] from h] at m3
  exact List.eq_nil_of_length_eq_zero m3.symm

/-- `g + h`, `g - h` of GenericTensors of the problem. -/
theorem gp_foldBin {L : Layout} (hL : L.Ok) {op : Op} (hop : op = .add ∨ op = .sub)
    {es : List (Tensor α ⊕ NDArray α)} {X Y D : Nat} (hes : Elems L X Y D es) {g : Generic α} (hg : GP L g) :
    ∃ r, g.foldBin op es = .ok r ∧ GP L r ∧ (g.elements ≠ [] ∨ es ≠ [] → r.elements ≠ []) ∧
      r.xDim ≤ max g.xDim X ∧ r.yDim ≤ max g.yDim Y ∧
      (∀ {K : Nat → Prop}, OnElems K L g.elements → OnElems K L es → OnElems K L r.elements) ∧
      ∀ i, r.dense i = op.app (g.dense i) (sumDense es i) := by
  have hadd : op.additive := op.additive_iff.2 (by rcases hop with h | h <;> simp [h])
  induction es generalizing g with
  | nil =>
    refine ⟨g, rfl, hg, fun h => h.resolve_right fun h => h rfl, le_max_left _ _, le_max_left _ _, fun h _ => h,
      fun i => ?_⟩
    show _ = op.app _ (0 : α)
    rcases hop with rfl | rfl
    · exact (add_zero _).symm
    · exact (sub_zero _).symm
  | cons e es ih =>
    obtain ⟨t, rfl, ht, b1, b2, b3⟩ := hes e List.mem_cons_self
    obtain ⟨g', r1, r2, r3, r4, r5, r6, r7⟩ := gp_add hL hg ht hadd
    obtain ⟨r, i1, i2, i3, i4, i5, i6, i7⟩ := ih (fun e he => hes e (List.mem_cons_of_mem _ he)) r2
    refine ⟨r, ?_, i2, fun _ => i3 (Or.inl r3), by omega, by omega, ?_, fun i => ?_⟩
    · unfold Generic.foldBin
      have he : elemPrim (Sum.inl t : Tensor α ⊕ NDArray α) = .tensor t := rfl
      rw [he, r1]; exact i1
    · intro K hf hfe
      obtain ⟨t', e1, e2⟩ := hfe _ List.mem_cons_self
      cases e1
      exact i6 (r6 hf e2) fun e he => hfe e (List.mem_cons_of_mem _ he)
    · rw [i7 i, r7 i, sumDense_cons]
      show op.app (op.app _ (t.dense i)) _ = op.app _ (t.dense i + _)
      rcases hop with rfl | rfl <;> simp only [Op.app] <;> ring

/-- The loop of the product of GenericTensors. -/
theorem gp_foldMul {L : Layout} (hL : L.Ok) {g : Generic α} (hg : GP L g) (hne : g.elements ≠ [])
    {es : List (Tensor α ⊕ NDArray α)} {X Y D : Nat} (hes : Elems L X Y D es)
    (hx : g.xDim = 0 ∨ X = 0) (hy : g.yDim = 0 ∨ Y = 0) {gt : Generic α} (hgt : GP L gt) :
    ∃ r, g.foldMul gt es = .ok r ∧ GP L r ∧ (gt.elements ≠ [] ∨ es ≠ [] → r.elements ≠ []) ∧
      r.xDim ≤ max gt.xDim (max g.xDim X) ∧ r.yDim ≤ max gt.yDim (max g.yDim Y) ∧
      ∀ i, r.dense i = gt.dense i + g.dense i * sumDense es i := by
  induction es generalizing gt with
  | nil =>
    refine ⟨gt, rfl, hgt, fun h => h.resolve_right fun h => h rfl, le_max_left _ _, le_max_left _ _, fun i => ?_⟩
    show _ = _ + _ * (0 : α)
    rw [mul_zero, add_zero]
  | cons e es ih =>
    obtain ⟨o, rfl, ho, b1, b2, b3⟩ := hes e List.mem_cons_self
    obtain ⟨m, m1, m2, m3, m4, m5, m6, -, m7⟩ := gp_mul hL hg (Or.inl ⟨rfl, ho⟩) (by omega) (by omega)
    obtain ⟨gt', f1, f2, f3, f4, f5, f6, f7⟩ := gp_foldBin hL (Or.inl rfl) m2.els hgt
    obtain ⟨r, i1, i2, i3, i4, i5, i6⟩ := ih (fun e he => hes e (List.mem_cons_of_mem _ he)) f2
    refine ⟨r, ?_, i2, fun _ => i3 (Or.inl (f3 (Or.inr (m3 hne)))), by omega, by omega, fun i => ?_⟩
    · unfold Generic.foldMul
      have he : elemPrim (Sum.inl o : Tensor α ⊕ NDArray α) = .tensor o := rfl
      rw [he, m1]
      dsimp only
      rw [f1]; exact i1
    · have hm : sumDense m.elements i = g.dense i * o.dense i := m7 i (by simp)
      rw [i6 i, f7 i, hm, sumDense_cons]
      show _ + _ + _ = _ + _ * (o.dense i + _)
      ring

/-! ### Tensors and GenericTensors -/

/-- The number of `x` axes. -/
def Num.xDim : Num α → Nat
  | .tensor t => t.xDim
  | .generic g => g.xDim

/-- The number of `y` axes. -/
def Num.yDim : Num α → Nat
  | .tensor t => t.yDim
  | .generic g => g.yDim

/-- The axes `K` are not broadcast. -/
def NumOn (K : Nat → Prop) (L : Layout) : Num α → Prop
  | .tensor t => OnPiece K L t
  | .generic g => OnElems K L g.elements

/-- No axis is broadcast. -/
abbrev NumFull (L : Layout) (v : Num α) : Prop := NumOn (fun _ => True) L v

theorem numPiece_generic {L : Layout} {g : Generic α} (h : NumPiece L (.generic g)) : GP L g ∧ g.elements ≠ [] :=
  ⟨⟨h.1, h.2.1, h.2.2.1, h.2.2.2.1, h.2.2.2.2.2⟩, h.2.2.2.2.1⟩

theorem GP.num {L : Layout} {g : Generic α} (h : GP L g) (hne : g.elements ≠ []) : NumPiece L (.generic g) :=
  ⟨h.hx, h.hy, h.hn, h.hd, hne, h.els⟩

theorem addElems_elems {L : Layout} {t o : Tensor α} (ht : Item L t) (ho : Item L o) {op : Op} :
    Elems L (max t.xDim o.xDim) (max t.yDim o.yDim) (max t.dim o.dim) (addElems op t o) ∧ addElems op t o ≠ [] ∧
      (∀ {K : Nat → Prop}, OnPiece K L t → OnPiece K L o → OnElems K L (addElems op t o)) := by
  have h : ∃ t' o', addElems op t o = [.inl t', .inl o'] ∧ (t' = t ∨ t' = t.neg) ∧ (o' = o ∨ o' = o.neg) := by
    cases op <;> exact ⟨_, _, rfl, by simp, by simp⟩
  obtain ⟨t', o', e, h1, h2⟩ := h
  rw [e]
  refine ⟨?_, List.cons_ne_nil _ _, ?_⟩
  · intro e he
    rcases List.mem_pair.1 he with rfl | rfl
    · refine ⟨_, rfl, ?_⟩
      rcases h1 with rfl | rfl
      · exact ⟨ht, le_max_left _ _, le_max_left _ _, le_max_left _ _⟩
      · exact ⟨ht.neg, le_max_left _ _, le_max_left _ _, le_max_left _ _⟩
    · refine ⟨_, rfl, ?_⟩
      rcases h2 with rfl | rfl
      · exact ⟨ho, le_max_right _ _, le_max_right _ _, le_max_right _ _⟩
      · exact ⟨ho.neg, le_max_right _ _, le_max_right _ _, le_max_right _ _⟩
  · intro K hf hf' e he
    rcases List.mem_pair.1 he with rfl | rfl
    · refine ⟨_, rfl, ?_⟩
      rcases h1 with rfl | rfl
      · exact hf
      · exact hf.neg
    · refine ⟨_, rfl, ?_⟩
      rcases h2 with rfl | rfl
      · exact hf'
      · exact hf'.neg

/-- Sum and difference of derivative arrays of the problem. -/
theorem num_add {L : Layout} (hL : L.Ok) {v w : Num α} (hv : NumPiece L v) (hw : NumPiece L w) {op : Op}
    (hop : op = .add ∨ op = .sub) :
    ∃ r, v.bin w op = .ok r ∧ NumPiece L r ∧ r.xDim ≤ max v.xDim w.xDim ∧ r.yDim ≤ max v.yDim w.yDim ∧
      (∀ {K : Nat → Prop}, NumOn K L v → NumOn K L w → NumOn K L r) ∧ ∀ i, r.dense i = op.app (v.dense i) (w.dense i) := by
  have hadd : op.additive := op.additive_iff.2 (by rcases hop with h | h <;> simp [h])
  cases v with
  | tensor t =>
    cases w with
    | tensor o =>
      obtain ⟨r, e1, e2, ⟨s, rfl, e3, e4, e5, e6, e7⟩ | rfl⟩ := item_add hL hv hw hadd
      · exact ⟨_, e1, e3, e4, e5, e7, e2⟩
      · obtain ⟨a1, a2, a3⟩ := addElems_elems hv hw (op := op)
        refine ⟨_, e1, ⟨?_, ?_, rfl, ?_, a2, a1⟩, le_refl _, le_refl _, a3, e2⟩
        · have := hv.xDim.1; have := hw.xDim.1
          show max t.xDim o.xDim = 0 ∨ max t.xDim o.xDim = L.a; omega
        · have := hv.xDim.2.1; have := hw.xDim.2.1
          show max t.yDim o.yDim = 0 ∨ max t.yDim o.yDim = L.b; omega
        · have := hv.xDim.2.2.2; have := hw.xDim.2.2.2
          show max t.dim o.dim = 0 ∨ max t.dim o.dim = L.d; omega
    | generic g =>
      obtain ⟨hg, hne⟩ := numPiece_generic hw
      rcases hop with rfl | rfl
      · obtain ⟨r, r1, r2, r3, r4, r5, r6, r7⟩ := gp_add hL hg hv (op := .add) trivial
        refine ⟨.generic r, ?_, r2.num r3, ?_, ?_, fun hf hf' => r6 hf' hf, fun i => ?_⟩
        · show (match t.binGeneric g .add with | .error e => .error e | .ok r => .ok (.generic r) : Except Err (Num α)) = _
          have e : t.binGeneric g .add = g.binPrim (.tensor t) .add := rfl
          rw [e, r1]
        · show r.xDim ≤ max t.xDim g.xDim; omega
        · show r.yDim ≤ max t.yDim g.yDim; omega
        · exact (r7 i).trans (add_comm _ _)
      · obtain ⟨r, r1, r2, r3, r4, r5, r6, r7⟩ := gp_add hL hg hv (op := .rsub) trivial
        refine ⟨.generic r, ?_, r2.num r3, ?_, ?_, fun hf hf' => r6 hf' hf, fun i => r7 i⟩
        · show (match t.binGeneric g .sub with | .error e => .error e | .ok r => .ok (.generic r) : Except Err (Num α)) = _
          have e : t.binGeneric g .sub = g.binPrim (.tensor t) .rsub := rfl
          rw [e, r1]
        · show r.xDim ≤ max t.xDim g.xDim; omega
        · show r.yDim ≤ max t.yDim g.yDim; omega
  | generic g =>
    obtain ⟨hg, hne⟩ := numPiece_generic hv
    cases w with
    | tensor o =>
      obtain ⟨r, r1, r2, r3, r4, r5, r6, r7⟩ := gp_add hL hg hw hadd
      refine ⟨.generic r, ?_, r2.num r3, r4.le, r5.le, r6, r7⟩
      show (match g.binPrim (.tensor o) op with | .error e => .error e | .ok r => .ok (.generic r) : Except Err (Num α)) = _
      rw [r1]
    | generic h =>
      obtain ⟨hh, -⟩ := numPiece_generic hw
      obtain ⟨r, r1, r2, r3, r4, r5, r6, r7⟩ := gp_foldBin hL hop hh.els hg
      refine ⟨.generic r, ?_, r2.num (r3 (Or.inl hne)), r4, r5, r6, r7⟩
      have e : g.binGeneric h op = g.foldBin op h.elements := by rcases hop with rfl | rfl <;> rfl
      show (match g.binGeneric h op with | .error e => .error e | .ok r => .ok (.generic r) : Except Err (Num α)) = _
      rw [e, r1]

/-- Product of derivative arrays of the problem that do not share a parameter. -/
theorem num_mul {L : Layout} (hL : L.Ok) {v w : Num α} (hv : NumPiece L v) (hw : NumPiece L w)
    (hx : v.xDim = 0 ∨ w.xDim = 0) (hy : v.yDim = 0 ∨ w.yDim = 0) :
    ∃ r, v.bin w .mul = .ok r ∧ NumPiece L r ∧ r.xDim ≤ max v.xDim w.xDim ∧ r.yDim ≤ max v.yDim w.yDim ∧
      (∀ {K : Nat → Prop}, ∀ o, w = .tensor o → OnPiece K L o → NumOn K L r) ∧
      (∀ {K : Nat → Prop}, ∀ o, v = .tensor o → OnPiece K L o → (∀ t, w = .tensor t → Piece L t) → NumOn K L r) ∧
      ∀ i, r.dense i = v.dense i * w.dense i := by
  cases v with
  | tensor t =>
    cases w with
    | tensor o =>
      obtain ⟨s, e1, e2, e3, e4, e5, e6, e7⟩ := item_mul hL hv hw hx hy
      refine ⟨_, e1, e2, e3, e4, fun _ h hf => (by cases h; exact e6 hf), fun p h hf hp => ?_, e7⟩
      cases h
      obtain ⟨s', k1, k2, -, -, -, k6, -⟩ := piece_mul hL hf.1 (hp o rfl) hx hy (op := .mul) (by simp [Op.additive])
      rw [e1] at k1
      cases k1
      exact ⟨k2, k6 (Or.inr hf.2)⟩
    | generic g =>
      obtain ⟨hg, hne⟩ := numPiece_generic hw
      obtain ⟨r, r1, r2, r3, r4, r5, -, r6, r7⟩ := gp_mul hL hg (Or.inl ⟨rfl, hv⟩) hx.symm hy.symm
      refine ⟨.generic r, ?_, r2.num (r3 hne), ?_, ?_, fun _ h => (by cases h), fun o h hf _ => ?_, fun i => ?_⟩
      · show (match t.binGeneric g .mul with | .error e => .error e | .ok r => .ok (.generic r) : Except Err (Num α)) = _
        have e : t.binGeneric g .mul = g.binPrim (.tensor t) .mul := rfl
        rw [e, r1]
      · show r.xDim ≤ max t.xDim g.xDim; omega
      · show r.yDim ≤ max t.yDim g.yDim; omega
      · cases h; exact r6 hf
      · exact (r7 i (by simp)).trans (mul_comm _ _)
  | generic g =>
    obtain ⟨hg, hne⟩ := numPiece_generic hv
    cases w with
    | tensor o =>
      obtain ⟨r, r1, r2, r3, r4, r5, -, r6, r7⟩ := gp_mul hL hg (Or.inl ⟨rfl, hw⟩) hx hy
      refine ⟨.generic r, ?_, r2.num (r3 hne), r4.le, r5.le, fun _ h hf => (by cases h; exact r6 hf),
        fun _ h => (by cases h), fun i => r7 i (by simp)⟩
      show (match g.binPrim (.tensor o) .mul with | .error e => .error e | .ok r => .ok (.generic r) : Except Err (Num α)) = _
      rw [r1]
    | generic h =>
      obtain ⟨hh, hne'⟩ := numPiece_generic hw
      have d1 := hg.hx
      have d2 := hg.hy
      have d3 := hg.hn
      have d4 := hg.hd
      have e1 := hh.hx
      have e2 := hh.hy
      have e3 := hh.hn
      have e4 := hh.hd
      obtain ⟨r, r1, r2, r3, r4, r5, r6⟩ := gp_foldMul hL hg hne hh.els hx hy
        (gt := ⟨max g.xDim h.xDim, max g.yDim h.yDim, max g.n h.n, max g.dim h.dim, []⟩)
        ⟨by dsimp only; omega, by dsimp only; omega, by dsimp only; omega, by dsimp only; omega,
          fun e he => by cases he⟩
      refine ⟨.generic r, ?_, r2.num (r3 (Or.inr hne')), ?_, ?_, fun _ h => (by cases h), fun _ h => (by cases h),
        fun i => ?_⟩
      · show (match g.binGeneric h .mul with | .error e => .error e | .ok r => .ok (.generic r) : Except Err (Num α)) = _
        have e : g.binGeneric h .mul = g.foldMul ⟨max g.xDim h.xDim, max g.yDim h.yDim, max g.n h.n,
          max g.dim h.dim, []⟩ h.elements := rfl
        rw [e, r1]
      · show r.xDim ≤ max g.xDim h.xDim
        dsimp only at r4; omega
      · show r.yDim ≤ max g.yDim h.yDim
        dsimp only at r5; omega
      · refine (r6 i).trans ?_
        show (0 : α) + _ = _
        rw [zero_add]; rfl

/-- Quotient of a derivative array of the problem by values. -/
theorem num_div {L : Layout} (hL : L.Ok) {v : Num α} (hv : NumPiece L v) {o : Tensor α} (ho : Piece L o)
    (hx : o.xDim = 0) (hy : o.yDim = 0) :
    ∃ r, v.bin (.tensor o) .div = .ok r ∧ NumPiece L r ∧ r.xDim ≤ v.xDim ∧ r.yDim ≤ v.yDim ∧
      (∀ {K : Nat → Prop}, OnPiece K L o → NumOn K L r) ∧ ∀ i, o.dense i ≠ 0 → r.dense i = v.dense i / o.dense i := by
  cases v with
  | tensor t =>
    obtain ⟨s, e1, e2, e3, e4, e5, e6, e7⟩ := item_div hL hv ho (Or.inr hx) (Or.inr hy)
    refine ⟨_, e1, e2, ?_, ?_, e6, e7⟩
    · show s.xDim ≤ t.xDim; omega
    · show s.yDim ≤ t.yDim; omega
  | generic g =>
    obtain ⟨hg, hne⟩ := numPiece_generic hv
    obtain ⟨r, r1, r2, r3, r4, r5, -, r6, r7⟩ := gp_mul hL hg (Or.inr ⟨rfl, ho⟩) (Or.inr hx) (Or.inr hy)
    refine ⟨.generic r, ?_, r2.num (r3 hne), ?_, ?_, r6, fun i hi => r7 i (fun _ => hi)⟩
    · show (match g.binPrim (.tensor o) .div with | .error e => .error e | .ok r => .ok (.generic r) : Except Err (Num α)) = _
      rw [r1]
    · show r.xDim ≤ g.xDim; omega
    · show r.yDim ≤ g.yDim; omega

end Verif.Tens
