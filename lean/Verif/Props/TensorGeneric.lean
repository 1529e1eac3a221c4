import Verif.Props.TensorMul

/-!
# C57: arithmetic of GenericTensors
-/

set_option linter.unusedSectionVars false

namespace Verif.Tens
open Verif.Params (Err)
open NDArray

variable {α : Type} [Field α] [DecidableEq α]

/-- A Tensor in diagonal storage that is not a scalar. -/
def Tensor.Proper (t : Tensor α) : Prop := t.WF ∧ t.values.ndim ≠ 0

theorem Tensor.binPrim_eq (t : Tensor α) (p : Prim α) (op : Op) : t.binPrim p op = t.binTensor p.asTensor op := by
  cases p with
  | scalar c => rfl
  | array a =>
    show (if a.ndim = 0 then _ else _) = _
    by_cases h : a.ndim = 0
    · rw [if_pos h]
      unfold Tensor.binTensor
      rw [if_pos (show (Prim.array a).asTensor.values.ndim = 0 from h)]; rfl
    · rw [if_neg h]; rfl
  | tensor o => rfl

theorem elemDense_elem (p : Prim α) (i : Idx) : elemDense p.elem i = p.dense i := by
  cases p <;> rfl

/-- Addition keeps the class of Tensors that are not scalars. -/
theorem binTensor_add_proper {t o s : Tensor α} (ht : t.Proper) (ho : o.WF) {op : Op} (hop : op.additive)
    (hr : t.binTensor o op = .ok (.tensor s)) : s.Proper := by
  refine ⟨C50_add_sub_storage ht.1 ho hop hr, ?_⟩
  by_cases c1 : o.values.ndim = 0
  · obtain ⟨s', hb, e⟩ := Tensor.binTensor_zero_right c1 hr
    cases e
    obtain ⟨a, ha, h2, -⟩ := Tensor.toarray_ok ht.1
    have hop' := op.additive_iff.1 hop
    unfold Tensor.binScalar at hb
    rw [ha] at hb
    split_ifs at hb with h1 h2' h3' h4' h5
    · cases hb; exact ht.2
    · cases hb; exact ht.2
    · exfalso; obtain ⟨-, rfl | rfl⟩ := h3' <;> simp at hop'
    · exfalso; obtain ⟨-, rfl | rfl⟩ := h5 <;> simp at hop'
    · cases hb
      show a.ndim ≠ 0
      rw [h2]; exact ht.2
  · obtain ⟨hc, ⟨v, -, -, hv, e, -⟩ | ⟨-, e⟩⟩ := Tensor.binTensor_additive hop c1 ht.2 hr
    · cases e
      obtain ⟨f1, f2⟩ := hc.fits
      have := (reshapedOp_ok ht.1.nd rfl ho.nd rfl f1 f2 op hv).1
      have h1 := ht.1.nd
      have h2 := ht.2
      show v.ndim ≠ 0
      omega
    · cases e

/-- … and so does multiplication by a Tensor that is not a scalar. -/
theorem binTensor_mul_proper {t o : Tensor α} (ht : t.Proper) (ho : o.Proper) (hok : MulOk t o) {op : Op}
    (hop : ¬ op.additive) {r : Num α} (hr : t.binTensor o op = .ok r) : ∃ s, r = .tensor s ∧ s.Proper := by
  obtain ⟨s, e, hw⟩ := C51_mul_div_storage ht.1 ho.1 hok hop hr
  refine ⟨s, e, hw, ?_⟩
  subst e
  obtain ⟨hc, l1, r1, xm, l2, r2, ym, v, e1, e2, e3, e⟩ := Tensor.binTensor_mult hop ho.2 ht.2 hr
  cases e
  obtain ⟨f1, f2⟩ := hc.fits
  have rx : 0 < t.n → ∀ f ∈ o.xMap, f < (t.n : Int) := by
    intro h0 f hf
    have := ho.1.xRange f hf
    have := hc.2.2.1
    omega
  have ry : 0 < t.n → ∀ f ∈ o.yMap, f < (t.n : Int) := by
    intro h0 f hf
    have := ho.1.yRange f hf
    have := hc.2.2.1
    omega
  have hok2 := hok.second ht.1 hc rx ry e1
  obtain ⟨-, x2, x3, -⟩ := mulStep_ok hok.1 ht.1.xRange rx e1
  obtain ⟨-, y2, y3, -⟩ := mulStep_ok hok2 ht.1.yRange ry e2
  have := (reshapedOp_ok ht.1.nd (by rw [y2, x2]) ho.1.nd (by rw [y3, x3]) f1 f2 op e3).1
  have h1 := ht.1.nd
  have h2 := ht.2
  show v.ndim ≠ 0
  omega

/-- The sum of the arrays represented by a list of elements. -/
def sumDense (es : List (Tensor α ⊕ NDArray α)) (i : Idx) : α := (es.map fun e => elemDense e i).sum

theorem sumDense_cons (e : Tensor α ⊕ NDArray α) (es : List (Tensor α ⊕ NDArray α)) (i : Idx) :
    sumDense (e :: es) i = elemDense e i + sumDense es i := List.sum_cons

theorem sumDense_append (l m : List (Tensor α ⊕ NDArray α)) (i : Idx) :
    sumDense (l ++ m) i = sumDense l i + sumDense m i := by
  unfold sumDense; rw [List.map_append, List.sum_append]

theorem sumDense_neg (l : List (Tensor α ⊕ NDArray α)) (i : Idx) :
    sumDense (l.map negElem) i = - sumDense l i := by
  induction l with
  | nil => show (0 : α) = -0; rw [neg_zero]
  | cons e l ih => rw [List.map_cons, sumDense_cons, sumDense_cons, ih, elemDense_neg, neg_add]

/-- Elements that are Tensors in diagonal storage and not scalars. -/
def Goods (es : List (Tensor α ⊕ NDArray α)) : Prop := ∀ e ∈ es, ∃ t, e = .inl t ∧ t.WF ∧ t.values.ndim ≠ 0

theorem Goods.neg {es : List (Tensor α ⊕ NDArray α)} (h : Goods es) : Goods (es.map negElem) := by
  intro e he
  obtain ⟨e', he', rfl⟩ := List.mem_map.1 he
  obtain ⟨t, rfl, hw, h0⟩ := h e' he'
  exact ⟨t.neg, rfl, hw.map _, h0⟩

theorem mergeInto_ok {p : Prim α} (hp : p.asTensor.WF) {op : Op} (hop : op = .add ∨ op = .sub)
    {es : List (Tensor α ⊕ NDArray α)} (hes : Goods es) {es' : List (Tensor α ⊕ NDArray α)}
    (hr : mergeInto p op es = .ok (some es')) : Goods es' ∧
      ∀ i, (p.asTensor.values.ndim = 0 → ∀ t, .inl t ∈ es → t.InBox i) →
        sumDense es' i = op.app (sumDense es i) (p.dense i) := by
  have hadd : op.additive := op.additive_iff.2 (by rcases hop with h | h <;> simp [h])
  induction es generalizing es' with
  | nil => cases hr
  | cons e es ih =>
    obtain ⟨t, rfl, hw, h0⟩ := hes e List.mem_cons_self
    have hes' : Goods es := fun e he => hes e (List.mem_cons_of_mem _ he)
    unfold mergeInto at hr
    have he : elemBin (.inl t) p op = t.binTensor p.asTensor op := t.binPrim_eq p op
    rw [he] at hr
    cases hb : t.binTensor p.asTensor op with
    | error err => rw [hb] at hr; cases hr
    | ok v =>
      rw [hb] at hr
      cases v with
      | tensor s =>
        cases hr
        have hs := binTensor_add_proper ⟨hw, h0⟩ hp hadd hb
        refine ⟨?_, ?_⟩
        · intro e he
          rcases List.mem_cons.1 he with rfl | he
          · exact ⟨s, rfl, hs⟩
          · exact hes' e he
        · intro i hi
          have := C50_add_sub_partial hw hp (fun h => absurd h h0) hadd hb i
            (fun h => hi h t List.mem_cons_self)
          replace this : s.dense i = op.app (t.dense i) (p.dense i) := this
          rw [sumDense_cons, sumDense_cons]
          show s.dense i + _ = op.app (t.dense i + _) _
          rw [this]
          rcases hop with rfl | rfl <;> simp only [Op.app] <;> ring
      | generic g =>
        dsimp only at hr
        cases hm : mergeInto p op es with
        | error err => rw [hm] at hr; cases hr
        | ok m =>
          rw [hm] at hr
          cases m with
          | none => cases hr
          | some es'' =>
            cases hr
            obtain ⟨i1, i2⟩ := ih hes' hm
            refine ⟨?_, ?_⟩
            · intro e he
              rcases List.mem_cons.1 he with rfl | he
              · exact ⟨t, rfl, hw, h0⟩
              · exact i1 e he
            · intro i hi
              rw [sumDense_cons, sumDense_cons, i2 i fun h t ht => hi h t (List.mem_cons_of_mem _ ht)]
              rcases hop with rfl | rfl <;> simp only [Op.app] <;> ring

/-- A scalar always merges with the first element. -/
theorem mergeInto_scalar {p : Prim α} (hp : p.asTensor.values.ndim = 0) {op : Op}
    {t : Tensor α} {es : List (Tensor α ⊕ NDArray α)} :
    mergeInto p op (.inl t :: es) ≠ .ok none := by
  unfold mergeInto
  have he : elemBin (.inl t) p op = t.binTensor p.asTensor op := t.binPrim_eq p op
  rw [he]
  cases hb : t.binTensor p.asTensor op with
  | error err => simp
  | ok v =>
    obtain ⟨s, -, rfl⟩ := Tensor.binTensor_zero_right hp hb
    simp

theorem mulAll_ok {p : Prim α} (hp : p.asTensor.WF) {op : Op} (hop : op = .mul ∨ op = .div)
    {es : List (Tensor α ⊕ NDArray α)} (hes : Goods es)
    (hok : ∀ t, .inl t ∈ es → MulOk t p.asTensor) {es' : List (Tensor α ⊕ NDArray α)}
    (hr : mulAll p op es = .ok es') :
    (∀ e ∈ es', ∃ t, e = .inl t ∧ t.WF) ∧ (p.asTensor.values.ndim ≠ 0 → Goods es') ∧
      ∀ i, (op = .div → p.dense i ≠ 0) → sumDense es' i = op.app (sumDense es i) (p.dense i) := by
  have hmul : ¬ op.additive := op.mult_iff.2 (by rcases hop with h | h <;> simp [h])
  induction es generalizing es' with
  | nil =>
    cases hr
    refine ⟨by simp, fun _ => fun _ h => by simp at h, fun i _ => ?_⟩
    show (0 : α) = op.app 0 _
    rw [Op.mult_zero_left hmul]
  | cons e es ih =>
    obtain ⟨t, rfl, hw, h0⟩ := hes e List.mem_cons_self
    have hes' : Goods es := fun e he => hes e (List.mem_cons_of_mem _ he)
    have hok1 := hok t List.mem_cons_self
    unfold mulAll at hr
    have he : elemBin (.inl t) p op = t.binTensor p.asTensor op := t.binPrim_eq p op
    rw [he] at hr
    cases hb : t.binTensor p.asTensor op with
    | error err => rw [hb] at hr; cases hr
    | ok v =>
      obtain ⟨s, rfl, hs⟩ := C51_mul_div_storage hw hp hok1 hmul hb
      rw [hb] at hr
      dsimp only at hr
      cases hm : mulAll p op es with
      | error err => rw [hm] at hr; cases hr
      | ok es'' =>
        rw [hm] at hr
        cases hr
        obtain ⟨i1, i2, i3⟩ := ih hes' (fun t ht => hok t (List.mem_cons_of_mem _ ht)) hm
        refine ⟨?_, ?_, ?_⟩
        · intro e he
          rcases List.mem_cons.1 he with rfl | he
          · exact ⟨s, rfl, hs⟩
          · exact i1 e he
        · intro hp0 e he
          rcases List.mem_cons.1 he with rfl | he
          · obtain ⟨s', e, hs'⟩ := binTensor_mul_proper ⟨hw, h0⟩ ⟨hp, hp0⟩ hok1 hmul hb
            cases e
            exact ⟨s, rfl, hs'⟩
          · exact i2 hp0 e he
        · intro i hi
          have := C51_mul_div_partial hw hp hok1 hmul hb i hi
            (by rintro rfl; simp at hop)
          replace this : s.dense i = op.app (t.dense i) (p.dense i) := this
          rw [sumDense_cons, sumDense_cons, i3 i hi]
          show s.dense i + _ = op.app (t.dense i + _) _
          rw [this]
          rcases hop with rfl | rfl
          · exact (add_mul _ _ _).symm
          · exact (add_div _ _ _).symm


theorem Generic.binPrim_add_eq (g : Generic α) (p : Prim α) {op : Op} (hop : op = .add ∨ op = .sub) {r : Generic α}
    (hr : g.binPrim p op = .ok r) : mergeInto p op g.elements = .ok (some r.elements) ∨
      (mergeInto p op g.elements = .ok none ∧
        r.elements = g.elements ++ [if op = .add then p.elem else negElem p.elem]) := by
  have : g.binPrim p op = match mergeInto p op g.elements with
      | .error e => .error e
      | .ok (some els) => .ok ⟨(g.dims p).1, (g.dims p).2.1, (g.dims p).2.2.1, (g.dims p).2.2.2, els⟩
      | .ok none => .ok ⟨(g.dims p).1, (g.dims p).2.1, (g.dims p).2.2.1, (g.dims p).2.2.2,
          g.elements ++ [if op = .add then p.elem else negElem p.elem]⟩ := by
    rcases hop with rfl | rfl <;> rfl
  rw [this] at hr
  cases hm : mergeInto p op g.elements with
  | error e => rw [hm] at hr; cases hr
  | ok m =>
    rw [hm] at hr
    cases m with
    | none => cases hr; exact Or.inr ⟨rfl, rfl⟩
    | some es => cases hr; exact Or.inl rfl

theorem add_core {es : List (Tensor α ⊕ NDArray α)} (hes : Goods es) {p : Prim α} (hp : p.asTensor.WF) {op : Op}
    (hop : op = .add ∨ op = .sub) {es' : List (Tensor α ⊕ NDArray α)}
    (hr : mergeInto p op es = .ok (some es') ∨
      (mergeInto p op es = .ok none ∧ es' = es ++ [if op = .add then p.elem else negElem p.elem])) :
    (p.asTensor.values.ndim ≠ 0 → (∃ t, p = .tensor t) → Goods es') ∧
      ∀ i, (p.asTensor.values.ndim = 0 → ∀ t, .inl t ∈ es → t.InBox i) →
        sumDense es' i = op.app (sumDense es i) (p.dense i) := by
  rcases hr with h | ⟨h, rfl⟩
  · obtain ⟨h1, h2⟩ := mergeInto_ok hp hop hes h
    exact ⟨fun _ _ => h1, h2⟩
  · refine ⟨?_, ?_⟩
    · rintro h0 ⟨t, rfl⟩ e he
      rcases List.mem_append.1 he with he | he
      · exact hes e he
      · have := List.mem_singleton.1 he
        rcases hop with rfl | rfl
        · rw [if_pos rfl] at this
          exact ⟨t, this, hp, h0⟩
        · rw [if_neg (by simp)] at this
          exact ⟨t.neg, this, hp.map _, h0⟩
    · intro i _
      rw [sumDense_append]
      have : ∀ e : Tensor α ⊕ NDArray α, sumDense [e] i = elemDense e i := fun e => by
        unfold sumDense; simp
      rw [this]
      rcases hop with rfl | rfl
      · rw [if_pos rfl, elemDense_elem]; rfl
      · rw [if_neg (by simp), elemDense_neg, elemDense_elem]
        exact (sub_eq_add_neg _ _).symm

/-- **C57 (partial).** `g + p`, `g - p` and `p - g` of a GenericTensor and a scalar, an array or a Tensor: whenever
the operation returns, the result represents the sum or difference (for a scalar `p`: at every
position inside the elements). -/
theorem C57_add_sub_partial {g r : Generic α} (hg : g.Good) {p : Prim α} (hp : p.asTensor.WF) {op : Op}
    (hop : op.additive) (hr : g.binPrim p op = .ok r) (i : Idx)
    (hi : p.asTensor.values.ndim = 0 → ∀ t, .inl t ∈ g.elements → t.InBox i) :
    r.dense i = op.app (g.dense i) (p.dense i) := by
  show sumDense r.elements i = op.app (sumDense g.elements i) (p.dense i)
  rcases op.additive_iff.1 hop with rfl | rfl | rfl
  · exact (add_core hg hp (Or.inl rfl) (g.binPrim_add_eq p (Or.inl rfl) hr)).2 i hi
  · exact (add_core hg hp (Or.inr rfl) (g.binPrim_add_eq p (Or.inr rfl) hr)).2 i hi
  · have : g.binPrim p .rsub = Generic.binPrim ⟨g.xDim, g.yDim, g.n, g.dim, g.elements.map negElem⟩ p .add := by
      cases p <;> rfl
    rw [this] at hr
    have hgs : Goods (g.elements.map negElem) := Goods.neg hg
    have := (add_core hgs hp (Or.inl rfl) (Generic.binPrim_add_eq _ p (Or.inl rfl) hr)).2 i (by
      intro h t ht
      obtain ⟨e, he, e2⟩ := List.mem_map.1 ht
      obtain ⟨t', rfl, -⟩ := hg e he
      cases e2
      exact hi h t' he)
    rw [this, sumDense_neg]
    show - _ + _ = _ - _
    ring

/-- **C57.** The result of adding or subtracting a Tensor that is not a scalar is again a GenericTensor all of
whose elements are Tensors, so that operations can be chained. -/
theorem C57_add_sub_storage {g r : Generic α} (hg : g.Good) {t : Tensor α} (ht : t.WF) (h0 : t.values.ndim ≠ 0)
    {op : Op} (hop : op.additive) (hr : g.binPrim (.tensor t) op = .ok r) : r.Good := by
  rcases op.additive_iff.1 hop with rfl | rfl | rfl
  · exact (add_core (p := .tensor t) hg ht (Or.inl rfl) (g.binPrim_add_eq (.tensor t) (Or.inl rfl) hr)).1 h0 ⟨t, rfl⟩
  · exact (add_core (p := .tensor t) hg ht (Or.inr rfl) (g.binPrim_add_eq (.tensor t) (Or.inr rfl) hr)).1 h0 ⟨t, rfl⟩
  · have : g.binPrim (.tensor t) .rsub =
        Generic.binPrim ⟨g.xDim, g.yDim, g.n, g.dim, g.elements.map negElem⟩ (.tensor t) .add := rfl
    rw [this] at hr
    have hgs : Goods (g.elements.map negElem) := Goods.neg hg
    exact (add_core (p := .tensor t) hgs ht (Or.inl rfl) (Generic.binPrim_add_eq _ (.tensor t) (Or.inl rfl) hr)).1 h0 ⟨t, rfl⟩

/-- **C57 (partial).** `g * p` and `g / p`: whenever the operation returns, and each element can be multiplied by
`p` (C51), the result represents the product or the quotient (where `p` is not 0). -/
theorem C57_mul_div_partial {g r : Generic α} (hg : g.Good) {p : Prim α} (hp : p.asTensor.WF) {op : Op}
    (hop : op = .mul ∨ op = .div) (hok : ∀ t, .inl t ∈ g.elements → MulOk t p.asTensor)
    (hr : g.binPrim p op = .ok r) :
    (p.asTensor.values.ndim ≠ 0 → r.Good) ∧
      ∀ i, (op = .div → p.dense i ≠ 0) → r.dense i = op.app (g.dense i) (p.dense i) := by
  have : g.binPrim p op = match mulAll p op g.elements with
      | .error e => .error e
      | .ok els => .ok ⟨(g.dims p).1, (g.dims p).2.1, (g.dims p).2.2.1, (g.dims p).2.2.2, els⟩ := by
    rcases hop with rfl | rfl <;> rfl
  rw [this] at hr
  cases hm : mulAll p op g.elements with
  | error e => rw [hm] at hr; cases hr
  | ok es =>
    rw [hm] at hr
    cases hr
    obtain ⟨-, h2, h3⟩ := mulAll_ok hp hop hg hok hm
    exact ⟨h2, h3⟩

/-- **C57.** Scalars and Tensors without `x` and `y` axes can multiply and divide every GenericTensor. -/
theorem C57_mul_div_value {g r : Generic α} (hg : g.Good) {p : Prim α} (hp : p.asTensor.WF)
    (hx : p.asTensor.xDim = 0) (hy : p.asTensor.yDim = 0) {op : Op}
    (hop : op = .mul ∨ op = .div) (hr : g.binPrim p op = .ok r) (i : Idx) (hi : op = .div → p.dense i ≠ 0) :
    r.dense i = op.app (g.dense i) (p.dense i) :=
  (C57_mul_div_partial hg hp hop (fun _ _ => (C51_value_tensor_ok hp hx hy).2) hr).2 i hi

/-- **C57.** `-g` represents the negation, and is again built from Tensors. -/
theorem C57_neg (g : Generic α) (i : Idx) : g.neg.dense i = - g.dense i ∧ (g.Good → g.neg.Good) :=
  ⟨sumDense_neg _ _, fun h => Goods.neg h⟩

/-- **C57.** A division by a GenericTensor, and `p / g`, are never wrong: they raise. -/
theorem C57_division_raises (g h : Generic α) (t : Tensor α) (p : Prim α) :
    g.binPrim p .rdiv = .error .invalidOperation ∧ g.binGeneric h .div = .error .invalidOperation ∧
      t.binGeneric g .div = .error .invalidOperation := ⟨by cases p <;> rfl, rfl, rfl⟩

theorem foldBin_ok {op : Op} (hop : op = .add ∨ op = .sub) {es : List (Tensor α ⊕ NDArray α)} (hes : Goods es)
    {g r : Generic α} (hg : g.Good) (hr : g.foldBin op es = .ok r) :
    r.Good ∧ ∀ i, r.dense i = op.app (g.dense i) (sumDense es i) := by
  have hadd : op.additive := op.additive_iff.2 (by rcases hop with h | h <;> simp [h])
  induction es generalizing g with
  | nil =>
    cases hr
    refine ⟨hg, fun i => ?_⟩
    show _ = op.app _ (0 : α)
    rcases hop with rfl | rfl
    · exact (add_zero _).symm
    · exact (sub_zero _).symm
  | cons e es ih =>
    obtain ⟨t, rfl, hw, h0⟩ := hes e List.mem_cons_self
    unfold Generic.foldBin at hr
    have he : elemPrim (Sum.inl t : Tensor α ⊕ NDArray α) = .tensor t := rfl
    rw [he] at hr
    cases hb : g.binPrim (.tensor t) op with
    | error err => rw [hb] at hr; cases hr
    | ok g' =>
      rw [hb] at hr
      obtain ⟨i1, i2⟩ := ih (fun e he => hes e (List.mem_cons_of_mem _ he))
        (C57_add_sub_storage hg hw h0 hadd hb) hr
      refine ⟨i1, fun i => ?_⟩
      rw [i2 i, C57_add_sub_partial (p := .tensor t) hg hw hadd hb i (fun h => absurd h h0), sumDense_cons]
      show op.app (op.app _ (t.dense i)) _ = op.app _ (t.dense i + _)
      rcases hop with rfl | rfl <;> simp only [Op.app] <;> ring

theorem foldMul_ok {g : Generic α} (hg : g.Good) {es : List (Tensor α ⊕ NDArray α)} (hes : Goods es)
    (hok : ∀ t, .inl t ∈ g.elements → ∀ o, .inl o ∈ es → MulOk t o)
    {gt r : Generic α} (hgt : gt.Good) (hr : g.foldMul gt es = .ok r) :
    r.Good ∧ ∀ i, r.dense i = gt.dense i + g.dense i * sumDense es i := by
  induction es generalizing gt with
  | nil =>
    cases hr
    refine ⟨hgt, fun i => ?_⟩
    show _ = _ + _ * (0 : α)
    rw [mul_zero, add_zero]
  | cons e es ih =>
    obtain ⟨o, rfl, hw, h0⟩ := hes e List.mem_cons_self
    unfold Generic.foldMul at hr
    have he : elemPrim (Sum.inl o : Tensor α ⊕ NDArray α) = .tensor o := rfl
    rw [he] at hr
    cases hb : g.binPrim (.tensor o) .mul with
    | error err => rw [hb] at hr; cases hr
    | ok m =>
      rw [hb] at hr
      dsimp only at hr
      obtain ⟨m1, m2⟩ := C57_mul_div_partial (p := .tensor o) hg hw (Or.inl rfl)
        (fun t ht => hok t ht o List.mem_cons_self) hb
      cases hf : gt.foldBin .add m.elements with
      | error err => rw [hf] at hr; cases hr
      | ok gt' =>
        rw [hf] at hr
        obtain ⟨f1, f2⟩ := foldBin_ok (Or.inl rfl) (m1 h0) hgt hf
        obtain ⟨i1, i2⟩ := ih (fun e he => hes e (List.mem_cons_of_mem _ he))
          (fun t ht o ho => hok t ht o (List.mem_cons_of_mem _ ho)) f1 hr
        refine ⟨i1, fun i => ?_⟩
        have hm : sumDense m.elements i = g.dense i * o.dense i := m2 i (by simp)
        rw [i2 i, f2 i, hm, sumDense_cons]
        show _ + _ + _ = _ + _ * (o.dense i + _)
        ring

/-- **C57.** `g + h` and `g - h` of GenericTensors: whenever the operation returns, the result represents the sum or
difference, and is again built from Tensors. -/
theorem C57_generic_add_sub {g h r : Generic α} (hg : g.Good) (hh : h.Good) {op : Op} (hop : op = .add ∨ op = .sub)
    (hr : g.binGeneric h op = .ok r) : r.Good ∧ ∀ i, r.dense i = op.app (g.dense i) (h.dense i) := by
  refine foldBin_ok hop hh hg ?_
  rcases hop with rfl | rfl <;> exact hr

/-- **C57 (partial).** `g * h` of GenericTensors whose elements can be multiplied (C51). -/
theorem C57_generic_mul_partial {g h r : Generic α} (hg : g.Good) (hh : h.Good)
    (hok : ∀ t, .inl t ∈ g.elements → ∀ o, .inl o ∈ h.elements → MulOk t o)
    (hr : g.binGeneric h .mul = .ok r) : r.Good ∧ ∀ i, r.dense i = g.dense i * h.dense i := by
  obtain ⟨r1, r2⟩ := foldMul_ok hg hh hok (gt := ⟨_, _, _, _, []⟩) (fun e he => by cases he) hr
  refine ⟨r1, fun i => ?_⟩
  rw [r2 i]
  show (0 : α) + _ = _
  rw [zero_add]; rfl

/-- **C57 (partial).** `t + g`, `t - g` and `t * g` of a Tensor and a GenericTensor. -/
theorem C57_tensor_generic_partial {t : Tensor α} (ht : t.WF) (h0 : t.values.ndim ≠ 0) {g r : Generic α}
    (hg : g.Good) {op : Op} (hok : op = .mul → ∀ e, .inl e ∈ g.elements → MulOk e t)
    (hr : t.binGeneric g op = .ok r) : r.Good ∧ ∀ i, r.dense i = op.app (t.dense i) (g.dense i) := by
  cases op with
  | add =>
    refine ⟨C57_add_sub_storage hg ht h0 (op := .add) trivial hr, fun i => ?_⟩
    rw [C57_add_sub_partial (p := .tensor t) (op := .add) hg ht trivial hr i (fun h => absurd h h0)]
    exact add_comm _ _
  | sub =>
    refine ⟨C57_add_sub_storage hg ht h0 (op := .rsub) trivial hr, fun i => ?_⟩
    rw [C57_add_sub_partial (p := .tensor t) (op := .rsub) hg ht trivial hr i (fun h => absurd h h0)]
    rfl
  | mul =>
    obtain ⟨r1, r2⟩ := C57_mul_div_partial (p := .tensor t) hg ht (Or.inl rfl) (hok rfl) hr
    refine ⟨r1 h0, fun i => ?_⟩
    rw [r2 i (by simp)]
    exact mul_comm _ _
  | rsub => cases hr
  | div => cases hr
  | rdiv => cases hr

/-! ### expressions -/

/-- An expression in Tensors: sums, differences, negation, and products with Tensors that have only value
axes. -/
inductive TExpr (α : Type) where
  | tensor (t : Tensor α)
  | add (a b : TExpr α)
  | sub (a b : TExpr α)
  | neg (a : TExpr α)
  | scale (a : TExpr α) (v : Tensor α)

/-- Evaluation by the operators of the package. -/
def TExpr.eval : TExpr α → Except Err (Num α)
  | .tensor t => .ok (.tensor t)
  | .add a b =>
    match a.eval, b.eval with
    | .ok x, .ok y => x.bin y .add
    | .error e, _ => .error e
    | _, .error e => .error e
  | .sub a b =>
    match a.eval, b.eval with
    | .ok x, .ok y => x.bin y .sub
    | .error e, _ => .error e
    | _, .error e => .error e
  | .neg a =>
    match a.eval with
    | .ok x => .ok x.neg
    | .error e => .error e
  | .scale a v =>
    match a.eval with
    | .ok x => x.bin (.tensor v) .mul
    | .error e => .error e

/-- The meaning of an expression, position by position. -/
def TExpr.meaning : TExpr α → Idx → α
  | .tensor t, i => t.dense i
  | .add a b, i => a.meaning i + b.meaning i
  | .sub a b, i => a.meaning i - b.meaning i
  | .neg a, i => - a.meaning i
  | .scale a v, i => a.meaning i * v.dense i

/-- The Tensors of the expression are in diagonal storage and not scalars; factors have only value axes. -/
def TExpr.Ok : TExpr α → Prop
  | .tensor t => t.WF ∧ t.values.ndim ≠ 0
  | .add a b => a.Ok ∧ b.Ok
  | .sub a b => a.Ok ∧ b.Ok
  | .neg a => a.Ok
  | .scale a v => a.Ok ∧ v.WF ∧ v.values.ndim ≠ 0 ∧ v.xDim = 0 ∧ v.yDim = 0

/-- The results of such expressions. -/
def Num.Proper : Num α → Prop
  | .tensor t => t.Proper
  | .generic g => g.Good

theorem num_bin_add {a b r : Num α} (ha : a.Proper) (hb : b.Proper) {op : Op} (hop : op = .add ∨ op = .sub)
    (hr : a.bin b op = .ok r) : r.Proper ∧ ∀ i, r.dense i = op.app (a.dense i) (b.dense i) := by
  have hadd : op.additive := op.additive_iff.2 (by rcases hop with h | h <;> simp [h])
  cases a with
  | tensor t =>
    cases b with
    | tensor o =>
      replace hr : t.binTensor o op = .ok r := hr
      refine ⟨?_, fun i => C50_add_sub_partial ha.1 hb.1 (fun h => absurd h ha.2) hadd hr i
        (fun h => absurd h hb.2)⟩
      cases r with
      | tensor s => exact binTensor_add_proper ha hb.1 hadd hr
      | generic g =>
        obtain ⟨hc, ⟨v, -, -, hv, e, -⟩ | ⟨-, e⟩⟩ := Tensor.binTensor_additive hadd hb.2 ha.2 hr
        · cases e
        · cases e
          intro e he
          have he' : e ∈ addElems op t o := he
          rcases hop with rfl | rfl
          · rcases List.mem_cons.1 he' with rfl | he'
            · exact ⟨t, rfl, ha⟩
            · exact ⟨o, List.mem_singleton.1 he', hb⟩
          · rcases List.mem_cons.1 he' with rfl | he'
            · exact ⟨t, rfl, ha⟩
            · exact ⟨o.neg, List.mem_singleton.1 he', hb.1.map _, hb.2⟩
    | generic g =>
      unfold Num.bin at hr
      dsimp only at hr
      cases h : t.binGeneric g op with
      | error e => rw [h] at hr; cases hr
      | ok s =>
        rw [h] at hr; cases hr
        exact C57_tensor_generic_partial ha.1 ha.2 hb (by rintro rfl; simp at hop) h
  | generic g =>
    cases b with
    | tensor o =>
      unfold Num.bin at hr
      dsimp only at hr
      cases h : g.binPrim (.tensor o) op with
      | error e => rw [h] at hr; cases hr
      | ok s =>
        rw [h] at hr; cases hr
        exact ⟨C57_add_sub_storage ha hb.1 hb.2 hadd h, fun i =>
          C57_add_sub_partial (p := .tensor o) ha hb.1 hadd h i (fun h => absurd h hb.2)⟩
    | generic g' =>
      unfold Num.bin at hr
      dsimp only at hr
      cases h : g.binGeneric g' op with
      | error e => rw [h] at hr; cases hr
      | ok s =>
        rw [h] at hr; cases hr
        exact C57_generic_add_sub ha hb hop h

theorem num_bin_scale {a r : Num α} (ha : a.Proper) {v : Tensor α} (hv : v.Proper) (hx : v.xDim = 0)
    (hy : v.yDim = 0) (hr : a.bin (.tensor v) .mul = .ok r) :
    r.Proper ∧ ∀ i, r.dense i = a.dense i * v.dense i := by
  have hm : ∀ t : Tensor α, MulOk t v := fun t => (C51_value_tensor_ok hv.1 hx hy).2
  cases a with
  | tensor t =>
    replace hr : t.binTensor v .mul = .ok r := hr
    refine ⟨?_, fun i => C51_mul_div_partial ha.1 hv.1 (hm t) (by simp [Op.additive]) hr i (by simp) (by simp)⟩
    obtain ⟨s, rfl, hs⟩ := binTensor_mul_proper ha hv (hm t) (by simp [Op.additive]) hr
    exact hs
  | generic g =>
    unfold Num.bin at hr
    dsimp only at hr
    cases h : g.binPrim (.tensor v) .mul with
    | error e => rw [h] at hr; cases hr
    | ok s =>
      rw [h] at hr; cases hr
      obtain ⟨r1, r2⟩ := C57_mul_div_partial (p := .tensor v) ha hv.1 (Or.inl rfl) (fun t _ => hm t) h
      exact ⟨r1 hv.2, fun i => r2 i (by simp)⟩

/-- **C57.** Every expression of sums, differences, negations and products with value Tensors, in any order and
of any size: if the evaluation returns, the result — Tensor or GenericTensor — represents the value of
the expression at every position. -/
theorem C57_expressions (e : TExpr α) (he : e.Ok) {r : Num α} (hr : e.eval = .ok r) :
    r.Proper ∧ ∀ i, r.dense i = e.meaning i := by
  induction e generalizing r with
  | tensor t => cases hr; exact ⟨he, fun _ => rfl⟩
  | add a b iha ihb =>
    unfold TExpr.eval at hr
    cases ha : a.eval with
    | error e => rw [ha] at hr; cases hr
    | ok x =>
      cases hb : b.eval with
      | error e => rw [ha, hb] at hr; cases hr
      | ok y =>
        rw [ha, hb] at hr
        obtain ⟨a1, a2⟩ := iha he.1 ha
        obtain ⟨b1, b2⟩ := ihb he.2 hb
        obtain ⟨r1, r2⟩ := num_bin_add a1 b1 (Or.inl rfl) hr
        exact ⟨r1, fun i => by rw [r2, a2, b2]; rfl⟩
  | sub a b iha ihb =>
    unfold TExpr.eval at hr
    cases ha : a.eval with
    | error e => rw [ha] at hr; cases hr
    | ok x =>
      cases hb : b.eval with
      | error e => rw [ha, hb] at hr; cases hr
      | ok y =>
        rw [ha, hb] at hr
        obtain ⟨a1, a2⟩ := iha he.1 ha
        obtain ⟨b1, b2⟩ := ihb he.2 hb
        obtain ⟨r1, r2⟩ := num_bin_add a1 b1 (Or.inr rfl) hr
        exact ⟨r1, fun i => by rw [r2, a2, b2]; rfl⟩
  | neg a iha =>
    unfold TExpr.eval at hr
    cases ha : a.eval with
    | error e => rw [ha] at hr; cases hr
    | ok x =>
      rw [ha] at hr
      cases hr
      obtain ⟨a1, a2⟩ := iha he ha
      cases x with
      | tensor t => exact ⟨⟨a1.1.map _, a1.2⟩, fun i => by
          show t.neg.dense i = - a.meaning i
          rw [t.dense_neg, ← a2 i]; rfl⟩
      | generic g => exact ⟨(C57_neg g ⟨id, id, id, id⟩).2 a1, fun i => by
          show g.neg.dense i = - a.meaning i
          rw [(C57_neg g i).1, ← a2 i]; rfl⟩
  | scale a v iha =>
    unfold TExpr.eval at hr
    cases ha : a.eval with
    | error e => rw [ha] at hr; cases hr
    | ok x =>
      rw [ha] at hr
      obtain ⟨a1, a2⟩ := iha he.1 ha
      obtain ⟨r1, r2⟩ := num_bin_scale a1 ⟨he.2.1, he.2.2.1⟩ he.2.2.2.1 he.2.2.2.2 hr
      exact ⟨r1, fun i => by rw [r2, a2]; rfl⟩

/-- **C57, finding.** Adding an array to a GenericTensor all of whose elements have maps appends the array itself,
not a Tensor: the sum is represented correctly, but multiplying it by anything raises AttributeError
(the arrays have no `bin_op`). -/
theorem C57_array_finding {t o : Tensor α} (ht : t.WF) (ho : o.WF) {g : Generic α}
    (ht0 : t.values.ndim ≠ 0) (ho0 : o.values.ndim ≠ 0)
    (hg : t.binTensor o .add = .ok (.generic g)) (hmt : t.xMap ≠ []) (hmo : o.xMap ≠ []) {a : NDArray α}
    (ha : a.ndim ≠ 0) {r : Generic α} (hr : g.binPrim (.array a) .add = .ok r) :
    (∀ i, r.dense i = g.dense i + elemDense (.inr a) i) ∧
      ∀ p r', r.binPrim p .mul ≠ .ok r' := by
  obtain ⟨hc, ⟨v, -, -, hv, e, -⟩ | ⟨-, e⟩⟩ := Tensor.binTensor_additive (op := .add) trivial ho0 ht0 hg
  · cases e
  cases e
  have hgd : Generic.Good (⟨max t.xDim o.xDim, max t.yDim o.yDim, max t.n o.n, max t.dim o.dim,
      addElems .add t o⟩ : Generic α) := by
    intro e he
    have he' : e ∈ addElems .add t o := he
    rcases List.mem_cons.1 he' with rfl | he'
    · exact ⟨t, rfl, ht, ht0⟩
    · exact ⟨o, List.mem_singleton.1 he', ho, ho0⟩
  refine ⟨fun i => C57_add_sub_partial (p := .array a) (op := .add) hgd (Tensor.wf_nomap (by simp)) trivial hr i
    (fun h => absurd h ha), ?_⟩
  have notensor : ∀ s : Tensor α, s.values.ndim ≠ 0 → s.xMap ≠ [] → ∀ x,
      elemBin (.inl s) (.array a) .add ≠ .ok (.tensor x) := by
    intro s hs0 hm x hx
    have he : elemBin (.inl s) (.array a) .add = s.binTensor (Prim.array a).asTensor .add :=
      s.binPrim_eq (.array a) .add
    rw [he] at hx
    obtain ⟨-, ⟨v, e, -⟩ | ⟨-, e⟩⟩ := Tensor.binTensor_additive (op := .add) trivial ha hs0 hx
    · exact hm e
    · cases e
  have hnone : ∀ es, (∀ e ∈ es, ∃ s : Tensor α, e = .inl s ∧ s.values.ndim ≠ 0 ∧ s.xMap ≠ []) →
      ∀ es', mergeInto (.array a) .add es ≠ .ok (some es') := by
    intro es
    induction es with
    | nil => intro _ es' h; cases h
    | cons e es ih =>
      intro h es' hm
      obtain ⟨s, rfl, hs⟩ := h e List.mem_cons_self
      unfold mergeInto at hm
      cases hb : elemBin (.inl s) (.array a) .add with
      | error err => rw [hb] at hm; cases hm
      | ok x =>
        cases x with
        | tensor x => exact notensor s hs.1 hs.2 x hb
        | generic x =>
          rw [hb] at hm
          dsimp only at hm
          cases h2 : mergeInto (.array a) .add es with
          | error err => rw [h2] at hm; cases hm
          | ok m =>
            rw [h2] at hm
            cases m with
            | none => cases hm
            | some es'' => exact ih (fun e he => h e (List.mem_cons_of_mem _ he)) _ h2
  rcases Generic.binPrim_add_eq _ (.array a) (Or.inl rfl) hr with h | ⟨-, h⟩
  · exfalso
    refine hnone _ ?_ _ h
    intro e he
    have he' : e ∈ addElems .add t o := he
    rcases List.mem_cons.1 he' with rfl | he'
    · exact ⟨t, rfl, ht0, hmt⟩
    · exact ⟨o, List.mem_singleton.1 he', ho0, hmo⟩
  · intro p r' hr'
    have hmul : ∀ es, (.inr a : Tensor α ⊕ NDArray α) ∈ es → ∀ es', mulAll p .mul es ≠ .ok es' := by
      intro es
      induction es with
      | nil => intro h; cases h
      | cons e es ih =>
        intro hm es' h
        unfold mulAll at h
        rcases List.mem_cons.1 hm with rfl | hm
        · cases h
        · cases hb : elemBin e p .mul with
          | error err => rw [hb] at h; cases h
          | ok x =>
            rw [hb] at h
            cases x with
            | generic x => cases h
            | tensor x =>
              dsimp only at h
              cases h2 : mulAll p .mul es with
              | error err => rw [h2] at h; cases h
              | ok es'' => exact ih hm _ h2
    have : r.binPrim p .mul = match mulAll p .mul r.elements with
      | .error e => .error e
      | .ok els => .ok ⟨(r.dims p).1, (r.dims p).2.1, (r.dims p).2.2.1, (r.dims p).2.2.2, els⟩ := rfl
    rw [this] at hr'
    cases h2 : mulAll p .mul r.elements with
    | error err => rw [h2] at hr'; cases hr'
    | ok es => exact hmul _ (by rw [h]; exact List.mem_append_right _ (List.mem_singleton.2 rfl)) _ h2


/-- **C57.** `g + o` and `g - o` succeed for every Tensor `o` whose numbers of axes and shapes fit every element. -/
theorem C57_add_sub_succeeds {g : Generic α} (hg : g.Good) {o : Tensor α} (ho : o.WF)
    (hfit : ∀ t, .inl t ∈ g.elements → Compat t o ∧ ShapesFit t t.values o o.values)
    {op : Op} (hop : op = .add ∨ op = .sub) : ∃ r, g.binPrim (.tensor o) op = .ok r := by
  have hadd : op.additive := op.additive_iff.2 (by rcases hop with h | h <;> simp [h])
  have key : ∀ es : List (Tensor α ⊕ NDArray α), Goods es →
      (∀ t, .inl t ∈ es → Compat t o ∧ ShapesFit t t.values o o.values) →
      ∃ m, mergeInto (.tensor o) op es = .ok m := by
    intro es
    induction es with
    | nil => intro _ _; exact ⟨_, rfl⟩
    | cons e es ih =>
      intro h1 h2
      obtain ⟨t, rfl, hw, h0⟩ := h1 e List.mem_cons_self
      obtain ⟨hc, hs⟩ := h2 t List.mem_cons_self
      obtain ⟨v, hv⟩ := C50_add_sub_succeeds hw ho hc hs hadd
      obtain ⟨m, hm⟩ := ih (fun e he => h1 e (List.mem_cons_of_mem _ he))
        (fun t ht => h2 t (List.mem_cons_of_mem _ ht))
      unfold mergeInto
      have he : elemBin (.inl t) (.tensor o) op = .ok v := hv
      rw [he]
      cases v with
      | tensor s => exact ⟨_, rfl⟩
      | generic g' =>
        rw [hm]
        cases m with
        | none => exact ⟨_, rfl⟩
        | some es' => exact ⟨_, rfl⟩
  obtain ⟨m, hm⟩ := key g.elements hg hfit
  rcases hop with rfl | rfl
  · unfold Generic.binPrim
    dsimp only
    rw [hm]
    cases m <;> exact ⟨_, rfl⟩
  · unfold Generic.binPrim
    dsimp only
    rw [hm]
    cases m <;> exact ⟨_, rfl⟩

/-- Two diagonal Tensors with different maps and a Tensor without maps. -/
private def dg (f : Int) : Tensor ℚ := ⟨⟨3, fun k => if k = 0 then 1 else 2, fun idx => (idx 1 : ℚ) + 5 * idx 2⟩, 1, 0, 0, [f], []⟩
private def vl : Tensor ℚ := ⟨⟨2, fun _ => 2, fun idx => (idx 0 : ℚ) + idx 1⟩, 0, 0, 0, [], []⟩

/-- The hypotheses of `C57_expressions` are met by `(d₀ + d₁) * v - d₀ * v`, which evaluates to a GenericTensor
with two elements. -/
example : ∃ (e : TExpr ℚ) (g : Generic ℚ), e.Ok ∧ e.eval = .ok (.generic g) ∧ g.elements.length = 2 ∧
    e = .sub (.scale (.add (.tensor (dg 0)) (.tensor (dg 1))) vl) (.scale (.tensor (dg 0)) vl) := by
  have hw : ∀ f ∈ [(0 : Int), 1], (dg f).WF := by
    intro f hf
    have : f = 0 ∨ f = 1 := by simpa using hf
    rcases this with rfl | rfl <;>
    exact ⟨by decide, by decide, by decide, by decide, by decide, by decide, by decide⟩
  have hv : vl.WF := Tensor.wf_nomap (by decide)
  refine ⟨.sub (.scale (.add (.tensor (dg 0)) (.tensor (dg 1))) vl) (.scale (.tensor (dg 0)) vl), _,
    ⟨⟨⟨⟨hw 0 (by simp), by decide⟩, hw 1 (by simp), by decide⟩, hv, by decide, rfl, rfl⟩,
      ⟨hw 0 (by simp), by decide⟩, hv, by decide, rfl, rfl⟩, rfl, rfl, rfl⟩

/-- The hypotheses of `C57_array_finding` are met: `d₀ + d₁ + a`, then `* 2`. -/
example : ∃ g r : Generic ℚ, (dg 0).binTensor (dg 1) .add = .ok (.generic g) ∧
    g.binPrim (.array vl.values) .add = .ok r ∧ r.binPrim (.scalar 2) .mul = .error .attribute := by
  refine ⟨_, _, rfl, rfl, rfl⟩

end Verif.Tens
