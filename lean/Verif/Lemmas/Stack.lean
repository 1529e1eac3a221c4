import Verif.Lemmas.Sheet
import Verif.Lemmas.Stored
import Verif.Lemmas.FuncTensor

/-!
# Contractions of derivative arrays whose parameter axes are all mapped
-/

set_option linter.unusedSectionVars false

namespace Verif.Tens
open Verif.Params (Err)
open NDArray

theorem joinAt_lt {n k : Nat} {i j : Nat → Nat} (h : k < n) : joinAt n i j k = i k := if_pos h

theorem joinAt_ge {n k : Nat} {i j : Nat → Nat} : joinAt n i j (n + k) = j k := by
  unfold joinAt
  rw [if_neg (by omega)]
  congr 1; omega

variable {α : Type} [Field α] [DecidableEq α]

/-! ### the entries of a Tensor by position in all axes -/

/-- The entry for the positions `x`, `y` in the parameters and `s` in the other axes. -/
def Tensor.read (t : Tensor α) (x y s : Nat → Nat) : α := t.dropDim.dense ⟨x, y, s, fun _ => 0⟩

theorem Tensor.dense_read {t : Tensor α} (h : t.WF) (i : Idx) : t.dense i = t.read i.x i.y (joinAt t.n i.n i.d) := by
  unfold Tensor.read Tensor.dense Tensor.dropDim
  dsimp only
  have hag : ∀ {m : List Int} {v : Nat → Nat}, (∀ f ∈ m, f < t.n) → (Agrees m v i.n ↔ Agrees m v (joinAt t.n i.n i.d)) := by
    intro m v hm
    have : ∀ k < m.length, 0 ≤ m.getD k (-1) → joinAt t.n i.n i.d (m.getD k (-1)).toNat = i.n (m.getD k (-1)).toNat := by
      intro k hk h0
      apply joinAt_lt
      have := hm (m.getD k (-1)) (by rw [List.getD_eq_getElem _ _ hk]; exact List.getElem_mem hk)
      omega
    constructor
    · intro ha k hk h0; rw [this k hk h0]; exact ha k hk h0
    · intro ha k hk h0; rw [← this k hk h0]; exact ha k hk h0
  have h1 := hag (v := i.x) h.xRange
  have h2 := hag (v := i.y) h.yRange
  have hv : t.values.bget (t.flat i) = t.values.bget ((⟨t.values, t.xDim, t.yDim, 0, t.xMap, t.yMap⟩ : Tensor α).flat ⟨i.x, i.y, joinAt t.n i.n i.d, fun _ => 0⟩) := by
    apply bget_congr'
    intro k hk
    have hnd := h.ndim
    unfold Tensor.flat Tens.flat
    have hn : (⟨t.values, t.xDim, t.yDim, 0, t.xMap, t.yMap⟩ : Tensor α).n = t.n + t.dim := by
      unfold Tensor.n; dsimp only; omega
    have hn2 : t.values.ndim = t.xDim + t.yDim + t.n + t.dim := by unfold Tensor.n; omega
    rw [hn]
    dsimp only
    by_cases c1 : k < t.xDim
    · rw [if_pos c1, if_pos c1]
    rw [if_neg c1, if_neg c1]
    by_cases c2 : k < t.xDim + t.yDim
    · rw [if_pos c2, if_pos c2]
    rw [if_neg c2, if_neg c2, if_pos (show k < t.xDim + t.yDim + (t.n + t.dim) by omega)]
    by_cases c3 : k < t.xDim + t.yDim + t.n
    · rw [if_pos c3, joinAt_lt (by omega)]
    · rw [if_neg c3]
      unfold joinAt
      rw [if_neg (by omega)]
  rw [hv]
  simp only [h1, h2]

theorem Slab.read {S : Nat → Nat} {nx ny len d : Nat} {xm ym : List Int} {t : Tensor α} {G : (Nat → Nat) → α}
    (h : Slab S nx ny len d xm ym t G) {s : Nat → Nat} (hs : ∀ j < len, s j < S j) (x y : Nat → Nat) :
    t.read x y s = if Agrees xm x s ∧ Agrees ym y s then G (cut len s) else 0 := by
  unfold Tensor.read Tensor.dense
  have e : ∀ j < len, t.dropDim.flat ⟨x, y, s, fun _ => 0⟩ (nx + ny + j) = s j := by
    intro j hj
    have hnd := h.nd
    have hn : t.dropDim.n = len := by
      unfold Tensor.n Tensor.dropDim; dsimp only; rw [h.hx, h.hy]; omega
    have hx : t.dropDim.xDim = nx := h.hx
    have hy : t.dropDim.yDim = ny := h.hy
    unfold Tensor.flat Tens.flat
    rw [hn, hx, hy, if_neg (by omega), if_neg (by omega), if_pos (by omega)]
    dsimp only
    congr 1; omega
  show (if Agrees t.xMap x s ∧ Agrees t.yMap y s then t.values.bget _ else 0) = _
  rw [h.hxm, h.hym, h.get _ (fun j hj => by rw [e j hj]; exact hs j hj), cut_congr e]

theorem agrees_idMap {q : Nat} (s : Nat → Nat) : Agrees (idMap q) s s := by
  intro k hk h0
  rw [idMap_length] at hk
  rw [idMap_getD hk]
  rfl

theorem agrees_cut {q : Nat} {m : List Int} (hm : ∀ f ∈ m, 0 ≤ f ∧ f < q) (x s : Nat → Nat) :
    Agrees m x (cut q s) ↔ Agrees m x s := by
  have : ∀ k < m.length, 0 ≤ m.getD k (-1) → cut q s (m.getD k (-1)).toNat = s (m.getD k (-1)).toNat := by
    intro k hk h0
    apply cut_of
    have := hm (m.getD k (-1)) (by rw [List.getD_eq_getElem _ _ hk]; exact List.getElem_mem hk)
    omega
  constructor
  · intro ha k hk h0; rw [← this k hk h0]; exact ha k hk h0
  · intro ha k hk h0; rw [this k hk h0]; exact ha k hk h0

/-! ### parts -/

/-- A Tensor all of whose parameter axes are mapped by maps in `X` and `Y`, with `len` other axes (the last `d` of them `dim` axes)
of the sizes `S`; in full size if `fl`. -/
def Part (fl : Prop) (S : Nat → Nat) (len d : Nat) (X Y : List Int → Prop) (t : Tensor α) : Prop :=
  ∃ xm ym G, Slab S xm.length ym.length len d xm ym t G ∧ (fl → ∀ j < len, t.values.shape (xm.length + ym.length + j) = S j) ∧ X xm ∧ Y ym

/-- A Tensor or GenericTensor of such parts; `A` and `B` are the numbers of axes of the parameters. -/
def Stack (fl : Prop) (S : Nat → Nat) (len d A B : Nat) (X Y : List Int → Prop) : Num α → Prop
  | .tensor t => Part fl S len d X Y t
  | .generic g => g.elements ≠ [] ∧ g.n + d = len ∧ g.dim = d ∧ (g.xDim = 0 ∨ g.xDim = A) ∧ (g.yDim = 0 ∨ g.yDim = B) ∧
      ∀ e ∈ g.elements, ∃ t, e = .inl t ∧ Part fl S len d X Y t ∧ t.xDim ≤ g.xDim ∧ t.yDim ≤ g.yDim

def readElems (es : List (Tensor α ⊕ NDArray α)) (x y s : Nat → Nat) : α :=
  (es.map fun e => match e with | .inl t => t.read x y s | .inr _ => 0).sum

/-- The entry of `v`. -/
def Num.read : Num α → (Nat → Nat) → (Nat → Nat) → (Nat → Nat) → α
  | .tensor t, x, y, s => t.read x y s
  | .generic g, x, y, s => readElems g.elements x y s

theorem readElems_cons (t : Tensor α) (es : List (Tensor α ⊕ NDArray α)) (x y s : Nat → Nat) :
    readElems (.inl t :: es) x y s = t.read x y s + readElems es x y s := List.sum_cons

section
variable {fl : Prop} {S : Nat → Nat} {len d q A B : Nat} {X Y : List Int → Prop}

theorem Part.n {t : Tensor α} (h : Part fl S len d X Y t) : t.n + d = len := by
  obtain ⟨xm, ym, G, h, -⟩ := h
  exact h.n

theorem Part.sheet {t : Tensor α} (h : Part True S len d X Y t) : ∃ xm ym G, Sheet S xm.length ym.length len d xm ym t G ∧ X xm ∧ Y ym := by
  obtain ⟨xm, ym, G, h1, h2, h3⟩ := h
  exact ⟨xm, ym, G, ⟨h1, h2 trivial⟩, h3⟩

theorem Part.transpose {t : Tensor α} (h : Part fl S len d X Y t) : Part fl S len d Y X t.transpose ∧
    t.transpose.xDim = t.yDim ∧ t.transpose.yDim = t.xDim ∧
    ∀ x y s, (∀ j < len, s j < S j) → t.transpose.read x y s = t.read y x s := by
  obtain ⟨xm, ym, G, h1, h2, h3, h4⟩ := h
  refine ⟨⟨ym, xm, G, h1.transpose, fun hf j hj => ?_, h4, h3⟩, rfl, rfl, fun x y s hs => ?_⟩
  · rw [(transpose_values h1).2.1, Nat.add_comm ym.length]; exact h2 hf j hj
  · rw [h1.transpose.read hs, h1.read hs]
    simp only [and_comm]

theorem Stack.transpose {v : Num α} (h : Stack fl S len d A B X Y v) : Stack fl S len d B A Y X v.transpose ∧
    ∀ x y s, (∀ j < len, s j < S j) → v.transpose.read x y s = v.read y x s := by
  cases v with
  | tensor t => exact ⟨(Part.transpose h).1, (Part.transpose h).2.2.2⟩
  | generic g =>
    obtain ⟨h1, h2, h3, h4, h5, h6⟩ := h
    refine ⟨⟨?_, h2, h3, h5, h4, ?_⟩, ?_⟩
    · show g.elements.map transposeElem ≠ []
      simpa using h1
    · intro e he
      obtain ⟨e', he', rfl⟩ := List.mem_map.1 he
      obtain ⟨t, rfl, ht, a, b⟩ := h6 e' he'
      exact ⟨t.transpose, rfl, ht.transpose.1, by rw [ht.transpose.2.1]; exact b, by rw [ht.transpose.2.2.1]; exact a⟩
    · intro x y s hs
      show readElems (g.elements.map transposeElem) x y s = readElems g.elements y x s
      unfold readElems
      rw [List.map_map]
      congr 1
      refine List.map_congr_left fun e he => ?_
      obtain ⟨t, rfl, ht, -⟩ := h6 e he
      exact ht.transpose.2.2.2 x y s hs

theorem Part.dropDim {t : Tensor α} (h : Part fl S len d X Y t) : Part fl S len 0 X Y t.dropDim := by
  obtain ⟨xm, ym, G, h1, h2, h3⟩ := h
  exact ⟨xm, ym, G, h1.dropDim, h2, h3⟩

theorem Stack.dropDim {v : Num α} (h : Stack fl S len d A B X Y v) : ∃ r, v.dropDim = .ok r ∧ Stack fl S len 0 A B X Y r ∧
    (∀ t, v = .tensor t → r = .tensor t.dropDim) ∧ ∀ x y s, r.read x y s = v.read x y s := by
  cases v with
  | tensor t => exact ⟨_, rfl, Part.dropDim h, fun _ h => by cases h; rfl, fun _ _ _ => rfl⟩
  | generic g =>
    obtain ⟨h1, h2, h3, h4, h5, h6⟩ := h
    obtain ⟨l, l1, l2⟩ := mapElems_ok (f := fun t : Tensor α => .ok t.dropDim) (fun t r => r = t.dropDim) (es := g.elements)
      (fun e he => by obtain ⟨t, rfl, -⟩ := h6 e he; exact ⟨t, rfl, _, rfl, rfl⟩)
    refine ⟨.generic ⟨g.xDim, g.yDim, g.n + g.dim, 0, l⟩, ?_, ⟨?_, ?_, rfl, h4, h5, ?_⟩, fun _ h => (by cases h), ?_⟩
    · show (g.dropDim).map _ = _
      unfold Generic.dropDim
      rw [l1]; rfl
    · intro hl
      have hl : l = [] := hl
      rw [hl] at l2
      cases hg : g.elements with
      | nil => exact h1 hg
      | cons a as => rw [hg] at l2; cases l2
    · show g.n + g.dim + 0 = len
      omega
    · intro e he
      obtain ⟨e', he', t, r, rfl, rfl, rfl⟩ := forall2_mem l2 e he
      obtain ⟨t', e1, ht, b⟩ := h6 _ he'
      cases e1
      exact ⟨_, rfl, ht.dropDim, b⟩
    · intro x y s
      show readElems l x y s = readElems g.elements x y s
      clear h1 h2 h3 h4 h5 h6 l1
      generalize g.elements = es at l2
      induction l2 with
      | nil => rfl
      | cons hab _ ih =>
        obtain ⟨t, r, rfl, rfl, rfl⟩ := hab
        rw [readElems_cons, readElems_cons, ih]; rfl

/-! ### contraction of two Tensors -/

theorem part_dotLeft (hq : 0 < q) (hql : q ≤ len) {t o : Tensor α} (ht : Part True S len d (· = idMap q) Y t)
    (hX : ∀ xm, X xm → ∀ f ∈ xm, 0 ≤ f ∧ f < q) (ho : Part fl S q 0 X (· = []) o) :
    ∃ r, t.dotLeft o = .ok r ∧ Part True S len d X Y r ∧ r.xDim = o.xDim ∧ r.yDim = t.yDim ∧
      ∀ x y y' s, (∀ j < len, s j < S j) → r.read x y s = t.read s y s * o.read x y' s := by
  obtain ⟨xm, ym, F, h1, rfl, h3⟩ := ht.sheet
  obtain ⟨om, _, G, g1, g2, g3, rfl⟩ := ho
  rw [idMap_length] at h1
  obtain ⟨r, r1, r2⟩ := sheet_dotLeft hq hql h1 g1 (hX om g3)
  refine ⟨r, r1, ⟨om, ym, _, r2.toSlab, fun _ => r2.full, g3, h3⟩, ?_, ?_, ?_⟩
  · rw [r2.hx, g1.hx]
  · rw [r2.hy, h1.hy]
  · intro x y y' s hs
    rw [r2.toSlab.read hs, h1.toSlab.read hs, g1.read (fun j hj => hs j (by omega)), cut_cut hql]
    have a1 := agrees_idMap (q := q) s
    have a2 := agrees_nil y' s
    simp only [a1, a2, true_and, and_true]
    by_cases c1 : Agrees om x s <;> by_cases c2 : Agrees ym y s <;> simp [c1, c2, mul_comm]

theorem part_dotRight (hq : 0 < q) (hql : q ≤ len) {t o : Tensor α} (ht : Part True S len d (· = idMap q) (· = []) t)
    (hX : ∀ xm, X xm → ∀ f ∈ xm, 0 ≤ f ∧ f < q) (hY : ∀ xm, Y xm → ∀ f ∈ xm, 0 ≤ f ∧ f < q) (ho : Part fl S q 0 X Y o) :
    ∃ r, t.dotRight o = .ok (some r) ∧ Part True S len d X Y r ∧ r.xDim = o.xDim ∧ r.yDim = o.yDim ∧
      ∀ x y y' s, (∀ j < len, s j < S j) → r.read x y s = t.read s y' s * o.read x y s := by
  obtain ⟨xm, ym, F, h1, rfl, rfl⟩ := ht.sheet
  obtain ⟨om, pm, G, g1, g2, g3, g4⟩ := ho
  rw [idMap_length] at h1
  obtain ⟨r, r1, r2⟩ := sheet_dotRight hq hql h1 g1 (hX om g3) (hY pm g4)
  refine ⟨r, r1, ⟨om, pm, _, r2.toSlab, fun _ => r2.full, g3, g4⟩, ?_, ?_, ?_⟩
  · rw [r2.hx, g1.hx]
  · rw [r2.hy, g1.hy]
  · intro x y y' s hs
    rw [r2.toSlab.read hs, h1.toSlab.read hs, g1.read (fun j hj => hs j (by omega)), cut_cut hql]
    have a1 := agrees_idMap (q := q) s
    have a2 := agrees_nil y' s
    simp only [a1, a2, true_and, if_true]
    by_cases c1 : Agrees om x s <;> by_cases c2 : Agrees pm y s <;> simp [c1, c2, mul_comm]

/-! ### contractions with Tensors on the left side -/

theorem stack_dotLeftNum (hq : 0 < q) (hql : q ≤ len) {t : Tensor α} (ht : Part True S len d (· = idMap q) Y t) (hY : t.yDim = 0 ∨ t.yDim = B)
    (hX : ∀ xm, X xm → ∀ f ∈ xm, 0 ≤ f ∧ f < q) {B' : Nat} {w : Num α} (hw : Stack fl S q 0 A B' X (· = []) w) :
    ∃ r, t.dotLeftNum w = .ok r ∧ Stack True S len d A B X Y r ∧ (∀ o, w = .tensor o → ∃ r', r = .tensor r') ∧
      ∀ x y y' s, (∀ j < len, s j < S j) → r.read x y s = t.read s y s * w.read x y' s := by
  cases w with
  | tensor o =>
    obtain ⟨r, r1, r2, -, -, r3⟩ := part_dotLeft hq hql ht hX hw
    refine ⟨.tensor r, ?_, r2, fun _ _ => ⟨r, rfl⟩, r3⟩
    show (t.dotLeft o).map _ = _
    rw [r1]; rfl
  | generic g =>
    obtain ⟨h1, h2, h3, h4, h5, h6⟩ := hw
    have htx : t.xDim = q := by
      obtain ⟨xm, ym, F, k1, rfl, -⟩ := ht.sheet
      rw [k1.hx, idMap_length]
    have htd : t.dim = d := by
      obtain ⟨xm, ym, F, k1, -⟩ := ht.sheet
      exact k1.hd
    obtain ⟨l, l1, l2⟩ := mapElems_ok (f := fun o : Tensor α => t.dotLeft o) (fun o r => Part True S len d X Y r ∧ r.xDim = o.xDim ∧ r.yDim = t.yDim ∧
        ∀ x y y' s, (∀ j < len, s j < S j) → r.read x y s = t.read s y s * o.read x y' s) (es := g.elements)
      (fun e he => by
        obtain ⟨o, rfl, ho, -⟩ := h6 e he
        obtain ⟨r, r1, r2⟩ := part_dotLeft hq hql ht hX ho
        exact ⟨o, rfl, r, r1, r2⟩)
    have hc : ¬ (t.xDim ≠ g.n ∧ t.yDim = g.n) := by omega
    refine ⟨.generic ⟨g.xDim, t.yDim, t.n, max t.dim g.dim, l⟩, ?_, ⟨?_, ht.n, ?_, h4, hY, ?_⟩, fun _ h => (by cases h), ?_⟩
    · show (mapElems (fun o => (if t.xDim ≠ g.n ∧ t.yDim = g.n then t.transpose else t).dotLeft o) g.elements).map _ = _
      simp only [if_neg hc]
      rw [l1]; rfl
    · intro hl
      have hl : l = [] := hl
      rw [hl] at l2
      cases hg : g.elements with
      | nil => exact h1 hg
      | cons a as => rw [hg] at l2; cases l2
    · show max t.dim g.dim = d
      omega
    · intro e he
      obtain ⟨e', he', o, r, rfl, rfl, r1, r2, r3, -⟩ := forall2_mem l2 e he
      obtain ⟨t', e1, ht, b, -⟩ := h6 _ he'
      cases e1
      exact ⟨_, rfl, r1, by rw [r2]; exact b, r3.le⟩
    · intro x y y' s hs
      show readElems l x y s = _ * readElems g.elements x y' s
      clear h1 h2 h3 h4 h5 h6 l1
      generalize g.elements = es at l2
      induction l2 with
      | nil => simp [readElems]
      | cons hab _ ih =>
        obtain ⟨o, r, rfl, rfl, -, -, -, k⟩ := hab
        rw [readElems_cons, readElems_cons, ih, k x y y' s hs]; ring

/-- `t.dot_right(w)` where `w` is not `Tensor(0)` -/
theorem stack_dotRightNum (hq : 0 < q) (hql : q ≤ len) {t : Tensor α} (ht : Part True S len d (· = idMap q) (· = []) t)
    (hX : ∀ xm, X xm → ∀ f ∈ xm, 0 ≤ f ∧ f < q) (hY : ∀ xm, Y xm → ∀ f ∈ xm, 0 ≤ f ∧ f < q) {w : Num α} (hw : Stack fl S q 0 A B X Y w) :
    ∃ r, t.dotRightNum w = .ok (.arr r) ∧ Stack True S len d A B X Y r ∧ (∀ o, w = .tensor o → ∃ r', r = .tensor r') ∧
      ∀ x y y' s, (∀ j < len, s j < S j) → r.read x y s = t.read s y' s * w.read x y s := by
  cases w with
  | tensor o =>
    obtain ⟨r, r1, r2, -, -, r3⟩ := part_dotRight hq hql ht hX hY hw
    refine ⟨.tensor r, ?_, r2, fun _ _ => ⟨r, rfl⟩, r3⟩
    unfold Tensor.dotRightNum
    dsimp only
    rw [r1]; rfl
  | generic g =>
    obtain ⟨h1, h2, h3, h4, h5, h6⟩ := hw
    have htx : t.xDim = q := by
      obtain ⟨xm, ym, F, k1, rfl, -⟩ := ht.sheet
      rw [k1.hx, idMap_length]
    have hty : t.yDim = 0 := by
      obtain ⟨xm, ym, F, k1, -, rfl⟩ := ht.sheet
      rw [k1.hy]; rfl
    have htd : t.dim = d := by
      obtain ⟨xm, ym, F, k1, -⟩ := ht.sheet
      exact k1.hd
    have hl : ∃ l, g.elements.mapM t.dotRightElem = .ok l ∧ List.Forall₂ (fun e e' => ∃ o r, e = .inl o ∧ e' = .inl r ∧ Part True S len d X Y r ∧ r.xDim = o.xDim ∧ r.yDim = o.yDim ∧
        ∀ x y y' s, (∀ j < len, s j < S j) → r.read x y s = t.read s y' s * o.read x y s) g.elements l := by
      clear h1 h4 h5
      generalize g.elements = es at *
      induction es with
      | nil => exact ⟨[], rfl, .nil⟩
      | cons e es ih =>
        obtain ⟨o, rfl, ho, -⟩ := h6 e List.mem_cons_self
        obtain ⟨r, r1, r2⟩ := part_dotRight hq hql ht hX hY ho
        obtain ⟨l, l1, l2⟩ := ih fun e he => h6 e (List.mem_cons_of_mem _ he)
        refine ⟨.inl r :: l, ?_, .cons ⟨o, r, rfl, rfl, r2⟩ l2⟩
        rw [List.mapM_cons, l1]
        have : t.dotRightElem (.inl o) = .ok (.inl r) := by
          unfold Tensor.dotRightElem
          dsimp only
          rw [r1]; rfl
        rw [this]; rfl
    obtain ⟨l, l1, l2⟩ := hl
    refine ⟨.generic ⟨g.xDim, g.yDim, t.n, max t.dim g.dim, l⟩, ?_, ⟨?_, ht.n, ?_, h4, h5, ?_⟩, fun _ h => (by cases h), ?_⟩
    · unfold Tensor.dotRightNum
      dsimp only
      rw [if_neg (by omega), l1]; rfl
    · intro hl
      have hl : l = [] := hl
      rw [hl] at l2
      cases hg : g.elements with
      | nil => exact h1 hg
      | cons a as => rw [hg] at l2; cases l2
    · show max t.dim g.dim = d
      omega
    · intro e he
      obtain ⟨e', he', o, r, rfl, rfl, r1, r2, r3, -⟩ := forall2_mem l2 e he
      obtain ⟨t', e1, ht, b, b'⟩ := h6 _ he'
      cases e1
      exact ⟨_, rfl, r1, by rw [r2]; exact b, by rw [r3]; exact b'⟩
    · intro x y y' s hs
      show readElems l x y s = _ * readElems g.elements x y s
      clear h1 h2 h3 h4 h5 h6 l1
      generalize g.elements = es at l2
      induction l2 with
      | nil => simp [readElems]
      | cons hab _ ih =>
        obtain ⟨o, r, rfl, rfl, -, -, -, k⟩ := hab
        rw [readElems_cons, readElems_cons, ih, k x y y' s hs]; ring

end

/-! ### Tensors of a problem -/

/-- A map of all axes (or of none) of a parameter with `A` axes of the sizes `P` to the first `n` axes. -/
structure Chart (n : Nat) (S : Nat → Nat) (A : Nat) (P : Nat → Nat) (m : List Int) : Prop where
  len : m.length = 0 ∨ m.length = A
  range : ∀ f ∈ m, 0 ≤ f ∧ f < n
  nodup : m.Nodup
  size : ∀ k < m.length, S (m.getD k (-1)).toNat = P k

theorem Chart.getD {n : Nat} {S : Nat → Nat} {A : Nat} {P : Nat → Nat} {m : List Int} (h : Chart n S A P m) {k : Nat} (hk : k < m.length) :
    0 ≤ m.getD k (-1) ∧ m.getD k (-1) < n := by
  rw [List.getD_eq_getElem _ _ hk]
  exact h.range _ (List.getElem_mem hk)

theorem chart_nil {n : Nat} {S : Nat → Nat} {A : Nat} {P : Nat → Nat} : Chart n S A P [] :=
  ⟨Or.inl rfl, (fun f hf => by cases hf), List.nodup_nil, (fun k hk => absurd hk (by simp))⟩

theorem chart_of {t : Nat} {n : Nat} {S : Nat → Nat} {A : Nat} {P : Nat → Nat} {m : List Int} (h1 : m.length ≤ t) (h2 : ∀ k < t, 0 ≤ m.getD k (-1))
    (h3 : t = 0 ∨ t = A) (h4 : ∀ f ∈ m, f < n) (h5 : (m.filter fun f => 0 ≤ f).Nodup) (h6 : ∀ k < t, S (m.getD k (-1)).toNat = P k) :
    m.length = t ∧ Chart n S A P m := by
  have hlen : m.length = t := by
    refine le_antisymm h1 (not_lt.1 fun hc => ?_)
    have := lt_of_getD_nonneg (h2 m.length hc)
    omega
  have hpos : ∀ f ∈ m, 0 ≤ f := by
    intro f hf
    obtain ⟨k, hk, rfl⟩ := List.mem_iff_getElem.1 hf
    have := h2 k (by omega)
    rwa [List.getD_eq_getElem _ _ hk] at this
  refine ⟨hlen, by omega, fun f hf => ⟨hpos f hf, h4 f hf⟩, ?_, fun k hk => h6 k (by omega)⟩
  rwa [List.filter_eq_self.2 (fun f hf => by simpa using hpos f hf)] at h5

section
variable {L : Layout} {K : Nat → Prop}

/-- A Tensor of the problem with mapped axes is a part. -/
theorem part_of_piece {t : Tensor α} (h : OnPiece K L t) (hm : t.Mapped) :
    Part (∀ k < L.n + L.d, K k) L.S (L.n + L.d) L.d (Chart L.n L.S L.a L.PX) (Chart L.n L.S L.b L.PY) t := by
  obtain ⟨hp, hd, hK⟩ := h
  have hn := hp.hn
  obtain ⟨x1, x2⟩ := chart_of (n := L.n) (S := L.S) (P := L.PX) hp.wf.xLen hm.1 hp.hx (by rw [← hn]; exact hp.wf.xRange) hp.inj.1 fun k hk =>
    (hp.px k hk).1 (hm.1 k hk)
  obtain ⟨y1, y2⟩ := chart_of (n := L.n) (S := L.S) (P := L.PY) hp.wf.yLen hm.2 hp.hy (by rw [← hn]; exact hp.wf.yRange) hp.inj.2 fun k hk =>
    (hp.py k hk).1 (hm.2 k hk)
  have hone : ∀ k < t.xDim + t.yDim, t.values.shape k = 1 := by
    intro k hk
    by_cases c : k < t.xDim
    · exact hp.wf.xOne k (by omega) (hm.1 k c)
    · have := hp.wf.yOne (k - t.xDim) (by omega) (hm.2 _ (by omega))
      rwa [show t.xDim + (k - t.xDim) = k by omega] at this
  refine ⟨t.xMap, t.yMap, fun s => t.values.bget fun k => s (k - (t.xDim + t.yDim)), ⟨x1.symm, y1.symm, hd, rfl, rfl, ?_, by omega, ?_, ?_, ?_⟩, ?_, x2, y2⟩
  · rw [hp.nd, hd]; omega
  · rw [x1, y1]; exact hone
  · rw [x1, y1]
    intro j hj
    exact hp.size j (by omega)
  · intro idx hi
    rw [x1, y1]
    apply t.values.bget_congr
    intro k hk h1
    have hnd := hp.nd
    by_cases c : k < t.xDim + t.yDim
    · exact absurd (hone k c) h1
    · rw [cut_of (by omega)]
      congr 1; omega
  · intro hall j hj
    rw [x1, y1]
    exact hK j hj (hall j hj)

/-- The converse. -/
theorem piece_of_part {t : Tensor α} (h : Part True L.S (L.n + L.d) L.d (Chart L.n L.S L.a L.PX) (Chart L.n L.S L.b L.PY) t) :
    OnPiece (fun _ => True) L t ∧ t.Mapped := by
  obtain ⟨xm, ym, G, h1, h2, h3, h4⟩ := h
  have hx := h1.hx
  have hy := h1.hy
  have hd := h1.hd
  have hxm := h1.hxm
  have hym := h1.hym
  have hnd := h1.nd
  have hn : t.n = L.n := by have := h1.n; omega
  have hwf : t.WF := by
    refine ⟨by omega, by rw [hxm, hx], by rw [hym, hy], ?_, ?_, ?_, ?_⟩
    · rw [hxm, hn]; exact fun f hf => (h3.range f hf).2
    · rw [hym, hn]; exact fun f hf => (h4.range f hf).2
    · rw [hxm]; exact fun k hk _ => h1.one k (by omega)
    · rw [hym]; exact fun k hk _ => h1.one _ (by omega)
  refine ⟨⟨⟨hwf, ⟨?_, ?_⟩, ?_, ?_, hn, Or.inr hd, ?_, ?_, ?_⟩, hd, ?_⟩, ⟨?_, ?_⟩⟩
  · rw [hxm]; exact h3.nodup.filter _
  · rw [hym]; exact h4.nodup.filter _
  · rw [hx]; exact h3.len
  · rw [hy]; exact h4.len
  · intro k hk; rw [hx, hy]; exact h1.size k (by omega)
  · intro k hk
    rw [hx] at hk
    rw [hxm]
    exact ⟨fun _ => h3.size k hk, fun hc => absurd (h3.getD hk).1 (by omega)⟩
  · intro k hk
    rw [hy] at hk
    rw [hym]
    exact ⟨fun _ => h4.size k hk, fun hc => absurd (h4.getD hk).1 (by omega)⟩
  · intro k hk _; rw [hx, hy]; exact h2 trivial k hk
  · intro k hk; rw [hxm]; exact (h3.getD (by omega)).1
  · intro k hk; rw [hym]; exact (h4.getD (by omega)).1

/-- A derivative array with mapped axes that is not `Tensor(0)`. -/
theorem stack_of_num {v : Num α} (hp : NumPiece L v) (hs : NumSolid K L v) (hm : v.Mapped) (hl : v.Firm) :
    Stack (∀ k < L.n + L.d, K k) L.S (L.n + L.d) L.d L.a L.b (Chart L.n L.S L.a L.PX) (Chart L.n L.S L.b L.PY) v ∧
      ∀ i, v.dense i = v.read i.x i.y (joinAt L.n i.n i.d) := by
  cases v with
  | tensor t =>
    rcases hs with hs | hs
    · exact absurd hs hl
    · refine ⟨part_of_piece hs hm, fun i => ?_⟩
      have := Tensor.dense_read hs.1.wf i
      rw [hs.1.hn] at this
      exact this
  | generic g =>
    obtain ⟨p1, p2, p3, p4, p5, p6⟩ := hp
    have key : ∀ e ∈ g.elements, ∃ t, e = .inl t ∧ OnPiece K L t ∧ t.Mapped ∧ t.xDim ≤ g.xDim ∧ t.yDim ≤ g.yDim ∧ t.dim ≤ g.dim := by
      intro e he
      obtain ⟨t, rfl, a1, a2, a3, a4⟩ := p6 e he
      obtain ⟨t', e1, b⟩ := hs.2 _ he
      cases e1
      obtain ⟨t', e1, c⟩ := hm _ he
      cases e1
      obtain ⟨t', e1, d⟩ := hl _ he
      cases e1
      exact ⟨t, rfl, b.resolve_left d, c, a2, a3, a4⟩
    have hgd : g.dim = L.d := by
      obtain ⟨e, he⟩ := List.exists_mem_of_ne_nil _ p5
      obtain ⟨t, -, b, -, -, -, c⟩ := key e he
      have := b.2.1
      omega
    refine ⟨⟨p5, by omega, hgd, p1, p2, fun e he => ?_⟩, fun i => ?_⟩
    · obtain ⟨t, e1, b, c, a2, a3, -⟩ := key e he
      exact ⟨t, e1, part_of_piece b c, a2, a3⟩
    · show (g.elements.map fun e => elemDense e i).sum = readElems g.elements _ _ _
      unfold readElems
      congr 1
      refine List.map_congr_left fun e he => ?_
      obtain ⟨t, rfl, b, -⟩ := key e he
      have := Tensor.dense_read b.1.wf i
      rw [b.1.hn] at this
      exact this

/-- The converse. -/
theorem num_of_stack (hL : L.Ok) {v : Num α}
    (h : Stack True L.S (L.n + L.d) L.d L.a L.b (Chart L.n L.S L.a L.PX) (Chart L.n L.S L.b L.PY) v) :
    NumPiece L v ∧ NumSolid (fun _ => True) L v ∧ v.Mapped ∧ v.Firm := by
  cases v with
  | tensor t =>
    obtain ⟨h1, h2⟩ := piece_of_part h
    exact ⟨Or.inl h1.1, Or.inr h1, h2, h1.1.live hL⟩
  | generic g =>
    obtain ⟨p1, p2, p3, p4, p5, p6⟩ := h
    refine ⟨⟨p4, p5, by omega, Or.inr p3, p1, fun e he => ?_⟩, ⟨hL.some, fun e he => ?_⟩, fun e he => ?_, fun e he => ?_⟩
    · obtain ⟨t, e1, b, c, d⟩ := p6 e he
      obtain ⟨h1, h2⟩ := piece_of_part b
      exact ⟨t, e1, Or.inl h1.1, c, d, by rw [h1.2.1, p3]⟩
    · obtain ⟨t, e1, b, c, d⟩ := p6 e he
      exact ⟨t, e1, Or.inr (piece_of_part b).1⟩
    · obtain ⟨t, e1, b, c, d⟩ := p6 e he
      exact ⟨t, e1, (piece_of_part b).2⟩
    · obtain ⟨t, e1, b, c, d⟩ := p6 e he
      exact ⟨t, e1, (piece_of_part b).1.1.live hL⟩

/-! ### sums -/

theorem binPrim_empty (t : Tensor α) : (Generic.empty : Generic α).binPrim (.tensor t) .add = .ok ⟨t.xDim, t.yDim, t.n, t.dim, [.inl t]⟩ := by
  show (Except.ok (⟨max 0 t.xDim, max 0 t.yDim, max 0 t.n, max 0 t.dim, [.inl t]⟩ : Generic α) : Except Err _) = _
  simp only [Nat.zero_max]

/-- What is needed of a GenericTensor in the loops that add up the contractions. -/
def Acc (L : Layout) (I : Idx → Prop) (g : Generic α) (F : Idx → α) : Prop :=
  (g = Generic.empty ∧ ∀ i, I i → F i = 0) ∨ (GP L g ∧ g.elements ≠ [] ∧ OnElems (fun _ => True) L g.elements ∧ MappedElems g.elements ∧ ∀ i, I i → g.dense i = F i)

theorem Acc.congr {I : Idx → Prop} {g : Generic α} {F G : Idx → α} (h : Acc L I g F) (he : ∀ i, I i → F i = G i) : Acc L I g G := by
  rcases h with ⟨h1, h0⟩ | ⟨h1, h2, h3, h4, h5⟩
  · exact Or.inl ⟨h1, fun i hi => by rw [← he i hi]; exact h0 i hi⟩
  · exact Or.inr ⟨h1, h2, h3, h4, fun i hi => by rw [← he i hi]; exact h5 i hi⟩

theorem acc_add (hL : L.Ok) {I : Idx → Prop} {g : Generic α} {F : Idx → α} (h : Acc L I g F) {t : Tensor α} (ht : OnPiece (fun _ => True) L t) (hm : t.Mapped) :
    ∃ r, g.binPrim (.tensor t) .add = .ok r ∧ r.elements ≠ [] ∧ Acc L I r fun i => F i + t.dense i := by
  rcases h with ⟨rfl, h0⟩ | ⟨h1, h2, h3, h4, h5⟩
  · refine ⟨_, binPrim_empty t, by simp, Or.inr ⟨⟨ht.1.hx, ht.1.hy, ht.1.hn, ht.1.hd, ?_⟩, by simp, ?_, ?_, ?_⟩⟩
    · intro e he
      rw [List.mem_singleton.1 he]
      exact ⟨t, rfl, Or.inl ht.1, le_refl _, le_refl _, le_refl _⟩
    · intro e he
      rw [List.mem_singleton.1 he]
      exact ⟨t, rfl, ht⟩
    · intro e he
      rw [List.mem_singleton.1 he]
      exact ⟨t, rfl, hm⟩
    · intro i hi
      show ([elemDense (.inl t) i] : List α).sum = F i + t.dense i
      rw [h0 i hi, List.sum_singleton, zero_add]; rfl
  · obtain ⟨r, r1, r2, r3, -, -, r6, r7⟩ := gp_add hL h1 (Or.inl ht.1) (op := .add) trivial
    refine ⟨r, r1, r3, Or.inr ⟨r2, r3, r6 h3 ht, gp_add_mapped hL h1 h4 (Or.inl ht.1) hm r1, fun i hi => ?_⟩⟩
    rw [r7 i, h5 i hi]; rfl

theorem acc_binGeneric (hL : L.Ok) {I : Idx → Prop} {g h : Generic α} {F G : Idx → α} (hg : Acc L I g F) (hh : Acc L I h G) (hne : h.elements ≠ []) :
    ∃ r, g.binGeneric h .add = .ok r ∧ r.elements ≠ [] ∧ Acc L I r fun i => F i + G i := by
  rcases hh with ⟨rfl, -⟩ | ⟨h1, h2, h3, h4, h5⟩
  · exact absurd rfl hne
  have main : ∀ (es : List (Tensor α ⊕ NDArray α)) (g : Generic α) (F : Idx → α), OnElems (fun _ => True) L es → MappedElems es → Acc L I g F →
      ∃ r, g.foldBin .add es = .ok r ∧ (es ≠ [] → r.elements ≠ []) ∧ Acc L I r fun i => F i + sumDense es i := by
    intro es
    induction es with
    | nil =>
      intro g F _ _ hg
      refine ⟨g, rfl, fun h => absurd rfl h, ?_⟩
      have : (fun i => F i + sumDense ([] : List (Tensor α ⊕ NDArray α)) i) = F := by
        funext i; exact add_zero _
      rw [this]; exact hg
    | cons e es ih =>
      intro g F ho hm hg
      obtain ⟨t, rfl, ht⟩ := ho e List.mem_cons_self
      obtain ⟨t', e1, hmt⟩ := hm _ List.mem_cons_self
      cases e1
      obtain ⟨g', a1, a2, a3⟩ := acc_add hL hg ht hmt
      obtain ⟨r, r1, r2, r3⟩ := ih g' _ (fun e he => ho e (List.mem_cons_of_mem _ he)) (fun e he => hm e (List.mem_cons_of_mem _ he)) a3
      refine ⟨r, ?_, fun _ => ?_, ?_⟩
      · unfold Generic.foldBin
        have he : elemPrim (Sum.inl t : Tensor α ⊕ NDArray α) = .tensor t := rfl
        rw [he, a1]; exact r1
      · cases es with
        | nil => cases r1; exact a2
        | cons e es => exact r2 (by simp)
      · have : (fun i => F i + sumDense (.inl t :: es) i) = fun i => F i + t.dense i + sumDense es i := by
          funext i; rw [sumDense_cons, add_assoc]; rfl
        rw [this]; exact r3
  obtain ⟨r, r1, r2, r3⟩ := main h.elements g F h3 h4 hg
  refine ⟨r, r1, r2 h2, r3.congr fun i hi => ?_⟩
  rw [← h5 i hi]; rfl

/-! ### contractions of GenericTensors -/

/-- The positions in the axes of the problem. -/
def Layout.Within (L : Layout) (i : Idx) : Prop := (∀ k < L.n, i.n k < L.S k) ∧ ∀ k < L.d, i.d k < L.S (L.n + k)

theorem Layout.Within.join {i : Idx} (h : L.Within i) : ∀ j < L.n + L.d, joinAt L.n i.n i.d j < L.S j := by
  intro j hj
  by_cases c : j < L.n
  · rw [joinAt_lt c]; exact h.1 j c
  · rw [show j = L.n + (j - L.n) by omega, joinAt_ge]
    exact h.2 _ (by omega)

variable {q : Nat} {fl : Prop}

theorem elems_dotLeft (hL : L.Ok) (hq : 0 < q) (hnq : L.n ≤ q) (hql : q ≤ L.n + L.d) {o : Tensor α}
    (ho : Part fl L.S q 0 (Chart L.n L.S L.a L.PX) (· = []) o) :
    ∀ (es : List (Tensor α ⊕ NDArray α)) (g : Generic α) (F : Idx → α),
      (∀ e ∈ es, ∃ t, e = .inl t ∧ Part True L.S (L.n + L.d) L.d (· = idMap q) (Chart L.n L.S L.b L.PY) t) → Acc L L.Within g F →
      ∃ r, es.foldlM (fun (gt : Generic α) (e : Tensor α ⊕ NDArray α) => match e with
        | .inl t => do
          let r ← t.dotLeft o
          gt.binPrim (.tensor r) .add
        | .inr _ => .error .attribute) g = .ok r ∧ (es ≠ [] → r.elements ≠ []) ∧
        Acc L L.Within r fun i => F i + readElems es (joinAt L.n i.n i.d) i.y (joinAt L.n i.n i.d) * o.read i.x (fun _ => 0) (joinAt L.n i.n i.d)
  | [], g, F, _, hg => by
    refine ⟨g, rfl, fun h => absurd rfl h, hg.congr fun i _ => ?_⟩
    simp [readElems]
  | e :: es, g, F, he, hg => by
    obtain ⟨t, rfl, ht⟩ := he e List.mem_cons_self
    obtain ⟨s, s1, s2, s3, s4, s5⟩ := part_dotLeft hq hql ht (fun xm hx f hf => by have := hx.range f hf; omega) ho
    obtain ⟨p1, p2⟩ := piece_of_part s2
    obtain ⟨g', a1, a2, a3⟩ := acc_add hL hg p1 p2
    obtain ⟨r, r1, r2, r3⟩ := elems_dotLeft hL hq hnq hql ho es g' _ (fun e h => he e (List.mem_cons_of_mem _ h)) a3
    refine ⟨r, ?_, fun _ => ?_, r3.congr fun i hi => ?_⟩
    · rw [List.foldlM_cons]
      dsimp only
      rw [s1, ok_bind', a1, ok_bind']
      exact r1
    · cases es with
      | nil => cases r1; exact a2
      | cons e es => exact r2 (by simp)
    · rw [readElems_cons, Tensor.dense_read p1.1.wf i, p1.1.hn, s5 i.x i.y (fun _ => 0) _ hi.join]
      ring

/-- `v.dot_left(w)` where the `x` axes of `v` are mapped to its first axes -/
theorem stack_dotLeft (hL : L.Ok) (hq : 0 < q) (hnq : L.n ≤ q) (hql : q ≤ L.n + L.d) {v w : Num α}
    (hv : Stack True L.S (L.n + L.d) L.d q L.b (· = idMap q) (Chart L.n L.S L.b L.PY) v) {B' : Nat}
    (hw : Stack fl L.S q 0 L.a B' (Chart L.n L.S L.a L.PX) (· = []) w) :
    ∃ r, v.dotLeft w = .ok r ∧ Stack True L.S (L.n + L.d) L.d L.a L.b (Chart L.n L.S L.a L.PX) (Chart L.n L.S L.b L.PY) r ∧
      ∀ x y s, (∀ j < L.n + L.d, s j < L.S j) → r.read x y s = v.read s y s * w.read x (fun _ => 0) s := by
  have hX : ∀ xm, Chart L.n L.S L.a L.PX xm → ∀ f ∈ xm, 0 ≤ f ∧ f < q := fun xm hx f hf => by have := hx.range f hf; omega
  cases v with
  | tensor t =>
    have hy : t.yDim = 0 ∨ t.yDim = L.b := by
      obtain ⟨xm, ym, F, k1, -, k3⟩ := Part.sheet hv
      rw [k1.hy]; exact k3.len
    obtain ⟨r, r1, r2, -, r3⟩ := stack_dotLeftNum hq hql hv hy hX hw
    exact ⟨r, r1, r2, fun x y s hs => r3 x y _ s hs⟩
  | generic g =>
    obtain ⟨g1, g2, g3, g4, g5, g6⟩ := hv
    have hge : ∀ e ∈ g.elements, ∃ t, e = .inl t ∧ Part True L.S (L.n + L.d) L.d (· = idMap q) (Chart L.n L.S L.b L.PY) t :=
      fun e he => by obtain ⟨t, e1, e2, -⟩ := g6 e he; exact ⟨t, e1, e2⟩
    have fin : ∀ {r : Generic α} {G : Idx → α}, r.elements ≠ [] → Acc L L.Within r G → 
        Stack True L.S (L.n + L.d) L.d L.a L.b (Chart L.n L.S L.a L.PX) (Chart L.n L.S L.b L.PY) (.generic r) ∧
        ∀ x y s, (∀ j < L.n + L.d, s j < L.S j) → (Num.generic r).read x y s = G ⟨x, y, cut L.n s, fun k => s (L.n + k)⟩ := by
      intro r G hne h
      rcases h with ⟨rfl, -⟩ | ⟨h1, h2, h3, h4, h5⟩
      · exact absurd rfl hne
      · obtain ⟨k1, k2⟩ := stack_of_num (L := L) (K := fun _ => True) (v := .generic r) (h1.num h2) ⟨hL.some, fun e he => (h3 e he).imp fun t h => ⟨h.1, Or.inr h.2⟩⟩ h4
          fun e he => (h3 e he).imp fun t h => ⟨h.1, h.2.1.live hL⟩
        have k1' : Stack True L.S (L.n + L.d) L.d L.a L.b (Chart L.n L.S L.a L.PX) (Chart L.n L.S L.b L.PY) (.generic r) := by
          simpa using k1
        refine ⟨k1', fun x y s hs => ?_⟩
        rw [← h5 ⟨x, y, cut L.n s, fun k => s (L.n + k)⟩ ⟨fun k hk => by show cut L.n s k < _; rw [cut_of hk]; exact hs k (by omega), fun k hk => hs _ (by omega)⟩]
        have := k2 ⟨x, y, cut L.n s, fun k => s (L.n + k)⟩
        refine Eq.trans ?_ this.symm
        congr 1
        funext k
        unfold joinAt cut
        by_cases c : k < L.n
        · simp [c]
        · simp only [c, if_false]; congr 1; omega
    have hj : ∀ s : Nat → Nat, joinAt L.n (cut L.n s) (fun k => s (L.n + k)) = s := by
      intro s
      funext k
      unfold joinAt cut
      by_cases c : k < L.n
      · simp [c]
      · simp only [c, if_false]; congr 1; omega
    have one : ∀ o : Tensor α, Part fl L.S q 0 (Chart L.n L.S L.a L.PX) (· = []) o →
        ∃ r, g.dotLeftTensor o = .ok r ∧ r.elements ≠ [] ∧
        Acc L L.Within r fun i => readElems g.elements (joinAt L.n i.n i.d) i.y (joinAt L.n i.n i.d) * o.read i.x (fun _ => 0) (joinAt L.n i.n i.d) := by
      intro o ho
      obtain ⟨r, r1, r2, r3⟩ := elems_dotLeft hL hq hnq hql ho g.elements Generic.empty (fun _ => 0) hge (Or.inl ⟨rfl, fun _ _ => rfl⟩)
      exact ⟨r, r1, r2 g1, r3.congr fun i _ => zero_add _⟩
    cases w with
    | tensor o =>
      obtain ⟨r, r1, r2, r3⟩ := one o hw
      obtain ⟨k1, k2⟩ := fin r2 r3
      refine ⟨.generic r, ?_, k1, fun x y s hs => ?_⟩
      · show (g.dotLeftTensor o).map _ = _
        rw [r1]; rfl
      · rw [k2 x y s hs]
        dsimp only
        rw [hj]; rfl
    | generic h =>
      obtain ⟨h1, h2, h3, h4, h5, h6⟩ := hw
      have main : ∀ (es : List (Tensor α ⊕ NDArray α)) (a : Generic α) (F : Idx → α),
          (∀ e ∈ es, ∃ t, e = .inl t ∧ Part fl L.S q 0 (Chart L.n L.S L.a L.PX) (· = []) t) → Acc L L.Within a F →
          ∃ r, es.foldlM (fun (gt : Generic α) (e : Tensor α ⊕ NDArray α) => match e with
            | .inl o => do
              let r ← g.dotLeftTensor o
              gt.binGeneric r .add
            | .inr _ => .error .attribute) a = .ok r ∧ (es ≠ [] → r.elements ≠ []) ∧
            Acc L L.Within r fun i => F i + readElems g.elements (joinAt L.n i.n i.d) i.y (joinAt L.n i.n i.d) * readElems es i.x (fun _ => 0) (joinAt L.n i.n i.d) := by
        intro es
        induction es with
        | nil =>
          intro a F _ ha
          refine ⟨a, rfl, fun h => absurd rfl h, ha.congr fun i _ => ?_⟩
          simp [readElems]
        | cons e es ih =>
          intro a F he ha
          obtain ⟨o, rfl, ho⟩ := he e List.mem_cons_self
          obtain ⟨s, s1, s2, s3⟩ := one o ho
          obtain ⟨b, b1, b2, b3⟩ := acc_binGeneric hL ha s3 s2
          obtain ⟨r, r1, r2, r3⟩ := ih b _ (fun e h => he e (List.mem_cons_of_mem _ h)) b3
          refine ⟨r, ?_, fun _ => ?_, r3.congr fun i hi => ?_⟩
          · rw [List.foldlM_cons]
            dsimp only
            rw [s1, ok_bind', b1, ok_bind']
            exact r1
          · cases es with
            | nil => cases r1; exact b2
            | cons e es => exact r2 (by simp)
          · rw [readElems_cons]
            ring
      obtain ⟨r, r1, r2, r3⟩ := main h.elements Generic.empty (fun _ => 0) (fun e he => by obtain ⟨t, e1, e2, -⟩ := h6 e he; exact ⟨t, e1, e2⟩)
        (Or.inl ⟨rfl, fun _ _ => rfl⟩)
      obtain ⟨k1, k2⟩ := fin (r2 h1) r3
      refine ⟨.generic r, ?_, k1, fun x y s hs => ?_⟩
      · exact congrArg (Except.map Num.generic) r1
      · rw [k2 x y s hs]
        dsimp only
        rw [hj, zero_add]; rfl

end

end Verif.Tens
