import Verif.Props.TensorGenericSumDim
import Verif.Props.TensorExpand

/-!
# C61: structural operations of GenericTensors
-/

set_option linter.unusedSectionVars false

namespace Verif.Tens
open Verif.Params (Err)
open NDArray

variable {α : Type} [Field α] [DecidableEq α]

/-- The entry does not depend on the positions of unmapped axes of size 1. -/
theorem Tensor.dense_congr_bcast {t : Tensor α} (hw : t.WF) {i j : Idx} (hx : i.x = j.x) (hy : i.y = j.y)
    (hn : ∀ f : Nat, f < t.n → i.n f = j.n f ∨ (t.values.shape (t.xDim + t.yDim + f) = 1 ∧ (f : Int) ∉ t.xMap ∧
      (f : Int) ∉ t.yMap))
    (hd : ∀ k < t.dim, i.d k = j.d k ∨ t.values.shape (t.xDim + t.yDim + t.n + k) = 1) :
    t.dense i = t.dense j := by
  have hnd := hw.nd
  unfold Tensor.dense
  rw [hx, hy]
  refine if_congr (and_congr (agrees_congr ?_) (agrees_congr ?_)) ?_ rfl
  · intro f hf
    rcases hn f (by have := hw.xRange _ hf; omega) with h | ⟨-, h, -⟩
    · exact h
    · exact absurd hf h
  · intro f hf
    rcases hn f (by have := hw.yRange _ hf; omega) with h | ⟨-, -, h⟩
    · exact h
    · exact absurd hf h
  · apply bget_congr
    intro k hk hk1
    by_cases c1 : k < t.xDim
    · rw [t.flat_x _ c1, t.flat_x _ c1, hx]
    · by_cases c2 : k < t.xDim + t.yDim
      · obtain ⟨k, rfl⟩ : ∃ m, k = t.xDim + m := ⟨k - t.xDim, by omega⟩
        rw [t.flat_y _ (by omega), t.flat_y _ (by omega), hy]
      · by_cases c3 : k < t.xDim + t.yDim + t.n
        · obtain ⟨k, rfl⟩ : ∃ m, k = t.xDim + t.yDim + m := ⟨k - t.xDim - t.yDim, by omega⟩
          rw [t.flat_n _ (by omega), t.flat_n _ (by omega)]
          rcases hn k (by omega) with h | ⟨h, -⟩
          · exact h
          · exact absurd h hk1
        · obtain ⟨k, rfl⟩ : ∃ m, k = t.xDim + t.yDim + t.n + m := ⟨k - t.xDim - t.yDim - t.n, by omega⟩
          rw [t.flat_d, t.flat_d]
          rcases hd k (by omega) with h | h
          · exact h
          · exact absurd h hk1

/-- The elementwise application of a method that succeeds on all elements. -/
theorem mapElems_ok {f : Tensor α → Except Err (Tensor α)} {es : List (Tensor α ⊕ NDArray α)}
    (Q : Tensor α → Tensor α → Prop) (h : ∀ e ∈ es, ∃ t, e = .inl t ∧ ∃ r, f t = .ok r ∧ Q t r) :
    ∃ l, mapElems f es = .ok l ∧ List.Forall₂ (fun e e' => ∃ t r, e = .inl t ∧ e' = .inl r ∧ Q t r) es l := by
  induction es with
  | nil => exact ⟨[], rfl, .nil⟩
  | cons e es ih =>
    obtain ⟨t, rfl, r, hr, hq⟩ := h e List.mem_cons_self
    obtain ⟨l, hl, hf⟩ := ih fun e he => h e (List.mem_cons_of_mem _ he)
    exact ⟨.inl r :: l, by simp only [mapElems, hr, hl], .cons ⟨t, r, rfl, rfl, hq⟩ hf⟩

theorem forall2_right {A B : Type} {P : A → B → Prop} {Q : B → Prop} {l : List A} {l' : List B}
    (h : List.Forall₂ P l l') (hq : ∀ a b, P a b → Q b) : ∀ b ∈ l', Q b := by
  induction h with
  | nil => intro b hb; cases hb
  | cons h _ ih =>
    intro b hb
    rcases List.mem_cons.1 hb with rfl | hb
    · exact hq _ _ h
    · exact ih b hb

theorem forall2_sum {A B : Type} {P : A → B → Prop} {f : A → α} {g : B → α} {l : List A} {l' : List B}
    (h : List.Forall₂ P l l') (hq : ∀ a b, P a b → g b = f a) : (l'.map g).sum = (l.map f).sum := by
  induction h with
  | nil => rfl
  | cons h _ ih => rw [List.map_cons, List.map_cons, List.sum_cons, List.sum_cons, hq _ _ h, ih]

/-- **C61.** `g.expand(where, newsize)`: value axis `k` of every element becomes value axis `where[k]`; the result
represents the array expanded in the same way. -/
theorem C61_expand_values {g : Generic α} {wher : List Nat} (hn : wher.Nodup) {newsize : Nat}
    (hlt : ∀ w ∈ wher, w < newsize)
    (hg : ∀ e ∈ g.elements, ∃ t, e = .inl t ∧ t.WF ∧ t.n = wher.length) :
    ∃ r, g.expand wher newsize false = .ok r ∧ r.xDim = g.xDim ∧ r.yDim = g.yDim ∧ r.n = newsize ∧ r.dim = g.dim ∧
      (∀ e ∈ r.elements, ∃ t, e = .inl t ∧ t.WF) ∧
      ∀ i : Idx, r.dense i = g.dense { i with n := fun k => i.n (wher.getD k 0) } := by
  obtain ⟨l, hl, hf⟩ := mapElems_ok (f := fun t => t.expand wher newsize false) (es := g.elements)
    (fun t r => r.WF ∧ ∀ i : Idx, r.dense i = t.dense { i with n := fun k => i.n (wher.getD k 0) }) (by
      intro e he
      obtain ⟨t, rfl, hw, h1⟩ := hg e he
      obtain ⟨r, r1, r2, -, r3⟩ := C53_expand_values hw hn hlt h1.symm
      exact ⟨t, rfl, r, r1, r2, r3⟩)
  refine ⟨⟨g.xDim, g.yDim, newsize, g.dim, l⟩, by unfold Generic.expand; rw [hl]; rfl, rfl, rfl, rfl, rfl, ?_, ?_⟩
  · exact forall2_right hf fun a b ⟨t, r, _, h2, h3, _⟩ => ⟨r, h2, h3⟩
  · intro i
    refine forall2_sum hf ?_
    rintro a b ⟨t, r, rfl, rfl, -, h⟩
    exact h i

/-- **C61.** `g.expand(where, newsize, dim=True)`: the same for the `dim` axes. -/
theorem C61_expand_dim {g : Generic α} {wher : List Nat} (hn : wher.Nodup) {newsize : Nat}
    (hlt : ∀ w ∈ wher, w < newsize)
    (hg : ∀ e ∈ g.elements, ∃ t, e = .inl t ∧ t.WF ∧ t.dim = wher.length) :
    ∃ r, g.expand wher newsize true = .ok r ∧ r.xDim = g.xDim ∧ r.yDim = g.yDim ∧ r.n = g.n ∧ r.dim = newsize ∧
      (∀ e ∈ r.elements, ∃ t, e = .inl t ∧ t.WF) ∧
      ∀ i : Idx, r.dense i = g.dense { i with d := fun k => i.d (wher.getD k 0) } := by
  obtain ⟨l, hl, hf⟩ := mapElems_ok (f := fun t => t.expand wher newsize true) (es := g.elements)
    (fun t r => r.WF ∧ ∀ i : Idx, r.dense i = t.dense { i with d := fun k => i.d (wher.getD k 0) }) (by
      intro e he
      obtain ⟨t, rfl, hw, h1⟩ := hg e he
      obtain ⟨r, r1, r2, -, r3⟩ := C53_expand_dim hw hn hlt h1.symm
      exact ⟨t, rfl, r, r1, r2, r3⟩)
  refine ⟨⟨g.xDim, g.yDim, g.n, newsize, l⟩, by unfold Generic.expand; rw [hl]; rfl, rfl, rfl, rfl, rfl, ?_, ?_⟩
  · exact forall2_right hf fun a b ⟨t, r, _, h2, h3, _⟩ => ⟨r, h2, h3⟩
  · intro i
    refine forall2_sum hf ?_
    rintro a b ⟨t, r, rfl, rfl, -, h⟩
    exact h i

/-- The position read by `g.flip(where, dim)`: the listed axes of the represented array are reversed. -/
def Generic.flipIdx (g : Generic α) (wher : List Nat) (dim : Bool) (i : Idx) : Idx :=
  if dim then { i with d := flipPos wher (fun k => g.size (g.n + k)) i.d }
  else { i with n := flipPos wher g.size i.n }

/-- **C61.** `g.flip(where, dim)` of axes that carry no map reverses these axes of the represented array; elements
that broadcast an axis are not affected. -/
theorem C61_flip {g : Generic α} {wher : List Nat} (hn : wher.Nodup) (dim : Bool)
    (hk : ∀ k ∈ wher, k < if dim then g.dim else g.n)
    (hg : ∀ e ∈ g.elements, ∃ t, e = .inl t ∧ t.WF ∧ t.n = g.n ∧ t.dim = g.dim ∧
      (dim = false → ∀ k ∈ wher, (k : Int) ∉ t.xMap ∧ (k : Int) ∉ t.yMap) ∧
      ∀ k < g.n + g.dim, t.values.shape (t.xDim + t.yDim + k) = g.size k ∨
        t.values.shape (t.xDim + t.yDim + k) = 1) :
    ∃ r, g.flip wher dim = .ok r ∧ r.xDim = g.xDim ∧ r.yDim = g.yDim ∧ r.n = g.n ∧ r.dim = g.dim ∧
      (∀ e ∈ r.elements, ∃ t, e = .inl t ∧ t.WF) ∧ ∀ i : Idx, r.dense i = g.dense (g.flipIdx wher dim i) := by
  obtain ⟨l, hl, hf⟩ := mapElems_ok (f := fun t => t.flip wher dim) (es := g.elements)
    (fun t r => r.WF ∧ ∀ i : Idx, r.dense i = t.dense (g.flipIdx wher dim i)) (by
      intro e he
      obtain ⟨t, rfl, hw, e1, e2, hm, hs⟩ := hg e he
      have hk' : ∀ k ∈ wher, k < if dim then t.dim else t.n := by rw [e1, e2]; exact hk
      obtain ⟨r, hr⟩ := (C54_refuses_mapped hw dim hk').2 (by
        rintro ⟨h0, k, hkw, h | h⟩
        · exact (hm h0 k hkw).1 h
        · exact (hm h0 k hkw).2 h)
      obtain ⟨r1, -, -, -, -, -, r2⟩ := C54_flip hw hn dim hk' hr
      refine ⟨t, rfl, r, hr, r1, fun i => ?_⟩
      rw [r2]
      cases dim with
      | true =>
        refine t.dense_congr_bcast hw rfl rfl (fun f _ => Or.inl rfl) fun k hkd => ?_
        unfold Tens.flipIdx Generic.flipIdx
        rw [if_pos rfl, if_pos rfl]
        dsimp only
        unfold flipPos
        by_cases hkw : k ∈ wher
        · rw [if_pos hkw, if_pos hkw]
          have := hs (g.n + k) (by omega)
          rw [← e1, ← Nat.add_assoc] at this
          rcases this with h | h
          · left; dsimp only; rw [h, e1]
          · exact Or.inr h
        · rw [if_neg hkw, if_neg hkw]; exact Or.inl rfl
      | false =>
        refine t.dense_congr_bcast hw rfl rfl (fun f hf => ?_) fun k _ => Or.inl rfl
        unfold Tens.flipIdx Generic.flipIdx
        rw [if_neg (by decide), if_neg (by decide)]
        dsimp only
        unfold flipPos
        by_cases hkw : f ∈ wher
        · rw [if_pos hkw, if_pos hkw]
          rcases hs f (by omega) with h | h
          · left; dsimp only; rw [h]
          · exact Or.inr ⟨h, (hm rfl f hkw).1, (hm rfl f hkw).2⟩
        · rw [if_neg hkw, if_neg hkw]; exact Or.inl rfl)
  refine ⟨⟨g.xDim, g.yDim, g.n, g.dim, l⟩, by unfold Generic.flip; rw [hl], rfl, rfl, rfl, rfl, ?_, ?_⟩
  · exact forall2_right hf fun a b ⟨t, r, _, h2, h3, _⟩ => ⟨r, h2, h3⟩
  · intro i
    refine forall2_sum hf ?_
    rintro a b ⟨t, r, rfl, rfl, -, h⟩
    exact h i

/-- **C61.** `g.flip(where)` refuses (NotImplementedError) if some element has a map on a listed value axis. -/
theorem C61_flip_refuses_mapped {g : Generic α} {wher : List Nat} (hk : ∀ k ∈ wher, k < g.n)
    (hg : ∀ e ∈ g.elements, ∃ t, e = .inl t ∧ t.WF ∧ t.n = g.n) {t : Tensor α} (ht : .inl t ∈ g.elements) {k : Nat}
    (hkw : k ∈ wher) (hm : (k : Int) ∈ t.xMap ∨ (k : Int) ∈ t.yMap) :
    g.flip wher false = .error .notImplemented := by
  have key : ∀ es : List (Tensor α ⊕ NDArray α), (∀ e ∈ es, ∃ t, e = .inl t ∧ t.WF ∧ t.n = g.n) → .inl t ∈ es →
      mapElems (fun t => t.flip wher false) es = .error .notImplemented := by
    intro es
    induction es with
    | nil => intro _ h; cases h
    | cons e es ih =>
      intro h1 h2
      obtain ⟨u, rfl, hw, e1⟩ := h1 e List.mem_cons_self
      have hk' : ∀ k ∈ wher, k < if false then u.dim else u.n := by rw [e1]; exact hk
      have hr := C54_refuses_mapped hw false hk'
      by_cases hc : ∃ k ∈ wher, (k : Int) ∈ u.xMap ∨ (k : Int) ∈ u.yMap
      · simp only [mapElems, hr.1.1 ⟨rfl, hc⟩]
      · obtain ⟨r, hr⟩ := hr.2 fun h => hc h.2
        rcases List.mem_cons.1 h2 with h2 | h2
        · cases h2
          exact absurd ⟨k, hkw, hm⟩ hc
        · simp only [mapElems, hr, ih (fun e he => h1 e (List.mem_cons_of_mem _ he)) h2]
  unfold Generic.flip
  rw [key _ hg ht]

/-- **C61 (partial).** `g.transpose()` exchanges the `x` and `y` axes of the represented array if every element
has no `x` axis, no `y` axis, or one of each.  Missing: more axes, where `Tensor.transpose` is wrong
(`C52_transpose_counterexample`). -/
theorem C61_transpose_partial {g : Generic α}
    (hg : ∀ e ∈ g.elements, ∃ t, e = .inl t ∧ t.WF ∧ (t.xDim = 0 ∨ t.yDim = 0 ∨ (t.xDim = 1 ∧ t.yDim = 1))) :
    g.transpose.xDim = g.yDim ∧ g.transpose.yDim = g.xDim ∧ g.transpose.n = g.n ∧ g.transpose.dim = g.dim ∧
      (∀ e ∈ g.transpose.elements, ∃ t, e = .inl t ∧ t.WF) ∧ ∀ i, g.transpose.dense i = g.dense i.swap := by
  refine ⟨rfl, rfl, rfl, rfl, ?_, fun i => ?_⟩
  · intro e he
    obtain ⟨e, he', rfl⟩ := List.mem_map.1 he
    obtain ⟨t, rfl, hw, hd⟩ := hg e he'
    exact ⟨_, rfl, (C52_transpose_partial hw hd).1⟩
  · unfold Generic.dense Generic.transpose
    dsimp only
    rw [List.map_map]
    congr 1
    apply List.map_congr_left
    intro e he
    obtain ⟨t, rfl, hw, hd⟩ := hg e he
    exact (C52_transpose_partial hw hd).2.2.2.2.2 i

/-- **C61.** `g.drop_dim()`: the `dim` axes of the represented array become its last value axes, if every element
has all the value axes. -/
theorem C61_drop_dim {g : Generic α} (hg : ∀ e ∈ g.elements, ∃ t, e = .inl t ∧ t.WF ∧ t.n = g.n) :
    ∃ r, g.dropDim = .ok r ∧ r.xDim = g.xDim ∧ r.yDim = g.yDim ∧ r.n = g.n + g.dim ∧ r.dim = 0 ∧
      (∀ e ∈ r.elements, ∃ t, e = .inl t ∧ t.WF ∧ t.dim = 0) ∧
      ∀ i j : Idx, i.x = j.x → i.y = j.y → (∀ k < g.n, i.n k = j.n k) → (∀ k, i.n (g.n + k) = j.d k) →
        r.dense i = g.dense j := by
  obtain ⟨l, hl, hf⟩ := mapElems_ok (f := fun t => .ok t.dropDim) (es := g.elements)
    (fun t r => (r.WF ∧ r.dim = 0) ∧ ∀ i j : Idx, i.x = j.x → i.y = j.y → (∀ k < g.n, i.n k = j.n k) →
      (∀ k, i.n (g.n + k) = j.d k) → r.dense i = t.dense j) (by
      intro e he
      obtain ⟨t, rfl, hw, e1⟩ := hg e he
      obtain ⟨h1, -, h2, h3⟩ := C60_drop_dim hw
      refine ⟨t, rfl, _, rfl, ⟨h1, h2⟩, fun i j hx hy hn hd => h3 i j hx hy ?_ ?_⟩
      · rw [e1]; exact hn
      · rw [e1]; exact hd)
  refine ⟨⟨g.xDim, g.yDim, g.n + g.dim, 0, l⟩, by unfold Generic.dropDim; rw [hl], rfl, rfl, rfl, rfl, ?_, ?_⟩
  · exact forall2_right hf fun a b ⟨t, r, _, h2, ⟨h3, h4⟩, _⟩ => ⟨r, h2, h3, h4⟩
  · intro i j hx hy hn hd
    refine forall2_sum hf ?_
    rintro a b ⟨t, r, rfl, rfl, -, h⟩
    exact h i j hx hy hn hd

/-- **C61, counterexample.** For an element with a `dim` axis and no value axes, `drop_dim()` makes the `dim` axis
the first value axis: the result does not represent the array of `g`. -/
theorem C61_drop_dim_counterexample : ∃ (t o : Tensor ℚ) (g r : Generic ℚ) (i j : Idx), t.WF ∧ o.WF ∧
    t.binTensor o .add = .ok (.generic g) ∧ g.dropDim = .ok r ∧ i.x = j.x ∧ i.y = j.y ∧
    (∀ k < g.n, i.n k = j.n k) ∧ (∀ k, i.n (g.n + k) = j.d k) ∧ r.dense i ≠ g.dense j := by
  have w1 : (⟨⟨3, fun k => if k = 0 then 1 else 2, fun _ => 0⟩, 1, 0, 1, [0], []⟩ : Tensor ℚ).WF :=
    ⟨by decide, by decide, by decide, by decide, by decide, by decide, by decide⟩
  have w2 : (⟨⟨2, fun _ => 2, fun idx => idx 1⟩, 1, 0, 1, [], []⟩ : Tensor ℚ).WF := Tensor.wf_nomap (by decide)
  refine ⟨_, _, _, _, ⟨fun _ => 0, fun _ => 0, fun k => if k = 0 then 0 else 1, fun _ => 0⟩,
    ⟨fun _ => 0, fun _ => 0, fun _ => 0, fun _ => 1⟩, w1, w2, rfl, rfl, rfl, rfl, ?_, ?_, ?_⟩
  · intro k hk
    have hk : k < 1 := hk
    obtain rfl : k = 0 := by omega
    rfl
  · intro k
    show (if 1 + k = 0 then 0 else 1) = 1
    rw [if_neg (by omega)]
  · show (0 : ℚ) + (((0 : ℕ) : ℚ) + 0) ≠ 0 + (((1 : ℕ) : ℚ) + 0)
    norm_num

/-- The hypotheses of `C61_flip`, `C61_transpose_partial`, `C61_drop_dim` and `C61_expand_values` are met by a sum
of a diagonal Tensor with two value axes and a Tensor that broadcasts one of them; the flipped axis carries no
map. -/
example : ∃ (t o : Tensor ℚ) (g : Generic ℚ), t.binTensor o .add = .ok (.generic g) ∧ g.n = 2 ∧ g.size 1 = 3 ∧
    ∀ e ∈ g.elements, ∃ t, e = .inl t ∧ t.WF ∧ t.n = g.n ∧ t.dim = g.dim ∧
      (∀ k ∈ [1], ((k : Nat) : Int) ∉ t.xMap ∧ (k : Int) ∉ t.yMap) ∧
      (∀ k < g.n + g.dim, t.values.shape (t.xDim + t.yDim + k) = g.size k ∨
        t.values.shape (t.xDim + t.yDim + k) = 1) ∧
      (t.xDim = 0 ∨ t.yDim = 0 ∨ (t.xDim = 1 ∧ t.yDim = 1)) ∧ t.n = [2, 0].length := by
  have w1 : (⟨⟨3, fun k => if k = 0 then 1 else if k = 1 then 2 else 3, fun _ => 5⟩, 1, 0, 0, [0], []⟩ :
      Tensor ℚ).WF := ⟨by decide, by decide, by decide, by decide, by decide, by decide, by decide⟩
  have w2 : (⟨⟨3, fun k => if k = 2 then 1 else 2, fun _ => 7⟩, 1, 0, 0, [], []⟩ : Tensor ℚ).WF :=
    Tensor.wf_nomap (by decide)
  refine ⟨⟨⟨3, fun k => if k = 0 then 1 else if k = 1 then 2 else 3, fun _ => 5⟩, 1, 0, 0, [0], []⟩,
    ⟨⟨3, fun k => if k = 2 then 1 else 2, fun _ => 7⟩, 1, 0, 0, [], []⟩, _, rfl, rfl, rfl, ?_⟩
  intro e he
  rcases List.mem_cons.1 he with rfl | he
  · exact ⟨_, rfl, w1, rfl, rfl, by decide, by decide, Or.inr (Or.inl rfl), rfl⟩
  · rw [List.mem_singleton.1 he]
    exact ⟨_, rfl, w2, rfl, rfl, by decide, by decide, Or.inr (Or.inl rfl), rfl⟩

end Verif.Tens
