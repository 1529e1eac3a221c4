import Verif.Lemmas.Cells
import Verif.Lemmas.Span
import Verif.Model.LikeTensor

/-!
# The blocks of the gradient and of the hessian
-/

set_option linter.unusedSectionVars false

namespace Verif.Tens
open Verif.Params (Err)
open NDArray

theorem mapM_list {β γ : Type} {f : β → Except Err γ} {g : β → γ} :
    ∀ {l : List β}, (∀ x ∈ l, f x = .ok (g x)) → l.mapM f = .ok (l.map g)
  | [], _ => rfl
  | x :: l, h => by
    rw [List.mapM_cons, h x List.mem_cons_self, mapM_list fun y hy => h y (List.mem_cons_of_mem _ hy)]
    rfl

theorem mapM_range {γ : Type} [Inhabited γ] {f : Nat → Except Err γ} {P : Nat → γ → Prop} {m : Nat}
    (h : ∀ i < m, ∃ y, f i = .ok y ∧ P i y) :
    ∃ g : Nat → γ, (List.range m).mapM f = .ok (row m g) ∧ ∀ i < m, P i (g i) := by
  classical
  choose! g hg using h
  exact ⟨g, mapM_list fun i hi => (hg i (List.mem_range.1 hi)).1, fun i hi => (hg i hi).2⟩

theorem pick_range {β : Type} {g : Nat → β} {m i : Nat} (h : i < m) : pick (row m g) i = .ok (g i) := by
  unfold pick row
  rw [List.getElem?_map, List.getElem?_range h]
  rfl

theorem pick2_range {β : Type} {g : Nat → Nat → β} {m i j : Nat} (h : i < m) (hj : j ≤ i) :
    pick2 (triangle m g) i j = .ok (g i j) := by
  unfold pick2 triangle
  rw [pick_range (g := fun i => row (i + 1) (g i)) h]
  exact pick_range (g := g i) (by omega)

instance {α : Type} [Zero α] : Inhabited (Num α) := ⟨.tensor (Tensor.const 0)⟩

variable {α : Type} [Field α] [DecidableEq α]

theorem blocks_ok {m : Nat} {f : Nat → Nat → Except Err (Num α)} {P : Nat → Nat → Num α → Prop}
    (h : ∀ i < m, ∀ j ≤ i, ∃ y, f i j = .ok y ∧ P i j y) :
    ∃ g : Nat → Nat → Num α, blocks m f = .ok (triangle m g) ∧
      ∀ i < m, ∀ j ≤ i, P i j (g i j) := by
  classical
  choose! g hg using h
  refine ⟨g, ?_, fun i hi j hj => (hg i hi j hj).2⟩
  unfold blocks triangle row
  refine mapM_list fun i hi => ?_
  refine mapM_list fun j hj => ?_
  exact (hg i (List.mem_range.1 hi) j (by have := List.mem_range.1 hj; omega)).1

/-! ### positions -/

theorem Tensor.dense_noX {t : Tensor α} (hw : t.WF) (h : t.xDim = 0) (x x' y n d : Nat → Nat) :
    t.dense ⟨x, y, n, d⟩ = t.dense ⟨x', y, n, d⟩ := by
  have e : t.xMap = [] := List.eq_nil_of_length_eq_zero (by have := hw.xLen; omega)
  unfold Tensor.dense
  rw [e]
  dsimp only
  refine if_congr (and_congr (iff_of_true (agrees_nil _ _) (agrees_nil _ _)) Iff.rfl) ?_ rfl
  apply bget_congr'
  intro k hk
  unfold Tensor.flat Tens.flat
  rw [h]
  dsimp only
  rw [if_neg (Nat.not_lt_zero _), if_neg (Nat.not_lt_zero _)]

theorem Tensor.dense_noY {t : Tensor α} (hw : t.WF) (h : t.yDim = 0) (x y y' n d : Nat → Nat) :
    t.dense ⟨x, y, n, d⟩ = t.dense ⟨x, y', n, d⟩ := by
  have e : t.yMap = [] := List.eq_nil_of_length_eq_zero (by have := hw.yLen; omega)
  unfold Tensor.dense
  rw [e]
  dsimp only
  refine if_congr (and_congr Iff.rfl (iff_of_true (agrees_nil _ _) (agrees_nil _ _))) ?_ rfl
  apply bget_congr'
  intro k hk
  unfold Tensor.flat Tens.flat
  rw [h]
  dsimp only
  by_cases c : k < t.xDim
  · rw [if_pos c, if_pos c]
  · rw [if_neg c, if_neg c, if_neg (show ¬ k < t.xDim + 0 by omega), if_neg (show ¬ k < t.xDim + 0 by omega)]

theorem num_dense_noY {L : Layout} {v : Num α} (h : NumPiece L v) (hy : v.yDim = 0) (x y y' n d : Nat → Nat) :
    v.dense ⟨x, y, n, d⟩ = v.dense ⟨x, y', n, d⟩ := by
  cases v with
  | tensor t => exact Tensor.dense_noY (Item.wf h) hy _ _ _ _ _
  | generic g =>
    obtain ⟨h1, h2, h3, h4, h5, h6⟩ := h
    show g.dense _ = g.dense _
    unfold Generic.dense
    congr 1
    apply List.map_congr_left
    intro e he
    obtain ⟨t, rfl, ht, -, hty, -⟩ := h6 e he
    have : g.yDim = 0 := hy
    exact Tensor.dense_noY ht.wf (by omega) _ _ _ _ _

/-- The values of a problem without parameters. -/
structure VFull (pr : Problem) (t : Tensor α) : Prop where
  full : FullPiece (pr.layout 0 0) t
  hx : t.xDim = 0
  hy : t.yDim = 0

theorem VFull.at {pr : Problem} {t : Tensor α} (h : VFull pr t) (x y : Nat → Nat) (c : pr.Cell) :
    t.dense (pr.at x y c) = pr.val (.tensor t) c := by
  unfold Problem.val Problem.at
  show _ = t.dense _
  rw [Tensor.dense_noX h.full.1.wf h.hx x (fun _ => 0), Tensor.dense_noY h.full.1.wf h.hy _ y (fun _ => 0)]

theorem VFull.piece {pr : Problem} {t : Tensor α} (h : VFull pr t) (p q : Nat) : FullPiece (pr.layout p q) t :=
  h.full.change rfl rfl rfl (Or.inl h.hx) (Or.inl h.hy)

theorem VFull.pieceY {pr : Problem} {t : Tensor α} (h : VFull pr t) (p q : Nat) : FullPiece (pr.layout p q).noY t :=
  h.full.change rfl rfl rfl (Or.inl h.hx) (Or.inl h.hy)

theorem Problem.Ok.layout {pr : Problem} (h : pr.Ok) (p q : Nat) : (pr.layout p q).Ok := ⟨h.2, h.1⟩

theorem Problem.Ok.layoutY {pr : Problem} (h : pr.Ok) (p q : Nat) : (pr.layout p q).noY.Ok := ⟨h.2, h.1⟩

theorem num_yDim {pr : Problem} {p q : Nat} {v : Num α} (h : NumPiece (pr.layout p q).noY v) : v.yDim = 0 := by
  cases v with
  | tensor t =>
    have := (Item.xDim h).2.1
    rcases this with h | h <;> exact h
  | generic g =>
    have := h.2.1
    rcases this with h | h <;> exact h

theorem num_xDim {L : Layout} {v : Num α} (h : NumPiece L v) : v.xDim = 0 ∨ v.xDim = L.a := by
  cases v with
  | tensor t => exact (Item.xDim h).1
  | generic g => exact h.1

theorem num_yDim' {L : Layout} {v : Num α} (h : NumPiece L v) : v.yDim = 0 ∨ v.yDim = L.b := by
  cases v with
  | tensor t => exact (Item.xDim h).2.1
  | generic g => exact h.2.1

/-! ### the sum over the cells -/

theorem sum_block [CharZero α] {pr : Problem} (hpr : pr.Ok) (e : Nat → Nat → Nat → Nat) {p q : Nat} {v : Num α}
    (h : NumPiece (pr.layout p q) v) (hf : NumFull (pr.layout p q) v) :
    ∃ r, v.sumAll = .ok r ∧ (pr.IsBlock e p q r fun a b => ∑ c, v.dense (pr.at (e p a) (e q b) c)) ∧
      (NumTall (pr.layout p q) v → pr.Whole2 p q r) := by
  obtain ⟨r, e1, e2, e3, e4, e5, e6, es, fx, fy, e7⟩ := num_sumAll (hpr.layout p q) h hf
  refine ⟨_, e1, ⟨r, rfl, e2, ?_, ?_, e5, e6, es, fun a b i hi hj hx hy => ?_⟩, fun ht => ?_⟩
  rotate_left 3
  · obtain ⟨d1, d2, d3, d4⟩ := numTall_dims h ht
    have c1 : r.xDim = pr.nd p := e3.trans d1
    have c2 : r.yDim = pr.nd q := e4.trans d2
    exact ⟨r, rfl, c1, c2, fun k hk => fx d3 k (by omega), fun k hk => by rw [← c1]; exact fy d4 k (by omega)⟩
  · rw [e3]; exact num_xDim h
  · rw [e4]; exact num_yDim' h
  · dsimp only
    rw [← hi] at hx ⊢
    rw [← hj] at hy ⊢
    rw [e7 i hx.1 hy.1]
    exact sumCells_eq pr p q i.x i.y v.dense

theorem sum_grad [CharZero α] {pr : Problem} (hpr : pr.Ok) (e : Nat → Nat → Nat → Nat) {p : Nat} {v : Num α}
    (h : NumPiece (pr.layout p p).noY v) (hf : NumFull (pr.layout p p).noY v) :
    ∃ r, v.sumAll = .ok r ∧ (pr.IsGrad e p r fun a => ∑ c, v.dense (pr.at (e p a) (fun _ => 0) c)) ∧
      (NumTall (pr.layout p p).noY v → pr.Whole p r) := by
  obtain ⟨r, e1, e2, e3, e4, e5, e6, es, fx, -, e7⟩ := num_sumAll (hpr.layoutY p p) h hf
  have hy := num_yDim h
  refine ⟨_, e1, ⟨r, rfl, e2, ?_, by rw [e4, hy], e5, e6, ⟨es.1, es.2.1, es.2.2.1⟩, fun a i hi hx => ?_⟩, fun ht => ?_⟩
  rotate_left 2
  · obtain ⟨d1, d2, d3, d4⟩ := numTall_dims h ht
    have c1 : r.xDim = pr.nd p := e3.trans d1
    exact ⟨r, rfl, c1, by rw [e4, hy], fun k hk => fx d3 k (by omega)⟩
  · rw [e3]; exact num_xDim h
  · dsimp only
    rw [← hi] at hx ⊢
    rw [e7 i hx.1 (fun k hk => absurd hk (Nat.not_lt_zero _))]
    refine Eq.trans ?_ (sumCells_eq pr p p i.x (fun _ => 0) v.dense)
    refine sumCells_congr fun n d _ _ => ?_
    exact num_dense_noY h hy _ _ _ _ _

theorem sum_number [CharZero α] {pr : Problem} (hpr : pr.Ok) {t : Tensor α} (h : VFull pr t) :
    ∃ r, (Num.tensor t).sumAll = .ok r ∧ IsNumber r (∑ c, pr.val (.tensor t) c) := by
  obtain ⟨r, e1, e2, e3, e4, e5, e6, -, -, -, e7⟩ := full_sumAll h.full
  have e3' : r.xDim = 0 := by rw [e3]; exact h.hx
  have e4' : r.yDim = 0 := by rw [e4]; exact h.hy
  have hnd : r.values.ndim = 0 := by rw [e2.nd]; omega
  refine ⟨_, e1, r, rfl, e2, hnd, ?_⟩
  refine Eq.trans ?_ (sumCells_eq pr 0 0 (fun _ => 0) (fun _ => 0) t.dense)
  rw [← Tensor.dense_zero e2 hnd ⟨fun _ => 0, fun _ => 0, fun _ => 0, fun _ => 0⟩]
  exact e7 _ (fun k hk => absurd hk (by rw [h.hx]; omega)) (fun k hk => absurd hk (by rw [h.hy]; omega))

theorem spans_any {a : Nat} {v : Num α} (h : v.Spans a) : NumAny (fun t => ¬ t.IsZero ∧ t.xDim = a) v := by
  cases v <;> exact h

theorem spans_tall {pr : Problem} {p : Nat} {v : Num α} (hv : pr.IsDer p v) (h : v.Spans (pr.nd p)) : NumTall (pr.layout p p).noY v := by
  have key : ∀ {t : Tensor α}, Item (pr.layout p p).noY t → ¬ t.IsZero ∧ t.xDim = pr.nd p → Tall (pr.layout p p).noY t := by
    rintro t ht ⟨h1, h2⟩
    have := ht.resolve_right h1
    exact ⟨this, h2, this.hy.elim id id⟩
  cases v with
  | tensor t => exact key hv h
  | generic g =>
    obtain ⟨t', h1, h2⟩ := h
    obtain ⟨t, e1, ht, -⟩ := hv.2.2.2.2.2 _ h1
    cases e1
    exact ⟨t', h1, key ht h2⟩

theorem spans_of_tall {L : Layout} (hL : L.Ok) {v : Num α} (h : NumTall L v) : v.Spans L.a := by
  cases v with
  | tensor t => exact ⟨fun hz => h.1.ne hL hz.2.1, h.2.1⟩
  | generic g =>
    obtain ⟨t, h1, h2⟩ := h
    exact ⟨t, h1, fun hz => h2.1.ne hL hz.2.1, h2.2.1⟩

theorem transpose_isZero {t : Tensor α} (hw : t.WF) (hy : t.yDim = 0) : t.transpose.IsZero ↔ t.IsZero := by
  obtain ⟨w1, -⟩ := C52_transpose_partial hw (Or.inr (Or.inl hy))
  rw [transpose_eq hy] at w1 ⊢
  exact ⟨fun h => ⟨hw, h.2⟩, fun h => ⟨w1, h.2⟩⟩

/-- A property of the Tensors of the transposed array. -/
theorem numAll_transpose {L : Layout} {P Q : Tensor α → Prop} {v : Num α} (hv : NumPiece L v) (hy : v.yDim = 0)
    (h : ∀ t, t.WF → t.yDim = 0 → P t → Q t.transpose) (hp : NumAll P v) : NumAll Q v.transpose := by
  cases v with
  | tensor t => exact h t (Item.wf hv) hy hp
  | generic g =>
    intro e he
    obtain ⟨e', he', rfl⟩ := List.mem_map.1 he
    obtain ⟨t, rfl, hi, -, e4, -⟩ := hv.2.2.2.2.2 e' he'
    obtain ⟨t', e1, e2⟩ := hp _ he'
    cases e1
    have : g.yDim = 0 := hy
    exact ⟨t.transpose, rfl, h t hi.wf (by omega) e2⟩

theorem spans_transpose {L : Layout} {a : Nat} {v : Num α} (hv : NumPiece L v) (hy : v.yDim = 0) (h : v.Spans a) :
    NumAny (fun t => ¬ t.IsZero ∧ t.yDim = a) v.transpose := by
  have key : ∀ {t : Tensor α}, t.WF → t.yDim = 0 → ¬ t.IsZero ∧ t.xDim = a → ¬ t.transpose.IsZero ∧ t.transpose.yDim = a := fun hw h0 ht =>
    ⟨fun hz => ht.1 ((transpose_isZero hw h0).1 hz), by rw [transpose_eq h0]; exact ht.2⟩
  cases v with
  | tensor t => exact key (Item.wf hv) hy h
  | generic g =>
    obtain ⟨t', h1, h2⟩ := h
    obtain ⟨t, e1, hi, -, e4, -⟩ := hv.2.2.2.2.2 _ h1
    cases e1
    have : g.yDim = 0 := hy
    exact ⟨t'.transpose, List.mem_map.2 ⟨_, h1, rfl⟩, key hi.wf (by omega) h2⟩

/-- `(d * delta).sum()` -/
theorem grad_block [CharZero α] {pr : Problem} (hpr : pr.Ok) (e : Nat → Nat → Nat → Nat) {p : Nat} {v : Num α}
    (h : pr.IsDer p v) {t : Tensor α} (ht : VFull pr t) :
    ∃ r, (do let s ← v.bin (.tensor t) .mul; s.sumAll : Except Err (Num α)) = .ok r ∧
      (pr.IsGrad e p r fun a => ∑ c, v.dense (pr.at (e p a) (fun _ => 0) c) * pr.val (.tensor t) c) ∧
      (v.Spans (pr.nd p) → pr.Whole p r) := by
  obtain ⟨s, e1, e2, -, -, e3, -, e4⟩ := num_mul (hpr.layoutY p p) h (w := .tensor t) (Or.inl (ht.pieceY p p).1)
    (Or.inr ht.hx) (Or.inr ht.hy)
  obtain ⟨r, r1, r2, r3⟩ := sum_grad hpr e e2 (e3 t rfl (ht.pieceY p p))
  refine ⟨r, by rw [e1]; exact r1, ?_, fun hs => r3 (tall_scale (hpr.layoutY p p) (Or.inl rfl) (ht.pieceY p p).1 ht.hx ht.hy (spans_tall h hs) e1)⟩
  have : (fun a => ∑ c, v.dense (pr.at (e p a) (fun _ => 0) c) * pr.val (.tensor t) c) =
      fun a => ∑ c, s.dense (pr.at (e p a) (fun _ => 0) c) := by
    funext a
    refine Finset.sum_congr rfl fun c _ => ?_
    rw [e4, ← ht.at (e p a) (fun _ => 0) c]
    rfl
  rw [this]
  exact r2

/-- `[(d * delta).sum() for d in der]` -/
theorem gradBlocks_ok [CharZero α] {pr : Problem} (hpr : pr.Ok) (e : Nat → Nat → Nat → Nat) {m : Nat} {der : Nat → Num α}
    (h : ∀ p < m, pr.IsDer p (der p)) {t : Tensor α} (ht : VFull pr t) :
    ∃ G : Nat → Num α, gradBlocks (row m der) (.tensor t) = .ok (row m G) ∧
      ∀ p < m, (pr.IsGrad e p (G p) fun a => ∑ c, pr.derOf e der p a c * pr.val (.tensor t) c) ∧
        ((der p).Spans (pr.nd p) → pr.Whole p (G p)) := by
  unfold gradBlocks
  conv => enter [1, G, 1, 1]; unfold row
  simp only [List.mapM_map]
  exact mapM_range fun p hp => grad_block hpr e (h p hp) ht

/-- `der[i] * der[j].transpose()` -/
theorem der_product {pr : Problem} (hpr : pr.Ok) {p q : Nat} {v w : Num α} (hv : pr.IsDer p v) (hw : pr.IsDer q w) :
    ∃ r, v.bin w.transpose .mul = .ok r ∧ NumPiece (pr.layout p q) r ∧
      (v.Spans (pr.nd p) → w.Spans (pr.nd q) → NumTall (pr.layout p q) r) ∧
      ∀ x y c, r.dense (pr.at x y c) = v.dense (pr.at x (fun _ => 0) c) * w.dense (pr.at y (fun _ => 0) c) := by
  have hv' : NumPiece (pr.layout p q) v := NumPiece.change hv rfl rfl rfl (Or.inr ⟨rfl, rfl⟩) (Or.inl (num_yDim hv))
  obtain ⟨t1, t2, t3, t4⟩ := num_transpose hw (num_yDim hw)
  have hw' : NumPiece (pr.layout p q) w.transpose := NumPiece.change t1 rfl rfl rfl (Or.inl t2) (Or.inr ⟨rfl, rfl⟩)
  obtain ⟨r, e1, e2, -, -, -, -, e4⟩ := num_mul (hpr.layout p q) hv' hw' (Or.inr t2) (Or.inl (num_yDim hv))
  refine ⟨r, e1, e2, fun s1 s2 => tall_mul (hpr.layout p q) hv' hw' (Or.inr t2) (Or.inl (num_yDim hv)) (spans_any s1) (spans_transpose hw (num_yDim hw) s2) e1, fun x y c => ?_⟩
  rw [e4, t4]
  exact congrArg₂ (· * ·) (num_dense_noY hv (num_yDim hv) _ _ _ _ _) (num_dense_noY hw (num_yDim hw) _ _ _ _ _)

/-- `(hess[i][j] * delta ∓ der[i] * der[j].transpose() * delta2).sum()` -/
theorem hessBlocks_ok [CharZero α] {pr : Problem} (hpr : pr.Ok) (e : Nat → Nat → Nat → Nat) {m : Nat} {der : Nat → Num α}
    {hess : Nat → Nat → Num α}
    (h : ∀ p < m, pr.IsDer p (der p)) (hh : ∀ p < m, ∀ q ≤ p, pr.IsHess p q (hess p q))
    {t t' : Tensor α} (ht : VFull pr t) (ht' : VFull pr t') {op : Op} (hop : op = .add ∨ op = .sub) :
    ∃ H : Nat → Nat → Num α,
      hessBlocks op (row m der) (triangle m hess) (.tensor t) (.tensor t') = .ok (triangle m H) ∧
      ∀ p < m, ∀ q ≤ p, (pr.IsBlock e p q (H p q) fun a b => ∑ c, op.app (pr.hessOf e hess p q a b c * pr.val (.tensor t) c)
        (pr.derOf e der p a c * pr.derOf e der q b c * pr.val (.tensor t') c)) ∧
        ((der p).Spans (pr.nd p) → (der q).Spans (pr.nd q) → pr.Whole2 p q (H p q)) := by
  unfold hessBlocks
  rw [show (row m der).length = m by simp [row]]
  refine blocks_ok (α := α) (P := fun p q v => (pr.IsBlock e p q v fun a b => ∑ c, op.app (pr.hessOf e hess p q a b c * pr.val (.tensor t) c)
        (pr.derOf e der p a c * pr.derOf e der q b c * pr.val (.tensor t') c)) ∧
        ((der p).Spans (pr.nd p) → (der q).Spans (pr.nd q) → pr.Whole2 p q v))
    fun p hp q hq => ?_
  rw [pick2_range hp hq, pick_range hp, pick_range (lt_of_le_of_lt hq hp)]
  obtain ⟨s1, a1, a2, -, -, a3, -, a4⟩ := num_mul (hpr.layout p q) (hh p hp q hq) (w := .tensor t)
    (Or.inl (ht.piece p q).1) (Or.inr ht.hx) (Or.inr ht.hy)
  obtain ⟨s2, b1, b2, bt, b3⟩ := der_product hpr (h p hp) (h q (lt_of_le_of_lt hq hp))
  obtain ⟨s3, c1, c2, -, -, c3, -, c4⟩ := num_mul (hpr.layout p q) b2 (w := .tensor t')
    (Or.inl (ht'.piece p q).1) (Or.inr ht'.hx) (Or.inr ht'.hy)
  obtain ⟨s, d1, d2, -, -, d3, d4⟩ := num_add (hpr.layout p q) a2 c2 hop
  obtain ⟨r, r1, r2, r3⟩ := sum_block hpr e d2 (d3 (a3 t rfl (ht.piece p q)) (c3 t' rfl (ht'.piece p q)))
  refine ⟨r, ?_, ?_, fun h1 h2 => r3 (tall_add (hpr.layout p q) hop a2 c2 (Or.inr
    (tall_scale (hpr.layout p q) (Or.inl rfl) (ht'.piece p q).1 ht'.hx ht'.hy (bt h1 h2) c1)) d1)⟩
  · show (do
      let t1 ← (hess p q).bin (.tensor t) .mul
      let t2 ← (der p).bin (der q).transpose .mul
      let t3 ← t2.bin (.tensor t') .mul
      let s ← t1.bin t3 op
      s.sumAll : Except Err (Num α)) = _
    rw [a1, b1]
    show (do
      let t3 ← s2.bin (.tensor t') .mul
      let s ← s1.bin t3 op
      s.sumAll : Except Err (Num α)) = _
    rw [c1]
    show (do
      let s ← s1.bin s3 op
      s.sumAll : Except Err (Num α)) = _
    rw [d1]
    exact r1
  · have e' : (fun a b => ∑ c, op.app (pr.hessOf e hess p q a b c * pr.val (.tensor t) c)
        (pr.derOf e der p a c * pr.derOf e der q b c * pr.val (.tensor t') c)) =
        fun a b => ∑ c, s.dense (pr.at (e p a) (e q b) c) := by
      funext a b
      refine Finset.sum_congr rfl fun c _ => ?_
      rw [d4, a4, c4, b3, ← ht.at (e p a) (e q b) c, ← ht'.at (e p a) (e q b) c]
      rfl
    rw [e']
    exact r2

end Verif.Tens
