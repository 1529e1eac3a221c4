import Verif.Lemmas.ArrMul
import Verif.Model.ProductTensor

/-!
# One step of `Product.eval`, in terms of arrays with flags
-/

set_option linter.unusedSectionVars false

namespace Verif.Tens
open Verif.Params (Err)
open NDArray

section
variable {α : Type} [Field α] [DecidableEq α]

/-! ### change of layout, transposition -/

theorem numAll_of {L : Layout} {P Q : Tensor α → Prop} {v : Num α} (hv : NumPiece L v)
    (h : ∀ t, t.xDim ≤ v.xDim → t.yDim ≤ v.yDim → P t → Q t) (hp : NumAll P v) : NumAll Q v := by
  cases v with
  | tensor t => exact h t le_rfl le_rfl hp
  | generic g =>
    intro e he
    obtain ⟨t, rfl, -, e3, e4, -⟩ := hv.2.2.2.2.2 e he
    obtain ⟨t', e1, e2⟩ := hp _ he
    cases e1
    exact ⟨t, rfl, h t e3 e4 e2⟩

theorem OnItem.change {L L' : Layout} {K : Nat → Prop} {t : Tensor α} (h : OnItem K L t) (hn : L'.n = L.n) (hd : L'.d = L.d) (hS : L'.S = L.S)
    (hx : t.xDim = 0 ∨ (L'.a = L.a ∧ L'.PX = L.PX)) (hy : t.yDim = 0 ∨ (L'.b = L.b ∧ L'.PY = L.PY)) : OnItem K L' t := by
  refine h.imp id fun h => ⟨h.1.change hn hd hS hx hy, ?_⟩
  have := h.2
  unfold Tensor.FullOn at this ⊢
  rw [hn, hd, hS]
  exact this

theorem Arr.change {L L' : Layout} {f : Flags} {v : Num α} (h : Arr L f v) (hn : L'.n = L.n) (hd : L'.d = L.d) (hS : L'.S = L.S)
    (hx : v.xDim = 0 ∨ (L'.a = L.a ∧ L'.PX = L.PX)) (hy : v.yDim = 0 ∨ (L'.b = L.b ∧ L'.PY = L.PY)) : Arr L' f v := by
  have key : ∀ {K : Nat → Prop}, NumAll (OnItem K L) v → NumAll (OnItem K L') v := fun hk =>
    numAll_of h.piece (fun t t1 t2 ht => ht.change hn hd hS (hx.imp (fun h => by omega) id) (hy.imp (fun h => by omega) id)) hk
  exact ⟨h.piece.change hn hd hS hx hy, key h.base, fun k hk => key (h.on k hk), h.mapped, h.live, h.clean, h.single, h.dead⟩

theorem OnItem.transpose {L : Layout} {K : Nat → Prop} {t : Tensor α} (h : OnItem K L t) (hy : t.yDim = 0) : OnItem K L.flip t.transpose := by
  rcases h with h | h
  · exact Or.inl ((transpose_isZero h.1 hy).2 h)
  · refine Or.inr ⟨h.1.transpose hy, ?_, fun k hk hK => ?_⟩
    · rw [transpose_eq hy]; exact h.2.1
    · have := h.2.2 k hk hK
      rw [transpose_eq hy]
      rw [hy] at this
      dsimp only
      rw [Nat.zero_add]
      exact this

theorem Arr.transpose {L : Layout} {f : Flags} {v : Num α} (h : Arr L f v) (hy : v.yDim = 0) : Arr L.flip f v.transpose := by
  refine ⟨(num_transpose h.piece hy).1, numAll_transpose h.piece hy (fun t hw h0 ht => ht.transpose h0) h.base,
    fun k hk => numAll_transpose h.piece hy (fun t hw h0 ht => ht.transpose h0) (h.on k hk), fun hm => ?_, fun hl => ?_, fun hc => ?_,
    fun hs => ?_, fun hd => ?_⟩
  · refine num_mapped_iff.2 (numAll_transpose h.piece hy (fun t hw h0 ht => ?_) (num_mapped_iff.1 (h.mapped hm)))
    rw [transpose_eq h0]
    exact ⟨fun k hk => absurd hk (Nat.not_lt_zero k), ht.1⟩
  · have := h.live hl
    cases v with
    | tensor t => exact fun hz => this ((transpose_isZero (Item.wf h.piece) hy).1 hz)
    | generic g => trivial
  · have := h.clean hc
    cases v with
    | tensor t => trivial
    | generic g =>
      exact numAll_transpose (v := .generic g) (P := fun t => ¬ t.IsZero) (Q := fun t => ¬ t.IsZero) h.piece hy
        (fun t hw h0 ht hz => ht ((transpose_isZero hw h0).1 hz)) this
  · have := h.single hs
    cases v with
    | tensor t => trivial
    | generic g => exact this.elim
  · have := h.dead hd
    cases v with
    | tensor t => exact (transpose_isZero (Item.wf h.piece) hy).2 this
    | generic g => exact this.elim

/-! ### 1 and 0 -/

theorem mulAll_one {L : Layout} {X Y D : Nat} {es : List (Tensor α ⊕ NDArray α)} (h : Elems L X Y D es) : mulAll (.scalar 1) .mul es = .ok es := by
  induction es with
  | nil => rfl
  | cons e es ih =>
    obtain ⟨t, rfl, -⟩ := h e List.mem_cons_self
    have he : elemBin (.inl t) (.scalar 1) .mul = .ok (.tensor t) := by
      show (match t.binScalar 1 .mul with | .error e => .error e | .ok r => .ok (.tensor r) : Except Err (Num α)) = _
      have : t.binScalar 1 .mul = .ok t := by simp [Tensor.binScalar]
      rw [this]
    unfold mulAll
    rw [he, ih fun e he => h e (List.mem_cons_of_mem _ he)]

/-- `1 * v` -/
theorem one_mul' {L : Layout} {v : Num α} (h : NumPiece L v) : Py.mul (.num 1) (.arr v) = .ok (.arr v) := by
  show (v.scalarOp .mul 1).map Py.arr = _
  cases v with
  | tensor t =>
    have : t.binScalar 1 .mul = .ok t := by simp [Tensor.binScalar]
    unfold Num.scalarOp
    dsimp only
    rw [this]
    rfl
  | generic g =>
    have : g.binPrim (.scalar 1) .mul = .ok g := by
      unfold Generic.binPrim
      simp only [mulAll_one (X := g.xDim) (Y := g.yDim) (D := g.dim) h.2.2.2.2.2, Generic.dims]
    unfold Num.scalarOp
    dsimp only
    rw [this]
    rfl

/-- `Tensor(0)` -/
def zeroF : Flags := ⟨fun _ => True, True, False, True, True, True, True, False⟩

theorem arr_zero {L : Layout} : Arr (α := α) L zeroF (.tensor (Tensor.const 0)) :=
  ⟨Or.inr Tensor.isZero_const, Or.inl Tensor.isZero_const, fun _ _ => Or.inl Tensor.isZero_const, fun _ => Tensor.mapped_const 0,
    fun h => h.elim, fun _ => trivial, fun _ => trivial, fun _ => Tensor.isZero_const⟩

theorem py_mul {v w r : Num α} (h : v.bin w .mul = .ok r) : Py.mul (.arr v) (.arr w) = .ok (.arr r) := by
  show (v.bin w .mul).map Py.arr = _
  rw [h]; rfl

theorem py_add {v w r : Num α} (h : v.bin w .add = .ok r) : Py.add (.arr v) (.arr w) = .ok (.arr r) := by
  show (v.bin w .add).map Py.arr = _
  rw [h]; rfl

end

/-! ### values and derivatives -/

section
variable {pr : Problem} {m : Nat} {N : Numbering pr m}

/-- Arrays for the values, the derivatives and the second derivatives. -/
structure Parts (pr : Problem) (m : Nat) (fv : Flags) (fd : Nat → Flags) (fh : Nat → Nat → Flags) (V : Tensor ℝ) (D : Nat → Num ℝ)
    (H : Nat → Nat → Num ℝ) : Prop where
  vx : V.xDim = 0
  vy : V.yDim = 0
  v : Arr (pr.layout 0 0) fv (.tensor V)
  d : ∀ p < m, Arr (pr.layout p p).noY (fd p) (D p)
  h : ∀ p < m, ∀ q ≤ p, Arr (pr.layout p q) (fh p q) (H p q)
  w : ∀ p < m, (fd p).wide → (D p).Wide (pr.nd p)
  t : ∀ p < m, (fd p).span → (D p).Spans (pr.nd p)

/-- Their entries. -/
structure ReadsAs (pr : Problem) {m : Nat} (N : Numbering pr m) (θ : Theta) (val : Val) (der : Der) (hess : Hes) (V : Tensor ℝ) (D : Nat → Num ℝ)
    (H : Nat → Nat → Num ℝ) : Prop where
  v : ∀ n d, pr.Pos n d → ∀ x y, V.dense ⟨x, y, n, d⟩ = val θ n d
  d : ∀ p < m, ∀ a, pr.Entry p (N.e p a) → ∀ n d, pr.Pos n d → ∀ y, (D p).dense ⟨N.e p a, y, n, d⟩ = der θ p a n d
  h : ∀ p < m, ∀ q ≤ p, ∀ a b, pr.Entry p (N.e p a) → pr.Entry q (N.e q b) → ∀ n d, pr.Pos n d →
    (H p q).dense ⟨N.e p a, N.e q b, n, d⟩ = hess θ p q a b n d

def valF (K : Nat → Prop) (s : Store) : Flags := ⟨fun k => K k ∨ s.tot ∧ s.full k, True, s.tot, True, True, False, False, False⟩

def derF (K : Nat → Prop) (s : Store) (p : Nat) : Flags := ⟨K, s.mapped, s.used p, s.clean, s.single p, s.dead p, s.clean, s.used p⟩

def hesF (K : Nat → Prop) (s : Store) (p q : Nat) : Flags := ⟨K, s.mapped, s.curved p q, s.clean, False, False, False, False⟩

theorem solid_numAll {K : Nat → Prop} {L : Layout} {v : Num ℝ} (h : Solid K L v) {K' : Nat → Prop} (hK : ∀ k, K' k → K k) :
    NumAll (OnItem K' L) v := (solid_iff.1 h).all.mono fun _ ht => onItem_mono ht hK

theorem values_parts (hpr : pr.Ok) {K : Nat → Prop} {s : Store} {θ : Theta} {val : Val} {der : Der} {hess : Hes} {V : Tensor ℝ} {D : Nat → Num ℝ}
    {H : Nat → Nat → Num ℝ} (h : Values pr N K θ val der hess V D H) (hs : Stored pr m s V D H) :
    Parts pr m (valF K s) (derF K s) (hesF K s) V D H ∧ ReadsAs pr N θ val der hess V D H := by
  refine ⟨⟨h.vx, h.vy, ⟨OnItem.item (solid_iff.1 h.vs), solid_numAll h.vs (fun _ h => h.elim), fun k hk => ?_, fun _ => Tensor.mapped_novars h.vx h.vy,
      fun ht => (hs.tot ht).1.live (hpr.layout 0 0), fun _ => trivial, fun _ => trivial, fun h => h.elim⟩, fun p hp => ?_, fun p hp q hq => ?_,
      fun p hp hc => hs.wide hc p hp, fun p hp hu => hs.live p hp hu⟩, ⟨h.v, h.d, h.h⟩⟩
  · rcases hk with hk | ⟨ht, hk⟩
    · exact solid_numAll h.vs fun j hj => by rw [hj]; exact hk
    · obtain ⟨t1, t2, t3⟩ := hs.tot ht
      exact Or.inr ⟨t1, t2, fun j hj hjk => t3 j hj (by rw [hjk]; exact hk)⟩
  · exact ⟨h.dp p hp, solid_numAll (h.ds p hp) (fun _ h => h.elim), fun k hk => solid_numAll (h.ds p hp) fun j hj => by rw [hj]; exact hk,
      fun x => hs.mapD x p hp, fun x => (hs.live p hp x).live, fun x => hs.cleanD x p hp, hs.single p hp, hs.dead p hp⟩
  · exact ⟨h.hp p hp q hq, solid_numAll (h.hs p hp q hq) (fun _ h => h.elim),
      fun k hk => solid_numAll (h.hs p hp q hq) fun j hj => by rw [hj]; exact hk,
      fun x => hs.mapH x p hp q hq, hs.liveH p hp q hq, fun x => hs.cleanH x p hp q hq, fun h => h.elim, fun h => h.elim⟩

theorem parts_values (hpr : pr.Ok) {K : Nat → Prop} {s : Store} {θ : Theta} {val : Val} {der : Der} {hess : Hes} {V : Tensor ℝ} {D : Nat → Num ℝ}
    {H : Nat → Nat → Num ℝ} (h : Parts pr m (valF K s) (derF K s) (hesF K s) V D H) (hr : ReadsAs pr N θ val der hess V D H) :
    Values pr N K θ val der hess V D H ∧ Stored pr m s V D H := by
  refine ⟨⟨h.vx, h.vy, solid_iff.2 (h.v.solid (hpr.layout 0 0) fun k hk => Or.inl hk), hr.v, fun p hp => (h.d p hp).piece,
    fun p hp => solid_iff.2 ((h.d p hp).solid ⟨hpr.2, hpr.1⟩ fun k hk => hk), hr.d, fun p hp q hq => (h.h p hp q hq).piece,
    fun p hp q hq => solid_iff.2 ((h.h p hp q hq).solid (hpr.layout p q) fun k hk => hk), hr.h⟩, fun ht => ?_,
    fun x p hp => (h.d p hp).mapped x, fun x p hp q hq => (h.h p hp q hq).mapped x, fun p hp x => h.t p hp x,
    fun x p hp => (h.d p hp).clean x, fun x p hp q hq => (h.h p hp q hq).clean x, fun p hp x => (h.d p hp).single x, fun p hp x => (h.d p hp).dead x,
    fun p hp q hq x => (h.h p hp q hq).live x, fun x p hp => h.w p hp x⟩
  have hsol : OnItem s.full (pr.layout 0 0) V := h.v.solid (hpr.layout 0 0) fun k hk => Or.inr ⟨ht, hk⟩
  exact hsol.resolve_left (h.v.live ht)

/-- The values as an array of another layout. -/
theorem Parts.val {fv : Flags} {fd : Nat → Flags} {fh : Nat → Nat → Flags} {V : Tensor ℝ} {D : Nat → Num ℝ} {H : Nat → Nat → Num ℝ}
    (h : Parts pr m fv fd fh V D H) (p q : Nat) : Arr (pr.layout p q) fv (.tensor V) ∧ Arr (pr.layout p q).noY fv (.tensor V) :=
  ⟨h.v.change rfl rfl rfl (Or.inl h.vx) (Or.inl h.vy), h.v.change rfl rfl rfl (Or.inl h.vx) (Or.inl h.vy)⟩

/-- A derivative with respect to the first parameter, and the transposed derivative with respect to the second one. -/
theorem der_first {p : Nat} {f : Flags} {v : Num ℝ} (h : Arr (pr.layout p p).noY f v) (q : Nat) : Arr (pr.layout p q) f v :=
  h.change rfl rfl rfl (Or.inr ⟨rfl, rfl⟩) (Or.inl (num_yDim h.piece))

theorem der_second {q : Nat} {f : Flags} {w : Num ℝ} (h : Arr (pr.layout q q).noY f w) (p : Nat) :
    Arr (pr.layout p q) f w.transpose ∧ w.transpose.xDim = 0 ∧ ∀ i, w.transpose.dense i = w.dense i.swap := by
  obtain ⟨-, t2, -, t4⟩ := num_transpose h.piece (num_yDim h.piece)
  exact ⟨(h.transpose (num_yDim h.piece)).change rfl rfl rfl (Or.inl t2) (Or.inr ⟨rfl, rfl⟩), t2, t4⟩

/-- `v * w.transpose()` for derivatives. -/
theorem der_mul (hpr : pr.Ok) {p q : Nat} {f g : Flags} {v w : Num ℝ} (hv : Arr (pr.layout p p).noY f v) (hw : Arr (pr.layout q q).noY g w) :
    ∃ r, Py.mul (.arr v) (.arr w.transpose) = .ok (.arr r) ∧ Arr (pr.layout p q) (f.times g) r ∧
      ∀ i, r.dense i = v.dense i * w.dense i.swap := by
  obtain ⟨w1, w2, w3⟩ := der_second hw p
  obtain ⟨r, r1, r2, -, -, r5⟩ := (der_first hv q).mul (hpr.layout p q) w1 (Or.inr w2) (Or.inl (num_yDim hv.piece))
  exact ⟨r, py_mul r1, r2, fun i => by rw [r5, w3]⟩

/-- One step of the loop of `eval`: flags and entries of the result. -/
theorem prod_step (hpr : pr.Ok) {fv gv : Flags} {fd gd : Nat → Flags} {fh gh : Nat → Nat → Flags} {V V2 : Tensor ℝ} {D D2 : Nat → Num ℝ}
    {H H2 : Nat → Nat → Num ℝ} (h : Parts pr m fv fd fh V D H) (h2 : Parts pr m gv gd gh V2 D2 H2) {θ : Theta} {val val2 : Val} {der der2 : Der}
    {hess hess2 : Hes} (hr : ReadsAs pr N θ val der hess V D H) (hr2 : ReadsAs pr N θ val2 der2 hess2 V2 D2 H2) :
    ∃ V' D' H', Py.mul (.arr (.tensor V)) (.arr (.tensor V2)) = .ok (.arr (.tensor V')) ∧
      (∀ p < m, prodGradEntry ⟨.arr (.tensor V), row m fun p => .arr (D p), triangle m fun p q => .arr (H p q)⟩
        ⟨.arr (.tensor V2), row m fun p => .arr (D2 p), triangle m fun p q => .arr (H2 p q)⟩ p = .ok (.arr (D' p))) ∧
      (∀ p < m, ∀ q ≤ p, prodHessEntry ⟨.arr (.tensor V), row m fun p => .arr (D p), triangle m fun p q => .arr (H p q)⟩
        ⟨.arr (.tensor V2), row m fun p => .arr (D2 p), triangle m fun p q => .arr (H2 p q)⟩ p q = .ok (.arr (H' p q))) ∧
      Parts pr m (fv.times gv) (fun p => (fv.times (gd p)).plus (gv.times (fd p)))
        (fun p q => (((fv.times (gh p q)).plus (gv.times (fh p q))).plus ((fd p).times (gd q))).plus ((gd p).times (fd q))) V' D' H' ∧
      ReadsAs pr N θ (fun θ n d => val θ n d * val2 θ n d)
        (fun θ p a n d => val θ n d * der2 θ p a n d + val2 θ n d * der θ p a n d)
        (fun θ p q a b n d => val θ n d * hess2 θ p q a b n d + val2 θ n d * hess θ p q a b n d + der θ p a n d * der2 θ q b n d +
          der2 θ p a n d * der θ q b n d) V' D' H' := by
  obtain ⟨s, v1, v2, v3, v4, v5⟩ := h.v.mul (hpr.layout 0 0) h2.v (Or.inl h.vx) (Or.inl h.vy)
  have hV : ∃ V', s = .tensor V' := by
    obtain ⟨s', e1, -⟩ := item_mul (hpr.layout 0 0) h.v.piece h2.v.piece (Or.inl h.vx) (Or.inl h.vy)
    have e : (Num.tensor V).bin (.tensor V2) .mul = V.binTensor V2 .mul := rfl
    rw [e] at v1
    rw [e1] at v1
    cases v1
    exact ⟨s', rfl⟩
  obtain ⟨V', rfl⟩ := hV
  have hD : ∀ p < m, ∃ r, prodGradEntry ⟨.arr (.tensor V), row m fun p => .arr (D p), triangle m fun p q => .arr (H p q)⟩
        ⟨.arr (.tensor V2), row m fun p => .arr (D2 p), triangle m fun p q => .arr (H2 p q)⟩ p = .ok (.arr r) ∧
      Arr (pr.layout p p).noY ((fv.times (gd p)).plus (gv.times (fd p))) r ∧
      (((fv.times (gd p)).plus (gv.times (fd p))).wide → r.Wide (pr.nd p)) ∧
      (((fv.times (gd p)).plus (gv.times (fd p))).span → r.Spans (pr.nd p)) ∧ ∀ i, r.dense i = V.dense i * (D2 p).dense i + V2.dense i * (D p).dense i := by
    intro p hp
    have hL : (pr.layout p p).noY.Ok := ⟨hpr.2, hpr.1⟩
    obtain ⟨x, x1, x2, -, -, x5⟩ := (h.val p p).2.mul hL (h2.d p hp) (Or.inl h.vx) (Or.inl h.vy)
    obtain ⟨y, y1, y2, -, -, y5⟩ := (h2.val p p).2.mul hL (h.d p hp) (Or.inl h2.vx) (Or.inl h2.vy)
    obtain ⟨z, z1, z2, z3⟩ := x2.add hL y2
    refine ⟨z, ?_, z2, fun hw => ?_, fun ht => ?_, fun i => by rw [z3, x5, y5]; rfl⟩
    rotate_left
    · exact wide_bin hL x2.piece y2.piece
        (wide_mul hL (h.val p p).2.piece h.vx h.vy (h2.d p hp).piece (h2.w p hp hw.1.1) ((h2.d p hp).clean hw.1.2) x1)
        (wide_mul hL (h2.val p p).2.piece h2.vx h2.vy (h.d p hp).piece (h.w p hp hw.2.1) ((h.d p hp).clean hw.2.2) y1) z1
    · refine spans_of_tall hL (tall_add hL (Or.inl rfl) x2.piece y2.piece (ht.imp (fun hu => ?_) fun hu => ?_) z1)
      · exact tall_times hL ((h.val p p).2.piece.resolve_right ((h.val p p).2.live hu.1)) h.vx h.vy (spans_tall (h2.d p hp).piece (h2.t p hp hu.2)) x1
      · exact tall_times hL ((h2.val p p).2.piece.resolve_right ((h2.val p p).2.live hu.1)) h2.vx h2.vy (spans_tall (h.d p hp).piece (h.t p hp hu.2)) y1
    unfold prodGradEntry
    dsimp only
    rw [pick_range hp, ok_bind', py_mul x1, ok_bind', pick_range hp, ok_bind', py_mul y1, ok_bind', py_add z1]
  have hH : ∀ p < m, ∀ q ≤ p, ∃ r, prodHessEntry ⟨.arr (.tensor V), row m fun p => .arr (D p), triangle m fun p q => .arr (H p q)⟩
        ⟨.arr (.tensor V2), row m fun p => .arr (D2 p), triangle m fun p q => .arr (H2 p q)⟩ p q = .ok (.arr r) ∧
      Arr (pr.layout p q) ((((fv.times (gh p q)).plus (gv.times (fh p q))).plus ((fd p).times (gd q))).plus ((gd p).times (fd q))) r ∧
      ∀ i, r.dense i = V.dense i * (H2 p q).dense i + V2.dense i * (H p q).dense i + (D p).dense i * (D2 q).dense i.swap +
        (D2 p).dense i * (D q).dense i.swap := by
    intro p hp q hq
    have hL := hpr.layout p q
    have hq' : q < m := by omega
    obtain ⟨x, x1, x2, -, -, x5⟩ := (h.val p q).1.mul hL (h2.h p hp q hq) (Or.inl h.vx) (Or.inl h.vy)
    obtain ⟨y, y1, y2, -, -, y5⟩ := (h2.val p q).1.mul hL (h.h p hp q hq) (Or.inl h2.vx) (Or.inl h2.vy)
    obtain ⟨z, z1, z2, z3⟩ := x2.add hL y2
    obtain ⟨a, a1, a2, a3⟩ := der_mul hpr (h.d p hp) (h2.d q hq')
    obtain ⟨b, b1, b2, b3⟩ := z2.add hL a2
    obtain ⟨c, c1, c2, c3⟩ := der_mul hpr (h2.d p hp) (h.d q hq')
    obtain ⟨e, e1, e2, e3⟩ := b2.add hL c2
    refine ⟨e, ?_, e2, fun i => by rw [e3, b3, z3, x5, y5, a3, c3]; rfl⟩
    unfold prodHessEntry
    dsimp only
    have t1 : Py.transpose (.arr (D2 q)) = .ok (.arr (D2 q).transpose) := rfl
    have t2 : Py.transpose (.arr (D q)) = .ok (.arr (D q).transpose) := rfl
    rw [pick2_range hp hq, ok_bind', py_mul x1, ok_bind', pick2_range hp hq, ok_bind', py_mul y1, ok_bind', py_add z1, ok_bind',
      pick_range hp, ok_bind', pick_range hq', ok_bind', t1, ok_bind', a1, ok_bind', py_add b1, ok_bind',
      pick_range hp, ok_bind', pick_range hq', ok_bind', t2, ok_bind', c1, ok_bind', py_add e1]
  choose! D' d1 d2 d4 d5 d3 using hD
  choose! H' k1 k2 k3 using hH
  have vx' : V'.xDim = 0 := by
    have : V'.xDim ≤ max V.xDim V2.xDim := v3
    have := h.vx
    have := h2.vx
    omega
  have vy' : V'.yDim = 0 := by
    have : V'.yDim ≤ max V.yDim V2.yDim := v4
    have := h.vy
    have := h2.vy
    omega
  refine ⟨V', D', H', py_mul v1, d1, k1, ⟨vx', vy', v2, d2, k2, d4, d5⟩, ⟨fun n d hnd x y => ?_, fun p hp a ha n d hnd y => ?_, fun p hp q hq a b ha hb n d hnd => ?_⟩⟩
  · have : V'.dense ⟨x, y, n, d⟩ = V.dense ⟨x, y, n, d⟩ * V2.dense ⟨x, y, n, d⟩ := v5 _
    rw [this, hr.v n d hnd, hr2.v n d hnd]
  · rw [d3 p hp, hr.v n d hnd, hr2.v n d hnd, hr.d p hp a ha n d hnd, hr2.d p hp a ha n d hnd]
  · have hq' : q < m := by omega
    rw [k3 p hp q hq, hr.v n d hnd, hr2.v n d hnd, hr.d p hp a ha n d hnd, hr2.d p hp a ha n d hnd, hr.h p hp q hq a b ha hb n d hnd,
      hr2.h p hp q hq a b ha hb n d hnd]
    have e1 : (D2 q).dense (Idx.swap ⟨N.e p a, N.e q b, n, d⟩) = der2 θ q b n d := hr2.d q hq' b hb n d hnd _
    have e2 : (D q).dense (Idx.swap ⟨N.e p a, N.e q b, n, d⟩) = der θ q b n d := hr.d q hq' b hb n d hnd _
    rw [e1, e2]

end

end Verif.Tens
