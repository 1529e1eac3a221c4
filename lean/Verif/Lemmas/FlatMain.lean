import Verif.Lemmas.FlatLoops

/-!
# `flat_grad` and `flat_hess` on Tensors
-/

set_option linter.unusedSectionVars false

namespace Verif.Tens
open Verif.Params
open NDArray

theorem py_zero_mul (T : Tensor ℝ) : Py.mul (.num 0) (.arr (.tensor T)) = .ok (.arr (.tensor (Tensor.const 0))) := by
  show (Num.scalarOp (.tensor T) .mul 0).map Py.arr = _
  unfold Num.scalarOp Tensor.binScalar
  simp only [reduceCtorEq, or_self, and_false, if_false, or_false, and_self, if_true]
  rfl

theorem py_add_zero (t : Tensor ℝ) : Py.add (.arr (.tensor t)) (.arr (.tensor (Tensor.const 0))) = .ok (.arr (.tensor t)) := by
  show (Num.bin (.tensor t) (.tensor (Tensor.const 0)) .add).map Py.arr = _
  unfold Num.bin Tensor.binTensor
  dsimp only
  rw [if_pos (show (Tensor.const (0 : ℝ)).values.ndim = 0 from rfl)]
  unfold Tensor.binScalar
  rw [if_pos ⟨rfl, Or.inl rfl⟩]
  rfl

section
variable {pr : Problem} {m : Nat} {θ : Theta} {params : List (Param ℝ)}

theorem isGrad_plain {e : Nat → Nat → Nat → Nat} {p : Nat} {F : Nat → ℝ} {r : Tensor ℝ} (h : pr.IsGrad e p (.tensor r) F) :
    Plain (pr.nd p) 0 (pr.P p) (fun _ => 1) r ∧ ∀ a i, i.x = e p a → pr.Entry p (e p a) → r.dense i = F a := by
  obtain ⟨r', h0, h1, h2, h3, h4, h5, ⟨h6, h7, h8⟩, h9⟩ := h
  obtain rfl : r = r' := by injection h0
  exact ⟨⟨h1, h2, Or.inl h3, h4, h5, h6, h7, h8, fun k hk => by omega⟩, h9⟩

theorem isGrad_sub {e : Nat → Nat → Nat → Nat} {p : Nat} {F F' : Nat → ℝ} {v w : Num ℝ} (h : pr.IsGrad e p v F) (h' : pr.IsGrad e p w F') :
    ∃ r, Py.sub (.arr v) (.arr w) = .ok (.arr r) ∧ pr.IsGrad e p r (fun a => F a - F' a) ∧ (pr.Whole p v → pr.Whole p r) := by
  obtain ⟨r1, rfl, -⟩ := id h
  obtain ⟨r2, rfl, -⟩ := id h'
  obtain ⟨h1, h2⟩ := isGrad_plain h
  obtain ⟨h1', h2'⟩ := isGrad_plain h'
  obtain ⟨r, e1, e2, e3, e4⟩ := plain_sub h1 h1'
  refine ⟨.tensor r, ?_, ⟨r, rfl, e2.wf, e2.hx, ?_, e2.hn, e2.hd, ⟨e2.mx, e2.my, e2.sx⟩, fun a i hi ha => ?_⟩, ?_⟩
  · show (Num.bin (.tensor r1) (.tensor r2) .sub).map Py.arr = _
    unfold Num.bin
    dsimp only
    rw [e1]; rfl
  · exact e2.hy.elim id id
  · rw [e3, h2 a i hi ha, h2' a i hi ha]
  · rintro ⟨s, hs, s1, s2, s3⟩
    obtain rfl : r1 = s := by injection hs
    obtain ⟨a1, a2, a3, -⟩ := e4 (Or.inl ⟨s1, s2, s3, fun k hk => absurd hk (Nat.not_lt_zero k)⟩)
    exact ⟨r, rfl, a1, a2, a3⟩

theorem isBlock_plain {e : Nat → Nat → Nat → Nat} {p q : Nat} {F : Nat → Nat → ℝ} {r : Tensor ℝ} (h : pr.IsBlock e p q (.tensor r) F) :
    Plain (pr.nd p) (pr.nd q) (pr.P p) (pr.P q) r ∧
      ∀ a b i, i.x = e p a → i.y = e q b → pr.Entry p (e p a) → pr.Entry q (e q b) → r.dense i = F a b := by
  obtain ⟨r', h0, h1, h2, h3, h4, h5, ⟨h6, h7, h8, h8'⟩, h9⟩ := h
  obtain rfl : r = r' := by injection h0
  exact ⟨⟨h1, h2, h3, h4, h5, h6, h7, h8, h8'⟩, h9⟩

theorem isBlock_sub {e : Nat → Nat → Nat → Nat} {p q : Nat} {F F' : Nat → Nat → ℝ} {v w : Num ℝ} (h : pr.IsBlock e p q v F)
    (h' : pr.IsBlock e p q w F') :
    ∃ r, Py.sub (.arr v) (.arr w) = .ok (.arr r) ∧ pr.IsBlock e p q r (fun a b => F a b - F' a b) ∧
      (pr.Whole2 p q v → pr.Whole2 p q r) := by
  obtain ⟨r1, rfl, -⟩ := id h
  obtain ⟨r2, rfl, -⟩ := id h'
  obtain ⟨h1, h2⟩ := isBlock_plain h
  obtain ⟨h1', h2'⟩ := isBlock_plain h'
  obtain ⟨r, e1, e2, e3, e4⟩ := plain_sub h1 h1'
  refine ⟨.tensor r, ?_, ⟨r, rfl, e2.wf, e2.hx, e2.hy, e2.hn, e2.hd, ⟨e2.mx, e2.my, e2.sx, e2.sy⟩, fun a b i hi hj ha hb => ?_⟩, ?_⟩
  · show (Num.bin (.tensor r1) (.tensor r2) .sub).map Py.arr = _
    unfold Num.bin
    dsimp only
    rw [e1]; rfl
  · rw [e3, h2 a b i hi hj ha hb, h2' a b i hi hj ha hb]
  · rintro ⟨s, hs, s1, s2, s3, s4⟩
    obtain rfl : r1 = s := by injection hs
    obtain ⟨a1, a2, a3, a4⟩ := e4 (Or.inl ⟨s1, s2, s3, s4⟩)
    exact ⟨r, rfl, a1, a2, a3, a4⟩

/-! ### the loops -/

theorem residual_isVal {v : Py ℝ} {c : ℝ} (h : v.IsVal c) : residual v = .ok [c] := by
  rcases h with rfl | ⟨w, rfl, r, rfl, -, h0, hc⟩
  · rfl
  · unfold residual
    dsimp only
    rw [if_pos h0, hc]

theorem gradCons_ok (hat : AtPoint pr m θ params) : ∀ {cs : List (TTerm ℝ)} {gs : List Con},
    List.Forall₂ (fun t g => IsConstraint (cOrder pr m) t g.val g.der) cs gs → ∀ R : Nat → Tensor ℝ,
    gradCons (params.map paramTensor) cs (row m fun p => .arr (.tensor (R p))) =
      .ok (row m fun p => .arr (.tensor (R p)), gs.map fun g => [g.val θ])
  | [], _, .nil, R => rfl
  | t :: ts, _, .cons (b := g) (l₂ := gs) ht hts, R => by
    obtain ⟨args, a1, a2⟩ := args_ok hat ht.lt
    obtain ⟨T, t1, -⟩ := ht.grad θ args a2
    have hl : (t.paramMap.zipIdx.foldlM (fun (g : List (Py ℝ)) x => updateAt g x.1 fun y => do
        let d ← pick (row t.paramMap.length fun k => Py.arr (.tensor (T k))) x.2
        let z ← Py.mul (.num 0) d
        y.add z) (row m fun p => .arr (.tensor (R p)))) = .ok (row m fun p => .arr (.tensor (R p))) := by
      refine updateRow_ok (op := fun (y d : Py ℝ) => do
        let z ← Py.mul (.num 0) d
        y.add z) (ht.inc.imp fun h => Nat.ne_of_lt h) ht.lt (fun k hk => ?_) fun p _ => rfl
      rw [py_zero_mul]
      exact py_add_zero _
    obtain ⟨cv, hc, hcv⟩ := ht.call θ args a2
    have hres := residual_isVal hcv
    have hne : t.paramMap.isEmpty = false := by simpa using ht.ne
    have ih := gradCons_ok hat hts R
    unfold gradCons
    rw [a1]
    simp only [bind, Except.bind, t1] at hl ⊢
    rw [hl]
    simp only [hne, hc, ih, hres, pure, Except.pure, List.map_cons]
    rfl

theorem idxOf_getD {pm : List Nat} (h : pm.Nodup) {k : Nat} (hk : k < pm.length) : pm.idxOf (pm.getD k 0) = k := by
  rw [List.getD_eq_getElem _ _ hk]
  exact h.idxOf_getElem k hk

theorem getD_idxOf0 {pm : List Nat} {p : Nat} (h : p ∈ pm) : pm.getD (pm.idxOf p) 0 = p := by
  have := List.idxOf_lt_length_of_mem h
  rw [List.getD_eq_getElem _ _ this]
  exact List.getElem_idxOf this

theorem gradRegs_step (t : TTerm ℝ) (φ : Pen) (ht : IsPenalty (cOrder pr m) t φ.val φ.der φ.hes) {args : List (Tensor ℝ)}
    (ha : (cOrder pr m).IsArgs θ t.paramMap args)
    {G : Nat → Num ℝ} {g : Nat → Nat → ℝ} (hG : ∀ p < m, pr.IsGrad (cOrder pr m).e p (G p) (g p)) :
    ∃ (gg : List (Py ℝ)) (G' : Nat → Num ℝ), t.f.grads args = .ok gg ∧
      t.paramMap.zipIdx.foldlM (fun (g : List (Py ℝ)) x => updateAt g x.1 fun y => do
        let d ← pick gg x.2
        y.sub d) (row m fun p => .arr (G p)) = .ok (row m fun p => .arr (G' p)) ∧
      ∀ p < m, pr.IsGrad (cOrder pr m).e p (G' p) (fun a => g p a - φ.der θ p a) ∧ (pr.Whole p (G p) → pr.Whole p (G' p)) ∧
        (p ∉ t.paramMap → G' p = G p) := by
  obtain ⟨D, d1, d2⟩ := ht.grad θ args ha
  have hn : t.paramMap.Nodup := ht.inc.imp fun h => Nat.ne_of_lt h
  have key : ∀ p, ∃ w, (p ∉ t.paramMap → w = G p) ∧ (p ∈ t.paramMap → Py.sub (.arr (G p)) (.arr (D (t.paramMap.idxOf p))) = .ok (.arr w)) ∧
      (p < m → pr.IsGrad (cOrder pr m).e p w (fun a => g p a - φ.der θ p a) ∧ (pr.Whole p (G p) → pr.Whole p w)) := by
    intro p
    by_cases hp : p ∈ t.paramMap
    · have := d2 (t.paramMap.idxOf p) (List.idxOf_lt_length_of_mem hp)
      rw [getD_idxOf0 hp] at this
      obtain ⟨r, r1, r2, r3⟩ := isGrad_sub (hG p (ht.lt p hp)) this
      exact ⟨r, fun c => absurd hp c, fun _ => r1, fun _ => ⟨r2, r3⟩⟩
    · refine ⟨G p, fun _ => rfl, fun c => absurd c hp, fun hpm => ⟨?_, id⟩⟩
      have := hG p hpm
      simpa only [ht.zero θ p _ hp, sub_zero] using this
  choose G' k1 k2 k3 using key
  refine ⟨_, G', d1, ?_, fun p hp => ⟨(k3 p hp).1, (k3 p hp).2, k1 p⟩⟩
  refine updateRow_ok (D := fun k => Py.arr (D k)) (op := Py.sub) hn ht.lt (fun k hk => ?_) fun p hp => by rw [k1 p hp]
  have hk' : t.paramMap.getD k 0 ∈ t.paramMap := by rw [List.getD_eq_getElem _ _ hk]; exact List.getElem_mem hk
  have := k2 _ hk'
  rwa [idxOf_getD hn hk] at this

theorem gradRegs_ok (hat : AtPoint pr m θ params) : ∀ {rs : List (TTerm ℝ)} {φs : List Pen},
    List.Forall₂ (fun t φ => IsPenalty (cOrder pr m) t φ.val φ.der φ.hes) rs φs → ∀ {G : Nat → Num ℝ} {g : Nat → Nat → ℝ},
    (∀ p < m, pr.IsGrad (cOrder pr m).e p (G p) (g p)) →
    ∃ G' : Nat → Num ℝ, gradRegs (params.map paramTensor) rs (row m fun p => .arr (G p)) = .ok (row m fun p => .arr (G' p)) ∧
      ∀ p < m, pr.IsGrad (cOrder pr m).e p (G' p) (fun a => g p a - (φs.map fun φ => φ.der θ p a).sum) ∧
        (pr.Whole p (G p) → pr.Whole p (G' p)) ∧ ((∀ t ∈ rs, p ∉ t.paramMap) → G' p = G p)
  | [], _, .nil, G, g, hG => ⟨G, rfl, fun p hp => ⟨by simpa using hG p hp, id, fun _ => rfl⟩⟩
  | t :: ts, _, .cons (b := φ) (l₂ := φs) ht hts, G, g, hG => by
    obtain ⟨args, a1, a2⟩ := args_ok hat ht.lt
    obtain ⟨gg, G1, g1, g2, g3⟩ := gradRegs_step t φ ht a2 hG
    obtain ⟨G', h1, h2⟩ := gradRegs_ok hat hts fun p hp => (g3 p hp).1
    refine ⟨G', ?_, fun p hp => ⟨?_, fun hw => (h2 p hp).2.1 ((g3 p hp).2.1 hw), fun hn => ?_⟩⟩
    · unfold gradRegs
      rw [a1]
      simp only [bind, Except.bind, g1] at g2 ⊢
      rw [g2]
      exact h1
    · have := (h2 p hp).1
      simpa only [List.map_cons, List.sum_cons, sub_sub] using this
    · rw [(h2 p hp).2.2 fun t ht => hn t (List.mem_cons_of_mem _ ht), (g3 p hp).2.2 (hn _ (List.mem_cons_self ..))]

/-! ### selecting the free entries -/

theorem freeOf_lt {p : Param ℝ} {a : Nat} (h : a ∈ Flat.freeOf p) : a < p.mask.length := by
  obtain ⟨i, -, hi⟩ := Flat.mem_sel h
  obtain ⟨h1, h2⟩ := List.getElem?_eq_some_iff.1 hi
  simp at h1 h2
  omega

theorem get_eq_bget1 {v : NDArray ℝ} {x : Nat → Nat} (h : ∀ k < v.ndim, v.shape k = 1 → x k = 0) : v.get x = v.bget x := by
  unfold bget NDArray.get
  congr 1
  funext k
  by_cases c1 : k < v.ndim
  · rw [if_pos c1, if_pos c1]
    by_cases c2 : v.shape k = 1
    · simp only [c2, if_true]; exact h k c1 c2
    · simp only [c2, if_false]
  · rw [if_neg c1, if_neg c1]

theorem maskSelect_grad {p : Nat} {q : Param ℝ} (hs : q.shape = pr.sizes p) (hm : q.mask.length = q.shape.prod) {r : Tensor ℝ} {F : Nat → ℝ}
    (h : pr.IsGrad (cOrder pr m).e p (.tensor r) F) :
    (maskSelect r.values q = .ok ((Flat.freeOf q).map F) ∨ maskSelect r.values q = .error .indexError) ∧
      (pr.Whole p (.tensor r) → maskSelect r.values q = .ok ((Flat.freeOf q).map F)) := by
  obtain ⟨h1, h2⟩ := isGrad_plain h
  have hy : r.yDim = 0 := h1.hy.elim id id
  have hnd := h1.nd
  have hl : q.shape.length = pr.nd p := by rw [hs, sizes_length]
  have key : (r.values.ndim = q.shape.length ∧ ∀ k < q.shape.length, r.values.shape k = q.shape.getD k 0) →
      maskSelect r.values q = .ok ((Flat.freeOf q).map F) := by
    intro c
    unfold maskSelect
    rw [if_pos c]
    refine congrArg _ (List.map_congr_left fun a ha => ?_)
    have ha' : a < q.shape.prod := hm ▸ freeOf_lt ha
    rw [hs] at ha'
    have hE : pr.Entry p ((cOrder pr m).e p a) := entry_iff.2 ha'
    rw [← h2 a ⟨(cOrder pr m).e p a, fun _ => 0, fun _ => 0, fun _ => 0⟩ rfl hE, h1.dense]
    rw [get_eq_bget1 fun k hk hk1 => ?_]
    · unfold bget
      apply NDArray.get_congr
      intro k hk
      have hx : k < r.xDim := by omega
      show (if _ then 0 else unravel q.shape a k) = _
      rw [hs]
      have : Tens.flat r.xDim r.yDim 0 ⟨(cOrder pr m).e p a, fun _ => 0, fun _ => 0, fun _ => 0⟩ k = unravel (pr.sizes p) a k := by
        unfold Tens.flat
        rw [if_pos hx]
        rfl
      rw [this]
    · rw [hs]
      have := hE.1 k (by omega)
      have h3 := c.2 k (by omega)
      rw [hs, sizes_getD (by omega)] at h3
      have : unravel (pr.sizes p) a k < pr.P p k := this
      omega
  refine ⟨?_, fun hw => key ?_⟩
  · by_cases c : r.values.ndim = q.shape.length ∧ ∀ k < q.shape.length, r.values.shape k = q.shape.getD k 0
    · exact Or.inl (key c)
    · unfold maskSelect
      exact Or.inr (if_neg c)
  · obtain ⟨s, e, s1, s2, s3⟩ := hw
    obtain rfl : r = s := by injection e
    refine ⟨by omega, fun k hk => ?_⟩
    rw [s3 k (by omega), hs, sizes_getD (by omega)]

theorem outerSelect_hess {p q : Nat} {u w : Param ℝ} (hu : u.shape = pr.sizes p) (hum : u.mask.length = u.shape.prod)
    (hw : w.shape = pr.sizes q) (hwm : w.mask.length = w.shape.prod) {r : Tensor ℝ} {F : Nat → Nat → ℝ}
    (h : pr.IsBlock (cOrder pr m).e p q (.tensor r) F) :
    (outerSelect r.values u w = .ok ((Flat.freeOf u).map fun a => (Flat.freeOf w).map fun b => F a b) ∨
      outerSelect r.values u w = .error .indexError) ∧
      (pr.Whole2 p q (.tensor r) → outerSelect r.values u w = .ok ((Flat.freeOf u).map fun a => (Flat.freeOf w).map fun b => F a b)) := by
  obtain ⟨h1, h2⟩ := isBlock_plain h
  have hnd := h1.nd
  have hl : u.shape.length = pr.nd p := by rw [hu, sizes_length]
  have hl' : w.shape.length = pr.nd q := by rw [hw, sizes_length]
  have key : (r.values.ndim = u.shape.length + w.shape.length ∧ (∀ k < u.shape.length, r.values.shape k = u.shape.getD k 0) ∧
      ∀ k < w.shape.length, r.values.shape (u.shape.length + k) = w.shape.getD k 0) →
      outerSelect r.values u w = .ok ((Flat.freeOf u).map fun a => (Flat.freeOf w).map fun b => F a b) := by
    intro c
    unfold outerSelect
    rw [if_pos c]
    refine congrArg _ (List.map_congr_left fun a ha => List.map_congr_left fun b hb => ?_)
    have ha' : a < u.shape.prod := hum ▸ freeOf_lt ha
    have hb' : b < w.shape.prod := hwm ▸ freeOf_lt hb
    rw [hu] at ha'
    rw [hw] at hb'
    have hE : pr.Entry p ((cOrder pr m).e p a) := entry_iff.2 ha'
    have hE' : pr.Entry q ((cOrder pr m).e q b) := entry_iff.2 hb'
    have x1 := h1.hx
    have x2 := h1.hy
    have hx : r.xDim = pr.nd p := by have := c.1; omega
    have hy : r.yDim = pr.nd q := by have := c.1; omega
    rw [← h2 a b ⟨(cOrder pr m).e p a, (cOrder pr m).e q b, fun _ => 0, fun _ => 0⟩ rfl rfl hE hE', h1.dense]
    rw [get_eq_bget1 fun k hk hk1 => ?_]
    · unfold bget
      apply NDArray.get_congr
      intro k hk
      have : Tens.flat r.xDim r.yDim 0 ⟨(cOrder pr m).e p a, (cOrder pr m).e q b, fun _ => 0, fun _ => 0⟩ k =
          if k < u.shape.length then unravel u.shape a k else unravel w.shape b (k - u.shape.length) := by
        unfold Tens.flat
        rw [hx, hy, hl]
        by_cases c1 : k < pr.nd p
        · rw [if_pos c1, if_pos c1, hu]; rfl
        · rw [if_neg c1, if_neg c1, if_pos (by omega), hw]; rfl
      rw [this]
    · by_cases c1 : k < u.shape.length
      · rw [if_pos c1, hu]
        have : unravel (pr.sizes p) a k < pr.P p k := hE.1 k (by omega)
        have h3 := c.2.1 k c1
        rw [hu, sizes_getD (by omega)] at h3
        omega
      · rw [if_neg c1, hw]
        have : unravel (pr.sizes q) b (k - u.shape.length) < pr.P q (k - u.shape.length) := hE'.1 _ (by omega)
        have h3 := c.2.2 (k - u.shape.length) (by omega)
        rw [hw, sizes_getD (by omega), show u.shape.length + (k - u.shape.length) = k by omega] at h3
        omega
  refine ⟨?_, fun hww => key ?_⟩
  · by_cases c : r.values.ndim = u.shape.length + w.shape.length ∧ (∀ k < u.shape.length, r.values.shape k = u.shape.getD k 0) ∧
      ∀ k < w.shape.length, r.values.shape (u.shape.length + k) = w.shape.getD k 0
    · exact Or.inl (key c)
    · unfold outerSelect
      exact Or.inr (if_neg c)
  · obtain ⟨s, e, s1, s2, s3, s4⟩ := hww
    obtain rfl : r = s := by injection e
    refine ⟨by omega, fun k hk => ?_, fun k hk => ?_⟩
    · rw [s3 k (by omega), hu, sizes_getD (by omega)]
    · rw [hl, s4 k (by omega), hw, sizes_getD (by omega)]

/-! ### `flat_grad` -/

theorem mapM_det {β γ : Type} {f : β → Except Err γ} {g : β → γ} {e : Err} : ∀ {l : List β},
    (∀ x ∈ l, f x = .ok (g x) ∨ f x = .error e) → l.mapM f = .ok (l.map g) ∨ l.mapM f = .error e
  | [], _ => Or.inl rfl
  | x :: l, hf => by
    rw [List.mapM_cons]
    rcases hf x (by simp) with h | h
    · rw [h, ok_bind']
      rcases mapM_det (l := l) (fun y hy => hf y (by simp [hy])) with h' | h'
      · rw [h']; exact Or.inl rfl
      · rw [h']; exact Or.inr rfl
    · rw [h]; exact Or.inr rfl

theorem zip_row {β γ : Type} {f : Nat → β} : ∀ (l : List γ) (s : Nat), ((List.range' s l.length).map f).zip l = (l.zipIdx s).map fun x => (f x.2, x.1)
  | [], _ => rfl
  | y :: l, s => by
    rw [List.length_cons, List.range'_succ, List.map_cons, List.zip_cons_cons, zip_row l (s + 1), List.zipIdx_cons, List.map_cons]

theorem zip_row0 {β γ : Type} {f : Nat → β} {l : List γ} {m : Nat} (h : l.length = m) : (row m f).zip l = l.zipIdx.map fun x => (f x.2, x.1) := by
  unfold row
  rw [← h, List.range_eq_range', zip_row]

theorem AtPoint.mem_zipIdx (hat : AtPoint pr m θ params) {x : Param ℝ × Nat} (hx : x ∈ params.zipIdx) :
    x.2 < m ∧ x.1.shape = pr.sizes x.2 ∧ x.1.mask.length = x.1.shape.prod := by
  have h1 := List.mem_zipIdx_iff_getElem?.1 hx
  obtain ⟨l1, -⟩ := List.getElem?_eq_some_iff.1 h1
  have hm : x.2 < m := by rw [← hat.len]; exact l1
  obtain ⟨q, q1, q2, q3, -⟩ := hat.each x.2 hm
  rw [h1] at q1
  obtain rfl := Option.some.inj q1
  exact ⟨hm, q2, q3⟩

/-- The entries of the flat gradient. -/
def flatEntries (params : List (Param ℝ)) (g : Nat → Nat → ℝ) (res : List ℝ) : List ℝ :=
  ((Flat.freePairs params).map fun x => g x.1 x.2) ++ res

theorem concat_entries (hat : AtPoint pr m θ params) (h0 : 0 < m) (g : Nat → Nat → ℝ) (res : List ℝ) :
    npConcatenate ((params.zipIdx.map fun x => (Flat.freeOf x.1).map (g x.2)) ++ res.map fun r => [r]) = .ok (flatEntries params g res) := by
  have e : ((params.zipIdx.map fun x => (Flat.freeOf x.1).map (g x.2)) ++ res.map fun r => [r]).flatten = flatEntries params g res := by
    rw [List.flatten_append]
    unfold flatEntries
    congr 1
    · exact Flat.flatten_free 0 params g
    · rw [← List.flatMap_def]; simp
  unfold npConcatenate
  rw [e]
  rw [if_neg]
  have := hat.len
  cases params with
  | nil => simp at this; omega
  | cons p ps => simp

/-- `d.values[~p.mask]` -/
noncomputable def selGrad (G : Nat → Num ℝ) (x : Param ℝ × Nat) : Except Err (List ℝ) := (Py.arr (G x.2)).values.bind fun v => maskSelect v x.1

theorem mapM_error_of {β γ : Type} {f : β → Except Err γ} {e : Err} : ∀ {l : List β}, (∀ x ∈ l, (∃ y, f x = .ok y) ∨ f x = .error e) → ∀ {x : β}, x ∈ l →
    f x = .error e → l.mapM f = .error e
  | y :: l, h, x, hx, he => by
    rw [List.mapM_cons]
    rcases h y (List.mem_cons_self ..) with ⟨z, hz⟩ | hz
    · rcases List.mem_cons.1 hx with rfl | hx
      · rw [hz] at he; cases he
      · rw [hz, mapM_error_of (fun x hx => h x (List.mem_cons_of_mem _ hx)) hx he]
        rfl
    · rw [hz]
      rfl

theorem flatGradT_eq (hat : AtPoint pr m θ params) (h0 : 0 < m) {cs rs : List (TTerm ℝ)} {gs : List Con} {φs : List Pen}
    (hcs : List.Forall₂ (fun t g => IsConstraint (cOrder pr m) t g.val g.der) cs gs)
    (hrs : List.Forall₂ (fun t φ => IsPenalty (cOrder pr m) t φ.val φ.der φ.hes) rs φs) {G : Nat → Num ℝ} {g : Nat → Nat → ℝ}
    (hG : ∀ p < m, pr.IsGrad (cOrder pr m).e p (G p) (g p)) :
    (flatGradT params (row m G) cs rs =
      .ok (flatEntries params (fun p a => g p a - (φs.map fun φ => φ.der θ p a).sum) (gs.map fun c => c.val θ)) ∨
      flatGradT params (row m G) cs rs = .error .indexError) ∧
    ((∀ p < m, pr.Whole p (G p)) → flatGradT params (row m G) cs rs =
      .ok (flatEntries params (fun p a => g p a - (φs.map fun φ => φ.der θ p a).sum) (gs.map fun c => c.val θ))) ∧
    ((∃ p < m, 0 < pr.nd p ∧ (∀ t ∈ rs, p ∉ t.paramMap) ∧ ∃ r, G p = .tensor r ∧ r.xDim = 0) →
      flatGradT params (row m G) cs rs = .error .indexError) := by
  obtain ⟨R, hR⟩ : ∃ R : Nat → Tensor ℝ, ∀ p < m, G p = .tensor (R p) := by
    have : ∀ p, ∃ r, p < m → G p = .tensor r := fun p => by
      by_cases hp : p < m
      · obtain ⟨r, hr, -⟩ := hG p hp
        exact ⟨r, fun _ => hr⟩
      · exact ⟨Tensor.const 0, fun c => absurd c hp⟩
    choose R hR using this
    exact ⟨R, hR⟩
  have e0 : (row m G).map Py.arr = row m fun p => .arr (.tensor (R p)) := by
    unfold row
    rw [List.map_map]
    exact List.map_congr_left fun p hp => by rw [Function.comp, hR p (List.mem_range.1 hp)]
  have e1 := gradCons_ok hat hcs R
  obtain ⟨G', e2, e3⟩ := gradRegs_ok hat hrs (G := fun p => .tensor (R p)) (g := g) fun p hp => by
    rw [← hR p hp]; exact hG p hp
  obtain ⟨R', hR'⟩ : ∃ R' : Nat → Tensor ℝ, ∀ p < m, G' p = .tensor (R' p) := by
    have : ∀ p, ∃ r, p < m → G' p = .tensor r := fun p => by
      by_cases hp : p < m
      · obtain ⟨r, hr, -⟩ := (e3 p hp).1
        exact ⟨r, fun _ => hr⟩
      · exact ⟨Tensor.const 0, fun c => absurd c hp⟩
    choose R hR using this
    exact ⟨R, hR⟩
  have key : flatGradT params (row m G) cs rs =
      (params.zipIdx.mapM (selGrad G')).bind fun fl => npConcatenate (fl ++ (gs.map fun c => c.val θ).map fun r => [r]) := by
    unfold flatGradT
    dsimp only
    rw [e0, e1]
    simp only [bind, Except.bind]
    rw [e2]
    simp only [zip_row0 hat.len, List.map_map, List.mapM_map]
    rfl
  have hsel : ∀ x ∈ params.zipIdx, ∃ r : Tensor ℝ, G' x.2 = .tensor r ∧
      (maskSelect r.values x.1 = .ok ((Flat.freeOf x.1).map fun a => g x.2 a - (φs.map fun φ => φ.der θ x.2 a).sum) ∨
        maskSelect r.values x.1 = .error .indexError) ∧
      (pr.Whole x.2 (G' x.2) → maskSelect r.values x.1 = .ok ((Flat.freeOf x.1).map fun a => g x.2 a - (φs.map fun φ => φ.der θ x.2 a).sum)) := by
    intro x hx
    obtain ⟨h1, h2, h3⟩ := hat.mem_zipIdx hx
    have h4 := (e3 x.2 h1).1
    rw [hR' _ h1] at h4 ⊢
    exact ⟨_, rfl, maskSelect_grad h2 h3 h4⟩
  have hfin := concat_entries hat h0 (fun p a => g p a - (φs.map fun φ => φ.der θ p a).sum) (gs.map fun c : Con => c.val θ)
  refine ⟨?_, fun hw => ?_, fun hu => ?_⟩
  · rw [key]
    rcases mapM_det (f := selGrad G') (e := .indexError) (l := params.zipIdx)
        (g := fun x : Param ℝ × Nat => (Flat.freeOf x.1).map fun a => g x.2 a - (φs.map fun φ => φ.der θ x.2 a).sum)
        (fun x hx => by
          obtain ⟨r, r1, r2, -⟩ := hsel x hx
          unfold selGrad
          rw [r1]
          exact r2) with hd | hd
    · rw [hd]
      exact Or.inl hfin
    · rw [hd]
      exact Or.inr rfl
  · rw [key, mapM_list (f := selGrad G')
        (g := fun x : Param ℝ × Nat => (Flat.freeOf x.1).map fun a => g x.2 a - (φs.map fun φ => φ.der θ x.2 a).sum)
        (fun x hx => by
          obtain ⟨r, r1, -, r3⟩ := hsel x hx
          have h1 := (hat.mem_zipIdx hx).1
          have := r3 ((e3 x.2 h1).2.1 (by rw [← hR _ h1]; exact hw _ h1))
          unfold selGrad
          rw [r1]
          exact this)]
    exact hfin
  · obtain ⟨p, hp, hnd, hno, r, hr, hx⟩ := hu
    have hG' : G' p = .tensor r := by rw [(e3 p hp).2.2 hno, ← hR p hp, hr]
    obtain ⟨x, hx1, hx2⟩ : ∃ x ∈ params.zipIdx, x.2 = p := by
      have hlt : p < params.length := by rw [hat.len]; exact hp
      exact ⟨(params[p], p), List.mem_zipIdx_iff_getElem?.2 (List.getElem?_eq_getElem hlt), rfl⟩
    have hbad : selGrad G' x = .error .indexError := by
      obtain ⟨-, h2, -⟩ := hat.mem_zipIdx hx1
      obtain ⟨r', e', w1, -, w2, w3, w4, -⟩ := hG p hp
      rw [hr] at e'
      cases e'
      unfold selGrad
      rw [hx2, hG']
      show maskSelect r.values x.1 = _
      unfold maskSelect
      rw [if_neg]
      rintro ⟨c, -⟩
      have h3 : x.1.shape.length = pr.nd p := by rw [h2, hx2]; simp [Problem.sizes]
      have h4 : r.values.ndim = 0 := by
        unfold Tensor.n at w3
        omega
      omega
    rw [key, mapM_error_of (f := selGrad G') (e := .indexError) (fun y hy => ?_) hx1 hbad]
    · rfl
    · obtain ⟨r, r1, r2, -⟩ := hsel y hy
      unfold selGrad
      rw [r1]
      exact r2.imp_left fun h => ⟨_, h⟩

end

end Verif.Tens
