import Verif.Props.LikeTensor
import Verif.Lemmas.Outcomes

/-!
# C63, continued: negative binomial and finite outcomes
-/

set_option linter.unusedSectionVars false

namespace Verif.Tens
open Verif.Params (Err)
open NDArray

/-! ### negative binomial -/

/-- `X + self.r * N` -/
theorem negbin_total {pr : Problem} (hpr : pr.Ok) (r : ℝ) {tx tn : Tensor ℝ} (hX : VFull pr tx) (hN : VFull pr tn) :
    ∃ n a, (Num.tensor tn).scalarOp .mul r = .ok (.tensor n) ∧ (Num.tensor tx).bin (.tensor n) .add = .ok (.tensor a) ∧
      VFull pr a ∧ ∀ i, a.dense i = tx.dense i + r * tn.dense i := by
  obtain ⟨n, n1, n2, n3, n4, n5⟩ := num_scalar hN.isVal (op := .mul) (c := r) (by simp)
  obtain ⟨a, a1, a2, a3, a4, a5, a6, a7⟩ := val_op (hpr.layout 0 0) hX.isVal n2 (op := .add) (by simp) (by simp)
  refine ⟨n, a, n1, a1, a2.vfull (a6 hX.full (Or.inr (Or.inl trivial))), fun i => ?_⟩
  rw [a7 _ (by simp), n5]
  show _ + _ * r = _
  rw [mul_comm r]

/-- `NegativeBinomial.like` -/
theorem C63_negativeBinomial_like {pr : Problem} (hpr : pr.Ok) (r : ℝ) {X N y : Num ℝ} (hX : pr.IsData X)
    (hN : pr.IsData N) (hy : pr.IsModel y) :
    ∃ v, NegativeBinomialT.like r X N y = .ok v ∧
      IsNumber v (Like.NegativeBinomial.like r (pr.val X) (pr.val N) (pr.val y)) := by
  obtain ⟨tx, rfl, vX⟩ := data_vfull hX
  obtain ⟨tn, rfl, vN⟩ := data_vfull hN
  obtain ⟨ty, rfl, vy, hyp⟩ := model_isVal hy
  have hL := hpr.layout 0 0
  obtain ⟨a, a1, a2, a3, a4, a5⟩ := num_scalar vX.isVal (op := .add) (c := r) (by simp)
  obtain ⟨b, b1, b2, b3, b4, b5⟩ := val_ufunc a2 Like.gammaln
  obtain ⟨c, c1, c2, c3, c4, c5⟩ := num_scalar vX.isVal (op := .add) (c := (1 : ℝ)) (by simp)
  obtain ⟨d, d1, d2, d3, d4, d5⟩ := val_ufunc c2 Like.gammaln
  obtain ⟨f, f1, f2, f3, f4, f5, f6, f7⟩ := val_op hL b2 d2 (op := .sub) (by simp) (by simp)
  obtain ⟨g, g1, g2, g3, g4, g5⟩ := num_scalar f2 (op := .add) (c := r * Real.log r) (by simp)
  obtain ⟨h, h1, h2, h3, h4, h5⟩ := num_scalar g2 (op := .sub) (c := Like.gammaln r) (by simp)
  obtain ⟨k, k1, k2, k3, k4, k5, k6, k7⟩ := val_op hL vX.isVal vy (op := .mul) (by simp) (by simp)
  obtain ⟨l, l1, l2, l3, l4, l5, l6, l7⟩ := val_op hL h2 k2 (op := .add) (by simp) (by simp)
  obtain ⟨n, q, n1, q1, q2, q3⟩ := negbin_total hpr r vX vN
  obtain ⟨t, t1, t2, t3, t4, t5⟩ := val_ufunc vy Real.exp
  obtain ⟨u, u1, u2, u3, u4, u5⟩ := num_scalar t2 (op := .add) (c := r) (by simp)
  obtain ⟨v, v1, v2, v3, v4, v5⟩ := val_ufunc u2 Real.log
  obtain ⟨w, w1, w2, w3, w4, w5, w6, w7⟩ := val_op hL q2.isVal v2 (op := .mul) (by simp) (by simp)
  have hw := w6 q2.full (Or.inl (v3 (u3 (Or.inr trivial) (t3 hyp))))
  obtain ⟨z, z1, z2, z3, z4, z5, z6, z7⟩ := val_op hL l2 w2 (op := .sub) (by simp) (by simp)
  obtain ⟨o, o1, o2⟩ := sum_number hpr (z2.vfull (z5 hw))
  refine ⟨o, ?_, isNumber_congr o2 ?_⟩
  · unfold NegativeBinomialT.like
    rw [a1, ok_bind, b1, ok_bind, c1, ok_bind, d1, ok_bind, f1, ok_bind, g1, ok_bind, h1, ok_bind, k1, ok_bind, l1, ok_bind,
      n1, ok_bind, q1, ok_bind, t1, ok_bind, u1, ok_bind, v1, ok_bind, w1, ok_bind, z1, ok_bind, o1]
  · refine Finset.sum_congr rfl fun j _ => ?_
    show _ = z.dense _
    rw [z7 _ (by simp), l7 _ (by simp), h5, g5, f7 _ (by simp), b5, a5, d5, c5, k7 _ (by simp), w7 _ (by simp), q3, v5, u5,
      t5]
    show _ - _ * Real.log (r + _) = _ - _ * Real.log (_ + r)
    rw [add_comm r]
    rfl

/-- `NegativeBinomial.grad_like` -/
theorem C63_negativeBinomial_grad {pr : Problem} (hpr : pr.Ok) (r : ℝ) (hr : 0 < r) {X N y : Num ℝ}
    (hX : pr.IsData X) (hN : pr.IsData N) (hy : pr.IsModel y) {m : Nat} {der : Nat → Num ℝ}
    (hd : ∀ p < m, pr.IsDer p (der p)) (e : Nat → Nat → Nat → Nat) :
    ∃ G, NegativeBinomialT.gradLike r X N y (row m der) = .ok (row m G) ∧
      ∀ p < m, (pr.IsGrad e p (G p) fun a =>
        Like.NegativeBinomial.gradLike r (pr.val X) (pr.val N) (pr.val y) (pr.derOf e der) p a) ∧ ((der p).Spans (pr.nd p) → pr.Whole p (G p)) := by
  obtain ⟨tx, rfl, vX⟩ := data_vfull hX
  obtain ⟨tn, rfl, vN⟩ := data_vfull hN
  obtain ⟨ty, rfl, vy, hyp⟩ := model_isVal hy
  have hL := hpr.layout 0 0
  obtain ⟨t, t1, t2, t3, t4, t5⟩ := val_ufunc vy Real.exp
  obtain ⟨n, a, n1, a1, a2, a3⟩ := negbin_total hpr r vX vN
  obtain ⟨w, w1, w2, w3, w4, w5, w6, w7⟩ := val_op hL a2.isVal t2 (op := .mul) (by simp) (by simp)
  obtain ⟨q, q1, q2, q3, q4, q5⟩ := num_scalar t2 (op := .add) (c := r) (by simp)
  have hq0 : ∀ i, q.dense i ≠ 0 := fun i => by
    rw [q5, t5]
    have := Real.exp_pos (ty.dense i)
    show _ + r ≠ 0
    positivity
  obtain ⟨b, b1, b2, b3, b4, b5, b6, b7⟩ := val_op hL w2 q2 (op := .div) (by simp) (fun _ => ⟨origin, hq0 _⟩)
  have hb := b6 (w6 a2.full (Or.inl (t3 hyp))) (Or.inr (Or.inr ⟨origin, hq0 _⟩))
  obtain ⟨c, c1, c2, c3, c4, c5, c6, c7⟩ := val_op hL vX.isVal b2 (op := .sub) (by simp) (by simp)
  obtain ⟨G, g1, g2⟩ := gradBlocks_ok hpr e hd (c2.vfull (c5 hb))
  refine ⟨G, ?_, fun p hp => ⟨isGrad_congr (g2 p hp).1 fun i => ?_, (g2 p hp).2⟩⟩
  · unfold NegativeBinomialT.gradLike
    rw [t1, ok_bind, n1, ok_bind, a1, ok_bind, w1, ok_bind, q1, ok_bind, b1, ok_bind, c1, ok_bind, g1]
  · refine Finset.sum_congr rfl fun k _ => congrArg _ ?_
    show _ = c.dense _
    rw [c7 _ (by simp), b7 _ (fun _ => hq0 _), w7 _ (by simp), a3, q5, t5]
    rfl

/-- `NegativeBinomial.hess_like` -/
theorem C63_negativeBinomial_hess {pr : Problem} (hpr : pr.Ok) (r : ℝ) (hr : 0 < r) {X N y : Num ℝ}
    (hX : pr.IsData X) (hN : pr.IsData N) (hy : pr.IsModel y) {m : Nat} {der : Nat → Num ℝ}
    (hd : ∀ p < m, pr.IsDer p (der p)) {hess : Nat → Nat → Num ℝ}
    (hh : ∀ p < m, ∀ q ≤ p, pr.IsHess p q (hess p q)) (e : Nat → Nat → Nat → Nat) :
    ∃ H, NegativeBinomialT.hessLike r X N y (row m der) (triangle m hess) = .ok (triangle m H) ∧
      ∀ p < m, ∀ q ≤ p, (pr.IsBlock e p q (H p q) fun a b =>
        Like.NegativeBinomial.hessLike r (pr.val X) (pr.val N) (pr.val y) (pr.derOf e der) (pr.hessOf e hess)
          p q a b) ∧
        ((der p).Spans (pr.nd p) → (der q).Spans (pr.nd q) → pr.Whole2 p q (H p q)) := by
  obtain ⟨tx, rfl, vX⟩ := data_vfull hX
  obtain ⟨tn, rfl, vN⟩ := data_vfull hN
  obtain ⟨ty, rfl, vy, hyp⟩ := model_isVal hy
  have hL := hpr.layout 0 0
  obtain ⟨t, t1, t2, t3, t4, t5⟩ := val_ufunc vy Real.exp
  obtain ⟨q, q1, q2, q3, q4, q5⟩ := num_scalar t2 (op := .add) (c := r) (by simp)
  have hq0 : ∀ i, q.dense i ≠ 0 := fun i => by
    rw [q5, t5]
    have := Real.exp_pos (ty.dense i)
    show _ + r ≠ 0
    positivity
  obtain ⟨s, s1, s2, s3, s4, s5, s6, s7⟩ := val_op hL t2 q2 (op := .div) (by simp) (fun _ => ⟨origin, hq0 _⟩)
  have hs := s4 (t3 hyp) (Or.inr (Or.inr ⟨origin, hq0 _⟩))
  obtain ⟨n, a, n1, a1, a2, a3⟩ := negbin_total hpr r vX vN
  obtain ⟨b, b1, b2, b3, b4, b5, b6, b7⟩ := val_op hL a2.isVal s2 (op := .mul) (by simp) (by simp)
  have hb := b6 a2.full (Or.inl hs)
  obtain ⟨d, d1, d2, d3, d4, d5, d6, d7⟩ := val_op hL vX.isVal b2 (op := .sub) (by simp) (by simp)
  have hdl := d5 hb
  obtain ⟨c, c1, c2, c3, c4, c5, c6, c7⟩ := val_op hL b2 s2 (op := .mul) (by simp) (by simp)
  obtain ⟨f, f1, f2, f3, f4, f5, f6, f7⟩ := val_op hL c2 vX.isVal (op := .sub) (by simp) (by simp)
  obtain ⟨w, w1, w2, w3, w4, w5, w6, w7⟩ := val_op hL f2 d2 (op := .add) (by simp) (by simp)
  obtain ⟨H, g1, g2⟩ := hessBlocks_ok hpr e hd hh (d2.vfull hdl) (w2.vfull (w5 hdl)) (op := .add) (by simp)
  have ds : ∀ i, s.dense i = Like.NegativeBinomial.sOf r (ty.dense i) := fun i => by
    rw [s7 _ (fun _ => hq0 _), q5, t5]; rfl
  refine ⟨H, ?_, fun p hp q hq => ⟨isBlock_congr (g2 p hp q hq).1 fun i j => ?_, (g2 p hp q hq).2⟩⟩
  · unfold NegativeBinomialT.hessLike
    rw [t1, ok_bind, q1, ok_bind, s1, ok_bind, n1, ok_bind, a1, ok_bind, b1, ok_bind, d1, ok_bind, ok_bind, a1, ok_bind, b1,
      ok_bind, c1, ok_bind, f1, ok_bind, w1, ok_bind, g1]
  · refine Finset.sum_congr rfl fun k _ => ?_
    show _ = _ * d.dense _ + _ * w.dense _
    rw [w7 _ (by simp), f7 _ (by simp), c7 _ (by simp), d7 _ (by simp), b7 _ (by simp), a3, ds]
    rfl

/-! ### normalized finite -/

/-- `NormalizedFinite.like` -/
theorem C63_normalizedFinite_like {pr : Problem} (hpr : pr.Ok) {N y : Num ℝ} (hN : pr.IsData N) (hy : pr.IsModel y) :
    ∃ v, NormalizedFiniteT.like N y = .ok v ∧
      IsNumber v (Like.NormalizedFinite.like (pr.val N) (pr.val y)) := by
  obtain ⟨tn, rfl, vN⟩ := data_vfull hN
  obtain ⟨ty, rfl, vy, hyp⟩ := model_isVal hy
  have hL := hpr.layout 0 0
  obtain ⟨l, l1, l2, l3, l4, l5⟩ := val_ufunc vy Real.log
  obtain ⟨a, a1, a2, a3, a4, a5, a6, a7⟩ := val_op hL vN.isVal l2 (op := .mul) (by simp) (by simp)
  obtain ⟨r, r1, r2⟩ := sum_number hpr (a2.vfull (a6 vN.full (Or.inl (l3 hyp))))
  refine ⟨r, ?_, isNumber_congr r2 ?_⟩
  · unfold NormalizedFiniteT.like
    rw [l1, ok_bind, a1, ok_bind, r1]
  · refine Finset.sum_congr rfl fun j _ => ?_
    show _ = a.dense _
    rw [a7 _ (by simp), l5]
    rfl

/-- Values of the model, axes of size 1 are broadcast: as part of the problem of a derivative. -/
theorem model_at {pr : Problem} {t : Tensor ℝ} (h : Piece (pr.layout 0 0) t) (hx : t.xDim = 0) (hy : t.yDim = 0) (x y : Nat → Nat) (c : pr.Cell) :
    t.dense (pr.at x y c) = pr.val (.tensor t) c := by
  unfold Problem.val Problem.at
  show _ = t.dense _
  rw [Tensor.dense_noX h.wf hx x (fun _ => 0), Tensor.dense_noY h.wf hy _ y (fun _ => 0)]

theorem mulAll_on {K : Nat → Prop} {L : Layout} (hL : L.Ok) {o : Tensor ℝ} (ho : Piece L o) (hx : o.xDim = 0) (hy : o.yDim = 0) :
    ∀ {es es' : List (Tensor ℝ ⊕ NDArray ℝ)}, OnElems K L es → mulAll (.tensor o) .div es = .ok es' → OnElems K L es'
  | [], es', _, h => by
    cases h
    exact fun e he => by cases he
  | e :: es, es', hes, h => by
    obtain ⟨t, rfl, ht⟩ := hes e List.mem_cons_self
    obtain ⟨s, k1, k2, -, -, -, k6, -⟩ := piece_mul hL ht.1 ho (Or.inr hx) (Or.inr hy) (op := .div) (by simp [Op.additive])
    unfold mulAll at h
    have he : elemBin (.inl t) (.tensor o) .div = .ok (.tensor s) := k1
    rw [he] at h
    rcases hm : mulAll (.tensor o) .div es with e' | es1
    · rw [hm] at h
      cases h
    · rw [hm] at h
      cases h
      intro e he
      rcases List.mem_cons.1 he with rfl | he
      · exact ⟨s, rfl, k2, k6 (Or.inr ht.2)⟩
      · exact mulAll_on hL ho hx hy (fun e he => hes e (List.mem_cons_of_mem _ he)) hm e he

theorem binPrim_div {α : Type} [Field α] [DecidableEq α] (g : Generic α) (o : Tensor α) :
    g.binPrim (.tensor o) .div = match mulAll (.tensor o) .div g.elements with
      | .error e => .error e
      | .ok els => .ok ⟨max g.xDim o.xDim, max g.yDim o.yDim, max g.n o.n, max g.dim o.dim, els⟩ := rfl

/-- A quotient by values that may be broadcast is not broadcast on the axes on which the numerator is not. -/
theorem num_div_on {K : Nat → Prop} {L : Layout} (hL : L.Ok) {v r : Num ℝ} (hv : NumOn K L v) {o : Tensor ℝ} (ho : Piece L o) (hx : o.xDim = 0) (hy : o.yDim = 0)
    (h : v.bin (.tensor o) .div = .ok r) : NumOn K L r := by
  cases v with
  | tensor t =>
    have hv : OnPiece K L t := hv
    obtain ⟨s, k1, k2, -, -, -, k6, -⟩ := piece_mul hL hv.1 ho (Or.inr hx) (Or.inr hy) (op := .div) (by simp [Op.additive])
    have h : t.binTensor o .div = .ok r := h
    rw [k1] at h
    cases h
    exact ⟨k2, k6 (Or.inr hv.2)⟩
  | generic g =>
    unfold Num.bin at h
    dsimp only at h
    rw [binPrim_div] at h
    rcases hm : mulAll (.tensor o) .div g.elements with e' | es'
    · rw [hm] at h
      cases h
    · rw [hm] at h
      cases h
      exact mulAll_on hL ho hx hy hv hm

/-- A quotient by values has the axes of the values. -/
theorem num_div_piece {L : Layout} (hL : L.Ok) {v : Num ℝ} {r : Tensor ℝ} (hv : NumPiece L v) {o : Tensor ℝ} (ho : Piece L o) (hx : o.xDim = 0) (hy : o.yDim = 0)
    (h : v.bin (.tensor o) .div = .ok (.tensor r)) : Piece L r := by
  cases v with
  | tensor t =>
    have h : t.binTensor o .div = .ok (.tensor r) := h
    rcases (show Item L t from hv) with ht | ht
    · obtain ⟨s, k1, k2, -⟩ := piece_mul hL ht ho (Or.inr hx) (Or.inr hy) (op := .div) (by simp [Op.additive])
      rw [k1] at h
      cases h
      exact k2
    · obtain ⟨s, k1, k2, -⟩ := zero_op_piece hL ht ho .div
      rw [k1] at h
      cases h
      exact k2
  | generic g =>
    unfold Num.bin at h
    dsimp only at h
    split at h <;> cases h

/-- The sum of zeros, broadcast or not. -/
theorem sum_grad_zero {pr : Problem} (e : Nat → Nat → Nat → Nat) {p : Nat} {t : Tensor ℝ} (h : Piece (pr.layout p p).noY t) (hx : t.xDim = 0) (hy : t.yDim = 0)
    (h0 : ∀ i, t.dense i = 0) : ∃ r, (Num.tensor t).sumAll = .ok r ∧ pr.IsGrad e p r fun _ => 0 := by
  obtain ⟨r, e1, e2, e3, e4, e5, e6, e7, e8, e9, -, e10⟩ := C55_sum_all_partial h.wf h.inj true
  have hnd : r.values.ndim = 0 := by rw [e2.nd, e3, e4, e5, e6, hx, hy]; simp
  refine ⟨.tensor r, ?_, r, rfl, e2, Or.inl (by rw [e3, hx]), by rw [e4, hy], e5, by simpa using e6, ⟨e7, e8, fun k hk => by rw [e3, hx] at hk; omega⟩, fun a i _ _ => ?_⟩
  · unfold Num.sumAll Num.sum
    dsimp only
    rw [e1]
  · rw [e10 i (fun k hk => by rw [hnd] at hk; omega)]
    unfold Tensor.sumDense
    simp only [h0, sumAt_zero]

/-- `NormalizedFinite.grad_like` -/
theorem C63_normalizedFinite_grad {pr : Problem} (hpr : pr.Ok) {N y : Num ℝ} (hN : pr.IsData N) (hy : pr.IsModel y)
    (hpos : ∀ c, pr.val y c ≠ 0) {m : Nat} {der : Nat → Num ℝ} (hd : ∀ p < m, pr.IsDer p (der p))
    (e : Nat → Nat → Nat → Nat) :
    ∃ G, NormalizedFiniteT.gradLike N y (row m der) = .ok (row m G) ∧
      ∀ p < m, (pr.IsGrad e p (G p) fun a =>
        Like.NormalizedFinite.gradLike (pr.val N) (pr.val y) (pr.derOf e der) p a) ∧ ((der p).Spans (pr.nd p) → pr.Whole p (G p)) := by
  obtain ⟨tn, rfl, vN⟩ := data_vfull hN
  obtain ⟨ty, rfl, hyp, hyx, hyy⟩ := hy
  unfold NormalizedFiniteT.gradLike
  conv => enter [1, G, 1, 1]; unfold row
  simp only [List.mapM_map]
  refine mapM_range (P := fun p v => (pr.IsGrad e p v fun a =>
        Like.NormalizedFinite.gradLike (pr.val (.tensor tn)) (pr.val (.tensor ty)) (pr.derOf e der) p a) ∧ ((der p).Spans (pr.nd p) → pr.Whole p v)) fun p hp => ?_
  have hL := hpr.layoutY p p
  have hyY : Piece (pr.layout p p).noY ty := hyp.change rfl rfl rfl (Or.inl hyx) (Or.inl hyy)
  obtain ⟨a, a1, a2, -, -, -, af, a3⟩ := num_mul hL (v := .tensor tn) (Or.inl (vN.pieceY p p).1) (hd p hp)
    (Or.inl vN.hx) (Or.inl vN.hy)
  obtain ⟨s, s1, s2, sx, sy, -, s4⟩ := num_div hL a2 hyY hyx hyy
  have hval : ∀ i, ∑ k, s.dense (pr.at (e p i) (fun _ => 0) k) = Like.NormalizedFinite.gradLike (pr.val (.tensor tn)) (pr.val (.tensor ty)) (pr.derOf e der) p i := by
    intro i
    refine Finset.sum_congr rfl fun k _ => ?_
    rw [s4 _ (by rw [model_at hyp hyx hyy]; exact hpos k), a3, model_at hyp hyx hyy]
    show tn.dense _ * _ / _ = _
    rw [vN.at]
    rfl
  by_cases hz : ∃ t, der p = .tensor t ∧ t.IsZero
  · obtain ⟨t, ht, hz⟩ := hz
    obtain rfl : a = .tensor (Tensor.const 0) := by
      have h1 : (Num.tensor tn).bin (der p) .mul = .ok (.tensor (Tensor.const 0)) := by
        rw [ht]
        show tn.binTensor t .mul = _
        unfold Tensor.binTensor
        rw [if_pos hz.2.1, hz.2.2]
        simp [Tensor.binScalar]
      rw [h1] at a1
      cases a1
      rfl
    obtain ⟨s', k1, k2, k3, k4, -, -, k5⟩ := zero_op_piece hL (Tensor.isZero_const (α := ℝ)) hyY .div
    obtain rfl : s = .tensor s' := by
      have s1 : (Tensor.const (0 : ℝ)).binTensor ty .div = .ok s := s1
      rw [k1] at s1
      cases s1
      rfl
    have hs0 : ∀ i, s'.dense i = 0 := fun i => by
      rw [k5 i (by simp [Op.app])]
      simp [Op.app]
    obtain ⟨r, r1, r2⟩ := sum_grad_zero e (p := p) k2 (k3.trans hyx) (k4.trans hyy) hs0
    refine ⟨r, ?_, isGrad_congr r2 fun i => ?_, fun hs => ?_⟩
    · rw [Function.comp_apply, a1, ok_bind, s1, ok_bind, r1]
    · rw [← hval]
      exact Finset.sum_eq_zero fun k _ => hs0 _
    · rw [ht] at hs
      exact absurd hz (show ¬ t.IsZero ∧ _ from hs).1
  · obtain ⟨r, r1, r2, r3⟩ := sum_grad hpr e s2 (num_div_on hL (af tn rfl (vN.pieceY p p) fun t ht => by
      have := hd p hp
      rw [ht] at this
      exact (show Item _ t from this).resolve_right fun h => hz ⟨t, ht, h⟩) hyY hyx hyy s1)
    refine ⟨r, ?_, isGrad_congr r2 fun a => (hval a).symm, fun hs => r3 (tall_scale hL (Or.inr rfl) hyY hyx hyy
      (tall_times hL (vN.pieceY p p).1 vN.hx vN.hy (spans_tall (hd p hp) hs) a1) s1)⟩
    rw [Function.comp_apply, a1, ok_bind, s1, ok_bind, r1]

/-- `(h - d * d' / y) / y` -/
theorem second_log {pr : Problem} (hpr : pr.Ok) {p q : Nat} {h di dj : Num ℝ} (hh : NumPiece (pr.layout p q) h)
    (hi : pr.IsDer p di) (hj : pr.IsDer q dj) {ty : Tensor ℝ} (hy : Piece (pr.layout p q) ty) (hx : ty.xDim = 0)
    (hyy : ty.yDim = 0) :
    ∃ a b c s, di.bin dj.transpose .mul = .ok a ∧ a.bin (.tensor ty) .div = .ok b ∧ h.bin b .sub = .ok c ∧
      c.bin (.tensor ty) .div = .ok s ∧ NumPiece (pr.layout p q) s ∧
      (FullPiece (pr.layout p q) ty → NumFull (pr.layout p q) s) ∧ (∀ t, s = .tensor t → Piece (pr.layout p q) t) ∧
      (di.Spans (pr.nd p) → dj.Spans (pr.nd q) → NumTall (pr.layout p q) s) ∧
      ∀ x y k, ty.dense (pr.at x y k) ≠ 0 → s.dense (pr.at x y k) = (h.dense (pr.at x y k) -
        di.dense (pr.at x (fun _ => 0) k) * dj.dense (pr.at y (fun _ => 0) k) / ty.dense (pr.at x y k)) /
        ty.dense (pr.at x y k) := by
  have hL := hpr.layout p q
  obtain ⟨a, a1, a2, at', a3⟩ := der_product hpr hi hj
  obtain ⟨b, b1, b2, -, -, b3, b4⟩ := num_div hL a2 hy hx hyy
  obtain ⟨c, c1, c2, -, -, c3, c4⟩ := num_add hL hh b2 (op := .sub) (by simp)
  obtain ⟨s, s1, s2, -, -, s3, s4⟩ := num_div hL c2 hy hx hyy
  refine ⟨a, b, c, s, a1, b1, c1, s1, s2, s3, fun t ht => num_div_piece hL c2 hy hx hyy (ht ▸ s1), fun q1 q2 => tall_scale hL (Or.inr rfl) hy hx hyy (tall_add hL (Or.inr rfl) hh b2 (Or.inr
    (tall_scale hL (Or.inr rfl) hy hx hyy (at' q1 q2) b1)) c1) s1, fun x y k h0 => ?_⟩
  rw [s4 _ h0, c4, b4 _ h0, a3]
  rfl

/-- `NormalizedFinite.hess_like` -/
theorem C63_normalizedFinite_hess {pr : Problem} (hpr : pr.Ok) {N y : Num ℝ} (hN : pr.IsData N) (hy : pr.IsModel y)
    (hpos : ∀ c, pr.val y c ≠ 0) {m : Nat} {der : Nat → Num ℝ} (hd : ∀ p < m, pr.IsDer p (der p))
    {hess : Nat → Nat → Num ℝ} (hh : ∀ p < m, ∀ q ≤ p, pr.IsHess p q (hess p q)) (e : Nat → Nat → Nat → Nat) :
    ∃ H, NormalizedFiniteT.hessLike N y (row m der) (triangle m hess) = .ok (triangle m H) ∧
      ∀ p < m, ∀ q ≤ p, (pr.IsBlock e p q (H p q) fun a b =>
        Like.NormalizedFinite.hessLike (pr.val N) (pr.val y) (pr.derOf e der) (pr.hessOf e hess) p q a b) ∧
        ((der p).Spans (pr.nd p) → (der q).Spans (pr.nd q) → pr.Whole2 p q (H p q)) := by
  obtain ⟨tn, rfl, vN⟩ := data_vfull hN
  obtain ⟨ty, rfl, hyp, hyx, hyy⟩ := hy
  unfold NormalizedFiniteT.hessLike
  rw [show (row m der).length = m by simp [row]]
  refine blocks_ok (α := ℝ) (P := fun p q v => (pr.IsBlock e p q v fun a b =>
        Like.NormalizedFinite.hessLike (pr.val (.tensor tn)) (pr.val (.tensor ty)) (pr.derOf e der) (pr.hessOf e hess)
          p q a b) ∧ ((der p).Spans (pr.nd p) → (der q).Spans (pr.nd q) → pr.Whole2 p q v)) fun p hp q hq => ?_
  have hL := hpr.layout p q
  obtain ⟨a, b, c, s, a1, b1, c1, s1, s2, -, s3, st, s4⟩ := second_log hpr (hh p hp q hq) (hd p hp)
    (hd q (lt_of_le_of_lt hq hp)) (hyp.change rfl rfl rfl (Or.inl hyx) (Or.inl hyy)) hyx hyy
  obtain ⟨w, w1, w2, -, -, -, w3, w4⟩ := num_mul hL (v := .tensor tn) (Or.inl (vN.piece p q).1) s2
    (Or.inl vN.hx) (Or.inl vN.hy)
  obtain ⟨r, r1, r2, r3⟩ := sum_block hpr e w2 (w3 tn rfl (vN.piece p q) s3)
  refine ⟨r, ?_, isBlock_congr r2 fun i j => ?_, fun h1 h2 => r3 (tall_times hL (vN.piece p q).1 vN.hx vN.hy (st h1 h2) w1)⟩
  · rw [pick2_range hp hq, ok_bind, pick_range hp, ok_bind, pick_range (lt_of_le_of_lt hq hp), ok_bind, a1, ok_bind, b1,
      ok_bind, c1, ok_bind, s1, ok_bind, w1, ok_bind, r1]
  · refine Finset.sum_congr rfl fun k _ => ?_
    rw [w4, s4 _ _ _ (by rw [model_at hyp hyx hyy]; exact hpos k), model_at hyp hyx hyy]
    show _ = tn.dense _ * _
    rw [vN.at]
    rfl

/-! ### finite -/

/-- `y.sum(False)` -/
theorem finite_total {pr : Problem} (hpr : pr.Ok) {ty : Tensor ℝ} (hy : Piece (pr.layout 0 0) ty) (hyx : ty.xDim = 0) (hyy : ty.yDim = 0)
    (ho : OutcomesFull (pr.layout 0 0) (.tensor ty)) :
    ∃ z, (Num.tensor ty).sumOutcomes = .ok (.tensor z) ∧ Piece (pr.layout 0 0) z ∧ z.xDim = 0 ∧ z.yDim = 0 ∧
      ∀ x y c, z.dense (pr.at x y c) = Like.Finite.sumDim (pr.val (.tensor ty)) c.1 := by
  obtain ⟨o1, o2⟩ := ho.resolve_left fun h => hy.ne (hpr.layout 0 0) h.2.1
  obtain ⟨z, z1, z2, z3, z4, z5⟩ := piece_sumOutcomes hy o1 o2
  refine ⟨z, z1, z2, by rw [z3, hyx], by rw [z4, hyy], fun x y c => ?_⟩
  rw [z5, sumOut_at]
  exact Finset.sum_congr rfl fun u _ => model_at hy hyx hyy _ _ _

/-- `Finite.like` -/
theorem C63_finite_like {pr : Problem} (hpr : pr.Ok) {N y : Num ℝ} (hN : pr.IsData N) (hy : pr.IsModel y)
    (hyo : OutcomesFull (pr.layout 0 0) y) :
    ∃ v, FiniteT.like N y = .ok v ∧ IsNumber v (Like.Finite.like (pr.val N) (pr.val y)) := by
  obtain ⟨tn, rfl, vN⟩ := data_vfull hN
  obtain ⟨ty, rfl, hyp, hyx, hyy⟩ := hy
  have hL := hpr.layout 0 0
  obtain ⟨z, z1, z2, z3, z4, z5⟩ := finite_total hpr hyp hyx hyy hyo
  obtain ⟨a, a1, a2, a3, a4, a5⟩ := val_ufunc ⟨hyp.wf, hyx, hyy, Or.inl hyp⟩ Real.log
  obtain ⟨b, b1, b2, b3, b4, b5⟩ := val_ufunc ⟨z2.wf, z3, z4, Or.inl z2⟩ Real.log
  obtain ⟨c, c1, c2, c3, c4, c5, c6, c7⟩ := val_op hL a2 b2 (op := .sub) (by simp) (by simp)
  obtain ⟨s, s1, s2, s3, s4, s5, s6, s7⟩ := val_op hL vN.isVal c2 (op := .mul) (by simp) (by simp)
  obtain ⟨r, r1, r2⟩ := sum_number hpr (s2.vfull (s6 vN.full (Or.inl (c3 (b3 z2)))))
  refine ⟨r, ?_, isNumber_congr r2 ?_⟩
  · unfold FiniteT.like
    rw [z1, ok_bind, a1, ok_bind, b1, ok_bind, c1, ok_bind, s1, ok_bind, r1]
  · refine Finset.sum_congr rfl fun j _ => ?_
    show _ = s.dense _
    rw [s7 _ (by simp), c7 _ (by simp), a5, b5, z5]
    rfl

/-- `Finite.grad_like` -/
theorem C63_finite_grad {pr : Problem} (hpr : pr.Ok) {N y : Num ℝ} (hN : pr.IsData N) (hy : pr.IsModel y)
    (hyo : OutcomesFull (pr.layout 0 0) y) (hpos : ∀ c, 0 < pr.val y c) {m : Nat} {der : Nat → Num ℝ} (hd : ∀ p < m, pr.IsDer p (der p))
    (ho : ∀ p < m, OutcomesFull (pr.layout p p) (der p)) (e : Nat → Nat → Nat → Nat) :
    ∃ G, FiniteT.gradLike N y (row m der) = .ok (row m G) ∧
      ∀ p < m, (pr.IsGrad e p (G p) fun a =>
        Like.Finite.gradLike (pr.val N) (pr.val y) (pr.derOf e der) p a) ∧ ((der p).Spans (pr.nd p) → pr.Whole p (G p)) := by
  obtain ⟨tn, rfl, vN⟩ := data_vfull hN
  obtain ⟨ty, rfl, hyp, hyx, hyy⟩ := hy
  obtain ⟨z, z1, z2, z3, z4, z5⟩ := finite_total hpr hyp hyx hyy hyo
  unfold FiniteT.gradLike
  rw [z1]
  conv => enter [1, G, 1, 1]; rw [ok_bind]; unfold row
  simp only [List.mapM_map]
  refine mapM_range (P := fun p v => (pr.IsGrad e p v fun a =>
        Like.Finite.gradLike (pr.val (.tensor tn)) (pr.val (.tensor ty)) (pr.derOf e der) p a) ∧ ((der p).Spans (pr.nd p) → pr.Whole p v)) fun p hp => ?_
  have hL := hpr.layoutY p p
  have hyY : Piece (pr.layout p p).noY ty := hyp.change rfl rfl rfl (Or.inl hyx) (Or.inl hyy)
  have hzp : Piece (pr.layout p p).noY z := z2.change rfl rfl rfl (Or.inl z3) (Or.inl z4)
  obtain ⟨dz, t1, t2, -, -, t3⟩ := num_sumOutcomes hL (hd p hp) (ho p hp)
  obtain ⟨a, a1, a2, -, -, a3, a4⟩ := num_div hL (hd p hp) hyY hyx hyy
  obtain ⟨b, b1, b2, -, -, b3, b4⟩ := num_div hL t2 hzp z3 z4
  obtain ⟨c, c1, c2, -, -, c3, c4⟩ := num_add hL a2 b2 (op := .sub) (by simp)
  obtain ⟨w, w1, w2, -, -, -, w3, w4⟩ := num_mul hL (v := .tensor tn) (Or.inl (vN.pieceY p p).1) c2
    (Or.inl vN.hx) (Or.inl vN.hy)
  obtain ⟨r, r1, r2, r3⟩ := sum_grad hpr e w2 (w3 tn rfl (vN.pieceY p p) fun t ht =>
    num_add_piece hL (fun t ht => num_div_piece hL (hd p hp) hyY hyx hyy (ht ▸ a1)) b2 (by simp) c1 ht)
  refine ⟨r, ?_, isGrad_congr r2 fun i => ?_, fun hs => r3 (tall_times hL (vN.pieceY p p).1 vN.hx vN.hy (tall_add hL (Or.inr rfl) a2 b2 (Or.inl
    (tall_scale hL (Or.inr rfl) hyY hyx hyy (spans_tall (hd p hp) hs) a1)) c1) w1)⟩
  · rw [Function.comp_apply, t1, ok_bind, a1, ok_bind, b1, ok_bind, c1, ok_bind, w1, ok_bind, r1]
  · refine Finset.sum_congr rfl fun k _ => ?_
    have hz0 : Like.Finite.sumDim (pr.val (.tensor ty)) k.1 ≠ 0 := (Like.sumDim_pos _ hpos k).ne'
    rw [w4, c4, a4 _ (by rw [model_at hyp hyx hyy]; exact (hpos k).ne'), b4 _ (by rw [z5]; exact hz0), z5, model_at hyp hyx hyy, t3]
    show _ = tn.dense _ * (_ - (pr.layout p p).sumOut (der p).dense _ / _)
    rw [vN.at, sumOut_at]
    rfl

/-- `Finite.hess_like` -/
theorem C63_finite_hess {pr : Problem} (hpr : pr.Ok) {N y : Num ℝ} (hN : pr.IsData N) (hy : pr.IsModel y)
    (hyo : OutcomesFull (pr.layout 0 0) y) (hpos : ∀ c, 0 < pr.val y c) {m : Nat} {der : Nat → Num ℝ} (hd : ∀ p < m, pr.IsDer p (der p))
    (ho : ∀ p < m, OutcomesFull (pr.layout p p) (der p)) {hess : Nat → Nat → Num ℝ}
    (hh : ∀ p < m, ∀ q ≤ p, pr.IsHess p q (hess p q))
    (hho : ∀ p < m, ∀ q ≤ p, OutcomesFull (pr.layout p q) (hess p q)) (e : Nat → Nat → Nat → Nat) :
    ∃ H, FiniteT.hessLike N y (row m der) (triangle m hess) = .ok (triangle m H) ∧
      ∀ p < m, ∀ q ≤ p, (pr.IsBlock e p q (H p q) fun a b =>
        Like.Finite.hessLike (pr.val N) (pr.val y) (pr.derOf e der) (pr.hessOf e hess) p q a b) ∧
        ((der p).Spans (pr.nd p) → (der q).Spans (pr.nd q) → pr.Whole2 p q (H p q)) := by
  obtain ⟨tn, rfl, vN⟩ := data_vfull hN
  obtain ⟨ty, rfl, hyp, hyx, hyy⟩ := hy
  obtain ⟨z, z1, z2, z3, z4, z5⟩ := finite_total hpr hyp hyx hyy hyo
  obtain ⟨dz, dz1, dz2⟩ := mapM_range (f := fun p => (der p).sumOutcomes) (P := fun p v => pr.IsDer p v ∧
      ∀ i, v.dense i = (pr.layout p p).noY.sumOut (der p).dense i) (m := m) fun p hp => by
    obtain ⟨dz, t1, t2, -, -, t3⟩ := num_sumOutcomes (hpr.layoutY p p) (hd p hp) (ho p hp)
    exact ⟨dz, t1, t2, t3⟩
  unfold FiniteT.hessLike
  rw [show (row m der).length = m by simp [row], z1, ok_bind]
  rw [show (row m der).mapM (fun d => d.sumOutcomes) = .ok (row m dz) by
    unfold row; rw [List.mapM_map]; exact dz1, ok_bind]
  refine blocks_ok (α := ℝ) (P := fun p q v => (pr.IsBlock e p q v fun a b =>
        Like.Finite.hessLike (pr.val (.tensor tn)) (pr.val (.tensor ty)) (pr.derOf e der) (pr.hessOf e hess)
          p q a b) ∧ ((der p).Spans (pr.nd p) → (der q).Spans (pr.nd q) → pr.Whole2 p q v)) fun p hp q hq => ?_
  have hL := hpr.layout p q
  have hq' := lt_of_le_of_lt hq hp
  have hyP : Piece (pr.layout p q) ty := hyp.change rfl rfl rfl (Or.inl hyx) (Or.inl hyy)
  have hzp : Piece (pr.layout p q) z := z2.change rfl rfl rfl (Or.inl z3) (Or.inl z4)
  obtain ⟨hz, k1, k2, -, -, k3⟩ := num_sumOutcomes hL (hh p hp q hq) (hho p hp q hq)
  obtain ⟨a, b, c, s, a1, b1, c1, s1, s2, -, s3, st, s4⟩ := second_log hpr (hh p hp q hq) (hd p hp) (hd q hq')
    hyP hyx hyy
  obtain ⟨a', b', c', s', a1', b1', c1', s1', s2', s3', -, -, s4'⟩ := second_log hpr k2 (dz2 p hp).1 (dz2 q hq').1
    hzp z3 z4
  obtain ⟨f, f1, f2, -, -, f3, f4⟩ := num_add hL s2 s2' (op := .sub) (by simp)
  obtain ⟨w, w1, w2, -, -, -, w3, w4⟩ := num_mul hL (v := .tensor tn) (Or.inl (vN.piece p q).1) f2
    (Or.inl vN.hx) (Or.inl vN.hy)
  obtain ⟨r, r1, r2, r3⟩ := sum_block hpr e w2 (w3 tn rfl (vN.piece p q) fun t ht =>
    num_add_piece hL s3 s2' (by simp) f1 ht)
  refine ⟨r, ?_, isBlock_congr r2 fun i j => ?_, fun h1 h2 => r3 (tall_times hL (vN.piece p q).1 vN.hx vN.hy (tall_add hL (Or.inr rfl) s2 s2'
    (Or.inl (st h1 h2)) f1) w1)⟩
  · rw [pick2_range hp hq, ok_bind, k1, ok_bind, pick_range hp, ok_bind, pick_range hq', ok_bind, a1, ok_bind, b1,
      ok_bind, c1, ok_bind, s1, ok_bind, pick_range hp, ok_bind, pick_range hq', ok_bind, a1', ok_bind, b1', ok_bind, c1',
      ok_bind, s1', ok_bind, f1, ok_bind, w1, ok_bind, r1]
  · refine Finset.sum_congr rfl fun k _ => ?_
    have hz0 : Like.Finite.sumDim (pr.val (.tensor ty)) k.1 ≠ 0 := (Like.sumDim_pos _ hpos k).ne'
    rw [w4, f4, s4 _ _ _ (by rw [model_at hyp hyx hyy]; exact (hpos k).ne'), s4' _ _ _ (by rw [z5]; exact hz0), z5, model_at hyp hyx hyy,
      (dz2 p hp).2, (dz2 q hq').2, k3]
    show _ = tn.dense _ * (_ - (_ - (pr.layout p p).sumOut (der p).dense _ * (pr.layout q q).sumOut (der q).dense _ / _) / _)
    rw [vN.at, sumOut_at, sumOut_at, sumOut_at]
    rfl

end Verif.Tens
