import Verif.Lemmas.Blocks
import Verif.Props.Likelihood

/-!
# C63: the likelihood methods, computed with Tensors, return the likelihood and its derivatives

The methods `like`, `grad_like` and `hess_like` of the six classes, computed operation by operation with Tensors and
GenericTensors (`Model/LikeTensor.lean`), succeed on the arrays of a problem (`Spec/Layout.lean`) and return arrays
with the entries that `Model/Likelihood.lean` describes; with C19 and C20 these are the derivatives.
-/

set_option linter.unusedSectionVars false

namespace Verif.Tens
open Verif.Params (Err)
open NDArray

theorem ok_bind {β γ : Type} (a : β) (f : β → Except Err γ) : ((Except.ok a : Except Err β) >>= f) = f a := rfl

theorem VFull.isVal {pr : Problem} {t : Tensor ℝ} (h : VFull pr t) : IsVal (pr.layout 0 0) t :=
  ⟨h.full.1.wf, h.hx, h.hy, Or.inl h.full.1⟩

theorem IsVal.vfull {pr : Problem} {t : Tensor ℝ} (h : IsVal (pr.layout 0 0) t) (hf : FullPiece (pr.layout 0 0) t) :
    VFull pr t := ⟨hf, h.hx, h.hy⟩

theorem data_vfull {pr : Problem} {v : Num ℝ} (h : pr.IsData v) : ∃ t, v = .tensor t ∧ VFull pr t := by
  obtain ⟨t, rfl, ht⟩ := h
  exact ⟨t, rfl, ht.full.piece ht.piece, ht.hx, ht.hy⟩

theorem model_isVal {pr : Problem} {v : Num ℝ} (h : pr.IsModel v) :
    ∃ t, v = .tensor t ∧ IsVal (pr.layout 0 0) t ∧ Piece (pr.layout 0 0) t := by
  obtain ⟨t, rfl, ht, hx, hy⟩ := h
  exact ⟨t, rfl, ⟨ht.wf, hx, hy, Or.inl ht⟩, ht⟩

theorem isGrad_congr {pr : Problem} {e : Nat → Nat → Nat → Nat} {p : Nat} {v : Num ℝ} {F F' : Nat → ℝ}
    (h : pr.IsGrad e p v F) (hF : ∀ a, F' a = F a) : pr.IsGrad e p v F' := by
  rw [funext hF]; exact h

theorem isBlock_congr {pr : Problem} {e : Nat → Nat → Nat → Nat} {p q : Nat} {v : Num ℝ} {F F' : Nat → Nat → ℝ}
    (h : pr.IsBlock e p q v F) (hF : ∀ a b, F' a b = F a b) : pr.IsBlock e p q v F' := by
  rw [show F' = F from funext fun a => funext fun b => hF a b]; exact h

theorem isNumber_congr {v : Num ℝ} {x x' : ℝ} (h : IsNumber v x) (hx : x' = x) : IsNumber v x' := by
  rw [hx]; exact h

/-- A position. -/
def origin : Idx := ⟨fun _ => 0, fun _ => 0, fun _ => 0, fun _ => 0⟩

/-! ### Poisson -/

/-- `N * np.exp(y)` and `X - N * np.exp(y)` -/
theorem poisson_delta {pr : Problem} (hpr : pr.Ok) {tx tn ty : Tensor ℝ} (hX : VFull pr tx) (hN : VFull pr tn)
    (hy : IsVal (pr.layout 0 0) ty) :
    ∃ e b c, (Num.tensor ty).ufunc Real.exp = .ok (.tensor e) ∧ (Num.tensor tn).bin (.tensor e) .mul = .ok (.tensor b) ∧
      (Num.tensor tx).bin (.tensor b) .sub = .ok (.tensor c) ∧ VFull pr b ∧ VFull pr c ∧
      (∀ i, b.dense i = tn.dense i * Real.exp (ty.dense i)) ∧ ∀ i, c.dense i = tx.dense i - b.dense i := by
  have hL := hpr.layout 0 0
  obtain ⟨e, e1, e2, e3, e4, e5⟩ := val_ufunc hy Real.exp
  obtain ⟨b, b1, b2, b3, b4, b5, b6, b7⟩ := val_op hL hN.isVal e2 (op := .mul) (by simp) (by simp)
  have hb := b6 hN.full (Or.inr (Or.inr ⟨⟨fun _ => 0, fun _ => 0, fun _ => 0, fun _ => 0⟩, by
    rw [e5]; exact Real.exp_ne_zero _⟩))
  obtain ⟨c, c1, c2, c3, c4, c5, c6, c7⟩ := val_op hL hX.isVal b2 (op := .sub) (by simp) (by simp)
  refine ⟨e, b, c, e1, b1, c1, b2.vfull hb, c2.vfull (c5 hb), fun i => ?_, fun i => ?_⟩
  · rw [b7 i (by simp), e5]; rfl
  · rw [c7 i (by simp)]; rfl

/-- `Poisson.like` -/
theorem C63_poisson_like {pr : Problem} (hpr : pr.Ok) {X N y : Num ℝ} (hX : pr.IsData X) (hN : pr.IsData N)
    (hy : pr.IsModel y) :
    ∃ v, PoissonT.like X N y = .ok v ∧ IsNumber v (Like.Poisson.like (pr.val X) (pr.val N) (pr.val y)) := by
  obtain ⟨tx, rfl, vX⟩ := data_vfull hX
  obtain ⟨tn, rfl, vN⟩ := data_vfull hN
  obtain ⟨ty, rfl, vy, hyp⟩ := model_isVal hy
  have hL := hpr.layout 0 0
  obtain ⟨e, b, -, e1, b1, -, hb, -, b7, -⟩ := poisson_delta hpr vX vN vy
  obtain ⟨a, a1, a2, a3, a4, a5, a6, a7⟩ := val_op hL vX.isVal vy (op := .mul) (by simp) (by simp)
  have ha := a6 vX.full (Or.inl hyp)
  obtain ⟨c, c1, c2, c3, c4, c5, c6, c7⟩ := val_op hL a2 hb.isVal (op := .sub) (by simp) (by simp)
  obtain ⟨x, x1, x2, x3, x4, x5⟩ := num_scalar vX.isVal (op := .add) (c := (1 : ℝ)) (by simp)
  obtain ⟨g, g1, g2, g3, g4, g5⟩ := val_ufunc x2 Like.gammaln
  have hg := g4 (x4 (Or.inl one_ne_zero) vX.full)
  obtain ⟨s, s1, s2, s3, s4, s5, s6, s7⟩ := val_op hL c2 g2 (op := .sub) (by simp) (by simp)
  obtain ⟨r, r1, r2⟩ := sum_number hpr (s2.vfull (s5 hg))
  refine ⟨r, ?_, ?_⟩
  · unfold PoissonT.like
    rw [a1, ok_bind, e1, ok_bind, b1, ok_bind, c1, ok_bind, x1, ok_bind, g1, ok_bind, s1, ok_bind, r1]
  · have e' : Like.Poisson.like (pr.val (.tensor tx)) (pr.val (.tensor tn)) (pr.val (.tensor ty)) =
        ∑ c, pr.val (.tensor s) c := by
      unfold Like.Poisson.like
      refine Finset.sum_congr rfl fun k _ => ?_
      show _ = s.dense _
      rw [s7 _ (by simp), c7 _ (by simp), a7 _ (by simp), b7, g5, x5]
      rfl
    rw [e']
    exact r2

/-- `Poisson.grad_like` -/
theorem C63_poisson_grad {pr : Problem} (hpr : pr.Ok) {X N y : Num ℝ} (hX : pr.IsData X) (hN : pr.IsData N)
    (hy : pr.IsModel y) {m : Nat} {der : Nat → Num ℝ} (hd : ∀ p < m, pr.IsDer p (der p)) (e : Nat → Nat → Nat → Nat) :
    ∃ G, PoissonT.gradLike X N y (row m der) = .ok (row m G) ∧
      ∀ p < m, (pr.IsGrad e p (G p) fun a =>
        Like.Poisson.gradLike (pr.val X) (pr.val N) (pr.val y) (pr.derOf e der) p a) ∧ ((der p).Spans (pr.nd p) → pr.Whole p (G p)) := by
  obtain ⟨tx, rfl, vX⟩ := data_vfull hX
  obtain ⟨tn, rfl, vN⟩ := data_vfull hN
  obtain ⟨ty, rfl, vy, hyp⟩ := model_isVal hy
  obtain ⟨ex, b, c, e1, b1, c1, hb, hc, b7, c7⟩ := poisson_delta hpr vX vN vy
  obtain ⟨G, g1, g2⟩ := gradBlocks_ok hpr e hd hc
  refine ⟨G, ?_, fun p hp => ?_⟩
  · unfold PoissonT.gradLike
    rw [e1, ok_bind, b1, ok_bind, c1, ok_bind, g1]
  · have e' : (fun a => Like.Poisson.gradLike (pr.val (.tensor tx)) (pr.val (.tensor tn)) (pr.val (.tensor ty))
        (pr.derOf e der) p a) = fun a => ∑ k, pr.derOf e der p a k * pr.val (.tensor c) k := by
      funext a
      refine Finset.sum_congr rfl fun k _ => congrArg _ ?_
      show _ = c.dense _
      rw [c7, b7]
      rfl
    rw [e']
    exact g2 p hp

/-- `Poisson.hess_like` -/
theorem C63_poisson_hess {pr : Problem} (hpr : pr.Ok) {X N y : Num ℝ} (hX : pr.IsData X) (hN : pr.IsData N)
    (hy : pr.IsModel y) {m : Nat} {der : Nat → Num ℝ} (hd : ∀ p < m, pr.IsDer p (der p)) {hess : Nat → Nat → Num ℝ}
    (hh : ∀ p < m, ∀ q ≤ p, pr.IsHess p q (hess p q)) (e : Nat → Nat → Nat → Nat) :
    ∃ H, PoissonT.hessLike X N y (row m der) (triangle m hess) = .ok (triangle m H) ∧
      ∀ p < m, ∀ q ≤ p, (pr.IsBlock e p q (H p q) fun a b =>
        Like.Poisson.hessLike (pr.val X) (pr.val N) (pr.val y) (pr.derOf e der) (pr.hessOf e hess) p q a b) ∧
        ((der p).Spans (pr.nd p) → (der q).Spans (pr.nd q) → pr.Whole2 p q (H p q)) := by
  obtain ⟨tx, rfl, vX⟩ := data_vfull hX
  obtain ⟨tn, rfl, vN⟩ := data_vfull hN
  obtain ⟨ty, rfl, vy, hyp⟩ := model_isVal hy
  obtain ⟨ex, b, c, e1, b1, c1, hb, hc, b7, c7⟩ := poisson_delta hpr vX vN vy
  obtain ⟨H, g1, g2⟩ := hessBlocks_ok hpr e hd hh hc hb (op := .sub) (by simp)
  refine ⟨H, ?_, fun p hp q hq => ?_⟩
  · unfold PoissonT.hessLike
    rw [e1, ok_bind, b1, ok_bind, c1, ok_bind, g1]
  · have e' : (fun a b => Like.Poisson.hessLike (pr.val (.tensor tx)) (pr.val (.tensor tn)) (pr.val (.tensor ty))
        (pr.derOf e der) (pr.hessOf e hess) p q a b) = fun a b' => ∑ k, Op.app .sub
        (pr.hessOf e hess p q a b' k * pr.val (.tensor c) k)
        (pr.derOf e der p a k * pr.derOf e der q b' k * pr.val (.tensor b) k) := by
      funext a b'
      refine Finset.sum_congr rfl fun k _ => ?_
      show _ = _ * c.dense _ - _ * b.dense _
      rw [c7, b7]
      rfl
    rw [e']
    exact g2 p hp q hq

/-! ### zero-inflated Poisson -/

theorem zip_denom_ne {s : ℝ} (hs : 0 ≤ s) (E : ℝ) (hE : 0 < E) : 1 + (s - 1) * Real.exp (-E) ≠ 0 := by
  have h1 : Real.exp (-E) < 1 := by
    rw [Real.exp_lt_one_iff]; linarith
  have h2 := Real.exp_pos (-E)
  nlinarith

/-- `ZeroInflatedPoisson.like` -/
theorem C63_zeroInflatedPoisson_like {pr : Problem} (hpr : pr.Ok) (s : ℝ) {X N Z y : Num ℝ} (hX : pr.IsData X)
    (hN : pr.IsData N) (hZ : pr.IsData Z) (hy : pr.IsModel y) :
    ∃ v, ZeroInflatedPoissonT.like s X N Z y = .ok v ∧
      IsNumber v (Like.ZeroInflatedPoisson.like s (pr.val X) (pr.val N) (pr.val Z) (pr.val y)) := by
  obtain ⟨tx, rfl, vX⟩ := data_vfull hX
  obtain ⟨tn, rfl, vN⟩ := data_vfull hN
  obtain ⟨tz, rfl, vZ⟩ := data_vfull hZ
  obtain ⟨ty, rfl, vy, hyp⟩ := model_isVal hy
  have hL := hpr.layout 0 0
  obtain ⟨a, a1, a2, a3, a4, a5, a6, a7⟩ := val_op hL vX.isVal vy (op := .mul) (by simp) (by simp)
  have ha := a6 vX.full (Or.inl hyp)
  obtain ⟨b, b1, b2, b3, b4, b5⟩ := num_scalar vZ.isVal (op := .mul) (c := Real.log s) (by simp)
  obtain ⟨c, c1, c2, c3, c4, c5, c6, c7⟩ := val_op hL a2 b2 (op := .add) (by simp) (by simp)
  obtain ⟨e, e1, e2, e3, e4, e5⟩ := val_ufunc vy Real.exp
  obtain ⟨f, f1, f2, f3, f4, f5⟩ := val_ufunc e2 Real.exp
  obtain ⟨h, h1, h2, h3, h4, h5⟩ := num_scalar f2 (op := .add) (c := s) (by simp)
  obtain ⟨k, k1, k2, k3, k4, k5⟩ := num_scalar h2 (op := .sub) (c := (1 : ℝ)) (by simp)
  obtain ⟨l, l1, l2, l3, l4, l5⟩ := val_ufunc k2 Real.log
  have hl := l3 (k3 (Or.inl one_ne_zero) (h3 (Or.inr (by simp [Op.additive])) (f3 (e3 hyp))))
  obtain ⟨d, d1, d2, d3, d4, d5, d6, d7⟩ := val_op hL vN.isVal l2 (op := .mul) (by simp) (by simp)
  obtain ⟨q, q1, q2, q3, q4, q5, q6, q7⟩ := val_op hL c2 d2 (op := .sub) (by simp) (by simp)
  obtain ⟨x, x1, x2, x3, x4, x5⟩ := num_scalar vX.isVal (op := .add) (c := (1 : ℝ)) (by simp)
  obtain ⟨g, g1, g2, g3, g4, g5⟩ := val_ufunc x2 Like.gammaln
  have hg := g4 (x4 (Or.inl one_ne_zero) vX.full)
  obtain ⟨w, s1, s2, s3, s4, s5, s6, s7⟩ := val_op hL q2 g2 (op := .sub) (by simp) (by simp)
  obtain ⟨r, r1, r2⟩ := sum_number hpr (s2.vfull (s5 hg))
  refine ⟨r, ?_, isNumber_congr r2 ?_⟩
  · unfold ZeroInflatedPoissonT.like
    rw [a1, ok_bind, b1, ok_bind, c1, ok_bind, e1, ok_bind, f1, ok_bind, h1, ok_bind, k1, ok_bind, l1, ok_bind, d1, ok_bind,
      q1, ok_bind, x1, ok_bind, g1, ok_bind, s1, ok_bind, r1]
  · refine Finset.sum_congr rfl fun j _ => ?_
    show _ = w.dense _
    rw [s7 _ (by simp), q7 _ (by simp), c7 _ (by simp), a7 _ (by simp), b5, d7 _ (by simp), l5, k5, h5, f5, e5, g5, x5]
    rfl

/-- `np.exp(y)`, `np.exp(-exp_y)` and the denominator -/
theorem zip_denom {pr : Problem} (hpr : pr.Ok) (s : ℝ) (hs : 0 ≤ s) {ty : Tensor ℝ}
    (hy : IsVal (pr.layout 0 0) ty) (hyp : Piece (pr.layout 0 0) ty) :
    ∃ e n q, (Num.tensor ty).ufunc Real.exp = .ok (.tensor e) ∧
      ZeroInflatedPoissonT.expNeg (.tensor e) = .ok (.tensor n) ∧
      ZeroInflatedPoissonT.denom s (.tensor e) = .ok (.tensor q) ∧ IsVal (pr.layout 0 0) e ∧ IsVal (pr.layout 0 0) n ∧
      IsVal (pr.layout 0 0) q ∧ Piece (pr.layout 0 0) e ∧ Piece (pr.layout 0 0) n ∧ (∀ i, q.dense i ≠ 0) ∧
      (∀ i, e.dense i = Real.exp (ty.dense i)) ∧ (∀ i, n.dense i = Real.exp (- Real.exp (ty.dense i))) ∧
      ∀ i, q.dense i = 1 + (s - 1) * Real.exp (- Real.exp (ty.dense i)) := by
  obtain ⟨e, e1, e2, e3, e4, e5⟩ := val_ufunc hy Real.exp
  obtain ⟨f1, f2, f3, f4⟩ := val_neg e2
  obtain ⟨n, n1, n2, n3, n4, n5⟩ := val_ufunc f1 Real.exp
  obtain ⟨k, k1, k2, k3, k4, k5⟩ := num_scalar n2 (op := .mul) (c := s - 1) (by simp)
  obtain ⟨q, q1, q2, q3, q4, q5⟩ := num_scalar k2 (op := .add) (c := (1 : ℝ)) (by simp)
  have hn : ∀ i, n.dense i = Real.exp (- Real.exp (ty.dense i)) := fun i => by rw [n5, f4, e5]
  have hq : ∀ i, q.dense i = 1 + (s - 1) * Real.exp (- Real.exp (ty.dense i)) := fun i => by
    rw [q5, k5, hn]
    show _ * _ + 1 = _
    ring
  have hexp : ZeroInflatedPoissonT.expNeg (.tensor e) = .ok (.tensor n) := n1
  refine ⟨e, n, q, e1, hexp, ?_, e2, n2, q2, e3 hyp, n3 (f2 (e3 hyp)), fun i => ?_, e5, hn, hq⟩
  · unfold ZeroInflatedPoissonT.denom
    rw [hexp, ok_bind, k1, ok_bind, q1]
  · rw [hq]; exact zip_denom_ne hs _ (Real.exp_pos _)

/-- `ZeroInflatedPoisson.grad_like` -/
theorem C63_zeroInflatedPoisson_grad {pr : Problem} (hpr : pr.Ok) (s : ℝ) (hs : 0 ≤ s) {X N y : Num ℝ}
    (hX : pr.IsData X) (hN : pr.IsData N) (hy : pr.IsModel y) {m : Nat} {der : Nat → Num ℝ}
    (hd : ∀ p < m, pr.IsDer p (der p)) (e : Nat → Nat → Nat → Nat) :
    ∃ G, ZeroInflatedPoissonT.gradLike s X N y (row m der) = .ok (row m G) ∧
      ∀ p < m, (pr.IsGrad e p (G p) fun a =>
        Like.ZeroInflatedPoisson.gradLike s (pr.val X) (pr.val N) (pr.val y) (pr.derOf e der) p a) ∧ ((der p).Spans (pr.nd p) → pr.Whole p (G p)) := by
  obtain ⟨tx, rfl, vX⟩ := data_vfull hX
  obtain ⟨tn, rfl, vN⟩ := data_vfull hN
  obtain ⟨ty, rfl, vy, hyp⟩ := model_isVal hy
  have hL := hpr.layout 0 0
  obtain ⟨ex, n, q, e1, n1, q1, ve, vn, vq, pe, pn, hq0, de, dn, dq⟩ := zip_denom hpr s hs vy hyp
  obtain ⟨a, a1, a2, a3, a4, a5, a6, a7⟩ := val_op hL vN.isVal ve (op := .mul) (by simp) (by simp)
  have ha := a6 vN.full (Or.inl pe)
  obtain ⟨b, b1, b2, b3, b4, b5, b6, b7⟩ := val_op hL a2 vq (op := .div) (by simp) (fun _ => ⟨origin, hq0 _⟩)
  have hb := b6 ha (Or.inr (Or.inr ⟨origin, hq0 _⟩))
  obtain ⟨c, c1, c2, c3, c4, c5, c6, c7⟩ := val_op hL vX.isVal b2 (op := .sub) (by simp) (by simp)
  obtain ⟨G, g1, g2⟩ := gradBlocks_ok hpr e hd (c2.vfull (c5 hb))
  refine ⟨G, ?_, fun p hp => ⟨isGrad_congr (g2 p hp).1 fun i => ?_, (g2 p hp).2⟩⟩
  · unfold ZeroInflatedPoissonT.gradLike
    rw [e1, ok_bind, a1, ok_bind, q1, ok_bind, b1, ok_bind, c1, ok_bind, g1]
  · refine Finset.sum_congr rfl fun k _ => congrArg _ ?_
    show _ = c.dense _
    rw [c7 _ (by simp), b7 _ (fun _ => hq0 _), a7 _ (by simp), de, dq]
    rfl

/-- `ZeroInflatedPoisson.hess_like` -/
theorem C63_zeroInflatedPoisson_hess {pr : Problem} (hpr : pr.Ok) (s : ℝ) (hs : 0 ≤ s) {X N y : Num ℝ}
    (hX : pr.IsData X) (hN : pr.IsData N) (hy : pr.IsModel y) {m : Nat} {der : Nat → Num ℝ}
    (hd : ∀ p < m, pr.IsDer p (der p)) {hess : Nat → Nat → Num ℝ}
    (hh : ∀ p < m, ∀ q ≤ p, pr.IsHess p q (hess p q)) (e : Nat → Nat → Nat → Nat) :
    ∃ H, ZeroInflatedPoissonT.hessLike s X N y (row m der) (triangle m hess) = .ok (triangle m H) ∧
      ∀ p < m, ∀ q ≤ p, (pr.IsBlock e p q (H p q) fun a b =>
        Like.ZeroInflatedPoisson.hessLike s (pr.val X) (pr.val N) (pr.val y) (pr.derOf e der) (pr.hessOf e hess)
          p q a b) ∧
        ((der p).Spans (pr.nd p) → (der q).Spans (pr.nd q) → pr.Whole2 p q (H p q)) := by
  obtain ⟨tx, rfl, vX⟩ := data_vfull hX
  obtain ⟨tn, rfl, vN⟩ := data_vfull hN
  obtain ⟨ty, rfl, vy, hyp⟩ := model_isVal hy
  have hL := hpr.layout 0 0
  obtain ⟨ex, n, q, e1, n1, q1, ve, vn, vq, pe, pn, hq0, de, dn, dq⟩ := zip_denom hpr s hs vy hyp
  obtain ⟨t, t1, t2, t3, t4, t5, t6, t7⟩ := val_op hL ve vq (op := .div) (by simp) (fun _ => ⟨origin, hq0 _⟩)
  have ht := t4 pe (Or.inr (Or.inr ⟨origin, hq0 _⟩))
  obtain ⟨a, a1, a2, a3, a4, a5, a6, a7⟩ := val_op hL vN.isVal t2 (op := .mul) (by simp) (by simp)
  have ha := a6 vN.full (Or.inl ht)
  obtain ⟨b, b1, b2, b3, b4, b5, b6, b7⟩ := val_op hL vX.isVal a2 (op := .sub) (by simp) (by simp)
  have hb := b5 ha
  obtain ⟨c, c1, c2, c3, c4, c5⟩ := num_scalar t2 (op := .mul) (c := s - 1) (by simp)
  obtain ⟨f, f1, f2, f3, f4, f5, f6, f7⟩ := val_op hL c2 vn (op := .mul) (by simp) (by simp)
  obtain ⟨h, h1, h2, h3, h4, h5⟩ := num_scalar f2 (op := .add) (c := (1 : ℝ)) (by simp)
  have hh' := h3 (Or.inl one_ne_zero) (f3 pn)
  obtain ⟨w, w1, w2, w3, w4, w5, w6, w7⟩ := val_op hL a2 h2 (op := .mul) (by simp) (by simp)
  have hw := w6 ha (Or.inl hh')
  obtain ⟨H, g1, g2⟩ := hessBlocks_ok hpr e hd hh (b2.vfull hb) (w2.vfull hw) (op := .sub) (by simp)
  have dt : ∀ i, t.dense i = Like.ZeroInflatedPoisson.tOf s (ty.dense i) := fun i => by
    rw [t7 _ (fun _ => hq0 _), de, dq]; rfl
  refine ⟨H, ?_, fun p hp q hq => ⟨isBlock_congr (g2 p hp q hq).1 fun i j => ?_, (g2 p hp q hq).2⟩⟩
  · unfold ZeroInflatedPoissonT.hessLike
    rw [e1, ok_bind, q1, ok_bind, t1, ok_bind, a1, ok_bind, b1, ok_bind, ok_bind, c1, ok_bind, n1, ok_bind, f1, ok_bind, h1,
      ok_bind, w1, ok_bind, g1]
  · refine Finset.sum_congr rfl fun k _ => ?_
    show _ = _ * b.dense _ - _ * w.dense _
    rw [b7 _ (by simp), w7 _ (by simp), a7 _ (by simp), h5, f7 _ (by simp), c5, dn, dt]
    show _ * (_ - _ * _) - _ * (_ * (1 + _)) = _ * (_ - _ * _) - _ * (_ * (_ + 1))
    rw [add_comm _ (1 : ℝ)]
    rfl

/-! ### logistic -/

/-- `1 + np.exp(-y)` -/
theorem logistic_denom {pr : Problem} (hpr : pr.Ok) {ty : Tensor ℝ}
    (hy : IsVal (pr.layout 0 0) ty) (hyp : Piece (pr.layout 0 0) ty) :
    ∃ q, LogisticT.denom (.tensor ty) = .ok (.tensor q) ∧ IsVal (pr.layout 0 0) q ∧ Piece (pr.layout 0 0) q ∧
      (∀ i, q.dense i ≠ 0) ∧ ∀ i, q.dense i = 1 + Real.exp (- ty.dense i) := by
  obtain ⟨f1, f2, f3, f4⟩ := val_neg hy
  obtain ⟨n, n1, n2, n3, n4, n5⟩ := val_ufunc f1 Real.exp
  obtain ⟨q, q1, q2, q3, q4, q5⟩ := num_scalar n2 (op := .add) (c := (1 : ℝ)) (by simp)
  have hq : ∀ i, q.dense i = 1 + Real.exp (- ty.dense i) := fun i => by
    rw [q5, n5, f4]
    show _ + 1 = _
    ring
  refine ⟨q, ?_, q2, q3 (Or.inl one_ne_zero) (n3 (f2 hyp)), fun i => ?_, hq⟩
  · unfold LogisticT.denom
    show ((Num.tensor ty.neg).ufunc Real.exp >>= _) = _
    rw [n1, ok_bind, q1]
  · rw [hq]; have := Real.exp_pos (- ty.dense i); positivity

/-- `Logistic.like` -/
theorem C63_logistic_like {pr : Problem} (hpr : pr.Ok) {X N y : Num ℝ} (hX : pr.IsData X) (hN : pr.IsData N)
    (hy : pr.IsModel y) :
    ∃ v, LogisticT.like X N y = .ok v ∧ IsNumber v (Like.Logistic.like (pr.val X) (pr.val N) (pr.val y)) := by
  obtain ⟨tx, rfl, vX⟩ := data_vfull hX
  obtain ⟨tn, rfl, vN⟩ := data_vfull hN
  obtain ⟨ty, rfl, vy, hyp⟩ := model_isVal hy
  have hL := hpr.layout 0 0
  obtain ⟨q, q1, vq, pq, hq0, dq⟩ := logistic_denom hpr vy hyp
  obtain ⟨l, l1, l2, l3, l4, l5⟩ := val_ufunc vq Real.log
  obtain ⟨a, a1, a2, a3, a4, a5, a6, a7⟩ := val_op hL vN.isVal l2 (op := .mul) (by simp) (by simp)
  have ha := a6 vN.full (Or.inl (l3 pq))
  obtain ⟨d, d1, d2, d3, d4, d5, d6, d7⟩ := val_op hL vN.isVal vX.isVal (op := .sub) (by simp) (by simp)
  obtain ⟨b, b1, b2, b3, b4, b5, b6, b7⟩ := val_op hL d2 vy (op := .mul) (by simp) (by simp)
  have hb := b6 (d5 vX.full) (Or.inl hyp)
  obtain ⟨w, s1, s2, s3, s4, s5, s6, s7⟩ := val_op hL a2 b2 (op := .add) (by simp) (by simp)
  obtain ⟨r, r1, t, rfl, r3, r4, r5⟩ := sum_number hpr (s2.vfull (s5 hb))
  refine ⟨(Num.tensor t).neg, ?_, t.neg, rfl, ?_, r4, ?_⟩
  · unfold LogisticT.like
    rw [q1, ok_bind, l1, ok_bind, a1, ok_bind, d1, ok_bind, b1, ok_bind, s1, ok_bind, r1, ok_bind]
    rfl
  · exact r3.map _
  · show - t.values.get (fun k => if k < t.neg.values.ndim then (fun _ => 0) k else 0) = _
    rw [show (fun k => if k < t.neg.values.ndim then (fun _ => 0) k else 0) = fun _ => 0 by funext k; simp, r5]
    refine congrArg _ (Finset.sum_congr rfl fun j _ => ?_)
    show w.dense _ = _
    rw [s7 _ (by simp), a7 _ (by simp), b7 _ (by simp), d7 _ (by simp), l5, dq]
    rfl

/-- `Logistic.grad_like` -/
theorem C63_logistic_grad {pr : Problem} (hpr : pr.Ok) {X N y : Num ℝ} (hX : pr.IsData X) (hN : pr.IsData N)
    (hy : pr.IsModel y) {m : Nat} {der : Nat → Num ℝ} (hd : ∀ p < m, pr.IsDer p (der p)) (e : Nat → Nat → Nat → Nat) :
    ∃ G, LogisticT.gradLike X N y (row m der) = .ok (row m G) ∧
      ∀ p < m, (pr.IsGrad e p (G p) fun a =>
        Like.Logistic.gradLike (pr.val X) (pr.val N) (pr.val y) (pr.derOf e der) p a) ∧ ((der p).Spans (pr.nd p) → pr.Whole p (G p)) := by
  obtain ⟨tx, rfl, vX⟩ := data_vfull hX
  obtain ⟨tn, rfl, vN⟩ := data_vfull hN
  obtain ⟨ty, rfl, vy, hyp⟩ := model_isVal hy
  have hL := hpr.layout 0 0
  obtain ⟨q, q1, vq, pq, hq0, dq⟩ := logistic_denom hpr vy hyp
  obtain ⟨b, b1, b2, b3, b4, b5, b6, b7⟩ := val_op hL vN.isVal vq (op := .div) (by simp) (fun _ => ⟨origin, hq0 _⟩)
  have hb := b6 vN.full (Or.inl pq)
  obtain ⟨c, c1, c2, c3, c4, c5, c6, c7⟩ := val_op hL vX.isVal b2 (op := .sub) (by simp) (by simp)
  obtain ⟨G, g1, g2⟩ := gradBlocks_ok hpr e hd (c2.vfull (c5 hb))
  refine ⟨G, ?_, fun p hp => ⟨isGrad_congr (g2 p hp).1 fun i => ?_, (g2 p hp).2⟩⟩
  · unfold LogisticT.gradLike
    rw [q1, ok_bind, b1, ok_bind, c1, ok_bind, g1]
  · refine Finset.sum_congr rfl fun k _ => congrArg _ ?_
    show _ = c.dense _
    rw [c7 _ (by simp), b7 _ (fun _ => hq0 _), dq]
    rfl

/-- `Logistic.hess_like` -/
theorem C63_logistic_hess {pr : Problem} (hpr : pr.Ok) {X N y : Num ℝ} (hX : pr.IsData X) (hN : pr.IsData N)
    (hy : pr.IsModel y) {m : Nat} {der : Nat → Num ℝ} (hd : ∀ p < m, pr.IsDer p (der p)) {hess : Nat → Nat → Num ℝ}
    (hh : ∀ p < m, ∀ q ≤ p, pr.IsHess p q (hess p q)) (e : Nat → Nat → Nat → Nat) :
    ∃ H, LogisticT.hessLike X N y (row m der) (triangle m hess) = .ok (triangle m H) ∧
      ∀ p < m, ∀ q ≤ p, (pr.IsBlock e p q (H p q) fun a b =>
        Like.Logistic.hessLike (pr.val X) (pr.val N) (pr.val y) (pr.derOf e der) (pr.hessOf e hess) p q a b) ∧
        ((der p).Spans (pr.nd p) → (der q).Spans (pr.nd q) → pr.Whole2 p q (H p q)) := by
  obtain ⟨tx, rfl, vX⟩ := data_vfull hX
  obtain ⟨tn, rfl, vN⟩ := data_vfull hN
  obtain ⟨ty, rfl, vy, hyp⟩ := model_isVal hy
  have hL := hpr.layout 0 0
  obtain ⟨q, q1, vq, pq, hq0, dq⟩ := logistic_denom hpr vy hyp
  obtain ⟨t, t1, t2, t3, t4, t5⟩ := num_scalar vq (op := .rdiv) (c := (1 : ℝ)) (by simp)
  have ht := t3 (Or.inl one_ne_zero) pq
  obtain ⟨a, a1, a2, a3, a4, a5, a6, a7⟩ := val_op hL t2 vN.isVal (op := .mul) (by simp) (by simp)
  obtain ⟨b, b1, b2, b3, b4, b5, b6, b7⟩ := val_op hL vX.isVal a2 (op := .sub) (by simp) (by simp)
  have hb := b5 (a5 vN.full)
  obtain ⟨c, c1, c2, c3, c4, c5⟩ := num_scalar t2 (op := .rsub) (c := (1 : ℝ)) (by simp)
  obtain ⟨f, f1, f2, f3, f4, f5, f6, f7⟩ := val_op hL t2 c2 (op := .mul) (by simp) (by simp)
  obtain ⟨w, w1, w2, w3, w4, w5, w6, w7⟩ := val_op hL f2 vN.isVal (op := .mul) (by simp) (by simp)
  obtain ⟨H, g1, g2⟩ := hessBlocks_ok hpr e hd hh (b2.vfull hb) (w2.vfull (w5 vN.full)) (op := .sub) (by simp)
  refine ⟨H, ?_, fun p hp q hq => ⟨isBlock_congr (g2 p hp q hq).1 fun i j => ?_, (g2 p hp q hq).2⟩⟩
  · unfold LogisticT.hessLike
    rw [q1, ok_bind, t1, ok_bind, a1, ok_bind, b1, ok_bind, c1, ok_bind, f1, ok_bind, w1, ok_bind, g1]
  · refine Finset.sum_congr rfl fun k _ => ?_
    show _ = _ * b.dense _ - _ * w.dense _
    rw [b7 _ (by simp), w7 _ (by simp), a7 _ (by simp), f7 _ (by simp), c5, t5, dq]
    rfl

end Verif.Tens
