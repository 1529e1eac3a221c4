import Verif.Lemmas.Scale

/-!
# Scaled and shifted terms
-/

set_option linter.unusedSectionVars false

namespace Verif.Tens
open Verif.Params
open NDArray

variable {pr : Problem} {m : Nat}

theorem isVal_mul {v : Py ℝ} {c : ℝ} (a : ℝ) (h : v.IsVal c) : ∃ w, Py.mul (.num a) v = .ok w ∧ w.IsVal (a * c) := by
  rcases h with rfl | ⟨w, rfl, r, rfl, hw, h0, hc⟩
  · exact ⟨_, rfl, Or.inl rfl⟩
  by_cases ha : a = 0
  · subst ha
    refine ⟨_, py_zero_mul r, Or.inr ⟨_, rfl, _, rfl, Tensor.wf_nomap (by simp), rfl, ?_⟩⟩
    rw [zero_mul]
    rfl
  obtain ⟨w, w1, w2⟩ := py_mul_tensor ha r
  refine ⟨_, w1, Or.inr ⟨_, rfl, _, rfl, ?_, ?_, ?_⟩⟩
  · rcases w2 with ⟨rfl, -⟩ | rfl
    · exact hw
    · exact ⟨hw.ndim, hw.xLen, hw.yLen, hw.xRange, hw.yRange, hw.xOne, hw.yOne⟩
  · rcases w2 with ⟨rfl, -⟩ | rfl <;> exact h0
  · show w.get _ = _
    rcases w2 with ⟨rfl, rfl⟩ | rfl
    · rw [hc, one_mul]
    · rw [map_get, hc, mul_comm]

theorem isVal_add {v : Py ℝ} {c : ℝ} (b : ℝ) (h : v.IsVal c) : ∃ w, Py.add v (.num b) = .ok w ∧ w.IsVal (c + b) := by
  rcases h with rfl | ⟨w, rfl, r, rfl, hw, h0, hc⟩
  · exact ⟨_, rfl, Or.inl rfl⟩
  have h1 := hw.ndim
  have h2 := hw.xLen
  have h3 := hw.yLen
  have e1 : r.xMap = [] := List.eq_nil_of_length_eq_zero (by omega)
  have e2 : r.yMap = [] := List.eq_nil_of_length_eq_zero (by omega)
  by_cases hb : b = 0
  · subst hb
    refine ⟨.arr (.tensor r), ?_, Or.inr ⟨_, rfl, r, rfl, hw, h0, by rw [hc, add_zero]⟩⟩
    show (Num.scalarOp (.tensor r) .add 0).map Py.arr = _
    unfold Num.scalarOp Tensor.binScalar
    simp only [true_and, true_or, if_true]
    rfl
  · refine ⟨.arr (.tensor ⟨r.values.map fun v => v + b, r.xDim, r.yDim, r.dim, [], []⟩), ?_, Or.inr ⟨_, rfl, _, rfl, Tensor.wf_nomap h1, h0, ?_⟩⟩
    · show (Num.scalarOp (.tensor r) .add b).map Py.arr = _
      have e : r.toarray = .ok r.values := by
        unfold Tensor.toarray
        rw [e1, e2]
        rfl
      unfold Num.scalarOp Tensor.binScalar
      simp only [hb, false_and, reduceCtorEq, or_false, and_false, if_false, if_true, e]
      rfl
    · dsimp only
      rw [map_get, hc]

theorem hasPartial_affine {F : Theta → ℝ} {θ : Theta} {p e : Nat} {d : ℝ} (h : HasPartial F θ p e d) (a b : ℝ) :
    HasPartial (fun θ => a * F θ + b) θ p e (a * d) := by
  unfold HasPartial at h ⊢
  exact (h.const_mul a).add_const b

theorem hasPartial_mul {F : Theta → ℝ} {θ : Theta} {p e : Nat} {d : ℝ} (h : HasPartial F θ p e d) (a : ℝ) :
    HasPartial (fun θ => a * F θ) θ p e (a * d) := by
  unfold HasPartial at h ⊢
  exact h.const_mul a

theorem grads_inv {f : TFunc ℝ} {args : List (Tensor ℝ)} {n : Nat} (hn : args.length = n) {G : Nat → Py ℝ} (h : f.grads args = .ok (row n G)) :
    ∀ k < n, f.grad args k = .ok (G k) := by
  unfold TFunc.grads at h
  cases ho : f.gradOne with
  | true => rw [ho] at h; cases h
  | false =>
    rw [ho] at h
    have h : gradAll f.grad args = _ := h
    unfold gradAll at h
    rw [hn] at h
    exact fun k hk => mapM_inv h k (List.mem_range.2 hk)

theorem hesses_inv {f : TFunc ℝ} {args : List (Tensor ℝ)} {n : Nat} (hn : args.length = n) {G : Nat → Nat → Py ℝ} (h : f.hesses args = .ok (triangle n G)) :
    ∀ k < n, ∀ l ≤ k, f.hess args k l = .ok (G k l) := by
  unfold TFunc.hesses at h
  cases ho : f.hessOne with
  | true => rw [ho] at h; cases h
  | false =>
    rw [ho] at h
    have h : hessAll f.hess args = _ := h
    unfold hessAll at h
    rw [hn] at h
    exact fun k hk l hl => mapM_inv (mapM_inv h k (List.mem_range.2 hk)) l (List.mem_range.2 (by omega))

theorem grads_of {f : TFunc ℝ} (ho : f.gradOne = false) {args : List (Tensor ℝ)} {n : Nat} (hn : args.length = n) {G : Nat → Py ℝ}
    (h : ∀ k < n, f.grad args k = .ok (G k)) : f.grads args = .ok (row n G) := by
  rw [grads_eq ho]
  unfold gradAll
  rw [hn]
  exact mapM_list fun k hk => h k (List.mem_range.1 hk)

theorem hesses_of {f : TFunc ℝ} (ho : f.hessOne = false) {args : List (Tensor ℝ)} {n : Nat} (hn : args.length = n) {G : Nat → Nat → Py ℝ}
    (h : ∀ k < n, ∀ l ≤ k, f.hess args k l = .ok (G k l)) : f.hesses args = .ok (triangle n G) := by
  rw [hesses_eq ho]
  unfold hessAll
  rw [hn]
  exact mapM_list fun k hk => mapM_list fun l hl => h k (List.mem_range.1 hk) l (by have := List.mem_range.1 hl; omega)

theorem affine_grad {f : TFunc ℝ} (hg : f.gradNull = false) (a b : ℝ) (args : List (Tensor ℝ)) (k : Nat) {g : Py ℝ} (h : f.grad args k = .ok g) :
    (affineT f a b).grad args k = Py.mul (.num a) g := by
  show (if f.gradNull then nullFunc else _) = _
  rw [hg, if_neg (by simp), h]
  rfl

theorem affine_hess {f : TFunc ℝ} (hg : f.hessNull = false) (a b : ℝ) (args : List (Tensor ℝ)) (k l : Nat) {g : Py ℝ} (h : f.hess args k l = .ok g) :
    (affineT f a b).hess args k l = Py.mul (.num a) g := by
  show (if f.hessNull then nullFunc else _) = _
  rw [hg, if_neg (by simp), h]
  rfl

theorem affine_call {f : TFunc ℝ} {args : List (Tensor ℝ)} {v : Py ℝ} {c : ℝ} (a b : ℝ) (h : f.call args = .ok v) (hv : v.IsVal c) :
    ∃ w, (affineT f a b).call args = .ok w ∧ w.IsVal (a * c + b) := by
  obtain ⟨w, w1, w2⟩ := isVal_mul a hv
  obtain ⟨x, x1, x2⟩ := isVal_add b w2
  refine ⟨x, ?_, x2⟩
  show (f.call args >>= fun v => Py.mul (.num a) v >>= fun v => Py.add v (.num b)) = _
  rw [h, ok_bind', w1, ok_bind', x1]

/-- `a * f + b = 0` is a constraint if `f = 0` is one and `a` is not 0. -/
theorem constraint_affine {N : Numbering pr m} {pm : List Nat} {f : TFunc ℝ} {val : Theta → ℝ} {der : Theta → Nat → Nat → ℝ}
    (h : IsConstraint N ⟨pm, f⟩ val der) (hg : f.gradNull = false) (hh : f.hessNull = false) {a : ℝ} (ha : a ≠ 0) (b : ℝ) :
    IsConstraint N ⟨pm, affineT f a b⟩ (fun θ => a * val θ + b) (fun θ p e => a * der θ p e) where
  ne := h.ne
  lt := h.lt
  inc := h.inc
  call θ args hA := by
    obtain ⟨v, v1, v2⟩ := h.call θ args hA
    exact affine_call a b v1 v2
  grad θ args hA := by
    obtain ⟨T, t1, t2⟩ := h.grad θ args hA
    have t1 := grads_inv hA.1 t1
    choose w w1 w2 using fun k => py_mul_tensor ha (T k)
    refine ⟨fun k => ⟨w k, (T k).xDim, (T k).yDim, (T k).dim, (T k).xMap, (T k).yMap⟩, grads_of hg hA.1 fun k hk => ?_, fun k hk => ?_⟩
    · rw [affine_grad hg a b args k (t1 k hk), w1]
    · obtain ⟨r, r1, r2, r3, r4⟩ := t2 k hk
      dsimp only at r2 r3 r4 ⊢
      rcases w2 k with ⟨e, e1⟩ | e
      · refine ⟨r, ?_, r2, r3, fun x hE => ?_⟩
        · rw [e]; exact r1
        · rw [r4 x hE, e1, one_mul]
      · obtain ⟨s, s1, s2⟩ := sumAll_scale a r1
        refine ⟨s, ?_, by rw [s2.1, r2], fun j hj => ?_, fun x hE => ?_⟩
        · rw [e]; exact s1
        · rw [s2.2.1]; exact r3 j (by rw [← s2.1]; exact hj)
        · rw [s2.bget, r4 x hE, mul_comm]
  hess θ args hA := by
    obtain ⟨U, u1⟩ := h.hess θ args hA
    have u1 := hesses_inv hA.1 u1
    choose w w1 w2 using fun k l => py_mul_tensor ha (U k l)
    refine ⟨fun k l => ⟨w k l, (U k l).xDim, (U k l).yDim, (U k l).dim, (U k l).xMap, (U k l).yMap⟩, hesses_of hh hA.1 fun k hk l hl => ?_⟩
    rw [affine_hess hh a b args k l (u1 k hk l hl), w1]
  zero θ p e hp := by
    have := h.zero θ p e hp
    show a * _ = 0
    rw [this, mul_zero]
  partials θ p hp e hE := hasPartial_affine (h.partials θ p hp e hE) a b

theorem dense_scale {t : Tensor ℝ} {w : NDArray ℝ} {a : ℝ} (hw : w = t.values ∧ a = 1 ∨ w = t.values.map fun v => v * a) (i : Idx) :
    (⟨w, t.xDim, t.yDim, t.dim, t.xMap, t.yMap⟩ : Tensor ℝ).dense i = a * t.dense i := by
  rcases hw with ⟨rfl, rfl⟩ | rfl
  · rw [one_mul]
  · rw [Tensor.dense_map]
    unfold Tensor.dense
    split_ifs
    · exact mul_comm _ _
    · rw [mul_zero]

theorem wf_scale {t : Tensor ℝ} {w : NDArray ℝ} {a : ℝ} (hw : w = t.values ∧ a = 1 ∨ w = t.values.map fun v => v * a) (h : t.WF) :
    (⟨w, t.xDim, t.yDim, t.dim, t.xMap, t.yMap⟩ : Tensor ℝ).WF := by
  rcases hw with ⟨rfl, -⟩ | rfl
  · exact h
  · exact ⟨h.ndim, h.xLen, h.yLen, h.xRange, h.yRange, h.xOne, h.yOne⟩

theorem shape_scale {t : Tensor ℝ} {w : NDArray ℝ} {a : ℝ} (hw : w = t.values ∧ a = 1 ∨ w = t.values.map fun v => v * a) : w.shape = t.values.shape ∧ w.ndim = t.values.ndim := by
  rcases hw with ⟨rfl, -⟩ | rfl <;> exact ⟨rfl, rfl⟩

theorem isGrad_mul {e : Nat → Nat → Nat → Nat} {p : Nat} {v : Num ℝ} {F : Nat → ℝ} (h : pr.IsGrad e p v F) (a : ℝ) :
    ∃ w, Py.mul (.num a) (.arr v) = .ok (.arr w) ∧ pr.IsGrad e p w fun x => a * F x := by
  obtain ⟨r, rfl, h1, h2, h3, h4, h5, ⟨h6, h7, h8⟩, h9⟩ := h
  by_cases ha : a = 0
  · subst ha
    refine ⟨_, py_zero_mul r, _, rfl, Tensor.wf_nomap (by simp), Or.inl rfl, rfl, rfl, rfl, ⟨rfl, rfl, fun j hj => absurd hj (Nat.not_lt_zero j)⟩, fun x i _ _ => ?_⟩
    rw [const_dense]
    exact (zero_mul _).symm
  · obtain ⟨w, w1, w2⟩ := py_mul_tensor ha r
    obtain ⟨s1, s2⟩ := shape_scale w2
    refine ⟨_, w1, _, rfl, wf_scale w2 h1, h2, h3, ?_, h5, ⟨h6, h7, fun k hk => ?_⟩, fun x i hi hE => ?_⟩
    · unfold Tensor.n at h4 ⊢
      dsimp only
      rw [s2, h4]
    · show w.shape k = _ ∨ w.shape k = 1
      rw [s1]; exact h8 k hk
    · rw [dense_scale w2, h9 x i hi hE]

theorem isBlock_mul {e : Nat → Nat → Nat → Nat} {p q : Nat} {v : Num ℝ} {F : Nat → Nat → ℝ} (h : pr.IsBlock e p q v F) (a : ℝ) :
    ∃ w, Py.mul (.num a) (.arr v) = .ok (.arr w) ∧ pr.IsBlock e p q w fun x y => a * F x y := by
  obtain ⟨r, rfl, h1, h2, h3, h4, h5, ⟨h6, h7, h8, h8'⟩, h9⟩ := h
  by_cases ha : a = 0
  · subst ha
    refine ⟨_, py_zero_mul r, _, rfl, Tensor.wf_nomap (by simp), Or.inl rfl, Or.inl rfl, rfl, rfl,
      ⟨rfl, rfl, fun j hj => absurd hj (Nat.not_lt_zero j), fun j hj => absurd hj (Nat.not_lt_zero j)⟩, fun x y i _ _ _ _ => ?_⟩
    rw [const_dense]
    exact (zero_mul _).symm
  · obtain ⟨w, w1, w2⟩ := py_mul_tensor ha r
    obtain ⟨s1, s2⟩ := shape_scale w2
    refine ⟨_, w1, _, rfl, wf_scale w2 h1, h2, h3, ?_, h5, ⟨h6, h7, fun k hk => ?_, fun k hk => ?_⟩, fun x y i hi hi' hE hE' => ?_⟩
    · unfold Tensor.n at h4 ⊢
      dsimp only
      rw [s2, h4]
    · show w.shape k = _ ∨ w.shape k = 1
      rw [s1]; exact h8 k hk
    · show w.shape _ = _ ∨ w.shape _ = 1
      rw [s1]; exact h8' k hk
    · rw [dense_scale w2, h9 x y i hi hi' hE hE']

/-- `a * φ + b` is a penalty if `φ` is one. -/
theorem penalty_affine {N : Numbering pr m} {pm : List Nat} {f : TFunc ℝ} {val : Theta → ℝ} {der : Theta → Nat → Nat → ℝ} {hes : Theta → Nat → Nat → Nat → Nat → ℝ}
    (h : IsPenalty N ⟨pm, f⟩ val der hes) (hg : f.gradNull = false) (hh : f.hessNull = false) (a b : ℝ) :
    IsPenalty N ⟨pm, affineT f a b⟩ (fun θ => a * val θ + b) (fun θ p e => a * der θ p e) (fun θ p q e e' => a * hes θ p q e e') where
  lt := h.lt
  inc := h.inc
  call θ args hA := by
    obtain ⟨v, v1, v2⟩ := h.call θ args hA
    exact affine_call a b v1 v2
  grad θ args hA := by
    obtain ⟨G, g1, g2⟩ := h.grad θ args hA
    have g1 := grads_inv hA.1 g1
    have : ∀ k, ∃ w, k < pm.length → Py.mul (.num a) (.arr (G k)) = .ok (.arr w) ∧ pr.IsGrad N.e (pm.getD k 0) w fun x => a * der θ (pm.getD k 0) x := by
      intro k
      by_cases hk : k < pm.length
      · obtain ⟨w, hw⟩ := isGrad_mul (g2 k hk) a
        exact ⟨w, fun _ => hw⟩
      · exact ⟨G k, fun c => absurd c hk⟩
    choose w hw using this
    refine ⟨w, grads_of hg hA.1 fun k hk => ?_, fun k hk => (hw k hk).2⟩
    rw [affine_grad hg a b args k (g1 k hk), (hw k hk).1]
  hess θ args hA := by
    obtain ⟨G, g1, g2⟩ := h.hess θ args hA
    have g1 := hesses_inv hA.1 g1
    have : ∀ k l, ∃ w, k < pm.length → l ≤ k → Py.mul (.num a) (.arr (G k l)) = .ok (.arr w) ∧
        pr.IsBlock N.e (pm.getD k 0) (pm.getD l 0) w fun x y => a * hes θ (pm.getD k 0) (pm.getD l 0) x y := by
      intro k l
      by_cases hk : k < pm.length ∧ l ≤ k
      · obtain ⟨w, hw⟩ := isBlock_mul (g2 k hk.1 l hk.2) a
        exact ⟨w, fun _ _ => hw⟩
      · exact ⟨G k l, fun c c' => absurd ⟨c, c'⟩ hk⟩
    choose w hw using this
    refine ⟨w, hesses_of hh hA.1 fun k hk l hl => ?_, fun k hk l hl => (hw k l hk hl).2⟩
    rw [affine_hess hh a b args k l (g1 k hk l hl), (hw k l hk hl).1]
  zero θ p e hp := by
    have := h.zero θ p e hp
    show a * _ = 0
    rw [this, mul_zero]
  zero2 θ p q x y hp := by
    have := h.zero2 θ p q x y hp
    show a * _ = 0
    rw [this, mul_zero]
  partials θ p hp e hE := hasPartial_affine (h.partials θ p hp e hE) a b
  partials2 θ p hp q hq x y hE hE' := hasPartial_mul (h.partials2 θ p hp q hq x y hE hE') a

end Verif.Tens
