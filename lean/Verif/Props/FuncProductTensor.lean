import Verif.Props.FuncSumTensor
import Verif.Spec.ProductTensor
import Verif.Lemmas.ArrStep
import Verif.Lemmas.ProdAlgebra

/-!
# C66: `Product` on Tensors
-/

set_option linter.unusedSectionVars false

namespace Verif.Tens
open Verif.Params (Err)
open NDArray

section
variable {pr : Problem} {m : Nat} {N : Numbering pr m}

/-! ### the function and its derivatives -/

/-- The product of the first `s` functions. -/
def prodVal (val : Nat → Val) (s : Nat) : Val := fun θ n d => ∏ i ∈ Finset.range s, val i θ n d

/-- Its derivatives. -/
def prodDer (val : Nat → Val) (der : Nat → Der) : Nat → Der
  | 0 => fun _ _ _ _ _ => 0
  | s + 1 => fun θ p a n d => prodVal val s θ n d * der s θ p a n d + val s θ n d * prodDer val der s θ p a n d

/-- Its second derivatives. -/
def prodHess (val : Nat → Val) (der : Nat → Der) (hess : Nat → Hes) : Nat → Hes
  | 0 => fun _ _ _ _ _ _ _ => 0
  | s + 1 => fun θ p q a b n d => prodVal val s θ n d * hess s θ p q a b n d + val s θ n d * prodHess val der hess s θ p q a b n d +
      prodDer val der s θ p a n d * der s θ q b n d + der s θ p a n d * prodDer val der s θ q b n d

theorem prodVal_succ (val : Nat → Val) (s : Nat) : prodVal val (s + 1) = fun θ n d => prodVal val s θ n d * val s θ n d := by
  funext θ n d
  exact Finset.prod_range_succ _ _

theorem partial_mul {f g : Theta → ℝ} {θ : Theta} {p a : Nat} {x y : ℝ} (hf : HasPartial f θ p a x) (hg : HasPartial g θ p a y) :
    HasPartial (fun θ => f θ * g θ) θ p a (f θ * y + g θ * x) := by
  unfold HasPartial at *
  have h := HasDerivAt.fun_mul hf hg
  simp only [Theta.set_self] at h
  rw [show f θ * y + g θ * x = x * g θ + f θ * y by ring]
  exact h

theorem partial_add {f g : Theta → ℝ} {θ : Theta} {p a : Nat} {x y : ℝ} (hf : HasPartial f θ p a x) (hg : HasPartial g θ p a y) :
    HasPartial (fun θ => f θ + g θ) θ p a (x + y) := HasDerivAt.fun_add hf hg

theorem smooth_one (dom : Theta → Prop) : Smooth pr N dom (fun _ _ _ => 1) (fun _ _ _ _ _ => 0) (fun _ _ _ _ _ _ _ => 0) where
  hd _ _ _ _ _ _ _ _ _ := hasDerivAt_const _ _
  hh _ _ _ _ _ _ _ _ _ _ _ _ _ := hasDerivAt_const _ _

theorem smooth_mul {dom dom2 : Theta → Prop} {val val2 : Val} {der der2 : Der} {hess hess2 : Hes} (h : Smooth pr N dom val der hess)
    (h2 : Smooth pr N dom2 val2 der2 hess2) :
    Smooth pr N (fun θ => dom θ ∧ dom2 θ) (fun θ n d => val θ n d * val2 θ n d)
      (fun θ p a n d => val θ n d * der2 θ p a n d + val2 θ n d * der θ p a n d)
      (fun θ p q a b n d => val θ n d * hess2 θ p q a b n d + val2 θ n d * hess θ p q a b n d + der θ p a n d * der2 θ q b n d +
        der2 θ p a n d * der θ q b n d) where
  hd θ hθ p hp a ha n d hnd := partial_mul (h.hd θ hθ.1 p hp a ha n d hnd) (h2.hd θ hθ.2 p hp a ha n d hnd)
  hh θ hθ p hp q hq a b ha hb n d hnd := by
    have hq' : q < m := by omega
    have := partial_add (partial_mul (h.hd θ hθ.1 q hq' b hb n d hnd) (h2.hh θ hθ.2 p hp q hq a b ha hb n d hnd))
      (partial_mul (h2.hd θ hθ.2 q hq' b hb n d hnd) (h.hh θ hθ.1 p hp q hq a b ha hb n d hnd))
    rw [show val θ n d * hess2 θ p q a b n d + val2 θ n d * hess θ p q a b n d + der θ p a n d * der2 θ q b n d +
        der2 θ p a n d * der θ q b n d = val θ n d * hess2 θ p q a b n d + der2 θ p a n d * der θ q b n d +
        (val2 θ n d * hess θ p q a b n d + der θ p a n d * der2 θ q b n d) by ring]
    exact this

theorem smooth_prod {dom : Nat → Theta → Prop} {val : Nat → Val} {der : Nat → Der} {hess : Nat → Hes} :
    ∀ {r : Nat}, (∀ i < r, Smooth pr N (dom i) (val i) (der i) (hess i)) →
    Smooth pr N (fun θ => ∀ i < r, dom i θ) (prodVal val r) (prodDer val der r) (prodHess val der hess r)
  | 0, _ => by
    have e : prodVal val 0 = fun _ _ _ => 1 := by funext θ n d; simp [prodVal]
    rw [e]
    exact smooth_one _
  | r + 1, h => by
    have h1 := smooth_prod (r := r) fun i hi => h i (by omega)
    have h2 := smooth_mul h1 (h r (by omega))
    rw [prodVal_succ]
    exact ⟨fun θ hθ => h2.hd θ ⟨fun i hi => hθ i (by omega), hθ r (by omega)⟩, fun θ hθ => h2.hh θ ⟨fun i hi => hθ i (by omega), hθ r (by omega)⟩⟩

/-! ### how the partial products are stored -/

section flags
variable (K : Nat → Nat → Prop) (st : Nat → Store) (F : Prop)

/-- An axis is stored in full size in the values of factor `l`. -/
def axV (l k : Nat) : Prop := K l k ∨ (st l).tot ∧ (st l).full k

/-- The values of the product of the factors `A`. -/
def pvF (A : Nat → Prop) : Flags where
  ax k := (∀ l, A l → axV K st l k) ∨ (∀ l, A l → (st l).tot) ∧ ∃ l, A l ∧ axV K st l k
  mapped := True
  live := ∀ l, A l → (st l).tot
  clean := True
  single := True
  dead := False
  wide := False
  span := False

/-- Axes of the derivatives of the product of the factors `A`. -/
def axP (A : Nat → Prop) (k : Nat) : Prop := (∀ l, A l → K l k) ∨ F ∧ ∃ l, A l ∧ K l k

/-- The derivatives of the product of the first `s` factors. -/
def pdF (s p : Nat) : Flags where
  ax := axP K F (· < s)
  mapped := ∀ l < s, (st l).mapped
  live := ∃ l < s, (st l).used p
  clean := F
  single := ∃ i < s, (st i).single p ∧ ∀ j < s, j ≠ i → (st j).dead p
  dead := ∀ l < s, (st l).dead p
  wide := F
  span := ∃ l < s, (st l).used p ∧ ∀ j < s, j ≠ l → (st j).tot

/-- The second derivatives. -/
def phF (s p q : Nat) : Flags := ⟨axP K F (· < s), ∀ l < s, (st l).mapped, ∀ l < s, (st l).curved p q ∧ (st l).used q, F, False, False, False, False⟩

variable {K st F}

theorem pvF_succ (s : Nat) : (pvF K st (· < s + 1)).Le ((pvF K st (· < s)).times (valF (K s) (st s))) := by
  refine ⟨fun k hk => ?_, fun _ => ⟨trivial, trivial⟩, fun h => h s (Nat.lt_succ_self s), fun _ => Or.inr (Or.inl ⟨trivial, trivial⟩),
    fun _ => ⟨trivial, trivial⟩, fun h => h.elim, fun h => h.elim, fun h => h.elim⟩
  rcases hk with hk | ⟨ht, l, hl, hk⟩
  · exact Or.inl ⟨Or.inl fun l hl => hk l (Nat.lt_succ_of_lt hl), hk s (Nat.lt_succ_self s)⟩
  · have ht' : ∀ l, l < s → (st l).tot := fun l hl => ht l (Nat.lt_succ_of_lt hl)
    refine Or.inr (Or.inl ⟨⟨⟨ht', trivial⟩, trivial, Or.inr trivial⟩, ?_⟩)
    by_cases hls : l < s
    · exact Or.inl (Or.inr ⟨ht', l, hls, hk⟩)
    · have hls' : l = s := by have : l < s + 1 := hl; omega
      rw [hls'] at hk
      exact Or.inr hk

theorem pvF_one : (pvF K st (· < 0 + 1)).Le (valF (K 0) (st 0)) := by
  refine ⟨fun k hk => ?_, fun _ => trivial, fun h => h 0 (Nat.lt_succ_self 0), fun _ => trivial, fun _ => trivial, fun h => h.elim, fun h => h.elim, fun h => h.elim⟩
  rcases hk with hk | ⟨ht, l, hl, hk⟩
  · exact hk 0 (Nat.lt_succ_self 0)
  · have hl0 : l = 0 := by have : l < 0 + 1 := hl; omega
    rw [hl0] at hk
    exact hk

theorem axP_one {k : Nat} (h : axP K F (· < 0 + 1) k) : K 0 k := by
  rcases h with h | ⟨-, l, hl, h⟩
  · exact h 0 (Nat.lt_succ_self 0)
  · have hl0 : l = 0 := by have : l < 0 + 1 := hl; omega
    rw [hl0] at h
    exact h

/-- An axis of the product of the first `s + 1` factors. -/
theorem axP_succ {s k : Nat} (h : axP K F (· < s + 1) k) : ((∀ l < s, K l k) ∧ K s k) ∨ F ∧ ((∃ l < s, K l k) ∨ K s k) := by
  rcases h with h | ⟨hF, l, hl, h⟩
  · exact Or.inl ⟨fun l hl => h l (Nat.lt_succ_of_lt hl), h s (Nat.lt_succ_self s)⟩
  · refine Or.inr ⟨hF, ?_⟩
    by_cases hls : l < s
    · exact Or.inl ⟨l, hls, h⟩
    · have hls' : l = s := by have : l < s + 1 := hl; omega
      rw [hls'] at h
      exact Or.inr h

theorem pdF_one {p : Nat} (hF : F → (st 0).clean) :
    (pdF K st F (0 + 1) p).Le ((derF (K 0) (st 0) p).plus ((valF (K 0) (st 0)).times zeroF)) := by
  have h0 : 0 < 0 + 1 := Nat.lt_succ_self 0
  have hz : ∀ {i : Nat}, i < 0 + 1 → i = 0 := fun h => by omega
  refine ⟨fun k hk => ⟨axP_one hk, Or.inr (Or.inr ⟨trivial, trivial⟩)⟩, fun h => ⟨h 0 h0, trivial, trivial⟩, ?_,
    fun h => ⟨hF h, Or.inr (Or.inl ⟨trivial, trivial⟩)⟩, ?_, fun h => ⟨h 0 h0, trivial, trivial⟩,
    fun h => ⟨hF h, trivial, trivial⟩, ?_⟩
  · rintro ⟨l, hl, h⟩
    rw [hz hl] at h
    exact Or.inl h
  · rintro ⟨l, hl, h, -⟩
    rw [hz hl] at h
    exact Or.inl ⟨h, trivial, trivial⟩
  · rintro ⟨l, hl, h, -⟩
    rw [hz hl] at h
    exact Or.inl h

theorem phF_one {p q : Nat} (hF : F → (st 0).clean ∧ (st 0).single p ∧ (st 0).single q) :
    (phF K st F (0 + 1) p q).Le ((((hesF (K 0) (st 0) p q).plus ((valF (K 0) (st 0)).times zeroF)).plus (zeroF.times (derF (K 0) (st 0) q))).plus
      ((derF (K 0) (st 0) p).times zeroF)) := by
  have h0 : 0 < 0 + 1 := Nat.lt_succ_self 0
  refine ⟨fun k hk => ⟨⟨⟨axP_one hk, Or.inr (Or.inr ⟨trivial, trivial⟩)⟩, Or.inl ⟨trivial, axP_one hk⟩⟩, Or.inl ⟨axP_one hk, trivial⟩⟩,
    fun h => ⟨⟨⟨h 0 h0, trivial, trivial⟩, trivial, h 0 h0⟩, h 0 h0, trivial⟩, fun h => Or.inl (Or.inl (Or.inl (h 0 h0).1)),
    fun h => ⟨⟨⟨(hF h).1, Or.inr (Or.inl ⟨trivial, trivial⟩)⟩, Or.inr (Or.inl ⟨trivial, (hF h).2.2⟩)⟩, Or.inr (Or.inl ⟨(hF h).2.1, trivial⟩)⟩,
    fun h => h.elim, fun h => h.elim, fun h => h.elim, fun h => h.elim⟩

/-- What is needed about the factors if nothing is lost. -/
def FirmAt (st : Nat → Store) (F : Prop) (s p : Nat) : Prop := F → ∀ l ≤ s, (st l).tot ∧ (st l).clean ∧ (st l).used p

theorem pdF_succ {s p : Nat} (hs : 0 < s) (hF : FirmAt st F s p) :
    (pdF K st F (s + 1) p).Le (((pvF K st (· < s)).times (derF (K s) (st s) p)).plus ((valF (K s) (st s)).times (pdF K st F s p))) := by
  have hs1 : s < s + 1 := Nat.lt_succ_self s
  have hlt : ∀ {l}, l < s → l < s + 1 := fun h => Nat.lt_succ_of_lt h
  have ok1 : F → (pvF K st (· < s)).ok (derF (K s) (st s) p) := fun h =>
    ⟨⟨fun l hl => (hF h l (Nat.le_of_lt hl)).1, trivial⟩, (hF h s le_rfl).2.1, Or.inr trivial⟩
  have ok2 : F → (valF (K s) (st s)).ok (pdF K st F s p) := fun h => ⟨⟨(hF h s le_rfl).1, trivial⟩, h, Or.inr trivial⟩
  refine ⟨fun k hk => ?_, fun h => ⟨⟨trivial, h s hs1⟩, trivial, fun l hl => h l (hlt hl)⟩, ?_,
    fun h => ⟨Or.inl (ok1 h), Or.inl (ok2 h)⟩, ?_, fun h => ⟨⟨trivial, h s hs1⟩, trivial, fun l hl => h l (hlt hl)⟩,
    fun h => ⟨⟨(hF h s le_rfl).2.1, (hF h s le_rfl).2.1⟩, h, h⟩, ?_⟩
  · rcases axP_succ hk with ⟨h1, h2⟩ | ⟨hf, h⟩
    · exact ⟨Or.inl ⟨Or.inl fun l hl => Or.inl (h1 l hl), h2⟩, Or.inl ⟨Or.inl h2, Or.inl h1⟩⟩
    · refine ⟨Or.inr (Or.inl ⟨ok1 hf, ?_⟩), Or.inr (Or.inl ⟨ok2 hf, ?_⟩)⟩
      · rcases h with ⟨l, hl, h⟩ | h
        · exact Or.inl (Or.inr ⟨fun l hl => (hF hf l (Nat.le_of_lt hl)).1, l, hl, Or.inl h⟩)
        · exact Or.inr h
      · rcases h with h | h
        · exact Or.inr (Or.inr ⟨hf, h⟩)
        · exact Or.inl (Or.inl h)
  · rintro ⟨l, hl, h⟩
    by_cases hls : l < s
    · exact Or.inr ⟨l, hls, h⟩
    · rw [show l = s by omega] at h
      exact Or.inl h
  · rintro ⟨l, hl, h1, h2⟩
    by_cases hls : l < s
    · exact Or.inr ⟨⟨trivial, h2 s hs1 (by omega)⟩, trivial, l, hls, h1, fun j hj => h2 j (hlt hj)⟩
    · have hls' : l = s := by omega
      subst hls'
      exact Or.inl ⟨⟨trivial, h1⟩, trivial, fun j hj => h2 j (hlt hj) (by omega)⟩
  · rintro ⟨l, hl, h, ht⟩
    by_cases hls : l < s
    · exact Or.inr ⟨ht s hs1 (by omega), l, hls, h, fun j hj => ht j (hlt hj)⟩
    · have hls' : l = s := by omega
      subst hls'
      exact Or.inl ⟨fun j hj => ht j (hlt hj) (by omega), h⟩

theorem phF_succ {s p q : Nat} (hs : 0 < s) (hp : FirmAt st F s p) (hq : FirmAt st F s q) :
    (phF K st F (s + 1) p q).Le (((((pvF K st (· < s)).times (hesF (K s) (st s) p q)).plus ((valF (K s) (st s)).times (phF K st F s p q))).plus
      ((pdF K st F s p).times (derF (K s) (st s) q))).plus ((derF (K s) (st s) p).times (pdF K st F s q))) := by
  have hs1 : s < s + 1 := Nat.lt_succ_self s
  have hlt : ∀ {l}, l < s → l < s + 1 := fun h => Nat.lt_succ_of_lt h
  have ok1 : F → (pvF K st (· < s)).ok (hesF (K s) (st s) p q) := fun h =>
    ⟨⟨fun l hl => (hp h l (Nat.le_of_lt hl)).1, trivial⟩, (hp h s le_rfl).2.1, Or.inr trivial⟩
  have ok2 : F → (valF (K s) (st s)).ok (phF K st F s p q) := fun h => ⟨⟨(hp h s le_rfl).1, trivial⟩, h, Or.inr trivial⟩
  have ok3 : F → (pdF K st F s p).ok (derF (K s) (st s) q) := fun h =>
    ⟨⟨⟨0, hs, (hp h 0 (Nat.zero_le s)).2.2⟩, h⟩, (hq h s le_rfl).2.1, Or.inl (hq h s le_rfl).2.2⟩
  have ok4 : F → (derF (K s) (st s) p).ok (pdF K st F s q) := fun h =>
    ⟨⟨(hp h s le_rfl).2.2, (hp h s le_rfl).2.1⟩, h, Or.inl ⟨0, hs, (hq h 0 (Nat.zero_le s)).2.2⟩⟩
  have mp : (∀ l < s + 1, (st l).mapped) → (∀ l < s, (st l).mapped) ∧ (st s).mapped := fun h => ⟨fun l hl => h l (hlt hl), h s hs1⟩
  refine ⟨fun k hk => ?_, fun h => ⟨⟨⟨⟨trivial, (mp h).2⟩, trivial, (mp h).1⟩, (mp h).1, (mp h).2⟩, (mp h).2, (mp h).1⟩, fun h => Or.inl (Or.inl (Or.inl (h s hs1).1)),
    fun h => ⟨⟨⟨Or.inl (ok1 h), Or.inl (ok2 h)⟩, Or.inl (ok3 h)⟩, Or.inl (ok4 h)⟩, fun h => h.elim, fun h => h.elim, fun h => h.elim, fun h => h.elim⟩
  rcases axP_succ hk with ⟨h1, h2⟩ | ⟨hf, h⟩
  · exact ⟨⟨⟨Or.inl ⟨Or.inl fun l hl => Or.inl (h1 l hl), h2⟩, Or.inl ⟨Or.inl h2, Or.inl h1⟩⟩, Or.inl ⟨Or.inl h1, h2⟩⟩, Or.inl ⟨h2, Or.inl h1⟩⟩
  · have hP : (pvF K st (· < s)).ax k ∨ K s k := by
      rcases h with ⟨l, hl, h⟩ | h
      · exact Or.inl (Or.inr ⟨fun l hl => (hp hf l (Nat.le_of_lt hl)).1, l, hl, Or.inl h⟩)
      · exact Or.inr h
    have hD : axP K F (· < s) k ∨ K s k := h.imp (fun h => Or.inr ⟨hf, h⟩) id
    exact ⟨⟨⟨Or.inr (Or.inl ⟨ok1 hf, hP⟩), Or.inr (Or.inl ⟨ok2 hf, hD.symm.imp Or.inl id⟩)⟩, Or.inr (Or.inl ⟨ok3 hf, hD⟩)⟩,
      Or.inr (Or.inl ⟨ok4 hf, hD.symm⟩)⟩

end flags

/-! ### `Product.eval` -/

/-- What `eval` starts from. -/
def prodInit (m : Nat) : Ev3 ℝ := ⟨.num 1, row m fun _ => .arr zeroN, triangle m fun _ _ => .arr zeroN⟩

/-- The first step of the loop of `eval`. -/
theorem prod_first (hpr : pr.Ok) {fv : Flags} {fd : Nat → Flags} {fh : Nat → Nat → Flags} {V : Tensor ℝ} {D : Nat → Num ℝ}
    {H : Nat → Nat → Num ℝ} (h : Parts pr m fv fd fh V D H) {θ : Theta} {val : Val} {der : Der} {hess : Hes}
    (hr : ReadsAs pr N θ val der hess V D H) :
    ∃ D' H', Py.mul (.num 1) (.arr (.tensor V)) = .ok (.arr (.tensor V)) ∧
      (∀ p < m, prodGradEntry (prodInit m) ⟨.arr (.tensor V), row m fun p => .arr (D p), triangle m fun p q => .arr (H p q)⟩ p = .ok (.arr (D' p))) ∧
      (∀ p < m, ∀ q ≤ p, prodHessEntry (prodInit m) ⟨.arr (.tensor V), row m fun p => .arr (D p), triangle m fun p q => .arr (H p q)⟩ p q =
        .ok (.arr (H' p q))) ∧
      Parts pr m fv (fun p => (fd p).plus (fv.times zeroF))
        (fun p q => (((fh p q).plus (fv.times zeroF)).plus (zeroF.times (fd q))).plus ((fd p).times zeroF)) V D' H' ∧
      ReadsAs pr N θ val der hess V D' H' := by
  have hD : ∀ p < m, ∃ r, prodGradEntry (prodInit m) ⟨.arr (.tensor V), row m fun p => .arr (D p), triangle m fun p q => .arr (H p q)⟩ p =
        .ok (.arr r) ∧ Arr (pr.layout p p).noY ((fd p).plus (fv.times zeroF)) r ∧
        (((fd p).plus (fv.times zeroF)).wide → r.Wide (pr.nd p)) ∧ (((fd p).plus (fv.times zeroF)).span → r.Spans (pr.nd p)) ∧ ∀ i, r.dense i = (D p).dense i := by
    intro p hp
    have hL : (pr.layout p p).noY.Ok := ⟨hpr.2, hpr.1⟩
    obtain ⟨y, y1, y2, -, -, y5⟩ := (h.val p p).2.mul hL arr_zero (Or.inl h.vx) (Or.inl h.vy)
    obtain ⟨z, z1, z2, z3⟩ := (h.d p hp).add hL y2
    refine ⟨z, ?_, z2, fun hw => ?_, fun ht => ?_, fun i => ?_⟩
    rotate_left
    · exact wide_bin hL (h.d p hp).piece y2.piece (h.w p hp hw.1)
        (wide_mul hL (h.val p p).2.piece h.vx h.vy arr_zero.piece (zeroN_wide _) zeroN_clean y1) z1
    · exact spans_of_tall hL (tall_add hL (Or.inl rfl) (h.d p hp).piece y2.piece
        (Or.inl (spans_tall (h.d p hp).piece (h.t p hp (ht.resolve_right fun h => h.2)))) z1)
    rotate_left
    · unfold prodGradEntry prodInit
      dsimp only
      rw [pick_range hp, ok_bind', one_mul' (h.d p hp).piece, ok_bind', pick_range hp, ok_bind', zeroN, py_mul y1, ok_bind', py_add z1]
    · rw [z3, y5]
      have : (Num.tensor (Tensor.const (0 : ℝ))).dense i = 0 := zeroN_dense i
      rw [this]; ring
  have hH : ∀ p < m, ∀ q ≤ p, ∃ r, prodHessEntry (prodInit m) ⟨.arr (.tensor V), row m fun p => .arr (D p), triangle m fun p q => .arr (H p q)⟩ p q =
        .ok (.arr r) ∧
      Arr (pr.layout p q) ((((fh p q).plus (fv.times zeroF)).plus (zeroF.times (fd q))).plus ((fd p).times zeroF)) r ∧
      ∀ i, r.dense i = (H p q).dense i := by
    intro p hp q hq
    have hL := hpr.layout p q
    have hq' : q < m := by omega
    obtain ⟨y, y1, y2, -, -, y5⟩ := (h.val p q).1.mul hL arr_zero (Or.inl h.vx) (Or.inl h.vy)
    obtain ⟨z, z1, z2, z3⟩ := (h.h p hp q hq).add hL y2
    obtain ⟨a, a1, a2, a3⟩ := der_mul hpr (arr_zero (L := (pr.layout p p).noY)) (h.d q hq')
    obtain ⟨b, b1, b2, b3⟩ := z2.add hL a2
    obtain ⟨c, c1, c2, c3⟩ := der_mul hpr (h.d p hp) (arr_zero (L := (pr.layout q q).noY))
    obtain ⟨e, e1, e2, e3⟩ := b2.add hL c2
    refine ⟨e, ?_, e2, fun i => ?_⟩
    · unfold prodHessEntry prodInit
      dsimp only
      have t1 : Py.transpose (.arr (D q)) = .ok (.arr (D q).transpose) := rfl
      have t2 : Py.transpose (.arr zeroN) = .ok (.arr zeroN.transpose) := rfl
      rw [pick2_range hp hq, ok_bind', one_mul' (h.h p hp q hq).piece, ok_bind', pick2_range hp hq, ok_bind', zeroN, py_mul y1, ok_bind',
        py_add z1, ok_bind',
        pick_range hp, ok_bind', pick_range hq', ok_bind', t1, ok_bind', a1, ok_bind', py_add b1, ok_bind',
        pick_range hp, ok_bind', pick_range hq', ok_bind', ← zeroN, t2, ok_bind', zeroN, c1, ok_bind', py_add e1]
    · rw [e3, b3, z3, y5, a3, c3]
      have : ∀ i, (Num.tensor (Tensor.const (0 : ℝ))).dense i = 0 := zeroN_dense
      rw [this, this]; ring
  choose! D' d1 d2 d4 d5 d3 using hD
  choose! H' k1 k2 k3 using hH
  exact ⟨D', H', one_mul' h.v.piece, d1, k1, ⟨h.vx, h.vy, h.v, d2, k2, d4, d5⟩, hr.v, fun p hp a ha n d hnd y => by rw [d3 p hp, hr.d p hp a ha n d hnd],
    fun p hp q hq a b ha hb n d hnd => by rw [k3 p hp q hq, hr.h p hp q hq a b ha hb n d hnd]⟩

theorem prodInit_eq (m : Nat) : (⟨.num 1, List.replicate m zeroT, (List.range m).map fun i => List.replicate (i + 1) zeroT⟩ : Ev3 ℝ) = prodInit m := by
  unfold prodInit
  rw [zero_triangle]
  congr 1
  unfold row
  apply List.ext_getElem
  · simp
  · intro k h1 h2
    rw [List.getElem_map, List.getElem_replicate]; rfl

/-- One step of the loop, from the entries. -/
theorem prodStep_eq {ps : List (Tensor ℝ)} {acc e : Ev3 ℝ} {a : TFunc ℝ × Wrap} (he : a.2.eval a.1 ps = .ok e) {v : Py ℝ} {D : Nat → Num ℝ}
    {H : Nat → Nat → Num ℝ} (hv : Py.mul acc.val e.val = .ok v) (hd : ∀ p < m, prodGradEntry acc e p = .ok (.arr (D p)))
    (hh : ∀ p < m, ∀ q ≤ p, prodHessEntry acc e p q = .ok (.arr (H p q))) :
    prodStep m acc a ps = .ok ⟨v, row m fun p => .arr (D p), triangle m fun p q => .arr (H p q)⟩ := by
  unfold prodStep
  rw [he, ok_bind']
  have h1 : (List.range m).mapM (fun i => (List.range (i + 1)).mapM fun j => prodHessEntry acc e i j) = .ok (triangle m fun p q => .arr (H p q)) :=
    mapM_list fun p hp => mapM_list fun q hq => hh p (List.mem_range.1 hp) q (by have := List.mem_range.1 hq; omega)
  have h2 : (List.range m).mapM (fun i => prodGradEntry acc e i) = .ok (row m fun p => .arr (D p)) :=
    mapM_list fun p hp => hd p (List.mem_range.1 hp)
  rw [h1, ok_bind', h2, ok_bind', hv, ok_bind']

/-- `Product.eval` -/
theorem prod_eval (hpr : pr.Ok) {θ : Theta} {ps : List (Tensor ℝ)} (hm : ps.length = m) {f : Nat → TFunc ℝ} {g : Nat → Wrap}
    {K : Nat → Nat → Prop} {st : Nat → Store} {val : Nat → Val} {der : Nat → Der} {hess : Nat → Hes} {F : Prop} :
    ∀ {s : Nat}, (F → (∀ l < s + 1, (st l).tot ∧ (st l).clean ∧ ∀ p < m, (st l).used p) ∧ ∀ p < m, (st 0).single p) →
    (∀ i < s + 1, Returns pr N (K i) (st i) θ (val i) (der i) (hess i) ((wrapT (f i) (g i)).eval ps)) →
    ∃ V D H, (productT (row (s + 1) fun i => (f i, g i))).eval ps =
        .ok ⟨.arr (.tensor V), row m fun p => .arr (D p), triangle m fun p q => .arr (H p q)⟩ ∧
      Parts pr m (pvF K st (· < s + 1)) (pdF K st F (s + 1)) (phF K st F (s + 1)) V D H ∧
      ReadsAs pr N θ (prodVal val (s + 1)) (prodDer val der (s + 1)) (prodHess val der hess (s + 1)) V D H
  | 0, hF, ht => by
    obtain ⟨V, D, H, e, hv, hs⟩ := ht 0 (by omega)
    obtain ⟨hp, hr⟩ := values_parts hpr hv hs
    obtain ⟨D', H', v1, d1, h1, hp', hr'⟩ := prod_first hpr hp hr
    refine ⟨V, D', H', ?_, ⟨hp'.vx, hp'.vy, hp'.v.mono pvF_one, fun p hpm => (hp'.d p hpm).mono (pdF_one fun h => ((hF h).1 0 (by omega)).2.1),
      fun p hpm q hq => (hp'.h p hpm q hq).mono (phF_one fun h => ⟨((hF h).1 0 (by omega)).2.1, (hF h).2 p hpm, (hF h).2 q (by omega)⟩),
      fun p hpm hw => hp'.w p hpm ((pdF_one fun h => ((hF h).1 0 (by omega)).2.1).wide hw),
      fun p hpm hw => hp'.t p hpm ((pdF_one fun h => ((hF h).1 0 (by omega)).2.1).span hw)⟩, ?_⟩
    · show (row (0 + 1) fun i => (f i, g i)).foldlM (fun acc a => prodStep ps.length acc a ps)
          ⟨.num 1, List.replicate ps.length zeroT, (List.range ps.length).map fun i => List.replicate (i + 1) zeroT⟩ = _
      rw [foldlM_row_succ, hm, prodInit_eq]
      show prodStep m (prodInit m) (f 0, g 0) ps = _
      exact prodStep_eq (a := (f 0, g 0)) e v1 d1 h1
    · refine ⟨fun n d hnd x y => ?_, fun p hpm a ha n d hnd y => ?_, fun p hpm q hq a b ha hb n d hnd => ?_⟩
      · rw [hr'.v n d hnd]; simp [prodVal]
      · rw [hr'.d p hpm a ha n d hnd]; simp [prodVal, prodDer]
      · rw [hr'.h p hpm q hq a b ha hb n d hnd]; simp [prodVal, prodDer, prodHess]
  | s + 1, hF, ht => by
    obtain ⟨V, D, H, e, hp, hr⟩ := prod_eval hpr hm (s := s) (F := F) (fun h => ⟨fun l hl => (hF h).1 l (by omega), (hF h).2⟩)
      fun i hi => ht i (by omega)
    obtain ⟨V1, D1, H1, e1, hv1, hs1⟩ := ht (s + 1) (by omega)
    obtain ⟨hp1, hr1⟩ := values_parts hpr hv1 hs1
    obtain ⟨V', D', H', v2, d2, h2, hp2, hr2⟩ := prod_step hpr hp hp1 hr hr1
    have hFA : ∀ p < m, FirmAt st F (s + 1) p := fun p hp h l hl => ⟨((hF h).1 l (by omega)).1, ((hF h).1 l (by omega)).2.1, ((hF h).1 l (by omega)).2.2 p hp⟩
    refine ⟨V', D', H', ?_, ⟨hp2.vx, hp2.vy, hp2.v.mono (pvF_succ _), fun p hpm => (hp2.d p hpm).mono (pdF_succ (by omega) (hFA p hpm)),
      fun p hpm q hq => (hp2.h p hpm q hq).mono (phF_succ (by omega) (hFA p hpm) (hFA q (by omega))),
      fun p hpm hw => hp2.w p hpm ((pdF_succ (by omega) (hFA p hpm)).wide hw),
      fun p hpm hw => hp2.t p hpm ((pdF_succ (by omega) (hFA p hpm)).span hw)⟩, ?_⟩
    · show (row (s + 1 + 1) fun i => (f i, g i)).foldlM (fun acc a => prodStep ps.length acc a ps)
          ⟨.num 1, List.replicate ps.length zeroT, (List.range ps.length).map fun i => List.replicate (i + 1) zeroT⟩ = _
      rw [foldlM_row_succ]
      have e' : (row (s + 1) fun i => (f i, g i)).foldlM (fun acc a => prodStep ps.length acc a ps)
          ⟨.num 1, List.replicate ps.length zeroT, (List.range ps.length).map fun i => List.replicate (i + 1) zeroT⟩ =
          .ok ⟨.arr (.tensor V), row m fun p => .arr (D p), triangle m fun p q => .arr (H p q)⟩ := e
      rw [e', ok_bind2, hm]
      exact prodStep_eq (a := (f (s + 1), g (s + 1))) e1 v2 d2 h2
    · rw [prodVal_succ]
      exact hr2

/-! ### the three methods -/

section sep
variable {K : Nat → Nat → Prop} {st : Nat → Store} {V : Nat → Tensor ℝ}

/-- `P` is the product of the values of the factors `B`. -/
structure IsProd (pr : Problem) (K : Nat → Nat → Prop) (st : Nat → Store) (V : Nat → Tensor ℝ) (B : List Nat) (P : Tensor ℝ) : Prop where
  px : P.xDim = 0
  py : P.yDim = 0
  arr : Arr (pr.layout 0 0) (pvF K st (· ∈ B)) (.tensor P)
  dense : ∀ i, P.dense i = (B.map fun l => (V l).dense i).prod

theorem pvF_snoc (B : List Nat) (a : Nat) : (pvF K st (· ∈ B ++ [a])).Le ((pvF K st (· ∈ B)).times (valF (K a) (st a))) := by
  have ha : a ∈ B ++ [a] := by simp
  have hB : ∀ {l}, l ∈ B → l ∈ B ++ [a] := fun h => List.mem_append_left _ h
  refine ⟨fun k hk => ?_, fun _ => ⟨trivial, trivial⟩, fun h => h a ha, fun _ => Or.inr (Or.inl ⟨trivial, trivial⟩),
    fun _ => ⟨trivial, trivial⟩, fun h => h.elim, fun h => h.elim, fun h => h.elim⟩
  rcases hk with hk | ⟨ht, l, hl, hk⟩
  · exact Or.inl ⟨Or.inl fun l hl => hk l (hB hl), hk a ha⟩
  · have ht' : ∀ l, l ∈ B → (st l).tot := fun l hl => ht l (hB hl)
    refine Or.inr (Or.inl ⟨⟨⟨ht', trivial⟩, trivial, Or.inr trivial⟩, ?_⟩)
    rcases List.mem_append.1 hl with hl | hl
    · exact Or.inl (Or.inr ⟨ht', l, hl, hk⟩)
    · rw [List.mem_singleton.1 hl] at hk
      exact Or.inr hk

theorem pvF_single (a : Nat) : (pvF K st (· ∈ [a])).Le (valF (K a) (st a)) := by
  have ha : a ∈ [a] := by simp
  refine ⟨fun k hk => ?_, fun _ => trivial, fun h => h a ha, fun _ => trivial, fun _ => trivial, fun h => h.elim, fun h => h.elim, fun h => h.elim⟩
  rcases hk with hk | ⟨ht, l, hl, hk⟩
  · exact hk a ha
  · rw [List.mem_singleton.1 hl] at hk
    exact hk

/-- What is known about the values of factor `l`. -/
structure IsFactor (pr : Problem) (K : Nat → Nat → Prop) (st : Nat → Store) (V : Nat → Tensor ℝ) (l : Nat) : Prop where
  vx : (V l).xDim = 0
  vy : (V l).yDim = 0
  arr : Arr (pr.layout 0 0) (valF (K l) (st l)) (.tensor (V l))

theorem IsProd.mul (hpr : pr.Ok) {B : List Nat} {P : Tensor ℝ} (h : IsProd pr K st V B P) {a : Nat} (ha : IsFactor pr K st V a) :
    ∃ P', Py.mul (.arr (.tensor P)) (.arr (.tensor (V a))) = .ok (.arr (.tensor P')) ∧ IsProd pr K st V (B ++ [a]) P' := by
  obtain ⟨s, v1, v2, v3, v4, v5⟩ := h.arr.mul (hpr.layout 0 0) ha.arr (Or.inl h.px) (Or.inl h.py)
  obtain ⟨s', e1, -⟩ := item_mul (hpr.layout 0 0) h.arr.piece ha.arr.piece (Or.inl h.px) (Or.inl h.py)
  have e : (Num.tensor P).bin (.tensor (V a)) .mul = P.binTensor (V a) .mul := rfl
  have v1' := v1
  rw [e, e1] at v1'
  cases v1'
  have c1 := h.px
  have c2 := ha.vx
  have c3 := h.py
  have c4 := ha.vy
  refine ⟨s', py_mul v1, ⟨?_, ?_, v2.mono (pvF_snoc B a), fun i => ?_⟩⟩
  · have : s'.xDim ≤ max P.xDim (V a).xDim := v3
    omega
  · have : s'.yDim ≤ max P.yDim (V a).yDim := v4
    omega
  · have : s'.dense i = P.dense i * (V a).dense i := v5 i
    rw [this, h.dense, List.map_append, List.prod_append]
    simp

theorem prod_fold (hpr : pr.Ok) : ∀ (A : List Nat) {B : List Nat} {P : Tensor ℝ}, IsProd pr K st V B P → (∀ l ∈ A, IsFactor pr K st V l) →
    ∃ P', (A.map fun l => Py.arr (.tensor (V l))).foldlM Py.mul (.arr (.tensor P)) = .ok (.arr (.tensor P')) ∧ IsProd pr K st V (B ++ A) P'
  | [], B, P, h, _ => ⟨P, rfl, by rw [List.append_nil]; exact h⟩
  | a :: A, B, P, h, hA => by
    obtain ⟨P1, e1, h1⟩ := h.mul hpr (hA a List.mem_cons_self)
    obtain ⟨P2, e2, h2⟩ := prod_fold hpr A h1 fun l hl => hA l (List.mem_cons_of_mem _ hl)
    refine ⟨P2, ?_, by rw [List.append_cons]; exact h2⟩
    rw [List.map_cons, List.foldlM_cons, e1, ok_bind', e2]

/-- `reduce` over the values of the factors `A` -/
theorem prod_reduce (hpr : pr.Ok) {A : List Nat} (hne : A ≠ []) (hA : ∀ l ∈ A, IsFactor pr K st V l) :
    ∃ P, reduceMul (A.map fun l => Py.arr (.tensor (V l))) = .ok (.arr (.tensor P)) ∧ IsProd pr K st V A P := by
  cases A with
  | nil => exact absurd rfl hne
  | cons a A =>
    have ha := hA a List.mem_cons_self
    obtain ⟨P, e, h⟩ := prod_fold hpr A (B := [a]) (P := V a) ⟨ha.vx, ha.vy, ha.arr.mono (pvF_single a), fun i => by simp⟩
      fun l hl => hA l (List.mem_cons_of_mem _ hl)
    exact ⟨P, e, h⟩

theorem exceptIdx_row (r : Nat) (x : Nat → Py ℝ) (ex : List Nat) : exceptIdx (row r x) ex = (keep r ex).map x := by
  unfold exceptIdx keep
  have hl : (row r x).length = r := by simp [row]
  rw [hl, ← List.filterMap_eq_map, ← List.filterMap_eq_filter, List.filterMap_filterMap]
  refine List.filterMap_congr fun i hi => ?_
  have hi := List.mem_range.1 hi
  have hx : (row r x)[i]? = some (x i) := by
    unfold row
    rw [List.getElem?_map, List.getElem?_range hi]; rfl
  by_cases h : i ∈ ex
  · simp [h, Option.guard]
  · simp [h, hx, Option.guard]

/-- `x` is the product of the values of the factors `A`: the number 1 if there are none. -/
def ProdOf (pr : Problem) (K : Nat → Nat → Prop) (st : Nat → Store) (V : Nat → Tensor ℝ) (A : List Nat) (x : Py ℝ) : Prop :=
  (A = [] ∧ x = .num 1) ∨ ∃ P, x = .arr (.tensor P) ∧ IsProd pr K st V A P

theorem prodExcept_row (hpr : pr.Ok) {r : Nat} (hV : ∀ l < r, IsFactor pr K st V l) (ex : List Nat) :
    ∃ x, prodExcept (row r fun l => Py.arr (.tensor (V l))) ex = .ok x ∧ ProdOf pr K st V (keep r ex) x := by
  unfold prodExcept
  rw [exceptIdx_row]
  by_cases h : keep r ex = []
  · rw [h]
    exact ⟨.num 1, rfl, Or.inl ⟨rfl, rfl⟩⟩
  · obtain ⟨P, e, hP⟩ := prod_reduce hpr h fun l hl => hV l (mem_keep.1 hl).1
    rw [e]
    exact ⟨_, rfl, Or.inr ⟨P, rfl, hP⟩⟩

/-- What is known about the product of the values of the factors `A` with an array. -/
def tF (K : Nat → Nat → Prop) (st : Nat → Store) (A : List Nat) (g : Flags) : Flags where
  ax k := (∀ l ∈ A, K l k) ∧ g.ax k ∨ ((∀ l ∈ A, (st l).tot) ∧ g.clean) ∧ ((∃ l ∈ A, K l k) ∨ g.ax k)
  mapped := g.mapped
  live := g.live
  clean := (∀ l ∈ A, (st l).tot) ∧ g.clean
  single := g.single
  dead := g.dead
  wide := g.wide ∧ g.clean
  span := (∀ l ∈ A, (st l).tot) ∧ g.span

theorem tF_nil (g : Flags) : (tF K st [] g).Le g := by
  refine ⟨fun k hk => ?_, id, id, fun h => h.2, id, id, fun h => h.1, fun h => h.2⟩
  rcases hk with h | ⟨-, ⟨l, hl, -⟩ | h⟩
  · exact h.2
  · cases hl
  · exact h

theorem tF_times (A : List Nat) (g : Flags) : (tF K st A g).Le ((pvF K st (· ∈ A)).times g) := by
  have ok : (∀ l ∈ A, (st l).tot) ∧ g.clean → (pvF K st (· ∈ A)).ok g := fun h => ⟨⟨h.1, trivial⟩, h.2, Or.inr trivial⟩
  refine ⟨fun k hk => ?_, fun h => ⟨trivial, h⟩, id, fun h => Or.inl (ok h), fun h => ⟨trivial, h⟩, fun h => ⟨trivial, h⟩, id, id⟩
  rcases hk with h | ⟨h, h'⟩
  · exact Or.inl ⟨Or.inl fun l hl => Or.inl (h.1 l hl), h.2⟩
  · refine Or.inr (Or.inl ⟨ok h, h'.imp ?_ id⟩)
    rintro ⟨l, hl, hk⟩
    exact Or.inr ⟨h.1, l, hl, Or.inl hk⟩

/-- The product of the values of the factors `A` with an array. -/
theorem prod_times {A : List Nat} {x : Py ℝ} (hx : ProdOf pr K st V A x) {L : Layout} (hL : L.Ok) (hn : L.n = pr.n) (hd : L.d = pr.d)
    (hS : L.S = pr.S) {g : Flags} {v : Num ℝ} (hv : Arr L g v) :
    ∃ r, Py.mul x (.arr v) = .ok (.arr r) ∧ Arr L (tF K st A g) r ∧ (v.Wide L.a → v.Clean → r.Wide L.a) ∧
      ((∀ l ∈ A, (st l).tot) → NumTall L v → NumTall L r) ∧ ∀ i, r.dense i = (A.map fun l => (V l).dense i).prod * v.dense i := by
  rcases hx with ⟨rfl, rfl⟩ | ⟨P, rfl, hP⟩
  · exact ⟨v, one_mul' hv.piece, hv.mono (tF_nil g), fun h _ => h, fun _ h => h, fun i => by simp⟩
  · have hP' : Arr L (pvF K st (· ∈ A)) (.tensor P) := hP.arr.change hn hd hS (Or.inl hP.px) (Or.inl hP.py)
    obtain ⟨r, r1, r2, -, -, r5⟩ := hP'.mul hL hv (Or.inl hP.px) (Or.inl hP.py)
    refine ⟨r, py_mul r1, r2.mono (tF_times A g), fun h1 h2 => wide_mul hL hP'.piece hP.px hP.py hv.piece h1 h2 r1,
      fun ht h => tall_times hL (hP'.piece.resolve_right (hP'.live ht)) hP.px hP.py h r1, fun i => ?_⟩
    have : r.dense i = P.dense i * v.dense i := r5 i
    rw [this, hP.dense]

/-! sums -/

/-- `sum` of at least one array: flags. -/
def sumF (s : Nat) (g : Nat → Flags) : Flags where
  ax k := ∀ i < s, (g i).ax k
  mapped := ∀ i < s, (g i).mapped
  live := ∃ i < s, (g i).live
  clean := ∀ i < s, (g i).clean
  single := ∃ i < s, (g i).single ∧ ∀ j < s, j ≠ i → (g j).dead
  dead := ∀ i < s, (g i).dead
  wide := ∀ i < s, (g i).wide
  span := ∃ i < s, (g i).span

theorem sumF_one (g : Nat → Flags) : (sumF (0 + 1) g).Le (g 0) := by
  have key : ∀ {P : Nat → Prop}, (∃ i < 0 + 1, P i) → P 0 := by
    rintro P ⟨i, hi, hp⟩
    rw [show i = 0 by omega] at hp
    exact hp
  exact ⟨fun k h => h 0 (by omega), fun h => h 0 (by omega), key, fun h => h 0 (by omega), fun h => (key h).1, fun h => h 0 (by omega), fun h => h 0 (by omega), key⟩

theorem sumF_succ (s : Nat) (g : Nat → Flags) : (sumF (s + 1) g).Le ((sumF s g).plus (g s)) := by
  have hs : s < s + 1 := Nat.lt_succ_self s
  have hlt : ∀ {l}, l < s → l < s + 1 := fun h => Nat.lt_succ_of_lt h
  refine ⟨fun k h => ⟨fun i hi => h i (hlt hi), h s hs⟩, fun h => ⟨fun i hi => h i (hlt hi), h s hs⟩, ?_, fun h => ⟨fun i hi => h i (hlt hi), h s hs⟩,
    ?_, fun h => ⟨fun i hi => h i (hlt hi), h s hs⟩, fun h => ⟨fun i hi => h i (hlt hi), h s hs⟩, ?_⟩
  · rintro ⟨l, hl, h⟩
    by_cases hls : l < s
    · exact Or.inl ⟨l, hls, h⟩
    · rw [show l = s by omega] at h
      exact Or.inr h
  · rintro ⟨l, hl, h1, h2⟩
    by_cases hls : l < s
    · exact Or.inl ⟨⟨l, hls, h1, fun j hj => h2 j (hlt hj)⟩, h2 s hs (by omega)⟩
    · have hls' : l = s := by omega
      subst hls'
      exact Or.inr ⟨fun j hj => h2 j (hlt hj) (by omega), h1⟩
  · rintro ⟨l, hl, h⟩
    by_cases hls : l < s
    · exact Or.inl ⟨l, hls, h⟩
    · rw [show l = s by omega] at h
      exact Or.inr h

theorem arr_radd {L : Layout} (hL : L.Ok) {f : Flags} {v : Num ℝ} (h : Arr L f v) :
    Py.add (.num 0) (.arr v) = .ok (.arr v) ∧ Py.add (.arr v) (.num 0) = .ok (.arr v) := by
  have hs : NumSolid (fun _ => False) L v := h.solid hL fun _ h => h.elim
  constructor
  · show (v.scalarOp .add 0).map Py.arr = _
    rw [scalarOp_zero h.piece hs]; rfl
  · show (v.scalarOp .add 0).map Py.arr = _
    rw [scalarOp_zero h.piece hs]; rfl

theorem arr_sum {L : Layout} (hL : L.Ok) {g : Nat → Flags} {T : Nat → Num ℝ} : ∀ {s : Nat}, (∀ i < s + 1, Arr L (g i) (T i)) →
    ∃ r, pySum (row (s + 1) fun i => .arr (T i)) = .ok (.arr r) ∧ Arr L (sumF (s + 1) g) r ∧
      ((∀ i < s + 1, (T i).Wide L.a) → r.Wide L.a) ∧ ((∃ i < s + 1, NumTall L (T i)) → NumTall L r) ∧ ∀ i, r.dense i = ∑ k ∈ Finset.range (s + 1), (T k).dense i
  | 0, h => by
    refine ⟨T 0, ?_, (h 0 (by omega)).mono (sumF_one g), fun hw => hw 0 (by omega), ?_, fun i => by simp⟩
    swap
    · rintro ⟨i, hi, h⟩
      rw [show i = 0 by omega] at h
      exact h
    show (Py.add (.num 0) (.arr (T 0))).bind _ = _
    rw [(arr_radd hL (h 0 (by omega))).1]; rfl
  | s + 1, h => by
    obtain ⟨r, r1, r2, r4, r5, r3⟩ := arr_sum hL (s := s) fun i hi => h i (by omega)
    obtain ⟨r', e1, e2, e3⟩ := r2.add hL (h (s + 1) (by omega))
    refine ⟨r', ?_, e2.mono (sumF_succ _ g),
      fun hw => wide_bin hL r2.piece (h (s + 1) (by omega)).piece (r4 fun i hi => hw i (by omega)) (hw (s + 1) (by omega)) e1, ?_, fun i => by rw [e3, r3, Finset.sum_range_succ _ (s + 1)]⟩
    swap
    · rintro ⟨i, hi, hT⟩
      refine tall_add hL (Or.inl rfl) r2.piece (h (s + 1) (by omega)).piece ?_ e1
      by_cases his : i < s + 1
      · exact Or.inl (r5 ⟨i, his, hT⟩)
      · rw [show i = s + 1 by omega] at hT
        exact Or.inr hT
    unfold pySum at r1 ⊢
    rw [foldlM_row_succ, r1, ok_bind2, py_add e1]

/-- An intermediate sum: the number 0, or an array. -/
def PartSum (L : Layout) (G : Flags) (x : Py ℝ) (a : Idx → ℝ) : Prop :=
  (x = .num 0 ∧ ∀ i, a i = 0) ∨ ∃ v, x = .arr v ∧ Arr L G v ∧ ∀ i, v.dense i = a i

theorem PartSum.addArr {L : Layout} (hL : L.Ok) {G : Flags} (hG : G.Le (G.plus G)) {x : Py ℝ} {a : Idx → ℝ} (h : PartSum L G x a) {v : Num ℝ}
    (hv : Arr L G v) : ∃ r, Py.add x (.arr v) = .ok (.arr r) ∧ Arr L G r ∧ ∀ i, r.dense i = a i + v.dense i := by
  rcases h with ⟨rfl, h⟩ | ⟨w, rfl, hw, h⟩
  · exact ⟨v, (arr_radd hL hv).1, hv, fun i => by rw [h, zero_add]⟩
  · obtain ⟨r, e1, e2, e3⟩ := hw.add hL hv
    exact ⟨r, py_add e1, e2.mono hG, fun i => by rw [e3, h]⟩

theorem PartSum.add {L : Layout} (hL : L.Ok) {G : Flags} (hG : G.Le (G.plus G)) {x y : Py ℝ} {a b : Idx → ℝ} (h : PartSum L G x a) (hy : PartSum L G y b) :
    ∃ z, Py.add x y = .ok z ∧ PartSum L G z fun i => a i + b i := by
  rcases hy with ⟨rfl, h0⟩ | ⟨w, rfl, hw, hb⟩
  · rcases h with ⟨rfl, h⟩ | ⟨v, rfl, hv, h⟩
    · exact ⟨.num (0 + 0), rfl, Or.inl ⟨by rw [add_zero], fun i => by dsimp only; rw [h, h0, add_zero]⟩⟩
    · exact ⟨.arr v, (arr_radd hL hv).2, Or.inr ⟨v, rfl, hv, fun i => by dsimp only; rw [h, h0, add_zero]⟩⟩
  · obtain ⟨r, e1, e2, e3⟩ := h.addArr hL hG hw
    exact ⟨.arr r, e1, Or.inr ⟨r, rfl, e2, fun i => by dsimp only; rw [e3, hb]⟩⟩

/-- `sum` of a list of arrays -/
theorem acc_sum {L : Layout} (hL : L.Ok) {G : Flags} (hG : G.Le (G.plus G)) {T : Nat → Num ℝ} : ∀ (B : List Nat) {x : Py ℝ} {a : Idx → ℝ}, PartSum L G x a →
    (∀ l ∈ B, Arr L G (T l)) →
    ∃ z, (B.map fun l => Py.arr (T l)).foldlM Py.add x = .ok z ∧ PartSum L G z fun i => a i + (B.map fun l => (T l).dense i).sum
  | [], x, a, h, _ => ⟨x, rfl, by simpa using h⟩
  | b :: B, x, a, h, hB => by
    obtain ⟨r, e1, e2, e3⟩ := h.addArr hL hG (hB b List.mem_cons_self)
    obtain ⟨z, z1, z2⟩ := acc_sum hL hG B (x := .arr r) (Or.inr ⟨r, rfl, e2, fun i => rfl⟩) fun l hl => hB l (List.mem_cons_of_mem _ hl)
    refine ⟨z, ?_, ?_⟩
    · rw [List.map_cons, List.foldlM_cons, e1, ok_bind', z1]
    · have : (fun i => r.dense i + (B.map fun l => (T l).dense i).sum) = fun i => a i + ((b :: B).map fun l => (T l).dense i).sum := by
        funext i
        rw [List.map_cons, List.sum_cons, e3]; ring
      rw [← this]
      exact z2

theorem sum_filter (g : Nat → ℝ) (k : Nat) : ∀ r, (((List.range r).filter fun l => decide (k ≠ l)).map g).sum =
    ∑ l ∈ Finset.range r, if k ≠ l then g l else 0
  | 0 => rfl
  | r + 1 => by
    rw [List.range_succ, List.filter_append, List.map_append, List.sum_append, sum_filter g k r, Finset.sum_range_succ]
    congr 1
    by_cases h : k = r
    · subst h; simp
    · simp [h]

/-! flags of the terms -/

theorem pdF_sum {F : Prop} {r p : Nat} (hF : F → ∀ l < r, (st l).tot ∧ (st l).clean) :
    (pdF K st F r p).Le (sumF r fun k => tF K st (keep r [k]) (derF (K k) (st k) p)) := by
  refine ⟨fun j hj k hk => ?_, fun h k hk => h k hk, fun ⟨l, hl, h⟩ => ⟨l, hl, h⟩,
    fun h k hk => ⟨fun l hl => (hF h l (mem_keep.1 hl).1).1, (hF h k hk).2⟩, fun h => h, fun h => h,
    fun h k hk => ⟨(hF h k hk).2, (hF h k hk).2⟩, fun ⟨l, hl, h, ht⟩ => ⟨l, hl, fun j hj => ht j (mem_keep.1 hj).1 fun e => (mem_keep.1 hj).2 (by simp [e]), h⟩⟩
  rcases hj with h | ⟨hf, l, hl, h⟩
  · exact Or.inl ⟨fun l hl => h l (mem_keep.1 hl).1, h k hk⟩
  · refine Or.inr ⟨⟨fun l hl => (hF hf l (mem_keep.1 hl).1).1, (hF hf k hk).2⟩, ?_⟩
    by_cases hlk : l = k
    · rw [hlk] at h
      exact Or.inr h
    · exact Or.inl ⟨l, mem_keep.2 ⟨hl, by simpa using hlk⟩, h⟩

theorem phF_diag {F : Prop} {r k p q : Nat} (hk : k < r) (hF : F → ∀ l < r, (st l).tot ∧ (st l).clean) :
    (phF K st F r p q).Le (tF K st (keep r [k]) (hesF (K k) (st k) p q)) := by
  refine ⟨fun j hj => ?_, fun h => h k hk, fun h => (h k hk).1,
    fun h => ⟨fun l hl => (hF h l (mem_keep.1 hl).1).1, (hF h k hk).2⟩, fun h => h.elim, fun h => h.elim, fun h => h.elim, fun h => h.elim⟩
  rcases hj with h | ⟨hf, l, hl, h⟩
  · exact Or.inl ⟨fun l hl => h l (mem_keep.1 hl).1, h k hk⟩
  · refine Or.inr ⟨⟨fun l hl => (hF hf l (mem_keep.1 hl).1).1, (hF hf k hk).2⟩, ?_⟩
    by_cases hlk : l = k
    · rw [hlk] at h
      exact Or.inr h
    · exact Or.inl ⟨l, mem_keep.2 ⟨hl, by simpa using hlk⟩, h⟩

theorem phF_cross {F : Prop} {r k l p q : Nat} (hk : k < r) (hl : l < r)
    (hF : F → ∀ l < r, (st l).tot ∧ (st l).clean ∧ (st l).used p ∧ (st l).used q) :
    (phF K st F r p q).Le ((tF K st (keep r [k, l]) (derF (K k) (st k) p)).times (derF (K l) (st l) q)) := by
  have ht : F → (∀ l' ∈ keep r [k, l], (st l').tot) ∧ (st k).clean := fun h => ⟨fun l' hl' => (hF h l' (mem_keep.1 hl').1).1, (hF h k hk).2.1⟩
  have ok : F → (tF K st (keep r [k, l]) (derF (K k) (st k) p)).ok (derF (K l) (st l) q) := fun h =>
    ⟨⟨(hF h k hk).2.2.1, ht h⟩, (hF h l hl).2.1, Or.inl (hF h l hl).2.2.2⟩
  refine ⟨fun j hj => ?_, fun h => ⟨h k hk, h l hl⟩, fun h => (h l hl).2, fun h => Or.inl (ok h), fun h => h.elim, fun h => h.elim, fun h => h.elim, fun h => h.elim⟩
  rcases hj with h | ⟨hf, l', hl', h⟩
  · exact Or.inl ⟨Or.inl ⟨fun l hl => h l (mem_keep.1 hl).1, h k hk⟩, h l hl⟩
  · refine Or.inr (Or.inl ⟨ok hf, ?_⟩)
    by_cases h1 : l' = l
    · rw [h1] at h
      exact Or.inr h
    · left
      refine Or.inr ⟨ht hf, ?_⟩
      by_cases h2 : l' = k
      · rw [h2] at h
        exact Or.inr h
      · exact Or.inl ⟨l', mem_keep.2 ⟨hl', by simp; omega⟩, h⟩

theorem phF_self {F : Prop} {r p q : Nat} : (phF K st F r p q).Le ((phF K st F r p q).plus (phF K st F r p q)) :=
  ⟨fun _ h => ⟨h, h⟩, fun h => ⟨h, h⟩, fun h => Or.inl h, fun h => ⟨h, h⟩, fun h => h.elim, fun h => h.elim, fun h => h.elim, fun h => h.elim⟩

theorem pvF_range (r : Nat) : (pvF K st (· < r)).Le (pvF K st (· ∈ keep r [])) := by
  have h : (fun l => l ∈ keep r []) = fun l => l < r := by
    funext l
    exact propext ⟨fun h => (mem_keep.1 h).1, fun h => mem_keep.2 ⟨h, by simp⟩⟩
  rw [h]
  exact ⟨fun _ h => h, id, id, id, id, id, id, id⟩

theorem prodDer_eq {val : Nat → Val} {der : Nat → Der} {θ : Theta} {p a : Nat} {n d : Nat → Nat} :
    ∀ s, prodDer val der s θ p a n d = S1 (fun l => val l θ n d) (fun l => der l θ p a n d) s
  | 0 => by simp [prodDer, S1]
  | s + 1 => by rw [S1_succ, prodDer]; dsimp only; rw [prodDer_eq s, PR_nil]; rfl

theorem prodHess_eq {val : Nat → Val} {der : Nat → Der} {hess : Nat → Hes} {θ : Theta} {p q a b : Nat} {n d : Nat → Nat} :
    ∀ s, prodHess val der hess s θ p q a b n d =
      S2 (fun l => val l θ n d) (fun l => der l θ p a n d) (fun l => der l θ q b n d) (fun l => hess l θ p q a b n d) s
  | 0 => by simp [prodHess, S2]
  | s + 1 => by rw [S2_succ, prodHess]; dsimp only; rw [prodHess_eq s, PR_nil, prodDer_eq, prodDer_eq]; rfl

/-- The three methods of `Product` -/
theorem prod_sep (hpr : pr.Ok) {θ : Theta} {ps : List (Tensor ℝ)} (hm : ps.length = m) {f : Nat → TFunc ℝ} {g : Nat → Wrap}
    {val : Nat → Val} {der : Nat → Der} {hess : Nat → Hes} {F : Prop} {r : Nat} (hr : 0 < r)
    (hF : F → ∀ l < r, (st l).tot ∧ (st l).clean ∧ ∀ p < m, (st l).used p)
    (ht : ∀ i < r, Returns pr N (K i) (st i) θ (val i) (der i) (hess i) ((wrapT (f i) (g i)).sep ps)) :
    ∃ V D H, (productT (row r fun i => (f i, g i))).sep ps =
        .ok ⟨.arr (.tensor V), row m fun p => .arr (D p), triangle m fun p q => .arr (H p q)⟩ ∧
      Parts pr m (pvF K st (· < r)) (pdF K st F r) (phF K st F r) V D H ∧
      ReadsAs pr N θ (prodVal val r) (prodDer val der r) (prodHess val der hess r) V D H := by
  have hatom : ∀ i < r, ∃ V D H, Parts pr m (valF (K i) (st i)) (derF (K i) (st i)) (hesF (K i) (st i)) V D H ∧
      ReadsAs pr N θ (val i) (der i) (hess i) V D H ∧ (g i).call (f i) ps = .ok (.arr (.tensor V)) ∧
      (∀ p < m, (g i).grad (f i) ps p = .ok (.arr (D p))) ∧ ∀ p < m, ∀ q ≤ p, (g i).hess (f i) ps p q = .ok (.arr (H p q)) := by
    intro i hi
    obtain ⟨V, D, H, e, hv, hs⟩ := ht i hi
    obtain ⟨s1, s2, s3⟩ := (sep_iff hm).1 e
    obtain ⟨h1, h2⟩ := values_parts hpr hv hs
    exact ⟨V, D, H, h1, h2, s1, s2, s3⟩
  have : Inhabited (Tensor ℝ) := ⟨Tensor.const 0⟩
  choose! V D H h1 h2 h3 h4 h5 using hatom
  have hvals : atomVals (row r fun i => (f i, g i)) ps = .ok (row r fun i => .arr (.tensor (V i))) := mapM_row fun i hi => h3 i hi
  have hfac : ∀ l < r, IsFactor pr K st V l := fun l hl => ⟨(h1 l hl).vx, (h1 l hl).vy, (h1 l hl).v⟩
  have hlen : (row r fun i => (f i, g i)).length = r := by simp [row]
  have hpick : ∀ k < r, pick (row r fun i => (f i, g i)) k = .ok (f k, g k) := fun k hk => pick_range hk
  have hpe := fun ex => prodExcept_row hpr hfac ex
  choose P e1 e2 using hpe
  -- values
  have hkr : keep r [] = List.range r := by simp [keep]
  obtain ⟨V', c1, c2⟩ := prod_reduce hpr (A := keep r []) (K := K) (st := st) (V := V)
    (fun h => by rw [hkr] at h; have := congrArg List.length h; simp at this; omega) fun l hl => hfac l (mem_keep.1 hl).1
  rw [hkr] at c1
  -- gradients
  have hG : ∀ p < m, ∃ x, (productT (row r fun i => (f i, g i))).grad ps p = .ok (.arr x) ∧ Arr (pr.layout p p).noY (pdF K st F r p) x ∧
      (F → x.Wide (pr.nd p)) ∧ ((pdF K st F r p).span → x.Spans (pr.nd p)) ∧ ∀ i, x.dense i = S1 (fun l => (V l).dense i) (fun l => (D l p).dense i) r := by
    intro p hp
    have hL : (pr.layout p p).noY.Ok := ⟨hpr.2, hpr.1⟩
    have hterm := fun k hk => prod_times (e2 [k]) hL rfl rfl rfl ((h1 k hk).d p hp)
    choose! T t1 t2 t4 t5 t3 using hterm
    obtain ⟨x, x1, x2, x4, x5, x3⟩ := arr_sum hL (s := r - 1) (g := fun k => tF K st (keep r [k]) (derF (K k) (st k) p)) (T := T)
      fun k hk => t2 k (by omega)
    rw [show r - 1 + 1 = r by omega] at x1 x2 x3 x4 x5
    refine ⟨x, ?_, x2.mono (pdF_sum fun h l hl => ⟨(hF h l hl).1, (hF h l hl).2.1⟩), fun hf => x4 fun k hk =>
      t4 k hk ((h1 k hk).w p hp (hF hf k hk).2.1) (((h1 k hk).d p hp).clean (hF hf k hk).2.1),
      fun ⟨k, hk, hu, ht⟩ => spans_of_tall hL (x5 ⟨k, hk, t5 k hk (fun l hl => ht l (mem_keep.1 hl).1 fun e => (mem_keep.1 hl).2 (by simp [e]))
        (spans_tall ((h1 k hk).d p hp).piece ((h1 k hk).t p hp hu))⟩), fun i => ?_⟩
    · show (do
        let vs ← atomVals (row r fun i => (f i, g i)) ps
        let l ← (List.range (row r fun i => (f i, g i)).length).mapM fun k => do
          let a ← pick (row r fun i => (f i, g i)) k
          let p' ← prodExcept vs [k]
          let x ← a.2.grad a.1 ps p
          Py.mul p' x
        pySum l : Except Err (Py ℝ)) = _
      rw [hvals, ok_bind', hlen, mapM_list (g := fun k => Py.arr (T k)), ok_bind']
      · exact x1
      · intro k hk
        have hk := List.mem_range.1 hk
        rw [hpick k hk, ok_bind', e1, ok_bind', h4 k hk p hp, ok_bind', t1 k hk]
    · rw [x3]
      unfold S1
      exact Finset.sum_congr rfl fun k hk => t3 k (Finset.mem_range.1 hk) i
  -- Hessians
  have hH : ∀ p < m, ∀ q ≤ p, ∃ x, (productT (row r fun i => (f i, g i))).hess ps p q = .ok (.arr x) ∧ Arr (pr.layout p q) (phF K st F r p q) x ∧
      ∀ i, x.dense i = S2 (fun l => (V l).dense i) (fun l => (D l p).dense i) (fun l => (D l q).dense i.swap) (fun l => (H l p q).dense i) r := by
    intro p hp q hq
    have hq' : q < m := by omega
    have hL := hpr.layout p q
    have hcross : ∀ k < r, ∀ l < r, ∃ x, prodCross (row r fun i => Py.arr (.tensor (V i))) (f k, g k) (f l, g l) ps p q k l = .ok (.arr x) ∧
        Arr (pr.layout p q) (phF K st F r p q) x ∧
        ∀ i, x.dense i = PR (fun l => (V l).dense i) [k, l] r * (D k p).dense i * (D l q).dense i.swap := by
      intro k hk l hl
      obtain ⟨y, y1, y2, -, -, y3⟩ := prod_times (e2 [k, l]) (L := (pr.layout p p).noY) ⟨hpr.2, hpr.1⟩ rfl rfl rfl ((h1 k hk).d p hp)
      obtain ⟨z, z1, z2, z3⟩ := der_mul hpr y2 ((h1 l hl).d q hq')
      refine ⟨z, ?_, z2.mono (phF_cross hk hl fun h l hl => ⟨(hF h l hl).1, (hF h l hl).2.1, (hF h l hl).2.2 p hp, (hF h l hl).2.2 q hq'⟩),
        fun i => by rw [z3, y3]; rfl⟩
      unfold prodCross
      have t1 : Py.transpose (.arr (D l q)) = .ok (.arr (D l q).transpose) := rfl
      dsimp only
      rw [e1, ok_bind', h4 k hk p hp, ok_bind', y1, ok_bind', h4 l hl q hq', ok_bind', t1, ok_bind', z1]
    choose! X a1 a2 a3 using hcross
    have hdiag := fun k hk => prod_times (e2 [k]) hL rfl rfl rfl ((h1 k hk).h p hp q hq)
    choose! Y b1 b2 b4 b5 b3 using hdiag
    have hstep : ∀ k < r, ∀ {h : Py ℝ} {a : Idx → ℝ}, PartSum (pr.layout p q) (phF K st F r p q) h a →
        ∃ x, prodHessStep (row r fun i => (f i, g i)) (row r fun i => Py.arr (.tensor (V i))) ps p q h k = .ok (.arr x) ∧
          Arr (pr.layout p q) (phF K st F r p q) x ∧
          ∀ i, x.dense i = a i + ((∑ l ∈ Finset.range r, if k ≠ l then PR (fun l => (V l).dense i) [k, l] r * (D k p).dense i * (D l q).dense i.swap
            else 0) + PR (fun l => (V l).dense i) [k] r * (H k p q).dense i) := by
      intro k hk h a ha
      have hmem : ∀ l ∈ (List.range r).filter fun l => decide (k ≠ l), l < r := fun l hl => List.mem_range.1 (List.mem_filter.1 hl).1
      obtain ⟨s, s1, s2⟩ := acc_sum hL phF_self ((List.range r).filter fun l => decide (k ≠ l)) (T := X k) (x := .num 0) (a := fun _ => 0)
        (Or.inl ⟨rfl, fun _ => rfl⟩) fun l hl => a2 k hk l (hmem l hl)
      obtain ⟨u, u1, u2⟩ := ha.add hL phF_self s2
      obtain ⟨w, w1, w2, w3⟩ := u2.addArr hL phF_self ((b2 k hk).mono (phF_diag hk fun h l hl => ⟨(hF h l hl).1, (hF h l hl).2.1⟩))
      refine ⟨w, ?_, w2, fun i => ?_⟩
      · unfold prodHessStep
        rw [hpick k hk, ok_bind', hlen, mapM_list (g := fun l => Py.arr (X k l)), ok_bind']
        · have s1' : pySum (((List.range r).filter fun l => decide (k ≠ l)).map fun l => Py.arr (X k l)) = .ok s := s1
          rw [s1', ok_bind', u1, ok_bind', e1, ok_bind', h5 k hk p hp q hq, ok_bind', b1 k hk, ok_bind', w1]
        · intro l hl
          rw [hpick l (hmem l hl), ok_bind', a1 k hk l (hmem l hl)]
      · rw [w3, sum_filter, b3 k hk, zero_add, add_assoc]
        congr 2
        refine Finset.sum_congr rfl fun l hl => ?_
        by_cases hkl : k ≠ l
        · rw [if_pos hkl, if_pos hkl, a3 k hk l (Finset.mem_range.1 hl)]
        · rw [if_neg hkl, if_neg hkl]
    have hfold : ∀ s < r, ∃ x, (List.range (s + 1)).foldlM (prodHessStep (row r fun i => (f i, g i)) (row r fun i => Py.arr (.tensor (V i))) ps p q)
          (.num 0) = .ok (.arr x) ∧ Arr (pr.layout p q) (phF K st F r p q) x ∧
        ∀ i, x.dense i = ∑ k ∈ Finset.range (s + 1), ((∑ l ∈ Finset.range r,
          if k ≠ l then PR (fun l => (V l).dense i) [k, l] r * (D k p).dense i * (D l q).dense i.swap else 0) +
            PR (fun l => (V l).dense i) [k] r * (H k p q).dense i) := by
      intro s
      induction s with
      | zero =>
        intro hs
        obtain ⟨x, x1, x2, x3⟩ := hstep 0 hs (h := .num 0) (a := fun _ => 0) (Or.inl ⟨rfl, fun _ => rfl⟩)
        refine ⟨x, ?_, x2, fun i => ?_⟩
        · rw [List.range_succ, List.range_zero, List.nil_append, List.foldlM_cons, x1, ok_bind']; rfl
        · rw [x3, Finset.sum_range_one, zero_add]
      | succ s ih =>
        intro hs
        obtain ⟨x, x1, x2, x3⟩ := ih (by omega)
        obtain ⟨y, y1, y2, y3⟩ := hstep (s + 1) hs (h := .arr x) (a := x.dense) (Or.inr ⟨x, rfl, x2, fun _ => rfl⟩)
        refine ⟨y, ?_, y2, fun i => ?_⟩
        · rw [List.range_succ, List.foldlM_append, x1, ok_bind', List.foldlM_cons, y1, ok_bind']; rfl
        · rw [y3, x3, Finset.sum_range_succ _ (s + 1)]
    obtain ⟨x, x1, x2, x3⟩ := hfold (r - 1) (by omega)
    rw [show r - 1 + 1 = r by omega] at x1 x3
    refine ⟨x, ?_, x2, fun i => by rw [x3]; rfl⟩
    show (do
        let vs ← atomVals (row r fun i => (f i, g i)) ps
        (List.range (row r fun i => (f i, g i)).length).foldlM (prodHessStep (row r fun i => (f i, g i)) vs ps p q) (.num 0) : Except Err (Py ℝ)) = _
    rw [hvals, ok_bind', hlen, x1]
  choose! D' d1 d2 d4 d5 d3 using hG
  choose! H' k1 k2 k3 using hH
  refine ⟨V', D', H', (sep_iff hm).2 ⟨?_, d1, k1⟩, ⟨c2.px, c2.py, c2.arr.mono (pvF_range r), d2, k2, d4, d5⟩,
    ⟨fun n d hnd x y => ?_, fun p hp a ha n d hnd y => ?_, fun p hp q hq a b ha hb n d hnd => ?_⟩⟩
  · show (do
        let vs ← atomVals (row r fun i => (f i, g i)) ps
        reduceMul vs : Except Err (Py ℝ)) = _
    rw [hvals, ok_bind']
    exact c1
  · rw [c2.dense]
    show PR (fun l => (V l).dense ⟨x, y, n, d⟩) [] r = _
    rw [PR_nil]
    exact Finset.prod_congr rfl fun l hl => (h2 l (Finset.mem_range.1 hl)).v n d hnd x y
  · rw [d3 p hp, prodDer_eq]
    exact S1_congr (fun l hl => (h2 l hl).v n d hnd _ _) (fun l hl => (h2 l hl).d p hp a ha n d hnd y)
  · have hq' : q < m := by omega
    rw [k3 p hp q hq, prodHess_eq]
    exact S2_congr (fun l hl => (h2 l hl).v n d hnd _ _) (fun l hl => (h2 l hl).d p hp a ha n d hnd _)
      (fun l hl => (h2 l hl).d q hq' b hb n d hnd _) (fun l hl => (h2 l hl).h p hp q hq a b ha hb n d hnd)

/-- From the flags to the specification. -/
theorem prod_store {K' : Nat → Prop} {r : Nat} (hr : 0 < r) (hK : ∀ k, K' k → (∀ l < r, K l k) ∨ Store.firm r m st ∧ ∃ l < r, K l k) :
    (valF K' (Store.prod r m st)).Le (pvF K st (· < r)) ∧ (∀ p < m, (derF K' (Store.prod r m st) p).Le (pdF K st (Store.firm r m st) r p)) ∧
      ∀ p q, (hesF K' (Store.prod r m st) p q).Le (phF K st (Store.firm r m st) r p q) := by
  refine ⟨⟨fun k hk => ?_, fun _ => trivial, fun h => h, fun _ => trivial, fun _ => trivial, fun h => h.elim, fun h => h.elim, fun h => h.elim⟩,
    fun p hp => ⟨fun k hk => hK k hk, fun h => h, fun ⟨l, hl, h, _⟩ => ⟨l, hl, h⟩, fun h => h, fun h => h, fun h => h, fun h => h, fun h => h⟩,
    fun p q => ⟨fun k hk => hK k hk, fun h => h, fun h => h, fun h => h, fun h => h.elim, fun h => h.elim, fun h => h.elim, fun h => h.elim⟩⟩
  rcases hk with hk | ⟨ht, l, hl, hk⟩
  · rcases hK k hk with h | ⟨h, l, hl, h'⟩
    · exact Or.inl fun l hl => Or.inl (h l hl)
    · exact Or.inr ⟨fun i hi => (h.1 i hi).1, l, hl, Or.inl h'⟩
  · exact Or.inr ⟨ht, l, hl, Or.inr ⟨ht l hl, hk⟩⟩

theorem Parts.mono {fv gv : Flags} {fd gd : Nat → Flags} {fh gh : Nat → Nat → Flags} {V : Tensor ℝ} {D : Nat → Num ℝ} {H : Nat → Nat → Num ℝ}
    (h : Parts pr m fv fd fh V D H) (hv : gv.Le fv) (hd : ∀ p < m, (gd p).Le (fd p)) (hh : ∀ p < m, ∀ q ≤ p, (gh p q).Le (fh p q)) :
    Parts pr m gv gd gh V D H :=
  ⟨h.vx, h.vy, h.v.mono hv, fun p hp => (h.d p hp).mono (hd p hp), fun p hp q hq => (h.h p hp q hq).mono (hh p hp q hq),
    fun p hp hw => h.w p hp ((hd p hp).wide hw), fun p hp hw => h.t p hp ((hd p hp).span hw)⟩

/-- **C66.** A `Product` of at least one atom: `eval` and the three methods return the product of the functions of the atoms, with its
derivatives.  The axes that are known to be stored in full size are those of all atoms, and those of one atom if nothing is multiplied with
`Tensor(0)`. -/
theorem C66_product (hpr : pr.Ok) {r : Nat} (hr : 0 < r) {f : Nat → TFunc ℝ} {g : Nat → Wrap} {dom : Nat → Theta → Prop} {val : Nat → Val}
    {K' : Nat → Prop} (hK : ∀ k, K' k → (∀ l < r, K l k) ∨ Store.firm r m st ∧ ∃ l < r, K l k)
    (hf : ∀ i < r, Computes pr N (K i) (st i) (dom i) (wrapT (f i) (g i)) (val i)) :
    Computes pr N K' (Store.prod r m st) (fun θ => ∀ i < r, dom i θ) (productT (row r fun i => (f i, g i)))
      fun θ n d => ∏ i ∈ Finset.range r, val i θ n d := by
  have hok := fun i hi => (hf i hi).ok
  choose! der hess h1 h2 using hok
  obtain ⟨s1, s2, s3⟩ := prod_store (K := K) hr hK
  have fin : ∀ {θ : Theta} {x : Except Err (Ev3 ℝ)}, (∃ V D H, x =
        .ok ⟨.arr (.tensor V), row m fun p => .arr (D p), triangle m fun p q => .arr (H p q)⟩ ∧
      Parts pr m (pvF K st (· < r)) (pdF K st (Store.firm r m st) r) (phF K st (Store.firm r m st) r) V D H ∧
      ReadsAs pr N θ (prodVal val r) (prodDer val der r) (prodHess val der hess r) V D H) →
      Returns pr N K' (Store.prod r m st) θ (prodVal val r) (prodDer val der r) (prodHess val der hess r) x := by
    rintro θ x ⟨V, D, H, e, hp, hr⟩
    exact ⟨V, D, H, e, parts_values hpr (hp.mono s1 s2 fun p _ q _ => s3 p q) hr⟩
  refine ⟨⟨prodDer val der r, prodHess val der hess r, smooth_prod h1, fun θ hθ ps hps => ⟨fin ?_, fin ?_⟩⟩, fun h => (by cases h), fun h => (by cases h)⟩
  · have := prod_eval hpr hps.1 (F := Store.firm r m st) (s := r - 1) (f := f) (g := g) (K := K) (st := st) (val := val) (der := der) (hess := hess)
      (fun h => by rw [show r - 1 + 1 = r by omega]; exact h) fun i hi => (h2 i (by omega) θ (hθ i (by omega)) ps hps).1
    rw [show r - 1 + 1 = r by omega] at this
    exact this
  · exact prod_sep hpr hps.1 hr (fun h => h.1) fun i hi => (h2 i hi θ (hθ i hi) ps hps).2

end sep

end

end Verif.Tens
