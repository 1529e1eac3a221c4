import Verif.Props.FuncWrapTensor
import Verif.Props.FuncTensor

/-!
# Functions that act on each position separately
-/

set_option linter.unusedSectionVars false

namespace Verif.Tens
open Verif.Params (Err)
open NDArray

section
variable {pr : Problem} {m : Nat} {N : Numbering pr m}

/-- The parameters have the features as axes. -/
def Problem.Pointwise (pr : Problem) (m : Nat) : Prop := ∀ p < m, pr.nd p = pr.n ∧ ∀ k < pr.n, pr.P p k = pr.S k

/-- `v` has one entry for every position of the features and outcomes, with the values `F`. -/
structure Reads (pr : Problem) (v : NDArray ℝ) (F : (Nat → Nat) → (Nat → Nat) → ℝ) : Prop where
  nd : v.ndim = pr.n + pr.d
  sh : ∀ k < pr.n + pr.d, v.shape k = pr.S k
  get : ∀ n d, pr.Pos n d → v.get (fun k => if k < pr.n then n k else d (k - pr.n)) = F n d

theorem Reads.bget {v : NDArray ℝ} {F : (Nat → Nat) → (Nat → Nat) → ℝ} (h : Reads pr v F) {n d : Nat → Nat} (hp : pr.Pos n d)
    (x y : Nat → Nat) : v.bget (Tens.flat 0 0 pr.n ⟨x, y, n, d⟩) = F n d := by
  have e : ∀ k, Tens.flat 0 0 pr.n ⟨x, y, n, d⟩ k = if k < pr.n then n k else d (k - pr.n) := by
    intro k
    unfold Tens.flat
    simp
  rw [show Tens.flat 0 0 pr.n ⟨x, y, n, d⟩ = fun k => if k < pr.n then n k else d (k - pr.n) from funext e,
    ← get_eq_bget, h.get n d hp]
  intro k hk
  rw [h.nd] at hk
  rw [h.sh k hk]
  dsimp only
  split_ifs with hc
  · exact hp.1 k hc
  · have := hp.2.2.1 (k - pr.n) (by omega)
    rwa [show pr.n + (k - pr.n) = k by omega] at this

theorem Pos.entry {pr : Problem} (h : pr.Pointwise m) {n d : Nat → Nat} (hp : pr.Pos n d) {p : Nat} (hpm : p < m) :
    pr.Entry p n := by
  obtain ⟨h1, h2⟩ := h p hpm
  refine ⟨fun k hk => ?_, fun k hk => hp.2.1 k (by omega)⟩
  rw [h2 k (by omega)]
  exact hp.1 k (by omega)

/-- An entry of a parameter agrees with a position iff it is the entry at that position. -/
theorem entry_eq {pr : Problem} {N : Numbering pr m} (h : pr.Pointwise m) {n d : Nat → Nat} (hp : pr.Pos n d) {p : Nat}
    (hpm : p < m) {a : Nat} (ha : pr.Entry p (N.e p a)) : Agrees (MapArg.diag.map (pr.nd p)) (N.e p a) n ↔ a = N.num p n := by
  rw [agrees_range]
  constructor
  · intro hk
    have : N.e p a = n := by
      funext k
      by_cases hkn : k < pr.nd p
      · exact hk k hkn
      · rw [ha.2 k (by omega), hp.2.1 k (by rw [(h p hpm).1] at hkn; omega)]
    rw [← N.num_e p hpm a ha, this]
  · rintro rfl k hk
    rw [N.e_num p hpm n (Pos.entry h hp hpm)]

theorem diag_nodup (d : Nat) : ((MapArg.diag.map d).filter fun f => decide (0 ≤ f)).Nodup := by
  apply List.Nodup.filter
  show ((List.range d).map (Nat.cast : Nat → Int)).Nodup
  exact List.Nodup.map (fun a b h => by exact_mod_cast h) List.nodup_range

theorem diag_getD {d k : Nat} (hk : k < d) : (MapArg.diag.map d).getD k (-1) = (k : Int) := by
  show ((List.range d).map (Nat.cast : Nat → Int)).getD k (-1) = _
  rw [List.getD_eq_getElem _ _ (by simpa using hk)]
  simp

/-- An array with axes is not `Tensor(0)`. -/
theorem live_of {K : Nat → Prop} {L : Layout} {t : Tensor ℝ} (h : OnPiece K L t) (hn : 0 < L.n + L.d) : (Num.tensor t).Live := by
  intro hz
  have h1 := h.1.hn
  have h2 := hz.2.1
  have h3 := h.1.wf.1
  have h4 := h.2.1
  unfold Tensor.n at h1
  omega

/-- The Tensors of a pointwise function. -/
theorem point_value {V : NDArray ℝ} {F : (Nat → Nat) → (Nat → Nat) → ℝ} (h : Reads pr V F) :
    ∃ t, mkTensor V 0 0 pr.d [] [] = .ok t ∧ OnPiece (fun _ => True) (pr.layout 0 0) t ∧ t.xDim = 0 ∧ t.yDim = 0 ∧
      ∀ n d, pr.Pos n d → ∀ x y, t.dense ⟨x, y, n, d⟩ = F n d := by
  have hn : (⟨V, 0, 0, pr.d, [], []⟩ : Tensor ℝ).n = pr.n := by
    show V.ndim - 0 - 0 - pr.d = pr.n
    rw [h.nd]; omega
  refine ⟨⟨V, 0, 0, pr.d, [], []⟩, ?_, ⟨⟨⟨?_, le_refl _, le_refl _, ?_, ?_, ?_, ?_⟩, ⟨by simp, by simp⟩, Or.inl rfl, Or.inl rfl,
    hn, Or.inr rfl, ?_, ?_, ?_⟩, rfl, ?_⟩, rfl, rfl, ?_⟩
  · unfold mkTensor
    rw [if_neg (by rw [h.nd]; omega)]
  · show 0 + 0 + pr.d ≤ V.ndim
    rw [h.nd]; omega
  · intro f hf; cases hf
  · intro f hf; cases hf
  · intro k hk; exact absurd hk (Nat.not_lt_zero k)
  · intro k hk; exact absurd hk (Nat.not_lt_zero k)
  · intro k hk
    left
    show V.shape (0 + 0 + k) = _
    rw [Nat.zero_add]
    exact h.sh k hk
  · intro k hk; exact absurd hk (Nat.not_lt_zero k)
  · intro k hk; exact absurd hk (Nat.not_lt_zero k)
  · intro k hk _
    show V.shape (0 + 0 + k) = _
    rw [Nat.zero_add]
    exact h.sh k hk
  · intro n d hp x y
    unfold Tensor.dense
    rw [if_pos ⟨agrees_nil _ _, agrees_nil _ _⟩]
    unfold Tensor.flat
    rw [hn]
    exact h.bget hp x y

theorem point_grad (hP : pr.Pointwise m) {p : Nat} (hpm : p < m) {G : NDArray ℝ} {F : (Nat → Nat) → (Nat → Nat) → ℝ}
    (h : Reads pr G F) :
    ∃ t, gradTensor G (pr.nd p) .diag pr.d = .ok t ∧ OnPiece (fun _ => True) (pr.layout p p).noY t ∧ t.Mapped ∧ t.xDim = pr.nd p ∧
      ∀ a, pr.Entry p (N.e p a) → ∀ n d, pr.Pos n d → ∀ y,
        t.dense ⟨N.e p a, y, n, d⟩ = if a = N.num p n then F n d else 0 := by
  obtain ⟨hd, hS⟩ := hP p hpm
  obtain ⟨t, t1, t2, t3, t4, t5, t6, t7, t8, t9, t10⟩ := C62_grad_tensor G (xd := pr.nd p) (n := pr.n) (dim := pr.d) (xm := .diag)
    (by show pr.nd p ≤ pr.n; omega) (by rw [h.nd]; simp [MapArg.isNone])
  have hsz : ∀ k < pr.n + pr.d, t.values.shape (t.xDim + t.yDim + k) = pr.S k := by
    intro k hk
    have e1 : (if MapArg.diag.isNone = true then pr.nd p else 0) = 0 := by simp [MapArg.isNone]
    rw [t3, t4, Nat.add_zero, t9 k hk, e1, Nat.zero_add]
    exact h.sh k hk
  refine ⟨t, t1, ⟨⟨t2, ⟨by rw [t7]; exact diag_nodup _, by rw [t8]; simp⟩, Or.inr t3, Or.inl t4, t5, Or.inr t6, ?_, ?_, ?_⟩,
    t6, fun k hk _ => hsz k hk⟩, ⟨fun k hk => by rw [t7, diag_getD (by omega)]; omega, fun k hk => by omega⟩, t3, ?_⟩
  · intro k hk
    left
    rw [t6] at hk
    exact hsz k hk
  · intro k hk
    rw [t3] at hk
    rw [t7, diag_getD hk]
    refine ⟨fun _ => ?_, fun h => by omega⟩
    rw [Int.toNat_natCast]
    exact (hS k (by omega)).symm
  · intro k hk; omega
  · intro a ha n d hp y
    rw [t10]
    dsimp only
    have : (if MapArg.diag.isNone = true then pr.nd p else 0) = 0 := by simp [MapArg.isNone]
    rw [this]
    refine if_congr (entry_eq hP hp hpm ha) ?_ rfl
    exact h.bget hp _ _

theorem point_hess (hP : pr.Pointwise m) {p q : Nat} (hpm : p < m) (hqm : q < m) {G : NDArray ℝ} {F : (Nat → Nat) → (Nat → Nat) → ℝ}
    (h : Reads pr G F) :
    ∃ t, hessTensor G (pr.nd p) (pr.nd q) .diag .diag pr.d = .ok t ∧ OnPiece (fun _ => True) (pr.layout p q) t ∧ t.Mapped ∧
      ∀ a b, pr.Entry p (N.e p a) → pr.Entry q (N.e q b) → ∀ n d, pr.Pos n d →
        t.dense ⟨N.e p a, N.e q b, n, d⟩ = if a = N.num p n ∧ b = N.num q n then F n d else 0 := by
  obtain ⟨hd, hS⟩ := hP p hpm
  obtain ⟨hd', hS'⟩ := hP q hqm
  obtain ⟨t, t1, t2, t3, t4, t5, t6, t7, t8, t9, t10⟩ := C62_hess_tensor G (xd := pr.nd p) (yd := pr.nd q) (n := pr.n) (dim := pr.d)
    (xm := .diag) (ym := .diag) (by show pr.nd p ≤ pr.n; omega) (by show pr.nd q ≤ pr.n; omega) (by rw [h.nd]; simp [MapArg.isNone])
  have hsz : ∀ k < pr.n + pr.d, t.values.shape (t.xDim + t.yDim + k) = pr.S k := by
    intro k hk
    have e1 : (if MapArg.diag.isNone = true then pr.nd p else 0) = 0 := by simp [MapArg.isNone]
    have e2 : (if MapArg.diag.isNone = true then pr.nd q else 0) = 0 := by simp [MapArg.isNone]
    rw [t3, t4, t9 k hk, e1, e2, Nat.add_zero, Nat.zero_add]
    exact h.sh k hk
  refine ⟨t, t1, ⟨⟨t2, ⟨by rw [t7]; exact diag_nodup _, by rw [t8]; exact diag_nodup _⟩, Or.inr t3, Or.inr t4, t5, Or.inr t6, ?_, ?_, ?_⟩,
    t6, fun k hk _ => hsz k hk⟩, ⟨fun k hk => by rw [t7, diag_getD (by omega)]; omega,
      fun k hk => by rw [t8, diag_getD (by omega)]; omega⟩, ?_⟩
  · intro k hk
    left
    rw [t6] at hk
    exact hsz k hk
  · intro k hk
    rw [t3] at hk
    rw [t7, diag_getD hk]
    refine ⟨fun _ => ?_, fun h => by omega⟩
    rw [Int.toNat_natCast]
    exact (hS k (by omega)).symm
  · intro k hk
    rw [t4] at hk
    rw [t8, diag_getD hk]
    refine ⟨fun _ => ?_, fun h => by omega⟩
    rw [Int.toNat_natCast]
    exact (hS' k (by omega)).symm
  · intro a b ha hb n d hp
    rw [t10]
    dsimp only
    have e1 : (if MapArg.diag.isNone = true then pr.nd p else 0) = 0 := by simp [MapArg.isNone]
    have e2 : (if MapArg.diag.isNone = true then pr.nd q else 0) = 0 := by simp [MapArg.isNone]
    rw [e1, e2]
    refine if_congr (and_congr (entry_eq hP hp hpm ha) (entry_eq hP hp hqm hb)) ?_ rfl
    exact h.bget hp _ _

/-! ### calculus -/

/-- The values of the parameters at a position. -/
def atPos (N : Numbering pr m) (θ : Theta) (n : Nat → Nat) : Nat → ℝ := fun p => θ p (N.num p n)

theorem atPos_set (N : Numbering pr m) (θ : Theta) {n : Nat → Nat} (p : Nat) (t : ℝ) :
    atPos N (θ.set p (N.num p n) t) n = Function.update (atPos N θ n) p t := by
  funext q
  unfold atPos Theta.set Function.update
  by_cases h : q = p
  · subst h; simp
  · rw [if_neg (fun hh => h hh.1), dif_neg h]

theorem atPos_set_ne (N : Numbering pr m) (θ : Theta) {n : Nat → Nat} {p a : Nat} (ha : a ≠ N.num p n) (t : ℝ) :
    atPos N (θ.set p a t) n = atPos N θ n := by
  funext q
  unfold atPos Theta.set
  rw [if_neg]
  rintro ⟨rfl, h⟩
  exact ha h.symm

theorem atPos_partial (N : Numbering pr m) {F : (Nat → ℝ) → ℝ} {θ : Theta} {n : Nat → Nat} {p a : Nat} {c : ℝ}
    (h : HasDerivAt (fun t => F (Function.update (atPos N θ n) p t)) c (atPos N θ n p)) :
    HasPartial (fun θ => F (atPos N θ n)) θ p a (if a = N.num p n then c else 0) := by
  unfold HasPartial
  split_ifs with ha
  · subst ha
    simp only [atPos_set]
    exact h
  · simp only [atPos_set_ne N θ ha]
    exact hasDerivAt_const _ _

/-- A function `φ` of the numbers in the parameters at one position, with its first and second partial derivatives,
at the outcomes `O`. -/
structure PointFun (m : Nat) (U : (Nat → ℝ) → Prop) (O : (Nat → Nat) → Prop) (φ : (Nat → ℝ) → (Nat → Nat) → ℝ) (φ1 : (Nat → ℝ) → Nat → (Nat → Nat) → ℝ)
    (φ2 : (Nat → ℝ) → Nat → Nat → (Nat → Nat) → ℝ) : Prop where
  h1 : ∀ u, U u → ∀ p < m, ∀ o, O o → HasDerivAt (fun t => φ (Function.update u p t) o) (φ1 u p o) (u p)
  h2 : ∀ u, U u → ∀ p < m, ∀ q ≤ p, ∀ o, O o → HasDerivAt (fun t => φ1 (Function.update u q t) p o) (φ2 u p q o) (u q)

/-- The parameters for which a pointwise function is defined: at every position of the features. -/
def pointDom (N : Numbering pr m) (U : (Nat → ℝ) → Prop) (θ : Theta) : Prop :=
  ∀ n d, pr.Pos n d → U (atPos N θ n)

theorem point_smooth {U : (Nat → ℝ) → Prop} {φ : (Nat → ℝ) → (Nat → Nat) → ℝ} {φ1 : (Nat → ℝ) → Nat → (Nat → Nat) → ℝ}
    {φ2 : (Nat → ℝ) → Nat → Nat → (Nat → Nat) → ℝ} {O : (Nat → Nat) → Prop} (hO : ∀ n d, pr.Pos n d → O d)
    (h : PointFun m U O φ φ1 φ2) :
    Smooth pr N (pointDom N U) (fun θ n d => φ (atPos N θ n) d)
      (fun θ p a n d => if a = N.num p n then φ1 (atPos N θ n) p d else 0)
      (fun θ p q a b n d => if a = N.num p n ∧ b = N.num q n then φ2 (atPos N θ n) p q d else 0) where
  hd θ hθ p hp a ha n d hnd := atPos_partial N (F := fun u => φ u d) (h.h1 _ (hθ n d hnd) p hp d (hO n d hnd))
  hh θ hθ p hp q hq a b ha hb n d hnd := by
    by_cases hc : a = N.num p n
    · simp only [hc, true_and, if_true]
      exact atPos_partial N (F := fun u => φ1 u p d) (h.h2 _ (hθ n d hnd) p hp q hq d (hO n d hnd))
    · simp only [hc, false_and, if_false]
      exact hasDerivAt_const _ _

/-- The Tensors of a pointwise function have its values and derivatives. -/
theorem point_values (hP : pr.Pointwise m) (θ : Theta) (φ : (Nat → ℝ) → (Nat → Nat) → ℝ) (φ1 : (Nat → ℝ) → Nat → (Nat → Nat) → ℝ)
    (φ2 : (Nat → ℝ) → Nat → Nat → (Nat → Nat) → ℝ) {V : NDArray ℝ} {G : Nat → NDArray ℝ} {H : Nat → Nat → NDArray ℝ}
    (hV : Reads pr V fun n d => φ (atPos N θ n) d) (hG : ∀ p < m, Reads pr (G p) fun n d => φ1 (atPos N θ n) p d)
    (hH : ∀ p < m, ∀ q ≤ p, Reads pr (H p q) fun n d => φ2 (atPos N θ n) p q d) :
    ∃ (tV : Tensor ℝ) (tD : Nat → Tensor ℝ) (tH : Nat → Nat → Tensor ℝ), mkTensor V 0 0 pr.d [] [] = .ok tV ∧ (∀ p < m, gradTensor (G p) (pr.nd p) .diag pr.d = .ok (tD p)) ∧
      (∀ p < m, ∀ q ≤ p, hessTensor (H p q) (pr.nd p) (pr.nd q) .diag .diag pr.d = .ok (tH p q)) ∧
      Values pr N (fun _ => True) θ (fun θ n d => φ (atPos N θ n) d)
        (fun θ p a n d => if a = N.num p n then φ1 (atPos N θ n) p d else 0)
        (fun θ p q a b n d => if a = N.num p n ∧ b = N.num q n then φ2 (atPos N θ n) p q d else 0)
        tV (fun p => .tensor (tD p)) (fun p q => .tensor (tH p q)) ∧
      Stored pr m (Store.leaf pr) tV (fun p => .tensor (tD p)) (fun p q => .tensor (tH p q)) := by
  obtain ⟨tV, v1, v2, v3, v4, v5⟩ := point_value hV
  have : Inhabited (Tensor ℝ) := ⟨Tensor.const 0⟩
  have hD := fun p hp => point_grad (N := N) hP (p := p) hp (hG p hp)
  have hH' := fun p hp q hq => point_hess (N := N) hP (p := p) (q := q) hp (lt_of_le_of_lt hq hp) (hH p hp q hq)
  choose! tD d1 d2 d4 d5 d3 using hD
  choose! tH e1 e2 e4 e3 using hH'
  exact ⟨tV, tD, tH, v1, d1, e1, ⟨v3, v4, solid_iff.2 (Or.inr v2), v5, fun p hp => Or.inl (d2 p hp).1,
    fun p hp => solid_iff.2 (Or.inr (d2 p hp)), d3, fun p hp q hq => Or.inl (e2 p hp q hq).1,
    fun p hp q hq => solid_iff.2 (Or.inr (e2 p hp q hq)), e3⟩, fun _ => ⟨v2.1, v2.2.1, fun k hk _ => v2.2.2 k hk trivial⟩, fun _ => d4, fun _ => e4,
    fun p hp hu => ⟨live_of (d2 p hp) hu, d5 p hp⟩, fun _ _ _ => trivial, fun _ _ _ _ _ => trivial, fun _ _ _ => trivial, fun _ _ h => h.elim, fun _ _ _ _ h => h.elim,
    fun _ p hp => Or.inr (d5 p hp)⟩

end

end Verif.Tens
