import Verif.Spec.FlatTensor
import Verif.Lemmas.Flat
import Verif.Lemmas.FlatHess
import Verif.Lemmas.Blocks
import Verif.Lemmas.ValueTensor

/-!
# Lemmas for the flat gradient on Tensors
-/

set_option linter.unusedSectionVars false

namespace Verif.Tens
open Verif.Params
open NDArray

/-! ### entries in C order -/

theorem unravel_inList : ∀ {l : List Nat} {a : Nat}, a < l.prod → InList l (unravel l a)
  | [], a, h => by
    have : a = 0 := by simpa using h
    subst this
    exact ⟨fun k hk => absurd hk (Nat.not_lt_zero _), fun k _ => rfl⟩
  | s :: l, a, h => by
    rw [List.prod_cons] at h
    have h0 : 0 < l.prod := Nat.pos_of_ne_zero fun h0 => by rw [h0] at h; omega
    have h1 := unravel_inList (l := l) (Nat.mod_lt a h0)
    refine ⟨fun k hk => ?_, fun k hk => ?_⟩
    · cases k with
      | zero => exact Nat.div_lt_of_lt_mul (by rw [mul_comm]; exact h)
      | succ k => exact h1.1 k (by simpa using hk)
    · cases k with
      | zero => simp at hk
      | succ k => exact h1.2 k (by simpa using hk)

theorem inList_lt {l : List Nat} {a : Nat} (h : InList l (unravel l a)) : a < l.prod := by
  have := ravel_lt h
  rwa [ravel_unravel h] at this

section
variable {pr : Problem} {m : Nat} {θ : Theta} {params : List (Param ℝ)}

theorem entry_iff {p a : Nat} : pr.Entry p ((cOrder pr m).e p a) ↔ a < (pr.sizes p).prod :=
  entry_inList.trans ⟨inList_lt, unravel_inList⟩

theorem sizes_length (p : Nat) : (pr.sizes p).length = pr.nd p := by simp [Problem.sizes]

theorem sizes_getD {p k d : Nat} (hk : k < pr.nd p) : (pr.sizes p).getD k d = pr.P p k := by
  unfold Problem.sizes
  rw [List.getD_eq_getElem _ _ (by simpa using hk)]
  simp

theorem paramTensor_spec (h : AtPoint pr m θ params) {p : Nat} (hp : p < m) :
    ∃ v : NDArray ℝ, (params.map paramTensor)[p]? = some ⟨v, 0, 0, 0, [], []⟩ ∧ v.ndim = pr.nd p ∧
      (∀ k < pr.nd p, v.shape k = pr.P p k) ∧ ∀ a, pr.Entry p ((cOrder pr m).e p a) → v.get ((cOrder pr m).e p a) = θ p a := by
  obtain ⟨q, q1, q2, q3, q4, q5⟩ := h.each p hp
  refine ⟨paramArray q, ?_, ?_, fun k hk => ?_, fun a ha => ?_⟩
  · rw [List.getElem?_map, q1]; rfl
  · show q.shape.length = _
    rw [q2, sizes_length]
  · show q.shape.getD k 1 = _
    rw [q2, sizes_getD hk]
  · have hl := entry_iff.1 ha
    have he := entry_inList.1 ha
    rw [← q5 a (by rw [q2]; exact hl)]
    show q.values.getD (ravel q.shape fun k => if k < q.shape.length then unravel (pr.sizes p) a k else 0) 0 = _
    congr 1
    rw [q2]
    have e : (fun k => if k < (pr.sizes p).length then unravel (pr.sizes p) a k else 0) = unravel (pr.sizes p) a := by
      funext k
      split_ifs with c
      · rfl
      · exact (he.2 k (by omega)).symm
    rw [e, ravel_unravel he]

theorem AtPoint.isParams (h : AtPoint pr m θ params) : (cOrder pr m).IsParams θ (params.map paramTensor) :=
  ⟨by rw [List.length_map, h.len], fun _ hp => paramTensor_spec h hp⟩

theorem args_ok (h : AtPoint pr m θ params) {pm : List Nat} (hpm : ∀ p ∈ pm, p < m) :
    ∃ args, pm.mapM (pick (params.map paramTensor)) = .ok args ∧ (cOrder pr m).IsArgs θ pm args := by
  refine ⟨pm.map fun k => (params.map paramTensor).getD k (Tensor.const 0), mapM_list fun k hk => ?_, by simp, fun k hk => ?_⟩
  · obtain ⟨v, v1, -⟩ := paramTensor_spec h (hpm k hk)
    unfold pick
    rw [v1, List.getD_eq_getElem?_getD, v1]; rfl
  · have hk' : pm.getD k 0 ∈ pm := by rw [List.getD_eq_getElem _ _ hk]; exact List.getElem_mem hk
    obtain ⟨v, v1, v2, v3, v4⟩ := paramTensor_spec h (hpm _ hk')
    refine ⟨v, ?_, v2, fun j hj => v3 j (by omega), v4⟩
    rw [List.getElem?_map, List.getElem?_eq_getElem hk, Option.map_some, List.getD_eq_getElem?_getD,
      show pm[k] = pm.getD k 0 from (List.getD_eq_getElem _ _ hk).symm, v1]
    rfl

end

/-! ### Tensors with parameter axes only -/

/-- A Tensor with parameter axes only. -/
structure Plain (A B : Nat) (PX PY : Nat → Nat) (t : Tensor ℝ) : Prop where
  wf : t.WF
  hx : t.xDim = 0 ∨ t.xDim = A
  hy : t.yDim = 0 ∨ t.yDim = B
  hn : t.n = 0
  hd : t.dim = 0
  mx : t.xMap = []
  my : t.yMap = []
  sx : ∀ k < t.xDim, t.values.shape k = PX k ∨ t.values.shape k = 1
  sy : ∀ k < t.yDim, t.values.shape (t.xDim + k) = PY k ∨ t.values.shape (t.xDim + k) = 1

section
variable {A B : Nat} {PX PY : Nat → Nat} {t o : Tensor ℝ}

theorem Plain.nd (h : Plain A B PX PY t) : t.values.ndim = t.xDim + t.yDim := by
  have := h.wf.nd
  rw [h.hn, h.hd] at this
  omega

theorem Plain.dense (h : Plain A B PX PY t) (i : Idx) : t.dense i = t.values.bget (Tens.flat t.xDim t.yDim 0 i) := by
  unfold Tensor.dense Tensor.flat
  rw [h.mx, h.my, if_pos ⟨agrees_nil _ _, agrees_nil _ _⟩, h.hn]

/-- All axes are there, in full size. -/
def Tensor.AllAxes (A B : Nat) (PX PY : Nat → Nat) (t : Tensor ℝ) : Prop :=
  t.xDim = A ∧ t.yDim = B ∧ (∀ k < A, t.values.shape k = PX k) ∧ ∀ k < B, t.values.shape (A + k) = PY k

theorem bsize_or {p q s : Nat} (hp : p = s ∨ p = 1) (hq : q = s ∨ q = 1) : bsize p q = s ∨ bsize p q = 1 := by
  unfold bsize
  split_ifs with h
  · exact hq
  · exact Or.inl (hp.resolve_right h)

theorem bsize_full {p q s : Nat} (hp : p = s ∨ p = 1) (hq : q = s ∨ q = 1) (h : p = s ∨ q = s) : bsize p q = s := by
  unfold bsize
  split_ifs with c
  · rcases h with h | h
    · omega
    · exact h
  · exact hp.resolve_right c

theorem plain_sub (h : Plain A B PX PY t) (h' : Plain A B PX PY o) :
    ∃ r, t.binTensor o .sub = .ok (.tensor r) ∧ Plain A B PX PY r ∧ (∀ i, r.dense i = t.dense i - o.dense i) ∧
      (t.AllAxes A B PX PY ∨ o.AllAxes A B PX PY → r.AllAxes A B PX PY) := by
  have n1 := h.nd
  have n2 := h'.nd
  by_cases c1 : o.values.ndim = 0
  · have o1 : o.xDim = 0 := by omega
    have o2 : o.yDim = 0 := by omega
    have hA : o.AllAxes A B PX PY → t.AllAxes A B PX PY := by
      rintro ⟨a1, a2, -, -⟩
      have := h.hx
      have := h.hy
      exact ⟨by omega, by omega, fun k hk => by omega, fun k hk => by omega⟩
    unfold Tensor.binTensor
    rw [if_pos c1]
    by_cases c0 : (o.values.get fun _ => 0) = 0
    · refine ⟨t, ?_, h, fun i => ?_, fun ha => ha.elim id hA⟩
      · unfold Tensor.binScalar
        rw [if_pos ⟨c0, Or.inr rfl⟩]
      · rw [Tensor.dense_zero h'.wf c1, c0, sub_zero]
    · have ht : t.toarray = .ok t.values := by
        unfold Tensor.toarray
        rw [h.mx, h.my]
        rfl
      refine ⟨⟨t.values.map fun v => v - o.values.get fun _ => 0, t.xDim, t.yDim, t.dim, [], []⟩, ?_, ?_, fun i => ?_, fun ha => ?_⟩
      · unfold Tensor.binScalar
        simp only [c0, false_and, if_false]
        rw [if_neg (by simp), if_pos (by simp), ht]
        rfl
      · exact ⟨Tensor.wf_nomap (by have := h.wf.ndim; exact this), h.hx, h.hy, h.hn, h.hd, rfl, rfl, h.sx, h.sy⟩
      · rw [Tensor.dense_zero h'.wf c1, h.dense i]
        rw [Tensor.dense_nomap]
        rw [map_bget]
        congr 2
        have : t.n = 0 := h.hn
        show Tens.flat _ _ (t.values.ndim - t.xDim - t.yDim - t.dim) i = _
        congr 1
      · exact ha.elim id hA
  by_cases c2 : t.values.ndim = 0
  · obtain ⟨v, v1, v2, v3, v4⟩ := Tensor.binTensor_zero_left (t := t) (op := .sub) h'.wf c1 c2
    rw [h'.mx, h'.my] at v1
    have t1 : t.xDim = 0 := by omega
    have t2 : t.yDim = 0 := by omega
    refine ⟨_, v1, ?_, fun i => ?_, fun ha => ?_⟩
    · refine ⟨Tensor.wf_nomap (by have := h'.wf.ndim; rw [v2]; exact this), h'.hx, h'.hy, ?_, h'.hd, rfl, rfl, fun k hk => ?_, fun k hk => ?_⟩
      · unfold Tensor.n
        have := h'.hd
        dsimp only
        omega
      · have hk' : k < o.xDim := hk
        show v.shape k = _ ∨ v.shape k = 1
        rw [v3 k (by omega)]
        exact h'.sx k hk'
      · have hk' : k < o.yDim := hk
        show v.shape (o.xDim + k) = _ ∨ v.shape (o.xDim + k) = 1
        rw [v3 _ (by omega)]
        exact h'.sy k hk'
    · rw [Tensor.dense_nomap, v4, Tensor.dense_zero h.wf c2, h'.dense i]
      have : v.ndim - o.xDim - o.yDim - o.dim = 0 := by omega
      rw [this]
      rfl
    · have hb : o.AllAxes A B PX PY := by
        refine ha.elim (fun ha => ?_) id
        obtain ⟨a1, a2, -, -⟩ := ha
        have := h'.hx
        have := h'.hy
        exact ⟨by omega, by omega, fun k hk => by omega, fun k hk => by omega⟩
      obtain ⟨b1, b2, b3, b4⟩ := hb
      refine ⟨b1, b2, fun k hk => ?_, fun k hk => ?_⟩
      · show v.shape k = _
        rw [v3 k (by omega)]; exact b3 k hk
      · show v.shape (A + k) = _
        rw [v3 _ (by omega)]; exact b4 k hk
  have e1 := h.hx
  have e2 := h'.hx
  have e3 := h.hy
  have e4 := h'.hy
  have e5 := h.hn
  have e6 := h'.hn
  have e7 := h.hd
  have e8 := h'.hd
  have hft : Fits t (max t.xDim o.xDim) (max t.yDim o.yDim) (max t.n o.n) (max t.dim o.dim) := by
    refine ⟨?_, ?_, ?_, ?_⟩ <;> omega
  have hfo : Fits o (max t.xDim o.xDim) (max t.yDim o.yDim) (max t.n o.n) (max t.dim o.dim) := by
    refine ⟨?_, ?_, ?_, ?_⟩ <;> omega
  have hsh : ShapesFit t t.values o o.values := by
    refine ⟨fun a b k hk => ?_, fun a b k hk => ?_, fun a b k hk => by omega, fun a b k hk => by omega⟩
    · rcases h.sx k (by omega) with p | p <;> rcases h'.sx k (by omega) with q | q <;> omega
    · rcases h.sy k (by omega) with p | p <;> rcases h'.sy k (by omega) with q | q <;> omega
  obtain ⟨v, hv⟩ := reshapedOp_isOk h.wf.nd rfl h'.wf.nd rfl hft hfo .sub hsh
  obtain ⟨v1, v2, -⟩ := reshapedOp_ok h.wf.nd rfl h'.wf.nd rfl hft hfo .sub hv
  obtain ⟨s1, s2, -, -⟩ := reshapedOp_shape h.wf.nd h'.wf.nd hft hfo .sub hv
  have z1 : max t.n o.n = 0 := by omega
  have z2 : max t.dim o.dim = 0 := by omega
  refine ⟨⟨v, max t.xDim o.xDim, max t.yDim o.yDim, max t.dim o.dim, [], []⟩, ?_, ?_, fun i => ?_, fun ha => ?_⟩
  · unfold Tensor.binTensor
    rw [if_neg c1, if_neg c2, if_neg (by omega)]
    dsimp only
    rw [if_pos (by simp), if_pos ⟨by rw [h.mx, h'.mx], by rw [h.my, h'.my]⟩, hv]
    dsimp only
    rw [mkTensor_isOk (by omega), h.mx, h.my]
  · refine ⟨Tensor.wf_nomap (by omega), ?_, ?_, ?_, z2, rfl, rfl, fun k hk => ?_, fun k hk => ?_⟩
    · dsimp only; omega
    · dsimp only; omega
    · unfold Tensor.n; dsimp only; omega
    · dsimp only at hk ⊢
      rw [s1 k hk]
      apply bsize_or
      · split_ifs with c
        · exact Or.inr rfl
        · exact h.sx k (by omega)
      · split_ifs with c
        · exact Or.inr rfl
        · exact h'.sx k (by omega)
    · dsimp only at hk ⊢
      rw [s2 k hk]
      apply bsize_or
      · split_ifs with c
        · exact Or.inr rfl
        · exact h.sy k (by omega)
      · split_ifs with c
        · exact Or.inr rfl
        · exact h'.sy k (by omega)
  · rw [Tensor.dense_nomap]
    have e : v.ndim - max t.xDim o.xDim - max t.yDim o.yDim - max t.dim o.dim = max t.n o.n := by omega
    rw [e, v2 i, h.dense, h'.dense]
    unfold Tensor.flat
    rw [e5, e6]
    rfl
  · have ax : max t.xDim o.xDim = A := by
      rcases ha with ha | ha <;> have := ha.1 <;> omega
    have ay : max t.yDim o.yDim = B := by
      rcases ha with ha | ha <;> have := ha.2.1 <;> omega
    refine ⟨ax, ay, fun k hk => ?_, fun k hk => ?_⟩
    · dsimp only
      rw [s1 k (by omega)]
      apply bsize_full
      · split_ifs with c
        · exact Or.inr rfl
        · exact h.sx k (by omega)
      · split_ifs with c
        · exact Or.inr rfl
        · exact h'.sx k (by omega)
      · rcases ha with ha | ha
        · exact Or.inl (by rw [if_neg (by have := ha.1; omega)]; exact ha.2.2.1 k hk)
        · exact Or.inr (by rw [if_neg (by have := ha.1; omega)]; exact ha.2.2.1 k hk)
    · dsimp only
      have := s2 k (by omega)
      rw [ax] at this
      rw [this]
      apply bsize_full
      · split_ifs with c
        · exact Or.inr rfl
        · exact h.sy k (by omega)
      · split_ifs with c
        · exact Or.inr rfl
        · exact h'.sy k (by omega)
      · rcases ha with ha | ha
        · exact Or.inl (by rw [if_neg (by have := ha.2.1; omega), ha.1]; exact ha.2.2.2 k hk)
        · exact Or.inr (by rw [if_neg (by have := ha.2.1; omega), ha.1]; exact ha.2.2.2 k hk)

end

end Verif.Tens
