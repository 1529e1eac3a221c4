import Verif.Lemmas.ActsLeaf

/-!
# `Compose` of functions that act on each position separately
-/

set_option linter.unusedSectionVars false

namespace Verif.Tens
open Verif.Params (Err)
open NDArray

section
variable {α : Type} [Field α] [DecidableEq α] {R : Nat → Nat} {nx ny len d : Nat} {xm ym : List Int}

/-- The array `v` is a Tensor with the entries `F`. -/
def IsSheet (R : Nat → Nat) (nx ny len d : Nat) (xm ym : List Int) (v : Num α) (F : (Nat → Nat) → α) : Prop :=
  ∃ t, v = .tensor t ∧ Sheet R nx ny len d xm ym t F

theorem kit_sheet (hlen : 0 < len) : Kit (α := α) (IsSheet R nx ny len d xm ym) where
  add := by
    rintro _ _ F G ⟨t, rfl, ht⟩ ⟨o, rfl, ho⟩
    obtain ⟨r, r1, r2⟩ := sheet_add hlen ht ho
    exact ⟨.tensor r, r1, r, rfl, r2⟩
  zero := by
    rintro _ F ⟨o, rfl, ho⟩
    have hnd := ho.nd
    have hle := ho.le
    obtain ⟨v, hv, v1, v2, v3⟩ := binary_zero_left (f := Op.add.app) (a := (Tensor.const (0 : α)).values) (b := o.values) rfl
    refine ⟨.tensor ⟨v, o.xDim, o.yDim, o.dim, o.xMap, o.yMap⟩, ?_, _, rfl, ⟨ho.hx, ho.hy, ho.hd, ho.hxm, ho.hym, ?_, ho.le, fun k hk => ?_, fun j hj => ?_, fun idx hi => ?_⟩, fun j hj => ?_⟩
    · show Tensor.binTensor _ o .add = _
      unfold Tensor.binTensor
      rw [if_neg (by omega), if_pos (show (Tensor.const (0 : α)).values.ndim = 0 from rfl), hv]
      dsimp only
      rw [mkTensor_isOk (by rw [v1, ho.hx, ho.hy, ho.hd]; omega)]
    · show v.ndim = _
      omega
    · show v.shape k = 1
      rw [v2 k (by omega), ho.one k hk]
    · show v.shape _ = _ ∨ v.shape _ = _
      rw [v2 _ (by omega)]; exact ho.size j hj
    · show v.bget idx = _
      rw [v3, ← ho.get idx hi]
      show (0 : α) + _ = _
      rw [zero_add]
    · show v.shape _ = _
      rw [v2 _ (by omega)]; exact ho.full j hj
  num := by
    rintro _ F ⟨o, rfl, ho⟩
    unfold Num.scalarOp Tensor.binScalar
    simp

end

section
variable {α : Type} [Field α] [DecidableEq α] {r m q q' d' len dd : Nat} {R : Nat → Nat} {Fg : Nat → Tensor α} {Fh : Nat → Nat → Tensor α}
  {D : Nat → Nat → Tensor α} {H : Nat → Nat → Nat → Tensor α} {f1 : Nat → (Nat → Nat) → α} {f2 : Nat → Nat → (Nat → Nat) → α}
  {g1 : Nat → Nat → (Nat → Nat) → α} {g2 : Nat → Nat → Nat → (Nat → Nat) → α}

theorem idMap_range {q q' : Nat} (h : q ≤ q') : ∀ f ∈ idMap q, 0 ≤ f ∧ f < q' := fun f hf => by have := mem_idMap.1 hf; omega

theorem sheet_factors (hq' : 0 < q') (hqq : q ≤ q') (hlen : q' ≤ len) (hFg : ∀ k < r, Sheet R q' 0 len dd (idMap q') [] (Fg k) (f1 k))
    (hFh : ∀ k < r, ∀ l ≤ k, Sheet R q' q' len dd (idMap q') (idMap q') (Fh k l) (f2 k l)) (hD : ∀ k < r, ∀ i < m, Sheet R q 0 q' d' (idMap q) [] (D k i) (g1 k i))
    (hH : ∀ k < r, ∀ i < m, ∀ j ≤ i, Sheet R q q q' d' (idMap q) (idMap q) (H k i j) (g2 k i j)) :
    Factors r m (fun k => .tensor (Fg k)) (fun k l => .tensor (Fh k l)) (fun k i => .tensor (D k i)) (fun k i => .tensor (D k i).dropDim)
      (fun k i j => .tensor (H k i j)) (fun _ => IsSheet R q 0 len dd (idMap q) []) (fun _ _ => IsSheet R q q len dd (idMap q) (idMap q))
      (fun i k s => g1 k i (cut q' s) * f1 k s) (fun i j k s => g2 k i j (cut q' s) * f1 k s)
      (fun i j k l s => g1 l j (cut q' s) * (g1 k i (cut q' s) * (if k < l then f2 l k s else f2 k l s))) where
  kg _ _ := kit_sheet (by omega)
  kh _ _ _ _ := kit_sheet (by omega)
  drop _ _ _ _ := rfl
  left k hk i hi := by
    obtain ⟨r, r1, r2⟩ := sheet_dotLeft hq' hlen (hFg k hk) (hD k hk i hi).dropDim.toSlab (idMap_range hqq)
    refine ⟨.tensor r, ?_, r, rfl, r2⟩
    show (Tensor.dotLeft _ _).map _ = _
    rw [r1]; rfl
  right k hk i hi j hj := by
    obtain ⟨r, r1, r2⟩ := sheet_dotRight hq' hlen (hFg k hk) (hH k hk i hi j hj).dropDim.toSlab (idMap_range hqq) (idMap_range hqq)
    refine ⟨_, .arr (.tensor r), rfl, ?_, Or.inr ⟨_, rfl, r, rfl, r2⟩⟩
    show Tensor.dotRightNum (Fg k) (.tensor _) = _
    unfold Tensor.dotRightNum
    dsimp only
    rw [r1]; rfl
  quad k hk l hl i hi j hj := by
    have hfac : ∃ t, hessFactor (fun k l => Num.tensor (Fh k l)) k l = .tensor t ∧ Sheet R q' q' len dd (idMap q') (idMap q') t (if k < l then f2 l k else f2 k l) := by
      unfold hessFactor
      by_cases c : k < l
      · rw [if_pos c, if_pos c]
        exact ⟨_, rfl, (hFh l hl k (by omega)).transpose⟩
      · rw [if_neg c, if_neg c]
        exact ⟨_, rfl, hFh k hk l (by omega)⟩
    obtain ⟨t, t1, t2⟩ := hfac
    obtain ⟨a, a1, a2⟩ := sheet_dotLeft hq' hlen t2 (hD k hk i hi).dropDim.toSlab (idMap_range hqq)
    obtain ⟨b, b1, b2⟩ := sheet_dotLeft hq' hlen a2.transpose (hD l hl j (by omega)).dropDim.toSlab (idMap_range hqq)
    refine ⟨.tensor b.transpose, ?_, _, rfl, ?_⟩
    · unfold Tens.quad
      rw [t1]
      have e1 : Py.dotLeft (.arr (.tensor t)) (.tensor (D k i).dropDim) = .ok (.arr (.tensor a)) := by
        show ((Tensor.dotLeft _ _).map _).map _ = _
        rw [a1]; rfl
      have e2 : Py.dotLeft (.arr (.tensor a.transpose)) (.tensor (D l j).dropDim) = .ok (.arr (.tensor b)) := by
        show ((Tensor.dotLeft _ _).map _).map _ = _
        rw [b1]; rfl
      rw [e1, ok_bind']
      have e3 : Py.transpose (.arr (.tensor a)) = .ok (.arr (.tensor a.transpose)) := rfl
      rw [e3, ok_bind', e2, ok_bind']
      rfl
    · refine b2.transpose.congr fun s _ _ => ?_
      split_ifs <;> rfl

end

/-! ### derivatives of the composition -/

theorem upto_lt {r k : Nat} {u : Nat → ℝ} (h : k < r) : upto r u k = u k := if_pos h

section
variable {r m : Nat} {Uf : (Nat → ℝ) → Prop} {Ug : (Nat → ℝ) → Prop} {Of Og O : (Nat → Nat) → Prop} {F : (Nat → ℝ) → (Nat → Nat) → ℝ}
    {F1 : (Nat → ℝ) → Nat → (Nat → Nat) → ℝ} {F2 : (Nat → ℝ) → Nat → Nat → (Nat → Nat) → ℝ} {G : Nat → (Nat → ℝ) → (Nat → Nat) → ℝ}
    {G1 : Nat → (Nat → ℝ) → Nat → (Nat → Nat) → ℝ} {G2 : Nat → (Nat → ℝ) → Nat → Nat → (Nat → Nat) → ℝ}

/-- The chain rule -/
theorem curves_compose (hF : Curves r Uf Of F F1 F2) (hG : ∀ k < r, Curves m Ug Og (G k) (G1 k) (G2 k)) {a b : (Nat → Nat) → Nat → Nat}
    (ha : ∀ o, O o → Og (a o)) (hb : ∀ o, O o → Of (b o)) :
    Curves m (fun u => Ug u ∧ ∀ o, Og o → Uf (upto r fun k => G k u o)) O (fun u o => F (upto r fun k => G k u (a o)) (b o))
      (fun u i o => ∑ k ∈ Finset.range r, F1 (upto r fun k => G k u (a o)) k (b o) * G1 k u i (a o))
      (fun u i j o => ∑ k ∈ Finset.range r, (F1 (upto r fun k => G k u (a o)) k (b o) * G2 k u i j (a o) +
        ∑ l ∈ Finset.range r, F2 (upto r fun k => G k u (a o)) k l (b o) * G1 k u i (a o) * G1 l u j (a o))) where
  h1 γ v t hγ hU o ho := by
    refine HasDerivAt.congr_deriv (hF.h1 (fun s => upto r fun k => G k (γ s) (a o)) (fun k => ∑ i ∈ Finset.range m, G1 k (γ t) i (a o) * v i) t
      (fun k hk => by simp only [upto_lt hk]; exact (hG k hk).h1 γ v t hγ hU.1 _ (ha o ho)) (hU.2 _ (ha o ho)) _ (hb o ho)) ?_
    simp only [Finset.mul_sum, Finset.sum_mul]
    rw [Finset.sum_comm]
    refine Finset.sum_congr rfl fun i _ => Finset.sum_congr rfl fun k _ => ?_
    ring
  h2 γ v t hγ hU o ho i hi := by
    have e : (fun s => ∑ k ∈ Finset.range r, F1 (upto r fun k => G k (γ s) (a o)) k (b o) * G1 k (γ s) i (a o)) =
      ∑ k ∈ Finset.range r, fun s => F1 (upto r fun k => G k (γ s) (a o)) k (b o) * G1 k (γ s) i (a o) := by
      funext s; simp
    rw [e]
    refine HasDerivAt.congr_deriv (HasDerivAt.sum fun k hk => HasDerivAt.mul
      (hF.h2 (fun s => upto r fun k => G k (γ s) (a o)) (fun k => ∑ i ∈ Finset.range m, G1 k (γ t) i (a o) * v i) t
      (fun k hk => by simp only [upto_lt hk]; exact (hG k hk).h1 γ v t hγ hU.1 _ (ha o ho)) (hU.2 _ (ha o ho)) _ (hb o ho) k (Finset.mem_range.1 hk))
      ((hG k (Finset.mem_range.1 hk)).h2 γ v t hγ hU.1 _ (ha o ho) i hi)) ?_
    simp only [Finset.mul_sum, Finset.sum_mul, add_mul, Finset.sum_add_distrib]
    rw [add_comm]
    congr 1
    · rw [Finset.sum_comm]
      refine Finset.sum_congr rfl fun j _ => Finset.sum_congr rfl fun k _ => ?_
      ring
    · rw [Finset.sum_comm]
      have : ∀ k ∈ Finset.range r, ∀ l ∈ Finset.range r, True := fun _ _ _ _ => trivial
      rw [Finset.sum_comm]
      conv_rhs => rw [Finset.sum_comm]
      refine Finset.sum_congr rfl fun k _ => ?_
      rw [Finset.sum_comm]
      refine Finset.sum_congr rfl fun j _ => Finset.sum_congr rfl fun l _ => ?_
      ring
  symm u hU o ho i hi j hj := by
    simp only [Finset.sum_add_distrib]
    congr 1
    · refine Finset.sum_congr rfl fun k hk => ?_
      rw [(hG k (Finset.mem_range.1 hk)).symm u hU.1 _ (ha o ho) i hi j hj]
    · rw [Finset.sum_comm]
      refine Finset.sum_congr rfl fun k hk => Finset.sum_congr rfl fun l hl => ?_
      rw [hF.symm _ (hU.2 _ (ha o ho)) _ (hb o ho) l (Finset.mem_range.1 hl) k (Finset.mem_range.1 hk)]
      ring

end

/-! ### the composition -/

theorem Acts.mono {f : TFunc ℝ} {r δ : Nat} {T : Nat → Nat} {P P' : Nat → Nat → Prop} {U U' : (Nat → ℝ) → Prop} {F : (Nat → ℝ) → (Nat → Nat) → ℝ}
    (h : Acts f r δ T P U F) (hP : ∀ q d, P' q d → P q d) (hU : ∀ u, U' u → U u) : Acts f r δ T P' U' F := by
  obtain ⟨h1, h2, F1, F2, c, h3⟩ := h
  refine ⟨h1, h2, F1, F2, ⟨fun γ v t hγ u => c.h1 γ v t hγ (hU _ u), fun γ v t hγ u => c.h2 γ v t hγ (hU _ u), fun u hu => c.symm u (hU u hu)⟩,
    fun q d S v hq hd p hv u => h3 q d S v hq hd (hP q d p) hv fun s hs => hU _ (u s hs)⟩

/-- A Tensor without parameter axes, as a parameter -/
theorem Slab.eta {S : Nat → Nat} {len d : Nat} {t : Tensor ℝ} {G : (Nat → Nat) → ℝ} (h : Slab S 0 0 len d [] [] t G) : t = ⟨t.values, 0, 0, d, [], []⟩ := by
  obtain ⟨h1, h2, h3, h4, h5, -⟩ := h
  cases t
  simp only at h1 h2 h3 h4 h5
  subst h1 h2 h3 h4 h5
  rfl

theorem Sheet.getEntry {S : Nat → Nat} {len d : Nat} {t : Tensor ℝ} {G : (Nat → Nat) → ℝ} (h : Sheet S 0 0 len d [] [] t G) {s : Nat → Nat} (hs : ∀ j < len, s j < S j) :
    t.values.get s = G (cut len s) := by
  have hnd := h.nd
  rw [get_eq_bget, h.get s fun j hj => by simpa using hs j hj]
  · simp only [Nat.zero_add]
  · intro j hj
    have := h.full j (by omega)
    simp only [Nat.zero_add] at this
    rw [this]; exact hs j (by omega)

theorem Sheet.values {S : Nat → Nat} {len d : Nat} {t : Tensor ℝ} {G : (Nat → Nat) → ℝ} (h : Sheet S 0 0 len d [] [] t G) :
    t.values.ndim = len ∧ ∀ j < len, t.values.shape j = S j := by
  refine ⟨by rw [h.nd]; omega, fun j hj => ?_⟩
  have := h.full j hj
  simpa only [Nat.zero_add] using this

theorem upto_congr {r : Nat} {u u' : Nat → ℝ} (h : ∀ k < r, u k = u' k) : upto r u = upto r u' := by
  funext k
  unfold upto
  split_ifs with c
  · exact h k c
  · rfl

theorem entriesAt_congr {v : Nat → NDArray ℝ} {r q : Nat} (hv : ∀ k < r, (v k).ndim = q) {s s' : Nat → Nat} (h : ∀ j < q, s j = s' j) :
    entriesAt r v s = entriesAt r v s' := upto_congr fun k hk => get_congr _ fun j hj => h j (by rw [hv k hk] at hj; exact hj)

theorem joinAt_assoc (q δ : Nat) (S T T' : Nat → Nat) : joinAt (q + δ) (joinAt q S T) T' = joinAt q S (joinAt δ T T') := by
  funext j
  unfold joinAt
  split_ifs <;> first | rfl | omega | (congr 1; omega)

theorem mem_sum_apply {r : Nat} {ι : Type} (f : Nat → ι → ℝ) (s : ι) : (∑ k ∈ Finset.range r, f k) s = ∑ k ∈ Finset.range r, f k s :=
  Finset.sum_apply _ _ _

/-- `f @ [g_1, …, g_r]` acts on each position separately if `f` and the `g_k` do. -/
theorem acts_compose {f : TFunc ℝ} {g : Nat → TFunc ℝ} {r m δ δ' : Nat} {T T' : Nat → Nat} {P P' : Nat → Nat → Prop} {Ug Uf : (Nat → ℝ) → Prop}
    {F : (Nat → ℝ) → (Nat → Nat) → ℝ} {G : Nat → (Nat → ℝ) → (Nat → Nat) → ℝ} (hf : Acts f (r + 1) δ' T' P' Uf F)
    (hg : ∀ k < r + 1, Acts (g k) m δ T P Ug (G k)) :
    Acts (composeT f (row (r + 1) g)) m (δ + δ') (joinAt δ T T') (fun q d => P q d ∧ P' (q + δ) (d + δ))
      (fun u => Ug u ∧ ∀ o, Outcome δ T o → Uf (upto (r + 1) fun k => G k u o))
      fun u o => F (upto (r + 1) fun k => G k u (cut δ o)) fun j => o (δ + j) := by
  obtain ⟨f0, f0', F1, F2, cF, hf⟩ := hf
  have hg' : ∀ k < r + 1, ∃ G1 G2, Curves m Ug (Outcome δ T) (G k) G1 G2 ∧ ∀ (q d : Nat) (S : Nat → Nat) (v : Nat → NDArray ℝ), 0 < q → d ≤ q → P q d →
    (∀ k < m, (v k).ndim = q ∧ ∀ j < q, (v k).shape j = S j) →
    (∀ s, (∀ j < q, s j < S j) → Ug (entriesAt m v s)) →
    GivesEntries m δ T q d S v (G k) G1 G2 ((g k).eval (row m fun k => ⟨v k, 0, 0, d, [], []⟩)) ∧
    GivesEntries m δ T q d S v (G k) G1 G2 ((g k).sep (row m fun k => ⟨v k, 0, 0, d, [], []⟩)) := fun k hk => (hg k hk).ok
  choose! G1 G2 cG hG using hg'
  refine ⟨f0, f0, _, _, curves_compose (O := Outcome (δ + δ') (joinAt δ T T')) cF cG (a := cut δ) (b := fun o j => o (δ + j)) (fun o ho => ⟨fun j hj => ?_, fun j hj => ?_⟩)
    (fun o ho => ⟨fun j hj => ?_, fun j hj => ?_⟩), fun q d S v hq hdq hP hv hU => ?_⟩
  · rw [cut_of hj]
    have := ho.1 j (by omega)
    rwa [joinAt_lt hj] at this
  · exact if_neg (by omega)
  · have := ho.1 (δ + j) (by omega)
    rwa [joinAt_ge] at this
  · exact ho.2 _ (by omega)
  have hnd : ∀ k < m, (v k).ndim = q := fun k hk => (hv k hk).1
  -- positions
  have p1 : ∀ s, entriesAt m v (cut (q + δ) s) = entriesAt m v s := fun s => entriesAt_congr hnd fun j hj => cut_of (by omega)
  have p2 : ∀ s : Nat → Nat, (fun j => cut (q + δ) s (q + j)) = cut δ fun j => s (q + j) := by
    intro s; funext j; unfold cut; split_ifs <;> first | rfl | omega
  -- what holds of the values of the functions `g k` and of the results of `f`
  have main : ∀ {V : Nat → Tensor ℝ}, (∀ k < r + 1, Sheet (joinAt q S T) 0 0 (q + δ) (d + δ) [] [] (V k) fun s => G k (entriesAt m v s) fun j => s (q + j)) →
      (∀ s, (∀ j < q + δ, s j < joinAt q S T j) → entriesAt (r + 1) (fun k => (V k).values) s = upto (r + 1) fun k => G k (entriesAt m v s) (cut δ fun j => s (q + j))) ∧
      (row (r + 1) V = row (r + 1) fun k => ⟨(V k).values, 0, 0, d + δ, [], []⟩) ∧
      GivesEntries (r + 1) δ' T' (q + δ) (d + δ) (joinAt q S T) (fun k => (V k).values) F F1 F2 (f.eval (row (r + 1) V)) ∧
      GivesEntries (r + 1) δ' T' (q + δ) (d + δ) (joinAt q S T) (fun k => (V k).values) F F1 F2 (f.sep (row (r + 1) V)) := by
    intro V hV
    have e0 : ∀ s, (∀ j < q + δ, s j < joinAt q S T j) → entriesAt (r + 1) (fun k => (V k).values) s =
        upto (r + 1) fun k => G k (entriesAt m v s) (cut δ fun j => s (q + j)) := by
      intro s hs
      refine upto_congr fun k hk => ?_
      dsimp only
      rw [(hV k hk).getEntry hs, p1, p2]
    have e1 : row (r + 1) V = row (r + 1) fun k => ⟨(V k).values, 0, 0, d + δ, [], []⟩ := by
      unfold row
      refine List.map_congr_left fun k hk => ?_
      exact (hV k (List.mem_range.1 hk)).toSlab.eta
    refine ⟨e0, e1, ?_⟩
    rw [e1]
    refine hf (q + δ) (d + δ) (joinAt q S T) (fun k => (V k).values) (by omega) (by omega) hP.2 (fun k hk => (hV k hk).values) fun s hs => ?_
    rw [e0 s hs]
    refine (hU s fun j hj => ?_).2 _ ⟨fun j hj => ?_, fun j hj => if_neg (by omega)⟩
    · have := hs j (by omega)
      rwa [joinAt_lt hj] at this
    · rw [cut_of hj]
      have := hs (q + j) (by omega)
      rwa [joinAt_ge] at this
  have szV : ∀ {nx ny dd : Nat} {xm ym : List Int} {t : Tensor ℝ} {H : (Nat → Nat) → ℝ}, Sheet (joinAt q S T) nx ny (q + δ) dd xm ym t H →
      Sheet (joinAt q S (joinAt δ T T')) nx ny (q + δ) dd xm ym t H := by
    intro nx ny dd xm ym t H h
    refine h.sizes fun j hj => ?_
    rw [← joinAt_assoc, joinAt_lt hj]
  have fin : ∀ {V : Nat → Tensor ℝ} {D : Nat → Nat → Tensor ℝ} {H : Nat → Nat → Nat → Tensor ℝ} {VV : Tensor ℝ} {Fg : Nat → Tensor ℝ} {Fh : Nat → Nat → Tensor ℝ},
      (∀ k < r + 1, Sheet (joinAt q S T) 0 0 (q + δ) (d + δ) [] [] (V k) fun s => G k (entriesAt m v s) fun j => s (q + j)) →
      (∀ k < r + 1, ∀ i < m, Sheet (joinAt q S T) q 0 (q + δ) (d + δ) (idMap q) [] (D k i) fun s => G1 k (entriesAt m v s) i fun j => s (q + j)) →
      (∀ k < r + 1, ∀ i < m, ∀ j ≤ i, Sheet (joinAt q S T) q q (q + δ) (d + δ) (idMap q) (idMap q) (H k i j) fun s => G2 k (entriesAt m v s) i j fun j => s (q + j)) →
      (Sheet (joinAt (q + δ) (joinAt q S T) T') 0 0 (q + δ + δ') (d + δ + δ') [] [] VV fun s => F (entriesAt (r + 1) (fun k => (V k).values) s) fun j => s (q + δ + j)) →
      (∀ k < r + 1, Sheet (joinAt (q + δ) (joinAt q S T) T') (q + δ) 0 (q + δ + δ') (d + δ + δ') (idMap (q + δ)) [] (Fg k) fun s => F1 (entriesAt (r + 1) (fun k => (V k).values) s) k fun j => s (q + δ + j)) →
      (∀ k < r + 1, ∀ l ≤ k, Sheet (joinAt (q + δ) (joinAt q S T) T') (q + δ) (q + δ) (q + δ + δ') (d + δ + δ') (idMap (q + δ)) (idMap (q + δ)) (Fh k l) fun s => F2 (entriesAt (r + 1) (fun k => (V k).values) s) k l fun j => s (q + δ + j)) →
      ∃ ag ar aq, Factors (r + 1) m (fun k => .tensor (Fg k)) (fun k l => .tensor (Fh k l)) (fun k i => .tensor (D k i)) (fun k i => .tensor (D k i).dropDim)
        (fun k i j => .tensor (H k i j)) (fun _ => IsSheet (joinAt q S (joinAt δ T T')) q 0 (q + (δ + δ')) (d + (δ + δ')) (idMap q) [])
        (fun _ _ => IsSheet (joinAt q S (joinAt δ T T')) q q (q + (δ + δ')) (d + (δ + δ')) (idMap q) (idMap q)) ag ar aq ∧
        (Sheet (joinAt q S (joinAt δ T T')) 0 0 (q + (δ + δ')) (d + (δ + δ')) [] [] VV fun s => F (upto (r + 1) fun k => G k (entriesAt m v s) (cut δ fun j => s (q + j))) fun j => s (q + (δ + j))) ∧
        (∀ i < m, ∀ s, (∀ j < q + (δ + δ'), s j < joinAt q S (joinAt δ T T') j) → (∑ k ∈ Finset.range (r + 1), ag i k) s =
          ∑ k ∈ Finset.range (r + 1), F1 (upto (r + 1) fun k => G k (entriesAt m v s) (cut δ fun j => s (q + j))) k (fun j => s (q + (δ + j))) * G1 k (entriesAt m v s) i (cut δ fun j => s (q + j))) ∧
        ∀ i < m, ∀ j ≤ i, ∀ s, (∀ j < q + (δ + δ'), s j < joinAt q S (joinAt δ T T') j) → (∀ j ≥ q + (δ + δ'), s j = 0) → (∑ k ∈ Finset.range (r + 1), (ar i j k + ∑ l ∈ Finset.range (r + 1), aq i j k l)) s =
          ∑ k ∈ Finset.range (r + 1), (F1 (upto (r + 1) fun k => G k (entriesAt m v s) (cut δ fun j => s (q + j))) k (fun j => s (q + (δ + j))) * G2 k (entriesAt m v s) i j (cut δ fun j => s (q + j)) +
            ∑ l ∈ Finset.range (r + 1), F2 (upto (r + 1) fun k => G k (entriesAt m v s) (cut δ fun j => s (q + j))) k l (fun j => s (q + (δ + j))) *
              G1 k (entriesAt m v s) i (cut δ fun j => s (q + j)) * G1 l (entriesAt m v s) j (cut δ fun j => s (q + j))) := by
    intro V D H VV Fg Fh hV hD hH hVV hFg hFh
    obtain ⟨e0, -⟩ := main hV
    have e0' : ∀ s, (∀ j < q + (δ + δ'), s j < joinAt q S (joinAt δ T T') j) → entriesAt (r + 1) (fun k => (V k).values) s =
        upto (r + 1) fun k => G k (entriesAt m v s) (cut δ fun j => s (q + j)) := by
      intro s hs
      refine e0 s fun j hj => ?_
      have := hs j (by omega)
      rwa [← joinAt_assoc, joinAt_lt hj] at this
    simp only [joinAt_assoc, Nat.add_assoc] at hVV hFg hFh
    have fac := sheet_factors (q := q) (q' := q + δ) (by omega) (by omega) (by omega) hFg hFh (fun k hk i hi => szV (hD k hk i hi)) fun k hk i hi j hj => szV (hH k hk i hi j hj)
    refine ⟨_, _, _, fac, ?_, fun i hi s hs => ?_, fun i hi j hj s hs hs0 => ?_⟩
    · exact hVV.congr fun s hs _ => by rw [e0' s hs]
    · rw [Finset.sum_apply]
      refine Finset.sum_congr rfl fun k hk => ?_
      rw [p1, p2, e0' s hs, mul_comm]
    · rw [Finset.sum_apply]
      refine Finset.sum_congr rfl fun k hk => ?_
      rw [Pi.add_apply, Finset.sum_apply]
      rw [p1, p2, e0' s hs, mul_comm]
      congr 1
      refine Finset.sum_congr rfl fun l hl => ?_
      split_ifs with c
      · rw [cF.symm _ ?_ _ ?_ k (Finset.mem_range.1 hk) l (Finset.mem_range.1 hl)]
        · ring
        · refine (hU s fun j hj => ?_).2 _ ⟨fun j hj => ?_, fun j hj => if_neg (by omega)⟩
          · have := hs j (by omega)
            rwa [joinAt_lt hj] at this
          · rw [cut_of hj]
            have := hs (q + j) (by omega)
            rwa [joinAt_ge, joinAt_lt hj] at this
        · refine ⟨fun j hj => ?_, fun j hj => hs0 _ (by omega)⟩
          have := hs (q + (δ + j)) (by omega)
          rwa [joinAt_ge, joinAt_ge] at this
      · ring
  have hps : (row m fun k => (⟨v k, 0, 0, d, [], []⟩ : Tensor ℝ)).length = m := by simp [row]
  have hGe := fun k hk => hG k hk q d S v hq hdq hP.1 hv fun s hs => (hU s hs).1
  have : Inhabited (Tensor ℝ) := ⟨Tensor.const 0⟩
  -- the results as Tensors
  have out : ∀ {VV : Tensor ℝ} {W : Nat → Num ℝ} {Z : Nat → Nat → Num ℝ} {eg : Nat → (Nat → Nat) → ℝ} {eh : Nat → Nat → (Nat → Nat) → ℝ} {x : Except Err (Ev3 ℝ)},
      x = .ok ⟨.arr (.tensor VV), row m fun i => .arr (W i), triangle m fun i j => .arr (Z i j)⟩ →
      (Sheet (joinAt q S (joinAt δ T T')) 0 0 (q + (δ + δ')) (d + (δ + δ')) [] [] VV fun s => F (upto (r + 1) fun k => G k (entriesAt m v s) (cut δ fun j => s (q + j))) fun j => s (q + (δ + j))) →
      (∀ i < m, IsSheet (joinAt q S (joinAt δ T T')) q 0 (q + (δ + δ')) (d + (δ + δ')) (idMap q) [] (W i) (eg i)) →
      (∀ i < m, ∀ j ≤ i, IsSheet (joinAt q S (joinAt δ T T')) q q (q + (δ + δ')) (d + (δ + δ')) (idMap q) (idMap q) (Z i j) (eh i j)) →
      (∀ i < m, ∀ s, (∀ j < q + (δ + δ'), s j < joinAt q S (joinAt δ T T') j) → eg i s =
          ∑ k ∈ Finset.range (r + 1), F1 (upto (r + 1) fun k => G k (entriesAt m v s) (cut δ fun j => s (q + j))) k (fun j => s (q + (δ + j))) * G1 k (entriesAt m v s) i (cut δ fun j => s (q + j))) →
      (∀ i < m, ∀ j ≤ i, ∀ s, (∀ j < q + (δ + δ'), s j < joinAt q S (joinAt δ T T') j) → (∀ j ≥ q + (δ + δ'), s j = 0) → eh i j s =
          ∑ k ∈ Finset.range (r + 1), (F1 (upto (r + 1) fun k => G k (entriesAt m v s) (cut δ fun j => s (q + j))) k (fun j => s (q + (δ + j))) * G2 k (entriesAt m v s) i j (cut δ fun j => s (q + j)) +
            ∑ l ∈ Finset.range (r + 1), F2 (upto (r + 1) fun k => G k (entriesAt m v s) (cut δ fun j => s (q + j))) k l (fun j => s (q + (δ + j))) *
              G1 k (entriesAt m v s) i (cut δ fun j => s (q + j)) * G1 l (entriesAt m v s) j (cut δ fun j => s (q + j)))) →
      GivesEntries m (δ + δ') (joinAt δ T T') q d S v (fun u o => F (upto (r + 1) fun k => G k u (cut δ o)) fun j => o (δ + j))
        (fun u i o => ∑ k ∈ Finset.range (r + 1), F1 (upto (r + 1) fun k => G k u (cut δ o)) k (fun j => o (δ + j)) * G1 k u i (cut δ o))
        (fun u i j o => ∑ k ∈ Finset.range (r + 1), (F1 (upto (r + 1) fun k => G k u (cut δ o)) k (fun j => o (δ + j)) * G2 k u i j (cut δ o) +
          ∑ l ∈ Finset.range (r + 1), F2 (upto (r + 1) fun k => G k u (cut δ o)) k l (fun j => o (δ + j)) * G1 k u i (cut δ o) * G1 l u j (cut δ o))) x := by
    intro VV W Z eg eh x hx hVV hW hZ hg hh
    have h1 : ∀ i < m, ∃ t, W i = .tensor t ∧ Sheet (joinAt q S (joinAt δ T T')) q 0 (q + (δ + δ')) (d + (δ + δ')) (idMap q) [] t (eg i) := hW
    have h2 : ∀ i < m, ∀ j ≤ i, ∃ t, Z i j = .tensor t ∧ Sheet (joinAt q S (joinAt δ T T')) q q (q + (δ + δ')) (d + (δ + δ')) (idMap q) (idMap q) t (eh i j) := hZ
    choose! W' w1 w2 using h1
    choose! Z' z1 z2 using h2
    refine ⟨VV, W', Z', ?_, hVV, fun i hi => (w2 i hi).congr fun s hs _ => hg i hi s hs, fun i hi j hj => (z2 i hi j hj).congr fun s hs hs0 => hh i hi j hj s hs hs0⟩
    rw [hx]
    have e1 : (row m fun i => Py.arr (W i)) = row m fun i => .arr (.tensor (W' i)) := by
      unfold row
      refine List.map_congr_left fun i hi => ?_
      rw [w1 i (List.mem_range.1 hi)]
    have e2 : (triangle m fun i j => Py.arr (Z i j)) = triangle m fun i j => .arr (.tensor (Z' i j)) := by
      unfold triangle
      refine List.map_congr_left fun i hi => List.map_congr_left fun j hj => ?_
      dsimp only
      rw [z1 i (List.mem_range.1 hi) j (by have := List.mem_range.1 hj; omega)]
    rw [e1, e2]
  constructor
  · have h := fun k hk => (hGe k hk).1
    unfold GivesEntries at h
    choose! V D H hge hV hD hH using h
    obtain ⟨-, -, ⟨VV, Fg, Fh, x1, x2, x3, x4⟩, -⟩ := main hV
    obtain ⟨ag, ar, aq, fac, y1, y2, y3⟩ := fin hV hD hH x2 x3 x4
    obtain ⟨W, Z, z1, z2, z3⟩ := composeEval_ok f0' fac hps hge x1
    exact out z1 y1 z2 z3 y2 y3
  · have h := fun k hk => (hGe k hk).2
    unfold GivesEntries at h
    choose! V D H hge hV hD hH using h
    obtain ⟨-, -, -, ⟨VV, Fg, Fh, x1, x2, x3, x4⟩⟩ := main hV
    obtain ⟨ag, ar, aq, fac, y1, y2, y3⟩ := fin hV hD hH x2 x3 x4
    obtain ⟨W, Z, z1, z2, z3⟩ := composeT_sep f0 f0' fac (fun k hk => (sep_iff hps).1 (hge k hk)) ((sep_iff (by simp [row])).1 x1)
    refine out ((sep_iff hps).2 z1) y1 z2 z3 y2 fun i hi j hj s hs hs0 => ?_
    rw [← y3 i hi j hj s hs hs0]
    refine congrFun (a := s) (Finset.sum_congr rfl fun k _ => ?_)
    exact add_comm _ _

end Verif.Tens
