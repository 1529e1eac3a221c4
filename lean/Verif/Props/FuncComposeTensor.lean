import Verif.Lemmas.ComposeNum

/-!
# C65: `Compose`, executed on Tensors
-/

set_option linter.unusedSectionVars false

namespace Verif.Tens
open Verif.Params (Err)
open NDArray

section
variable {pr pr' : Problem} {m : Nat} {N : Numbering pr m} {N' : Numbering pr' m} {δ : Nat} {T : Nat → Nat}

theorem joinAt_cut {n d : Nat} {s : Nat → Nat} : ∀ j < n + d, joinAt n (cut n s) (cut d fun j => s (n + j)) j = s j := by
  intro j hj
  by_cases c : j < n
  · rw [joinAt_lt c, cut_of c]
  · obtain ⟨i, rfl⟩ : ∃ i, j = n + i := ⟨j - n, by omega⟩
    rw [joinAt_ge, cut_of (by omega)]

/-- The values of an inner function -/
theorem values_sheet {K : Nat → Prop} {θ : Theta} {val : Val} {der : Der} {hess : Hes} {V : Tensor ℝ} {D : Nat → Num ℝ} {H : Nat → Nat → Num ℝ}
    (hv : Values pr N K θ val der hess V D H) {S : Nat → Prop} (hs : Stored pr m (Store.whole S) V D H) :
    ∃ G, Sheet pr.S 0 0 (pr.n + pr.d) pr.d [] [] V G ∧
      ∀ s, (∀ j < pr.n + pr.d, s j < pr.S j) → V.values.get s = val θ (cut pr.n s) (cut pr.d fun j => s (pr.n + j)) := by
  obtain ⟨t1, t2, t3⟩ := hs.tot trivial
  have hp := part_of_piece (K := fun _ => True) (L := pr.layout 0 0) (t := V) ⟨t1, t2, fun k hk _ => t3 k hk trivial⟩
    ⟨fun k hk => by rw [hv.vx] at hk; omega, fun k hk => by rw [hv.vy] at hk; omega⟩
  have hp' : Part True pr.S (pr.n + pr.d) pr.d (fun _ => True) (fun _ => True) V := by
    obtain ⟨a, b, c, d, e, -, -⟩ := hp
    exact ⟨a, b, c, d, fun _ => e fun _ _ => trivial, trivial, trivial⟩
  obtain ⟨xm, ym, G, s1, -, -⟩ := hp'.sheet
  have hxm : xm = [] := List.length_eq_zero_iff.1 (by rw [← s1.hx, hv.vx])
  have hym : ym = [] := List.length_eq_zero_iff.1 (by rw [← s1.hy, hv.vy])
  subst hxm hym
  have hV : Sheet pr.S 0 0 (pr.n + pr.d) pr.d [] [] V G := s1
  refine ⟨G, hV, fun s hb => ?_⟩
  have hpos : pr.Pos (cut pr.n s) (cut pr.d fun j => s (pr.n + j)) := by
    refine ⟨fun k hk => ?_, fun k hk => if_neg (by omega), fun k hk => ?_, fun k hk => if_neg (by omega)⟩
    · rw [cut_of hk]; exact hb k (by omega)
    · rw [cut_of hk]; exact hb _ (by omega)
  have e := hv.v _ _ hpos (fun _ => 0) (fun _ => 0)
  have hn : V.n = pr.n := t1.hn
  rw [Tensor.dense_read t1.wf, hn, hV.toSlab.read (fun j hj => by rw [joinAt_cut j hj]; exact hb j hj), if_pos ⟨agrees_nil _ _, agrees_nil _ _⟩,
    cut_congr fun j hj => joinAt_cut j hj] at e
  rw [hV.getEntry hb]
  exact e

end

section
variable {pr pr' : Problem} {m : Nat} {N : Numbering pr m} {N' : Numbering pr' m} {δ : Nat} {T : Nat → Nat}

/-- The derivatives of the composition -/
theorem smooth_compose (hL : Longer N δ T N') {r : Nat} {U : (Nat → ℝ) → Prop} {F : (Nat → ℝ) → (Nat → Nat) → ℝ}
    {F1 : (Nat → ℝ) → Nat → (Nat → Nat) → ℝ} {F2 : (Nat → ℝ) → Nat → Nat → (Nat → Nat) → ℝ} (hF : Curves r U (Outcome δ T) F F1 F2)
    {dom : Nat → Theta → Prop} {val : Nat → Val} {der : Nat → Der} {hess : Nat → Hes} (hg : ∀ k < r, Smooth pr N (dom k) (val k) (der k) (hess k)) :
    Smooth pr' N' (fun θ => (∀ k < r, dom k θ) ∧ ∀ n d, pr.Pos n d → U (upto r fun k => val k θ n d)) (composeAt r pr.d F val)
      (fun θ p a n d => ∑ k ∈ Finset.range r, F1 (upto r fun k => val k θ n (cut pr.d d)) k (fun j => d (pr.d + j)) * der k θ p a n (cut pr.d d))
      fun θ p o a b n d => ∑ k ∈ Finset.range r, (F1 (upto r fun k => val k θ n (cut pr.d d)) k (fun j => d (pr.d + j)) * hess k θ p o a b n (cut pr.d d) +
        ∑ l ∈ Finset.range r, F2 (upto r fun k => val k θ n (cut pr.d d)) k l (fun j => d (pr.d + j)) * der k θ p a n (cut pr.d d) * der l θ o b n (cut pr.d d)) := by
  have hpos : ∀ {n d : Nat → Nat}, pr'.Pos n d → pr.Pos n (cut pr.d d) ∧ Outcome δ T fun j => d (pr.d + j) := by
    rintro n d ⟨h1, h2, h3, h4⟩
    have hn := hL.n
    have hd := hL.d
    refine ⟨⟨fun k hk => ?_, fun k hk => h2 k (by omega), fun k hk => ?_, fun k hk => if_neg (by omega)⟩, fun j hj => ?_, fun j hj => h4 _ (by omega)⟩
    · rw [← hL.S k (by omega)]; exact h1 k (by omega)
    · rw [cut_of hk, ← hL.S _ (by omega), ← hn]; exact h3 k (by omega)
    · have := h3 (pr.d + j) (by omega)
      rwa [hn, ← Nat.add_assoc, hL.T j hj] at this
  have hent : ∀ {p : Nat}, p < m → ∀ {a : Nat}, pr'.Entry p (N'.e p a) → pr.Entry p (N.e p a) := by
    rintro p hp a ⟨h1, h2⟩
    rw [hL.e p hp a] at h1 h2
    refine ⟨fun k hk => ?_, fun k hk => h2 k (by rw [hL.nd p hp]; exact hk)⟩
    rw [← hL.P p hp k hk]
    exact h1 k (by rw [hL.nd p hp]; exact hk)
  constructor
  · intro θ hθ p hp a ha n d hnd
    obtain ⟨q1, q2⟩ := hpos hnd
    refine HasDerivAt.congr_deriv (hF.h1 (fun s => upto r fun k => val k (θ.set p a s) n (cut pr.d d)) (fun k => der k θ p a n (cut pr.d d)) (θ p a)
      (fun k hk => by simp only [upto_lt hk]; exact (hg k hk).hd θ (hθ.1 k hk) p hp a (hent hp ha) n _ q1) (by rw [Theta.set_self]; exact hθ.2 n _ q1) _ q2) ?_
    rw [Theta.set_self]
  · intro θ hθ p hp o ho a b ha hb n d hnd
    obtain ⟨q1, q2⟩ := hpos hnd
    have ho' : o < m := by omega
    show HasDerivAt (fun s => ∑ k ∈ Finset.range r, F1 (upto r fun k => val k (θ.set o b s) n (cut pr.d d)) k (fun j => d (pr.d + j)) * der k (θ.set o b s) p a n (cut pr.d d)) _ _
    have e : (fun s => ∑ k ∈ Finset.range r, F1 (upto r fun k => val k (θ.set o b s) n (cut pr.d d)) k (fun j => d (pr.d + j)) * der k (θ.set o b s) p a n (cut pr.d d)) =
      ∑ k ∈ Finset.range r, fun s => F1 (upto r fun k => val k (θ.set o b s) n (cut pr.d d)) k (fun j => d (pr.d + j)) * der k (θ.set o b s) p a n (cut pr.d d) := by
      funext s; simp
    rw [e]
    refine HasDerivAt.congr_deriv (HasDerivAt.sum fun k hk => HasDerivAt.mul
      (hF.h2 (fun s => upto r fun k => val k (θ.set o b s) n (cut pr.d d)) (fun k => der k θ o b n (cut pr.d d)) (θ o b)
      (fun k hk => by simp only [upto_lt hk]; exact (hg k hk).hd θ (hθ.1 k hk) o ho' b (hent ho' hb) n _ q1) (by rw [Theta.set_self]; exact hθ.2 n _ q1) _ q2 k (Finset.mem_range.1 hk))
      ((hg k (Finset.mem_range.1 hk)).hh θ (hθ.1 k (Finset.mem_range.1 hk)) p hp o ho a b (hent hp ha) (hent ho' hb) n _ q1)) ?_
    simp only [Theta.set_self]
    refine Finset.sum_congr rfl fun k _ => ?_
    rw [add_comm, Finset.sum_mul]
    congr 1
    refine Finset.sum_congr rfl fun l _ => ?_
    ring

/-- **C65.** `f @ [g_1, …, g_r]`, where `f` acts on each position separately and the functions `g_k` return Tensors with their values and
derivatives: the composition returns Tensors with the values of the composed function and with its derivatives, in which the outcomes of `f`
follow the outcomes of the `g_k`. -/
theorem C65_compose_partial (hL : Longer N δ T N') (hok : pr'.Ok) {r : Nat} {P : Nat → Nat → Prop} (hP : P (pr.n + pr.d) pr.d) {U : (Nat → ℝ) → Prop} {F : (Nat → ℝ) → (Nat → Nat) → ℝ}
    {f : TFunc ℝ} (hf : Acts f (r + 1) δ T P U F) {g : Nat → TFunc ℝ} {K : Nat → Nat → Prop} {dom : Nat → Theta → Prop} {val : Nat → Val}
    {S : Nat → Nat → Prop} (hg : ∀ k < r + 1, Computes pr N (K k) (Store.whole (S k)) (dom k) (g k) (val k)) :
    Computes pr' N' (fun _ => True) (Store.solid fun p => r = 0 ∧ S 0 p) (fun θ => (∀ k < r + 1, dom k θ) ∧ ∀ n d, pr.Pos n d → U (upto (r + 1) fun k => val k θ n d))
      (composeT f (row (r + 1) g)) (composeAt (r + 1) pr.d F val) := by
  obtain ⟨f0, f0', F1, F2, cF, hf⟩ := hf
  have hn := hL.n
  have hd := hL.d
  have hn0 := hok.1
  have hlen : pr'.n + pr'.d = pr.n + pr.d + δ := by omega
  have hgk := fun k hk => (hg k hk).ok
  choose! der hess hsm hret using hgk
  refine ⟨⟨_, _, smooth_compose hL cF hsm, ?_⟩, fun h => ?_, fun h => ?_⟩
  rotate_left
  · exact absurd h (by show ¬ f.gradNull = true; rw [f0]; simp)
  · exact absurd h (by show ¬ f.gradNull = true; rw [f0]; simp)
  intro θ hθ ps hps
  have hps' : N.IsParams θ ps := by
    refine ⟨hps.1, fun p hp => ?_⟩
    obtain ⟨v, v1, v2, v3, v4⟩ := hps.2 p hp
    refine ⟨v, v1, by rw [v2, hL.nd p hp], fun k hk => by rw [v3 k (by rw [hL.nd p hp]; exact hk), hL.P p hp k hk], fun a ha => ?_⟩
    rw [← v4 a, hL.e p hp]
    rw [hL.e p hp]
    exact ⟨fun k hk => by rw [hL.nd p hp] at hk; rw [hL.P p hp k hk]; exact ha.1 k hk, fun k hk => by rw [hL.nd p hp] at hk; exact ha.2 k hk⟩
  have hent : ∀ {p : Nat}, p < m → ∀ {a : Nat}, pr'.Entry p (N'.e p a) → pr.Entry p (N.e p a) := by
    rintro p hp a ⟨h1, h2⟩
    rw [hL.e p hp a] at h1 h2
    refine ⟨fun k hk => ?_, fun k hk => h2 k (by rw [hL.nd p hp]; exact hk)⟩
    rw [← hL.P p hp k hk]
    exact h1 k (by rw [hL.nd p hp]; exact hk)
  have hpos : ∀ {n d : Nat → Nat}, pr'.Pos n d → pr.Pos n (cut pr.d d) ∧ Outcome δ T fun j => d (pr.d + j) := by
    rintro n d ⟨h1, h2, h3, h4⟩
    refine ⟨⟨fun k hk => ?_, fun k hk => h2 k (by omega), fun k hk => ?_, fun k hk => if_neg (by omega)⟩, fun j hj => ?_, fun j hj => h4 _ (by omega)⟩
    · rw [← hL.S k (by omega)]; exact h1 k (by omega)
    · rw [cut_of hk, ← hL.S _ (by omega), ← hn]; exact h3 k (by omega)
    · have := h3 (pr.d + j) (by omega)
      rwa [hn, ← Nat.add_assoc, hL.T j hj] at this
  -- positions
  have jn : ∀ {n d : Nat → Nat}, pr'.Pos n d → (∀ j < pr'.n + pr'.d, joinAt pr'.n n d j < pr'.S j) ∧ (∀ j < pr.n + pr.d, joinAt pr'.n n d j = joinAt pr.n n (cut pr.d d) j) ∧
      (cut pr.n (joinAt pr'.n n d) = n) ∧ (cut pr.d (fun j => joinAt pr'.n n d (pr.n + j)) = cut pr.d d) ∧ ((fun j => cut (pr'.n + pr'.d) (joinAt pr'.n n d) (pr.n + pr.d + j)) = fun j => d (pr.d + j)) := by
    rintro n d ⟨h1, h2, h3, h4⟩
    refine ⟨fun j hj => ?_, fun j hj => ?_, ?_, ?_, ?_⟩
    · by_cases c : j < pr'.n
      · rw [joinAt_lt c]; exact h1 j c
      · obtain ⟨i, rfl⟩ : ∃ i, j = pr'.n + i := ⟨j - pr'.n, by omega⟩
        rw [joinAt_ge]; exact h3 i (by omega)
    · rw [hn]
      by_cases c : j < pr.n
      · rw [joinAt_lt c, joinAt_lt c]
      · obtain ⟨i, rfl⟩ : ∃ i, j = pr.n + i := ⟨j - pr.n, by omega⟩
        rw [joinAt_ge, joinAt_ge, cut_of (by omega)]
    · funext j
      by_cases c : j < pr.n
      · rw [cut_of c, joinAt_lt (by omega)]
      · rw [h2 j (by omega)]; exact if_neg c
    · refine cut_congr fun j hj => ?_
      rw [hn, joinAt_ge]
    · funext j
      by_cases c : pr.n + pr.d + j < pr'.n + pr'.d
      · rw [cut_of c, hn, Nat.add_assoc, joinAt_ge]
      · rw [h4 (pr.d + j) (by omega)]; exact if_neg c
  -- the values of the functions `g k` and the results of `f`
  have main : ∀ {V : Nat → Tensor ℝ} {D : Nat → Nat → Num ℝ} {H : Nat → Nat → Nat → Num ℝ}, (∀ k < r + 1, Values pr N (K k) θ (val k) (der k) (hess k) (V k) (D k) (H k) ∧ Stored pr m (Store.whole (S k)) (V k) (D k) (H k)) →
      (∀ n d, pr'.Pos n d → entriesAt (r + 1) (fun k => (V k).values) (cut (pr'.n + pr'.d) (joinAt pr'.n n d)) = upto (r + 1) fun k => val k θ n (cut pr.d d)) ∧
      GivesEntries (r + 1) δ T (pr.n + pr.d) pr.d pr.S (fun k => (V k).values) F F1 F2 (f.eval (row (r + 1) V)) ∧
      GivesEntries (r + 1) δ T (pr.n + pr.d) pr.d pr.S (fun k => (V k).values) F F1 F2 (f.sep (row (r + 1) V)) := by
    intro V D H hV
    have hS := fun k hk => values_sheet (hV k hk).1 (hV k hk).2
    choose! G hG hval using hS
    have e0 : ∀ s, (∀ j < pr.n + pr.d, s j < pr.S j) → entriesAt (r + 1) (fun k => (V k).values) s =
        upto (r + 1) fun k => val k θ (cut pr.n s) (cut pr.d fun j => s (pr.n + j)) := fun s hs => upto_congr fun k hk => hval k hk s hs
    have e1 : row (r + 1) V = row (r + 1) fun k => ⟨(V k).values, 0, 0, pr.d, [], []⟩ := by
      unfold row
      refine List.map_congr_left fun k hk => ?_
      exact (hG k (List.mem_range.1 hk)).toSlab.eta
    constructor
    · intro n d hnd
      obtain ⟨q1, q2, q3, q4, q5⟩ := jn hnd
      rw [entriesAt_congr (s' := joinAt pr'.n n d) (fun k hk => (hG k hk).values.1) fun j hj => cut_of (by omega), e0 _ fun j hj => by rw [← hL.S j hj]; exact q1 j (by omega), q3, q4]
    · rw [e1]
      refine hf (pr.n + pr.d) pr.d pr.S (fun k => (V k).values) (by omega) (by omega) hP (fun k hk => (hG k hk).values) fun s hs => ?_
      rw [e0 s hs]
      refine hθ.2 _ _ ⟨fun k hk => ?_, fun k hk => if_neg (by omega), fun k hk => ?_, fun k hk => if_neg (by omega)⟩
      · rw [cut_of hk]; exact hs k (by omega)
      · rw [cut_of hk]; exact hs _ (by omega)
  -- the derivatives of the functions `g k`
  have rd : ∀ {V : Nat → Tensor ℝ} {D : Nat → Nat → Num ℝ} {H : Nat → Nat → Nat → Num ℝ}, (∀ k < r + 1, Values pr N (K k) θ (val k) (der k) (hess k) (V k) (D k) (H k) ∧ Stored pr m (Store.whole (S k)) (V k) (D k) (H k)) →
      ∀ k < r + 1, ∀ p < m, ∀ a, pr'.Entry p (N'.e p a) → ∀ n d, pr'.Pos n d → (D k p).read (N'.e p a) (fun _ => 0) (joinAt pr'.n n d) = der k θ p a n (cut pr.d d) := by
    intro V D H hV k hk p hp a ha n d hnd
    obtain ⟨hv, hs⟩ := hV k hk
    obtain ⟨s1, s2⟩ := stack_of_num (hv.dp p hp) (solid_iff.1 (hv.ds p hp)) (hs.mapD trivial p hp) (firm_iff.2 ⟨(hs.live p hp trivial).live, hs.cleanD trivial p hp⟩)
    obtain ⟨q1, q2, q3, q4, q5⟩ := jn hnd
    rw [← hv.d p hp a (hent hp ha) n _ (hpos hnd).1 (fun _ => 0), s2, hL.e p hp a]
    refine s1.read_congr (chart_range ?_) (chart_range ?_) ?_ q2 _ _
    · exact Nat.le_add_right _ _
    · exact Nat.le_add_right _ _
    · intro j hj
      have hj' : j < pr.n + pr.d := hj
      have := q1 j (by omega)
      rwa [hL.S j hj] at this
  have rh : ∀ {V : Nat → Tensor ℝ} {D : Nat → Nat → Num ℝ} {H : Nat → Nat → Nat → Num ℝ}, (∀ k < r + 1, Values pr N (K k) θ (val k) (der k) (hess k) (V k) (D k) (H k) ∧ Stored pr m (Store.whole (S k)) (V k) (D k) (H k)) →
      ∀ k < r + 1, ∀ p < m, ∀ o ≤ p, ∀ a b, pr'.Entry p (N'.e p a) → pr'.Entry o (N'.e o b) → ∀ n d, pr'.Pos n d →
        (H k p o).read (N'.e p a) (N'.e o b) (joinAt pr'.n n d) = hess k θ p o a b n (cut pr.d d) := by
    intro V D H hV k hk p hp o ho a b ha hb n d hnd
    obtain ⟨hv, hs⟩ := hV k hk
    rw [← hv.h p hp o ho a b (hent hp ha) (hent (by omega) hb) n _ (hpos hnd).1, hL.e p hp a, hL.e o (by omega) b]
    by_cases hl : (H k p o).Live
    · obtain ⟨s1, s2⟩ := stack_of_num (hv.hp p hp o ho) (solid_iff.1 (hv.hs p hp o ho)) (hs.mapH trivial p hp o ho) (firm_iff.2 ⟨hl, hs.cleanH trivial p hp o ho⟩)
      obtain ⟨q1, q2, q3, q4, q5⟩ := jn hnd
      rw [s2]
      refine s1.read_congr (chart_range ?_) (chart_range ?_) ?_ q2 _ _
      · exact Nat.le_add_right _ _
      · exact Nat.le_add_right _ _
      · intro j hj
        have hj' : j < pr.n + pr.d := hj
        have := q1 j (by omega)
        rwa [hL.S j hj] at this
    · cases hH' : H k p o with
      | tensor t =>
        rw [hH'] at hl
        have hz := not_not.1 hl
        show t.read _ _ _ = t.dense _
        rw [Tensor.IsZero.read hz, Tensor.IsZero.dense hz]
      | generic g => rw [hH'] at hl; exact absurd trivial hl
  -- the results
  have sz : ∀ {nx ny dd : Nat} {xm ym : List Int} {t : Tensor ℝ} {G : (Nat → Nat) → ℝ}, Sheet (joinAt (pr.n + pr.d) pr.S T) nx ny (pr.n + pr.d + δ) (pr.d + δ) xm ym t G →
      Sheet pr'.S nx ny (pr'.n + pr'.d) pr'.d xm ym t G := by
    intro nx ny dd xm ym t G h
    rw [← hlen, ← hd] at h
    exact h.sizes fun j hj => hL.size hj
  have out : ∀ {V : Nat → Tensor ℝ} {D : Nat → Nat → Num ℝ} {H : Nat → Nat → Nat → Num ℝ}, (∀ k < r + 1, Values pr N (K k) θ (val k) (der k) (hess k) (V k) (D k) (H k) ∧ Stored pr m (Store.whole (S k)) (V k) (D k) (H k)) →
      ∀ {VV : Tensor ℝ} {W : Nat → Num ℝ} {Z : Nat → Nat → Num ℝ} {eg : Nat → Idx → ℝ} {eh : Nat → Nat → Idx → ℝ} {x : Except Err (Ev3 ℝ)},
      x = .ok ⟨.arr (.tensor VV), row m fun i => .arr (W i), triangle m fun i j => .arr (Z i j)⟩ →
      (Sheet pr'.S 0 0 (pr'.n + pr'.d) pr'.d [] [] VV fun s => F (entriesAt (r + 1) (fun k => (V k).values) s) fun j => s (pr.n + pr.d + j)) →
      (∀ p < m, IsNum (pr'.layout p p).noY (W p) (eg p) ∧ (r = 0 → S 0 p → (W p).Single) ∧ (W p).Wide (pr'.nd p)) → (∀ p < m, ∀ o ≤ p, IsNum (pr'.layout p o) (Z p o) (eh p o)) →
      (∀ p < m, ∀ a, pr'.Entry p (N'.e p a) → ∀ n d, pr'.Pos n d → ∀ y, eg p ⟨N'.e p a, y, n, d⟩ =
        ∑ k ∈ Finset.range (r + 1), F1 (upto (r + 1) fun k => val k θ n (cut pr.d d)) k (fun j => d (pr.d + j)) * der k θ p a n (cut pr.d d)) →
      (∀ p < m, ∀ o ≤ p, ∀ a b, pr'.Entry p (N'.e p a) → pr'.Entry o (N'.e o b) → ∀ n d, pr'.Pos n d → eh p o ⟨N'.e p a, N'.e o b, n, d⟩ =
        ∑ k ∈ Finset.range (r + 1), (F1 (upto (r + 1) fun k => val k θ n (cut pr.d d)) k (fun j => d (pr.d + j)) * hess k θ p o a b n (cut pr.d d) +
          ∑ l ∈ Finset.range (r + 1), F2 (upto (r + 1) fun k => val k θ n (cut pr.d d)) k l (fun j => d (pr.d + j)) * der k θ p a n (cut pr.d d) * der l θ o b n (cut pr.d d))) →
      Returns pr' N' (fun _ => True) (Store.solid fun p => r = 0 ∧ S 0 p) θ (composeAt (r + 1) pr.d F val)
        (fun θ p a n d => ∑ k ∈ Finset.range (r + 1), F1 (upto (r + 1) fun k => val k θ n (cut pr.d d)) k (fun j => d (pr.d + j)) * der k θ p a n (cut pr.d d))
        (fun θ p o a b n d => ∑ k ∈ Finset.range (r + 1), (F1 (upto (r + 1) fun k => val k θ n (cut pr.d d)) k (fun j => d (pr.d + j)) * hess k θ p o a b n (cut pr.d d) +
          ∑ l ∈ Finset.range (r + 1), F2 (upto (r + 1) fun k => val k θ n (cut pr.d d)) k l (fun j => d (pr.d + j)) * der k θ p a n (cut pr.d d) * der l θ o b n (cut pr.d d))) x := by
    intro V D H hV VV W Z eg eh x hx hVV hW hZ hg hh
    have hwi : ∀ {n d : Nat → Nat} {p o : Nat} {x y : Nat → Nat}, pr'.Pos n d → (pr'.layout p o).Within ⟨x, y, n, d⟩ := fun h => ⟨h.1, h.2.2.1⟩
    have hwi' : ∀ {n d : Nat → Nat} {p o : Nat} {x y : Nat → Nat}, pr'.Pos n d → (pr'.layout p o).noY.Within ⟨x, y, n, d⟩ := fun h => ⟨h.1, h.2.2.1⟩
    obtain ⟨v1, v2⟩ := piece_of_part (L := pr'.layout 0 0) (t := VV) ⟨[], [], _, hVV.toSlab, fun _ => hVV.full, chart_nil, chart_nil⟩
    refine ⟨VV, W, Z, hx, ⟨hVV.hx, hVV.hy, solid_iff.2 (Or.inr v1), fun n d hnd x y => ?_, fun p hp => (hW p hp).1.1, fun p hp => solid_iff.2 (hW p hp).1.2.1,
      fun p hp a ha n d hnd y => ?_, fun p hp o ho => (hZ p hp o ho).1, fun p hp o ho => solid_iff.2 (hZ p hp o ho).2.1, fun p hp o ho a b ha hb n d hnd => ?_⟩,
      fun _ => ⟨v1.1, v1.2.1, fun k hk _ => v1.2.2 k hk trivial⟩, fun _ p hp => (hW p hp).1.2.2.1, fun _ p hp o ho => (hZ p hp o ho).2.2.1, fun p hp _ => spans_of (hW p hp).1.1 (firm_iff.1 (hW p hp).1.2.2.2.1).1 (firm_iff.1 (hW p hp).1.2.2.2.1).2 (hW p hp).2.2,
      fun _ p hp => (firm_iff.1 (hW p hp).1.2.2.2.1).2, fun _ p hp o ho => (firm_iff.1 (hZ p hp o ho).2.2.2.1).2, fun p hp h => (hW p hp).2.1 h.1 h.2, fun p hp h => h.elim,
      fun p hp o ho _ => (firm_iff.1 (hZ p hp o ho).2.2.2.1).1, fun _ p hp => (hW p hp).2.2⟩
    · obtain ⟨q1, q2, q3, q4, q5⟩ := jn hnd
      have hn' : VV.n = pr'.n := v1.1.hn
      rw [Tensor.dense_read v1.1.wf, hn', hVV.toSlab.read q1, if_pos ⟨agrees_nil _ _, agrees_nil _ _⟩]
      unfold composeAt
      rw [(main hV).1 n d hnd, q5]
    · rw [(hW p hp).1.2.2.2.2 _ (hwi' hnd), hg p hp a ha n d hnd y]
    · rw [(hZ p hp o ho).2.2.2.2 _ (hwi hnd), hh p hp o ho a b ha hb n d hnd]
  -- the sums
  have fin : ∀ {V : Nat → Tensor ℝ} {D : Nat → Nat → Num ℝ} {H : Nat → Nat → Nat → Num ℝ}, (∀ k < r + 1, Values pr N (K k) θ (val k) (der k) (hess k) (V k) (D k) (H k) ∧ Stored pr m (Store.whole (S k)) (V k) (D k) (H k)) →
      ∀ {Fg : Nat → Tensor ℝ} {Fh : Nat → Nat → Tensor ℝ},
      (∀ k < r + 1, Sheet pr'.S (pr.n + pr.d) 0 (pr'.n + pr'.d) pr'.d (idMap (pr.n + pr.d)) [] (Fg k) fun s => F1 (entriesAt (r + 1) (fun k => (V k).values) s) k fun j => s (pr.n + pr.d + j)) →
      (∀ k < r + 1, ∀ l ≤ k, Sheet pr'.S (pr.n + pr.d) (pr.n + pr.d) (pr'.n + pr'.d) pr'.d (idMap (pr.n + pr.d)) (idMap (pr.n + pr.d)) (Fh k l)
        fun s => F2 (entriesAt (r + 1) (fun k => (V k).values) s) k l fun j => s (pr.n + pr.d + j)) →
      ∃ dg ag ar aq, Factors (r + 1) m (fun k => .tensor (Fg k)) (fun k l => .tensor (Fh k l)) D dg H (fun p => IsNumS (pr'.layout p p).noY (r = 0 ∧ S 0 p)) (fun p o => IsNum (pr'.layout p o)) ag ar aq ∧
        (∀ p, (∑ k ∈ Finset.range (r + 1), ag p k).2 = r + 1) ∧
        (∀ p < m, ∀ a, pr'.Entry p (N'.e p a) → ∀ n d, pr'.Pos n d → ∀ y, (∑ k ∈ Finset.range (r + 1), ag p k).1 ⟨N'.e p a, y, n, d⟩ =
          ∑ k ∈ Finset.range (r + 1), F1 (upto (r + 1) fun k => val k θ n (cut pr.d d)) k (fun j => d (pr.d + j)) * der k θ p a n (cut pr.d d)) ∧
        (∀ p < m, ∀ o ≤ p, ∀ a b, pr'.Entry p (N'.e p a) → pr'.Entry o (N'.e o b) → ∀ n d, pr'.Pos n d →
          (∑ k ∈ Finset.range (r + 1), (ar p o k + ∑ l ∈ Finset.range (r + 1), aq p o k l)) ⟨N'.e p a, N'.e o b, n, d⟩ =
          ∑ k ∈ Finset.range (r + 1), (F1 (upto (r + 1) fun k => val k θ n (cut pr.d d)) k (fun j => d (pr.d + j)) * hess k θ p o a b n (cut pr.d d) +
            ∑ l ∈ Finset.range (r + 1), F2 (upto (r + 1) fun k => val k θ n (cut pr.d d)) k l (fun j => d (pr.d + j)) * der k θ p a n (cut pr.d d) * der l θ o b n (cut pr.d d))) := by
    intro V D H hV Fg Fh hFg hFh
    obtain ⟨dg, fac⟩ := num_factors hL hok (D := D) (H := H) (K := K) hFg hFh
      (fun k hk p hp => ⟨(hV k hk).1.dp p hp, solid_iff.1 ((hV k hk).1.ds p hp), (hV k hk).2.mapD trivial p hp, firm_iff.2 ⟨((hV k hk).2.live p hp trivial).live, (hV k hk).2.cleanD trivial p hp⟩, (hV k hk).2.wide trivial p hp⟩)
      (fun k hk p hp o ho => ⟨(hV k hk).1.hp p hp o ho, solid_iff.1 ((hV k hk).1.hs p hp o ho), (hV k hk).2.mapH trivial p hp o ho, (hV k hk).2.cleanH trivial p hp o ho⟩)
      (Sg := fun p => r = 0 ∧ S 0 p) (fun k hk p hp h => (hV k hk).2.single p hp (by
        obtain rfl : k = 0 := by have := h.1; omega
        exact h.2))
    refine ⟨dg, _, _, _, fac, fun p => by rw [Prod.snd_sum]; simp, fun p hp a ha n d hnd y => ?_, fun p hp o ho a b ha hb n d hnd => ?_⟩
    · obtain ⟨q1, q2, q3, q4, q5⟩ := jn hnd
      rw [Prod.fst_sum, Finset.sum_apply]
      refine Finset.sum_congr rfl fun k hk => ?_
      have hk := Finset.mem_range.1 hk
      dsimp only
      rw [(main hV).1 n d hnd, q5, rd hV k hk p hp a ha n d hnd]
    · obtain ⟨q1, q2, q3, q4, q5⟩ := jn hnd
      rw [Finset.sum_apply]
      refine Finset.sum_congr rfl fun k hk => ?_
      have hk := Finset.mem_range.1 hk
      rw [Pi.add_apply, Finset.sum_apply]
      dsimp only
      rw [(main hV).1 n d hnd, q5, rh hV k hk p hp o ho a b ha hb n d hnd]
      congr 1
      refine Finset.sum_congr rfl fun l hl => ?_
      have hl := Finset.mem_range.1 hl
      rw [rd hV k hk p hp a ha n d hnd, rd hV l hl o (by omega) b hb n d hnd]
      split_ifs with c
      · rw [cF.symm _ (hθ.2 n _ (hpos hnd).1) _ (hpos hnd).2 k hk l hl]
      · rfl
  have hlen' : ps.length = m := hps.1
  have : Inhabited (Tensor ℝ) := ⟨Tensor.const 0⟩
  have : Inhabited (Num ℝ) := ⟨.tensor (Tensor.const 0)⟩
  constructor
  · have h := fun k hk => (hret k hk θ (hθ.1 k hk) ps hps').1
    unfold Returns at h
    choose! V D H hge hV using h
    obtain ⟨-, ⟨VV, Fg, Fh, x1, x2, x3, x4⟩, -⟩ := main hV
    obtain ⟨dg, ag, ar, aq, fac, y1, y2, y3⟩ := fin hV (fun k hk => sz (dd := 0) (x3 k hk)) fun k hk l hl => sz (dd := 0) (x4 k hk l hl)
    obtain ⟨W, Z, z1, z2, z3⟩ := composeEval_ok f0' fac hlen' hge x1
    exact out hV z1 (sz (dd := 0) x2) (fun p hp => ⟨(z2 p hp).1, fun h1 h2 => (z2 p hp).2.2.1 (by rw [y1 p, h1]) ⟨h1, h2⟩, (z2 p hp).2.2.2⟩) z3 y2 y3
  · have h := fun k hk => (hret k hk θ (hθ.1 k hk) ps hps').2
    unfold Returns at h
    choose! V D H hge hV using h
    obtain ⟨-, -, ⟨VV, Fg, Fh, x1, x2, x3, x4⟩⟩ := main hV
    obtain ⟨dg, ag, ar, aq, fac, y1, y2, y3⟩ := fin hV (fun k hk => sz (dd := 0) (x3 k hk)) fun k hk l hl => sz (dd := 0) (x4 k hk l hl)
    obtain ⟨W, Z, z1, z2, z3⟩ := composeT_sep f0 f0' fac (fun k hk => (sep_iff hlen').1 (hge k hk)) ((sep_iff (by simp [row])).1 x1)
    refine out hV ((sep_iff hlen').2 z1) (sz (dd := 0) x2) (fun p hp => ⟨(z2 p hp).1, fun h1 h2 => (z2 p hp).2.2.1 (by rw [y1 p, h1]) ⟨h1, h2⟩, (z2 p hp).2.2.2⟩) z3 y2 fun p hp o ho a b ha hb n d hnd => ?_
    rw [← y3 p hp o ho a b ha hb n d hnd]
    refine congrFun (a := (⟨N'.e p a, N'.e o b, n, d⟩ : Idx)) (Finset.sum_congr rfl fun k _ => ?_)
    exact add_comm _ _

end

/-! ### the functions that act on each position separately -/

theorem Acts.congr {f : TFunc ℝ} {r δ : Nat} {T : Nat → Nat} {P : Nat → Nat → Prop} {U : (Nat → ℝ) → Prop} {F F' : (Nat → ℝ) → (Nat → Nat) → ℝ}
    (h : Acts f r δ T P U F) (he : ∀ u o, Outcome δ T o → F u o = F' u o) : Acts f r δ T P U F' := by
  obtain ⟨h1, h2, F1, F2, c, h3⟩ := h
  have key : ∀ {q d : Nat} {S : Nat → Nat} {v : Nat → NDArray ℝ} {x : Except Err (Ev3 ℝ)}, GivesEntries r δ T q d S v F F1 F2 x → GivesEntries r δ T q d S v F' F1 F2 x := by
    rintro q d S v x ⟨V, D, H, k1, k2, k3, k4⟩
    refine ⟨V, D, H, k1, k2.congr fun s hs hs0 => he _ _ ⟨fun j hj => ?_, fun j hj => hs0 _ (by omega)⟩, k3, k4⟩
    have := hs (q + j) (by omega)
    rwa [joinAt_ge] at this
  refine ⟨h1, h2, F1, F2, ⟨fun γ v t hγ hU o ho => ?_, c.h2, c.symm⟩, fun q d S v hq hd hP hv hU => ⟨key (h3 q d S v hq hd hP hv hU).1, key (h3 q d S v hq hd hP hv hU).2⟩⟩
  simp only [← he _ o ho]
  exact c.h1 γ v t hγ hU o ho

/-- **C65.** `Exp` -/
theorem C65_Exp (P : Nat → Nat → Prop) (T : Nat → Nat) : Acts expT 1 0 T P (fun _ => True) fun u _ => Real.exp (u 0) :=
  (entry_acts (U := fun _ => True) (fun u _ => Real.hasDerivAt_exp u) (fun u _ => Real.hasDerivAt_exp u) T P).mono (fun _ _ h => h) fun _ h => h

/-- **C65.** `Log`, where no entry is zero -/
theorem C65_Log (P : Nat → Nat → Prop) (T : Nat → Nat) : Acts logT 1 0 T P (fun u => u 0 ≠ 0) fun u _ => Real.log (u 0) := by
  refine entry_acts (U := fun u => u ≠ 0) (fun u hu => ?_) (fun u hu => ?_) T P
  · simpa using Real.hasDerivAt_log hu
  · have := hasDerivAt_inv hu
    simp only [one_div]
    refine HasDerivAt.congr_deriv this ?_
    simp [neg_div]

/-- **C65.** `Logistic` -/
theorem C65_Logistic (P : Nat → Nat → Prop) (T : Nat → Nat) : Acts logisticT 1 0 T P (fun _ => True) fun u _ => 1 / (1 + Real.exp (-u 0)) := by
  refine (entry_acts (U := fun _ => True) (fun u _ => Func.hasDerivAt_expit u) (fun u _ => ?_) T P).mono (fun _ _ h => h) fun _ h => h
  have h := Func.hasDerivAt_expit u
  refine HasDerivAt.congr_deriv (h.fun_mul (h.const_sub 1)) ?_
  ring

/-- **C65.** `ArcTan` -/
theorem C65_ArcTan (P : Nat → Nat → Prop) (T : Nat → Nat) : Acts arctanT 1 0 T P (fun _ => True) fun u _ => Real.arctan (u 0) := by
  refine (entry_acts (U := fun _ => True) (fun u _ => ?_) (fun u _ => ?_) T P).mono (fun _ _ h => h) fun _ h => h
  · refine HasDerivAt.congr_deriv (Real.hasDerivAt_arctan _) ?_
    rw [sq]
  · have hpos : (1 : ℝ) + u * u ≠ 0 := by nlinarith [mul_self_nonneg u]
    have h1 : HasDerivAt (fun z : ℝ => 1 + z * z) (1 * u + u * 1) u :=
      ((hasDerivAt_id u).fun_mul (hasDerivAt_id u)).const_add 1
    refine HasDerivAt.congr_deriv ((hasDerivAt_const u (1 : ℝ)).fun_div h1 hpos) ?_
    congr 1
    ring

/-- **C65.** `Poisson(size)`, of arrays without outcome axes (the axis of the outcomes is counted as the only one) -/
theorem C65_Poisson (size : Nat) : Acts (poissonT size) 1 1 (fun _ => size) (fun _ d => d = 0) (fun _ => True) fun u o => u 0 ^ o 0 / ((o 0).factorial : ℝ) :=
  ((row_acts (U := fun _ => True) (fun u _ k hk => Func.C30_poisson_grad hk u) fun u _ k hk => Func.C30_poisson_hess hk u).mono (fun _ _ h => h) fun _ h => h).congr
    fun _ o ho => Func.poissonRow_get (ho.1 0 (by omega)) _

/-- **C65.** `LogNegativeBinomial(size, r)`, for positive entries -/
theorem C65_LogNegativeBinomial (size : Nat) {r : ℝ} (hr : 0 < r) : Acts (logNegBinT size r) 1 1 (fun _ => size) (fun _ d => d = 0) (fun u => 0 < u 0)
    fun u o => (o 0 : ℝ) * Real.log (u 0) + Real.log (Real.Gamma (r + o 0)) - Real.log (Real.Gamma r) +
        r * Real.log r - Real.log ((o 0).factorial : ℝ) - ((o 0 : ℝ) + r) * Real.log (r + u 0) :=
  (row_acts (U := fun u => 0 < u) (fun u hu k hk => Func.C30_negbin_grad (r := r) hk (ne_of_gt hu) (by positivity))
    fun u hu k hk => Func.C30_negbin_hess (r := r) hk (ne_of_gt hu) (by positivity)).congr fun _ o ho => Func.logNegBin_get (ho.1 0 (by omega)) _ _

/-- **C65.** `f @ [g_1, …, g_r]` acts on each position separately if `f` and all `g_k` do; the outcomes of `f` follow those of the `g_k`. -/
theorem C65_compose_acts_partial {f : TFunc ℝ} {g : Nat → TFunc ℝ} {r m δ δ' : Nat} {T T' : Nat → Nat} {P P' : Nat → Nat → Prop} {Ug Uf : (Nat → ℝ) → Prop}
    {F : (Nat → ℝ) → (Nat → Nat) → ℝ} {G : Nat → (Nat → ℝ) → (Nat → Nat) → ℝ} (hf : Acts f (r + 1) δ' T' P' Uf F)
    (hg : ∀ k < r + 1, Acts (g k) m δ T P Ug (G k)) :
    Acts (composeT f (row (r + 1) g)) m (δ + δ') (joinAt δ T T') (fun q d => P q d ∧ P' (q + δ) (d + δ))
      (fun u => Ug u ∧ ∀ o, Outcome δ T o → Uf (upto (r + 1) fun k => G k u o))
      fun u o => F (upto (r + 1) fun k => G k u (cut δ o)) fun j => o (δ + j) := acts_compose hf hg

/-- `NegativeBinomial(size, r)` (func_proba.py:110-111) -/
noncomputable def negBinT (size : Nat) (r : ℝ) : TFunc ℝ := composeT expT [logNegBinT size r]

/-- **C65.** `NegativeBinomial(size, r)`: the probabilities of the negative binomial distribution with the mean `u`. -/
theorem C65_NegativeBinomial (size : Nat) {r : ℝ} (hr : 0 < r) : Acts (negBinT size r) 1 1 (fun _ => size) (fun _ d => d = 0) (fun u => 0 < u 0)
    fun u o => Real.exp ((o 0 : ℝ) * Real.log (u 0) + Real.log (Real.Gamma (r + o 0)) - Real.log (Real.Gamma r) +
        r * Real.log r - Real.log ((o 0).factorial : ℝ) - ((o 0 : ℝ) + r) * Real.log (r + u 0)) := by
  have h := C65_compose_acts_partial (r := 0) (C65_Exp (fun _ _ => True) fun _ => size) (g := fun _ => logNegBinT size r) fun _ _ => C65_LogNegativeBinomial size hr
  have e : joinAt 1 (fun _ => size) (fun _ => size) = fun _ => size := by
    funext j; unfold joinAt; split_ifs <;> rfl
  rw [e] at h
  refine ((h.mono (P' := fun _ d => d = 0) (fun _ d hd => ⟨hd, trivial⟩) (U' := fun u => 0 < u 0) fun u hu => ⟨hu, fun _ _ => trivial⟩)).congr fun u o ho => ?_
  have : cut 1 o 0 = o 0 := rfl
  rw [upto_lt (by omega)]
  simp only [this]

end Verif.Tens
