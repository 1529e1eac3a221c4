import Verif.Lemmas.CollapseTerm
import Verif.Props.Terms
import Verif.Props.FuncLeafTensor

/-!
# C67: `Collapse(f)` as a constraint and as a penalty

The sum of the values of a function over all cells, for example `Collapse(Exp()) - 1 = 0` (the exponentials of the entries sum to 1).
-/

set_option linter.unusedSectionVars false

namespace Verif.Tens
open Verif.Params
open NDArray

section
variable {pr0 pr : Problem} {m0 m : Nat} {pm : List Nat} {f : TFunc ℝ} {val : Val} {st : Store}

/-- The first derivatives of the sum over the cells. -/
noncomputable def cellsDer (pr0 : Problem) (pm : List Nat) (der : Der) (θ : Theta) (p a : Nat) : ℝ :=
  (pm.findIdx? (· == p)).elim 0 fun k => ∑ c, der (θ.sub pm) k a (pr0.cellN c) (pr0.cellD c)

/-- The second derivatives of the sum over the cells. -/
noncomputable def cellsHes (pr0 : Problem) (pm : List Nat) (hes : Hes) (θ : Theta) (p q a b : Nat) : ℝ :=
  (pm.findIdx? (· == p)).elim 0 fun k => (pm.findIdx? (· == q)).elim 0 fun l => ∑ c, hes (θ.sub pm) k l a b (pr0.cellN c) (pr0.cellD c)

theorem findIdx_getD {pm : List Nat} (hinc : pm.Pairwise (· < ·)) {k : Nat} (hk : k < pm.length) : pm.findIdx? (· == pm.getD k 0) = some k := by
  cases h : pm.findIdx? (· == pm.getD k 0) with
  | none =>
    exact absurd (by rw [List.getD_eq_getElem _ _ hk]; exact List.getElem_mem hk) (findIdx_none h)
  | some l =>
    obtain ⟨h1, h2⟩ := findIdx_some h
    rw [nodup_get (hinc.imp fun h => Nat.ne_of_lt h) h1 hk h2]

theorem findIdx_not {pm : List Nat} {p : Nat} (h : p ∉ pm) : pm.findIdx? (· == p) = none := by
  rw [List.findIdx?_eq_none_iff]
  intro x hx
  simp
  rintro rfl
  exact h hx

/-- The parts of the statement about the Tensors. -/
theorem collapse_arrays (hpr : pr0.Ok) {θ : Theta} {der : Der} {hes : Hes} {V : Tensor ℝ} {D : Nat → Num ℝ} {H : Nat → Nat → Num ℝ}
    (hv : Values pr0 (cOrder pr0 m0) (fun _ => True) θ val der hes V D H) (hs : Stored pr0 m0 st V D H) (htot : st.tot) (hcl : st.clean) :
    (∃ r, (Py.arr (.tensor V)).sumOver .all true = .ok (.arr r) ∧ IsNumber r (∑ c, valCell pr0 val θ c)) ∧
    (∀ k < m0, ∃ r, (Py.arr (D k)).sumOver .all true = .ok (.arr r) ∧
      pr0.IsGrad (cOrder pr0 m0).e k r (fun a => ∑ c, der θ k a (pr0.cellN c) (pr0.cellD c)) ∧ (st.used k → pr0.Whole k r)) ∧
    ∀ k < m0, ∀ l ≤ k, ∃ r, (Py.arr (H k l)).sumOver .all true = .ok (.arr r) ∧
      pr0.IsBlock (cOrder pr0 m0).e k l r (fun a b => ∑ c, hes θ k l a b (pr0.cellN c) (pr0.cellD c)) := by
  refine ⟨?_, fun k hk => ?_, fun k hk l hl => ?_⟩
  · obtain ⟨t1, t2, -⟩ := hs.tot htot
    have hfull : VFull pr0 V := by
      refine ⟨?_, hv.vx, hv.vy⟩
      rcases solid_full hv.vs trivial with h | ⟨t, e, h⟩
      · exact h
      · cases e
        exact absurd h.2.1 (t1.ne (hpr.layout 0 0))
    obtain ⟨r, r1, r2⟩ := sum_number hpr hfull
    refine ⟨r, sumOver_ok r1, ?_⟩
    have : (∑ c, valCell pr0 val θ c) = ∑ c, pr0.val (.tensor V) c :=
      Finset.sum_congr rfl fun c _ => (hv.v _ _ (cell_pos c) _ _).symm
    rw [this]
    exact r2
  · rcases solid_full (hv.ds k hk) (hs.cleanD hcl k hk) with h | ⟨t, e, h⟩
    · obtain ⟨r, r1, r2, r3⟩ := sum_grad hpr (cOrder pr0 m0).e (hv.dp k hk) h
      refine ⟨r, sumOver_ok r1, ?_, fun hu => r3 (spans_tall (hv.dp k hk) (hs.live k hk hu))⟩
      obtain ⟨t, s1, s2, s3, s4, s5, s6, s7, s8⟩ := r2
      refine ⟨t, s1, s2, s3, s4, s5, s6, s7, fun a i hi hE => ?_⟩
      rw [s8 a i hi hE]
      exact Finset.sum_congr rfl fun c _ => hv.d k hk a hE _ _ (cell_pos c) _
    · obtain ⟨r, r1, r2⟩ := zero_sumAll h
      refine ⟨_, sumOver_ok (by rw [e]; exact r1), isZero_isGrad r2 fun a hE => ?_, fun hu => ?_⟩
      · refine Finset.sum_eq_zero fun c _ => ?_
        rw [← hv.d k hk a hE _ _ (cell_pos c) (fun _ => 0), e]
        exact h.dense _
      · have := hs.live k hk hu
        rw [e] at this
        exact absurd h this.1
  · rcases solid_full (hv.hs k hk l hl) (hs.cleanH hcl k hk l hl) with h | ⟨t, e, h⟩
    · obtain ⟨r, r1, r2, -⟩ := sum_block hpr (cOrder pr0 m0).e (hv.hp k hk l hl) h
      refine ⟨r, sumOver_ok r1, ?_⟩
      obtain ⟨t, s1, s2, s3, s4, s5, s6, s7, s8⟩ := r2
      refine ⟨t, s1, s2, s3, s4, s5, s6, s7, fun a b i hi hi' hE hE' => ?_⟩
      rw [s8 a b i hi hi' hE hE']
      exact Finset.sum_congr rfl fun c _ => hv.h k hk l hl a b hE hE' _ _ (cell_pos c)
    · obtain ⟨r, r1, r2⟩ := zero_sumAll h
      refine ⟨_, sumOver_ok (by rw [e]; exact r1), isZero_isBlock r2 fun a b hE hE' => ?_⟩
      refine Finset.sum_eq_zero fun c _ => ?_
      rw [← hv.h k hk l hl a b hE hE' _ _ (cell_pos c), e]
      exact h.dense _

theorem collapse_ok (hpr : pr0.Ok) (hlt : ∀ p ∈ pm, p < m) (hinc : pm.Pairwise (· < ·)) (hlen : pm.length = m0)
    (hsz : ∀ k < m0, pr0.sizes k = pr.sizes (pm.getD k 0))
    (hf : Computes pr0 (cOrder pr0 m0) (fun _ => True) st (fun _ => True) f val) (htot : st.tot) (hcl : st.clean) :
    ∃ der hes, IsPenalty (cOrder pr m) ⟨pm, collapseT f .all true⟩ (fun θ => ∑ c, valCell pr0 val (θ.sub pm) c) der hes ∧
      ((∀ k < m0, st.used k) → ∀ θ args, (cOrder pr m).IsArgs θ pm args → ∀ G : Nat → Num ℝ,
        (collapseT f .all true).grads args = .ok (row pm.length fun k => .arr (G k)) → ∀ k < pm.length, ∀ r, G k = .tensor r →
        r.xDim = pr.nd (pm.getD k 0)) := by
  obtain ⟨der, hes, hsm, hret⟩ := hf.ok
  have he : ∀ k < m0, (cOrder pr0 m0).e k = (cOrder pr m).e (pm.getD k 0) := by
    intro k hk
    funext a
    show unravel (pr0.sizes k) a = unravel (pr.sizes _) a
    rw [hsz k hk]
  have key : ∀ θ args, (cOrder pr m).IsArgs θ pm args →
      (∃ r, (collapseT f .all true).call args = .ok (.arr r) ∧ IsNumber r (∑ c, valCell pr0 val (θ.sub pm) c)) ∧
      (∀ k < m0, ∃ r, (collapseT f .all true).grad args k = .ok (.arr r) ∧
        pr0.IsGrad (cOrder pr0 m0).e k r (fun a => ∑ c, der (θ.sub pm) k a (pr0.cellN c) (pr0.cellD c)) ∧ (st.used k → pr0.Whole k r)) ∧
      ∀ k < m0, ∀ l ≤ k, ∃ r, (collapseT f .all true).hess args k l = .ok (.arr r) ∧
        pr0.IsBlock (cOrder pr0 m0).e k l r (fun a b => ∑ c, hes (θ.sub pm) k l a b (pr0.cellN c) (pr0.cellD c)) := by
    intro θ args hA
    have hP := args_params hlen hsz hA
    obtain ⟨-, V, D, H, h1, h2, h3⟩ := hret (θ.sub pm) trivial args hP
    obtain ⟨c1, c2, c3⟩ := (sep_iff hP.1).1 h1
    obtain ⟨a1, a2, a3⟩ := collapse_arrays hpr h2 h3 htot hcl
    refine ⟨?_, fun k hk => ?_, fun k hk l hl => ?_⟩
    · obtain ⟨r, r1, r2⟩ := a1
      refine ⟨r, ?_, r2⟩
      show (f.call args >>= fun v => v.sumOver .all true) = _
      rw [c1]; exact r1
    · obtain ⟨r, r1, r2⟩ := a2 k hk
      refine ⟨r, ?_, r2⟩
      show (f.grad args k >>= fun v => v.sumOver .all true) = _
      rw [c2 k hk]; exact r1
    · obtain ⟨r, r1, r2⟩ := a3 k hk l hl
      refine ⟨r, ?_, r2⟩
      show (f.hess args k l >>= fun v => v.sumOver .all true) = _
      rw [c3 k hk l hl]; exact r1
  have hzero : ∀ θ p a, p ∉ pm → cellsDer pr0 pm der θ p a = 0 := by
    intro θ p a hp
    unfold cellsDer
    rw [findIdx_not hp]
    rfl
  have hn : pm.Nodup := hinc.imp fun h => Nat.ne_of_lt h
  refine ⟨cellsDer pr0 pm der, cellsHes pr0 pm hes, ⟨hlt, hinc, fun θ args hA => ?_, fun θ args hA => ?_, fun θ args hA => ?_, hzero, ?_, ?_, ?_⟩, ?_⟩
  · obtain ⟨⟨r, r1, r2⟩, -⟩ := key θ args hA
    exact ⟨_, r1, Or.inr ⟨r, rfl, r2⟩⟩
  · obtain ⟨-, h, -⟩ := key θ args hA
    have : ∀ k, ∃ r, k < m0 → (collapseT f .all true).grad args k = .ok (.arr r) ∧
        pr0.IsGrad (cOrder pr0 m0).e k r (fun a => ∑ c, der (θ.sub pm) k a (pr0.cellN c) (pr0.cellD c)) := by
      intro k
      by_cases hk : k < m0
      · obtain ⟨r, r1, r2, -⟩ := h k hk
        exact ⟨r, fun _ => ⟨r1, r2⟩⟩
      · exact ⟨zeroN, fun c => absurd c hk⟩
    choose G hG using this
    refine ⟨G, grads_of rfl hA.1 fun k hk => (hG k (hlen ▸ hk)).1, fun k hk => ?_⟩
    have hk0 : k < m0 := by rw [← hlen]; exact hk
    have := isGrad_sizes (hsz k hk0) (he k hk0) (hG k hk0).2
    dsimp only at this ⊢
    have e : cellsDer pr0 pm der θ (pm.getD k 0) = fun a => ∑ c, der (θ.sub pm) k a (pr0.cellN c) (pr0.cellD c) := by
      funext a
      unfold cellsDer
      rw [findIdx_getD hinc hk]
      rfl
    rw [e]
    exact this
  · obtain ⟨-, -, h⟩ := key θ args hA
    have : ∀ k l, ∃ r, k < m0 → l ≤ k → (collapseT f .all true).hess args k l = .ok (.arr r) ∧
        pr0.IsBlock (cOrder pr0 m0).e k l r (fun a b => ∑ c, hes (θ.sub pm) k l a b (pr0.cellN c) (pr0.cellD c)) := by
      intro k l
      by_cases hk : k < m0 ∧ l ≤ k
      · obtain ⟨r, r1, r2⟩ := h k hk.1 l hk.2
        exact ⟨r, fun _ _ => ⟨r1, r2⟩⟩
      · exact ⟨zeroN, fun c c' => absurd ⟨c, c'⟩ hk⟩
    choose G hG using this
    refine ⟨G, hesses_of rfl hA.1 fun k hk l hl => (hG k l (hlen ▸ hk) hl).1, fun k hk l hl => ?_⟩
    have hk0 : k < m0 := by rw [← hlen]; exact hk
    have hl0 : l < m0 := by omega
    have := isBlock_sizes (hsz k hk0) (hsz l hl0) (he k hk0) (he l hl0) (hG k l hk0 hl).2
    dsimp only at this ⊢
    have e : cellsHes pr0 pm hes θ (pm.getD k 0) (pm.getD l 0) = fun a b => ∑ c, hes (θ.sub pm) k l a b (pr0.cellN c) (pr0.cellD c) := by
      funext a b
      unfold cellsHes
      rw [findIdx_getD hinc hk, findIdx_getD hinc (k := l) (by omega)]
      rfl
    rw [e]
    exact this
  · intro θ p q a b h
    dsimp only at h
    unfold cellsHes
    rcases h with h | h
    · rw [findIdx_not h]; rfl
    · rw [findIdx_not h]
      cases pm.findIdx? (· == p) <;> rfl
  · intro θ p hp a hE
    cases hi : pm.findIdx? (· == p) with
    | none =>
      rw [hzero θ p a (findIdx_none hi)]
      exact partial_other (F := fun θ => ∑ c, valCell pr0 val θ c) (findIdx_none hi) a
    | some k =>
      obtain ⟨hk, rfl⟩ := findIdx_some hi
      have hk0 : k < m0 := by rw [← hlen]; exact hk
      unfold cellsDer
      rw [hi]
      refine partial_sub (F := fun θ => ∑ c, valCell pr0 val θ c) hn hk (hasPartial_sum fun c => ?_)
      refine hsm.hd _ trivial k hk0 a ?_ _ _ (cell_pos c)
      rw [he k hk0]
      exact (entry_sizes (hsz k hk0) _).2 hE
  · intro θ p hp q hq a b hE hE'
    cases hi : pm.findIdx? (· == p) with
    | none =>
      unfold cellsDer cellsHes
      rw [hi]
      show HasPartial (fun _ => (0 : ℝ)) θ q b 0
      exact hasDerivAt_const _ _
    | some k =>
      obtain ⟨hk, rfl⟩ := findIdx_some hi
      have hk0 : k < m0 := by rw [← hlen]; exact hk
      unfold cellsDer cellsHes
      rw [hi]
      cases hj : pm.findIdx? (· == q) with
      | none => exact partial_other (F := fun θ => ∑ c, der θ k a (pr0.cellN c) (pr0.cellD c)) (findIdx_none hj) b
      | some l =>
        obtain ⟨hl, rfl⟩ := findIdx_some hj
        have hl0 : l < m0 := by rw [← hlen]; exact hl
        refine partial_sub (F := fun θ => ∑ c, der θ k a (pr0.cellN c) (pr0.cellD c)) hn hl (hasPartial_sum fun c => ?_)
        refine hsm.hh _ trivial k hk0 l (sorted_get hinc hk hl hq) a b ?_ ?_ _ _ (cell_pos c)
        · rw [he k hk0]; exact (entry_sizes (hsz k hk0) _).2 hE
        · rw [he l hl0]; exact (entry_sizes (hsz l hl0) _).2 hE'
  · intro hu θ args hA G hG k hk r hr
    have hk0 : k < m0 := by rw [← hlen]; exact hk
    obtain ⟨-, h, -⟩ := key θ args hA
    obtain ⟨r', r1, -, r3⟩ := h k hk0
    have := grads_inv hA.1 hG k hk
    rw [r1] at this
    cases this
    obtain ⟨s, s1, s2, -⟩ := r3 (hu k hk0)
    rw [hr] at s1
    cases s1
    rw [s2, nd_sizes (hsz k hk0)]

/-- **C67.** `Collapse(f)` as a penalty: if `f` returns its function with its derivatives (C64-C66), without broadcast axes, for the parameters `pm` of the fit, then
`Collapse(f)` is the penalty that is the sum of its values over all cells. -/
theorem C67_collapse_penalty (hpr : pr0.Ok) (hlt : ∀ p ∈ pm, p < m) (hinc : pm.Pairwise (· < ·)) (hlen : pm.length = m0)
    (hsz : ∀ k < m0, pr0.sizes k = pr.sizes (pm.getD k 0))
    (hf : Computes pr0 (cOrder pr0 m0) (fun _ => True) st (fun _ => True) f val) (htot : st.tot) (hcl : st.clean) :
    ∃ der hes, IsPenalty (cOrder pr m) ⟨pm, collapseT f .all true⟩ (fun θ => ∑ c, valCell pr0 val (θ.sub pm) c) der hes := by
  obtain ⟨der, hes, h, -⟩ := collapse_ok hpr hlt hinc hlen hsz hf htot hcl
  exact ⟨der, hes, h⟩

/-- **C67.** `Collapse(f)` as a constraint, if all parameters `pm` occur in `f`. -/
theorem C67_collapse_constraint (hpr : pr0.Ok) (hlt : ∀ p ∈ pm, p < m) (hinc : pm.Pairwise (· < ·)) (hlen : pm.length = m0) (hne : pm ≠ [])
    (hsz : ∀ k < m0, pr0.sizes k = pr.sizes (pm.getD k 0))
    (hf : Computes pr0 (cOrder pr0 m0) (fun _ => True) st (fun _ => True) f val) (htot : st.tot) (hcl : st.clean) (hu : ∀ k < m0, st.used k) :
    ∃ der, IsConstraint (cOrder pr m) ⟨pm, collapseT f .all true⟩ (fun θ => ∑ c, valCell pr0 val (θ.sub pm) c) der := by
  obtain ⟨der, hes, h, hx⟩ := collapse_ok hpr hlt hinc hlen hsz hf htot hcl
  exact ⟨der, penalty_constraint h hne (hx hu)⟩

/-- The arrays of a function of one array with `s` entries. -/
def vectorOf (s : Nat) : Problem := ⟨1, 0, fun _ => s, fun _ => 1, fun _ _ => s⟩

theorem sum_vectorOf (s : Nat) (F : Nat → ℝ) : ∑ c : (vectorOf s).Cell, F ((vectorOf s).cellN c 0) = ∑ a ∈ Finset.range s, F a := by
  rw [Finset.sum_range]
  refine Fintype.sum_equiv (⟨fun c => c.1 (⟨0, Nat.one_pos⟩ : Fin 1), fun a => (fun _ => a, fun k => k.elim0), fun c => ?_, fun a => rfl⟩ : (vectorOf s).Cell ≃ Fin s) _ _ fun c => rfl
  refine Prod.ext ?_ ?_
  · funext k
    have : k = (⟨0, Nat.one_pos⟩ : Fin 1) := Fin.ext (by have : k.1 < 1 := k.2; show k.1 = 0; omega)
    rw [this]
  · funext k
    exact k.elim0

/-- A concrete case: the constraint `Collapse(Exp()) - c`, the exponentials of the entries of a parameter sum to `c` (for `c = 1`: they are probabilities). -/
theorem C67_example_exponentials {p s : Nat} (hp : p < m) (hs : s ≠ 0) (hsz : pr.sizes p = [s]) (c : ℝ) :
    ∃ der, IsConstraint (cOrder pr m) ⟨[p], affineT (collapseT expT .all true) 1 (-c)⟩ (fun θ => (∑ a ∈ Finset.range s, Real.exp (θ p a)) - c) der := by
  have hf := C64_Exp (pr := vectorOf s) (N := cOrder (vectorOf s) 1) (fun p hp => ⟨rfl, fun k hk => rfl⟩) rfl
  obtain ⟨der, h⟩ := C67_collapse_constraint (pr0 := vectorOf s) (pr := pr) (m0 := 1) (m := m) (pm := [p]) ⟨Nat.one_pos, fun k _ => hs⟩ (by simpa using hp) (by simp) rfl (by simp)
    (fun k hk => by obtain rfl : k = 0 := by omega
                    show [s] = _; exact hsz.symm) hf trivial trivial (fun k hk => Nat.one_pos)
  have h := C67_affine_constraint h rfl rfl one_ne_zero (-c)
  have e : (fun θ : Theta => (∑ a ∈ Finset.range s, Real.exp (θ p a)) - c) = fun θ =>
      1 * ∑ c, valCell (vectorOf s) (fun θ n _ => Real.exp (θ 0 ((cOrder (vectorOf s) 1).num 0 n))) (θ.sub [p]) c + -c := ?_
  · rw [e]
    exact ⟨_, h⟩
  funext θ
  rw [one_mul, sub_eq_add_neg, ← sum_vectorOf]
  congr 1
  refine Finset.sum_congr rfl fun x _ => ?_
  unfold valCell
  have h1 : (cOrder (vectorOf s) 1).num 0 ((vectorOf s).cellN x) = (vectorOf s).cellN x 0 := by
    show ravel [s] _ = _
    simp [ravel]
  beta_reduce
  rw [h1]
  rfl

end

end Verif.Tens
