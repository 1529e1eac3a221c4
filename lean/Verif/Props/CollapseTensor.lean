import Verif.Lemmas.CollapseLeaf
import Verif.Props.FuncComposeTensor

/-!
# C65: `CollapseMatrix() @ g`, executed on Tensors
-/

set_option linter.unusedSectionVars false

namespace Verif.Tens
open Verif.Params (Err)
open NDArray

section
variable {α : Type} [Field α] [DecidableEq α] {m : Nat} {f g : TFunc α} {ps : List (Tensor α)} {V G : Tensor α} {VV : Py α} {hs : List (List (Py α))}
  {D : Nat → Num α} {H : Nat → Nat → Num α} {Pg : Nat → Num α → Prop} {Ph : Nat → Nat → Num α → Prop}

theorem pySum_one {w : Num α} (h : w.scalarOp .add 0 = .ok w) : pySum [.arr w] = .ok (.arr w) := by
  show (Py.add (.num 0) (.arr w) >>= fun s => pure s) = _
  have : Py.add (.num 0) (.arr w) = (.ok (.arr w) : Except Err (Py α)) := by
    show (w.scalarOp .add 0).map Py.arr = _
    rw [h]; rfl
  rw [this]; rfl

/-- `eval` of `f @ [g]` for a function `f` with a null Hessian -/
theorem composeEval_null (h1 : f.gradNull = false) (h2 : f.hessNull = true) (hps : ps.length = m)
    (hg : g.eval ps = .ok ⟨.arr (.tensor V), row m fun i => .arr (D i), triangle m fun i j => .arr (H i j)⟩)
    (hf : f.eval [V] = .ok ⟨VV, [.arr (.tensor G)], hs⟩)
    (hD : ∀ i < m, ∃ b w, (D i).dropDim = .ok b ∧ G.dotLeftNum b = .ok w ∧ w.scalarOp .add 0 = .ok w ∧ Pg i w)
    (hH : ∀ i < m, ∀ j ≤ i, ∃ b w, (H i j).dropDim = .ok b ∧ G.dotRightNum b = .ok (.arr w) ∧ w.scalarOp .add 0 = .ok w ∧ Ph i j w) :
    ∃ (W : Nat → Num α) (Z : Nat → Nat → Num α), composeEval f [g] ps = .ok ⟨VV, row m fun i => .arr (W i), triangle m fun i j => .arr (Z i j)⟩ ∧
      (∀ i < m, Pg i (W i)) ∧ ∀ i < m, ∀ j ≤ i, Ph i j (Z i j) := by
  have : Inhabited (Num α) := ⟨.tensor (Tensor.const 0)⟩
  choose! b W w1 w2 w3 w4 using hD
  choose! c Z z1 z2 z3 z4 using hH
  refine ⟨W, Z, ?_, w4, z4⟩
  unfold composeEval
  rw [if_neg (by simp)]
  have e1 : ([g].mapM fun g => g.eval ps) = .ok [⟨.arr (.tensor V), row m fun i => .arr (D i), triangle m fun i j => .arr (H i j)⟩] := by
    rw [List.mapM_cons, hg]; rfl
  have e2 : ((row m fun i => Py.arr (D i)).mapM Py.dropDim) = .ok (row m b) := mapM_row fun i hi => w1 i hi
  rw [e1, ok_bind']
  have e3 : ([(⟨.arr (.tensor V), row m fun i => .arr (D i), triangle m fun i j => .arr (H i j)⟩ : Ev3 α)].mapM fun e => e.grad.mapM Py.dropDim) = .ok [row m b] := by
    rw [List.mapM_cons]
    dsimp only
    rw [e2]; rfl
  rw [e3, ok_bind']
  show (f.eval [V] >>= _) = _
  rw [hf, ok_bind', hps]
  dsimp only
  rw [mapM_list (g := fun i => Py.arr (W i)) fun i hi => ?_, ok_bind',
    mapM_list (g := fun i => row (i + 1) fun j => Py.arr (Z i j)) fun i hi => mapM_list (g := fun j => Py.arr (Z i j)) fun j hj => ?_, ok_bind']
  · rfl
  · have hi := List.mem_range.1 hi
    have hj := List.mem_range.1 hj
    rw [if_pos ⟨h1, h2⟩]
    unfold evalHessNullEntry
    show (List.mapM _ [0] >>= _) = _
    rw [List.mapM_cons, pick_one, ok_bind']
    show ((pick [triangle m fun i j => Py.arr (H i j)] 0 >>= _) >>= _) >>= _ = _
    rw [pick_one, ok_bind', pick2_range hi (by omega), ok_bind']
    have a1 : Py.dropDim (.arr (H i j)) = .ok (c i j) := z1 i hi j (by omega)
    have a2 : Py.dotRight (.arr (.tensor G)) (c i j) = .ok (.arr (Z i j)) := z2 i hi j (by omega)
    rw [a1, ok_bind', a2, ok_bind']
    exact pySum_one (z3 i hi j (by omega))
  · have hi := List.mem_range.1 hi
    unfold evalGradEntry
    show (List.mapM _ [0] >>= _) = _
    rw [List.mapM_cons, pick_one, ok_bind']
    unfold pick2
    rw [pick_one, ok_bind', pick_range hi, ok_bind']
    have a2 : Py.dotLeft (.arr (.tensor G)) (b i) = .ok (.arr (W i)) := by
      show (G.dotLeftNum (b i)).map Py.arr = _
      rw [w2 i hi]; rfl
    rw [a2, ok_bind']
    exact pySum_one (w3 i hi)

/-- The methods of `f @ [g]` for a function `f` with a null Hessian -/
theorem composeT_null (h1 : f.gradNull = false) (h2 : f.hessNull = true)
    (hg : g.call ps = .ok (.arr (.tensor V)) ∧ (∀ i < m, g.grad ps i = .ok (.arr (D i))) ∧ ∀ i < m, ∀ j ≤ i, g.hess ps i j = .ok (.arr (H i j)))
    (hf : f.call [V] = .ok VV) (hf' : f.grad [V] 0 = .ok (.arr (.tensor G)))
    (hD : ∀ i < m, ∃ b w, (D i).dropDim = .ok b ∧ G.dotLeftNum b = .ok w ∧ w.scalarOp .add 0 = .ok w ∧ Pg i w)
    (hH : ∀ i < m, ∀ j ≤ i, ∃ b w, (H i j).dropDim = .ok b ∧ G.dotRightNum b = .ok (.arr w) ∧ w.scalarOp .add 0 = .ok w ∧ Ph i j w) :
    ∃ (W : Nat → Num α) (Z : Nat → Nat → Num α), ((composeT f [g]).call ps = .ok VV ∧ (∀ i < m, (composeT f [g]).grad ps i = .ok (.arr (W i))) ∧
      ∀ i < m, ∀ j ≤ i, (composeT f [g]).hess ps i j = .ok (.arr (Z i j))) ∧
      (∀ i < m, Pg i (W i)) ∧ ∀ i < m, ∀ j ≤ i, Ph i j (Z i j) := by
  have : Inhabited (Num α) := ⟨.tensor (Tensor.const 0)⟩
  choose! b W w1 w2 w3 w4 using hD
  choose! c Z z1 z2 z3 z4 using hH
  have hus : composeVal [g] ps = .ok [V] := by
    unfold composeVal
    rw [List.mapM_cons, hg.1]; rfl
  refine ⟨W, Z, ⟨?_, fun i hi => ?_, fun i hi j hj => ?_⟩, w4, z4⟩
  · show (composeVal [g] ps >>= f.call) = _
    rw [hus, ok_bind', hf]
  · show composeGrad f [g] ps i = _
    unfold composeGrad
    rw [h1]
    simp only [Bool.false_eq_true, if_false]
    rw [hus, ok_bind']
    show (List.mapM _ [0] >>= _) = _
    rw [List.mapM_cons, pick_one, ok_bind', hf', ok_bind', hg.2.1 i hi, ok_bind']
    have a1 : Py.dropDim (.arr (D i)) = .ok (b i) := w1 i hi
    have a2 : Py.dotLeft (.arr (.tensor G)) (b i) = .ok (.arr (W i)) := by
      show (G.dotLeftNum (b i)).map Py.arr = _
      rw [w2 i hi]; rfl
    rw [a1, ok_bind', a2, ok_bind']
    exact pySum_one (w3 i hi)
  · show (if f.gradNull = true then nullFunc else if f.hessNull = true then composeHessNull f [g] ps i j else composeHess f [g] ps i j) = _
    rw [h1, h2]
    simp only [Bool.false_eq_true, if_false, if_true]
    unfold composeHessNull
    rw [hus, ok_bind']
    show (List.mapM _ [0] >>= _) = _
    rw [List.mapM_cons, pick_one, ok_bind', hf', ok_bind', hg.2.2 i hi j hj, ok_bind']
    have a1 : Py.dropDim (.arr (H i j)) = .ok (c i j) := z1 i hi j hj
    have a2 : Py.dotRight (.arr (.tensor G)) (c i j) = .ok (.arr (Z i j)) := z2 i hi j hj
    rw [a1, ok_bind', a2, ok_bind']
    exact pySum_one (z3 i hi j hj)

end

section
variable {pr pr' : Problem} {m : Nat} {N : Numbering pr m} {N' : Numbering pr' m}

theorem Collapsed.chart (h : Collapsed N N') {p : Nat} (hp : p < m) {l : List Int} (hl : Chart pr.n pr.S (pr.nd p) (pr.P p) l) :
    Chart pr'.n pr'.S (pr'.nd p) (pr'.P p) l := by
  refine ⟨by rw [h.nd p hp]; exact hl.len, by rw [h.n]; exact hl.range, hl.nodup, fun k hk => ?_⟩
  have h1 := hl.getD hk
  have h2 := hl.len
  rw [h.S _ (by omega), h.P p hp k (by omega)]
  exact hl.size k hk

theorem Collapsed.entry (h : Collapsed N N') {p : Nat} (hp : p < m) {a : Nat} : pr'.Entry p (N'.e p a) ↔ pr.Entry p (N.e p a) := by
  rw [h.e p hp a]
  constructor
  · rintro ⟨h1, h2⟩
    refine ⟨fun k hk => ?_, fun k hk => h2 k (by rw [h.nd p hp]; exact hk)⟩
    rw [← h.P p hp k hk]
    exact h1 k (by rw [h.nd p hp]; exact hk)
  · rintro ⟨h1, h2⟩
    refine ⟨fun k hk => ?_, fun k hk => h2 k (by rw [← h.nd p hp]; exact hk)⟩
    rw [h.nd p hp] at hk
    rw [h.P p hp k hk]
    exact h1 k hk

theorem Collapsed.params (h : Collapsed N N') {θ : Theta} {ps : List (Tensor ℝ)} (hps : N'.IsParams θ ps) : N.IsParams θ ps := by
  refine ⟨hps.1, fun p hp => ?_⟩
  obtain ⟨v, v1, v2, v3, v4⟩ := hps.2 p hp
  refine ⟨v, v1, by rw [v2, h.nd p hp], fun k hk => by rw [v3 k (by rw [h.nd p hp]; exact hk), h.P p hp k hk], fun a ha => ?_⟩
  rw [← v4 a ((h.entry hp).2 ha), h.e p hp]

theorem Collapsed.pos (h : Collapsed N N') {n d : Nat → Nat} (hnd : pr'.Pos n d) {i j : Nat} (hi : i < pr.S pr.n) (hj : j < pr.S (pr.n + 1)) : pr.Pos n (pairAt i j) := by
  obtain ⟨h1, h2, h3, h4⟩ := hnd
  have hn := h.n
  have hd := h.d
  refine ⟨fun k hk => ?_, fun k hk => h2 k (by omega), fun k hk => ?_, fun k hk => ?_⟩
  · rw [← h.S k hk]; exact h1 k (by omega)
  · obtain rfl | rfl : k = 0 ∨ k = 1 := by omega
    · exact hi
    · exact hj
  · unfold pairAt
    rw [if_neg (by omega), if_neg (by omega)]

theorem putAt_joinAt (n : Nat) (x d : Nat → Nat) (i j : Nat) : putAt n (joinAt n x d) i j = joinAt n x (pairAt i j) := by
  funext k
  unfold putAt
  by_cases c : k < n
  · rw [if_pos c, joinAt_lt c, joinAt_lt c]
  · obtain ⟨l, rfl⟩ : ∃ l, k = n + l := ⟨k - n, by omega⟩
    rw [if_neg c, joinAt_ge]
    unfold pairAt
    rcases l with _ | _ | l
    · simp
    · simp
    · rw [if_neg (by omega), if_neg (by omega), if_neg (by omega), if_neg (by omega)]

/-- The derivatives of the probabilities of the outcomes -/
theorem smooth_collapse (hC : Collapsed N N') {dom : Theta → Prop} {val : Val} {der : Der} {hess : Hes} (hg : Smooth pr N dom val der hess) :
    Smooth pr' N' dom (collapseVal (pr.S pr.n) (pr.S (pr.n + 1)) val)
      (fun θ p a n d => ∑ i ∈ Finset.range (pr.S pr.n), ∑ j ∈ Finset.range (pr.S (pr.n + 1)), if matchResult i j = d 0 then der θ p a n (pairAt i j) else 0)
      fun θ p o a b n d => ∑ i ∈ Finset.range (pr.S pr.n), ∑ j ∈ Finset.range (pr.S (pr.n + 1)), if matchResult i j = d 0 then hess θ p o a b n (pairAt i j) else 0 := by
  have key : ∀ {f : ℝ → Nat → Nat → ℝ} {f' : Nat → Nat → ℝ} {t : ℝ} {c : Nat}, (∀ i < pr.S pr.n, ∀ j < pr.S (pr.n + 1), HasDerivAt (fun s => f s i j) (f' i j) t) →
      HasDerivAt (fun s => ∑ i ∈ Finset.range (pr.S pr.n), ∑ j ∈ Finset.range (pr.S (pr.n + 1)), if matchResult i j = c then f s i j else 0)
        (∑ i ∈ Finset.range (pr.S pr.n), ∑ j ∈ Finset.range (pr.S (pr.n + 1)), if matchResult i j = c then f' i j else 0) t := by
    intro f f' t c h
    refine HasDerivAt.fun_sum fun i hi => HasDerivAt.fun_sum fun j hj => ?_
    split_ifs
    · exact h i (Finset.mem_range.1 hi) j (Finset.mem_range.1 hj)
    · exact hasDerivAt_const _ _
  constructor
  · intro θ hθ p hp a ha n d hnd
    exact key (f := fun s i j => val (θ.set p a s) n (pairAt i j)) fun i hi j hj => hg.hd θ hθ p hp a ((hC.entry hp).1 ha) n _ (hC.pos hnd hi hj)
  · intro θ hθ p hp o ho a b ha hb n d hnd
    exact key (f := fun s i j => der (θ.set o b s) p a n (pairAt i j)) fun i hi j hj =>
      hg.hh θ hθ p hp o ho a b ((hC.entry hp).1 ha) ((hC.entry (show o < m by omega)).1 hb) n _ (hC.pos hnd hi hj)

/-- **C65.** `CollapseMatrix() @ g`, where `g` returns Tensors with its values (for two outcomes: the numbers of goals of both sides) and its
derivatives: the composition returns Tensors with the sums over the results with a win of the first side, a draw and a win of the second side,
and with the derivatives of these sums. -/
theorem C65_CollapseMatrix_partial (hC : Collapsed N N') (hok : pr'.Ok) {K : Nat → Prop} {S : Nat → Prop} {dom : Theta → Prop} {g : TFunc ℝ} {val : Val}
    (hg : Computes pr N K (Store.solid S) dom g val) :
    Computes pr' N' (fun _ => True) (Store.solid S) dom (composeT (collapseMatrixT none) [g]) (collapseVal (pr.S pr.n) (pr.S (pr.n + 1)) val) := by
  obtain ⟨der, hess, hsm, hret⟩ := hg.ok
  have hn := hC.n
  have hd := hC.d
  have hd' := hC.d'
  have hn0 := hok.1
  refine ⟨⟨_, _, smooth_collapse hC hsm, ?_⟩, fun h => ?_, fun h => ?_⟩
  rotate_left
  · exact absurd h (by show ¬ false = true; simp)
  · exact absurd h (by show ¬ false = true; simp)
  intro θ hθ ps hps
  have hps' := hC.params hps
  have hlen' : ps.length = m := hps.1
  -- positions
  have jn : ∀ {n d : Nat → Nat}, pr'.Pos n d → ∀ j < pr.n + 1, joinAt pr.n n d j < pr'.S j := by
    rintro n d ⟨h1, h2, h3, h4⟩ j hj
    by_cases c : j < pr.n
    · rw [joinAt_lt c]; exact h1 j (by omega)
    · obtain rfl : j = pr.n + 0 := by omega
      rw [joinAt_ge]
      have := h3 0 (by omega)
      rwa [hn] at this
  have wt : ∀ {n d : Nat → Nat} (F : Nat → Nat → ℝ), ∑ i ∈ Finset.range (pr.S pr.n), ∑ j ∈ Finset.range (pr.S (pr.n + 1)),
      F i j * resultWeight pr.n i j (cut (pr.n + 1) (joinAt pr.n n d)) = ∑ i ∈ Finset.range (pr.S pr.n), ∑ j ∈ Finset.range (pr.S (pr.n + 1)), if matchResult i j = d 0 then F i j else 0 := by
    intro n d F
    refine Finset.sum_congr rfl fun i _ => Finset.sum_congr rfl fun j _ => ?_
    unfold resultWeight
    have : cut (pr.n + 1) (joinAt pr.n n d) pr.n = d 0 := by
      rw [cut_of (by omega)]
      exact joinAt_ge (k := 0)
    rw [this, mul_ite, mul_one, mul_zero]
  -- the results of both evaluations
  have main : ∀ {V : Tensor ℝ} {D : Nat → Num ℝ} {H : Nat → Nat → Num ℝ}, Values pr N K θ val der hess V D H → Stored pr m (Store.solid S) V D H →
      ∃ t w, (collapseCallT none [V] = .ok (.arr (.tensor t))) ∧ collapseGradT none [V] = .ok (.arr (.tensor w)) ∧
        Sheet pr'.S 0 0 (pr.n + 1) 1 [] [] t (fun s => ∑ i ∈ Finset.range (pr.S pr.n), ∑ j ∈ Finset.range (pr.S (pr.n + 1)), V.values.get (putAt pr.n s i j) * resultWeight pr.n i j s) ∧
        (∀ n d, pr'.Pos n d → ∀ i < pr.S pr.n, ∀ j < pr.S (pr.n + 1), V.values.get (joinAt pr.n n (pairAt i j)) = val θ n (pairAt i j)) ∧
        (∀ p < m, ∃ b r, (D p).dropDim = .ok b ∧ w.dotLeftNum b = .ok r ∧ r.scalarOp .add 0 = .ok r ∧
          (∃ e, IsNum (pr'.layout p p).noY r e ∧ ∀ a, pr'.Entry p (N'.e p a) → ∀ n d, pr'.Pos n d → ∀ y, e ⟨N'.e p a, y, n, d⟩ =
            ∑ i ∈ Finset.range (pr.S pr.n), ∑ j ∈ Finset.range (pr.S (pr.n + 1)), if matchResult i j = d 0 then der θ p a n (pairAt i j) else 0) ∧ (S p → r.Single) ∧ r.Wide (pr'.nd p)) ∧
        ∀ p < m, ∀ o ≤ p, ∃ b r, (H p o).dropDim = .ok b ∧ w.dotRightNum b = .ok (.arr r) ∧ r.scalarOp .add 0 = .ok r ∧
          ∃ e, IsNum (pr'.layout p o) r e ∧ ∀ a b, pr'.Entry p (N'.e p a) → pr'.Entry o (N'.e o b) → ∀ n d, pr'.Pos n d → e ⟨N'.e p a, N'.e o b, n, d⟩ =
            ∑ i ∈ Finset.range (pr.S pr.n), ∑ j ∈ Finset.range (pr.S (pr.n + 1)), if matchResult i j = d 0 then hess θ p o a b n (pairAt i j) else 0 := by
    intro V D H hv hs
    have hw : Stored pr m (Store.whole S) V D H := ⟨hs.tot, hs.mapD, hs.mapH, hs.live, hs.cleanD, hs.cleanH, hs.single, hs.dead, fun _ _ _ _ h => h.elim, hs.wide⟩
    obtain ⟨G, hG, hval⟩ := values_sheet hv hw
    rw [hd] at hG hval
    have e1 : V = ⟨V.values, 0, 0, 2, [], []⟩ := hG.toSlab.eta
    obtain ⟨hv1, hv2⟩ := hG.values
    obtain ⟨t, t1, t2⟩ := collapse_call (d := 2) hv1 hv2 hC.S hC.T
    obtain ⟨w, w1, w2⟩ := collapse_grad (d := 2) (by omega) hC.rot hv1 hv2 hC.S hC.T
    rw [← e1] at t1 w1
    refine ⟨t, w, t1, w1, t2, fun n d hnd i hi j hj => ?_, fun p hp => ?_, fun p hp o ho => ?_⟩
    · obtain ⟨k1, k2, k3, k4⟩ := hC.pos hnd hi hj
      rw [hval]
      · congr 1
        · funext k
          by_cases c : k < pr.n
          · rw [cut_of c, joinAt_lt c]
          · rw [k2 k (by omega)]; exact if_neg c
        · funext k
          by_cases c : k < 2
          · rw [cut_of c, joinAt_ge]
          · rw [k4 k (by omega)]; exact if_neg c
      · intro k hk
        by_cases c : k < pr.n
        · rw [joinAt_lt c]; exact k1 k c
        · obtain ⟨l, rfl⟩ : ∃ l, k = pr.n + l := ⟨k - pr.n, by omega⟩
          rw [joinAt_ge]; exact k3 l (by omega)
    · obtain ⟨s1, s2⟩ := stack_of_num (hv.dp p hp) (solid_iff.1 (hv.ds p hp)) (hs.mapD trivial p hp) (firm_iff.2 ⟨(hs.live p hp trivial).live, hs.cleanD trivial p hp⟩)
      obtain ⟨b, b1, b2, b3, b4⟩ := (s1.wide_in (firm_iff.2 ⟨(hs.live p hp trivial).live, hs.cleanD trivial p hp⟩) (hs.wide trivial p hp)).dropDim
      obtain ⟨fl, b5⟩ : ∃ fl, Stack fl pr.S (pr.n + 2) 0 (pr.nd p) 0 (fun l => Chart pr.n pr.S (pr.nd p) (pr.P p) l ∧ l.length = pr.nd p) (· = []) b := by
        rw [← hd]
        exact ⟨_, b2.mono (fun _ _ => rfl) (fun _ h => h) (fun l hl => chart_zero hl) rfl rfl⟩
      obtain ⟨r, r1, r2, r3, r4⟩ := stack_wallLeft hC.S w2 (fun l hl => chart_range (le_refl _) l hl.1) b5
      have r5 : Stack True pr'.S (pr'.n + pr'.d) pr'.d (pr'.nd p) 0 (Chart pr'.n pr'.S (pr'.nd p) (pr'.P p)) (Chart pr'.n pr'.S 0 (pr'.P p)) r := by
        rw [show pr'.n + pr'.d = pr.n + 1 by omega, hd']
        exact r2.mono (fun _ _ => rfl) (fun l hl => hC.chart hp hl.1) (fun l hl => by rw [hl]; exact chart_nil) (hC.nd p hp).symm rfl
      have q := isNum_of_stack (L := (pr'.layout p p).noY) ⟨hok.2, hok.1⟩ r5 (a := fun i => r.read i.x i.y (joinAt pr'.n i.n i.d)) fun i hi => rfl
      refine ⟨b, r, b1, r1, (kit_num (L := (pr'.layout p p).noY) ⟨hok.2, hok.1⟩).num q, ⟨_, q, fun a ha n d hnd y => ?_⟩, fun hSp => r3 ?_, r2.wide_out fun l hl => by rw [hl.2, hC.nd p hp]⟩
      · dsimp only
        rw [hn, r4 _ _ _ (jn hnd)]
        unfold wallSum
        rw [← wt (n := n) (d := d)]
        refine Finset.sum_congr rfl fun i hi => Finset.sum_congr rfl fun j hj => ?_
        dsimp only
        rw [b4, putAt_joinAt, hC.e p hp a, ← hv.d p hp a ((hC.entry hp).1 ha) n _ (hC.pos hnd (Finset.mem_range.1 hi) (Finset.mem_range.1 hj)) y, s2]
        rfl
      · have := hs.single p hp hSp
        cases hD' : D p with
        | tensor t => rw [b3 t hD']; trivial
        | generic g => rw [hD'] at this; exact this.elim
    · obtain ⟨s1, s2⟩ := stack_of_num (hv.hp p hp o ho) (solid_iff.1 (hv.hs p hp o ho)) (hs.mapH trivial p hp o ho) (firm_iff.2 ⟨hs.liveH p hp o ho trivial, hs.cleanH trivial p hp o ho⟩)
      obtain ⟨b, b1, b2, b3, b4⟩ := s1.dropDim
      obtain ⟨fl, b5⟩ : ∃ fl, Stack fl pr.S (pr.n + 2) 0 (pr.nd p) (pr.nd o) (Chart pr.n pr.S (pr.nd p) (pr.P p)) (Chart pr.n pr.S (pr.nd o) (pr.P o)) b := by
        rw [← hd]
        exact ⟨_, b2⟩
      obtain ⟨r, r1, r2, r4⟩ := stack_wallRight hC.S w2 (chart_range (le_refl _)) (chart_range (le_refl _)) b5
      have ho' : o < m := by omega
      have r5 : Stack True pr'.S (pr'.n + pr'.d) pr'.d (pr'.nd p) (pr'.nd o) (Chart pr'.n pr'.S (pr'.nd p) (pr'.P p)) (Chart pr'.n pr'.S (pr'.nd o) (pr'.P o)) r := by
        rw [show pr'.n + pr'.d = pr.n + 1 by omega, hd']
        exact r2.mono (fun _ _ => rfl) (fun l hl => hC.chart hp hl) (fun l hl => hC.chart ho' hl) (hC.nd p hp).symm (hC.nd o ho').symm
      have q := isNum_of_stack (L := pr'.layout p o) ⟨hok.2, hok.1⟩ r5 (a := fun i => r.read i.x i.y (joinAt pr'.n i.n i.d)) fun i hi => rfl
      refine ⟨b, r, b1, r1, (kit_num (L := pr'.layout p o) ⟨hok.2, hok.1⟩).num q, ⟨_, q, fun a a' ha ha' n d hnd => ?_⟩⟩
      dsimp only
      rw [hn, r4 _ _ _ (jn hnd)]
      unfold wallSum
      rw [← wt (n := n) (d := d)]
      refine Finset.sum_congr rfl fun i hi => Finset.sum_congr rfl fun j hj => ?_
      dsimp only
      rw [b4, putAt_joinAt, hC.e p hp a, hC.e o ho' a', ← hv.h p hp o ho a a' ((hC.entry hp).1 ha) ((hC.entry ho').1 ha') n _ (hC.pos hnd (Finset.mem_range.1 hi) (Finset.mem_range.1 hj)), s2]
      rfl
  have out : ∀ {V : Tensor ℝ} {t : Tensor ℝ} {W : Nat → Num ℝ} {Z : Nat → Nat → Num ℝ} {x : Except Err (Ev3 ℝ)},
      x = .ok ⟨.arr (.tensor t), row m fun i => .arr (W i), triangle m fun i j => .arr (Z i j)⟩ →
      Sheet pr'.S 0 0 (pr.n + 1) 1 [] [] t (fun s => ∑ i ∈ Finset.range (pr.S pr.n), ∑ j ∈ Finset.range (pr.S (pr.n + 1)), V.values.get (putAt pr.n s i j) * resultWeight pr.n i j s) →
      V.values.ndim = pr.n + 2 →
      (∀ n d, pr'.Pos n d → ∀ i < pr.S pr.n, ∀ j < pr.S (pr.n + 1), V.values.get (joinAt pr.n n (pairAt i j)) = val θ n (pairAt i j)) →
      (∀ p < m, (∃ e, IsNum (pr'.layout p p).noY (W p) e ∧ ∀ a, pr'.Entry p (N'.e p a) → ∀ n d, pr'.Pos n d → ∀ y, e ⟨N'.e p a, y, n, d⟩ =
            ∑ i ∈ Finset.range (pr.S pr.n), ∑ j ∈ Finset.range (pr.S (pr.n + 1)), if matchResult i j = d 0 then der θ p a n (pairAt i j) else 0) ∧ (S p → (W p).Single) ∧ (W p).Wide (pr'.nd p)) →
      (∀ p < m, ∀ o ≤ p, ∃ e, IsNum (pr'.layout p o) (Z p o) e ∧ ∀ a b, pr'.Entry p (N'.e p a) → pr'.Entry o (N'.e o b) → ∀ n d, pr'.Pos n d → e ⟨N'.e p a, N'.e o b, n, d⟩ =
            ∑ i ∈ Finset.range (pr.S pr.n), ∑ j ∈ Finset.range (pr.S (pr.n + 1)), if matchResult i j = d 0 then hess θ p o a b n (pairAt i j) else 0) →
      Returns pr' N' (fun _ => True) (Store.solid S) θ (collapseVal (pr.S pr.n) (pr.S (pr.n + 1)) val)
        (fun θ p a n d => ∑ i ∈ Finset.range (pr.S pr.n), ∑ j ∈ Finset.range (pr.S (pr.n + 1)), if matchResult i j = d 0 then der θ p a n (pairAt i j) else 0)
        (fun θ p o a b n d => ∑ i ∈ Finset.range (pr.S pr.n), ∑ j ∈ Finset.range (pr.S (pr.n + 1)), if matchResult i j = d 0 then hess θ p o a b n (pairAt i j) else 0) x := by
    intro V t W Z x hx hVV hV2 hval hW hZ
    have hwi : ∀ {n d : Nat → Nat} {p o : Nat} {x y : Nat → Nat}, pr'.Pos n d → (pr'.layout p o).Within ⟨x, y, n, d⟩ := fun h => ⟨h.1, h.2.2.1⟩
    have hwi' : ∀ {n d : Nat → Nat} {p o : Nat} {x y : Nat → Nat}, pr'.Pos n d → (pr'.layout p o).noY.Within ⟨x, y, n, d⟩ := fun h => ⟨h.1, h.2.2.1⟩
    have hVV' : Sheet pr'.S 0 0 (pr'.n + pr'.d) pr'.d [] [] t (fun s => ∑ i ∈ Finset.range (pr.S pr.n), ∑ j ∈ Finset.range (pr.S (pr.n + 1)), V.values.get (putAt pr.n s i j) * resultWeight pr.n i j s) := by
      rw [hn, hd']; exact hVV
    obtain ⟨v1, v2⟩ := piece_of_part (L := pr'.layout 0 0) (t := t) ⟨[], [], _, hVV'.toSlab, fun _ => hVV'.full, chart_nil, chart_nil⟩
    have : ∀ p, p < m → ∃ e, IsNum (pr'.layout p p).noY (W p) e ∧ ∀ a, pr'.Entry p (N'.e p a) → ∀ n d, pr'.Pos n d → ∀ y, e ⟨N'.e p a, y, n, d⟩ =
            ∑ i ∈ Finset.range (pr.S pr.n), ∑ j ∈ Finset.range (pr.S (pr.n + 1)), if matchResult i j = d 0 then der θ p a n (pairAt i j) else 0 := fun p hp => (hW p hp).1
    choose! eg hg1 hg2 using this
    choose! eh hh1 hh2 using hZ
    refine ⟨t, W, Z, hx, ⟨hVV.hx, hVV.hy, solid_iff.2 (Or.inr v1), fun n d hnd x y => ?_, fun p hp => (hg1 p hp).1, fun p hp => solid_iff.2 (hg1 p hp).2.1,
      fun p hp a ha n d hnd y => ?_, fun p hp o ho => (hh1 p hp o ho).1, fun p hp o ho => solid_iff.2 (hh1 p hp o ho).2.1, fun p hp o ho a b ha hb n d hnd => ?_⟩,
      fun _ => ⟨v1.1, v1.2.1, fun k hk _ => v1.2.2 k hk trivial⟩, fun _ p hp => (hg1 p hp).2.2.1, fun _ p hp o ho => (hh1 p hp o ho).2.2.1, fun p hp _ => spans_of (hg1 p hp).1 (firm_iff.1 (hg1 p hp).2.2.2.1).1 (firm_iff.1 (hg1 p hp).2.2.2.1).2 (hW p hp).2.2,
      fun _ p hp => (firm_iff.1 (hg1 p hp).2.2.2.1).2, fun _ p hp o ho => (firm_iff.1 (hh1 p hp o ho).2.2.2.1).2, fun p hp h => (hW p hp).2.1 h, fun p hp h => h.elim,
      fun p hp o ho _ => (firm_iff.1 (hh1 p hp o ho).2.2.2.1).1, fun _ p hp => (hW p hp).2.2⟩
    · have hn' : t.n = pr'.n := v1.1.hn
      rw [Tensor.dense_read v1.1.wf, hn', hn, hVV.toSlab.read (jn hnd), if_pos ⟨agrees_nil _ _, agrees_nil _ _⟩]
      unfold collapseVal
      rw [← wt (n := n) (d := d)]
      refine Finset.sum_congr rfl fun i hi => Finset.sum_congr rfl fun j hj => ?_
      rw [← hval n d hnd i (Finset.mem_range.1 hi) j (Finset.mem_range.1 hj), ← putAt_joinAt pr.n n d i j, putAt_congr (s := cut (pr.n + 1) (joinAt pr.n n d)) (s' := joinAt pr.n n d) fun k hk => cut_of (by omega)]
    · rw [(hg1 p hp).2.2.2.2 _ (hwi' hnd), hg2 p hp a ha n d hnd y]
    · rw [(hh1 p hp o ho).2.2.2.2 _ (hwi hnd), hh2 p hp o ho a b ha hb n d hnd]
  have nd : ∀ {V : Tensor ℝ} {D : Nat → Num ℝ} {H : Nat → Nat → Num ℝ}, Values pr N K θ val der hess V D H → Stored pr m (Store.solid S) V D H → V.values.ndim = pr.n + 2 := by
    intro V D H hv hs
    have hw : Stored pr m (Store.whole S) V D H := ⟨hs.tot, hs.mapD, hs.mapH, hs.live, hs.cleanD, hs.cleanH, hs.single, hs.dead, fun _ _ _ _ h => h.elim, hs.wide⟩
    obtain ⟨G, hG, hval⟩ := values_sheet hv hw
    rw [hd] at hG
    exact hG.values.1
  obtain ⟨⟨V, D, H, g1, g2, g3⟩, V', D', H', k1, k2, k3⟩ := hret θ hθ ps hps'
  constructor
  · obtain ⟨t, w, m1, m2, m3, m4, m5, m6⟩ := main g2 g3
    have hf : (collapseMatrixT (α := ℝ) none).eval [V] = .ok ⟨.arr (.tensor t), [.arr (.tensor w)], [[zeroT]]⟩ := by
      show (collapseCallT none [V] >>= _) = _
      rw [m1, ok_bind']
      have e : gradAll (fun ps _ => collapseGradT none ps) [V] = .ok [.arr (.tensor w)] := by
        show List.mapM _ [0] = _
        rw [List.mapM_cons]
        dsimp only
        rw [m2]; rfl
      rw [e, ok_bind']
      rfl
    obtain ⟨W, Z, z1, z2, z3⟩ := composeEval_null (f := collapseMatrixT none) rfl rfl hlen' g1 hf m5 m6
    exact out z1 m3 (nd g2 g3) m4 z2 z3
  · obtain ⟨t, w, m1, m2, m3, m4, m5, m6⟩ := main k2 k3
    obtain ⟨W, Z, z1, z2, z3⟩ := composeT_null (f := collapseMatrixT none) rfl rfl ((sep_iff hlen').1 k1) m1 m2 m5 m6
    exact out ((sep_iff hlen').2 z1) m3 (nd k2 k3) m4 z2 z3

end

end Verif.Tens
