import Verif.Props.CollapseTensor

/-!
# C65: `CollapseMatrix() @ f` for a function `f` that acts on each position separately

Python's `@` associates to the left, so `CollapseMatrix() @ MarkovMatrix(…) @ [g_1, g_2]` (tests/matrix_test.py:337) is
`(CollapseMatrix() @ MarkovMatrix(…)) @ [g_1, g_2]`.
-/

set_option linter.unusedSectionVars false

namespace Verif.Tens
open Verif.Params (Err)
open NDArray

/-- The sum of `F` over all results below `h : w` with the outcome `o 0`. -/
noncomputable def collapseFun (h w : Nat) (F : (Nat → ℝ) → (Nat → Nat) → ℝ) (u : Nat → ℝ) (o : Nat → Nat) : ℝ :=
  ∑ i ∈ Finset.range h, ∑ j ∈ Finset.range w, if matchResult i j = o 0 then F u (pairAt i j) else 0

theorem pairAt_outcome {T : Nat → Nat} {i j : Nat} (hi : i < T 0) (hj : j < T 1) : Outcome 2 T (pairAt i j) := by
  refine ⟨fun k hk => ?_, fun k hk => ?_⟩
  · obtain rfl | rfl : k = 0 ∨ k = 1 := by omega
    · exact hi
    · exact hj
  · unfold pairAt
    rw [if_neg (by omega), if_neg (by omega)]

theorem curves_collapse {r : Nat} {T T' : Nat → Nat} {δ : Nat} {U : (Nat → ℝ) → Prop} {F : (Nat → ℝ) → (Nat → Nat) → ℝ} {F1 : (Nat → ℝ) → Nat → (Nat → Nat) → ℝ}
    {F2 : (Nat → ℝ) → Nat → Nat → (Nat → Nat) → ℝ} (h : Curves r U (Outcome 2 T) F F1 F2) :
    Curves r U (Outcome δ T') (collapseFun (T 0) (T 1) F) (fun u k => collapseFun (T 0) (T 1) (fun u o => F1 u k o) u)
      fun u k l => collapseFun (T 0) (T 1) (fun u o => F2 u k l o) u := by
  have key : ∀ {f : ℝ → Nat → Nat → ℝ} {f' : Nat → Nat → Nat → ℝ} {v : Nat → ℝ} {t : ℝ} {c : Nat},
      (∀ i < T 0, ∀ j < T 1, HasDerivAt (fun s => f s i j) (∑ k ∈ Finset.range r, f' k i j * v k) t) →
      HasDerivAt (fun s => ∑ i ∈ Finset.range (T 0), ∑ j ∈ Finset.range (T 1), if matchResult i j = c then f s i j else 0)
        (∑ k ∈ Finset.range r, (∑ i ∈ Finset.range (T 0), ∑ j ∈ Finset.range (T 1), if matchResult i j = c then f' k i j else 0) * v k) t := by
    intro f f' v t c hf
    have e : (∑ k ∈ Finset.range r, (∑ i ∈ Finset.range (T 0), ∑ j ∈ Finset.range (T 1), if matchResult i j = c then f' k i j else 0) * v k) =
        ∑ i ∈ Finset.range (T 0), ∑ j ∈ Finset.range (T 1), if matchResult i j = c then ∑ k ∈ Finset.range r, f' k i j * v k else 0 := by
      simp only [Finset.sum_mul]
      rw [Finset.sum_comm]
      refine Finset.sum_congr rfl fun i _ => ?_
      rw [Finset.sum_comm]
      refine Finset.sum_congr rfl fun j _ => ?_
      split_ifs <;> simp
    rw [e]
    refine HasDerivAt.fun_sum fun i hi => HasDerivAt.fun_sum fun j hj => ?_
    split_ifs
    · exact hf i (Finset.mem_range.1 hi) j (Finset.mem_range.1 hj)
    · exact hasDerivAt_const _ _
  refine ⟨fun γ v t hγ hU o _ => ?_, fun γ v t hγ hU o _ k hk => ?_, fun u hu o _ k hk l hl => ?_⟩
  · exact key (f := fun s i j => F (γ s) (pairAt i j)) (f' := fun k i j => F1 (γ t) k (pairAt i j)) fun i hi j hj => h.h1 γ v t hγ hU _ (pairAt_outcome hi hj)
  · exact key (f := fun s i j => F1 (γ s) k (pairAt i j)) (f' := fun l i j => F2 (γ t) k l (pairAt i j)) fun i hi j hj => h.h2 γ v t hγ hU _ (pairAt_outcome hi hj) k hk
  · unfold collapseFun
    refine Finset.sum_congr rfl fun i hi => Finset.sum_congr rfl fun j hj => ?_
    dsimp only
    rw [h.symm u hu _ (pairAt_outcome (Finset.mem_range.1 hi) (Finset.mem_range.1 hj)) k hk l hl]

theorem putAt_shift (q : Nat) (s : Nat → Nat) (i j : Nat) : (fun k => putAt q s i j (q + k)) = pairAt i j := by
  funext k
  unfold putAt pairAt
  rcases k with _ | _ | k
  · simp
  · simp
  · rw [if_neg (by omega), if_neg (by omega), if_neg (by omega), if_neg (by omega), if_neg (by omega)]

/-- **C65.** `CollapseMatrix() @ f`, where `f` acts on each position separately and has two outcomes, acts on each position separately and has one outcome, with
three values, if it is called with arrays that have at most two axes and no `dim` axes. -/
theorem C65_CollapseMatrix_acts_partial {f : TFunc ℝ} {r : Nat} {T : Nat → Nat} {P : Nat → Nat → Prop} {U : (Nat → ℝ) → Prop} {F : (Nat → ℝ) → (Nat → Nat) → ℝ}
    (hf : Acts f r 2 T P U F) :
    Acts (composeT (collapseMatrixT none) [f]) r 1 (fun _ => 3) (fun q d => q ≤ 2 ∧ d = 0 ∧ P q d) U (collapseFun (T 0) (T 1) F) := by
  obtain ⟨-, -, F1, F2, cF, hf⟩ := hf
  refine ⟨rfl, rfl, _, _, curves_collapse cF, fun q d S v hq hdq ⟨hq2, hd, hP⟩ hv hU => ?_⟩
  subst hd
  have hnd : ∀ k < r, (v k).ndim = q := fun k hk => (hv k hk).1
  have hS : ∀ k < q, joinAt q S (fun _ => 3) k = joinAt q S T k := fun k hk => by rw [joinAt_lt hk, joinAt_lt hk]
  have hT : joinAt q S (fun _ => 3) q = 3 := joinAt_ge (k := 0)
  have eT0 : joinAt q S T q = T 0 := joinAt_ge (k := 0)
  have eT1 : joinAt q S T (q + 1) = T 1 := joinAt_ge
  have ent : ∀ (s : Nat → Nat) (i j : Nat), entriesAt r v (putAt q s i j) = entriesAt r v s := fun s i j => entriesAt_congr hnd fun k hk => putAt_lt hk
  have sums : ∀ (Φ : (Nat → ℝ) → (Nat → Nat) → ℝ) (s : Nat → Nat),
      ∑ i ∈ Finset.range (joinAt q S T q), ∑ j ∈ Finset.range (joinAt q S T (q + 1)),
        Φ (entriesAt r v (putAt q s i j)) (fun k => putAt q s i j (q + k)) * resultWeight q i j s = collapseFun (T 0) (T 1) Φ (entriesAt r v s) fun j => s (q + j) := by
    intro Φ s
    rw [eT0, eT1]
    unfold collapseFun
    refine Finset.sum_congr rfl fun i _ => Finset.sum_congr rfl fun j _ => ?_
    rw [ent, putAt_shift]
    unfold resultWeight
    rw [mul_ite, mul_one, mul_zero]
    rfl
  have hps : (row r fun k => (⟨v k, 0, 0, 0, [], []⟩ : Tensor ℝ)).length = r := by simp [row]
  have main : ∀ {V : Tensor ℝ} {D : Nat → Tensor ℝ} {H : Nat → Nat → Tensor ℝ},
      Sheet (joinAt q S T) 0 0 (q + 2) (0 + 2) [] [] V (fun s => F (entriesAt r v s) fun j => s (q + j)) →
      (∀ k < r, Sheet (joinAt q S T) q 0 (q + 2) (0 + 2) (idMap q) [] (D k) fun s => F1 (entriesAt r v s) k fun j => s (q + j)) →
      (∀ k < r, ∀ l ≤ k, Sheet (joinAt q S T) q q (q + 2) (0 + 2) (idMap q) (idMap q) (H k l) fun s => F2 (entriesAt r v s) k l fun j => s (q + j)) →
      ∃ t w, collapseCallT none [V] = .ok (.arr (.tensor t)) ∧ collapseGradT none [V] = .ok (.arr (.tensor w)) ∧
        Sheet (joinAt q S fun _ => 3) 0 0 (q + 1) (0 + 1) [] [] t (fun s => collapseFun (T 0) (T 1) F (entriesAt r v s) fun j => s (q + j)) ∧
        (∀ k < r, ∃ b x, (Num.tensor (D k)).dropDim = .ok b ∧ w.dotLeftNum b = .ok x ∧ x.scalarOp .add 0 = .ok x ∧
          IsSheet (joinAt q S fun _ => 3) q 0 (q + 1) (0 + 1) (idMap q) [] x fun s => collapseFun (T 0) (T 1) (fun u o => F1 u k o) (entriesAt r v s) fun j => s (q + j)) ∧
        ∀ k < r, ∀ l ≤ k, ∃ b x, (Num.tensor (H k l)).dropDim = .ok b ∧ w.dotRightNum b = .ok (.arr x) ∧ x.scalarOp .add 0 = .ok x ∧
          IsSheet (joinAt q S fun _ => 3) q q (q + 1) (0 + 1) (idMap q) (idMap q) x fun s => collapseFun (T 0) (T 1) (fun u o => F2 u k l o) (entriesAt r v s) fun j => s (q + j) := by
    intro V D H hV hD hH
    have e1 : V = ⟨V.values, 0, 0, 2, [], []⟩ := hV.toSlab.eta
    obtain ⟨hv1, hv2⟩ := hV.values
    obtain ⟨t, t1, t2⟩ := collapse_call (d := 2) hv1 hv2 hS hT
    obtain ⟨w, w1, w2⟩ := collapse_grad (d := 2) hq (rot_of_le hq2) hv1 hv2 hS hT
    rw [← e1] at t1 w1
    refine ⟨t, w, t1, w1, t2.congr fun s hs hs0 => ?_, fun k hk => ?_, fun k hk l hl => ?_⟩
    · rw [← sums]
      refine Finset.sum_congr rfl fun i hi => Finset.sum_congr rfl fun j hj => ?_
      rw [hV.getEntry (putAt_bound (fun k hk => ?_) (Finset.mem_range.1 hi) (Finset.mem_range.1 hj)), cut_putAt]
      rw [← hS k hk]; exact hs k (by omega)
    · obtain ⟨x, x1, x2⟩ := wall_dotLeft hS w2 (hD k hk).toSlab.dropDim (idMap_range le_rfl)
      have x3 : IsSheet (joinAt q S fun _ => 3) q 0 (q + 1) (0 + 1) (idMap q) [] (.tensor x) fun s => collapseFun (T 0) (T 1) (fun u o => F1 u k o) (entriesAt r v s) fun j => s (q + j) :=
        ⟨x, rfl, x2.congr fun s _ _ => sums (fun u o => F1 u k o) s⟩
      refine ⟨.tensor (D k).dropDim, .tensor x, rfl, ?_, (kit_sheet (by omega)).num x3, x3⟩
      unfold Tensor.dotLeftNum
      dsimp only
      rw [x1]; rfl
    · obtain ⟨x, x1, x2⟩ := wall_dotRight hS w2 (hH k hk l hl).toSlab.dropDim (idMap_range le_rfl) (idMap_range le_rfl)
      have x3 : IsSheet (joinAt q S fun _ => 3) q q (q + 1) (0 + 1) (idMap q) (idMap q) (.tensor x) fun s => collapseFun (T 0) (T 1) (fun u o => F2 u k l o) (entriesAt r v s) fun j => s (q + j) :=
        ⟨x, rfl, x2.congr fun s _ _ => sums (fun u o => F2 u k l o) s⟩
      refine ⟨.tensor (H k l).dropDim, .tensor x, rfl, ?_, (kit_sheet (by omega)).num x3, x3⟩
      unfold Tensor.dotRightNum
      dsimp only
      rw [x1]; rfl
  have out : ∀ {t : Tensor ℝ} {W : Nat → Num ℝ} {Z : Nat → Nat → Num ℝ} {x : Except Err (Ev3 ℝ)},
      x = .ok ⟨.arr (.tensor t), row r fun i => .arr (W i), triangle r fun i j => .arr (Z i j)⟩ →
      Sheet (joinAt q S fun _ => 3) 0 0 (q + 1) (0 + 1) [] [] t (fun s => collapseFun (T 0) (T 1) F (entriesAt r v s) fun j => s (q + j)) →
      (∀ k < r, IsSheet (joinAt q S fun _ => 3) q 0 (q + 1) (0 + 1) (idMap q) [] (W k) fun s => collapseFun (T 0) (T 1) (fun u o => F1 u k o) (entriesAt r v s) fun j => s (q + j)) →
      (∀ k < r, ∀ l ≤ k, IsSheet (joinAt q S fun _ => 3) q q (q + 1) (0 + 1) (idMap q) (idMap q) (Z k l) fun s => collapseFun (T 0) (T 1) (fun u o => F2 u k l o) (entriesAt r v s) fun j => s (q + j)) →
      GivesEntries r 1 (fun _ => 3) q 0 S v (collapseFun (T 0) (T 1) F) (fun u k => collapseFun (T 0) (T 1) (fun u o => F1 u k o) u)
        (fun u k l => collapseFun (T 0) (T 1) (fun u o => F2 u k l o) u) x := by
    intro t W Z x hx ht hW hZ
    have : Inhabited (Tensor ℝ) := ⟨Tensor.const 0⟩
    have h1 : ∀ i < r, ∃ t, W i = .tensor t ∧ _ := hW
    have h2 : ∀ i < r, ∀ j ≤ i, ∃ t, Z i j = .tensor t ∧ _ := hZ
    choose! W' w1 w2 using h1
    choose! Z' z1 z2 using h2
    refine ⟨t, W', Z', ?_, ht, w2, z2⟩
    rw [hx]
    have e1 : (row r fun i => Py.arr (W i)) = row r fun i => .arr (.tensor (W' i)) := by
      unfold row
      refine List.map_congr_left fun i hi => ?_
      rw [w1 i (List.mem_range.1 hi)]
    have e2 : (triangle r fun i j => Py.arr (Z i j)) = triangle r fun i j => .arr (.tensor (Z' i j)) := by
      unfold triangle
      refine List.map_congr_left fun i hi => List.map_congr_left fun j hj => ?_
      dsimp only
      rw [z1 i (List.mem_range.1 hi) j (by have := List.mem_range.1 hj; omega)]
    rw [e1, e2]
  obtain ⟨⟨V, D, H, g1, g2, g3, g4⟩, V', D', H', k1, k2, k3, k4⟩ := hf q 0 S v hq hdq hP hv hU
  constructor
  · obtain ⟨t, w, m1, m2, m3, m5, m6⟩ := main g2 g3 g4
    have hc : (collapseMatrixT (α := ℝ) none).eval [V] = .ok ⟨.arr (.tensor t), [.arr (.tensor w)], [[zeroT]]⟩ := by
      show (collapseCallT none [V] >>= _) = _
      rw [m1, ok_bind']
      have e : gradAll (fun ps _ => collapseGradT none ps) [V] = .ok [.arr (.tensor w)] := by
        show List.mapM _ [0] = _
        rw [List.mapM_cons]
        dsimp only
        rw [m2]; rfl
      rw [e, ok_bind']
      rfl
    obtain ⟨W, Z, z1, z2, z3⟩ := composeEval_null (f := collapseMatrixT none) (D := fun k => .tensor (D k)) (H := fun k l => .tensor (H k l)) rfl rfl hps g1 hc m5 m6
    exact out z1 m3 z2 z3
  · obtain ⟨t, w, m1, m2, m3, m5, m6⟩ := main k2 k3 k4
    obtain ⟨W, Z, z1, z2, z3⟩ := composeT_null (f := collapseMatrixT none) (D := fun k => .tensor (D' k)) (H := fun k l => .tensor (H' k l)) rfl rfl ((sep_iff hps).1 k1) m1 m2 m5 m6
    exact out ((sep_iff hps).2 z1) m3 z2 z3

end Verif.Tens
