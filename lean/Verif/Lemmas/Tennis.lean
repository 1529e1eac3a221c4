import Verif.Model.TennisTensor
import Verif.Spec.Tennis
import Verif.Lemmas.ActsCompose
import Verif.Lemmas.TensorSum

/-!
# The arrays returned by the tennis functions
-/

set_option linter.unusedSectionVars false

namespace Verif.Tens
open Verif.Params (Err)
open NDArray

/-! ### stacked arrays -/

section
variable {α : Type} [Field α] [DecidableEq α]

theorem rot_lt {q : Nat} {S s : Nat → Nat} (hS : ∀ j < q, S j = S 0) (hs : ∀ j < q, s j < S j) {j : Nat} (hj : j < q) : rot q s j < S j := by
  unfold rot
  split_ifs with c
  · rw [hS j hj]; exact hs 0 (by omega)
  · have := hs (j + 1) (by omega)
    rwa [hS _ (by omega), ← hS j hj] at this

/-- `np.stack(g).swapaxes(0, -1)` for arrays whose axes all have the same size. -/
theorem stackSwap_ok {size q : Nat} (hz : 0 < size) (hq : 0 < q) {S : Nat → Nat} (hS : ∀ j < q, S j = S 0) {A : Nat → NDArray α}
    (hA : ∀ k < size, (A k).ndim = q ∧ ∀ j < q, (A k).shape j = S j) :
    ∃ r, stackSwap ((List.range size).map A) = .ok r ∧ r.ndim = q + 1 ∧ (∀ j < q + 1, r.shape j = joinAt q S (fun _ => size) j) ∧
      ∀ s, s q < size → r.get s = (A (s q)).get (rot q s) := by
  obtain ⟨n, rfl⟩ : ∃ n, size = n + 1 := ⟨size - 1, by omega⟩
  have hl : (List.range (n + 1)).map A = A 0 :: (List.range n).map fun k => A (k + 1) := by
    rw [List.range_succ_eq_map, List.map_cons, List.map_map]; rfl
  obtain ⟨a1, a2⟩ := hA 0 hz
  unfold stackSwap
  rw [hl]
  unfold stackFirst
  refine ⟨_, rfl, ?_, fun j hj => ?_, fun s hs => ?_⟩
  · show (A 0).ndim + 1 = _
    omega
  · rw [swapaxes_shape]
    show (if (if j = 0 then (A 0).ndim + 1 - 1 else if j = (A 0).ndim + 1 - 1 then 0 else j) = 0 then _ else _) = _
    rw [a1]
    simp only [Nat.add_sub_cancel]
    unfold joinAt
    by_cases c : j = 0
    · subst c
      rw [if_pos rfl, if_neg (by omega), if_pos hq, a2 _ (by omega), hS _ (by omega)]
    · by_cases c' : j = q
      · subst c'
        rw [if_neg c, if_pos rfl, if_pos rfl, if_neg (by omega)]
        simp
      · rw [if_neg c, if_neg c', if_neg c, if_pos (by omega), a2 _ (by omega), hS _ (by omega), hS j (by omega)]
  · have hnd : (A 0).ndim + 1 - 1 = q := by omega
    rw [swapaxes_get _ (by show 0 < (A 0).ndim + 1; omega) (by show (A 0).ndim + 1 - 1 < (A 0).ndim + 1; omega)]
    show ((A 0 :: (List.range n).map fun k => A (k + 1)).getD _ (A 0)).get _ = _
    rw [← hl]
    simp only [hnd]
    have e0 : (fun k => if k < (A 0).ndim + 1 then s (if k = 0 then q else if k = q then 0 else k) else 0) 0 = s q := by simp
    have hg : ((List.range (n + 1)).map A).getD (s q) (A 0) = A (s q) := by
      rw [List.getD_eq_getElem _ _ (by simpa using hs)]; simp
    show (((List.range (n + 1)).map A).getD (if 0 < (A 0).ndim + 1 then s (if (0 : Nat) = 0 then q else if (0 : Nat) = q then 0 else 0) else 0) (A 0)).get _ = _
    rw [if_pos (by omega), if_pos rfl, hg]
    refine get_congr _ fun j hj => ?_
    rw [(hA _ hs).1] at hj
    unfold rot
    rw [if_pos (by omega), if_neg (by omega)]
    split_ifs <;> first | rfl | omega

end

/-! ### `Game`, `TieBreak`, `Set` -/

/-- Three arrays as value, derivatives and second derivatives. -/
theorem sep_sheets {f : TFunc ℝ} {m q δ : Nat} {R : Nat → Nat} {ps : List (Tensor ℝ)} (hps : ps.length = m) {V : NDArray ℝ} {G : Nat → NDArray ℝ} {H : Nat → Nat → NDArray ℝ}
    {A : (Nat → Nat) → ℝ} {B : Nat → (Nat → Nat) → ℝ} {C : Nat → Nat → (Nat → Nat) → ℝ}
    (h1 : f.call ps = ofArray V δ) (h2 : ∀ k < m, f.grad ps k = (gradTensor (G k) q .diag δ).map fun t => .arr (.tensor t))
    (h3 : ∀ k < m, ∀ l ≤ k, f.hess ps k l = (hessTensor (H k l) q q .diag .diag δ).map fun t => .arr (.tensor t))
    (a1 : V.ndim = q + δ ∧ (∀ j < q + δ, V.shape j = R j) ∧ ∀ s, (∀ j < q + δ, s j < R j) → V.get s = A s)
    (a2 : ∀ k < m, (G k).ndim = q + δ ∧ (∀ j < q + δ, (G k).shape j = R j) ∧ ∀ s, (∀ j < q + δ, s j < R j) → (G k).get s = B k s)
    (a3 : ∀ k < m, ∀ l ≤ k, (H k l).ndim = q + δ ∧ (∀ j < q + δ, (H k l).shape j = R j) ∧ ∀ s, (∀ j < q + δ, s j < R j) → (H k l).get s = C k l s) :
    GivesSheets m q (q + δ) δ R A B C (f.sep ps) := by
  have : Inhabited (Tensor ℝ) := ⟨Tensor.const 0⟩
  have hd : δ ≤ q + δ := by omega
  obtain ⟨tV, v1, v2⟩ := sheet_value a1.1 a1.2.1 hd
  have hG : ∀ k < m, ∃ t, gradTensor (G k) q .diag δ = .ok t ∧ Sheet R q 0 (q + δ) δ (idMap q) [] t (G k).get := fun k hk => sheet_gradTensor q (a2 k hk).1 (a2 k hk).2.1 hd
  have hH : ∀ k < m, ∀ l ≤ k, ∃ t, hessTensor (H k l) q q .diag .diag δ = .ok t ∧ Sheet R q q (q + δ) δ (idMap q) (idMap q) t (H k l).get :=
    fun k hk l hl => sheet_hessTensor q q (a3 k hk l hl).1 (a3 k hk l hl).2.1 hd
  choose! tG g1 g2 using hG
  choose! tH k1 k2 using hH
  refine ⟨tV, tG, tH, (sep_iff hps).2 ⟨?_, fun k hk => ?_, fun k hk l hl => ?_⟩, v2.congr fun s hs _ => a1.2.2 s hs, fun k hk => (g2 k hk).congr fun s hs _ => (a2 k hk).2.2 s hs,
    fun k hk l hl => (k2 k hk l hl).congr fun s hs _ => (a3 k hk l hl).2.2 s hs⟩
  · rw [h1]
    unfold ofArray
    rw [v1]; rfl
  · rw [h2 k hk, g1 k hk]; rfl
  · rw [h3 k hk l hl, k1 k hk l hl]; rfl

/-- `Game` and `TieBreak` -/
theorem point_sheets {row0 row1 row2 : ℝ → List ℝ} {size q d : Nat} (hz : 0 < size) (hq : 0 < q) {S : Nat → Nat} (hS : ∀ j < q, S j = S 0) {v : NDArray ℝ} (hv : v.ndim = q ∧ ∀ j < q, v.shape j = S j) :
    GivesSheets 1 q (q + 1) 1 (joinAt q S fun _ => size) (fun s => (row0 (v.get (rot q s))).getD (s q) 0) (fun _ s => (row1 (v.get (rot q s))).getD (s q) 0)
      (fun _ _ s => (row2 (v.get (rot q s))).getD (s q) 0) ((pointT row0 row1 row2 size).sep [⟨v, 0, 0, d, [], []⟩]) := by
  obtain ⟨h1, h2⟩ := hv
  subst h1
  have key : ∀ f : ℝ → List ℝ, ∃ r, stackSwap ((List.range size).map fun k => v.map fun x => (f x).getD k 0) = .ok r ∧ r.ndim = v.ndim + 1 ∧
      (∀ j < v.ndim + 1, r.shape j = joinAt v.ndim S (fun _ => size) j) ∧
      ∀ s, (∀ j < v.ndim + 1, s j < joinAt v.ndim S (fun _ => size) j) → r.get s = (f (v.get (rot v.ndim s))).getD (s v.ndim) 0 := by
    intro f
    obtain ⟨r, r1, r2, r3, r4⟩ := stackSwap_ok hz hq hS (A := fun k => v.map fun x => (f x).getD k 0) fun k hk => ⟨rfl, h2⟩
    refine ⟨r, r1, r2, r3, fun s hs => ?_⟩
    rw [r4 s, map_get]
    have := hs v.ndim (by omega)
    rwa [joinAt, if_neg (by omega)] at this
  obtain ⟨V, v1, v2⟩ := key row0
  obtain ⟨G, g1, g2⟩ := key row1
  obtain ⟨H, k1, k2⟩ := key row2
  refine sep_sheets (m := 1) (V := V) (G := fun _ => G) (H := fun _ _ => H) rfl ?_ (fun k hk => ?_) (fun k hk l hl => ?_) v2 (fun _ _ => g2) fun _ _ _ _ => k2
  · show (stackSwap _ >>= _) = _
    rw [v1]; rfl
  · have : k = 0 := by omega
    subst this
    show (stackSwap _ >>= _) = _
    rw [g1]; rfl
  · have : k = 0 := by omega
    subst this
    have : l = 0 := by omega
    subst this
    show (stackSwap _ >>= _) = _
    rw [k1]; rfl

/-- `Set` -/
theorem set_sheets {q d : Nat} (hq : 0 < q) {S : Nat → Nat} (hS : ∀ j < q, S j = S 0) {v : Nat → NDArray ℝ} (hv : ∀ k < 2, (v k).ndim = q ∧ ∀ j < q, (v k).shape j = S j) :
    GivesSheets 2 q (q + 1) 1 (joinAt q S fun _ => 7) (fun s => (Func.setVals ((v 0).get (rot q s)) ((v 1).get (rot q s))).getD (s q) 0)
      (fun k s => (elems (Func.setGrad ((v 0).get (rot q s)) ((v 1).get (rot q s)) k)).getD (s q) 0)
      (fun k l s => (elems (Func.setHess ((v 0).get (rot q s)) ((v 1).get (rot q s)) k l)).getD (s q) 0) (setT.sep (row 2 fun k => ⟨v k, 0, 0, d, [], []⟩)) := by
  have key : ∀ f : ℝ → ℝ → List ℝ, ∃ r, stackSwap (setArrays f ⟨v 0, 0, 0, d, [], []⟩ ⟨v 1, 0, 0, d, [], []⟩) = .ok r ∧ r.ndim = q + 1 ∧
      (∀ j < q + 1, r.shape j = joinAt q S (fun _ => 7) j) ∧
      ∀ s, (∀ j < q + 1, s j < joinAt q S (fun _ => 7) j) → r.get s = (f ((v 0).get (rot q s)) ((v 1).get (rot q s))).getD (s q) 0 := by
    intro f
    obtain ⟨r, r1, r2, r3, r4⟩ := stackSwap_ok (size := 7) (by omega) hq hS (A := fun k => zipSame (fun x y => (f x y).getD k 0) (v 0) (v 1)) fun k hk => hv 0 (by omega)
    refine ⟨r, r1, r2, r3, fun s hs => ?_⟩
    rw [r4 s]
    · obtain ⟨h1, -⟩ := hv 0 (by omega)
      obtain ⟨h2, -⟩ := hv 1 (by omega)
      show (f ((v 0).get fun k => if k < (v 0).ndim then rot q s k else 0) ((v 1).get fun k => if k < (v 0).ndim then rot q s k else 0)).getD (s q) 0 = _
      rw [get_congr (v 0) (j := rot q s) fun k hk => if_pos hk, get_congr (v 1) (j := rot q s) fun k hk => if_pos (by omega)]
    · have := hs q (by omega)
      rwa [joinAt, if_neg (by omega)] at this
  obtain ⟨V, v1, v2⟩ := key Func.setVals
  have hG : ∀ k, _ := fun k => key fun x y => elems (Func.setGrad x y k)
  have hH : ∀ k l, _ := fun k l => key fun x y => elems (Func.setHess x y k l)
  choose G g1 g2 using hG
  choose H k1 k2 using hH
  obtain ⟨n0, -⟩ := hv 0 (by omega)
  obtain ⟨n1, -⟩ := hv 1 (by omega)
  have hp : ∀ k < 2, pick (row 2 fun k => (⟨v k, 0, 0, d, [], []⟩ : Tensor ℝ)) k = .ok ⟨v k, 0, 0, d, [], []⟩ := fun k hk => pick_range hk
  refine sep_sheets (m := 2) (V := V) (G := G) (H := H) rfl ?_ (fun k hk => ?_) (fun k hk l hl => ?_) v2 (fun k _ => g2 k) fun k _ l _ => k2 k l
  · show (stackSwap (setArrays Func.setVals ⟨v 0, 0, 0, d, [], []⟩ ⟨v 1, 0, 0, d, [], []⟩) >>= fun v => ofArray v 1) = _
    rw [v1]; rfl
  · show (if 2 ≤ k then _ else stackSwap (setArrays (fun x y => elems (Func.setGrad x y k)) ⟨v 0, 0, 0, d, [], []⟩ ⟨v 1, 0, 0, d, [], []⟩) >>= _) = _
    rw [if_neg (by omega), g1, ok_bind', hp k hk, ok_bind']
    dsimp only
    rw [(hv k hk).1]
  · show (if 2 ≤ k ∨ k < l then _ else stackSwap (setArrays (fun x y => elems (Func.setHess x y k l)) ⟨v 0, 0, 0, d, [], []⟩ ⟨v 1, 0, 0, d, [], []⟩) >>= _) = _
    rw [if_neg (by omega), k1, ok_bind', hp k hk, ok_bind', hp l (by omega), ok_bind']
    dsimp only
    rw [(hv k hk).1, (hv l (by omega)).1]

/-! ### `Collapse(f, False)` -/

theorem sheet_sumDim {R : Nat → Nat} {nx ny q δ : Nat} {xm ym : List Int} {t : Tensor ℝ} {G : (Nat → Nat) → ℝ} (h : Sheet R nx ny (q + δ) δ xm ym t G) :
    ∃ r, (Num.tensor t).sum .none true = .ok (.tensor r) ∧ Sheet R nx ny q 0 xm ym r fun s => sumAt (fun k => R (q + k)) (List.range δ) (fun o => G (joinAt q s o)) fun _ => 0 := by
  have hnd := h.nd
  have hx := h.hx
  have hy := h.hy
  have hd := h.hd
  have hn : t.n = q := by have := h.toSlab.n; omega
  have hnodup : ((List.range δ).map (nx + ny + q + ·)).Nodup := (List.nodup_map_iff (fun a b h => by simpa using h)).2 List.nodup_range
  obtain ⟨s1, s2, s3⟩ := sumAxes_ok t.values (axes := (List.range δ).map (nx + ny + q + ·)) hnodup (fun k hk => by
    obtain ⟨j, hj, rfl⟩ := List.mem_map.1 hk
    have := List.mem_range.1 hj
    omega)
  have hfil : ∀ j < nx + ny + q, (((List.range δ).map (nx + ny + q + ·)).filter (· < j)).length = 0 := by
    intro j hj
    rw [List.length_eq_zero_iff, List.filter_eq_nil_iff]
    intro a ha
    obtain ⟨i, -, rfl⟩ := List.mem_map.1 ha
    simp; omega
  have hsh : ∀ j < nx + ny + q, (t.values.sumAxes ((List.range δ).map (nx + ny + q + ·))).shape j = t.values.shape j := by
    intro j hj
    have := s2 j (by omega) (fun hm => by
      obtain ⟨i, -, e⟩ := List.mem_map.1 hm
      omega)
    rwa [hfil j hj] at this
  have hnd' : (t.values.sumAxes ((List.range δ).map (nx + ny + q + ·))).ndim = nx + ny + q := by
    rw [s1]; simp; omega
  refine ⟨⟨t.values.sumAxes ((List.range δ).map (nx + ny + q + ·)), nx, ny, 0, xm, ym⟩, ?_, ⟨rfl, rfl, rfl, rfl, rfl, hnd', Nat.zero_le _, fun k hk => ?_, fun j hj => Or.inl ?_, fun idx hi => ?_⟩, fun j hj => ?_⟩
  · unfold Num.sum Tensor.sum
    dsimp only
    rw [hx, hy, hd, hn, h.hxm, h.hym, if_pos rfl, mkTensor_isOk (by omega)]
  · show (t.values.sumAxes _).shape k = 1
    rw [hsh k (by omega)]; exact h.one k hk
  · show (t.values.sumAxes _).shape _ = _
    rw [hsh _ (by omega)]; exact h.full j (by omega)
  · show (t.values.sumAxes _).bget idx = _
    rw [s3]
    refine sumAt_map (fun a b h => by simpa using h) _ (fun k hk => ?_) fun n n' h1 h2 h3 => ?_
    · have := h.full (q + k) (by have := List.mem_range.1 hk; omega)
      rw [show nx + ny + q + k = nx + ny + (q + k) by omega]; exact this
    · have hb : ∀ j < q + δ, n (nx + ny + j) < R j := by
        intro j hj
        by_cases c : j < q
        · rw [h2 _ (fun hm => by obtain ⟨i, -, e⟩ := List.mem_map.1 hm; omega), hfil _ (by omega)]
          exact hi j c
        · obtain ⟨e1, e2⟩ := h1 (j - q) (List.mem_range.2 (by omega))
          rw [show nx + ny + j = nx + ny + q + (j - q) by omega, e1]
          rwa [show q + (j - q) = j by omega] at e2
      rw [h.get n hb]
      congr 1
      funext j
      show (if j < q + δ then n (nx + ny + j) else 0) = if j < q then (if j < q then idx (nx + ny + j) else 0) else n' (j - q)
      by_cases c : j < q
      · rw [if_pos (by omega), if_pos c, if_pos c, h2 _ (fun hm => by obtain ⟨i, -, e⟩ := List.mem_map.1 hm; omega), hfil _ (by omega)]
        rfl
      · rw [if_neg c]
        clear s1 s2 s3
        by_cases c' : j < q + δ
        · rw [if_pos c', ← (h1 (j - q) (List.mem_range.2 (by omega))).1]
          congr 1; omega
        · rw [if_neg c', h3 _ (by rw [List.mem_range]; omega)]
  · show (t.values.sumAxes _).shape _ = _
    rw [hsh _ (by omega)]; exact h.full j (by omega)

/-- `Collapse(f, False)` -/
theorem collapse_sheets {f : TFunc ℝ} {m q δ : Nat} {R : Nat → Nat} {A : (Nat → Nat) → ℝ} {B : Nat → (Nat → Nat) → ℝ} {C : Nat → Nat → (Nat → Nat) → ℝ} {ps : List (Tensor ℝ)} (hps : ps.length = m)
    (h : GivesSheets m q (q + δ) δ R A B C (f.eval ps) ∧ GivesSheets m q (q + δ) δ R A B C (f.sep ps)) :
    let sm := fun (G : (Nat → Nat) → ℝ) (s : Nat → Nat) => sumAt (fun k => R (q + k)) (List.range δ) (fun o => G (joinAt q s o)) fun _ => 0
    GivesSheets m q q 0 R (sm A) (fun k => sm (B k)) (fun k l => sm (C k l)) ((collapseT f .none true).eval ps) ∧
    GivesSheets m q q 0 R (sm A) (fun k => sm (B k)) (fun k l => sm (C k l)) ((collapseT f .none true).sep ps) := by
  have : Inhabited (Tensor ℝ) := ⟨Tensor.const 0⟩
  intro sm
  obtain ⟨⟨V, D, H, h1, h2, h3, h4⟩, V', D', H', k1, k2, k3, k4⟩ := h
  constructor
  · obtain ⟨rV, v1, v2⟩ := sheet_sumDim h2
    have hD := fun k hk => sheet_sumDim (h3 k hk)
    have hH := fun k hk l hl => sheet_sumDim (h4 k hk l hl)
    choose! rD d1 d2 using hD
    choose! rH e1 e2 using hH
    refine ⟨rV, rD, rH, ?_, v2, d2, e2⟩
    show (f.eval ps >>= _) = _
    rw [h1, ok_bind']
    have e0 : Py.sumOver .none true (.arr (.tensor V)) = .ok (.arr (.tensor rV)) := by
      unfold Py.sumOver; dsimp only; rw [v1]; rfl
    have e3 : ∀ k < m, Py.sumOver .none true (.arr (.tensor (D k))) = .ok (.arr (.tensor (rD k))) := fun k hk => by
      unfold Py.sumOver; dsimp only; rw [d1 k hk]; rfl
    have e4 : ∀ k < m, ∀ l ≤ k, Py.sumOver .none true (.arr (.tensor (H k l))) = .ok (.arr (.tensor (rH k l))) := fun k hk l hl => by
      unfold Py.sumOver; dsimp only; rw [e1 k hk l hl]; rfl
    dsimp only
    rw [e0, ok_bind', mapM_row (g' := fun k => .arr (.tensor (rD k))) fun k hk => e3 k hk, ok_bind']
    have e5 : (triangle m fun k l => Py.arr (.tensor (H k l))).mapM (fun l => l.mapM (Py.sumOver .none true)) = .ok (triangle m fun k l => .arr (.tensor (rH k l))) :=
      mapM_row (f := fun l : List (Py ℝ) => l.mapM (Py.sumOver .none true)) (g := fun k => row (k + 1) fun l => Py.arr (.tensor (H k l))) (g' := fun k => row (k + 1) fun l => Py.arr (.tensor (rH k l))) (m := m) fun k hk =>
        mapM_row (f := Py.sumOver .none true) (g := fun l => Py.arr (.tensor (H k l))) (g' := fun l => Py.arr (.tensor (rH k l))) (m := k + 1) fun l hl => e4 k hk l (by omega)
    rw [e5]
    rfl
  · obtain ⟨rV, v1, v2⟩ := sheet_sumDim k2
    have hD := fun k hk => sheet_sumDim (k3 k hk)
    have hH := fun k hk l hl => sheet_sumDim (k4 k hk l hl)
    choose! rD d1 d2 using hD
    choose! rH e1 e2 using hH
    obtain ⟨c1, c2, c3⟩ := (sep_iff hps).1 k1
    refine ⟨rV, rD, rH, (sep_iff hps).2 ⟨?_, fun k hk => ?_, fun k hk l hl => ?_⟩, v2, d2, e2⟩
    · show (f.call ps >>= _) = _
      rw [c1, ok_bind']
      unfold Py.sumOver; dsimp only; rw [v1]; rfl
    · show (f.grad ps k >>= _) = _
      rw [c2 k hk, ok_bind']
      unfold Py.sumOver; dsimp only; rw [d1 k hk]; rfl
    · show (f.hess ps k l >>= _) = _
      rw [c3 k hk l hl, ok_bind']
      unfold Py.sumOver; dsimp only; rw [e1 k hk l hl]; rfl

/-! ### `Compose` -/

theorem GivesSheets.congr {m q len dd : Nat} {R : Nat → Nat} {A A' : (Nat → Nat) → ℝ} {B B' : Nat → (Nat → Nat) → ℝ} {C C' : Nat → Nat → (Nat → Nat) → ℝ} {x : Except Err (Ev3 ℝ)}
    (h : GivesSheets m q len dd R A B C x) (hA : ∀ s, (∀ j < len, s j < R j) → (∀ j ≥ len, s j = 0) → A s = A' s)
    (hB : ∀ k < m, ∀ s, (∀ j < len, s j < R j) → (∀ j ≥ len, s j = 0) → B k s = B' k s)
    (hC : ∀ k < m, ∀ l ≤ k, ∀ s, (∀ j < len, s j < R j) → (∀ j ≥ len, s j = 0) → C k l s = C' k l s) : GivesSheets m q len dd R A' B' C' x := by
  obtain ⟨V, D, H, h1, h2, h3, h4⟩ := h
  exact ⟨V, D, H, h1, h2.congr hA, fun k hk => (h3 k hk).congr (hB k hk), fun k hk l hl => (h4 k hk l hl).congr (hC k hk l hl)⟩

/-- `f @ [g_1, …, g_r]` -/
theorem compose_sheets {f : TFunc ℝ} (f0 : f.gradNull = false) (f0' : f.hessNull = false) {g : Nat → TFunc ℝ} {r m q q' d' len dd : Nat} {R : Nat → Nat} (hq' : 0 < q') (hqq : q ≤ q') (hlen : q' ≤ len)
    {ps : List (Tensor ℝ)} (hps : ps.length = m) {A : Nat → (Nat → Nat) → ℝ} {B : Nat → Nat → (Nat → Nat) → ℝ} {C : Nat → Nat → Nat → (Nat → Nat) → ℝ}
    {a : (Nat → Nat) → ℝ} {b : Nat → (Nat → Nat) → ℝ} {c : Nat → Nat → (Nat → Nat) → ℝ}
    (hg : ∀ k < r + 1, GivesSheets m q q' d' R (A k) (B k) (C k) ((g k).eval ps) ∧ GivesSheets m q q' d' R (A k) (B k) (C k) ((g k).sep ps))
    (hf : ∀ V : Nat → NDArray ℝ, (∀ k < r + 1, (V k).ndim = q' ∧ (∀ j < q', (V k).shape j = R j) ∧ ∀ s, (∀ j < q', s j < R j) → (V k).get s = A k (cut q' s)) →
      GivesSheets (r + 1) q' len dd R a b c (f.eval (row (r + 1) fun k => ⟨V k, 0, 0, d', [], []⟩)) ∧
      GivesSheets (r + 1) q' len dd R a b c (f.sep (row (r + 1) fun k => ⟨V k, 0, 0, d', [], []⟩))) :
    let der := fun i s => ∑ k ∈ Finset.range (r + 1), b k s * B k i (cut q' s)
    let hes := fun i j s => ∑ k ∈ Finset.range (r + 1), (b k s * C k i j (cut q' s) +
      ∑ l ∈ Finset.range (r + 1), (if k < l then c l k s else c k l s) * B k i (cut q' s) * B l j (cut q' s))
    GivesSheets m q len dd R a der hes ((composeT f (row (r + 1) g)).eval ps) ∧ GivesSheets m q len dd R a der hes ((composeT f (row (r + 1) g)).sep ps) := by
  have : Inhabited (Tensor ℝ) := ⟨Tensor.const 0⟩
  intro der hes
  have main : ∀ {V : Nat → Tensor ℝ}, (∀ k < r + 1, Sheet R 0 0 q' d' [] [] (V k) (A k)) →
      row (r + 1) V = row (r + 1) (fun k => ⟨(V k).values, 0, 0, d', [], []⟩) ∧ GivesSheets (r + 1) q' len dd R a b c (f.eval (row (r + 1) V)) ∧ GivesSheets (r + 1) q' len dd R a b c (f.sep (row (r + 1) V)) := by
    intro V hV
    have e1 : row (r + 1) V = row (r + 1) fun k => ⟨(V k).values, 0, 0, d', [], []⟩ := by
      unfold row
      refine List.map_congr_left fun k hk => ?_
      exact (hV k (List.mem_range.1 hk)).toSlab.eta
    refine ⟨e1, ?_⟩
    rw [e1]
    exact hf (fun k => (V k).values) fun k hk => ⟨(hV k hk).values.1, (hV k hk).values.2, fun s hs => (hV k hk).getEntry hs⟩
  have out : ∀ {VV : Tensor ℝ} {W : Nat → Num ℝ} {Z : Nat → Nat → Num ℝ} {eg : Nat → (Nat → Nat) → ℝ} {eh : Nat → Nat → (Nat → Nat) → ℝ} {x : Except Err (Ev3 ℝ)},
      x = .ok ⟨.arr (.tensor VV), row m fun i => .arr (W i), triangle m fun i j => .arr (Z i j)⟩ → Sheet R 0 0 len dd [] [] VV a →
      (∀ i < m, IsSheet R q 0 len dd (idMap q) [] (W i) (eg i)) → (∀ i < m, ∀ j ≤ i, IsSheet R q q len dd (idMap q) (idMap q) (Z i j) (eh i j)) →
      (∀ i < m, ∀ s, eg i s = der i s) → (∀ i < m, ∀ j ≤ i, ∀ s, eh i j s = hes i j s) → GivesSheets m q len dd R a der hes x := by
    intro VV W Z eg eh x hx hVV hW hZ hg hh
    have h1 : ∀ i < m, ∃ t, W i = .tensor t ∧ Sheet R q 0 len dd (idMap q) [] t (eg i) := hW
    have h2 : ∀ i < m, ∀ j ≤ i, ∃ t, Z i j = .tensor t ∧ Sheet R q q len dd (idMap q) (idMap q) t (eh i j) := hZ
    choose! W' w1 w2 using h1
    choose! Z' z1 z2 using h2
    refine ⟨VV, W', Z', ?_, hVV, fun i hi => (w2 i hi).congr fun s _ _ => hg i hi s, fun i hi j hj => (z2 i hi j hj).congr fun s _ _ => hh i hi j hj s⟩
    rw [hx]
    have e1 : (row m fun i => Py.arr (W i)) = row m fun i => .arr (.tensor (W' i)) := by
      unfold row
      refine List.map_congr_left fun i hi => ?_
      rw [w1 i (List.mem_range.1 hi)]
    have e2 : (triangle m fun i j => Py.arr (Z i j)) = triangle m fun i j => .arr (.tensor (Z' i j)) := by
      unfold triangle
      refine List.map_congr_left fun i hi => List.map_congr_left fun j hj => ?_
      dsimp only
      rw [z1 i (List.mem_range.1 hi) j (by have := List.mem_range.1 hj; omega)]
    rw [e1, e2]
  have eder : ∀ i s, (∑ k ∈ Finset.range (r + 1), fun s => B k i (cut q' s) * b k s) s = der i s := fun i s => by
    rw [mem_sum_apply (fun k s => B k i (cut q' s) * b k s) s]
    exact Finset.sum_congr rfl fun k _ => mul_comm _ _
  have ehes : ∀ i j s, (∑ k ∈ Finset.range (r + 1), ((fun s => C k i j (cut q' s) * b k s) +
      ∑ l ∈ Finset.range (r + 1), fun s => B l j (cut q' s) * (B k i (cut q' s) * (if k < l then c l k s else c k l s)))) s = hes i j s := fun i j s => by
    rw [mem_sum_apply]
    refine Finset.sum_congr rfl fun k _ => ?_
    rw [Pi.add_apply, mem_sum_apply (fun l s => B l j (cut q' s) * (B k i (cut q' s) * (if k < l then c l k s else c k l s))) s]
    congr 1
    · exact mul_comm _ _
    · refine Finset.sum_congr rfl fun l _ => ?_
      ring
  constructor
  · have h := fun k hk => (hg k hk).1
    unfold GivesSheets at h
    choose! V D H hge hV hD hH using h
    obtain ⟨-, ⟨VV, Fg, Fh, x1, x2, x3, x4⟩, -⟩ := main hV
    obtain ⟨W, Z, z1, z2, z3⟩ := composeEval_ok f0' (sheet_factors hq' hqq hlen x3 x4 hD hH) hps hge x1
    exact out z1 x2 z2 z3 (fun i _ s => eder i s) fun i _ j _ s => ehes i j s
  · have h := fun k hk => (hg k hk).2
    unfold GivesSheets at h
    choose! V D H hge hV hD hH using h
    obtain ⟨-, -, ⟨VV, Fg, Fh, x1, x2, x3, x4⟩⟩ := main hV
    obtain ⟨W, Z, z1, z2, z3⟩ := composeT_sep f0 f0' (sheet_factors hq' hqq hlen x3 x4 hD hH) (fun k hk => (sep_iff hps).1 (hge k hk)) ((sep_iff (by simp [row])).1 x1)
    refine out ((sep_iff hps).2 z1) x2 z2 z3 (fun i _ s => eder i s) fun i _ j _ s => ?_
    rw [← ehes i j s]
    refine congrFun (a := s) (Finset.sum_congr rfl fun k _ => ?_)
    exact add_comm _ _

end Verif.Tens
