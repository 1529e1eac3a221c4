import Verif.Spec.FitFull
import Verif.Props.FlatTensor
import Verif.Props.Fit
import Verif.Props.Constraint

/-!
# Lemmas for C68: the objective, the Newton system
-/

set_option linter.unusedSectionVars false

namespace Verif.Tens
open Verif.Params

theorem number_isVal {t : Tensor ℝ} (hw : t.WF) (h0 : t.values.ndim = 0) (L : Layout) : IsVal L t := by
  have := hw.ndim
  exact ⟨hw, by omega, by omega, Or.inr h0⟩

theorem number_scalar {t : Tensor ℝ} (hw : t.WF) (h0 : t.values.ndim = 0) {op : Op} {c : ℝ} (hc : op = .div → c ≠ 0) (ho : op = .sub ∨ op = .div) :
    ∃ s, t.binScalar c op = .ok s ∧ s.WF ∧ s.values.ndim = 0 ∧ s.values.get (fun _ => 0) = op.app (t.values.get fun _ => 0) c := by
  have hv := number_isVal hw h0 ((square 1).layout 0 0)
  have hn := hw.ndim
  unfold Tensor.binScalar
  rw [hv.toarray]
  rcases ho with rfl | rfl
  · by_cases h : c = 0
    · refine ⟨t, by simp [h], hw, h0, ?_⟩
      rw [h]; exact (sub_zero _).symm
    · refine ⟨⟨t.values.map fun v => Op.sub.app v c, t.xDim, t.yDim, t.dim, [], []⟩, by simp [h], Tensor.wf_nomap ?_, h0, by dsimp only; rw [NDArray.map_get]⟩
      show t.xDim + t.yDim + t.dim ≤ t.values.ndim
      omega
  · have h := hc rfl
    by_cases h1 : c = 1
    · refine ⟨t, by simp [h1], hw, h0, ?_⟩
      rw [h1]; exact (div_one _).symm
    · refine ⟨{ t with values := t.values.map fun v => Op.div.app v c }, by simp [h, h1], ?_, h0, by dsimp only; rw [NDArray.map_get]⟩
      obtain ⟨e1, e2⟩ := hv.xMap
      refine ⟨by show t.xDim + t.yDim + t.dim ≤ t.values.ndim; omega, hw.xLen, hw.yLen, ?_, ?_, ?_, ?_⟩
      · intro f hf; simp [e1] at hf
      · intro f hf; simp [e2] at hf
      · intro k hk; simp [e1] at hk
      · intro k hk; simp [e2] at hk

theorem number_bin {v w : Num ℝ} {a b : ℝ} (h : IsNumber v a) (h' : IsNumber w b) {op : Op} (hc : op = .div → b ≠ 0) (ho : op = .sub ∨ op = .div) :
    ∃ r, v.bin w op = .ok r ∧ IsNumber r (op.app a b) := by
  obtain ⟨t, rfl, t1, t2, rfl⟩ := h
  obtain ⟨o, rfl, o1, o2, rfl⟩ := h'
  obtain ⟨s, s1, s2, s3, s4⟩ := number_scalar t1 t2 hc ho
  refine ⟨.tensor s, ?_, s, rfl, s2, s3, s4⟩
  show t.binTensor o op = _
  unfold Tensor.binTensor
  rw [if_pos o2, s1]

theorem number_sub {v : Num ℝ} {a b : ℝ} {w : Py ℝ} (h : IsNumber v a) (h' : w.IsVal b) :
    ∃ r, (Py.arr v).sub w = .ok (.arr r) ∧ IsNumber r (a - b) := by
  rcases h' with rfl | ⟨w, rfl, hw⟩
  · obtain ⟨t, rfl, t1, t2, rfl⟩ := h
    obtain ⟨s, s1, s2, s3, s4⟩ := number_scalar t1 t2 (op := .sub) (c := b) (by simp) (Or.inl rfl)
    refine ⟨.tensor s, ?_, s, rfl, s2, s3, s4⟩
    show ((Num.tensor t).scalarOp .sub b).map Py.arr = _
    unfold Num.scalarOp
    dsimp only
    rw [s1]; rfl
  · obtain ⟨r, r1, r2⟩ := number_bin h hw (op := .sub) (by simp) (Or.inl rfl)
    exact ⟨r, by show (v.bin w .sub).map Py.arr = _; rw [r1]; rfl, r2⟩

variable {pr : Problem} {m : Nat} {dom : Theta → Prop} {L : Theta → ℝ} {M : MaxLikeT ℝ} {gs : List Con} {φs : List Pen} {T : ℝ}

theorem subRegs_ok {θ : Theta} {params : List (Param ℝ)} (hat : AtPoint pr m θ params) : ∀ {rs : List (TTerm ℝ)} {φs : List Pen},
    List.Forall₂ (fun t φ => IsPenalty (cOrder pr m) t φ.val φ.der φ.hes) rs φs → ∀ {v : Num ℝ} {a : ℝ}, IsNumber v a →
    ∃ r, subRegs (params.map paramTensor) rs (.arr v) = .ok (.arr r) ∧ IsNumber r (a - (φs.map fun φ => φ.val θ).sum)
  | [], [], .nil, v, a, h => ⟨v, rfl, by simpa using h⟩
  | t :: rs, φ :: φs, .cons ht hrs, v, a, h => by
    obtain ⟨args, a1, a2⟩ := args_ok hat ht.lt
    obtain ⟨w, w1, w2⟩ := ht.call θ args a2
    obtain ⟨r, r1, r2⟩ := number_sub h w2
    obtain ⟨s, s1, s2⟩ := subRegs_ok hat hrs r2
    refine ⟨s, ?_, ?_⟩
    · unfold subRegs
      rw [a1, ok_bind', w1, ok_bind', r1, ok_bind', s1]
    · rw [List.map_cons, List.sum_cons, ← sub_sub]; exact s2

theorem objT_of (hpen : List.Forall₂ (fun t φ => IsPenalty (cOrder pr m) t φ.val φ.der φ.hes) M.reg φs) (htot : ∃ n, M.N.sumAll = .ok n ∧ IsNumber n T) (hne : T ≠ 0)
    {θ : Theta} {params : List (Param ℝ)} (hat : AtPoint pr m θ params) {y v : Num ℝ}
    (hy : M.like y = .ok v) (hv : IsNumber v (L θ)) : objT M params y = .ok (penalised L φs θ / T) := by
  obtain ⟨r, r1, r2⟩ := subRegs_ok hat hpen hv
  obtain ⟨n, n1, n2⟩ := htot
  obtain ⟨s, s1, s2⟩ := number_bin r2 n2 (op := .div) (fun _ => hne) (Or.inr rfl)
  unfold objT
  rw [hy, ok_bind', r1, ok_bind', n1, ok_bind']
  have e : (Py.arr r).div n = .ok (.arr s) := by
    show (r.bin n .div).map Py.arr = _
    rw [s1]; rfl
  rw [e, ok_bind']
  obtain ⟨t, rfl, -, t2, t3⟩ := s2
  show (if _ then _ else _) = _
  rw [if_pos t2, t3]
  rfl

theorem objT_ok (hM : Solver pr m dom M L gs φs T) {θ : Theta} {params : List (Param ℝ)} (hat : AtPoint pr m θ params) {y v : Num ℝ}
    (hy : M.like y = .ok v) (hv : IsNumber v (L θ)) : objT M params y = .ok (penalised L φs θ / T) :=
  objT_of hM.penalties hM.total hM.ne hat hy hv

theorem objective_ok (hM : Solver pr m dom M L gs φs T) (pinvh : List (List ℝ) → Except Err (List (List ℝ))) (tol : ℝ) {θ : Theta} (hθ : dom θ)
    {params : List (Param ℝ)} (hat : AtPoint pr m θ params) : Fit.objective (M.env pinvh tol) params = .ok (penalised L φs θ / T) := by
  obtain ⟨g, h, hr, -, -⟩ := hM.fit
  obtain ⟨⟨v, v1, v2⟩, -, -⟩ := hr θ hθ _ hat.isParams
  unfold modelLike at v1
  obtain ⟨y0, y1, v1⟩ := Flat.bind_ok v1
  obtain ⟨y, y2, v1⟩ := Flat.bind_ok v1
  unfold Fit.objective
  show (callT M params >>= fun y => objT M params y) = _
  unfold callT
  rw [y1, ok_bind', y2, ok_bind']
  exact objT_ok hM hat v1 v2

/-- The parts of a Newton step before the linear system. -/
theorem parts_ok (hM : Solver pr m dom M L gs φs T) (pinvh : List (List ℝ) → Except Err (List (List ℝ))) (tol : ℝ) {θ : Theta} (hθ : dom θ)
    {params : List (Param ℝ)} (hat : AtPoint pr m θ params) :
    ∃ y der h, evalT M params = .ok (y, der, h) ∧ objT M params y = .ok (penalised L φs θ / T) ∧
      (M.env pinvh tol).flatGrad params y der = flatGradM (modelGrad M.model M.gradLike) params M.constraint M.reg ∧
      (M.env pinvh tol).flatHess params y der h = flatHessM (modelHess M.model M.hessLike) params M.constraint M.reg := by
  obtain ⟨e, y, v, e1, e2, e3, e4⟩ := hM.same θ hθ _ hat.isParams
  obtain ⟨g, h, hr, -, -⟩ := hM.fit
  obtain ⟨-, ⟨G, g1, -⟩, H, h1, -⟩ := hr θ hθ _ hat.isParams
  have hy : e.val.toNum = .ok y := by rw [e2]; rfl
  unfold modelHess at h1
  rw [e1, ok_bind', hy, ok_bind'] at h1
  obtain ⟨der, d1, h1⟩ := Flat.bind_ok h1
  obtain ⟨hs, d2, h1⟩ := Flat.bind_ok h1
  refine ⟨y, der, hs, ?_, objT_ok hM hat e3 e4, ?_, ?_⟩
  · unfold evalT
    rw [e1, ok_bind', hy, ok_bind', d1, ok_bind', d2, ok_bind']
    rfl
  · show (M.gradLike y der >>= fun gl => _) = _
    unfold flatGradM modelGrad
    rw [e1, ok_bind', hy, ok_bind', d1, ok_bind']
  · show (M.hessLike y der hs >>= fun gl => _) = _
    unfold flatHessM modelHess
    rw [e1, ok_bind', hy, ok_bind', d1, ok_bind', d2, ok_bind']

/-! ### the linear system -/

theorem sel_sublist {β : Type} : ∀ (m : List Bool) (l : List β), (sel m l).Sublist l
  | [], l => by cases l <;> simp [sel]
  | _ :: _, [] => by simp [sel]
  | true :: m, x :: l => by simpa [sel] using sel_sublist m l
  | false :: m, x :: l => by simpa [sel] using (sel_sublist m l).cons x

theorem freePairsFrom_nodup (s : Nat) (ps : List (Param ℝ)) : (Flat.freePairsFrom s ps).Nodup := by
  induction ps generalizing s with
  | nil => simp [Flat.freePairsFrom]
  | cons p ps ih =>
    rw [Flat.freePairsFrom_cons, List.nodup_append]
    refine ⟨?_, ih _, ?_⟩
    · refine List.Nodup.map (fun a b h => by simpa using h) ?_
      unfold Flat.freeOf
      exact List.Nodup.sublist (sel_sublist _ _) List.nodup_range
    · rintro x hx y hy rfl
      obtain ⟨a, -, rfl⟩ := List.mem_map.1 hx
      obtain ⟨i, hi, -⟩ := Flat.mem_freePairsFrom hy
      simp at hi
      omega

theorem rank_pair {ps : List (Param ℝ)} {k : Nat} {x : Nat × Nat} (h : (Flat.freePairs ps)[k]? = some x) : freeRank ps x.1 x.2 = k := by
  have hf := Flat.mem_freePairs (List.mem_of_getElem? h)
  have h2 := Flat.freePairs_getElem? ps x.1 x.2 hf
  obtain ⟨h1, e1⟩ := List.getElem?_eq_some_iff.1 h
  obtain ⟨h3, e3⟩ := List.getElem?_eq_some_iff.1 h2
  exact (List.Nodup.getElem_inj_iff (freePairsFrom_nodup 0 ps)).1 (e3.trans e1.symm)

theorem pair_of_lt {ps : List (Param ℝ)} {k : Nat} (h : k < totalFree ps) : ∃ i a, isFree ps i a ∧ freeRank ps i a = k ∧ (Flat.freePairs ps)[k]? = some (i, a) := by
  have hl : k < (Flat.freePairs ps).length := by rw [Flat.freePairs, Flat.freePairsFrom_length]; exact h
  have e := List.getElem?_eq_getElem hl
  exact ⟨_, _, Flat.mem_freePairs (List.getElem_mem hl), rank_pair e, e⟩

theorem FlatGradIs.eq {params : List (Param ℝ)} {D : Nat → Nat → ℝ} {res v : List ℝ} (h : FlatGradIs params D res v) : v = flatEntries params D res := by
  have h' := flatEntries_is params D res
  apply List.ext_getElem?
  intro k
  by_cases hk : k < totalFree params
  · obtain ⟨i, a, hf, rfl, -⟩ := pair_of_lt hk
    rw [h.free i a hf, h'.free i a hf]
  · obtain ⟨l, rfl⟩ := Nat.exists_eq_add_of_le (Nat.le_of_not_lt hk)
    rw [h.rest, h'.rest]

theorem mat_ext {M M' : List (List ℝ)} (hl : M.length = M'.length) {n : Nat} (h1 : ∀ l ∈ M, l.length = n) (h2 : ∀ l ∈ M', l.length = n)
    (h : ∀ r < M.length, ∀ c < n, Flat.mat M r c = Flat.mat M' r c) : M = M' := by
  refine List.ext_getElem hl fun r hr hr' => ?_
  refine List.ext_getElem ((h1 _ (List.getElem_mem hr)).trans (h2 _ (List.getElem_mem hr')).symm) fun c hc hc' => ?_
  have := h r hr c (by rw [← h1 _ (List.getElem_mem hr)]; exact hc)
  unfold Flat.mat at this
  rw [List.getElem?_eq_getElem hr, List.getElem?_eq_getElem hr', Option.bind_some, Option.bind_some, List.getElem?_eq_getElem hc,
    List.getElem?_eq_getElem hc'] at this
  exact Option.some.inj this

theorem FlatHessIs.eq {params : List (Param ℝ)} {H : Nat → Nat → Nat → Nat → ℝ} {ders : List (Nat → Nat → ℝ)} {M : List (List ℝ)}
    (h : FlatHessIs params H ders M) : M = flatMatrix params H ders := by
  have h' := flatMatrix_is params H ders
  refine mat_ext (h.rows.trans h'.rows.symm) h.cols h'.cols fun r hr c hc => ?_
  rw [h.rows] at hr
  by_cases h1 : r < totalFree params
  · obtain ⟨i, a, hf, rfl, -⟩ := pair_of_lt h1
    by_cases h2 : c < totalFree params
    · obtain ⟨j, b, hf', rfl, -⟩ := pair_of_lt h2
      by_cases hij : j < i
      · rw [h.lower i j a b hij hf hf', h'.lower i j a b hij hf hf']
      · rw [h.upper j i b a (by omega) hf' hf, h'.upper j i b a (by omega) hf' hf]
    · obtain ⟨l, rfl⟩ := Nat.exists_eq_add_of_le (Nat.le_of_not_lt h2)
      rw [h.right i a l hf, h'.right i a l hf]
  · obtain ⟨k, rfl⟩ := Nat.exists_eq_add_of_le (Nat.le_of_not_lt h1)
    by_cases h2 : c < totalFree params
    · obtain ⟨j, b, hf', rfl, -⟩ := pair_of_lt h2
      rw [h.below j b k hf', h'.below j b k hf']
    · obtain ⟨l, rfl⟩ := Nat.exists_eq_add_of_le (Nat.le_of_not_lt h2)
      rw [h.corner k l (by omega) (by omega), h'.corner k l (by omega) (by omega)]

theorem zipWith_sum (f : Nat × Nat → ℝ) (ps : List (Param ℝ)) (step : List ℝ) (hs : step.length = totalFree ps) :
    Flat.dot ((Flat.freePairs ps).map f) step = ((Flat.freePairs ps).map fun x => f x * step.getD (freeRank ps x.1 x.2) 0).sum := by
  unfold Flat.dot
  congr 1
  have hl : (Flat.freePairs ps).length = totalFree ps := by rw [Flat.freePairs, Flat.freePairsFrom_length]
  apply List.ext_getElem?
  intro k
  by_cases hk : k < totalFree ps
  · have e := List.getElem?_eq_getElem (l := Flat.freePairs ps) (i := k) (by omega)
    have e' := List.getElem?_eq_getElem (l := step) (i := k) (by omega)
    rw [List.getElem?_zipWith, List.getElem?_map, List.getElem?_map, e, e']
    simp only [Option.map_some]
    rw [rank_pair e, List.getD_eq_getElem?_getD, e']
    rfl
  · rw [List.getElem?_eq_none (by simp; omega), List.getElem?_eq_none (by simp; omega)]

theorem freePairs_sum (F : Nat → Nat → ℝ) {ps : List (Param ℝ)} (hw : ∀ p ∈ ps, p.mask.length = p.shape.prod) :
    ((Flat.freePairs ps).map fun x => F x.1 x.2).sum = freeSum ps F := by
  classical
  rw [← List.sum_toFinset (l := Flat.freePairs ps) (fun x => F x.1 x.2) (freePairsFrom_nodup 0 ps)]
  unfold freeSum
  rw [Finset.sum_sigma']
  rw [← Finset.sum_filter]
  refine Finset.sum_bij' (fun x _ => ⟨x.1, x.2⟩) (fun x _ => (x.1, x.2)) ?_ ?_ (fun _ _ => rfl) (fun _ _ => rfl) (fun _ _ => rfl)
  · intro x hx
    have hf : isFree ps x.1 x.2 := Flat.mem_freePairs (List.mem_toFinset.1 hx)
    obtain ⟨p, hp, hb⟩ := hf
    have h1 := (List.getElem?_eq_some_iff.1 hp).1
    have h2 := (List.getElem?_eq_some_iff.1 hb).1
    rw [hw p (List.mem_of_getElem? hp)] at h2
    simp only [Finset.mem_filter, Finset.mem_sigma, Finset.mem_range]
    refine ⟨⟨h1, ?_⟩, p, hp, hb⟩
    rw [List.getD_eq_getElem?_getD, List.getElem?_map, hp]
    exact h2
  · intro x hx
    simp only [Finset.mem_filter] at hx
    exact List.mem_toFinset.2 (List.mem_of_getElem? (Flat.freePairs_getElem? ps _ _ hx.2))

theorem freePairs_dot (F : Nat → Nat → ℝ) {ps : List (Param ℝ)} (hw : ∀ p ∈ ps, p.mask.length = p.shape.prod) {step : List ℝ} (hs : step.length = totalFree ps) :
    Flat.dot ((Flat.freePairs ps).map fun x => F x.1 x.2) step = freeSum ps fun i a => F i a * step.getD (freeRank ps i a) 0 := by
  rw [zipWith_sum _ ps step hs]
  exact freePairs_sum (fun i a => F i a * step.getD (freeRank ps i a) 0) hw

theorem dot_map {β : Type} (f : β → ℝ) (l : List β) (μ : List ℝ) : Flat.dot (l.map f) μ = ((l.zip μ).map fun x => f x.1 * x.2).sum := by
  unfold Flat.dot
  rw [List.zipWith_map_left, List.zip, List.map_zipWith]

/-- The bordered system, written out. -/
theorem system_iff {ps : List (Param ℝ)} (hw : ∀ p ∈ ps, p.mask.length = p.shape.prod) {D : Nat → Nat → ℝ} {H : Nat → Nat → Nat → Nat → ℝ}
    {ders : List (Nat → Nat → ℝ)} {res : List ℝ} (hr : res.length = ders.length) {x : List ℝ} :
    Flat.Solves (flatMatrix ps H ders) x (flatEntries ps D res) ↔
      x.length = totalFree ps + ders.length ∧ NewtonStep ps D H ders res (x.take (totalFree ps)) (x.drop (totalFree ps)) := by
  have hl : (Flat.freePairs ps).length = totalFree ps := by rw [Flat.freePairs, Flat.freePairsFrom_length]
  have hM := flatMatrix_is ps H ders
  have hV := flatEntries_is ps D res
  have top : ∀ (k : Nat) (i a : Nat), (Flat.freePairs ps)[k]? = some (i, a) → (flatMatrix ps H ders)[k]? =
      some (((Flat.freePairs ps).map fun y => bothSides H i a y.1 y.2) ++ ders.map fun d => d i a) := by
    intro k i a h
    unfold flatMatrix
    have := (List.getElem?_eq_some_iff.1 h).1
    rw [List.getElem?_append_left (by rw [List.length_map]; exact this), List.getElem?_map, h]
    rfl
  have bot : ∀ k : Nat, (flatMatrix ps H ders)[totalFree ps + k]? =
      ders[k]?.map fun d => ((Flat.freePairs ps).map fun x => d x.1 x.2) ++ List.replicate ders.length 0 := by
    intro k
    unfold flatMatrix
    rw [List.getElem?_append_right (by rw [List.length_map, hl]; omega), List.length_map, hl, Nat.add_sub_cancel_left, List.getElem?_map]
  have split : ∀ (u w : List ℝ), x.length = totalFree ps + ders.length → u.length = totalFree ps →
      Flat.dot (u ++ w) x = Flat.dot u (x.take (totalFree ps)) + Flat.dot w (x.drop (totalFree ps)) := by
    intro u w hx hu
    conv_lhs => rw [← List.take_append_drop (totalFree ps) x]
    rw [Flat.dot_append _ _ _ _ (by rw [hu, List.length_take]; omega)]
  constructor
  · intro h
    have hx : x.length = totalFree ps + ders.length := h.len.trans hM.rows
    have ht : (x.take (totalFree ps)).length = totalFree ps := by rw [List.length_take]; omega
    refine ⟨hx, ht, by rw [List.length_drop]; omega, fun i a hf => ?_, fun k d r hd hk => ?_⟩
    · have hp := Flat.freePairs_getElem? ps i a hf
      have := h.rows _ _ _ (top _ i a hp) (hV.free i a hf)
      rw [split _ _ hx (by rw [List.length_map, hl]), freePairs_dot (fun j b => bothSides H i a j b) hw ht, dot_map] at this
      exact this
    · have := h.rows (totalFree ps + k) _ r (by rw [bot, hd]; rfl) (by rw [hV.rest, hk])
      rw [split _ _ hx (by rw [List.length_map, hl]), freePairs_dot d hw ht, Flat.dot_zeros, add_zero] at this
      exact this
  · rintro ⟨hx, h⟩
    refine ⟨hx.trans hM.rows.symm, by rw [hV.length, hM.rows, hr], fun r row gr h1 h2 => ?_⟩
    by_cases hrk : r < totalFree ps
    · obtain ⟨i, a, hf, rfl, hp⟩ := pair_of_lt hrk
      rw [top _ i a hp] at h1
      rw [hV.free i a hf] at h2
      cases h1
      cases h2
      rw [split _ _ hx (by rw [List.length_map, hl]), freePairs_dot (fun j b => bothSides H i a j b) hw h.len, dot_map]
      exact h.stationary i a hf
    · obtain ⟨k, rfl⟩ := Nat.exists_eq_add_of_le (Nat.le_of_not_lt hrk)
      rw [bot] at h1
      rw [hV.rest] at h2
      obtain ⟨d, hd, rfl⟩ := Option.map_eq_some_iff.1 h1
      rw [split _ _ hx (by rw [List.length_map, hl]), freePairs_dot d hw h.len, Flat.dot_zeros, add_zero]
      exact h.feasible k d gr hd h2

end Verif.Tens
