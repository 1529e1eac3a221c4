import Verif.Lemmas.LinQuad

/-!
# `Linear` is a constraint, `Quadratic` is a penalty
-/

set_option linter.unusedSectionVars false

namespace Verif.Tens
open Verif.Params
open NDArray

theorem sum_map_range (n : Nat) (g : Nat → ℝ) : ((List.range n).map g).sum = ∑ i ∈ Finset.range n, g i := by
  induction n with
  | zero => simp
  | succ n ih => rw [List.range_succ, List.map_append, List.sum_append, ih, Finset.sum_range_succ]; simp

/-! ### separable functions -/

theorem hasPartial_coord (θ : Theta) (p a q b : Nat) : HasPartial (fun θ => θ q b) θ p a (if q = p ∧ b = a then 1 else 0) := by
  unfold HasPartial Theta.set
  by_cases h : q = p ∧ b = a
  · obtain ⟨rfl, rfl⟩ := h
    simp only [and_self, if_true]
    exact hasDerivAt_id' _
  · simp only [h, if_false]
    exact hasDerivAt_const _ _

theorem hasPartial_separable {pr : Problem} {pm : List Nat} (hn : pm.Nodup) {F F' : Nat → ℝ → ℝ} (hF : ∀ k x, HasDerivAt (F k) (F' k x) x)
    (θ : Theta) {p a : Nat} (ha : a < (pr.sizes p).prod) :
    HasPartial (fun θ => ∑ k ∈ Finset.range pm.length, ∑ a ∈ Finset.range (pr.sizes (pm.getD k 0)).prod, F k (θ (pm.getD k 0) a)) θ p a
      (if p ∈ pm then F' (pm.idxOf p) (θ p a) else 0) := by
  have h1 : HasPartial (fun θ => ∑ k ∈ Finset.range pm.length, ∑ a ∈ Finset.range (pr.sizes (pm.getD k 0)).prod, F k (θ (pm.getD k 0) a)) θ p a
      (∑ k ∈ Finset.range pm.length, ∑ b ∈ Finset.range (pr.sizes (pm.getD k 0)).prod,
        F' k (θ (pm.getD k 0) b) * if pm.getD k 0 = p ∧ b = a then 1 else 0) := by
    unfold HasPartial
    refine HasDerivAt.fun_sum fun k _ => HasDerivAt.fun_sum fun b _ => ?_
    have h2 := hasPartial_coord θ p a (pm.getD k 0) b
    unfold HasPartial at h2
    refine HasDerivAt.comp (θ p a) (h₂ := F k) ?_ h2
    rw [Theta.set_self]
    exact hF k _
  convert h1 using 1
  by_cases hp : p ∈ pm
  · have hi := List.idxOf_lt_length_of_mem hp
    have hg := getD_idxOf0 hp
    rw [if_pos hp, Finset.sum_eq_single (pm.idxOf p), Finset.sum_eq_single a]
    · rw [hg]; simp
    · intro b _ hb
      rw [if_neg (fun h => hb h.2), mul_zero]
    · intro h
      rw [hg] at h
      exact absurd (Finset.mem_range.2 ha) h
    · intro k hk hne
      have hk := Finset.mem_range.1 hk
      refine Finset.sum_eq_zero fun b _ => ?_
      rw [if_neg, mul_zero]
      rintro ⟨h, -⟩
      refine hne ?_
      rw [← h, idxOf_getD hn hk]
    · intro h
      exact absurd (Finset.mem_range.2 hi) h
  · rw [if_neg hp]
    symm
    refine Finset.sum_eq_zero fun k hk => Finset.sum_eq_zero fun b _ => ?_
    have hk := Finset.mem_range.1 hk
    rw [if_neg, mul_zero]
    rintro ⟨h, -⟩
    refine hp ?_
    rw [← h, List.getD_eq_getElem _ _ hk]
    exact List.getElem_mem hk

section
variable {pr : Problem} {m : Nat} {pm : List Nat} {θ : Theta} {args : List (Tensor ℝ)}

theorem arraySum_args (f : ℝ → ℝ) {p : Nat} {v : NDArray ℝ} (h1 : v.ndim = pr.nd p) (h2 : ∀ j < v.ndim, v.shape j = pr.P p j)
    (h3 : ∀ a, pr.Entry p ((cOrder pr m).e p a) → v.get ((cOrder pr m).e p a) = θ p a) :
    arraySum (v.map f) = ∑ a ∈ Finset.range (pr.sizes p).prod, f (θ p a) := by
  rw [arraySum_eq (l := pr.sizes p)]
  · refine Finset.sum_congr rfl fun a ha => ?_
    have := h3 a (entry_iff.2 (Finset.mem_range.1 ha))
    rw [← this]
    rw [map_get]
    rfl
  · show (List.range v.ndim).map v.shape = _
    unfold Problem.sizes
    rw [h1]
    exact List.map_congr_left fun j hj => h2 j (by rw [h1]; exact List.mem_range.1 hj)

/-- The arguments of a term, as a list of arrays. -/
theorem args_arrays (ha : (cOrder pr m).IsArgs θ pm args) : ∃ v : Nat → NDArray ℝ, args = row pm.length (fun k => ⟨v k, 0, 0, 0, [], []⟩) ∧
    ∀ k < pm.length, (v k).ndim = pr.nd (pm.getD k 0) ∧ (∀ j < (v k).ndim, (v k).shape j = pr.P (pm.getD k 0) j) ∧
      ∀ a, pr.Entry (pm.getD k 0) ((cOrder pr m).e (pm.getD k 0) a) → (v k).get ((cOrder pr m).e (pm.getD k 0) a) = θ (pm.getD k 0) a := by
  obtain ⟨h1, h2⟩ := ha
  have : ∀ k, ∃ v : NDArray ℝ, k < pm.length → args[k]? = some ⟨v, 0, 0, 0, [], []⟩ ∧ v.ndim = pr.nd (pm.getD k 0) ∧
      (∀ j < v.ndim, v.shape j = pr.P (pm.getD k 0) j) ∧
      ∀ a, pr.Entry (pm.getD k 0) ((cOrder pr m).e (pm.getD k 0) a) → v.get ((cOrder pr m).e (pm.getD k 0) a) = θ (pm.getD k 0) a := by
    intro k
    by_cases hk : k < pm.length
    · obtain ⟨v, hv⟩ := h2 k hk
      exact ⟨v, fun _ => hv⟩
    · exact ⟨NDArray.scalar 0, fun c => absurd c hk⟩
  choose v hv using this
  refine ⟨v, ?_, fun k hk => (hv k hk).2⟩
  apply List.ext_getElem?
  intro k
  by_cases hk : k < pm.length
  · rw [(hv k hk).1, row_getElem? hk]
  · rw [List.getElem?_eq_none (by omega), List.getElem?_eq_none (by simp [row]; omega)]

theorem row_length {β : Type} (n : Nat) (f : Nat → β) : (row n f).length = n := by simp [row]

theorem gradTensor_diag (W : NDArray ℝ) : gradTensor W W.ndim .diag 0 = hessTensor W W.ndim 0 .diag .diag 0 := by
  rw [gradTensor_eq _ _ _ _ (by simp [MapArg.isNone])]
  rfl

theorem linear_isConstraint (hne : pm ≠ []) (hlt : ∀ p ∈ pm, p < m) (hinc : pm.Pairwise (· < ·)) {w : List ℝ} (hw : w.length = pm.length) :
    IsConstraint (cOrder pr m) ⟨pm, linearT w⟩ (linCon pr pm w).val (linCon pr pm w).der where
  ne := hne
  lt := hlt
  inc := hinc
  call θ args ha := by
    obtain ⟨v, rfl, hv⟩ := args_arrays (pm := pm) ha
    refine ⟨_, rfl, Or.inl ?_⟩
    congr 1
    have e : (row pm.length fun k => (⟨v k, 0, 0, 0, [], []⟩ : Tensor ℝ)).zip w =
        (List.range pm.length).map fun k => ((⟨v k, 0, 0, 0, [], []⟩ : Tensor ℝ), w.getD k 0) := by
      rw [zip_row0 hw]
      have : w = row pm.length fun k => w.getD k 0 := by
        apply List.ext_getElem
        · rw [row_length, hw]
        · intro k h1 h2
          simp [row, List.getD, h1]
      conv_lhs => rw [this]
      rw [zipIdx_row0, List.map_map]
      rfl
    rw [e, List.map_map, sum_map_range]
    refine Finset.sum_congr rfl fun k hk => ?_
    obtain ⟨h1, h2, h3⟩ := hv k (Finset.mem_range.1 hk)
    exact arraySum_args (fun x => x * w.getD k 0) h1 h2 h3
  grad θ args ha := by
    obtain ⟨v, rfl, hv⟩ := args_arrays (pm := pm) ha
    have key : ∀ k, ∃ t r : Tensor ℝ, gradTensor ⟨(v k).ndim, fun _ => 1, fun _ => w.getD k 0⟩ (v k).ndim .diag 0 = .ok t ∧
        (Num.tensor t).sumAll = .ok (.tensor r) ∧ r.values.ndim = (v k).ndim ∧ (∀ j < (v k).ndim, r.values.shape j = 1) ∧
        ∀ x, r.values.bget x = w.getD k 0 := by
      intro k
      obtain ⟨t, r, h1, h2, h3, h4, h5, h6, h7, h8, h9, h10, -, h12⟩ :=
        diag_sum ⟨(v k).ndim, fun _ => 1, fun _ => w.getD k 0⟩ (y := 0) (Or.inl rfl)
      have hnd : r.values.ndim = (v k).ndim := by
        have := h3.nd
        rw [h4, h5, h6, h7] at this
        simpa using this
      refine ⟨t, r, ?_, h2, hnd, h10, fun x => ?_⟩
      · rw [← h1]; exact gradTensor_diag ⟨(v k).ndim, fun _ => 1, fun _ => w.getD k 0⟩
      · have hp : Plain (v k).ndim 0 (fun _ => 1) (fun _ => 1) r := by
          refine ⟨h3, Or.inr h4, Or.inl h5, h6, h7, h8, h9, fun j hj => Or.inr (h10 j ?_), fun j hj => ?_⟩
          · rw [h4] at hj; exact hj
          · rw [h5] at hj; exact absurd hj (Nat.not_lt_zero j)
        have := h12 ⟨fun _ => 0, fun _ => 0, fun _ => 0, fun _ => 0⟩ (fun k _ => Nat.one_pos) (fun k hk => absurd hk (Nat.not_lt_zero k))
        rw [hp.dense, if_pos (fun k hk => absurd hk (Nat.not_lt_zero k))] at this
        have e : r.values.bget x = r.values.bget (Tens.flat r.xDim r.yDim 0 ⟨fun _ => 0, fun _ => 0, fun _ => 0, fun _ => 0⟩) := by
          apply r.values.bget_congr
          intro j hj hj1
          exact absurd (h10 j (by rw [hnd] at hj; exact hj)) hj1
        rw [e, this]
        rfl
    choose T R t1 t2 t3 t4 t5 using key
    refine ⟨T, ?_, fun k hk => ⟨R k, t2 k, by rw [t3, (hv k hk).1], fun j hj => Or.inr (t4 k j (by rw [← t3]; exact hj)), fun a hE => ?_⟩⟩
    · refine (grads_eq (f := linearT w) rfl _).trans ?_
      unfold gradAll
      rw [row_length]
      refine mapM_list fun k hk => ?_
      have hk : k < pm.length := List.mem_range.1 hk
      show (do
        let w ← pick w k
        let p ← pick (row pm.length fun k => (⟨v k, 0, 0, 0, [], []⟩ : Tensor ℝ)) k
        (gradTensor ⟨p.values.ndim, fun _ => 1, fun _ => w⟩ p.values.ndim .diag 0).map fun t => Py.arr (.tensor t)) = _
      have e : pick w k = .ok (w.getD k 0) := by
        unfold pick
        rw [List.getElem?_eq_getElem (by omega), List.getD_eq_getElem _ _ (by omega)]
      rw [e, ok_bind', pick_range hk, ok_bind']
      dsimp only
      rw [t1 k]
      rfl
    · rw [t5]
      show _ = if _ then _ else _
      rw [if_pos (by rw [List.getD_eq_getElem _ _ hk]; exact List.getElem_mem hk),
        idxOf_getD (hinc.imp fun h => Nat.ne_of_lt h) hk]
  hess θ args ha := by
    obtain ⟨v, rfl, hv⟩ := args_arrays (pm := pm) ha
    have key : ∀ k l, ∃ t : Tensor ℝ, hessTensor (⟨(v l).ndim + (v k).ndim, fun _ => 1, fun _ => 0⟩ : NDArray ℝ) (v k).ndim (v l).ndim .diag .diag 0 = .ok t := by
      intro k l
      obtain ⟨t, t1, -⟩ := C62_hess_tensor (⟨(v l).ndim + (v k).ndim, fun _ => 1, fun _ => 0⟩ : NDArray ℝ) (xd := (v k).ndim) (yd := (v l).ndim)
        (n := (v l).ndim + (v k).ndim) (dim := 0) (xm := .diag) (ym := .diag) (Nat.le_add_left _ _) (Nat.le_add_right _ _) (by simp [MapArg.isNone])
      exact ⟨t, t1⟩
    choose U hU using key
    refine ⟨U, ?_⟩
    refine (hesses_eq (f := linearT w) rfl _).trans ?_
    unfold hessAll
    rw [row_length]
    refine mapM_list fun k hk => mapM_list fun l hl => ?_
    have hk : k < pm.length := List.mem_range.1 hk
    have hl := List.mem_range.1 hl
    show (do
        let q ← pick (row pm.length fun k => (⟨v k, 0, 0, 0, [], []⟩ : Tensor ℝ)) l
        let p ← pick (row pm.length fun k => (⟨v k, 0, 0, 0, [], []⟩ : Tensor ℝ)) k
        (hessTensor (⟨q.values.ndim + p.values.ndim, fun _ => 1, fun _ => 0⟩ : NDArray ℝ) p.values.ndim q.values.ndim .diag .diag 0).map
          fun t => Py.arr (.tensor t)) = _
    rw [pick_range (by omega), ok_bind', pick_range hk, ok_bind']
    dsimp only
    rw [hU k l]
    rfl
  zero θ p a hp := if_neg hp
  partials θ p hp a hE := by
    have := hasPartial_separable (pr := pr) (pm := pm) (hinc.imp fun h => Nat.ne_of_lt h) (F := fun k x => x * w.getD k 0)
      (F' := fun k _ => w.getD k 0) (fun k x => by simpa using (hasDerivAt_id' x).mul_const (w.getD k 0)) θ (entry_iff.1 hE)
    exact this

theorem quadratic_isPenalty (hlt : ∀ p ∈ pm, p < m) (hinc : pm.Pairwise (· < ·)) {u s : ℝ} (hs : s ≠ 0) :
    IsPenalty (cOrder pr m) ⟨pm, quadraticT u s⟩ (quadPen pr pm u s).val (quadPen pr pm u s).der (quadPen pr pm u s).hes where
  lt := hlt
  inc := hinc
  call θ args ha := by
    obtain ⟨v, rfl, hv⟩ := args_arrays (pm := pm) ha
    refine ⟨_, rfl, Or.inr ⟨_, rfl, _, rfl, Tensor.wf_nomap (by simp), rfl, ?_⟩⟩
    show (List.map _ (row pm.length fun k => (⟨v k, 0, 0, 0, [], []⟩ : Tensor ℝ))).sum = _
    unfold row
    rw [List.map_map, sum_map_range]
    refine Finset.sum_congr rfl fun k hk => ?_
    obtain ⟨h1, h2, h3⟩ := hv k (Finset.mem_range.1 hk)
    refine (arraySum_args (fun x => (x - u) / s * ((x - u) / s)) h1 h2 h3).trans ?_
    exact Finset.sum_congr rfl fun a _ => (pow_two _).symm
  grad θ args ha := by
    obtain ⟨v, rfl, hv⟩ := args_arrays (pm := pm) ha
    have hn : pm.Nodup := hinc.imp fun h => Nat.ne_of_lt h
    have key : ∀ k, ∃ r : Num ℝ, (do
        let t ← gradTensor ((v k).map fun x => 2 * ((x - u) / s) / s) (v k).ndim .diag 0
        ((Num.tensor t).sumAll).map Py.arr) = .ok (.arr r) ∧
        (k < pm.length → pr.IsGrad (cOrder pr m).e (pm.getD k 0) r ((quadPen pr pm u s).der θ (pm.getD k 0))) := by
      intro k
      obtain ⟨t, r, h1, h2, h3, h4, h5, h6, h7, h8, h9, h10, -, h12⟩ :=
        diag_sum ((v k).map fun x => 2 * ((x - u) / s) / s) (y := 0) (Or.inl rfl)
      rw [← gradTensor_diag] at h1
      have hd : ((v k).map fun x => 2 * ((x - u) / s) / s).ndim = (v k).ndim := rfl
      rw [hd] at h1 h4 h10
      refine ⟨.tensor r, ?_, fun hk => ?_⟩
      · rw [h1, ok_bind', h2]
        rfl
      · obtain ⟨a1, a2, a3⟩ := hv k hk
        refine ⟨r, rfl, h3, Or.inr (by rw [h4, a1]), h5, h6, h7, ⟨h8, h9, fun j hj => Or.inl ?_⟩, fun a i hi hE => ?_⟩
        · rw [h4] at hj
          rw [h10 j hj]
          exact a2 j hj
        · rw [h12 i (fun j hj => ?_) (fun j hj => absurd hj (Nat.not_lt_zero j)), if_pos fun j hj => absurd hj (Nat.not_lt_zero j), map_get]
          · rw [hi, a3 a hE]
            show _ = if _ then _ else _
            rw [if_pos (by rw [List.getD_eq_getElem _ _ hk]; exact List.getElem_mem hk)]
            field_simp
          · have hj : j < (v k).ndim := hj
            show i.x j < (v k).shape j
            rw [a2 j hj, hi]
            exact hE.1 j (by rw [← a1]; exact hj)
    choose G g1 g2 using key
    refine ⟨G, ?_, fun k hk => g2 k hk⟩
    refine (grads_eq (f := quadraticT u s) rfl _).trans ?_
    unfold gradAll
    rw [row_length]
    refine mapM_list fun k hk => ?_
    have hk : k < pm.length := List.mem_range.1 hk
    show (do
      let p ← pick (row pm.length fun k => (⟨v k, 0, 0, 0, [], []⟩ : Tensor ℝ)) k
      let t ← gradTensor (p.values.map fun v => 2 * ((v - u) / s) / s) p.values.ndim .diag 0
      ((Num.tensor t).sumAll).map Py.arr) = _
    rw [pick_range hk, ok_bind']
    exact g1 k
  hess θ args ha := by
    obtain ⟨v, rfl, hv⟩ := args_arrays (pm := pm) ha
    have hn : pm.Nodup := hinc.imp fun h => Nat.ne_of_lt h
    have key : ∀ k l, ∃ r : Num ℝ, (if k ≠ l then Except.ok zeroT else do
        let t ← hessTensor ((v k).map fun _ => 2 / s / s) (v k).ndim (v k).ndim .diag .diag 0
        ((Num.tensor t).sumAll).map Py.arr) = .ok (.arr r) ∧
        (k < pm.length → l ≤ k → pr.IsBlock (cOrder pr m).e (pm.getD k 0) (pm.getD l 0) r
          ((quadPen pr pm u s).hes θ (pm.getD k 0) (pm.getD l 0))) := by
      intro k l
      by_cases hkl : k = l
      · subst hkl
        obtain ⟨t, r, h1, h2, h3, h4, h5, h6, h7, h8, h9, h10, h11, h12⟩ :=
          diag_sum ((v k).map fun _ => 2 / s / s) (y := (v k).ndim) (Or.inr rfl)
        have hd : ((v k).map fun _ => 2 / s / s).ndim = (v k).ndim := rfl
        rw [hd] at h1 h4 h10 h11
        refine ⟨.tensor r, ?_, fun hk _ => ?_⟩
        · rw [if_neg (by simp), h1, ok_bind', h2]
          rfl
        · obtain ⟨a1, a2, a3⟩ := hv k hk
          refine ⟨r, rfl, h3, Or.inr (by rw [h4, a1]), Or.inr (by rw [h5, a1]), h6, h7,
            ⟨h8, h9, fun j hj => Or.inl ?_, fun j hj => Or.inl ?_⟩, fun a b i hi hi' hE hE' => ?_⟩
          · rw [h4] at hj
            rw [h10 j hj]
            exact a2 j hj
          · rw [h5] at hj
            rw [h4, h11 j hj]
            exact a2 j hj
          · rw [h12 i (fun j hj => ?_) (fun j hj => ?_), map_get]
            · show _ = if _ then _ else _
              have hm : pm.getD k 0 ∈ pm := by rw [List.getD_eq_getElem _ _ hk]; exact List.getElem_mem hk
              have hiff : (∀ j < (v k).ndim, i.y j = i.x j) ↔ a = b := by
                rw [hi, hi']
                refine ⟨fun h => ?_, fun h => by rw [h]; exact fun _ _ => rfl⟩
                have e : (cOrder pr m).e (pm.getD k 0) b = (cOrder pr m).e (pm.getD k 0) a := by
                  funext j
                  by_cases hj : j < pr.nd (pm.getD k 0)
                  · exact h j (by rw [a1]; exact hj)
                  · rw [hE.2 j (by omega), hE'.2 j (by omega)]
                have h1 := ravel_unravel (entry_inList.1 hE)
                have h2 := ravel_unravel (entry_inList.1 hE')
                have e : unravel (pr.sizes (pm.getD k 0)) b = unravel (pr.sizes (pm.getD k 0)) a := e
                rw [← h1, ← h2, e]
              simp only [hiff, hm, true_and]
              split_ifs
              · field_simp
              · rfl
            · have hj : j < (v k).ndim := hj
              show i.x j < (v k).shape j
              rw [a2 j hj, hi]
              exact hE.1 j (by rw [← a1]; exact hj)
            · have hj : j < (v k).ndim := hj
              show i.y j < (v k).shape j
              rw [a2 j hj, hi']
              exact hE'.1 j (by rw [← a1]; exact hj)
      · refine ⟨.tensor (Tensor.const 0), ?_, fun hk hl => ?_⟩
        · rw [if_pos hkl]; rfl
        · refine ⟨Tensor.const 0, rfl, Tensor.wf_nomap (by simp), Or.inl rfl, Or.inl rfl, rfl, rfl,
            ⟨rfl, rfl, fun j hj => absurd hj (Nat.not_lt_zero j), fun j hj => absurd hj (Nat.not_lt_zero j)⟩, fun a b i _ _ _ _ => ?_⟩
          rw [const_dense]
          refine (if_neg ?_).symm
          rintro ⟨-, h, -⟩
          refine hkl ?_
          rw [← idxOf_getD hn hk, h, idxOf_getD hn (by omega)]
    choose H g1 g2 using key
    refine ⟨H, ?_, fun k hk l hl => g2 k l hk hl⟩
    refine (hesses_eq (f := quadraticT u s) rfl _).trans ?_
    unfold hessAll
    rw [row_length]
    refine mapM_list fun k hk => mapM_list fun l hl => ?_
    have hk : k < pm.length := List.mem_range.1 hk
    have h := g1 k l
    show (if k ≠ l then Except.ok zeroT else do
      let p ← pick (row pm.length fun k => (⟨v k, 0, 0, 0, [], []⟩ : Tensor ℝ)) k
      let t ← hessTensor (p.values.map fun _ => 2 / s / s) p.values.ndim p.values.ndim .diag .diag 0
      ((Num.tensor t).sumAll).map Py.arr) = _
    rw [pick_range hk, ok_bind']
    exact h
  zero θ p a hp := if_neg hp
  zero2 θ p q a b h := if_neg fun ⟨h1, h2, _⟩ => h.elim (fun c => c h1) fun c => c (h2 ▸ h1)
  partials θ p hp a hE := by
    have := hasPartial_separable (pr := pr) (pm := pm) (hinc.imp fun h => Nat.ne_of_lt h) (F := fun _ x => ((x - u) / s) ^ 2)
      (F' := fun _ x => 2 * (x - u) / s ^ 2) (fun k x => by
        have := (((hasDerivAt_id' x).sub_const u).div_const s).fun_pow 2
        have e : (2 : ℝ) * (x - u) / s ^ 2 = ((2 : ℕ) : ℝ) * ((x - u) / s) ^ (2 - 1) * (1 / s) := by
          push_cast
          field_simp
        rw [e]
        exact this) θ (entry_iff.1 hE)
    exact this
  partials2 θ p hp q hq a b hE hE' := by
    by_cases h : p ∈ pm
    · have e : (fun θ => (quadPen pr pm u s).der θ p a) = fun θ : Theta => 2 * (θ p a - u) / s ^ 2 := by
        funext θ
        exact if_pos h
      rw [e]
      have h1 := hasPartial_coord θ q b p a
      unfold HasPartial at h1 ⊢
      have h2 := (((h1.sub_const u).const_mul 2).div_const (s ^ 2))
      have e3 : (quadPen pr pm u s).hes θ p q a b = (2 * if p = q ∧ a = b then 1 else 0) / s ^ 2 := by
        show (if p ∈ pm ∧ p = q ∧ a = b then 2 / s ^ 2 else 0) = _
        simp only [h, true_and]
        split_ifs <;> simp
      rw [e3]
      exact h2
    · have e : (fun θ => (quadPen pr pm u s).der θ p a) = fun _ : Theta => 0 := by
        funext θ
        exact if_neg h
      rw [e]
      have e2 : (quadPen pr pm u s).hes θ p q a b = 0 := if_neg fun h' => h h'.1
      rw [e2]
      exact hasDerivAt_const _ _

end

end Verif.Tens
