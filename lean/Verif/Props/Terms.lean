import Verif.Lemmas.Terms
import Verif.Lemmas.Concave
import Verif.Props.Concave

/-!
# More constraints and penalties (C67, C68)

Scaled and shifted terms (`Linear([1]) - 3`, `0.5 * Quadratic()`), `Quadratic` and `Scalar` as constraints, and the residual of a constraint that is an
affine function of the parameters during a fit.
-/

set_option linter.unusedSectionVars false

namespace Verif.Tens
open Verif.Params
open NDArray

section
variable {pr : Problem} {m : Nat} {pm : List Nat} {f : TFunc ℝ} {val : Theta → ℝ} {der : Theta → Nat → Nat → ℝ} {hes : Theta → Nat → Nat → Nat → Nat → ℝ}

/-- **C67.** If `f = 0` is a constraint then so is `a * f + b = 0` for `a` not 0 (`Affine(f, a, b)`, what `a * f + b` and `f - b` build), for every `f`
whose `grad` and `hess` are not null functions. -/
theorem C67_affine_constraint (h : IsConstraint (cOrder pr m) ⟨pm, f⟩ val der) (hg : f.gradNull = false) (hh : f.hessNull = false) {a : ℝ} (ha : a ≠ 0) (b : ℝ) :
    IsConstraint (cOrder pr m) ⟨pm, affineT f a b⟩ (fun θ => a * val θ + b) (fun θ p e => a * der θ p e) :=
  constraint_affine h hg hh ha b

/-- **C67.** The same for penalties, for every `a` and `b`. -/
theorem C67_affine_penalty (h : IsPenalty (cOrder pr m) ⟨pm, f⟩ val der hes) (hg : f.gradNull = false) (hh : f.hessNull = false) (a b : ℝ) :
    IsPenalty (cOrder pr m) ⟨pm, affineT f a b⟩ (fun θ => a * val θ + b) (fun θ p e => a * der θ p e) (fun θ p q e e' => a * hes θ p q e e') :=
  penalty_affine h hg hh a b

/-- **C67.** The constraint that a weighted sum of the entries is `c`: `Linear(w) - c`. -/
theorem C67_linear_value (hne : pm ≠ []) (hlt : ∀ p ∈ pm, p < m) (hinc : pm.Pairwise (· < ·)) {w : List ℝ} (hw : w.length = pm.length) (c : ℝ) :
    IsConstraint (cOrder pr m) ⟨pm, affineT (linearT w) 1 (-c)⟩
      (fun θ => (∑ k ∈ Finset.range pm.length, ∑ a ∈ Finset.range (pr.sizes (pm.getD k 0)).prod, θ (pm.getD k 0) a * w.getD k 0) - c)
      (linCon pr pm w).der := by
  have h := constraint_affine (linear_isConstraint (pr := pr) hne hlt hinc hw) rfl rfl one_ne_zero (-c)
  simp only [one_mul] at h
  exact h

/-- **C67.** The penalty `λ` times the sum of squares: `λ * Quadratic(u, s)`. -/
theorem C67_quadratic_strength (hlt : ∀ p ∈ pm, p < m) (hinc : pm.Pairwise (· < ·)) (lam u : ℝ) {s : ℝ} (hs : s ≠ 0) :
    IsPenalty (cOrder pr m) ⟨pm, affineT (quadraticT u s) lam 0⟩
      (fun θ => lam * ∑ k ∈ Finset.range pm.length, ∑ a ∈ Finset.range (pr.sizes (pm.getD k 0)).prod, ((θ (pm.getD k 0) a - u) / s) ^ 2)
      (fun θ p a => lam * (quadPen pr pm u s).der θ p a) (fun θ p q a b => lam * (quadPen pr pm u s).hes θ p q a b) := by
  have h := penalty_affine (quadratic_isPenalty (pr := pr) hlt hinc (u := u) hs) rfl rfl lam 0
  simp only [add_zero] at h
  exact h

/-- `t.sum()` of a Tensor without value axes. -/
theorem sumAll_plain {r : Tensor ℝ} (hw : r.WF) (hn : r.n = 0) (hd : r.dim = 0) (hx : r.xMap = []) (hy : r.yMap = []) :
    ∃ s, (Num.tensor r).sumAll = .ok (.tensor s) ∧ s.values.ndim = r.values.ndim ∧ (∀ j < r.values.ndim, s.values.shape j = r.values.shape j) ∧
      ∀ x, s.values.bget x = r.values.bget x := by
  have h1 := hw.ndim
  refine ⟨⟨r.values.sumAxes [], r.xDim, r.yDim, 0, [], []⟩, ?_, rfl, fun j hj => ?_, fun x => ?_⟩
  · unfold Num.sumAll Num.sum
    dsimp only
    unfold Tensor.sum
    dsimp only
    rw [hn, hd, hx, hy]
    simp [sumSwapX, sumSwapY, sumCross, mkTensor]
    have : r.values.ndim = (r.values.sumAxes []).ndim := rfl
    rw [if_neg (by rw [← this]; omega)]
  · show r.values.shape _ = _
    congr 1
    simp [hj]
  · have e : ∀ j < r.values.ndim, (r.values.sumAxes []).shape j = r.values.shape j := by
      intro j hj
      show r.values.shape _ = _
      congr 1
      simp [hj]
    show (r.values.sumAxes []).get _ = r.values.get _
    unfold NDArray.sumAxes
    rw [mk_get]
    show r.values.get _ = _
    apply r.values.get_congr
    intro j hj
    have e := e j hj
    unfold NDArray.sumAxes at e
    dsimp only at e
    simp [hj] at e ⊢

/-- A penalty whose derivatives are stored with all entries is a constraint as well. -/
theorem penalty_constraint {t : TTerm ℝ} (h : IsPenalty (cOrder pr m) t val der hes) (hne : t.paramMap ≠ [])
    (hG : ∀ θ args, (cOrder pr m).IsArgs θ t.paramMap args → ∀ G : Nat → Num ℝ, t.f.grads args = .ok (row t.paramMap.length fun k => .arr (G k)) →
      ∀ k < t.paramMap.length, ∀ r, G k = .tensor r → r.xDim = pr.nd (t.paramMap.getD k 0)) :
    IsConstraint (cOrder pr m) t val der where
  ne := hne
  lt := h.lt
  inc := h.inc
  call := h.call
  grad θ args hA := by
    obtain ⟨G, g1, g2⟩ := h.grad θ args hA
    have hx := hG θ args hA G g1
    have : ∀ k, ∃ r : Tensor ℝ, k < t.paramMap.length → G k = .tensor r := by
      intro k
      by_cases hk : k < t.paramMap.length
      · obtain ⟨r, hr, -⟩ := g2 k hk
        exact ⟨r, fun _ => hr⟩
      · exact ⟨Tensor.const 0, fun c => absurd c hk⟩
    choose T hT using this
    refine ⟨T, ?_, fun k hk => ?_⟩
    · rw [g1]
      congr 1
      unfold row
      exact List.map_congr_left fun k hk => by rw [hT k (List.mem_range.1 hk)]
    · obtain ⟨r, hr, a1, a2, a3, a4, a5, ⟨a6, a7, a8⟩, a9⟩ := g2 k hk
      have hx := hx k hk r hr
      rw [hT k hk] at hr
      cases hr
      obtain ⟨s, s1, s2, s3, s4⟩ := sumAll_plain a1 a4 a5 a6 a7
      have hnd : (T k).values.ndim = pr.nd (t.paramMap.getD k 0) := by
        have h1 := a1.ndim
        have h4 := a4
        unfold Tensor.n at h4
        omega
      refine ⟨s, s1, by rw [s2, hnd], fun j hj => ?_, fun a hE => ?_⟩
      · rw [s2] at hj
        rw [s3 j hj]
        exact a8 j (by rw [hx, ← hnd]; exact hj)
      · have := a9 a ⟨(cOrder pr m).e (t.paramMap.getD k 0) a, fun _ => 0, fun _ => 0, fun _ => 0⟩ rfl hE
        unfold Tensor.dense at this
        rw [a6, a7, if_pos ⟨fun k hk => absurd hk (Nat.not_lt_zero k), fun k hk => absurd hk (Nat.not_lt_zero k)⟩] at this
        rw [s4, ← this]
        apply (T k).values.bget_congr'
        intro j hj
        unfold Tensor.flat Tens.flat
        rw [if_pos (by omega)]
  hess θ args hA := by
    obtain ⟨H, h1, h2⟩ := h.hess θ args hA
    have : ∀ k l, ∃ r : Tensor ℝ, k < t.paramMap.length → l ≤ k → H k l = .tensor r := by
      intro k l
      by_cases hk : k < t.paramMap.length ∧ l ≤ k
      · obtain ⟨r, hr, -⟩ := h2 k hk.1 l hk.2
        exact ⟨r, fun _ _ => hr⟩
      · exact ⟨Tensor.const 0, fun c c' => absurd ⟨c, c'⟩ hk⟩
    choose U hU using this
    refine ⟨U, ?_⟩
    rw [h1]
    congr 1
    unfold triangle row
    exact List.map_congr_left fun k hk => List.map_congr_left fun l hl => by
      beta_reduce
      rw [hU k l (List.mem_range.1 hk) (by have := List.mem_range.1 hl; omega)]
  zero := h.zero
  partials := h.partials

/-- **C67.** `Quadratic` as a constraint, for example `Quadratic(0, 1) - c`: the sum of squares of the entries is `c`. -/
theorem C67_quadratic_constraint (hne : pm ≠ []) (hlt : ∀ p ∈ pm, p < m) (hinc : pm.Pairwise (· < ·)) (u c : ℝ) {s : ℝ} (hs : s ≠ 0) :
    IsConstraint (cOrder pr m) ⟨pm, affineT (quadraticT u s) 1 (-c)⟩
      (fun θ => (∑ k ∈ Finset.range pm.length, ∑ a ∈ Finset.range (pr.sizes (pm.getD k 0)).prod, ((θ (pm.getD k 0) a - u) / s) ^ 2) - c)
      (quadPen pr pm u s).der := by
  have h0 : IsConstraint (cOrder pr m) ⟨pm, quadraticT u s⟩ (quadPen pr pm u s).val (quadPen pr pm u s).der := by
    refine penalty_constraint (quadratic_isPenalty hlt hinc hs) hne fun θ args hA G hG k hk r hr => ?_
    have hG := grads_inv hA.1 hG k hk
    obtain ⟨v, rfl, hv⟩ := args_arrays (pm := pm) hA
    have hk : k < pm.length := hk
    obtain ⟨t, r', h1, h2, h3, h4, -⟩ := diag_sum ((v k).map fun x => 2 * ((x - u) / s) / s) (y := 0) (Or.inl rfl)
    rw [← gradTensor_diag] at h1
    have hd : ((v k).map fun x => 2 * ((x - u) / s) / s).ndim = (v k).ndim := rfl
    rw [hd] at h1 h4
    have e : (quadraticT u s).grad (row pm.length fun k => (⟨v k, 0, 0, 0, [], []⟩ : Tensor ℝ)) k = .ok (.arr (.tensor r')) := by
      show (do
        let p ← pick (row pm.length fun k => (⟨v k, 0, 0, 0, [], []⟩ : Tensor ℝ)) k
        let t ← gradTensor (p.values.map fun v => 2 * ((v - u) / s) / s) p.values.ndim .diag 0
        ((Num.tensor t).sumAll).map Py.arr) = _
      rw [pick_range hk, ok_bind']
      dsimp only
      rw [h1, ok_bind', h2]
      rfl
    have hG : (quadraticT u s).grad (row pm.length fun k => (⟨v k, 0, 0, 0, [], []⟩ : Tensor ℝ)) k = .ok (.arr (G k)) := hG
    rw [e, hr] at hG
    cases hG
    rw [h4]
    exact (hv k hk).1
  have h := constraint_affine h0 rfl rfl one_ne_zero (-c)
  simp only [one_mul] at h
  exact h

/-- **C67.** `Scalar()` as a constraint: a parameter without axes is 0. -/
theorem C67_scalar_constraint {p : Nat} (hp : p < m) (h0 : pr.nd p = 0) :
    IsConstraint (cOrder pr m) ⟨[p], scalarT⟩ (fun θ => θ p 0) (fun _ q a => if p = q ∧ 0 = a then 1 else 0) where
  ne := by simp
  lt q hq := by rw [List.mem_singleton.1 hq]; exact hp
  inc := List.pairwise_singleton _ _
  call θ args hA := by
    obtain ⟨h1, h2⟩ := hA
    obtain ⟨v, v1, v2, v3, v4⟩ := h2 0 (by simp)
    have v2 : v.ndim = pr.nd p := v2
    refine ⟨.arr (.tensor ⟨v, 0, 0, 0, [], []⟩), ?_, Or.inr ⟨_, rfl, _, rfl, Tensor.wf_nomap (by simp), by show v.ndim = 0; omega, ?_⟩⟩
    · show (do let p ← pick args 0; ofArray p.values 0) = _
      unfold pick
      rw [v1]
      rfl
    · have := v4 0 ?_
      · refine (v.get_congr fun k hk => ?_).trans this
        omega
      · rw [entry_iff]
        show 0 < (pr.sizes p).prod
        unfold Problem.sizes
        simp [h0]
  grad θ args hA := by
    refine ⟨fun _ => Tensor.const 1, grads_of rfl hA.1 fun _ _ => rfl, fun k hk => ?_⟩
    have hk : k = 0 := by simp at hk; exact hk
    subst hk
    obtain ⟨s, s1, s2, s3, s4⟩ := sumAll_plain (r := Tensor.const 1) (Tensor.wf_nomap (by simp)) rfl rfl rfl rfl
    refine ⟨s, s1, ?_, fun j hj => ?_, fun a hE => ?_⟩
    · rw [s2]; exact h0.symm
    · rw [s2] at hj; exact absurd hj (Nat.not_lt_zero j)
    · rw [s4]
      have : a = 0 := by
        rw [entry_iff] at hE
        have hE : a < (pr.sizes p).prod := hE
        unfold Problem.sizes at hE
        simpa [h0] using hE
      rw [this]
      simp
      rfl
  hess θ args hA := ⟨fun _ _ => Tensor.const 0, hesses_of rfl hA.1 fun _ _ _ _ => rfl⟩
  zero θ q a hq := if_neg fun h => hq (by simp [h.1])
  partials θ q hq a hE := by
    have := hasPartial_coord θ q a p 0
    exact this

/-- **C67, finding.** The constraint `Scalar() - c` (or `Scalar() + c`, `a * Scalar()`) cannot be used: `Affine.__init__` replaces `hess` by a function that returns one
`Tensor(0)` also when all second derivatives are asked for, and `flat_hess` raises TypeError when it takes `hess_g[i][j]`, whatever the model and the data. -/
theorem C67_shifted_scalar_counterexample {p : Nat} (hp : p < m) (a b : ℝ) {θ : Theta} {params : List (Param ℝ)} (hat : AtPoint pr m θ params)
    (hl : List (List (Num ℝ))) (rs : List (TTerm ℝ)) : flatHessT params hl [⟨[p], affineT scalarT a b⟩] rs = .error .typeError := by
  obtain ⟨args, a1, a2⟩ := args_ok hat (pm := [p]) (by intro q hq; rw [List.mem_singleton.1 hq]; exact hp)
  have hg : ∃ gg, (affineT (scalarT (α := ℝ)) a b).grads args = .ok gg := by
    rw [grads_eq rfl]
    unfold gradAll
    obtain ⟨w, hw⟩ : ∃ w, Py.mul (.num a) (.arr (.tensor (Tensor.const (1 : ℝ)))) = .ok w := by
      obtain ⟨w, hw, -⟩ := isVal_mul (v := .arr (.tensor (Tensor.const 1))) (c := 1) a (Or.inr ⟨_, rfl, _, rfl, Tensor.wf_nomap (by simp), rfl, rfl⟩)
      exact ⟨w, hw⟩
    refine ⟨_, mapM_list (g := fun _ => w) fun k _ => ?_⟩
    rw [affine_grad (f := scalarT) rfl a b args k rfl, hw]
  obtain ⟨gg, hg⟩ := hg
  have hh : (affineT (scalarT (α := ℝ)) a b).hesses args = .error .typeError := rfl
  unfold flatHessT hessCons
  dsimp only
  rw [a1, ok_bind', hg, ok_bind', hh]
  rfl

end

/-! ### the residual of an affine constraint during a fit -/

section
variable {pr : Problem} {m : Nat} {dom : Theta → Prop} {M : MaxLikeT ℝ} {L : Theta → ℝ} {gs : List Con} {φs : List Pen} {T : ℝ}
variable {pinvh : List (List ℝ) → Except Err (List (List ℝ))} {tol : ℝ}

/-- The constraint is an affine function of the entries of the parameters. -/
def Con.Affine (pr : Problem) (m : Nat) (g : Con) : Prop :=
  ∀ θ θ', g.val θ' = g.val θ + ∑ p ∈ Finset.range m, ∑ a ∈ Finset.range (pr.sizes p).prod, g.der θ p a * (θ' p a - θ p a)

theorem Con.Affine.congr {g : Con} (hg : g.Affine pr m) {θ θ' : Theta} (h : ∀ p < m, ∀ a < (pr.sizes p).prod, θ' p a = θ p a) : g.val θ' = g.val θ := by
  rw [hg θ θ', Finset.sum_eq_zero, add_zero]
  intro p hp
  refine Finset.sum_eq_zero fun a ha => ?_
  rw [h p (Finset.mem_range.1 hp) a (Finset.mem_range.1 ha), sub_self, mul_zero]

theorem AtPoint.same {θ : Theta} {ps : List (Param ℝ)} (h : AtPoint pr m θ ps) : ∀ p < m, ∀ a < (pr.sizes p).prod, pointOf ps p a = θ p a := by
  intro p hp a ha
  obtain ⟨q, q1, q2, q3, q4, q5⟩ := h.each p hp
  unfold pointOf
  rw [q1, ← q5 a (by rw [q2]; exact ha)]
  rfl

theorem pointOf_entry (ps : List (Param ℝ)) (p a : Nat) : pointOf ps p a = (entry ps p a).getD 0 := by
  unfold pointOf entry
  cases ps[p]? with
  | none => simp
  | some q => simp [List.getD_eq_getElem?_getD]

/-- **C68.** For a constraint that is an affine function of the parameters (such as `Linear(w) - c`, or a multiple of it): its residual is at no point that `fit` tries,
nor at the parameters that it stores, larger than at the start; if the start satisfies the constraint then so do all these points. -/
theorem C68_affine_constraints (hM : Solver pr m dom M L gs φs T) {θ : Theta} (hθ : dom θ) {o : Fit.Obj ℝ (List (List ℝ))}
    (hat : AtPoint pr m θ o.params) (hF : 1 ≤ totalFree o.params) {maxSteps verbose : Nat}
    (hdom : ∀ tr ∈ (Fit.fit (M.env pinvh tol) o maxSteps verbose .newton).trace, ∀ q ∈ tr, ∃ θ', dom θ' ∧ AtPoint pr m θ' q)
    {g : Con} (hg : g ∈ gs) (hA : g.Affine pr m) :
    (∀ tr ∈ (Fit.fit (M.env pinvh tol) o maxSteps verbose .newton).trace, ∀ q ∈ tr, ∀ θ', AtPoint pr m θ' q → |g.val θ'| ≤ |g.val θ|) ∧
    (∀ θ', AtPoint pr m θ' (Fit.fit (M.env pinvh tol) o maxSteps verbose .newton).obj.params → |g.val θ'| ≤ |g.val θ|) ∧
    (g.val θ = 0 → (∀ tr ∈ (Fit.fit (M.env pinvh tol) o maxSteps verbose .newton).trace, ∀ q ∈ tr, ∀ θ', AtPoint pr m θ' q → g.val θ' = 0) ∧
      ∀ θ', AtPoint pr m θ' (Fit.fit (M.env pinvh tol) o maxSteps verbose .newton).obj.params → g.val θ' = 0) := by
  have hwf := hat.wf
  have hsc : Flat.Scales (M.env pinvh tol) (fun ps => g.val (pointOf ps)) o.params fun ps => ∃ θ', dom θ' ∧ AtPoint pr m θ' ps := by
    rintro flat hfl ⟨θ1, d1, a1⟩ step gr gg J hs
    have hlay : SameLayout (place o.params flat (Flat.fixedVals o.params)) o.params := place_layout _ _ _
    have hfx : totalFixed o.params ≤ (Flat.fixedVals o.params).length := by unfold Flat.fixedVals; rw [fixed_length _ hwf]
    obtain ⟨D, H, -, hst⟩ := C68_newton_step hM
    rcases hst pinvh tol _ d1 _ a1 (by rw [Flat.SameLayout.totalFree hlay]; exact hF) with ⟨s, μ, v, J, e, n1, -⟩ | ⟨e, -⟩
    · rw [hs] at e
      cases e
      have hlen : step.length = totalFree o.params := by rw [n1.len, Flat.SameLayout.totalFree hlay]
      refine ⟨hlen, fun x => ?_⟩
      obtain ⟨k, hk⟩ := List.mem_iff_getElem?.1 hg
      have hfe := n1.feasible k (g.der θ1) (g.val θ1) (by rw [List.getElem?_map, hk]; rfl) (by rw [List.getElem?_map, hk]; rfl)
      beta_reduce
      rw [hA.congr (θ := θ1) a1.same, hA θ1]
      have hfl' : (List.zipWith (· - ·) flat (step.map (x * ·))).length = totalFree o.params := by
        rw [List.length_zipWith, List.length_map, hfl, hlen, min_self]
      have hfix : ∀ i a, isFixed (place o.params flat (Flat.fixedVals o.params)) i a →
          pointOf (place o.params (List.zipWith (· - ·) flat (step.map (x * ·))) (Flat.fixedVals o.params)) i a = θ1 i a := by
        intro i a hf
        have hf' : isFixed o.params i a := Fit.SameLayout.isFixed hlay.symm hf
        obtain ⟨q, q1, q2⟩ := hf
        have l1 := (List.getElem?_eq_some_iff.1 q1).1
        have l2 := (List.getElem?_eq_some_iff.1 q2).1
        rw [a1.len] at l1
        obtain ⟨q', r1, r2, r3, -⟩ := a1.each i l1
        rw [q1] at r1
        cases r1
        rw [r3, r2] at l2
        rw [← a1.same i l1 a l2, pointOf_entry, pointOf_entry]
        congr 1
        exact (place_entry_fixed_self _ _ hwf (by omega) i a hf').trans (place_entry_fixed_self _ _ hwf (by omega) i a hf').symm
      have hall := allSum_free (pr := pr) a1 (F := fun p a => g.der θ1 p a *
        (pointOf (place o.params (List.zipWith (· - ·) flat (step.map (x * ·))) (Flat.fixedVals o.params)) p a - θ1 p a)) (fun i a hf => by rw [hfix i a hf, sub_self, mul_zero])
      unfold allSum at hall
      rw [hall]
      have hfree : freeSum (place o.params flat (Flat.fixedVals o.params)) (fun p a => g.der θ1 p a *
          (pointOf (place o.params (List.zipWith (· - ·) flat (step.map (x * ·))) (Flat.fixedVals o.params)) p a - θ1 p a)) =
          -x * freeSum (place o.params flat (Flat.fixedVals o.params)) (fun j b => g.der θ1 j b * step.getD (freeRank (place o.params flat (Flat.fixedVals o.params)) j b) 0) := by
        unfold freeSum
        rw [Finset.mul_sum]
        refine Finset.sum_congr rfl fun i _ => ?_
        rw [Finset.mul_sum]
        refine Finset.sum_congr rfl fun a _ => ?_
        split_ifs with hf
        · obtain ⟨l1, l2⟩ := a1.free hf
          have hf' := (layout_free hlay).1 hf
          beta_reduce
          rw [← a1.same i l1 a l2, pointOf_entry, pointOf_entry, place_entry_free _ _ _ (by omega) hfx i a hf', place_entry_free _ _ _ (by omega) hfx i a hf',
            layout_rank hlay]
          have hr := freeRank_lt _ _ _ hf'
          rw [List.getElem?_eq_getElem (by omega), List.getElem?_eq_getElem (by omega), List.getElem_zipWith, List.getElem_map, List.getD_eq_getElem _ _ (by omega)]
          simp only [Option.getD_some]
          ring
        · rw [mul_zero]
      rw [hfree, hfe]
      ring
    · rw [hs] at e; cases e
  have h := Flat.residual_of_scales (M.env pinvh tol) _ rfl rfl verbose maxSteps o _ hsc hwf ⟨θ, hθ, hat⟩ hdom
  have e : ∀ {θ' : Theta} {q : List (Param ℝ)}, AtPoint pr m θ' q → g.val (pointOf q) = g.val θ' := fun ha => hA.congr ha.same
  rw [e hat] at h
  refine ⟨fun tr ht q hq θ' ha => ?_, fun θ' ha => ?_, fun h0 => ⟨fun tr ht q hq θ' ha => ?_, fun θ' ha => ?_⟩⟩
  · rw [← e ha]; exact h.1 tr ht q hq
  · rw [← e ha]; exact h.2.1
  · rw [← e ha]; exact (h.2.2 h0).1 tr ht q hq
  · rw [← e ha]; exact (h.2.2 h0).2

/-- `Linear(w) - c` is an affine function of the parameters. -/
theorem C68_linear_value_affine {pm : List Nat} (hn : pm.Nodup) (hlt : ∀ p ∈ pm, p < m) (w : List ℝ) (c : ℝ) :
    Con.Affine pr m ⟨fun θ => (linCon pr pm w).val θ - c, (linCon pr pm w).der⟩ := by
  intro θ θ'
  have h := lin_diff (pr := pr) hn hlt w θ θ'
  unfold allSum at h
  dsimp only
  rw [← h]
  ring

/-- A concrete problem: test_poisson_sum with the constraint that the entries of the first two parameters add to `c` (`Linear([1, 1]) - c`).  From a start point
with that sum, the sum is `c` at all points that the fit tries and at the parameters that it stores, for all data. -/
theorem C68_example_value {s : Nat} (hs : s ≠ 0) {X Nw : Num ℝ} (hX : (square s).IsData X) (hN : (square s).IsData Nw) (hT : ∑ c, (square s).val Nw c ≠ 0) (c : ℝ)
    {θ : Theta} {o : Fit.Obj ℝ (List (List ℝ))} (hat : AtPoint (square s) 3 θ o.params) (hF : 1 ≤ totalFree o.params) {maxSteps verbose : Nat}
    (h0 : ∑ k ∈ Finset.range 2, ∑ a ∈ Finset.range ((square s).sizes k).prod, θ k a = c) {r : Fit.Result ℝ (List (List ℝ))}
    (hr : r = Fit.fit (MaxLikeT.env ⟨composeT logT [bothModel], PoissonT.like X Nw, PoissonT.gradLike X Nw, PoissonT.hessLike X Nw, Nw,
        [⟨[0, 1], affineT (linearT [1, 1]) 1 (-c)⟩], []⟩ pinvh tol) o maxSteps verbose .newton) :
    (∀ tr ∈ r.trace, ∀ q ∈ tr, ∀ θ', AtPoint (square s) 3 θ' q → ∑ k ∈ Finset.range 2, ∑ a ∈ Finset.range ((square s).sizes k).prod, θ' k a = c) ∧
    ∀ θ', AtPoint (square s) 3 θ' r.obj.params → ∑ k ∈ Finset.range 2, ∑ a ∈ Finset.range ((square s).sizes k).prod, θ' k a = c := by
  subst hr
  let g : Con := ⟨fun θ => (linCon (square s) [0, 1] [1, 1]).val θ - c, (linCon (square s) [0, 1] [1, 1]).der⟩
  have hM : Solver (square s) 3 (fun _ => True) ⟨composeT logT [bothModel], PoissonT.like X Nw, PoissonT.gradLike X Nw, PoissonT.hessLike X Nw, Nw,
        [⟨[0, 1], affineT (linearT [1, 1]) 1 (-c)⟩], []⟩
      (fun θ => Like.Poisson.like ((square s).val X) ((square s).val Nw) (valCell (square s)
        (fun θ n _ => Real.log (Real.exp (θ 0 (n 0) - θ 1 (n 1) + θ 2 0) + Real.exp (θ 0 (n 1) - θ 1 (n 0) - θ 2 0))) θ))
      [g] [] (∑ c, (square s).val Nw c) :=
    C68_solver_poisson (square_ok hs) hX hN (by omega) (poisson_sum_computes hs) rfl trivial (fun _ _ => trivial) hT
      (.cons (C67_linear_value (by simp) (by simp) (by simp) (by simp) c) .nil) .nil
  have hd := tried_dom (dom := fun _ => True) (by omega : 0 < 3) (fun _ => trivial) (MaxLikeT.env ⟨composeT logT [bothModel], PoissonT.like X Nw, PoissonT.gradLike X Nw, PoissonT.hessLike X Nw, Nw,
    [⟨[0, 1], affineT (linearT [1, 1]) 1 (-c)⟩], []⟩ pinvh tol) hat (maxSteps := maxSteps) (verbose := verbose)
  have e : ∀ θ, g.val θ = (∑ k ∈ Finset.range 2, ∑ a ∈ Finset.range ((square s).sizes k).prod, θ k a) - c := fun θ => by
    simp [g, linCon, Finset.sum_range_succ]
  have h := (C68_affine_constraints hM trivial hat hF hd (g := g) (by simp) (C68_linear_value_affine (by simp) (by simp) _ c)).2.2 (by rw [e, h0, sub_self])
  refine ⟨fun tr ht q hq θ' ha => ?_, fun θ' ha => ?_⟩
  · have := h.1 tr ht q hq θ' ha
    rw [e] at this
    linarith
  · have := h.2 θ' ha
    rw [e] at this
    linarith

end

end Verif.Tens
