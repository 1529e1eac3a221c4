import Verif.Lemmas.FitFull
import Verif.Props.FlatTensor
import Verif.Props.FitTermination
import Verif.Props.Constraint

/-!
# C68: `fit` with a model on Tensors
-/

set_option linter.unusedSectionVars false

namespace Verif.Tens
open Verif.Params

variable {G Y D H N : Type} {pr : Problem} {m : Nat} {dom : Theta → Prop} {L : Theta → ℝ} {M : MaxLikeT ℝ} {gs : List Con} {φs : List Pen} {T : ℝ}
  {pinvh : List (List ℝ) → Except Err (List (List ℝ))} {tol : ℝ}

theorem AtPoint.wf {θ : Theta} {params : List (Param ℝ)} (h : AtPoint pr m θ params) : ∀ p ∈ params, p.WF := by
  intro p hp
  obtain ⟨i, hi⟩ := List.mem_iff_getElem?.1 hp
  have := (List.getElem?_eq_some_iff.1 hi).1
  obtain ⟨q, q1, q2, q3, q4, -⟩ := h.each i (by rw [← h.len]; exact this)
  rw [hi] at q1
  cases q1
  exact ⟨q4, q3⟩

theorem AtPoint.masks {θ : Theta} {params : List (Param ℝ)} (h : AtPoint pr m θ params) : ∀ p ∈ params, p.mask.length = p.shape.prod :=
  fun p hp => (h.wf p hp).2

theorem AtPoint.ne {θ : Theta} {params : List (Param ℝ)} (h : AtPoint pr m θ params) (hm : 0 < m) : params ≠ [] := by
  intro e
  have := h.len
  rw [e] at this
  simp at this
  omega

theorem AtPoint.free {θ : Theta} {params : List (Param ℝ)} (h : AtPoint pr m θ params) {i a : Nat} (hf : isFree params i a) :
    i < m ∧ a < (pr.sizes i).prod := by
  obtain ⟨p, hp, ha⟩ := hf
  have h1 := (List.getElem?_eq_some_iff.1 hp).1
  have h2 := (List.getElem?_eq_some_iff.1 ha).1
  rw [h.len] at h1
  obtain ⟨q, q1, q2, q3, -⟩ := h.each i h1
  rw [hp] at q1
  cases q1
  rw [q3, q2] at h2
  exact ⟨h1, h2⟩

/-- The values of the parameters, as a point. -/
noncomputable def pointOf (ps : List (Param ℝ)) : Theta := fun p a => ((ps[p]?.map fun q => q.values).getD []).getD a 0

theorem AtPoint.layout {θ : Theta} {params ps : List (Param ℝ)} (h : AtPoint pr m θ params) (hl : SameLayout ps params) (hw : ∀ p ∈ ps, p.WF) :
    AtPoint pr m (pointOf ps) ps := by
  have hlen : ps.length = params.length := by
    have := congrArg List.length hl
    simpa using this
  refine ⟨hlen.trans h.len, fun p hp => ?_⟩
  obtain ⟨q, q1, q2, -⟩ := h.each p hp
  have hp' : p < ps.length := by rw [hlen, h.len]; exact hp
  have e := congrArg (fun l => l[p]?) hl
  simp only [List.getElem?_map, q1, List.getElem?_eq_getElem hp', Option.map_some, Option.some.injEq, Prod.mk.injEq] at e
  have hwf := hw _ (List.getElem_mem hp')
  refine ⟨ps[p], List.getElem?_eq_getElem hp', by rw [e.1, q2], hwf.2, hwf.1, fun a _ => ?_⟩
  unfold pointOf
  rw [List.getElem?_eq_getElem hp']
  rfl

/-- **C68.** The objective that `fit` maximises is the penalised log-likelihood divided by the total weight of the data. -/
theorem C68_objective (hM : Solver pr m dom M L gs φs T) {θ : Theta} (hθ : dom θ) {params : List (Param ℝ)} (hat : AtPoint pr m θ params) :
    Fit.objective (M.env pinvh tol) params = .ok (penalised L φs θ / T) :=
  objective_ok hM pinvh tol hθ hat

/-- The first and second derivatives of the problem. -/
structure Derivs (pr : Problem) (m : Nat) (dom : Theta → Prop) (P : Theta → ℝ) (D : Theta → Nat → Nat → ℝ) (H : Theta → Nat → Nat → Nat → Nat → ℝ) : Prop where
  first : ∀ θ, dom θ → ∀ p < m, ∀ a < (pr.sizes p).prod, HasPartial P θ p a (D θ p a)
  second : ∀ θ, dom θ → ∀ p < m, ∀ q ≤ p, ∀ a < (pr.sizes p).prod, ∀ b < (pr.sizes q).prod, HasPartial (fun θ => D θ p a) θ q b (H θ p q a b)

/-- `newton_step` up to the linear system: the system that is solved. -/
theorem newton_red (hM : Solver pr m dom M L gs φs T) : ∃ D H, Derivs pr m dom (penalised L φs) D H ∧
    ∀ pinvh tol, ∀ θ, dom θ → ∀ params, AtPoint pr m θ params → ∃ v J,
      FlatGradIs params (D θ) (gs.map fun c => c.val θ) v ∧ FlatHessIs params (H θ) (gs.map fun c => c.der θ) J ∧
      Fit.newtonStep (M.env pinvh tol) params = (do
        let step ← exactSolve J v
        let i ← Fit.stepCut M.constraint.length step.length
        pure (step.take i, penalised L φs θ / T, v, J)) := by
  obtain ⟨D, H, h1, h2, -, h4⟩ := C67_flat hM.pos hM.fit hM.whole hM.constraints hM.penalties
  refine ⟨D, H, ⟨h1, h2⟩, fun pinvh tol θ hθ params hat => ?_⟩
  obtain ⟨⟨v, v1, v2⟩, J, j1, j2⟩ := h4 θ hθ params hat
  obtain ⟨y, der, h, e1, e2, e3, e4⟩ := parts_ok hM pinvh tol hθ hat
  refine ⟨v, J, v2, j2, ?_⟩
  unfold Fit.newtonStep
  show (evalT M params >>= fun x => _) = _
  rw [e1, ok_bind']
  show (objT M params y >>= fun x => _) = _
  rw [e2, ok_bind', e3, v1, ok_bind', e4, j1, ok_bind']
  rfl

/-- **C68.** One Newton step: it is the part for the free entries of the unique solution of the system of the first and second derivatives of the penalised
log-likelihood, bordered with the derivatives of the constraints.  If the system has no unique solution then `newton_step` raises `LinAlgError`; it does not raise
anything else. -/
theorem C68_newton_step (hM : Solver pr m dom M L gs φs T) : ∃ D H, Derivs pr m dom (penalised L φs) D H ∧
    ∀ pinvh tol, ∀ θ, dom θ → ∀ params, AtPoint pr m θ params → 1 ≤ totalFree params →
      (∃ step μ v J, Fit.newtonStep (M.env pinvh tol) params = .ok (step, penalised L φs θ / T, v, J) ∧
        NewtonStep params (D θ) (H θ) (gs.map fun c => c.der θ) (gs.map fun c => c.val θ) step μ ∧
        ∀ step' μ', NewtonStep params (D θ) (H θ) (gs.map fun c => c.der θ) (gs.map fun c => c.val θ) step' μ' → step' = step ∧ μ' = μ) ∨
      Fit.newtonStep (M.env pinvh tol) params = .error .linAlg ∧
        ¬ ∃! x : List ℝ × List ℝ, NewtonStep params (D θ) (H θ) (gs.map fun c => c.der θ) (gs.map fun c => c.val θ) x.1 x.2 := by
  obtain ⟨D, H, hD, hred⟩ := newton_red hM
  refine ⟨D, H, hD, fun pinvh tol θ hθ params hat hF => ?_⟩
  obtain ⟨v, J, v2, j2, red⟩ := hred pinvh tol θ hθ params hat
  have hlen : M.constraint.length = gs.length := hM.constraints.length_eq
  have hsys : ∀ x, Flat.Solves J x v ↔ x.length = totalFree params + gs.length ∧
      NewtonStep params (D θ) (H θ) (gs.map fun c => c.der θ) (gs.map fun c => c.val θ) (x.take (totalFree params)) (x.drop (totalFree params)) := by
    intro x
    rw [v2.eq, j2.eq, system_iff hat.masks (by simp)]
    simp
  have join : ∀ {s μ}, NewtonStep params (D θ) (H θ) (gs.map fun c => c.der θ) (gs.map fun c => c.val θ) s μ → Flat.Solves J (s ++ μ) v := by
    intro s μ hs
    have l1 := hs.len
    have l2 := hs.multipliers
    rw [hsys]
    rw [List.length_map] at l2
    refine ⟨by rw [List.length_append]; omega, ?_⟩
    rw [← l1, List.take_left, List.drop_left]
    exact hs
  rw [red]
  unfold exactSolve
  split_ifs with hx
  · left
    obtain ⟨s1, s2⟩ := hx.choose_spec
    generalize hx.choose = x at s1 s2
    obtain ⟨l1, n1⟩ := (hsys x).1 s1
    refine ⟨x.take (totalFree params), x.drop (totalFree params), v, J, ?_, n1, fun s' μ' hs => ?_⟩
    · rw [ok_bind', hlen, l1, Fit.C12_step_cut _ _ hF, ok_bind']
      rfl
    · have := s2 _ (join hs)
      rw [← this, ← hs.len, List.take_left, List.drop_left]
      exact ⟨rfl, rfl⟩
  · right
    refine ⟨rfl, fun ⟨⟨s, μ⟩, s1, s2⟩ => hx ⟨s ++ μ, join s1, fun x hxs => ?_⟩⟩
    obtain ⟨l1, n1⟩ := (hsys x).1 hxs
    have := s2 (x.take (totalFree params), x.drop (totalFree params)) n1
    rw [Prod.mk.injEq] at this
    rw [← this.1, ← this.2, List.take_append_drop]

theorem hasPartial_unique {F : Theta → ℝ} {θ : Theta} {p a : Nat} {x y : ℝ} (h : HasPartial F θ p a x) (h' : HasPartial F θ p a y) : x = y :=
  HasDerivAt.unique h h'

theorem hasPartial_mul_const {F : Theta → ℝ} {θ : Theta} {p a : Nat} {x : ℝ} (h : HasPartial F θ p a x) (c : ℝ) :
    HasPartial (fun θ => F θ * c) θ p a (x * c) := HasDerivAt.mul_const h c

theorem freeSum_zero {params : List (Param ℝ)} {F : Nat → Nat → ℝ} (h : ∀ i a, F i a = 0) : freeSum params F = 0 := by
  unfold freeSum
  refine Finset.sum_eq_zero fun i _ => Finset.sum_eq_zero fun a _ => ?_
  split_ifs
  · exact h i a
  · rfl

theorem zip_map_sum (gs : List Con) (μ : List ℝ) (θ : Theta) (i a : Nat) :
    (((gs.map fun c => c.der θ).zip μ).map fun x => x.1 i a * x.2).sum = ((gs.zip μ).map fun x => x.1.der θ i a * x.2).sum := by
  rw [List.zip_map_left, List.map_map]
  rfl

/-- The multipliers of a step that is 0 are those of the first order conditions. -/
theorem lagrange {D : Theta → Nat → Nat → ℝ} {H : Theta → Nat → Nat → Nat → Nat → ℝ} (hD : Derivs pr m dom (penalised L φs) D H)
    (hM : Solver pr m dom M L gs φs T) {θ : Theta} (hθ : dom θ) {params : List (Param ℝ)} (hat : AtPoint pr m θ params) (μ : List ℝ) {i a : Nat}
    (hf : isFree params i a) : HasPartial (fun θ => penalised L φs θ - ((gs.zip μ).map fun x => x.1.val θ * x.2).sum) θ i a
      (D θ i a - ((gs.zip μ).map fun x => x.1.der θ i a * x.2).sum) := by
  obtain ⟨hi, ha⟩ := hat.free hf
  refine hasPartial_sub (hD.first θ hθ i hi a ha) (hasPartial_list (F := fun (x : Con × ℝ) θ => x.1.val θ * x.2)
    (F' := fun x => x.1.der θ i a * x.2) fun x hx => hasPartial_mul_const ?_ _)
  obtain ⟨t, ht⟩ := forall₂_right hM.constraints x.1 (List.of_mem_zip hx).1
  exact ht.partials θ i hi a (entry_iff.2 ha)

/-- **C68.** The Newton step is 0 exactly at the points that satisfy the first order conditions of the constrained problem. -/
theorem C68_step_zero_iff (hM : Solver pr m dom M L gs φs T) {θ : Theta} (hθ : dom θ) {params : List (Param ℝ)} (hat : AtPoint pr m θ params)
    (hF : 1 ≤ totalFree params) {step v : List ℝ} {g : ℝ} {J : List (List ℝ)} (h : Fit.newtonStep (M.env pinvh tol) params = .ok (step, g, v, J)) :
    (∀ x ∈ step, x = 0) ↔ FirstOrder params (penalised L φs) gs θ := by
  obtain ⟨D, H, hD, hs⟩ := C68_newton_step hM
  rcases hs pinvh tol θ hθ params hat hF with ⟨step', μ, v', J', e, n1, n2⟩ | ⟨e, -⟩
  · rw [h] at e
    cases e
    constructor
    · intro h0
      have hz : ∀ k, step.getD k 0 = 0 := by
        intro k
        rw [List.getD_eq_getElem?_getD]
        rcases hk : step[k]? with _ | x
        · rfl
        · exact h0 x (List.mem_of_getElem? hk)
      refine ⟨fun c hc => ?_, μ, by rw [n1.multipliers, List.length_map], fun i a hf => ?_⟩
      · obtain ⟨k, hk⟩ := List.mem_iff_getElem?.1 hc
        have := n1.feasible k (c.der θ) (c.val θ) (by rw [List.getElem?_map, hk]; rfl) (by rw [List.getElem?_map, hk]; rfl)
        rw [← this]
        exact freeSum_zero fun i a => by rw [hz, mul_zero]
      · have := n1.stationary i a hf
        rw [freeSum_zero fun j b => by rw [hz, mul_zero], zero_add, zip_map_sum] at this
        have l := lagrange hD hM hθ hat μ hf
        rw [this, sub_self] at l
        exact l
    · rintro ⟨c0, μ', hl, hp⟩
      have hn : NewtonStep params (D θ) (H θ) (gs.map fun c => c.der θ) (gs.map fun c => c.val θ) (List.replicate (totalFree params) 0) μ' := by
        have hz : ∀ k, (List.replicate (totalFree params) (0 : ℝ)).getD k 0 = 0 := by
          intro k
          rw [List.getD_eq_getElem?_getD, List.getElem?_replicate]
          split_ifs <;> rfl
        refine ⟨List.length_replicate, by rw [hl, List.length_map], fun i a hf => ?_, fun k d r hd hr => ?_⟩
        · rw [freeSum_zero fun j b => by rw [hz, mul_zero], zero_add, zip_map_sum]
          have := hasPartial_unique (lagrange hD hM hθ hat μ' hf) (hp i a hf)
          linarith
        · rw [freeSum_zero fun j b => by rw [hz, mul_zero]]
          rw [List.getElem?_map] at hr
          obtain ⟨c, hc, rfl⟩ := Option.map_eq_some_iff.1 hr
          exact (c0 c (List.mem_of_getElem? hc)).symm
      have := (n2 _ _ hn).1
      intro x hx
      rw [← this] at hx
      exact List.eq_of_mem_replicate hx
  · rw [h] at e
    cases e

theorem sub_zeros : ∀ (l z : List ℝ), l.length = z.length → (∀ x ∈ z, x = 0) → List.zipWith (· - ·) l z = l
  | [], _, _, _ => by simp
  | x :: l, [], h, _ => by simp at h
  | x :: l, y :: z, h, h0 => by
    rw [List.zipWith_cons_cons, h0 y (List.mem_cons_self ..), sub_zero, sub_zeros l z (by simpa using h) fun x hx => h0 x (List.mem_cons_of_mem _ hx)]

/-- **C68.** A fit that starts at a point that satisfies the first order conditions returns `True` and leaves the parameters as they are, or `np.linalg.solve` raises
because the Newton system is singular there (if the objective is not 0: the convergence test divides by it). -/
theorem C68_optimum_kept (hM : Solver pr m dom M L gs φs T) {θ : Theta} (hθ : dom θ) {o : Fit.Obj ℝ (List (List ℝ))} (hat : AtPoint pr m θ o.params)
    (hF : 1 ≤ totalFree o.params) (hk : FirstOrder o.params (penalised L φs) gs θ) (h0 : penalised L φs θ ≠ 0) (ht : 0 < tol) {maxSteps verbose : Nat}
    (hs : 1 ≤ maxSteps) :
    ((Fit.fit (M.env pinvh tol) o maxSteps verbose .newton).outcome = .ok true ∧ (Fit.fit (M.env pinvh tol) o maxSteps verbose .newton).obj.params = o.params) ∨
      (Fit.fit (M.env pinvh tol) o maxSteps verbose .newton).outcome = .error .linAlg := by
  have hwf := hat.wf
  have hne := hat.ne hM.pos
  obtain ⟨k, rfl⟩ := Nat.exists_eq_add_of_le' hs
  have hfl : flatParams o.params = .ok (o.params.map Param.compressed).flatten := by
    unfold flatParams npConcatenate
    rw [if_neg (by simpa using hne)]
  have hre : reshapeParams o.params (o.params.map Param.compressed).flatten = .ok o.params := by
    have := C01_rebuild_flatten o.params hne hwf
    rw [hfl] at this
    exact this
  obtain ⟨D, H, hD, hst⟩ := C68_newton_step hM
  unfold Fit.fit
  rw [hfl]
  simp only [Fit.newtonLoop]
  rcases hst pinvh tol θ hθ o.params hat hF with ⟨step, μ, v, J, e, n1, n2⟩ | ⟨e, -⟩
  · left
    have hz := (C68_step_zero_iff hM hθ hat hF e).2 hk
    have hb : Fit.bzip (· - ·) (o.params.map Param.compressed).flatten (step.map ((1 : ℝ) * ·)) = .ok (o.params.map Param.compressed).flatten := by
      have hl : (o.params.map Param.compressed).flatten.length = (step.map ((1 : ℝ) * ·)).length := by
        rw [List.length_map, n1.len]; exact flatten_length _ hwf
      unfold Fit.bzip
      rw [if_pos hl, sub_zeros _ _ hl]
      intro x hx
      obtain ⟨y, hy, rfl⟩ := List.mem_map.1 hx
      rw [hz y hy, mul_zero]
    have hin : Fit.inner (M.env pinvh tol) verbose o.params (o.params.map Param.compressed).flatten step (penalised L φs θ / T) 5 (M.env pinvh tol).one =
        (.ok (some ((o.params.map Param.compressed).flatten, o.params, penalised L φs θ / T)), [o.params], 0) := by
      rw [Fit.inner]
      rw [show (M.env pinvh tol).one = 1 from rfl, hb]
      dsimp only
      rw [hre]
      dsimp only
      rw [C68_objective hM hθ hat]
      dsimp only
      rw [if_pos]
      show decide _ = true
      exact decide_eq_true le_rfl
    have hc : (M.env pinvh tol).conv (penalised L φs θ / T) (penalised L φs θ / T) = .ok true := by
      have : penalised L φs θ / T ≠ 0 := div_ne_zero h0 hM.ne
      show (if _ then _ else _) = _
      rw [if_neg this, div_self this, sub_self, abs_zero]
      simp [ht]
    rw [e]
    dsimp only
    rw [hin]
    dsimp only
    rw [hc]
    exact ⟨rfl, rfl⟩
  · right
    rw [e]

/-! ### the whole fit -/

section
open Fit

/-- The accepted point is the last one tried. -/
theorem inner_mem (env : Env ℝ G Y D H N) (vb : Nat) (ps0 : List (Param ℝ)) (flat step : List ℝ) (prevG : G) : ∀ (n : Nat) (mult : ℝ),
    (∀ q ∈ (Fit.inner env vb ps0 flat step prevG n mult).2.1, ∃ f, reshapeParams ps0 f = .ok q) ∧
    ∀ f ps g, (Fit.inner env vb ps0 flat step prevG n mult).1 = .ok (some (f, ps, g)) → ps ∈ (Fit.inner env vb ps0 flat step prevG n mult).2.1
  | 0, mult => by simp [Fit.inner]
  | n + 1, mult => by
    obtain ⟨i1, i2⟩ := inner_mem env vb ps0 flat step prevG n (mult * env.half)
    rw [Fit.inner]
    split
    · simp
    · split
      · simp
      · rename_i q hq
        split
        · simp only [List.mem_singleton, forall_eq, reduceCtorEq, false_implies, implies_true, and_true]
          exact ⟨_, hq⟩
        · split
          · simp only [List.mem_singleton, forall_eq, Except.ok.injEq, Option.some.injEq, Prod.mk.injEq]
            exact ⟨⟨_, hq⟩, fun _ _ _ h => h.2.1.symm⟩
          · refine ⟨fun x hx => ?_, fun f ps g h => List.mem_cons_of_mem _ (i2 f ps g h)⟩
            rcases List.mem_cons.1 hx with rfl | hx
            · exact ⟨_, hq⟩
            · exact i1 x hx

theorem newtonLoop_tried (env : Env ℝ G Y D H N) (vb : Nat) (o : Obj ℝ N) : ∀ (k : Nat) (ps : List (Param ℝ)) (flat : List ℝ),
    ∀ tr ∈ (newtonLoop env vb o k ps flat).trace, ∀ q ∈ tr, ∃ f, reshapeParams o.params f = .ok q
  | 0, _, _ => by simp [newtonLoop]
  | k + 1, ps, flat => by
    simp only [newtonLoop]
    split
    · simp
    · rename_i step prevG gr hess hs
      have hi := inner_mem env vb o.params flat step prevG 5 env.one
      split <;> rename_i hin
      · rw [hin] at hi; simpa using hi.1
      · rw [hin] at hi; simpa using hi.1
      · rw [hin] at hi
        split
        · simpa using hi.1
        · simpa using hi.1
        · intro tr htr
          rcases List.mem_cons.1 htr with rfl | htr
          · exact hi.1
          · exact newtonLoop_tried env vb o k _ _ tr htr

/-- A successful Newton loop does not decrease the objective, if the objective of each Newton step is the objective at the point (property `P` of the points
tried). -/
theorem newtonLoop_monotone (env : Env ℝ G Y D H N) (vb : Nat) (o : Obj ℝ N) (P : List (Param ℝ) → Prop)
    (htrans : ∀ a b c, env.ge a b = true → env.ge b c = true → env.ge a c = true)
    (hcons : ∀ ps, P ps → ∀ step g gr he, newtonStep env ps = .ok (step, g, gr, he) → objective env ps = .ok g) (b : Bool) :
    ∀ (k : Nat) (ps : List (Param ℝ)) (flat : List ℝ), P ps → (∀ tr ∈ (newtonLoop env vb o k ps flat).trace, ∀ q ∈ tr, P q) →
      (newtonLoop env vb o k ps flat).outcome = .ok b →
      P (newtonLoop env vb o k ps flat).obj.params ∧ ∃ g0 g1, objective env ps = .ok g0 ∧
        objective env (newtonLoop env vb o k ps flat).obj.params = .ok g1 ∧ env.ge g1 g0 = true
  | 0, _, _ => by simp [newtonLoop]
  | k + 1, ps, flat => by
    intro hp htr hk
    simp only [newtonLoop] at hk htr ⊢
    split at hk
    · cases hk
    · rename_i step prevG gr hess hs
      rw [hs] at htr
      dsimp only at htr
      have hg := hcons ps hp _ _ _ _ hs
      have hm := (inner_mem env vb o.params flat step prevG 5 env.one).2
      split at hk
      · cases hk
      · cases hk
      · rename_i flat' ps' g tr pr hin
        have hi := inner_some (h := by rw [hin])
        have hmem := hm flat' ps' g (by rw [hin])
        rw [hin] at hmem htr
        dsimp only at hmem htr
        split at hk
        · cases hk
        · rename_i hc
          rw [hc] at htr
          exact ⟨htr tr (by simp) ps' hmem, prevG, g, hg, hi.2.1, hi.2.2⟩
        · rename_i hc
          rw [hc] at htr
          dsimp only at htr
          obtain ⟨r0, g0, g1, r1, r2, r3⟩ := newtonLoop_monotone env vb o P htrans hcons b k ps' flat' (htr tr (by simp) ps' hmem)
            (fun t ht => htr t (List.mem_cons_of_mem _ ht)) hk
          rw [hi.2.1] at r1
          cases r1
          exact ⟨r0, prevG, g1, hg, r2, htrans _ _ _ r3 hi.2.2⟩

end

theorem flatParams_ok {ps : List (Param ℝ)} (hne : ps ≠ []) : flatParams ps = .ok (ps.map Param.compressed).flatten := by
  unfold flatParams npConcatenate
  rw [if_neg (by simpa using hne)]

/-- The points that `fit` tries have the layout of the parameters of the object. -/
theorem tried_keeps (env : Fit.Env ℝ G Y D H N) {o : Fit.Obj ℝ N} (hne : o.params ≠ []) (hwf : ∀ p ∈ o.params, p.WF) {maxSteps verbose : Nat} :
    ∀ tr ∈ (Fit.fit env o maxSteps verbose .newton).trace, ∀ q ∈ tr, SameLayout q o.params ∧ ∀ p ∈ q, p.WF := by
  intro tr htr q hq
  unfold Fit.fit at htr
  rw [flatParams_ok hne] at htr
  obtain ⟨f, hf⟩ := newtonLoop_tried env verbose o maxSteps _ _ tr htr q hq
  have := Fit.reshapeParams_keeps _ _ _ hwf hf
  exact ⟨this.layout, this.wf⟩

/-- **C68.** A Newton fit that returns does not decrease the penalised log-likelihood (for data with a positive total weight), and changes only the free entries.
The log-likelihood must be defined (`dom`) at the points that `fit` tries. -/
theorem C68_never_decreases (hM : Solver pr m dom M L gs φs T) (hT : 0 < T) {θ : Theta} (hθ : dom θ) {o : Fit.Obj ℝ (List (List ℝ))}
    (hat : AtPoint pr m θ o.params) (hF : 1 ≤ totalFree o.params) {maxSteps verbose : Nat}
    (hdom : ∀ tr ∈ (Fit.fit (M.env pinvh tol) o maxSteps verbose .newton).trace, ∀ q ∈ tr, ∃ θ', dom θ' ∧ AtPoint pr m θ' q) {b : Bool}
    (h : (Fit.fit (M.env pinvh tol) o maxSteps verbose .newton).outcome = .ok b) :
    ∃ θ', dom θ' ∧ AtPoint pr m θ' (Fit.fit (M.env pinvh tol) o maxSteps verbose .newton).obj.params ∧
      penalised L φs θ ≤ penalised L φs θ' ∧ ∀ i a, isFixed o.params i a → θ' i a = θ i a := by
  have hC2 := Fit.C02_fixed_unchanged (M.env pinvh tol) o maxSteps verbose .newton hat.wf
  have hne := hat.ne hM.pos
  have hk := tried_keeps (M.env pinvh tol) hne hat.wf (maxSteps := maxSteps) (verbose := verbose)
  have key : ∀ ps, (SameLayout ps o.params ∧ ∃ θ, dom θ ∧ AtPoint pr m θ ps) → ∀ step g gr he,
      Fit.newtonStep (M.env pinvh tol) ps = .ok (step, g, gr, he) → Fit.objective (M.env pinvh tol) ps = .ok g := by
    rintro ps ⟨p1, θ1, p2, p3⟩ step g gr he hs
    obtain ⟨D, H, -, hst⟩ := C68_newton_step hM
    rcases hst pinvh tol _ p2 ps p3 (by rw [Flat.SameLayout.totalFree p1]; exact hF) with ⟨s, μ, v, J, e, -, -⟩ | ⟨e, -⟩
    · rw [hs] at e
      cases e
      exact C68_objective hM p2 p3
    · rw [hs] at e; cases e
  have hr : Fit.fit (M.env pinvh tol) o maxSteps verbose .newton = Fit.newtonLoop (M.env pinvh tol) verbose o maxSteps o.params (o.params.map Param.compressed).flatten := by
    unfold Fit.fit
    rw [flatParams_ok hne]
  rw [hr] at h hdom hk hC2 ⊢
  obtain ⟨⟨-, θ', d1, d2⟩, g0, g1, e0, e1, hg⟩ := newtonLoop_monotone (M.env pinvh tol) verbose o _
    (fun a b c h1 h2 => decide_eq_true (ge_trans (of_decide_eq_true h1) (of_decide_eq_true h2))) key b maxSteps o.params _ ⟨rfl, θ, hθ, hat⟩
    (fun tr ht q hq => ⟨(hk tr ht q hq).1, hdom tr ht q hq⟩) h
  refine ⟨θ', d1, d2, ?_, fun i a hf => ?_⟩
  · rw [C68_objective hM hθ hat] at e0
    rw [C68_objective hM d1 d2] at e1
    cases e0
    cases e1
    have := of_decide_eq_true hg
    exact (div_le_div_iff_of_pos_right hT).1 this
  · have he := hC2.2.1 i a hf
    obtain ⟨p, hp, hj⟩ := hf
    have h1 := (List.getElem?_eq_some_iff.1 hp).1
    have h2 := (List.getElem?_eq_some_iff.1 hj).1
    rw [hat.len] at h1
    obtain ⟨q, q1, q2, q3, q4, q5⟩ := hat.each i h1
    obtain ⟨q', r1, r2, r3, r4, r5⟩ := d2.each i h1
    rw [hp] at q1
    cases q1
    rw [q3, q2] at h2
    unfold entry at he
    rw [hp, r1] at he
    simp only [Option.bind_some] at he
    have a1 := q5 a (by rw [q2]; exact h2)
    have a2 := r5 a (by rw [r2]; exact h2)
    rw [List.getD_eq_getElem?_getD] at a1 a2
    rw [← a1, ← a2, he]

theorem zipIdx_pick (w : List ℝ) (i : Nat) : ∀ (pm : List Nat) (s : Nat), pm.Nodup →
    ((pm.zipIdx s).map fun x => if x.1 = i then w.getD x.2 0 else 0).sum = if i ∈ pm then w.getD (s + pm.idxOf i) 0 else 0
  | [], s, _ => by simp
  | p :: pm, s, hn => by
    rw [List.zipIdx_cons, List.map_cons, List.sum_cons, zipIdx_pick w i pm (s + 1) (List.nodup_cons.1 hn).2]
    by_cases e : p = i
    · subst e
      rw [if_pos rfl, if_neg (List.nodup_cons.1 hn).1, if_pos (List.mem_cons_self ..), List.idxOf_cons_self, add_zero, add_zero]
    · rw [if_neg e, zero_add, List.idxOf_cons_ne _ e]
      by_cases h : i ∈ pm
      · rw [if_pos h, if_pos (List.mem_cons_of_mem _ h)]
        congr 1
        omega
      · rw [if_neg h, if_neg]
        rw [List.mem_cons]
        rintro (h' | h')
        · exact e h'.symm
        · exact h h'

theorem linear_der (params : List (Param ℝ)) {pm : List Nat} {w : List ℝ} (hn : pm.Nodup) (θ : Theta) (i a : Nat) :
    Flat.termGrad params (Flat.LinCon.term ⟨pm, w⟩) i a = (linCon pr pm w).der θ i a := by
  show Flat.termGrad params (Flat.linearTerm pm w) i a = _
  rw [Flat.linear_termGrad, zipIdx_pick w i pm 0 hn, zero_add]
  rfl

theorem sum_values {θ : Theta} {params : List (Param ℝ)} (hat : AtPoint pr m θ params) {p : Nat} (hp : p < m) :
    (params[p]?.map fun p => p.values.sum).getD 0 = ∑ a ∈ Finset.range (pr.sizes p).prod, θ p a := by
  obtain ⟨q, q1, q2, q3, q4, q5⟩ := hat.each p hp
  have e : q.values = (List.range (pr.sizes p).prod).map fun a => θ p a := by
    apply List.ext_getElem
    · rw [List.length_map, List.length_range, q4, q2]
    · intro a h1 h2
      rw [List.getElem_map, List.getElem_range]
      have := q5 a (by rw [← q4]; exact h1)
      rwa [List.getD_eq_getElem?_getD, List.getElem?_eq_getElem h1, Option.getD_some] at this
  rw [q1, Option.map_some, Option.getD_some, e, sum_map_range]

theorem linear_residual {θ : Theta} {params : List (Param ℝ)} (hat : AtPoint pr m θ params) {pm : List Nat} {w : List ℝ} (hlt : ∀ p ∈ pm, p < m)
    (hw : w.length = pm.length) : Flat.LinCon.residual ⟨pm, w⟩ params = (linCon pr pm w).val θ := by
  have e : (pm.zip w).map (fun x => ((params[x.1]?.map fun p => p.values.sum).getD 0) * x.2) =
      (List.range pm.length).map fun k => ∑ a ∈ Finset.range (pr.sizes (pm.getD k 0)).prod, θ (pm.getD k 0) a * w.getD k 0 := by
    apply List.ext_getElem
    · simp [hw]
    · intro k h1 h2
      have hk : k < pm.length := by simpa using h2
      rw [List.getElem_map, List.getElem_map, List.getElem_range, List.getElem_zip]
      dsimp only
      rw [sum_values hat (hlt _ (List.getElem_mem hk)), Finset.sum_mul]
      rw [List.getD_eq_getElem _ _ hk, List.getD_eq_getElem _ _ (by omega)]
  unfold Flat.LinCon.residual linCon
  dsimp only
  rw [e, sum_map_range]

/-- **C68.** With a linear constraint (the weighted sum of the entries of some parameters), the residual of the constraint is at no point that `fit` tries, nor at
the parameters that it stores, larger than at the start; if the start satisfies the constraint then so do all these points. -/
theorem C68_constraints (hM : Solver pr m dom M L gs φs T) {θ : Theta} (hθ : dom θ) {o : Fit.Obj ℝ (List (List ℝ))}
    (hat : AtPoint pr m θ o.params) (hF : 1 ≤ totalFree o.params) {maxSteps verbose : Nat}
    (hdom : ∀ tr ∈ (Fit.fit (M.env pinvh tol) o maxSteps verbose .newton).trace, ∀ q ∈ tr, ∃ θ', dom θ' ∧ AtPoint pr m θ' q)
    {pm : List Nat} {w : List ℝ} (hc : linCon pr pm w ∈ gs) (hne : pm ≠ []) (hinc : pm.Pairwise (· < ·)) (hlt : ∀ p ∈ pm, p < m) (hw : w.length = pm.length) :
    (∀ tr ∈ (Fit.fit (M.env pinvh tol) o maxSteps verbose .newton).trace, ∀ q ∈ tr, ∀ θ', AtPoint pr m θ' q →
      |(linCon pr pm w).val θ'| ≤ |(linCon pr pm w).val θ|) ∧
    (∀ θ', AtPoint pr m θ' (Fit.fit (M.env pinvh tol) o maxSteps verbose .newton).obj.params → |(linCon pr pm w).val θ'| ≤ |(linCon pr pm w).val θ|) := by
  have hnd : pm.Nodup := hinc.imp fun h => Nat.ne_of_lt h
  have hb : Flat.Borders (M.env pinvh tol) [⟨pm, w⟩] o.params fun ps => ∃ θ', dom θ' ∧ AtPoint pr m θ' ps := by
    rintro ps hl hwf ⟨θ1, d1, a1⟩ step gr g J hs
    obtain ⟨D, H, -, hst⟩ := C68_newton_step hM
    rcases hst pinvh tol _ d1 ps a1 (by rw [Flat.SameLayout.totalFree hl]; exact hF) with ⟨s, μ, v, J, e, n1, -⟩ | ⟨e, -⟩
    · rw [hs] at e
      cases e
      refine ⟨n1.len, fun c hc' => ?_⟩
      rw [List.mem_singleton] at hc'
      subst hc'
      obtain ⟨k, hk⟩ := List.mem_iff_getElem?.1 hc
      have := n1.feasible k ((linCon pr pm w).der θ1) ((linCon pr pm w).val θ1) (by rw [List.getElem?_map, hk]; rfl) (by rw [List.getElem?_map, hk]; rfl)
      rw [linear_residual a1 hlt hw, ← this, ← freePairs_dot _ a1.masks n1.len]
      congr 1
      exact List.map_congr_left fun x _ => linear_der ps hnd θ1 x.1 x.2
    · rw [hs] at e; cases e
  have hok : ∀ c ∈ [(⟨pm, w⟩ : Flat.LinCon ℝ)], c.Ok o.params := by
    intro c hc'
    rw [List.mem_singleton] at hc'
    subst hc'
    exact ⟨hne, hinc.imp fun h => Nat.le_of_lt h, fun k hk => by rw [hat.len]; exact hlt k hk, hw⟩
  have h := Flat.residual_of_borders (M.env pinvh tol) _ rfl rfl verbose maxSteps o _ hb hat.wf hok ⟨θ, hθ, hat⟩ hdom ⟨pm, w⟩ (by simp)
  refine ⟨fun tr ht q hq θ' ha => ?_, fun θ' ha => ?_⟩
  · have := h.1 tr ht q hq
    rwa [linear_residual hat hlt hw, linear_residual ha hlt hw] at this
  · have := h.2.1
    rwa [linear_residual hat hlt hw, linear_residual ha hlt hw] at this

section
open Fit

/-- The inner loop does not raise if the objective is defined at the points tried. -/
theorem inner_ok (env : Env ℝ G Y D H N) (vb : Nat) (ps0 : List (Param ℝ)) (hne : ps0 ≠ []) (hwf : ∀ p ∈ ps0, p.WF) (flat step : List ℝ)
    (hfl : flat.length = totalFree ps0) (hst : step.length = totalFree ps0) (prevG : G) : ∀ (n : Nat) (mult : ℝ),
    (∀ q ∈ (Fit.inner env vb ps0 flat step prevG n mult).2.1, ∃ g, objective env q = .ok g) →
    ((Fit.inner env vb ps0 flat step prevG n mult).1 = .ok none ∧ (Fit.inner env vb ps0 flat step prevG n mult).2.1.length = n) ∨
    ∃ f ps g, (Fit.inner env vb ps0 flat step prevG n mult).1 = .ok (some (f, ps, g)) ∧ f.length = totalFree ps0
  | 0, mult, _ => by simp [Fit.inner]
  | n + 1, mult, htr => by
    have h1 : bzip (· - ·) flat (step.map (mult * ·)) = .ok (List.zipWith (· - ·) flat (step.map (mult * ·))) := by
      unfold bzip
      rw [if_pos (by rw [List.length_map]; omega)]
    have hl : (List.zipWith (· - ·) flat (step.map (mult * ·))).length = totalFree ps0 := by
      rw [List.length_zipWith, List.length_map]; omega
    obtain ⟨rs, h2, -⟩ := C01_flatten_rebuild ps0 hne hwf _ hl
    simp only [Fit.inner, h1, h2] at htr ⊢
    rcases h3 : objective env rs with e | g
    · rw [h3] at htr
      obtain ⟨g, hg⟩ := htr rs (by simp)
      rw [h3] at hg
      cases hg
    · rw [h3] at htr
      dsimp only at htr ⊢
      split
      · exact Or.inr ⟨_, _, _, rfl, hl⟩
      · rename_i hge
        rw [if_neg hge] at htr
        rcases inner_ok env vb ps0 hne hwf flat step hfl hst prevG n (mult * env.half) fun q hq => htr q (List.mem_cons_of_mem _ hq) with h | h
        · exact Or.inl ⟨h.1, by rw [List.length_cons, h.2]⟩
        · exact Or.inr h

/-- What the Newton loop can do, if the Newton step raises at most `LinAlgError` at the points tried. -/
theorem newtonLoop_outcome (env : Env ℝ G Y D H N) (vb : Nat) (o : Obj ℝ N) (hne : o.params ≠ []) (hwf : ∀ p ∈ o.params, p.WF) (P : List (Param ℝ) → Prop)
    (hobj : ∀ ps, P ps → ∃ g, objective env ps = .ok g)
    (hstep : ∀ ps, P ps → newtonStep env ps = .error .linAlg ∨
      ∃ step g gr he, newtonStep env ps = .ok (step, g, gr, he) ∧ objective env ps = .ok g ∧ step.length = totalFree o.params) :
    ∀ (k : Nat) (ps : List (Param ℝ)) (flat : List ℝ), P ps → flat.length = totalFree o.params →
      (∀ tr ∈ (newtonLoop env vb o k ps flat).trace, ∀ q ∈ tr, P q) →
      (((newtonLoop env vb o k ps flat).outcome = .ok true ∧ ∃ q0 g0 g1, P q0 ∧ P (newtonLoop env vb o k ps flat).obj.params ∧ objective env q0 = .ok g0 ∧
          objective env (newtonLoop env vb o k ps flat).obj.params = .ok g1 ∧ env.ge g1 g0 = true ∧ env.conv g0 g1 = .ok true) ∨
        ((newtonLoop env vb o k ps flat).outcome = .error .linAlg ∧ ∃ q, P q ∧ newtonStep env q = .error .linAlg) ∨
        (∃ q0 q1 g0 g1 e, P q0 ∧ P q1 ∧ objective env q0 = .ok g0 ∧ objective env q1 = .ok g1 ∧ env.conv g0 g1 = .error e ∧
          (newtonLoop env vb o k ps flat).outcome = .error e) ∨
        ((newtonLoop env vb o k ps flat).outcome = .error .convergenceStep ∧
          ∃ tr, (newtonLoop env vb o k ps flat).trace.getLast? = some tr ∧ tr.length = 5) ∨
        ((newtonLoop env vb o k ps flat).outcome = .error .convergence ∧ (newtonLoop env vb o k ps flat).trace.length = k))
  | 0, _, _ => fun _ _ _ => Or.inr (Or.inr (Or.inr (Or.inr ⟨rfl, rfl⟩)))
  | k + 1, ps, flat => by
    intro hp hfl htr
    simp only [newtonLoop] at htr ⊢
    rcases hstep ps hp with hs | ⟨step, g0, gr, he, hs, ho, hl⟩
    · rw [hs]
      exact Or.inr (Or.inl ⟨rfl, ps, hp, hs⟩)
    · rw [hs] at htr ⊢
      dsimp only at htr ⊢
      have hP : ∀ q ∈ (Fit.inner env vb o.params flat step g0 5 env.one).2.1, P q := by
        rcases hi : Fit.inner env vb o.params flat step g0 5 env.one with ⟨a, tr, pr⟩
        rw [hi] at htr
        dsimp only at htr ⊢
        refine htr tr ?_
        rcases a with e | (_ | ⟨f, q, g⟩)
        · simp
        · simp
        · dsimp only
          rcases env.conv g0 g with e | (_ | _) <;> simp
      have hio := inner_ok env vb o.params hne hwf flat step hfl hl g0 5 env.one fun q hq => hobj q (hP q hq)
      have hm := (inner_mem env vb o.params flat step g0 5 env.one).2
      have hsome := inner_some env vb o.params flat step g0 5 env.one
      rcases hi : Fit.inner env vb o.params flat step g0 5 env.one with ⟨a, tr, pr⟩
      rw [hi] at htr hP hio hm hsome
      rcases a with e | (_ | ⟨f, q, g⟩)
      · simp at hio
      · dsimp only at hio ⊢
        refine Or.inr (Or.inr (Or.inr (Or.inl ⟨rfl, tr, rfl, ?_⟩)))
        rcases hio with h | ⟨_, _, _, h, -⟩
        · exact h.2
        · cases h
      · dsimp only at hP hio hm hsome htr ⊢
        obtain ⟨-, hg1, hge⟩ := hsome f q g rfl
        have hPq := hP q (hm f q g rfl)
        rcases hc : env.conv g0 g with e | (_ | _)
        · exact Or.inr (Or.inr (Or.inl ⟨ps, q, g0, g, e, hp, hPq, ho, hg1, hc, rfl⟩))
        · rw [hc] at htr
          dsimp only at htr ⊢
          have hf' : f.length = totalFree o.params := by
            rcases hio with h | ⟨_, _, _, h, h'⟩
            · cases h.1
            · cases h
              exact h'
          rcases newtonLoop_outcome env vb o hne hwf P hobj hstep k q f hPq hf' (fun t ht => htr t (List.mem_cons_of_mem _ ht)) with h | h | h | ⟨h1, t, h2, h3⟩ | ⟨h1, h2⟩
          · exact Or.inl h
          · exact Or.inr (Or.inl h)
          · exact Or.inr (Or.inr (Or.inl h))
          · refine Or.inr (Or.inr (Or.inr (Or.inl ⟨h1, t, ?_, h3⟩)))
            rw [getLast?_cons_ne _ _ (by intro h0; rw [h0] at h2; simp at h2), h2]
          · exact Or.inr (Or.inr (Or.inr (Or.inr ⟨h1, by rw [List.length_cons, h2]⟩)))
        · exact Or.inl ⟨rfl, ps, g0, g, hp, hPq, ho, hg1, hge, hc⟩

end

/-- The parameters `q` are the start of a fit or a point that it tried. -/
def Visited (o : Fit.Obj ℝ N) (r : Fit.Result ℝ N) (q : List (Param ℝ)) : Prop := q = o.params ∨ ∃ tr ∈ r.trace, q ∈ tr

/-- **C68.** What a Newton fit can do: it returns `True` with a last step that increased the penalised log-likelihood (for `T > 0`) by a factor closer to 1 than the
tolerance; or it raises `LinAlgError` because the Newton system at some point has no unique solution; or `ZeroDivisionError` because the penalised log-likelihood of a
point that it accepted is 0; or one of the two `ConvergenceError`s, after five trials in the last step or after `max_steps` steps. -/
theorem C68_outcomes (hM : Solver pr m dom M L gs φs T) {θ : Theta} (hθ : dom θ) {o : Fit.Obj ℝ (List (List ℝ))}
    (hat : AtPoint pr m θ o.params) (hF : 1 ≤ totalFree o.params) {maxSteps verbose : Nat}
    (hdom : ∀ tr ∈ (Fit.fit (M.env pinvh tol) o maxSteps verbose .newton).trace, ∀ q ∈ tr, ∃ θ', dom θ' ∧ AtPoint pr m θ' q) :
    let r := Fit.fit (M.env pinvh tol) o maxSteps verbose .newton
    (r.outcome = .ok true ∧ ∃ q θ0 θ1, Visited o r q ∧ AtPoint pr m θ0 q ∧ dom θ0 ∧ dom θ1 ∧ AtPoint pr m θ1 r.obj.params ∧
      penalised L φs θ0 / T ≤ penalised L φs θ1 / T ∧ |penalised L φs θ0 / penalised L φs θ1 - 1| < tol) ∨
    (r.outcome = .error .linAlg ∧ ∃ q, Visited o r q ∧ Fit.newtonStep (M.env pinvh tol) q = .error .linAlg) ∨
    (r.outcome = .error .zeroDivision ∧ ∃ q θ', Visited o r q ∧ AtPoint pr m θ' q ∧ dom θ' ∧ penalised L φs θ' = 0) ∨
    (r.outcome = .error .convergenceStep ∧ ∃ tr, r.trace.getLast? = some tr ∧ tr.length = 5) ∨
    (r.outcome = .error .convergence ∧ r.trace.length = maxSteps) := by
  have hne := hat.ne hM.pos
  have hr : Fit.fit (M.env pinvh tol) o maxSteps verbose .newton = Fit.newtonLoop (M.env pinvh tol) verbose o maxSteps o.params (o.params.map Param.compressed).flatten := by
    unfold Fit.fit
    rw [flatParams_ok hne]
  have hk := tried_keeps (M.env pinvh tol) hne hat.wf (maxSteps := maxSteps) (verbose := verbose)
  intro r
  have er : r = Fit.newtonLoop (M.env pinvh tol) verbose o maxSteps o.params (o.params.map Param.compressed).flatten := hr
  rw [hr] at hdom hk
  rw [er]
  clear er hr r
  have hobj : ∀ ps, (Visited o (Fit.newtonLoop (M.env pinvh tol) verbose o maxSteps o.params (o.params.map Param.compressed).flatten) ps ∧
      SameLayout ps o.params ∧ ∃ θ, dom θ ∧ AtPoint pr m θ ps) → ∃ g, Fit.objective (M.env pinvh tol) ps = .ok g := by
    rintro ps ⟨-, -, θ1, p2, p3⟩
    exact ⟨_, C68_objective hM p2 p3⟩
  have hstep : ∀ ps, (Visited o (Fit.newtonLoop (M.env pinvh tol) verbose o maxSteps o.params (o.params.map Param.compressed).flatten) ps ∧
      SameLayout ps o.params ∧ ∃ θ, dom θ ∧ AtPoint pr m θ ps) → Fit.newtonStep (M.env pinvh tol) ps = .error .linAlg ∨
      ∃ step g gr he, Fit.newtonStep (M.env pinvh tol) ps = .ok (step, g, gr, he) ∧ Fit.objective (M.env pinvh tol) ps = .ok g ∧
        step.length = totalFree o.params := by
    rintro ps ⟨-, p1, θ1, p2, p3⟩
    obtain ⟨D, H, -, hst⟩ := C68_newton_step hM
    have hF' := Flat.SameLayout.totalFree p1
    rcases hst pinvh tol _ p2 ps p3 (by rw [hF']; exact hF) with ⟨s, μ, v, J, e, n1, -⟩ | ⟨e, -⟩
    · exact Or.inr ⟨s, _, v, J, e, C68_objective hM p2 p3, n1.len.trans hF'⟩
    · exact Or.inl e
  have cv : ∀ a b : ℝ, (M.env pinvh tol).conv (a / T) (b / T) = if b = 0 then .error .zeroDivision else .ok (decide (|a / b - 1| < tol)) := by
    intro a b
    show (if _ then _ else _) = _
    rw [div_div_div_cancel_right₀ hM.ne]
    by_cases hb : b = 0
    · rw [if_pos hb, if_pos (by rw [hb, zero_div])]
    · rw [if_neg hb, if_neg (div_ne_zero hb hM.ne)]
  rcases newtonLoop_outcome (M.env pinvh tol) verbose o hne hat.wf _ hobj hstep maxSteps o.params _ ⟨Or.inl rfl, rfl, θ, hθ, hat⟩ (flatten_length _ hat.wf)
    (fun tr ht q hq => ⟨Or.inr ⟨tr, ht, hq⟩, (hk tr ht q hq).1, hdom tr ht q hq⟩) with
    ⟨h, q0, g0, g1, ⟨v0, -, θ0, p2, p3⟩, ⟨-, -, θ1, s2, s3⟩, e0, e1, hge, hc⟩ | ⟨h, q, ⟨vq, -⟩, hq⟩ | ⟨q0, q1, g0, g1, e, ⟨-, -, θ0, p2, p3⟩, ⟨v1, -, θ1, s2, s3⟩, e0, e1, hc, h⟩ | h | h
  · left
    rw [C68_objective hM p2 p3] at e0
    rw [C68_objective hM s2 s3] at e1
    cases e0
    cases e1
    refine ⟨h, q0, θ0, θ1, v0, p3, p2, s2, s3, of_decide_eq_true hge, ?_⟩
    rw [cv] at hc
    split_ifs at hc
    exact of_decide_eq_true (Except.ok.inj hc)
  · exact Or.inr (Or.inl ⟨h, q, vq, hq⟩)
  · right; right; left
    rw [C68_objective hM p2 p3] at e0
    rw [C68_objective hM s2 s3] at e1
    cases e0
    cases e1
    rw [cv] at hc
    split_ifs at hc with hz
    cases hc
    exact ⟨h, q1, θ1, v1, s3, s2, hz⟩
  · exact Or.inr (Or.inr (Or.inr (Or.inl h)))
  · exact Or.inr (Or.inr (Or.inr (Or.inr h)))

/-! ### the six likelihoods -/

theorem total_of (hpr : pr.Ok) {Nw : Num ℝ} (hN : pr.IsData Nw) : ∃ n, Nw.sumAll = .ok n ∧ IsNumber n (∑ c, pr.val Nw c) := by
  obtain ⟨t, rfl, h⟩ := data_vfull hN
  exact sum_number hpr h

/-- The function whose `eval` calls the other three methods. -/
def TFunc.apart (f : TFunc ℝ) : TFunc ℝ := ⟨f.call, f.grad, f.hess, f.sep, f.gradNull, f.hessNull, f.gradOne, f.hessOne⟩

theorem Computes.apart {K : Nat → Prop} {st : Store} {f : TFunc ℝ} {val : Val} (hf : Computes pr (cOrder pr m) K st dom f val) :
    Computes pr (cOrder pr m) K st dom f.apart val := by
  obtain ⟨⟨der, hes, hs, hR⟩, h1, h2⟩ := hf
  exact ⟨⟨der, hes, hs, fun θ hθ ps hps => ⟨(hR θ hθ ps hps).2, (hR θ hθ ps hps).2⟩⟩, h1, h2⟩

theorem separate_of {K : Nat → Prop} {ok : (pr.Cell → ℝ) → Prop} {like : Num ℝ → Except Err (Num ℝ)}
    {grad : Num ℝ → List (Num ℝ) → Except Err (List (Num ℝ))}
    {hess : Num ℝ → List (Num ℝ) → List (List (Num ℝ)) → Except Err (List (List (Num ℝ)))}
    {L : (pr.Cell → ℝ) → ℝ} {G : (pr.Cell → ℝ) → Like.Der pr.Cell → Nat → Nat → ℝ}
    {H : (pr.Cell → ℝ) → Like.Der pr.Cell → Like.Hess pr.Cell → Nat → Nat → Nat → Nat → ℝ}
    {C : Prop} (hr : LikeRule pr K C ok like grad hess L G H) {st : Store} {f : TFunc ℝ} {val : Val} (hm : 0 < m)
    (hf : Computes pr (cOrder pr m) K st dom f val) (hone : f.gradOne = false) (ht : st.tot) (hc : C → st.clean) (hu : ∀ p < m, st.used p) (hok : ∀ θ, dom θ → ok (valCell pr val θ)) :
    ∃ hess, FitReturns pr (cOrder pr m) dom (fun θ => L (valCell pr val θ)) (modelLike f like) (modelGradCall f grad) hess ∧
      FitWhole pr (cOrder pr m) dom (modelGradCall f grad) hess := by
  have e : ∀ θ, dom θ → ∀ ps, (cOrder pr m).IsParams θ ps → modelGradCall f grad ps = modelGrad f.apart grad ps := by
    intro θ hθ ps hps
    obtain ⟨⟨der, hes, hs, hR⟩, -, -⟩ := hf
    obtain ⟨-, V, D, Q, e1, -⟩ := hR θ hθ ps hps
    unfold modelGradCall modelGrad
    show _ = (f.sep ps >>= fun e => _)
    rw [e1, ok_bind']
    unfold TFunc.sep at e1
    obtain ⟨v, v1, e1⟩ := Flat.bind_ok e1
    obtain ⟨g, g1, e1⟩ := Flat.bind_ok e1
    obtain ⟨h, -, e1⟩ := Flat.bind_ok e1
    have e1 := Except.ok.inj e1
    injection e1 with i1 i2 i3
    subst i1 i2
    rw [v1, ok_bind', grads_eq hone, g1]
    rfl
  obtain ⟨g, h, h1, h2, h3⟩ := fit_returns hr hf.apart ht hc hok
  have hw := fit_whole hr hf.apart ht hc hu hok
  refine ⟨modelHess f.apart hess, ⟨g, h, fun θ hθ ps hps => ?_, h2, h3⟩, fun θ hθ ps hps => ?_⟩
  · rw [e θ hθ ps hps]
    exact h1 θ hθ ps hps
  · rw [e θ hθ ps hps]
    exact hw θ hθ ps hps

theorem solver_of (hpr : pr.Ok) {K : Nat → Prop} {ok : (pr.Cell → ℝ) → Prop} {like : Num ℝ → Except Err (Num ℝ)}
    {grad : Num ℝ → List (Num ℝ) → Except Err (List (Num ℝ))}
    {hess : Num ℝ → List (Num ℝ) → List (List (Num ℝ)) → Except Err (List (List (Num ℝ)))}
    {L : (pr.Cell → ℝ) → ℝ} {G : (pr.Cell → ℝ) → Like.Der pr.Cell → Nat → Nat → ℝ}
    {H : (pr.Cell → ℝ) → Like.Der pr.Cell → Like.Hess pr.Cell → Nat → Nat → Nat → Nat → ℝ}
    {C : Prop} (hr : LikeRule pr K C ok like grad hess L G H) {st : Store} {f : TFunc ℝ} {val : Val} (hm : 0 < m)
    (hf : Computes pr (cOrder pr m) K st dom f val) (hone : f.gradOne = false) (ht : st.tot) (hc : C → st.clean) (hu : ∀ p < m, st.used p) (hok : ∀ θ, dom θ → ok (valCell pr val θ))
    {Nw : Num ℝ} (hN : pr.IsData Nw) (hT : ∑ c, pr.val Nw c ≠ 0) {cs rs : List (TTerm ℝ)}
    (hcs : List.Forall₂ (fun t g => IsConstraint (cOrder pr m) t g.val g.der) cs gs)
    (hrs : List.Forall₂ (fun t φ => IsPenalty (cOrder pr m) t φ.val φ.der φ.hes) rs φs) :
    Solver pr m dom ⟨f, like, grad, hess, Nw, cs, rs⟩ (fun θ => L (valCell pr val θ)) gs φs (∑ c, pr.val Nw c) where
  pos := hm
  fit := fit_returns hr hf ht hc hok
  whole := fit_whole hr hf ht hc hu hok
  same θ hθ ps hps := by
    obtain ⟨⟨der, hes, hs, hR⟩, -, -⟩ := hf
    obtain ⟨⟨V, D, Q, e1, hv, ts⟩, -⟩ := hR θ hθ ps hps
    have ev : pr.val (.tensor V) = valCell pr val θ := funext fun c => hv.v _ _ (cell_pos c) _ _
    obtain ⟨v, v1, v2⟩ := hr.like V (ts.tot ht).1 (ts.tot ht).2.1 hv.vx hv.vy hv.vs (by rw [ev]; exact hok θ hθ)
    rw [ev] at v2
    exact ⟨_, _, v, e1, rfl, v1, v2⟩
  separate := separate_of hr hm hf hone ht hc hu hok
  constraints := hcs
  penalties := hrs
  total := total_of hpr hN
  ne := hT

/-- **C68.** The problem of `Poisson`.  `gradOne` is false for every class but a `Compose`, `Affine` or `FuncWrap` of a function whose `grad` is `null_method`. -/
theorem C68_solver_poisson (hpr : pr.Ok) {K : Nat → Prop} {X Nw : Num ℝ} (hX : pr.IsData X) (hN : pr.IsData Nw) {st : Store} {f : TFunc ℝ} {val : Val}
    (hm : 0 < m) (hf : Computes pr (cOrder pr m) K st dom f val) (hone : f.gradOne = false) (ht : st.tot) (hu : ∀ p < m, st.used p) (hT : ∑ c, pr.val Nw c ≠ 0)
    {cs rs : List (TTerm ℝ)} (hcs : List.Forall₂ (fun t g => IsConstraint (cOrder pr m) t g.val g.der) cs gs)
    (hrs : List.Forall₂ (fun t φ => IsPenalty (cOrder pr m) t φ.val φ.der φ.hes) rs φs) :
    Solver pr m dom ⟨f, PoissonT.like X Nw, PoissonT.gradLike X Nw, PoissonT.hessLike X Nw, Nw, cs, rs⟩
      (fun θ => Like.Poisson.like (pr.val X) (pr.val Nw) (valCell pr val θ)) gs φs (∑ c, pr.val Nw c) :=
  solver_of hpr (rule_poisson hpr hX hN) hm hf hone ht False.elim hu (fun _ _ => trivial) hN hT hcs hrs

/-- **C68.** The problem of `ZeroInflatedPoisson`. -/
theorem C68_solver_zeroInflatedPoisson (hpr : pr.Ok) {K : Nat → Prop} (s : ℝ) (hs : 0 ≤ s) {X Nw Z : Num ℝ} (hX : pr.IsData X) (hN : pr.IsData Nw) (hZ : pr.IsData Z) {st : Store} {f : TFunc ℝ} {val : Val}
    (hm : 0 < m) (hf : Computes pr (cOrder pr m) K st dom f val) (hone : f.gradOne = false) (ht : st.tot) (hu : ∀ p < m, st.used p) (hT : ∑ c, pr.val Nw c ≠ 0)
    {cs rs : List (TTerm ℝ)} (hcs : List.Forall₂ (fun t g => IsConstraint (cOrder pr m) t g.val g.der) cs gs)
    (hrs : List.Forall₂ (fun t φ => IsPenalty (cOrder pr m) t φ.val φ.der φ.hes) rs φs) :
    Solver pr m dom ⟨f, ZeroInflatedPoissonT.like s X Nw Z, ZeroInflatedPoissonT.gradLike s X Nw, ZeroInflatedPoissonT.hessLike s X Nw, Nw, cs, rs⟩
      (fun θ => Like.ZeroInflatedPoisson.like s (pr.val X) (pr.val Nw) (pr.val Z) (valCell pr val θ)) gs φs (∑ c, pr.val Nw c) :=
  solver_of hpr (rule_zeroInflatedPoisson hpr s hs hX hN hZ) hm hf hone ht False.elim hu (fun _ _ => trivial) hN hT hcs hrs

/-- **C68.** The problem of `Logistic`. -/
theorem C68_solver_logistic (hpr : pr.Ok) {K : Nat → Prop} {X Nw : Num ℝ} (hX : pr.IsData X) (hN : pr.IsData Nw) {st : Store} {f : TFunc ℝ} {val : Val}
    (hm : 0 < m) (hf : Computes pr (cOrder pr m) K st dom f val) (hone : f.gradOne = false) (ht : st.tot) (hu : ∀ p < m, st.used p) (hT : ∑ c, pr.val Nw c ≠ 0)
    {cs rs : List (TTerm ℝ)} (hcs : List.Forall₂ (fun t g => IsConstraint (cOrder pr m) t g.val g.der) cs gs)
    (hrs : List.Forall₂ (fun t φ => IsPenalty (cOrder pr m) t φ.val φ.der φ.hes) rs φs) :
    Solver pr m dom ⟨f, LogisticT.like X Nw, LogisticT.gradLike X Nw, LogisticT.hessLike X Nw, Nw, cs, rs⟩
      (fun θ => Like.Logistic.like (pr.val X) (pr.val Nw) (valCell pr val θ)) gs φs (∑ c, pr.val Nw c) :=
  solver_of hpr (rule_logistic hpr hX hN) hm hf hone ht False.elim hu (fun _ _ => trivial) hN hT hcs hrs

/-- **C68.** The problem of `NegativeBinomial`. -/
theorem C68_solver_negativeBinomial (hpr : pr.Ok) {K : Nat → Prop} (r : ℝ) (hr : 0 < r) {X Nw : Num ℝ} (hX : pr.IsData X) (hN : pr.IsData Nw) {st : Store} {f : TFunc ℝ} {val : Val}
    (hm : 0 < m) (hf : Computes pr (cOrder pr m) K st dom f val) (hone : f.gradOne = false) (ht : st.tot) (hu : ∀ p < m, st.used p) (hT : ∑ c, pr.val Nw c ≠ 0)
    {cs rs : List (TTerm ℝ)} (hcs : List.Forall₂ (fun t g => IsConstraint (cOrder pr m) t g.val g.der) cs gs)
    (hrs : List.Forall₂ (fun t φ => IsPenalty (cOrder pr m) t φ.val φ.der φ.hes) rs φs) :
    Solver pr m dom ⟨f, NegativeBinomialT.like r X Nw, NegativeBinomialT.gradLike r X Nw, NegativeBinomialT.hessLike r X Nw, Nw, cs, rs⟩
      (fun θ => Like.NegativeBinomial.like r (pr.val X) (pr.val Nw) (valCell pr val θ)) gs φs (∑ c, pr.val Nw c) :=
  solver_of hpr (rule_negativeBinomial hpr r hr hX hN) hm hf hone ht False.elim hu (fun _ _ => trivial) hN hT hcs hrs

/-- **C68.** The problem of `NormalizedFinite`. -/
theorem C68_solver_normalizedFinite (hpr : pr.Ok) {K : Nat → Prop} {Nw : Num ℝ} (hN : pr.IsData Nw) {st : Store} {f : TFunc ℝ} {val : Val}
    (hm : 0 < m) (hf : Computes pr (cOrder pr m) K st dom f val) (hone : f.gradOne = false) (ht : st.tot) (hu : ∀ p < m, st.used p) (hpos : ∀ θ, dom θ → ∀ n d, pr.Pos n d → 0 < val θ n d) (hT : ∑ c, pr.val Nw c ≠ 0)
    {cs rs : List (TTerm ℝ)} (hcs : List.Forall₂ (fun t g => IsConstraint (cOrder pr m) t g.val g.der) cs gs)
    (hrs : List.Forall₂ (fun t φ => IsPenalty (cOrder pr m) t φ.val φ.der φ.hes) rs φs) :
    Solver pr m dom ⟨f, NormalizedFiniteT.like Nw, NormalizedFiniteT.gradLike Nw, NormalizedFiniteT.hessLike Nw, Nw, cs, rs⟩
      (fun θ => Like.NormalizedFinite.like (pr.val Nw) (valCell pr val θ)) gs φs (∑ c, pr.val Nw c) :=
  solver_of hpr (rule_normalizedFinite hpr hN) hm hf hone ht False.elim hu (fun θ hθ c => hpos θ hθ _ _ (cell_pos c)) hN hT hcs hrs

/-- **C68.** The problem of `Finite`. -/
theorem C68_solver_finite (hpr : pr.Ok) {K : Nat → Prop} {Nw : Num ℝ} (hN : pr.IsData Nw) {st : Store} {f : TFunc ℝ} {val : Val}
    (hm : 0 < m) (hf : Computes pr (cOrder pr m) K st dom f val) (hone : f.gradOne = false) (ht : st.tot) (hc : st.clean) (hu : ∀ p < m, st.used p) (hpos : ∀ θ, dom θ → ∀ n d, pr.Pos n d → 0 < val θ n d) (hT : ∑ c, pr.val Nw c ≠ 0)
    {cs rs : List (TTerm ℝ)} (hcs : List.Forall₂ (fun t g => IsConstraint (cOrder pr m) t g.val g.der) cs gs)
    (hrs : List.Forall₂ (fun t φ => IsPenalty (cOrder pr m) t φ.val φ.der φ.hes) rs φs) (hK : ∀ q, pr.n ≤ q → K q := by exact fun _ _ => trivial) :
    Solver pr m dom ⟨f, FiniteT.like Nw, FiniteT.gradLike Nw, FiniteT.hessLike Nw, Nw, cs, rs⟩
      (fun θ => Like.Finite.like (pr.val Nw) (valCell pr val θ)) gs φs (∑ c, pr.val Nw c) :=
  solver_of hpr (rule_finite hpr hK hN) hm hf hone ht (fun _ => hc) hu (fun θ hθ c => hpos θ hθ _ _ (cell_pos c)) hN hT hcs hrs

/-- A concrete problem: the model of test_poisson_sum with the constraint `Linear([1, 1])` and the penalty `Quadratic(0, 10)` on the first two parameters, for all
data with positive total weight.  The conclusions of C68 hold for the fit from every start point (`dom` is `True`). -/
theorem C68_example {s : Nat} (hs : s ≠ 0) {X Nw : Num ℝ} (hX : (square s).IsData X) (hN : (square s).IsData Nw) (hT : 0 < ∑ c, (square s).val Nw c) :
    Solver (square s) 3 (fun _ => True) ⟨composeT logT [bothModel], PoissonT.like X Nw, PoissonT.gradLike X Nw, PoissonT.hessLike X Nw, Nw,
        [⟨[0, 1], linearT [1, 1]⟩], [⟨[0, 1], quadraticT 0 10⟩]⟩
      (fun θ => Like.Poisson.like ((square s).val X) ((square s).val Nw) (valCell (square s)
        (fun θ n _ => Real.log (Real.exp (θ 0 (n 0) - θ 1 (n 1) + θ 2 0) + Real.exp (θ 0 (n 1) - θ 1 (n 0) - θ 2 0))) θ))
      [linCon (square s) [0, 1] [1, 1]] [quadPen (square s) [0, 1] 0 10] (∑ c, (square s).val Nw c) :=
  C68_solver_poisson (square_ok hs) hX hN (by omega) (poisson_sum_computes hs) rfl trivial (fun _ _ => trivial) hT.ne'
    (.cons (C67_linear (by simp) (by simp) (by simp) (by simp)) .nil) (.cons (C67_quadratic (by simp) (by simp) (by norm_num)) .nil)

/-- If the log-likelihood is defined everywhere, then it is defined at the points that `fit` tries. -/
theorem tried_dom (hm : 0 < m) (hd : ∀ θ, dom θ) (env : Fit.Env ℝ G Y D H N) {θ : Theta} {o : Fit.Obj ℝ N} (hat : AtPoint pr m θ o.params)
    {maxSteps verbose : Nat} : ∀ tr ∈ (Fit.fit env o maxSteps verbose .newton).trace, ∀ q ∈ tr, ∃ θ', dom θ' ∧ AtPoint pr m θ' q := by
  intro tr ht q hq
  have := tried_keeps env (hat.ne hm) hat.wf tr ht q hq
  exact ⟨_, hd _, hat.layout this.1 this.2⟩

/-- The fit of that problem, from any start point with a free entry: if it returns, then it has not decreased
`log-likelihood - penalty` and the sum of the entries of the first two parameters is not further from 0 than at the start; fixed entries are as they were. -/
theorem C68_example_fit {s : Nat} (hs : s ≠ 0) {X Nw : Num ℝ} (hX : (square s).IsData X) (hN : (square s).IsData Nw) (hT : 0 < ∑ c, (square s).val Nw c)
    {θ : Theta} {o : Fit.Obj ℝ (List (List ℝ))} (hat : AtPoint (square s) 3 θ o.params) (hF : 1 ≤ totalFree o.params) {maxSteps verbose : Nat}
    {r : Fit.Result ℝ (List (List ℝ))} (hr : r = Fit.fit (MaxLikeT.env ⟨composeT logT [bothModel], PoissonT.like X Nw, PoissonT.gradLike X Nw, PoissonT.hessLike X Nw, Nw,
        [⟨[0, 1], linearT [1, 1]⟩], [⟨[0, 1], quadraticT 0 10⟩]⟩ pinvh tol) o maxSteps verbose .newton) {b : Bool} (h : r.outcome = .ok b) :
    ∃ θ', AtPoint (square s) 3 θ' r.obj.params ∧
      Like.Poisson.like ((square s).val X) ((square s).val Nw) (valCell (square s)
        (fun θ n _ => Real.log (Real.exp (θ 0 (n 0) - θ 1 (n 1) + θ 2 0) + Real.exp (θ 0 (n 1) - θ 1 (n 0) - θ 2 0))) θ) -
          ∑ k ∈ Finset.range 2, ∑ a ∈ Finset.range ((square s).sizes k).prod, ((θ k a - 0) / 10) ^ 2 ≤
      Like.Poisson.like ((square s).val X) ((square s).val Nw) (valCell (square s)
        (fun θ n _ => Real.log (Real.exp (θ 0 (n 0) - θ 1 (n 1) + θ 2 0) + Real.exp (θ 0 (n 1) - θ 1 (n 0) - θ 2 0))) θ') -
          ∑ k ∈ Finset.range 2, ∑ a ∈ Finset.range ((square s).sizes k).prod, ((θ' k a - 0) / 10) ^ 2 ∧
      |∑ k ∈ Finset.range 2, ∑ a ∈ Finset.range ((square s).sizes k).prod, θ' k a| ≤ |∑ k ∈ Finset.range 2, ∑ a ∈ Finset.range ((square s).sizes k).prod, θ k a| ∧
      ∀ i a, isFixed o.params i a → θ' i a = θ i a := by
  subst hr
  have hM := C68_example hs hX hN hT
  have hd := tried_dom (dom := fun _ => True) (by omega : 0 < 3) (fun _ => trivial) (MaxLikeT.env ⟨composeT logT [bothModel], PoissonT.like X Nw, PoissonT.gradLike X Nw, PoissonT.hessLike X Nw, Nw,
    [⟨[0, 1], linearT [1, 1]⟩], [⟨[0, 1], quadraticT 0 10⟩]⟩ pinvh tol) hat (maxSteps := maxSteps) (verbose := verbose)
  obtain ⟨θ', -, d2, d3, d4⟩ := C68_never_decreases hM hT trivial hat hF hd h
  have c := (C68_constraints hM trivial hat hF hd (pm := [0, 1]) (w := [1, 1]) (by simp) (by simp) (by simp) (by simp) (by simp)).2 θ' d2
  refine ⟨θ', d2, ?_, ?_, d4⟩
  · have e : ∀ θ, ((quadPen (square s) [0, 1] 0 10).val θ) =
        ∑ k ∈ Finset.range 2, ∑ a ∈ Finset.range ((square s).sizes k).prod, ((θ k a - 0) / 10) ^ 2 := fun θ => by
      simp [quadPen, Finset.sum_range_succ]
    unfold penalised at d3
    simp only [List.map_cons, List.map_nil, List.sum_cons, List.sum_nil, add_zero, e] at d3
    exact d3
  · have e : ∀ θ, ((linCon (square s) [0, 1] [1, 1]).val θ) = ∑ k ∈ Finset.range 2, ∑ a ∈ Finset.range ((square s).sizes k).prod, θ k a := fun θ => by
      simp [linCon, Finset.sum_range_succ]
    rw [e, e] at c
    exact c

end Verif.Tens
