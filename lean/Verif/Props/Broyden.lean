import Verif.Lemmas.Broyden
import Verif.Props.FitFull

/-!
# C71: Broyden's method with a model on Tensors
-/

set_option linter.unusedSectionVars false

namespace Verif.Tens
open Verif.Params

variable {pr : Problem} {m : Nat} {dom : Theta → Prop} {L : Theta → ℝ} {M : MaxLikeT ℝ} {gs : List Con} {φs : List Pen} {T : ℝ}
  {pinvh : List (List ℝ) → Except Err (List (List ℝ))} {tol : ℝ}

/-- The parameters with the free entries `flat`. -/
theorem reshape_entries {params : List (Param ℝ)} (hne : params ≠ []) (hwf : ∀ p ∈ params, p.WF) {flat : List ℝ} (hlen : flat.length = totalFree params) :
    ∃ rs, reshapeParams params flat = .ok rs ∧ SameLayout rs params ∧ (∀ p ∈ rs, p.WF) ∧ (∀ i a, isFree params i a → entry rs i a = flat[freeRank params i a]?) ∧
      ∀ i a, isFixed params i a → entry rs i a = entry params i a := by
  have hne2 : (params.map (fun p => sel p.mask p.values)).isEmpty = false := by simpa using hne
  have hfx := fixed_length params hwf
  refine ⟨place params flat (params.map (fun p => sel p.mask p.values)).flatten, ?_, place_layout _ _ _, place_wf _ _ _ hwf (by omega) (by omega), ?_, ?_⟩
  · simp only [npConcatenate, reshapeParams, hne2, reshapeArray, bind, Except.bind, Bool.false_eq_true, if_false]
    rw [reshapeArrayFrom_array _ _ _ _ _ hwf (by omega) (by omega)]
    simp
  · intro i a h
    exact place_entry_free _ _ _ (by omega) (by omega) i a h
  · intro i a h
    exact place_entry_fixed_self _ _ hwf (by omega) i a h

/-- `flat_grad` with `model(params)` and `model.grad(params)`. -/
theorem grad_call_ok (hM : Solver pr m dom M L gs φs T) {D : Theta → Nat → Nat → ℝ}
    (hD : ∀ θ, dom θ → ∀ p < m, ∀ a < (pr.sizes p).prod, HasPartial (penalised L φs) θ p a (D θ p a)) {θ : Theta} (hθ : dom θ) {params : List (Param ℝ)}
    (hat : AtPoint pr m θ params) : ∃ y der v, (M.env pinvh tol).modelCall params = .ok y ∧ (M.env pinvh tol).modelGrad params = .ok der ∧
      (M.env pinvh tol).flatGrad params y der = .ok v ∧ FlatGradIs params (D θ) (gs.map fun c => c.val θ) v := by
  obtain ⟨hess, hf, hw⟩ := hM.separate
  obtain ⟨D', H', h1, -, -, h4⟩ := C67_flat hM.pos hf hw hM.constraints hM.penalties
  obtain ⟨⟨v, v1, v2⟩, -⟩ := h4 θ hθ params hat
  unfold flatGradM modelGradCall at v1
  obtain ⟨gl, e1, v1⟩ := Flat.bind_ok v1
  obtain ⟨y0, e2, e1⟩ := Flat.bind_ok e1
  obtain ⟨y, e3, e1⟩ := Flat.bind_ok e1
  obtain ⟨d0, e4, e1⟩ := Flat.bind_ok e1
  obtain ⟨der, e5, e1⟩ := Flat.bind_ok e1
  refine ⟨y, der, v, ?_, ?_, ?_, v2.length, fun i a hfr => ?_, v2.rest⟩
  · show callT M params = _
    unfold callT
    rw [e2]
    exact e3
  · show gradsT M params = _
    unfold gradsT
    rw [e4]
    exact e5
  · show (M.gradLike y der >>= fun gl => flatGradT params gl M.constraint M.reg) = _
    rw [e1]
    exact v1
  · obtain ⟨hi, ha⟩ := hat.free hfr
    rw [v2.free i a hfr, hasPartial_unique (h1 θ hθ i hi a ha) (hD θ hθ i hi a ha)]

theorem move_ok {params q : List (Param ℝ)} (hne : params ≠ []) (hwf : ∀ p ∈ params, p.WF) {n : Nat} (hn : totalFree params ≤ n) {flat step : List ℝ}
    (hfl : flat.length = totalFree params) (hst : step.length = n) (hq : reshapeParams params flat = .ok q) :
    ∃ flat' q', Fit.inplaceAdd flat (step.take (totalFree params)) = .ok flat' ∧ flat'.length = totalFree params ∧ reshapeParams params flat' = .ok q' ∧
      MovedBy q q' (toVec n step) ∧ SameLayout q' params ∧ ∀ p ∈ q', p.WF := by
  have hl : flat.length = (step.take (totalFree params)).length := by rw [List.length_take, hfl]; omega
  have h1 : Fit.inplaceAdd flat (step.take (totalFree params)) = .ok (List.zipWith (· + ·) flat (step.take (totalFree params))) := by
    unfold Fit.inplaceAdd Fit.bzip
    rw [if_pos hl]
    show (if _ then _ else _) = _
    rw [if_pos (by rw [List.length_zipWith]; omega)]
    rfl
  have h2 : (List.zipWith (· + ·) flat (step.take (totalFree params))).length = totalFree params := by rw [List.length_zipWith]; omega
  obtain ⟨q1, a1, a2, a3, a4, a5⟩ := reshape_entries hne hwf hfl
  obtain ⟨q2, b1, b2, b3, b4, b5⟩ := reshape_entries hne hwf h2
  rw [hq] at a1
  cases a1
  refine ⟨_, q2, h1, h2, b1, ⟨b2.trans a2.symm, fun i a hf => ?_, fun i a hf => ?_⟩, b2, b3⟩
  · have hf' := (layout_free a2).1 hf
    have hr := rank_lt hf'
    rw [← layout_rank a2 i a] at hr
    refine ⟨flat[freeRank q i a]'(by omega), by omega, ?_, ?_⟩
    · rw [a4 i a hf', ← layout_rank a2]
      exact List.getElem?_eq_getElem _
    · rw [b4 i a hf', ← layout_rank a2, List.getElem?_zipWith, List.getElem?_eq_getElem (by omega), List.getElem?_take, if_pos hr,
        List.getElem?_eq_getElem (by omega)]
      simp only [toVec, List.getD_eq_getElem?_getD]
      rw [List.getElem?_eq_getElem (by omega)]
      rfl
  · have hf' : isFixed params i a := Fit.SameLayout.isFixed a2.symm hf
    rw [b5 i a hf', a5 i a hf']

def consFn {β : Type} (a : β) (f : Nat → β) : Nat → β
  | 0 => a
  | k + 1 => f k

theorem run_nil (D : Theta → Nat → Nat → ℝ) {n : Nat} (q : Nat → List (Param ℝ)) (v s : Nat → Fin n → ℝ) (J : Nat → Matrix (Fin n) (Fin n) ℝ) :
    BroydenRun pr m dom D gs 0 q v s J :=
  ⟨fun _ h => absurd h (by omega), fun _ h => absurd h (by omega), fun _ h => absurd h (by omega), fun _ h => absurd h (by omega), fun _ h => absurd h (by omega)⟩

theorem run_cons {D : Theta → Nat → Nat → ℝ} {n k : Nat} {q : Nat → List (Param ℝ)} {v s : Nat → Fin n → ℝ} {J : Nat → Matrix (Fin n) (Fin n) ℝ}
    (h : BroydenRun pr m dom D gs k q v s J) {q0 : List (Param ℝ)} {v0 s0 : Fin n → ℝ} {J0 : Matrix (Fin n) (Fin n) ℝ}
    (h1 : ∃ θ, dom θ ∧ AtPoint pr m θ q0 ∧ FlatGradIs q0 (D θ) (gs.map fun c => c.val θ) (List.ofFn v0)) (h2 : s0 = -J0.mulVec v0) (h3 : MovedBy q0 (q 0) s0)
    (h4 : 0 < k → v 0 ≠ v0 ∧ (J 0).mulVec (v 0 - v0) = s0) (h5 : 0 < k → ∀ z, dotProduct (v 0 - v0) z = 0 → (J 0).mulVec z = J0.mulVec z) :
    BroydenRun pr m dom D gs (k + 1) (consFn q0 q) (consFn v0 v) (consFn s0 s) (consFn J0 J) := by
  constructor
  · rintro (_ | i) hi
    · exact h1
    · exact h.grad i (by omega)
  · rintro (_ | i) hi
    · exact h2
    · exact h.step i (by omega)
  · rintro (_ | i) hi
    · exact h3
    · exact h.move i (by omega)
  · rintro (_ | i) hi
    · exact h4 (by omega)
    · exact h.secant i (by omega)
  · rintro (_ | i) hi
    · exact h5 (by omega)
    · exact h.keep i (by omega)

theorem end_cons {P : Theta → ℝ} {D : Theta → Nat → Nat → ℝ} {o : Fit.Obj ℝ (List (List ℝ))} {N maxSteps verbose n : Nat} {q : Nat → List (Param ℝ)}
    {v : Nat → Fin N → ℝ} {J : Nat → Matrix (Fin N) (Fin N) ℝ} {r r' : Fit.Result ℝ (List (List ℝ))} (hv : verbose = 0)
    (h : BroydenEnd pr m dom P D gs tol o maxSteps verbose n q v J r) (h1 : r'.outcome = r.outcome) (h2 : r'.obj = r.obj) (q0 : List (Param ℝ)) (v0 : Fin N → ℝ)
    (J0 : Matrix (Fin N) (Fin N) ℝ) : BroydenEnd pr m dom P D gs tol o (maxSteps + 1) verbose (n + 1) (consFn q0 q) (consFn v0 v) (consFn J0 J) r' := by
  cases h with
  | returns θ₀ θ₁ B k hn hv h h₀ h₁ at₀ at₁ ne close params flag stored sq inv =>
    exact .returns θ₀ θ₁ B (k + 1) (by omega) hv (h1.trans h) h₀ h₁ at₀ at₁ ne close (by rw [h2]; exact params) (by rw [h2]; exact flag) (by rw [h2]; exact stored) sq inv
  | divisionByZero θ₁ hv h h₁ at₁ zero params flag => exact .divisionByZero θ₁ hv (h1.trans h) h₁ at₁ zero (by rw [h2]; exact params) (by rw [h2]; exact flag)
  | exhausted h hn params flag => exact .exhausted (h1.trans h) (by omega) (by rw [h2]; exact params) (by rw [h2]; exact flag)
  | stuck θ₁ k hv hn h h₁ at₁ same params flag =>
    exact .stuck θ₁ (k + 1) hv (by omega) (h1.trans h) h₁ at₁ same (by rw [h2]; exact params) (by rw [h2]; exact flag)
  | verbose hn hv' h params flag => omega

/-- The loop of Broyden's method. -/
theorem loop_ok (hM : Solver pr m dom M L gs φs T) {D : Theta → Nat → Nat → ℝ}
    (hD : ∀ θ, dom θ → ∀ p < m, ∀ a < (pr.sizes p).prod, HasPartial (penalised L φs) θ p a (D θ p a)) {o : Fit.Obj ℝ (List (List ℝ))} (hne : o.params ≠ [])
    (hwf : ∀ p ∈ o.params, p.WF) (vb : Nat) : ∀ (k : Nat) (θ : Theta) (q0 : List (Param ℝ)) (flat grad : List ℝ) (J : List (List ℝ)), dom θ →
      AtPoint pr m θ q0 → reshapeParams o.params flat = .ok q0 → flat.length = totalFree o.params → SameLayout q0 o.params →
      FlatGradIs q0 (D θ) (gs.map fun c => c.val θ) grad → Square (totalFree o.params + gs.length) J → ∀ r,
      r = Fit.broydenLoop (M.env exactPinvh tol) o vb (totalFree o.params) k flat grad J (penalised L φs θ / T) →
      (∀ tr ∈ r.trace, ∀ q ∈ tr, ∃ θ', dom θ' ∧ AtPoint pr m θ' q) →
      ∃ (n : Nat) (q : Nat → List (Param ℝ)) (v s : Nat → Fin (totalFree o.params + gs.length) → ℝ) (Js : Nat → Matrix (Fin (totalFree o.params + gs.length)) (Fin (totalFree o.params + gs.length)) ℝ),
        q 0 = q0 ∧ v 0 = toVec _ grad ∧ Js 0 = toMat _ J ∧ r.trace = (List.range n).map (fun i => [q (i + 1)]) ∧ BroydenRun pr m dom D gs n q v s Js ∧
        BroydenEnd pr m dom (penalised L φs) D gs tol o k vb n q v Js r := by
  set N := totalFree o.params + gs.length with hN
  intro k
  induction k with
  | zero =>
    intro θ q0 flat grad J hθ hat hre hfl hlay hg hJ r hr hdom
    refine ⟨0, fun _ => q0, fun _ => toVec N grad, fun _ => 0, fun _ => toMat N J, rfl, rfl, rfl, ?_, run_nil _ _ _ _ _, ?_⟩
    · rw [hr]; rfl
    · rw [hr]; exact .exhausted rfl rfl rfl rfl
  | succ k ih =>
    intro θ q0 flat grad J hθ hat hre hfl hlay hg hJ r hr hdom
    have hgl : grad.length = N := by rw [hg.length, List.length_map, Verif.Flat.SameLayout.totalFree hlay]
    obtain ⟨step, s1, s2, s3⟩ := direction_ok hJ hgl
    obtain ⟨flat', q1, f1, f2, f3, f4, f5, f6⟩ := move_ok hne hwf (n := N) (by omega) hfl s2 hre
    rw [Fit.broydenLoop] at hr
    rw [show (M.env exactPinvh tol).direction J grad = .ok step from s1] at hr
    dsimp only at hr
    rw [f1] at hr
    dsimp only at hr
    rw [f3] at hr
    dsimp only at hr
    have hmem : ∃ tr ∈ r.trace, q1 ∈ tr := by
      rw [hr]
      split
      · exact ⟨_, List.mem_singleton.2 rfl, List.mem_singleton.2 rfl⟩
      · split
        · exact ⟨_, List.mem_singleton.2 rfl, List.mem_singleton.2 rfl⟩
        · split
          · exact ⟨_, List.mem_singleton.2 rfl, List.mem_singleton.2 rfl⟩
          · split <;> exact ⟨_, List.mem_singleton.2 rfl, List.mem_singleton.2 rfl⟩
          · split
            · exact ⟨_, List.mem_singleton.2 rfl, List.mem_singleton.2 rfl⟩
            · exact ⟨_, List.mem_cons_self, List.mem_singleton.2 rfl⟩
    obtain ⟨tr, htr, hq1⟩ := hmem
    obtain ⟨θ1, hθ1, hat1⟩ := hdom tr htr q1 hq1
    rw [C68_objective hM hθ1 hat1] at hr
    dsimp only at hr
    have hgo : List.ofFn (toVec N grad) = grad := ofFn_toVec hgl
    have base : ∀ (v : Fin N → ℝ) (J' : Matrix (Fin N) (Fin N) ℝ), BroydenRun pr m dom D gs (0 + 1) (consFn q0 fun _ => q1) (consFn (toVec N grad) fun _ => v) (consFn (toVec N step) fun _ => toVec N step)
        (consFn (toMat N J) fun _ => J') := fun v J' => run_cons (run_nil D _ _ _ _) ⟨θ, hθ, hat, by rw [hgo]; exact hg⟩ s3 f4 (fun h => absurd h (by omega)) (fun h => absurd h (by omega))
    by_cases hv : 0 < vb
    · rw [if_pos hv] at hr
      refine ⟨0 + 1, _, _, _, _, rfl, rfl, rfl, ?_, base (toVec N grad) (toMat N J), ?_⟩
      · rw [hr]; rfl
      · rw [hr]; exact .verbose rfl hv rfl rfl rfl
    rw [if_neg hv] at hr
    have hv0 : vb = 0 := by omega
    have hc : (M.env exactPinvh tol).conv (penalised L φs θ / T) (penalised L φs θ1 / T) =
        if penalised L φs θ1 / T = 0 then .error .zeroDivision else .ok (decide (|penalised L φs θ / T / (penalised L φs θ1 / T) - 1| < tol)) := rfl
    by_cases hz : penalised L φs θ1 / T = 0
    · rw [hc, if_pos hz] at hr
      dsimp only at hr
      refine ⟨0 + 1, _, _, _, _, rfl, rfl, rfl, ?_, base (toVec N grad) (toMat N J), ?_⟩
      · rw [hr]; rfl
      · rw [hr]
        refine .divisionByZero θ1 hv0 rfl hθ1 hat1 ?_ rfl rfl
        rcases div_eq_zero_iff.1 hz with h | h
        · exact h
        · exact absurd h hM.ne
    rw [hc, if_neg hz] at hr
    have hp1 : penalised L φs θ1 ≠ 0 := fun h => hz (by rw [h, zero_div])
    by_cases hcl : |penalised L φs θ / T / (penalised L φs θ1 / T) - 1| < tol
    · rw [decide_eq_true hcl] at hr
      dsimp only at hr
      obtain ⟨B, b1, b2, b3⟩ := exactPinvh_total hJ
      rw [show (M.env exactPinvh tol).pinvh J = .ok B from b1] at hr
      dsimp only at hr
      refine ⟨0 + 1, _, _, _, _, rfl, rfl, rfl, ?_, base (toVec N grad) (toMat N J), ?_⟩
      · rw [hr]; rfl
      · rw [hr]
        refine .returns θ θ1 B 0 rfl hv0 rfl hθ hθ1 hat hat1 hp1 ?_ rfl rfl rfl b2 b3
        rwa [div_div_div_cancel_right₀ hM.ne] at hcl
    rw [decide_eq_false hcl] at hr
    dsimp only at hr
    obtain ⟨y, der, v1, g1, g2, g3, g4⟩ := grad_call_ok (pinvh := exactPinvh) (tol := tol) hM hD hθ1 hat1
    have hv1 : v1.length = N := by rw [g4.length, List.length_map, Verif.Flat.SameLayout.totalFree f5]
    rw [g1, g2] at hr
    simp only [ok_bind'] at hr
    rw [g3] at hr
    simp only [ok_bind'] at hr
    by_cases hch : toVec N v1 = toVec N grad
    · have he : v1 = grad := toVec_inj hv1 hgl hch
      have hu : (M.env exactPinvh tol).update J step v1 grad = .error .convergence := by
        show (if _ then _ else _) = _
        rw [if_pos]
        rw [List.all_eq_true]
        intro x hx
        rw [he] at hx
        obtain ⟨i, hi, rfl⟩ := List.mem_iff_getElem.1 hx
        simp
      rw [hu] at hr
      dsimp only [bind, Except.bind] at hr
      refine ⟨0 + 1, _, _, _, _, rfl, rfl, rfl, ?_, base (toVec N grad) (toMat N J), ?_⟩
      · rw [hr]; rfl
      · rw [hr]
        refine .stuck θ1 0 hv0 rfl rfl hθ1 hat1 ?_ rfl rfl
        show FlatGradIs q1 _ _ (List.ofFn (toVec N grad))
        rw [hgo, ← he]
        exact g4
    · obtain ⟨J', u1, u2, u3, u4⟩ := update_ok hJ s2 hgl hv1 hch
      have hu : (M.env exactPinvh tol).update J step v1 grad = .ok J' := by
        show (if _ then _ else _) = _
        rw [if_neg]
        · exact u1
        · intro hall
          refine hch (sub_eq_zero.1 ?_)
          rw [← toVec_sub hv1 hgl]
          rw [List.all_eq_true] at hall
          funext c
          have hc : c.val < (List.zipWith (· - ·) v1 grad).length := by rw [List.length_zipWith, hv1, hgl, min_self]; exact c.isLt
          have := of_decide_eq_true (hall _ (List.getElem_mem hc))
          simp only [toVec, List.getD_eq_getElem?_getD, List.getElem?_eq_getElem hc, Option.getD_some]
          exact this
      rw [hu] at hr
      dsimp only [bind, Except.bind, pure, Except.pure] at hr
      obtain ⟨n, q, v, s, Js, i1, i2, i3, i4, i5, i6⟩ := ih θ1 q1 flat' v1 J' hθ1 hat1 f3 f2 f5 g4 u2 _ rfl (fun tr ht => hdom tr (by rw [hr]; exact List.mem_cons_of_mem _ ht))
      refine ⟨n + 1, consFn q0 q, consFn (toVec N grad) v, consFn (toVec N step) s, consFn (toMat N J) Js, rfl, rfl, rfl, ?_, ?_, ?_⟩
      · rw [hr]
        dsimp only
        rw [i4, List.range_succ_eq_map, List.map_cons, List.map_map]
        show [q1] :: _ = [q 0] :: _
        rw [i1]
        rfl
      · refine run_cons i5 ⟨θ, hθ, hat, by rw [hgo]; exact hg⟩ s3 (by rw [i1]; exact f4) (fun _ => ?_) (fun _ => ?_)
        · rw [i2, i3]; exact ⟨hch, u3⟩
        · rw [i2, i3]; exact u4
      · exact end_cons hv0 i6 (by rw [hr]) (by rw [hr]) _ _ _

/-- The start of Broyden's method, and the linear system of `newton_step`. -/
theorem start_ok (hM : Solver pr m dom M L gs φs T) : ∃ D H, Derivs pr m dom (penalised L φs) D H ∧
    ∀ tol θ, dom θ → ∀ o : Fit.Obj ℝ (List (List ℝ)), AtPoint pr m θ o.params → 1 ≤ totalFree o.params → o.converged = false ∨ o.flatHess = none → ∃ v Hs J,
      FlatGradIs o.params (D θ) (gs.map fun c => c.val θ) v ∧ FlatHessIs o.params (H θ) (gs.map fun c => c.der θ) Hs ∧ Square (totalFree o.params + gs.length) Hs ∧
      Square (totalFree o.params + gs.length) J ∧ IsPinv (lowerOf (toMat (totalFree o.params + gs.length) Hs)) (toMat (totalFree o.params + gs.length) J) ∧
      (Fit.newtonStep (M.env exactPinvh tol) o.params = (do
        let step ← exactSolve Hs v
        let i ← Fit.stepCut M.constraint.length step.length
        pure (step.take i, penalised L φs θ / T, v, Hs))) ∧
      ∀ maxSteps verbose, ∃ p, Fit.fit (M.env exactPinvh tol) o maxSteps verbose .broyden =
        { Fit.broydenLoop (M.env exactPinvh tol) { o with flatHess := some Hs } verbose (totalFree o.params) maxSteps (o.params.map Param.compressed).flatten v J
            (penalised L φs θ / T) with prints := p } := by
  obtain ⟨D, H, h1, h2, -, h4⟩ := C67_flat hM.pos hM.fit hM.whole hM.constraints hM.penalties
  refine ⟨D, H, ⟨h1, h2⟩, fun tol θ hθ o hat hF hfr => ?_⟩
  obtain ⟨⟨v, v1, v2⟩, Hs, j1, j2⟩ := h4 θ hθ o.params hat
  obtain ⟨y, der, h, e1, e2, e3, e4⟩ := parts_ok hM exactPinvh tol hθ hat
  have hq : Square (totalFree o.params + gs.length) Hs := by
    have a := j2.rows
    have b := j2.cols
    rw [List.length_map] at a b
    exact ⟨a, b⟩
  obtain ⟨J, b1, b2, b3⟩ := exactPinvh_total hq
  have hlen : M.constraint.length = gs.length := hM.constraints.length_eq
  refine ⟨v, Hs, J, v2, j2, hq, b2, b3, ?_, fun maxSteps verbose => ?_⟩
  · unfold Fit.newtonStep
    show (evalT M o.params >>= fun x => _) = _
    rw [e1, ok_bind']
    show (objT M o.params y >>= fun x => _) = _
    rw [e2, ok_bind', e3, v1, ok_bind', e4, j1, ok_bind']
    rfl
  · unfold Fit.fit
    rw [flatParams_ok (hat.ne hM.pos)]
    dsimp only
    unfold Fit.broyden
    rw [C68_objective hM hθ hat]
    have hme : (M.env exactPinvh tol).modelEval o.params = .ok (y, der, h) := e1
    have hru : Fit.reuseHess (M.env exactPinvh tol) o v.length = false := by
      unfold Fit.reuseHess
      rcases hfr with hc | hc
      · rcases o.flatHess with _ | x
        · rfl
        · simp [hc]
      · rw [hc]
    have hcut : Fit.stepCut (M.env exactPinvh tol).nConstraints v.length = .ok (totalFree o.params) := by
      show Fit.stepCut M.constraint.length v.length = _
      rw [v2.length, List.length_map, hlen]
      exact Fit.C12_step_cut _ _ hF
    have hph : (M.env exactPinvh tol).pinvh Hs = .ok J := b1
    rw [hme]
    simp only [ok_bind']
    rw [e3, v1]
    simp only [ok_bind']
    dsimp only [pure, Except.pure]
    rw [hru, if_neg (by simp), e4, j1]
    dsimp only
    rw [ok_bind', hph, ok_bind', hcut, ok_bind']
    exact ⟨_, rfl⟩

/-- **C71.** A call of `fit` with Broyden's method (from an object whose last fit failed, or that has not been fitted) is Broyden's method for the first order conditions
of the constrained problem: it starts with the pseudo-inverse of the symmetric matrix with the lower triangle of the bordered second derivatives at the start; each step is
minus `J` times the first derivatives and the constraints; `J` is updated so that it satisfies the secant equation and is not changed in the other directions.  It can only
end as in `BroydenEnd`.  The log-likelihood must be defined (`dom`) at the points that `fit` tries. -/
theorem C71_run (hM : Solver pr m dom M L gs φs T) : ∃ D H, Derivs pr m dom (penalised L φs) D H ∧
    ∀ tol θ, dom θ → ∀ o : Fit.Obj ℝ (List (List ℝ)), AtPoint pr m θ o.params → 1 ≤ totalFree o.params → o.converged = false ∨ o.flatHess = none →
      ∀ maxSteps verbose r, r = Fit.fit (M.env exactPinvh tol) o maxSteps verbose .broyden → (∀ tr ∈ r.trace, ∀ q ∈ tr, ∃ θ', dom θ' ∧ AtPoint pr m θ' q) →
      ∃ (Hs : List (List ℝ)) (n : Nat) (q : Nat → List (Param ℝ)) (v s : Nat → Fin (totalFree o.params + gs.length) → ℝ)
        (J : Nat → Matrix (Fin (totalFree o.params + gs.length)) (Fin (totalFree o.params + gs.length)) ℝ),
        q 0 = o.params ∧ r.trace = (List.range n).map (fun i => [q (i + 1)]) ∧ FlatHessIs o.params (H θ) (gs.map fun c => c.der θ) Hs ∧
        IsPinv (lowerOf (toMat _ Hs)) (J 0) ∧ BroydenRun pr m dom D gs n q v s J ∧ BroydenEnd pr m dom (penalised L φs) D gs tol o maxSteps verbose n q v J r := by
  obtain ⟨D, H, hD, hst⟩ := start_ok hM
  refine ⟨D, H, hD, fun tol θ hθ o hat hF hfr maxSteps verbose r hr hdom => ?_⟩
  obtain ⟨v, Hs, J, a1, a2, -, a4, a5, -, a7⟩ := hst tol θ hθ o hat hF hfr
  obtain ⟨p, hp⟩ := a7 maxSteps verbose
  rw [hp] at hr
  have hre : reshapeParams o.params (o.params.map Param.compressed).flatten = .ok o.params := by
    have := C01_rebuild_flatten o.params (hat.ne hM.pos) hat.wf
    rw [flatParams_ok (hat.ne hM.pos)] at this
    exact this
  obtain ⟨n, q, w, s, Js, i1, i2, i3, i4, i5, i6⟩ := loop_ok hM hD.first (o := { o with flatHess := some Hs }) (tol := tol) (hat.ne hM.pos) hat.wf verbose maxSteps θ o.params
    (o.params.map Param.compressed).flatten v J hθ hat hre (flatten_length _ hat.wf) rfl a1 a4 _ rfl (fun tr ht => hdom tr (by rw [hr]; exact ht))
  refine ⟨Hs, n, q, w, s, Js, i1, by rw [hr]; exact i4, a2, by rw [i3]; exact a5, i5, ?_⟩
  rw [hr]
  cases i6 with
  | returns θ₀ θ₁ B k hn hv h h₀ h₁ at₀ at₁ ne close params flag stored sq inv => exact .returns θ₀ θ₁ B k hn hv h h₀ h₁ at₀ at₁ ne close params flag stored sq inv
  | divisionByZero θ₁ hv h h₁ at₁ zero params flag => exact .divisionByZero θ₁ hv h h₁ at₁ zero params flag
  | exhausted h hn params flag => exact .exhausted h hn params flag
  | stuck θ₁ k hv hn h h₁ at₁ same params flag => exact .stuck θ₁ k hv hn h h₁ at₁ same params flag
  | verbose hn hv' h params flag => exact .verbose hn hv' h params flag

/-- **C71.** The same for an object with the flag `converged` and a stored matrix of the right size (an `n` by `n` array, where `n` is the number of free entries and
constraints), as after a fit that returned: the run starts with the pseudo-inverse of the symmetric matrix with the lower triangle of the stored one. -/
theorem C71_reuse (hM : Solver pr m dom M L gs φs T) : ∃ D H, Derivs pr m dom (penalised L φs) D H ∧
    ∀ tol θ, dom θ → ∀ o : Fit.Obj ℝ (List (List ℝ)), AtPoint pr m θ o.params → 1 ≤ totalFree o.params → ∀ Hs, o.converged = true → o.flatHess = some Hs →
      Square (totalFree o.params + gs.length) Hs →
      ∀ maxSteps verbose r, r = Fit.fit (M.env exactPinvh tol) o maxSteps verbose .broyden → (∀ tr ∈ r.trace, ∀ q ∈ tr, ∃ θ', dom θ' ∧ AtPoint pr m θ' q) →
      ∃ (n : Nat) (q : Nat → List (Param ℝ)) (v s : Nat → Fin (totalFree o.params + gs.length) → ℝ)
        (J : Nat → Matrix (Fin (totalFree o.params + gs.length)) (Fin (totalFree o.params + gs.length)) ℝ),
        q 0 = o.params ∧ r.trace = (List.range n).map (fun i => [q (i + 1)]) ∧ IsPinv (lowerOf (toMat _ Hs)) (J 0) ∧
        BroydenRun pr m dom D gs n q v s J ∧ BroydenEnd pr m dom (penalised L φs) D gs tol o maxSteps verbose n q v J r := by
  obtain ⟨D, H, h1, h2, -, h4⟩ := C67_flat hM.pos hM.fit hM.whole hM.constraints hM.penalties
  refine ⟨D, H, ⟨h1, h2⟩, fun tol θ hθ o hat hF Hs hc hh hq maxSteps verbose r hr hdom => ?_⟩
  obtain ⟨⟨v, v1, v2⟩, -⟩ := h4 θ hθ o.params hat
  obtain ⟨y, der, h, e1, e2, e3, e4⟩ := parts_ok hM exactPinvh tol hθ hat
  obtain ⟨J, b1, b2, b3⟩ := exactPinvh_total hq
  have hlen : M.constraint.length = gs.length := hM.constraints.length_eq
  have hvl : v.length = totalFree o.params + gs.length := by rw [v2.length, List.length_map]
  have hfit : ∃ p, Fit.fit (M.env exactPinvh tol) o maxSteps verbose .broyden =
      { Fit.broydenLoop (M.env exactPinvh tol) o verbose (totalFree o.params) maxSteps (o.params.map Param.compressed).flatten v J (penalised L φs θ / T) with prints := p } := by
    unfold Fit.fit
    rw [flatParams_ok (hat.ne hM.pos)]
    dsimp only
    unfold Fit.broyden
    rw [C68_objective hM hθ hat]
    have hme : (M.env exactPinvh tol).modelEval o.params = .ok (y, der, h) := e1
    have hru : Fit.reuseHess (M.env exactPinvh tol) o v.length = true := by
      unfold Fit.reuseHess
      rw [hh, hc]
      show (true && (Hs.length == v.length)) = true
      simp [hq.1, hvl]
    have hcut : Fit.stepCut (M.env exactPinvh tol).nConstraints v.length = .ok (totalFree o.params) := by
      show Fit.stepCut M.constraint.length v.length = _
      rw [hvl, hlen]
      exact Fit.C12_step_cut _ _ hF
    have hph : (M.env exactPinvh tol).pinvh Hs = .ok J := b1
    rw [hme]
    simp only [ok_bind']
    rw [e3, v1]
    simp only [ok_bind']
    dsimp only [pure, Except.pure]
    rw [hru, if_pos rfl, hh]
    dsimp only
    rw [ok_bind', hph, ok_bind', hcut, ok_bind']
    rw [show ({ o with flatHess := some Hs } : Fit.Obj ℝ (List (List ℝ))) = o from by rw [← hh]]
    exact ⟨_, rfl⟩
  obtain ⟨p, hp⟩ := hfit
  rw [hp] at hr
  have hre : reshapeParams o.params (o.params.map Param.compressed).flatten = .ok o.params := by
    have := C01_rebuild_flatten o.params (hat.ne hM.pos) hat.wf
    rw [flatParams_ok (hat.ne hM.pos)] at this
    exact this
  obtain ⟨n, q, w, s, Js, i1, i2, i3, i4, i5, i6⟩ := loop_ok hM h1 (o := o) (tol := tol) (hat.ne hM.pos) hat.wf verbose maxSteps θ o.params
    (o.params.map Param.compressed).flatten v J hθ hat hre (flatten_length _ hat.wf) rfl v2 b2 _ rfl (fun tr ht => hdom tr (by rw [hr]; exact ht))
  refine ⟨n, q, w, s, Js, i1, by rw [hr]; exact i4, by rw [i3]; exact b3, i5, ?_⟩
  rw [hr]
  cases i6 with
  | returns θ₀ θ₁ B k hn hv h h₀ h₁ at₀ at₁ ne close params flag stored sq inv => exact .returns θ₀ θ₁ B k hn hv h h₀ h₁ at₀ at₁ ne close params flag stored sq inv
  | divisionByZero θ₁ hv h h₁ at₁ zero params flag => exact .divisionByZero θ₁ hv h h₁ at₁ zero params flag
  | exhausted h hn params flag => exact .exhausted h hn params flag
  | stuck θ₁ k hv hn h h₁ at₁ same params flag => exact .stuck θ₁ k hv hn h h₁ at₁ same params flag
  | verbose hn hv' h params flag => exact .verbose hn hv' h params flag

/-- If `np.linalg.solve` succeeds on the symmetric bordered matrix, then `-pinvh` times the right hand side is minus the solution. -/
theorem start_solution {n : Nat} {Hs J : List (List ℝ)} (hq : Square n Hs) (hs : (toMat n Hs).transpose = toMat n Hs) (hp : IsPinv (lowerOf (toMat n Hs)) (toMat n J))
    {v x : List ℝ} (hv : v.length = n) (hx : exactSolve Hs v = .ok x) : x.length = n ∧ (toMat n J).mulVec (toVec n v) = toVec n x := by
  unfold exactSolve at hx
  split_ifs at hx with hu
  have hu' := unit_of_unique hq hv hu
  rw [lowerOf_of_symm hs] at hp
  have h1 := (pinv_unit hp hu').1
  obtain ⟨s1, -⟩ := hu.choose_spec
  rw [Except.ok.inj hx] at s1
  have hl : x.length = n := s1.len.trans hq.1
  refine ⟨hl, ?_⟩
  have := (solves_iff hq hl hv).1 s1
  rw [← this, Matrix.mulVec_mulVec, h1, Matrix.one_mulVec]

theorem loop_head {env : Fit.Env ℝ ℝ (Num ℝ) (List (Num ℝ)) (List (List (Num ℝ))) (List (List ℝ))} {o : Fit.Obj ℝ (List (List ℝ))} {vb i1 k : Nat} {flat grad step flat' : List ℝ}
    {J : List (List ℝ)} {g : ℝ} {q : List (Param ℝ)} (h1 : env.direction J grad = .ok step) (h2 : Fit.inplaceAdd flat (step.take i1) = .ok flat')
    (h3 : reshapeParams o.params flat' = .ok q) : (Fit.broydenLoop env o vb i1 (k + 1) flat grad J g).trace.head? = some [q] := by
  rw [Fit.broydenLoop, h1]
  dsimp only
  rw [h2]
  dsimp only
  rw [h3]
  dsimp only
  split
  · rfl
  · split
    · rfl
    · split
      · rfl
      · split <;> rfl
      · split <;> rfl

/-- **C71.** If the bordered matrix of second derivatives at the start is symmetric and `newton_step` does not raise there, then the first point that Broyden's method tries
is the full Newton step. -/
theorem C71_first_step (hM : Solver pr m dom M L gs φs T) : ∃ D H, Derivs pr m dom (penalised L φs) D H ∧
    ∀ tol θ, dom θ → ∀ o : Fit.Obj ℝ (List (List ℝ)), AtPoint pr m θ o.params → 1 ≤ totalFree o.params → o.converged = false ∨ o.flatHess = none →
      SymmetricHess o.params (H θ) → ∀ step g v J, Fit.newtonStep (M.env exactPinvh tol) o.params = .ok (step, g, v, J) → ∀ maxSteps verbose, 1 ≤ maxSteps →
      ∃ q, (Fit.fit (M.env exactPinvh tol) o maxSteps verbose .broyden).trace.head? = some [q] ∧ SameLayout q o.params ∧
        (∀ i a, isFree o.params i a → ∃ x d, entry o.params i a = some x ∧ step[freeRank o.params i a]? = some d ∧ entry q i a = some (x - d)) ∧
        ∀ i a, isFixed o.params i a → entry q i a = entry o.params i a := by
  obtain ⟨D, H, hD, hst⟩ := start_ok hM
  refine ⟨D, H, hD, fun tol θ hθ o hat hF hfr hsym step g v' J' hn maxSteps verbose hk => ?_⟩
  obtain ⟨v, Hs, J, a1, a2, a3, a4, a5, a6, a7⟩ := hst tol θ hθ o hat hF hfr
  obtain ⟨p, hp⟩ := a7 maxSteps verbose
  obtain ⟨k, rfl⟩ := Nat.exists_eq_add_of_le' hk
  rw [a6] at hn
  obtain ⟨x, x1, hn⟩ := Flat.bind_ok hn
  have hvl : v.length = totalFree o.params + gs.length := by rw [a1.length, List.length_map]
  have hs := a2.symm hsym
  rw [List.length_map] at hs
  obtain ⟨x2, x3⟩ := start_solution a3 hs a5 hvl x1
  have hlen : M.constraint.length = gs.length := hM.constraints.length_eq
  rw [hlen, x2, Fit.C12_step_cut _ _ hF, ok_bind'] at hn
  have hn := Except.ok.inj hn
  injection hn with hn1 _
  have hre : reshapeParams o.params (o.params.map Param.compressed).flatten = .ok o.params := by
    have := C01_rebuild_flatten o.params (hat.ne hM.pos) hat.wf
    rw [flatParams_ok (hat.ne hM.pos)] at this
    exact this
  obtain ⟨d, d1, d2, d3⟩ := direction_ok a4 hvl
  obtain ⟨flat', q, f1, f2, f3, f4, f5, f6⟩ := move_ok (hat.ne hM.pos) hat.wf (n := totalFree o.params + gs.length) (by omega) (flatten_length _ hat.wf) d2 hre
  refine ⟨q, ?_, f5, fun i a hf => ?_, f4.fixed⟩
  · rw [hp]
    exact loop_head d1 f1 f3
  · obtain ⟨y, hr, e1, e2⟩ := f4.free i a hf
    have hr' := rank_lt hf
    refine ⟨y, x[freeRank o.params i a]'(by omega), e1, ?_, ?_⟩
    · rw [← hn1, List.getElem?_take, if_pos hr']
      exact List.getElem?_eq_getElem _
    · rw [e2, d3, x3]
      simp only [Pi.neg_apply, toVec, List.getD_eq_getElem?_getD]
      rw [List.getElem?_eq_getElem (by omega), Option.getD_some, sub_eq_add_neg]

theorem add_zeros : ∀ (l z : List ℝ), l.length = z.length → (∀ x ∈ z, x = 0) → List.zipWith (· + ·) l z = l
  | [], _, _, _ => by simp
  | x :: l, [], h, _ => by simp at h
  | x :: l, y :: z, h, h0 => by
    rw [List.zipWith_cons_cons, h0 y (List.mem_cons_self ..), add_zero, add_zeros l z (by simpa using h) fun x hx => h0 x (List.mem_cons_of_mem _ hx)]

/-- **C71.** Broyden's method from a point that satisfies the first order conditions returns `True` and leaves the parameters as they are, if there are no constraints, or if
the bordered matrix of second derivatives is symmetric and `newton_step` does not raise there (and the penalised log-likelihood is not 0: the convergence test divides by it). -/
theorem C71_optimum_kept (hM : Solver pr m dom M L gs φs T) : ∃ D H, Derivs pr m dom (penalised L φs) D H ∧
    ∀ tol θ, dom θ → ∀ o : Fit.Obj ℝ (List (List ℝ)), AtPoint pr m θ o.params → 1 ≤ totalFree o.params → o.converged = false ∨ o.flatHess = none →
      FirstOrder o.params (penalised L φs) gs θ → penalised L φs θ ≠ 0 → 0 < tol →
      (gs = [] ∨ SymmetricHess o.params (H θ) ∧ ∃ x, Fit.newtonStep (M.env exactPinvh tol) o.params = .ok x) → ∀ maxSteps, 1 ≤ maxSteps →
      (Fit.fit (M.env exactPinvh tol) o maxSteps 0 .broyden).outcome = .ok true ∧ (Fit.fit (M.env exactPinvh tol) o maxSteps 0 .broyden).obj.params = o.params := by
  obtain ⟨D, H, hD, hst⟩ := start_ok hM
  refine ⟨D, H, hD, fun tol θ hθ o hat hF hfr hk h0 ht hcase maxSteps hms => ?_⟩
  obtain ⟨v, Hs, J, a1, a2, a3, a4, a5, a6, a7⟩ := hst tol θ hθ o hat hF hfr
  obtain ⟨p, hp⟩ := a7 maxSteps 0
  obtain ⟨k, rfl⟩ := Nat.exists_eq_add_of_le' hms
  have hvl : v.length = totalFree o.params + gs.length := by rw [a1.length, List.length_map]
  obtain ⟨d, d1, d2, d3⟩ := direction_ok a4 hvl
  have hne := hat.ne hM.pos
  have hwf := hat.wf
  have hre : reshapeParams o.params (o.params.map Param.compressed).flatten = .ok o.params := by
    have := C01_rebuild_flatten o.params hne hwf
    rw [flatParams_ok hne] at this
    exact this
  -- the part of the step for the free entries is 0
  have hz : ∀ x ∈ d.take (totalFree o.params), x = 0 := by
    have key : ∀ c : Fin (totalFree o.params + gs.length), c.val < totalFree o.params → toVec _ d c = 0 := by
      rcases hcase with rfl | ⟨hsym, x, hn⟩
      · have hv0 : toVec (totalFree o.params + ([] : List Con).length) v = 0 := by
          funext c
          have hc : c.val < totalFree o.params := by simpa using c.isLt
          obtain ⟨i, a, hf, hr, -⟩ := pair_of_lt hc
          have := a1.free i a hf
          rw [hr] at this
          obtain ⟨hi, ha⟩ := hat.free hf
          obtain ⟨-, μ, hμ, hst'⟩ := hk
          have h2 := hasPartial_unique (lagrange hD hM hθ hat μ hf) (hst' i a hf)
          simp only [List.zip_nil_left, List.map_nil, List.sum_nil, sub_zero] at h2
          simp [toVec, List.getD_eq_getElem?_getD, this, h2]
        intro c _
        rw [d3, hv0, Matrix.mulVec_zero, neg_zero]
        rfl
      · have hn' := hn
        obtain ⟨st, g, v', J'⟩ := x
        have hz := (C68_step_zero_iff hM hθ hat hF hn).2 hk
        rw [a6] at hn
        obtain ⟨x, x1, hn⟩ := Flat.bind_ok hn
        have hs := a2.symm hsym
        rw [List.length_map] at hs
        obtain ⟨x2, x3⟩ := start_solution a3 hs a5 hvl x1
        have hlen : M.constraint.length = gs.length := hM.constraints.length_eq
        rw [hlen, x2, Fit.C12_step_cut _ _ hF, ok_bind'] at hn
        have hn := Except.ok.inj hn
        injection hn with hn1 _
        intro c hc
        rw [d3, x3]
        have hcx : c.val < x.length := by omega
        have : x[c.val] ∈ st := by
          rw [← hn1]
          exact List.mem_iff_getElem?.2 ⟨c.val, by rw [List.getElem?_take, if_pos hc]; exact List.getElem?_eq_getElem _⟩
        simp only [Pi.neg_apply, toVec, List.getD_eq_getElem?_getD]
        rw [List.getElem?_eq_getElem hcx, Option.getD_some, hz _ this, neg_zero]
    intro x hx
    obtain ⟨i, hi⟩ := List.mem_iff_getElem?.1 hx
    rw [List.getElem?_take] at hi
    split_ifs at hi with h
    have := key ⟨i, by omega⟩ h
    simp only [toVec, List.getD_eq_getElem?_getD, hi, Option.getD_some] at this
    exact this
  have hadd : Fit.inplaceAdd (o.params.map Param.compressed).flatten (d.take (totalFree o.params)) = .ok (o.params.map Param.compressed).flatten := by
    have hl : (o.params.map Param.compressed).flatten.length = (d.take (totalFree o.params)).length := by
      rw [flatten_length _ hwf, List.length_take]; omega
    unfold Fit.inplaceAdd Fit.bzip
    rw [if_pos hl, add_zeros _ _ hl hz]
    show (if _ then _ else _) = _
    rw [if_pos rfl]
    rfl
  have hc : (M.env exactPinvh tol).conv (penalised L φs θ / T) (penalised L φs θ / T) = .ok true := by
    have : penalised L φs θ / T ≠ 0 := div_ne_zero h0 hM.ne
    show (if _ then _ else _) = _
    rw [if_neg this, div_self this, sub_self, abs_zero]
    simp [ht]
  obtain ⟨B, b1, -⟩ := exactPinvh_total a4
  have hlo : ∀ o' : Fit.Obj ℝ (List (List ℝ)), o'.params = o.params →
      Fit.broydenLoop (M.env exactPinvh tol) o' 0 (totalFree o.params) (k + 1) (o.params.map Param.compressed).flatten v J (penalised L φs θ / T) =
        ⟨.ok true, ⟨o.params, some B, true⟩, [[o.params]], 0⟩ := by
    intro o' ho
    rw [Fit.broydenLoop, show (M.env exactPinvh tol).direction J v = .ok d from d1]
    dsimp only
    rw [hadd]
    dsimp only
    rw [ho, hre]
    dsimp only
    rw [C68_objective hM hθ hat]
    dsimp only
    rw [if_neg (by omega), hc]
    dsimp only
    rw [show (M.env exactPinvh tol).pinvh J = .ok B from b1]
  rw [hp, hlo { o with flatHess := some Hs } rfl]
  exact ⟨rfl, rfl⟩

end Verif.Tens
