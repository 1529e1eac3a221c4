import Verif.Lemmas.Linear
import Verif.Lemmas.FlatHess
import Verif.Props.Fit
import Mathlib.Algebra.Order.Field.Basic
import Mathlib.Algebra.Order.Ring.Abs
import Mathlib.Tactic.Linarith

/-!
# C13: linear constraints along the Newton iteration (exact arithmetic)
-/

namespace Verif.Flat
open Verif.Params Verif.Fit

variable {R : Type}

/-- The constraint as passed to `add_constraint` (a `Linear`). -/
def LinCon.term [Add R] [Mul R] [Zero R] (c : LinCon R) : Term R := linearTerm c.idx c.weights

/-- Admissible constraint: non-empty list of increasing, existing parameter indices, one weight for
each. -/
def LinCon.Ok (c : LinCon R) (params : List (Param R)) : Prop :=
  c.idx ≠ [] ∧ NonDecreasing c.idx ∧ (∀ k ∈ c.idx, k < params.length) ∧
    c.weights.length = c.idx.length

theorem LinCon.val_eq [CommRing R] (c : LinCon R) (params : List (Param R)) (h : c.Ok params) :
    c.term.val (argsOf params c.idx) = c.residual params := by
  unfold LinCon.term LinCon.residual
  rw [linear_val params c.idx c.weights h.2.2.1 h.2.2.2,
    ← zip_zipIdx c.idx c.weights (fun k w => psum params k * w) (0 : R) h.2.2.2.symm]
  congr 1
  apply List.map_congr_left
  rintro ⟨k, w⟩ _
  simp only [psum]
  cases params[k]? <;> simp [emptyParam]

/-- The callbacks of `fit` are those of a model with the Linear constraints `cons` (and arbitrary
likelihood `gl`, `hl` and regularisations `rs`), and the linear solver is exact. -/
structure LinearModel {G Y D H : Type} [CommRing R] (env : Env R G Y D H (List (List R)))
    (cons : List (LinCon R)) : Prop where
  grad : ∃ (rs : List (Term R)) (gl : List (Param R) → Y → D → Nat → Nat → R),
    ∀ ps y d, env.flatGrad ps y d = flatGrad ps (gl ps y d) (cons.map LinCon.term) rs
  hess : ∃ (rs : List (Term R)) (hl : List (Param R) → Y → D → H → Nat → Nat → Nat → Nat → R),
    ∀ ps y d h, env.flatHess ps y d h = flatHess ps (hl ps y d h) (cons.map LinCon.term) rs
  solve : ∀ m g s, env.solve m g = .ok s → Solves m s g
  ncons : env.nConstraints = cons.length

theorem bind_ok {ε β γ : Type} {x : Except ε β} {f : β → Except ε γ} {c : γ}
    (h : (x >>= f) = .ok c) : ∃ b, x = .ok b ∧ f b = .ok c := by
  cases x with
  | error e => cases h
  | ok b => exact ⟨b, rfl, h⟩

/-- A successful `flat_grad` ends with the residuals. -/
theorem flatGrad_residuals [CommRing R] (ps : List (Param R)) (gl : Nat → Nat → R)
    (cons : List (LinCon R)) (rs : List (Term R)) (v : List R) (hok : ∀ c ∈ cons, c.Ok ps)
    (h : flatGrad ps gl (cons.map LinCon.term) rs = .ok v) :
    ∃ u, u.length = totalFree ps ∧ v = u ++ cons.map fun c => c.residual ps := by
  have hc : ∀ t ∈ cons.map LinCon.term, t.Valid ps ∧ t.paramMap ≠ [] := by
    intro t ht
    rw [List.mem_map] at ht
    obtain ⟨c, hc, rfl⟩ := ht
    exact ⟨(hok c hc).2.2.1, (hok c hc).1⟩
  unfold flatGrad at h
  obtain ⟨⟨g, res⟩, h1, h2⟩ := bind_ok h
  obtain ⟨g', h3, h4⟩ := bind_ok h2
  rw [gradConstraints_ok ps _ hc] at h1
  cases h1
  unfold npConcatenate at h4
  split at h4
  · cases h4
  · simp only [Except.ok.injEq] at h4
    refine ⟨((ps.zipIdx.map fun (p, i) => (freeOf p).map (g' i))).flatten, ?_, ?_⟩
    · rw [flatten_free 0 ps g', List.length_map, freePairsFrom_length]
    · rw [← h4, List.flatten_append]
      congr 1
      rw [← List.flatMap_def, List.flatMap_singleton', List.map_map]
      apply List.map_congr_left
      intro c hc
      exact c.val_eq ps (hok c hc)

theorem hessConstraints_decreasing_ok [CommRing R] (ps : List (Param R)) (cons : List (LinCon R))
    (hok : ∀ c ∈ cons, c.Ok ps) : ∀ t ∈ cons.map LinCon.term, t.Valid ps ∧ NonDecreasing t.paramMap := by
  intro t ht
  rw [List.mem_map] at ht
  obtain ⟨c, hc, rfl⟩ := ht
  exact ⟨(hok c hc).2.2.1, (hok c hc).2.1⟩

/-- A successful `flat_hess` ends with the border rows. -/
theorem flatHess_border [CommRing R] (ps : List (Param R))
    (hl : Nat → Nat → Nat → Nat → R) (cons : List (LinCon R)) (rs : List (Term R))
    (m : List (List R)) (hok : ∀ c ∈ cons, c.Ok ps)
    (h : flatHess ps hl (cons.map LinCon.term) rs = .ok m) :
    ∃ T : List (List R), T.length = totalFree ps ∧ m = T ++ cons.map fun c =>
      ((freePairs ps).map fun x => termGrad ps c.term x.1 x.2) ++ List.replicate cons.length 0 := by
  unfold flatHess at h
  obtain ⟨⟨g, cs⟩, h1, h2⟩ := bind_ok h
  obtain ⟨g', h3, h4⟩ := bind_ok h2
  rw [hessConstraints_ok ps _ (hessConstraints_decreasing_ok ps cons hok)] at h1
  cases h1
  dsimp only at h4
  split at h4
  · cases h4
  · change (if _ then pure _ else pure _ : Except Err (List (List R))) = _ at h4
    split at h4
    · rename_i he
      have hnil : cons = [] := by simpa using he
      subst hnil
      cases h4
      refine ⟨_, ?_, by simp; rfl⟩
      rw [rows_eq, List.length_map]
      simp [freePairs, freePairsFrom_length]
    · cases h4
      refine ⟨((ps.zipIdx.map fun x => hstack (freeOf x.1).length
        (ps.zipIdx.map fun x_1 => fullBlock g' x.2 x_1.2 x.1 x_1.1)).flatten.zipIdx.map fun x =>
          x.1 ++ (((cons.map LinCon.term).map fun t i a => termGrad ps t i a).map
            (concatFree ps)).map fun b => b.getD x.2 0), ?_, ?_⟩
      · rw [List.length_map, List.length_zipIdx, rows_eq, List.length_map]
        simp [freePairs, freePairsFrom_length]
      · congr 1
        rw [List.map_map, List.map_map, List.map_map]
        simp only [List.length_map]
        apply List.map_congr_left
        intro c _
        simp only [Function.comp]
        congr 1
        exact flatten_free 0 ps (fun i a => termGrad ps c.term i a)

/-- The step of `newton_step` solves the linearised constraints. -/
theorem newtonStep_border {G Y D H : Type} [CommRing R] (env : Env R G Y D H (List (List R)))
    (cons : List (LinCon R)) (hm : LinearModel env cons) (ps : List (Param R))
    (hF : 1 ≤ totalFree ps) (hok : ∀ c ∈ cons, c.Ok ps) (step gr : List R) (g : G)
    (m : List (List R)) (h : newtonStep env ps = .ok (step, g, gr, m)) :
    step.length = totalFree ps ∧ ∀ c ∈ cons,
      dot ((freePairs ps).map fun x => termGrad ps c.term x.1 x.2) step = c.residual ps := by
  unfold newtonStep at h
  obtain ⟨⟨y, der, hess⟩, -, h⟩ := bind_ok h
  obtain ⟨g0, -, h⟩ := bind_ok h
  obtain ⟨lgrad, hg, h⟩ := bind_ok h
  obtain ⟨lhess, hh, h⟩ := bind_ok h
  obtain ⟨s, hs, h⟩ := bind_ok h
  obtain ⟨i, hi, h⟩ := bind_ok h
  cases h
  obtain ⟨rs, gl, hgl⟩ := hm.grad
  obtain ⟨rs', hl, hhl⟩ := hm.hess
  rw [hgl] at hg
  rw [hhl] at hh
  obtain ⟨u, hu, rfl⟩ := flatGrad_residuals ps _ cons rs _ hok hg
  obtain ⟨T, hT, rfl⟩ := flatHess_border ps _ cons rs' _ hok hh
  have hsol := hm.solve _ _ _ hs
  have hlen : s.length = totalFree ps + cons.length := by rw [hsol.len]; simp [hT]
  rw [hlen, hm.ncons] at hi
  have hi' : i = totalFree ps := by
    have := C12_step_cut (totalFree ps) cons.length hF
    rw [this] at hi; cases hi; rfl
  subst hi'
  refine ⟨by simp [hlen], ?_⟩
  intro c hc
  obtain ⟨k, hk⟩ := List.mem_iff_getElem?.mp hc
  have hrow := hsol.rows (totalFree ps + k) _ _
    (by rw [List.getElem?_append_right (by omega), hT, Nat.add_sub_cancel_left,
        List.getElem?_map, hk]; rfl)
    (by rw [List.getElem?_append_right (by omega), hu, Nat.add_sub_cancel_left,
        List.getElem?_map, hk]; rfl)
  refine Eq.trans ?_ hrow
  conv => rhs; rw [← List.take_append_drop (totalFree ps) s]
  rw [dot_append _ _ _ _ (by simp [hlen, freePairs, freePairsFrom_length]), dot_zeros, add_zero]

theorem termGrad_linear_indep [CommRing R] (ps qs : List (Param R)) (c : LinCon R) (i a : Nat) :
    termGrad ps c.term i a = termGrad qs c.term i a := rfl

/-- Values of the fixed entries, in order. -/
def fixedVals (ps : List (Param R)) : List R := (ps.map (fun p => sel p.mask p.values)).flatten

theorem reshapeParams_place (ps : List (Param R)) (flat : List R) (rs : List (Param R))
    (hwf : ∀ p ∈ ps, p.WF) (h : reshapeParams ps flat = .ok rs) :
    totalFree ps ≤ flat.length ∧ rs = place ps flat (fixedVals ps) := by
  simp only [reshapeParams, npConcatenate, bind, Except.bind] at h
  split at h
  · cases h
  · rename_i v hok
    split at hok
    · cases hok
    · cases hok
      have hl := reshapeArrayFrom_ok_length _ _ 0 0 ps rs hwf (by omega) h
      simp only [reshapeArray] at h
      rw [reshapeArrayFrom_array _ _ _ _ _ hwf hl (by rw [fixed_length _ hwf]; omega)] at h
      cases h
      exact ⟨by omega, rfl⟩

theorem LinCon.Ok.layout {c : LinCon R} {ps qs : List (Param R)} (h : c.Ok ps)
    (hl : SameLayout qs ps) : c.Ok qs :=
  ⟨h.1, h.2.1, fun k hk => by rw [SameLayout.length hl]; exact h.2.2.1 k hk, h.2.2.2⟩

/-- One trial point: if the current point is `place base flat` and the step solves the linearised
constraints, moving by `mult * step` scales every residual by `1 - mult`. -/
theorem step_scales [CommRing R] (base : List (Param R)) (hwf : ∀ p ∈ base, p.WF) (c : LinCon R)
    (hok : c.Ok base) (flat step : List R) (hfl : flat.length = totalFree base)
    (hst : step.length = totalFree base)
    (hdot : dot ((freePairs base).map fun x => termGrad base c.term x.1 x.2) step =
      c.residual (place base flat (fixedVals base))) (mult : R) :
    c.residual (place base (List.zipWith (· - ·) flat (step.map (mult * ·))) (fixedVals base)) =
      (1 - mult) * c.residual (place base flat (fixedVals base)) := by
  have h1 := linear_place base c.idx c.weights hok.2.2.1 hok.2.2.2 (fixedVals base)
    (by unfold fixedVals; rw [fixed_length _ hwf]) flat step mult hfl hst
  have h2 := c.val_eq _ (hok.layout (place_layout base flat (fixedVals base)))
  have h3 := c.val_eq _ (hok.layout (place_layout base
    (List.zipWith (· - ·) flat (step.map (mult * ·))) (fixedVals base)))
  unfold LinCon.term at h2 h3 hdot
  rw [h2, h3, hdot] at h1
  rw [h1]; ring

/-- C13, one step.  If `newton_step` at the (well-formed) parameters `ps` returns `step`, then the
parameters rebuilt from `flat_params(ps) - mult * step` have every constraint residual scaled by
`1 - mult`; in particular a full step (`mult = 1`) satisfies the constraints exactly. -/
theorem C13_newton_step_residual {G Y D H : Type} [CommRing R]
    (env : Env R G Y D H (List (List R))) (cons : List (LinCon R)) (hm : LinearModel env cons)
    (ps : List (Param R)) (hwf : ∀ p ∈ ps, p.WF) (hF : 1 ≤ totalFree ps)
    (hok : ∀ c ∈ cons, c.Ok ps) (step gr flat : List R) (g : G) (m : List (List R))
    (h : newtonStep env ps = .ok (step, g, gr, m)) (hflat : flatParams ps = .ok flat) (mult : R)
    (newFlat : List R) (hnew : bzip (· - ·) flat (step.map (mult * ·)) = .ok newFlat)
    (ps' : List (Param R)) (hps' : reshapeParams ps newFlat = .ok ps') :
    ∀ c ∈ cons, c.residual ps' = (1 - mult) * c.residual ps ∧
      (mult = 1 → c.residual ps' = 0) := by
  obtain ⟨h1, h2⟩ := newtonStep_border env cons hm ps hF hok step gr g m h
  have hfl : flat = (ps.map Param.compressed).flatten ∧ flat.length = totalFree ps := by
    unfold flatParams npConcatenate at hflat
    split at hflat
    · cases hflat
    · cases hflat
      exact ⟨rfl, flatten_length ps hwf⟩
  intro c hc
  have hbz : newFlat = List.zipWith (· - ·) flat (step.map (mult * ·)) := by
    unfold bzip at hnew
    rw [if_pos (by simp [h1, hfl.2])] at hnew
    cases hnew; rfl
  obtain ⟨-, rfl⟩ := reshapeParams_place ps newFlat ps' hwf hps'
  have hself : place ps flat (fixedVals ps) = ps := by
    rw [hfl.1]; exact place_self ps hwf
  have := step_scales ps hwf c (hok c hc) flat step hfl.2 h1 (by rw [hself]; exact h2 c hc) mult
  rw [hself] at this
  subst hbz
  refine ⟨this, ?_⟩
  rintro rfl
  rw [this]; ring

/-- All trial points of the inner loop: residual scaled by `1 - mult` for some multiplier
`one * half^j`. -/
theorem inner_residual {G Y D H : Type} [CommRing R] (env : Env R G Y D H (List (List R)))
    (vb : Nat) (base : List (Param R)) (hwf : ∀ p ∈ base, p.WF) (P : R → Prop)
    (hP : ∀ x, P x → P (x * env.half)) (flat step : List R)
    (hfl : flat.length = totalFree base) (hst : step.length = totalFree base) (prevG : G)
    (n : Nat) (mult : R) (hmult : P mult) :
    (∀ ps ∈ (inner env vb base flat step prevG n mult).2.1, ∃ x, P x ∧
      ps = place base (List.zipWith (· - ·) flat (step.map (x * ·))) (fixedVals base)) ∧
    (∀ flat' ps' g, (inner env vb base flat step prevG n mult).1 = .ok (some (flat', ps', g)) →
      flat'.length = totalFree base ∧ ps' = place base flat' (fixedVals base) ∧
      ps' ∈ (inner env vb base flat step prevG n mult).2.1) := by
  induction n generalizing mult with
  | zero => simp [inner]
  | succ n ih =>
    have hb : bzip (· - ·) flat (step.map (mult * ·)) =
        .ok (List.zipWith (· - ·) flat (step.map (mult * ·))) := by
      unfold bzip; rw [if_pos (by simp [hfl, hst])]
    simp only [inner, hb]
    cases hr : reshapeParams base (List.zipWith (· - ·) flat (step.map (mult * ·))) with
    | error e => simp
    | ok ps =>
      obtain ⟨-, hps⟩ := reshapeParams_place base _ ps hwf hr
      dsimp only
      cases ho : objective env ps with
      | error e =>
        refine ⟨?_, by simp⟩
        intro q hq
        simp at hq
        subst hq
        exact ⟨mult, hmult, hps⟩
      | ok g =>
        dsimp only
        split
        · refine ⟨?_, ?_⟩
          · intro q hq
            simp at hq
            subst hq
            exact ⟨mult, hmult, hps⟩
          · intro flat' ps' g' he
            simp only [Except.ok.injEq, Option.some.injEq, Prod.mk.injEq] at he
            obtain ⟨rfl, rfl, rfl⟩ := he
            refine ⟨by simp [hfl, hst], hps, by simp⟩
        · obtain ⟨i1, i2⟩ := ih (mult * env.half) (hP _ hmult)
          refine ⟨?_, ?_⟩
          · intro q hq
            rcases List.mem_cons.mp hq with rfl | hq
            · exact ⟨mult, hmult, hps⟩
            · exact i1 q hq
          · intro flat' ps' g' he
            obtain ⟨j1, j2, j3⟩ := i2 flat' ps' g' he
            exact ⟨j1, j2, List.mem_cons_of_mem _ j3⟩

/-- Every Newton step from parameters with the layout of `base` and the property `P` solves the linearised constraints. -/
def Borders {G Y D H : Type} [CommRing R] (env : Env R G Y D H (List (List R))) (cons : List (LinCon R))
    (base : List (Param R)) (P : List (Param R) → Prop) : Prop :=
  ∀ ps, SameLayout ps base → (∀ p ∈ ps, p.WF) → P ps → ∀ step gr g m, newtonStep env ps = .ok (step, g, gr, m) →
    step.length = totalFree ps ∧ ∀ c ∈ cons,
      dot ((freePairs ps).map fun x => termGrad ps c.term x.1 x.2) step = c.residual ps

/-- From every point with the layout of `base` and the property `P`, moving against `mult` times the Newton step scales `res` by `1 - mult`. -/
def Scales {G Y D H : Type} [CommRing R] (env : Env R G Y D H (List (List R))) (res : List (Param R) → R)
    (base : List (Param R)) (P : List (Param R) → Prop) : Prop :=
  ∀ flat : List R, flat.length = totalFree base → P (place base flat (fixedVals base)) →
    ∀ step gr g m, newtonStep env (place base flat (fixedVals base)) = .ok (step, g, gr, m) →
      step.length = totalFree base ∧ ∀ x, res (place base (List.zipWith (· - ·) flat (step.map (x * ·))) (fixedVals base)) =
        (1 - x) * res (place base flat (fixedVals base))

/-- The whole Newton loop. -/
theorem newtonLoop_residual {G Y D H : Type} [Field R] [LinearOrder R] [IsStrictOrderedRing R]
    (env : Env R G Y D H (List (List R))) (res : List (Param R) → R)
    (h1 : env.one = 1) (h2 : env.half = 1 / 2) (vb : Nat) (o : Obj R (List (List R)))
    (P : List (Param R) → Prop) (hm : Scales env res o.params P) (hwf : ∀ p ∈ o.params, p.WF) (k : Nat)
    (flat : List R) (hfl : flat.length = totalFree o.params) :
    let ps := place o.params flat (fixedVals o.params)
    let r := newtonLoop env vb o k ps flat
    P ps → (∀ tr ∈ r.trace, ∀ q ∈ tr, P q) → (∀ tr ∈ r.trace, ∀ q ∈ tr, |res q| ≤ |res ps|) ∧
    (r.obj.params = o.params ∨ |res r.obj.params| ≤ |res ps|) := by
  induction k generalizing flat with
  | zero => simp [newtonLoop]
  | succ k ih =>
    intro ps r hp htr
    simp only [r, newtonLoop] at htr ⊢
    cases hns : newtonStep env ps with
    | error e => simp
    | ok v =>
      obtain ⟨step, prevG, gr, hs⟩ := v
      rw [hns] at htr
      dsimp only at htr
      obtain ⟨b1, b2⟩ := hm flat hfl hp step gr prevG hs hns
      have hP : ∀ x : R, (0 ≤ x ∧ x ≤ 1) → (0 ≤ x * env.half ∧ x * env.half ≤ 1) := by
        rintro x ⟨hx0, hx1⟩
        rw [h2]; constructor <;> linarith
      obtain ⟨t1, t2⟩ := inner_residual env vb o.params hwf (fun x => 0 ≤ x ∧ x ≤ 1) hP flat step
        hfl b1 prevG 5 env.one (by rw [h1]; constructor <;> norm_num)
      have hbound : ∀ q ∈ (inner env vb o.params flat step prevG 5 env.one).2.1,
          |res q| ≤ |res ps| := by
        intro q hq
        obtain ⟨x, ⟨hx0, hx1⟩, rfl⟩ := t1 q hq
        rw [b2 x, abs_mul]
        have : |1 - x| ≤ 1 := by rw [abs_le]; constructor <;> linarith
        calc |1 - x| * |res ps| ≤ 1 * |res ps| :=
              mul_le_mul_of_nonneg_right this (abs_nonneg _)
          _ = _ := one_mul _
      dsimp only
      rcases hin : inner env vb o.params flat step prevG 5 env.one with ⟨out, tr, pr⟩
      rw [hin] at t2 hbound htr
      dsimp only at t2 hbound htr
      cases out with
      | error e => simpa using hbound
      | ok res =>
        cases res with
        | none => simpa using hbound
        | some v =>
          obtain ⟨flat', ps', g⟩ := v
          obtain ⟨u1, u2, u3⟩ := t2 flat' ps' g rfl
          have hb' := hbound ps' u3
          dsimp only
          cases hconv : env.conv prevG g with
          | error e => simpa using hbound
          | ok b =>
            cases b with
            | true => exact ⟨by simpa using hbound, Or.inr hb'⟩
            | false =>
              dsimp only at htr
              rw [hconv] at htr
              dsimp only at htr
              have ih' := ih flat' u1
              rw [← u2] at ih'
              obtain ⟨i1, i2⟩ := ih' (htr tr (by simp) ps' u3) fun t ht => htr t (List.mem_cons_of_mem _ ht)
              refine ⟨?_, ?_⟩
              · intro tr' htr q hq
                rcases List.mem_cons.mp htr with rfl | htr
                · exact hbound q hq
                · exact le_trans (i1 tr' htr q hq) hb'
              · rcases i2 with i2 | i2
                · exact Or.inl i2
                · exact Or.inr (le_trans i2 hb')

/-- The whole fit, from the property of the Newton steps. -/
theorem residual_of_scales {G Y D H : Type} [Field R] [LinearOrder R]
    [IsStrictOrderedRing R] (env : Env R G Y D H (List (List R))) (res : List (Param R) → R)
    (h1 : env.one = 1) (h2 : env.half = 1 / 2) (verbose maxSteps : Nat)
    (o : Obj R (List (List R))) (P : List (Param R) → Prop) (hm : Scales env res o.params P) (hwf : ∀ p ∈ o.params, p.WF)
    (hp : P o.params) :
    let r := fit env o maxSteps verbose .newton
    (∀ tr ∈ r.trace, ∀ q ∈ tr, P q) →
      (∀ tr ∈ r.trace, ∀ q ∈ tr, |res q| ≤ |res o.params|) ∧ |res r.obj.params| ≤ |res o.params| ∧
      (res o.params = 0 → (∀ tr ∈ r.trace, ∀ q ∈ tr, res q = 0) ∧ res r.obj.params = 0) := by
  intro r htr
  have main : (∀ tr ∈ r.trace, ∀ q ∈ tr, |res q| ≤ |res o.params|) ∧ |res r.obj.params| ≤ |res o.params| := by
    simp only [r, fit] at htr ⊢
    cases hfl : flatParams o.params with
    | error e => simp
    | ok flat =>
      have hf : flat = (o.params.map Param.compressed).flatten := by
        unfold flatParams npConcatenate at hfl
        split at hfl
        · cases hfl
        · cases hfl; rfl
      have hflen : flat.length = totalFree o.params := by rw [hf]; exact flatten_length _ hwf
      have hself : place o.params flat (fixedVals o.params) = o.params := by
        rw [hf]; exact place_self _ hwf
      have := newtonLoop_residual env res h1 h2 verbose o P hm hwf maxSteps flat hflen
      rw [hself] at this
      rw [hfl] at htr
      replace this := this hp htr
      refine ⟨this.1, ?_⟩
      rcases this.2 with h | h
      · dsimp only; rw [h]
      · exact h
  refine ⟨main.1, main.2, ?_⟩
  intro h0
  rw [h0, abs_zero] at main
  exact ⟨fun tr htr q hq => abs_nonpos_iff.mp (main.1 tr htr q hq), abs_nonpos_iff.mp main.2⟩

/-- For linear constraints. -/
theorem residual_of_borders {G Y D H : Type} [Field R] [LinearOrder R]
    [IsStrictOrderedRing R] (env : Env R G Y D H (List (List R))) (cons : List (LinCon R))
    (h1 : env.one = 1) (h2 : env.half = 1 / 2) (verbose maxSteps : Nat)
    (o : Obj R (List (List R))) (P : List (Param R) → Prop) (hm : Borders env cons o.params P) (hwf : ∀ p ∈ o.params, p.WF)
    (hok : ∀ c ∈ cons, c.Ok o.params) (hp : P o.params) :
    let r := fit env o maxSteps verbose .newton
    (∀ tr ∈ r.trace, ∀ q ∈ tr, P q) → ∀ c ∈ cons,
      (∀ tr ∈ r.trace, ∀ q ∈ tr, |c.residual q| ≤ |c.residual o.params|) ∧
      |c.residual r.obj.params| ≤ |c.residual o.params| ∧
      (c.residual o.params = 0 →
        (∀ tr ∈ r.trace, ∀ q ∈ tr, c.residual q = 0) ∧ c.residual r.obj.params = 0) := by
  intro r htr c hc
  refine residual_of_scales env c.residual h1 h2 verbose maxSteps o P (fun flat hfl hP step gr g m h => ?_) hwf hp htr
  have hlay : SameLayout (place o.params flat (fixedVals o.params)) o.params := place_layout _ _ _
  obtain ⟨b1, b2⟩ := hm _ hlay (place_wf _ _ _ hwf (by omega) (by unfold fixedVals; rw [fixed_length _ hwf])) hP step gr g m h
  rw [SameLayout.totalFree hlay] at b1
  have hdot := b2 c hc
  have hfp : freePairs (place o.params flat (fixedVals o.params)) = freePairs o.params := freePairs_layout hlay 0
  rw [hfp] at hdot
  exact ⟨b1, fun x => step_scales o.params hwf c (hok c hc) flat step hfl b1 hdot x⟩

/-- C13, the whole fit.  With Linear constraints and an exact solver, at every point tried by
`fit(method='Newton')` and at the parameters stored at the end, the absolute residual of every
constraint is at most that of the starting point; in particular a start satisfying the constraints
gives only points satisfying them. -/
theorem C13_residual_never_grows {G Y D H : Type} [Field R] [LinearOrder R]
    [IsStrictOrderedRing R] (env : Env R G Y D H (List (List R))) (cons : List (LinCon R))
    (hm : LinearModel env cons) (h1 : env.one = 1) (h2 : env.half = 1 / 2) (verbose maxSteps : Nat)
    (o : Obj R (List (List R))) (hwf : ∀ p ∈ o.params, p.WF)
    (hF : 1 ≤ totalFree o.params) (hok : ∀ c ∈ cons, c.Ok o.params) :
    let r := fit env o maxSteps verbose .newton
    ∀ c ∈ cons,
      (∀ tr ∈ r.trace, ∀ q ∈ tr, |c.residual q| ≤ |c.residual o.params|) ∧
      |c.residual r.obj.params| ≤ |c.residual o.params| ∧
      (c.residual o.params = 0 →
        (∀ tr ∈ r.trace, ∀ q ∈ tr, c.residual q = 0) ∧ c.residual r.obj.params = 0) :=
  residual_of_borders env cons h1 h2 verbose maxSteps o (fun _ => True) (fun ps hl _ _ step gr g m h =>
    newtonStep_border env cons hm ps (by rw [SameLayout.totalFree hl]; exact hF) (fun c hc => (hok c hc).layout hl) step gr g m h) hwf hok trivial
    fun _ _ _ _ => trivial

/-! ### A concrete model

Two free scalars `x`, `y`, log-likelihood `-(x-3)^2/2 - (y-1)^2/2`, constraint `x + y`. -/

/-- The two numbers. -/
def exXY : List (Param Rat) → Rat × Rat
  | ⟨_, x :: _, _⟩ :: ⟨_, y :: _, _⟩ :: _ => (x, y)
  | _ => (0, 0)

def exCon : LinCon Rat := ⟨[0, 1], [1, 1]⟩

def exLike (ps : List (Param Rat)) : Rat :=
  -((exXY ps).1 - 3) ^ 2 / 2 - ((exXY ps).2 - 1) ^ 2 / 2

/-- Exact solver for the one matrix that occurs. -/
def exSolve (m : List (List Rat)) (g : List Rat) : Except Err (List Rat) :=
  if m = [[-1, 0, 1], [0, -1, 1], [1, 1, 0]] then
    match g with
    | [a, b, c] => .ok [(a + b + c) / 2 - a, (a + b + c) / 2 - b, (a + b + c) / 2]
    | _ => .error .valueError
  else .error .linAlg

def exKKT : Env Rat Rat Rat Unit Unit (List (List Rat)) where
  modelEval ps := .ok (exLike ps, (), ())
  modelCall ps := .ok (exLike ps)
  modelGrad _ := .ok ()
  obj _ y := .ok (y - 1)
  flatGrad ps _ _ := flatGrad ps
    (fun i _ => if i = 0 then 3 - (exXY ps).1 else 1 - (exXY ps).2) [exCon.term] []
  flatHess ps _ _ _ := flatHess ps (fun i j _ _ => if i = j then -1 else 0) [exCon.term] []
  solve := exSolve
  pinvh m := .ok m
  dim m := m.length
  direction _ g := .ok g
  update m _ _ _ := .ok m
  nConstraints := 1
  ge a b := decide (b ≤ a)
  conv a b := if b = 0 then .error .zeroDivision else
    .ok (decide (a / b - 1 < 1 / 100 ∧ -(1 / 100) < a / b - 1))
  one := 1
  half := 1 / 2

def exKKTObj : Obj Rat (List (List Rat)) :=
  ⟨[⟨[], [0], [false]⟩, ⟨[], [0], [false]⟩], none, false⟩

theorem exKKT_model : LinearModel exKKT [exCon] where
  grad := ⟨[], fun ps _ _ i _ => if i = 0 then 3 - (exXY ps).1 else 1 - (exXY ps).2,
    fun _ _ _ => rfl⟩
  hess := ⟨[], fun _ _ _ _ i j _ _ => if i = j then -1 else 0, fun _ _ _ _ => rfl⟩
  solve := by
    intro m g s h
    change exSolve m g = .ok s at h
    unfold exSolve at h
    split at h
    · rename_i hm
      subst hm
      split at h
      · rename_i a b c
        cases h
        refine ⟨rfl, rfl, ?_⟩
        intro r row gr hr hg
        match r with
        | 0 => simp at hr hg; subst hr hg; simp [dot]
        | 1 => simp at hr hg; subst hr hg; simp [dot]
        | 2 => simp at hr hg; subst hr hg; simp [dot]; ring
        | r + 3 => simp at hr
      · cases h
    · cases h
  ncons := rfl

/-- The hypotheses of C13 hold for it, and the fit succeeds at the constrained maximum `(1, -1)`. -/
example : exCon.Ok exKKTObj.params ∧ exKKT.one = 1 ∧ exKKT.half = 1 / 2 ∧
    1 ≤ totalFree exKKTObj.params ∧ (∀ p ∈ exKKTObj.params, p.WF) ∧
    (fit exKKT exKKTObj 5 0 .newton).outcome = .ok true ∧
    (fit exKKT exKKTObj 5 0 .newton).obj.params = [⟨[], [1], [false]⟩, ⟨[], [-1], [false]⟩] := by
  refine ⟨⟨by simp [exCon], by simp [exCon, NonDecreasing], ?_, rfl⟩, rfl, rfl, by decide, ?_,
    by decide +kernel, by decide +kernel⟩
  · intro k hk; simp [exCon] at hk; rcases hk with rfl | rfl <;> decide
  · intro p hp
    simp [exKKTObj] at hp
    rcases hp with rfl | rfl; all_goals simp [Param.WF]

end Verif.Flat
