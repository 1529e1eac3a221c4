import Verif.Props.Weights
import Verif.Props.RowOrder
import Verif.Props.SessionErrors
import Verif.Props.SessionTest

/-!
# C80 for sessions: every observation given `n` times
-/

set_option linter.unusedSectionVars false

namespace Verif.Tens
open Verif.Params
open Verif.Prep (Series prepareSeries npSum npSize WellFormed cellSpec observationsAt LabelsAt C45_cells)

/-- The classes whose log-likelihood has no constant part. -/
def Kind.Proportional : Kind → Prop
  | .logistic => True
  | .finite _ => True
  | .normalizedFinite _ => True
  | _ => False

theorem Kind.Proportional.ok {k : Kind} (h : k.Proportional) : k.Ok := by
  cases k <;> first | trivial | exact absurd h id

section
variable {κ υ : Type} [Fintype κ] [Fintype υ]

theorem logLike_times {k : Kind} (hk : k.Proportional) (c : ℝ) {x x' : Name → κ × υ → ℝ} (hx : ∀ n ∈ k.reads, ∀ q, x' n q = c * x n q) (y : κ × υ → ℝ) :
    k.logLike x' y = c * k.logLike x y := by
  cases k with
  | logistic =>
    have h1 := hx .X (by simp [Kind.reads])
    have h2 := hx .N (by simp [Kind.reads])
    unfold Kind.logLike
    dsimp only
    rw [mul_neg, Finset.mul_sum, neg_inj]
    exact Finset.sum_congr rfl fun q _ => by rw [h1, h2]; ring
  | finite d =>
    have h2 := hx .N (by simp [Kind.reads])
    unfold Kind.logLike
    dsimp only
    rw [Finset.mul_sum]
    exact Finset.sum_congr rfl fun q _ => by rw [h2]; ring
  | normalizedFinite d =>
    have h2 := hx .N (by simp [Kind.reads])
    unfold Kind.logLike
    dsimp only
    rw [Finset.mul_sum]
    exact Finset.sum_congr rfl fun q _ => by rw [h2]; ring
  | _ => exact absurd hk id

theorem logLike_smooth {k : Kind} (hk : k.Proportional) (x : Name → κ × υ → ℝ) {y : Theta → κ × υ → ℝ} {θ : Theta} (hy : ∀ q, Smooth2 (fun θ => y θ q) θ)
    (hpos : k.IsProbability → ∀ q, 0 < y θ q) : Smooth2 (fun θ => k.logLike x (y θ)) θ := by
  cases k with
  | logistic => exact C69_smooth_logistic (x .X) (x .N) hy
  | finite d => exact C69_smooth_finite (x .N) hy (hpos trivial)
  | normalizedFinite d => exact C69_smooth_normalizedFinite (x .N) hy (hpos trivial)
  | _ => exact absurd hk id

end

section
variable {pr : Problem} {m : Nat} {gs : List Con}

/-- Two lists of parameters at the same point with the same layout are equal. -/
theorem params_eq {θ : Theta} {ps ps' : List (Param ℝ)} (h : AtPoint pr m θ ps) (h' : AtPoint pr m θ ps') (hl : SameLayout ps' ps) : ps' = ps := by
  refine List.ext_getElem? fun i => ?_
  by_cases hi : i < m
  · obtain ⟨q, q1, q2, q3, q4, q5⟩ := h.each i hi
    obtain ⟨q', r1, r2, r3, r4, r5⟩ := h'.each i hi
    have hm := congrArg (fun l => l[i]?) hl
    simp only [List.getElem?_map, q1, r1, Option.map_some, Option.some.injEq, Prod.mk.injEq] at hm
    rw [q1, r1]
    obtain ⟨qs, qv, qm⟩ := q
    obtain ⟨rs, rv, rm⟩ := q'
    simp only at *
    obtain ⟨rfl, rfl⟩ := hm
    congr 2
    refine List.ext_getElem (by rw [r4, q4]) fun a h1 h2 => ?_
    have e1 := q5 a (by rw [← q4]; exact h2)
    have e2 := r5 a (by rw [← r4]; exact h1)
    rw [List.getD_eq_getElem?_getD, List.getElem?_eq_getElem h2] at e1
    rw [List.getD_eq_getElem?_getD, List.getElem?_eq_getElem h1] at e2
    exact e2.trans e1.symm
  · rw [List.getElem?_eq_none (by rw [h'.len]; omega), List.getElem?_eq_none (by rw [h.len]; omega)]

/-- **C80.** The next fit of an object, whatever happened to it before, with the data of one table or with `c` times these data (Logistic, Finite, NormalizedFinite; no
penalties): `fit` returns the same or raises the same exception, and `get_params()` returns the same afterwards; if it returns and there is a constraint then `std_error()`
divides by the square root of `c`. -/
theorem C80_session (depth : Nat) (hpr : pr.Ok) (k : Kind) (hk : k.Proportional) (ops : List SessionOp) (a a' : FitArgs) (hops : ∀ op ∈ ops, op.Proper k.axes)
    (ha : (SessionOp.fit a).Proper k.axes) (ha' : (SessionOp.fit a').Proper k.axes) (hnew : a.method = .newton) (hargs : a' = { a with kwargs := a'.kwargs })
    (x x' : Name → NDArray ℝ) (hx : ∀ n ∈ k.reads, lastData (ops ++ [.fit a]) n = some (x n) ∧ pr.IsData (.tensor ⟨x n, 0, 0, k.axes, [], []⟩))
    (hx' : ∀ n ∈ k.reads, lastData (ops ++ [.fit a']) n = some (x' n) ∧ pr.IsData (.tensor ⟨x' n, 0, 0, k.axes, [], []⟩)) {c : ℝ} (hc0 : 0 < c)
    (hscale : ∀ n ∈ k.reads, Times pr c (.tensor ⟨x n, 0, 0, k.axes, [], []⟩) (.tensor ⟨x' n, 0, 0, k.axes, [], []⟩))
    {f : TFunc ℝ} (hmod : lastModel ops = some f) {st : Store} {val : Val} (hm : 0 < m) {outcomes : Nat → Prop}
    (hf : Computes pr (cOrder pr m) outcomes st (fun _ => True) f val) (hout : k.SumsOutcomes → ∀ q, pr.n ≤ q → outcomes q)
    (hone : f.gradOne = false) (ht : st.tot) (hu : ∀ p < m, st.used p) (hc : k.SumsOutcomes → st.clean)
    (hpos : k.IsProbability → ∀ θ n d, pr.Pos n d → 0 < val θ n d) (hsm : ∀ q θ, Smooth2 (fun θ => valCell pr val θ q) θ)
    (hT : ∑ q, pr.val (.tensor ⟨x .N, 0, 0, k.axes, [], []⟩) q ≠ 0)
    (hcs : List.Forall₂ (fun t g => IsConstraint (cOrder pr m) t g.val g.der) (constraintsOf ops) gs) (hreg : regularizationsOf ops = [])
    {θ0 : Theta} (hini : AtPoint pr m θ0 (initialParams ops)) (hF : 1 ≤ totalFree (initialParams ops)) :
    ((Session.run (depth + 2) k ops).fit a').1 = ((Session.run (depth + 2) k ops).fit a).1 ∧
      (Session.run (depth + 2) k (ops ++ [.fit a'])).getParams = (Session.run (depth + 2) k (ops ++ [.fit a])).getParams ∧
      ∀ b, ((Session.run (depth + 2) k ops).fit a).1 = .ok b → constraintsOf ops ≠ [] → ∀ nan, ∃ rs rs',
        (Session.run (depth + 2) k (ops ++ [.fit a])).stdError nan = .ok rs ∧ (Session.run (depth + 2) k (ops ++ [.fit a'])).stdError nan = .ok rs' ∧
          ∀ i j, isFree (initialParams ops) i j → ∃ v, entry rs i j = some v ∧ (entry rs' i j = some (v / Real.sqrt c) ∨ v = nan ∧ entry rs' i j = some nan) := by
  have hsub : ∀ b : FitArgs, lastModel (ops ++ [.fit b]) = some f ∧ constraintsOf (ops ++ [.fit b]) = constraintsOf ops ∧ regularizationsOf (ops ++ [.fit b]) = regularizationsOf ops := by
    intro b
    refine ⟨by rw [show lastModel (ops ++ [.fit b]) = lastModel ops by simp [lastModel]]; exact hmod, by simp [constraintsOf], by simp [regularizationsOf]⟩
  have hN : Name.N ∈ k.reads := by cases k <;> simp [Kind.reads]
  have hTT : ∑ q, pr.val (.tensor ⟨x' .N, 0, 0, k.axes, [], []⟩) q = c * ∑ q, pr.val (.tensor ⟨x .N, 0, 0, k.axes, [], []⟩) q := by
    rw [Finset.mul_sum]
    exact Finset.sum_congr rfl fun q _ => hscale .N hN q
  have hS := C74_problem (dom := fun _ => True) (φs := []) hpr k hk.ok (ops ++ [.fit a]) x hx (hsub a).1 hm hf hout hone ht hu hc (fun h θ _ => hpos h θ) hT
    (by rw [(hsub a).2.1]; exact hcs) (by rw [(hsub a).2.2, hreg]; exact .nil)
  have hS' := C74_problem (dom := fun _ => True) (φs := []) hpr k hk.ok (ops ++ [.fit a']) x' hx' (hsub a').1 hm hf hout hone ht hu hc (fun h θ _ => hpos h θ)
    (by rw [hTT]; exact mul_ne_zero hc0.ne' hT) (by rw [(hsub a').2.1]; exact hcs) (by rw [(hsub a').2.2, hreg]; exact .nil)
  have hsmooth : ∀ θ, Smooth2 (penalised (fun θ => k.logLike (fun n => pr.val (.tensor ⟨x n, 0, 0, k.axes, [], []⟩)) (valCell pr val θ)) []) θ := fun θ =>
    smooth_penalised (logLike_smooth hk _ (fun q => hsm q θ) fun h q => hpos h θ _ _ (cell_pos q)) fun φ hφ => absurd hφ List.not_mem_nil
  have hsame : ScaledProblem (Equiv.refl _) c 0 pr m (penalised (fun θ => k.logLike (fun n => pr.val (.tensor ⟨x n, 0, 0, k.axes, [], []⟩)) (valCell pr val θ)) []) gs pr m
      (penalised (fun θ => k.logLike (fun n => pr.val (.tensor ⟨x' n, 0, 0, k.axes, [], []⟩)) (valCell pr val θ)) []) gs := by
    refine ⟨fun _ => Iff.rfl, fun θ => ?_, List.forall₂_same.2 fun g _ θ => rfl⟩
    show k.logLike _ (valCell pr val θ) - _ = c * (k.logLike _ (valCell pr val θ) - _) + 0
    rw [logLike_times hk c hscale]
    simp
  obtain ⟨h1, -, -, -, -, h6, -, h8⟩ := C74_history depth k ops hops
  have hat := hini.layout h6 h8
  have hp := problem_of_run depth k ops a hops
  have hp' := problem_of_run depth k ops a' hops
  have hd : ∀ x ∈ a.kwargs, (Session.run (depth + 2) k ops).kind.dim ≤ x.2.ndim := by rw [h1, dim_eq]; exact ha
  have hd' : ∀ x ∈ a'.kwargs, (Session.run (depth + 2) k ops).kind.dim ≤ x.2.ndim := by rw [h1, dim_eq]; exact ha'
  have hnil := hini.ne hS.pos
  have hfree : ∀ i j, isFree (initialParams ops) i j ↔ isFree ((Session.run (depth + 2) k ops).params.getD []) i j := fun i j => (layout_free h6).symm
  have hF' : 1 ≤ totalFree ((Session.run (depth + 2) k ops).params.getD []) := by rw [Verif.Flat.SameLayout.totalFree h6]; exact hF
  have hcl : 1 ≤ gs.length ↔ constraintsOf ops ≠ [] := by
    rw [← hcs.length_eq]
    cases constraintsOf ops <;> simp
  rw [run_snoc, run_snoc]
  revert h6 hp hp' hd hd' hat hfree hF'
  generalize Session.run (depth + 2) k ops = s
  intro h6 hat hp hp' hd hd' hfree hF'
  cases hs : s.params with
  | none =>
    rw [hs] at h6
    have := congrArg List.length h6
    simp at this
    exact absurd this.symm (by simpa using hnil)
  | some ps =>
    rw [hs] at h6 hat hfree hF'
    simp only [Option.getD_some] at hat hfree hF'
    have e1 : a'.pinvh = a.pinvh := by rw [hargs]
    have e2 : a'.tol = a.tol := by rw [hargs]
    have e3 : a'.maxSteps = a.maxSteps := by rw [hargs]
    have e4 : a'.verbose = a.verbose := by rw [hargs]
    have e5 : a'.method = .newton := by rw [hargs]; exact hnew
    have hloop : s.loop a ps = Fit.fit ((problemOf k (ops ++ [.fit a])).env a.pinvh a.tol) ⟨ps, s.flatHess, s.converged⟩ a.maxSteps a.verbose .newton := by
      rw [← hp, ← hnew]; rfl
    have hloop' : s.loop a' ps = Fit.fit ((problemOf k (ops ++ [.fit a'])).env a.pinvh a.tol) ⟨ps, s.flatHess, s.converged⟩ a.maxSteps a.verbose .newton := by
      rw [← hp', ← e5, ← e1, ← e2, ← e3, ← e4]; rfl
    obtain ⟨j1, -, -, -, θ', j2, j3⟩ := C80_fit (e := Equiv.refl _) hS hS' hc0.ne' hTT hsame hsmooth (o := ⟨ps, s.flatHess, s.converged⟩) (o' := ⟨ps, s.flatHess, s.converged⟩)
      ⟨_, hat, hat⟩ (fun _ => Iff.rfl) rfl hF' a.maxSteps a.verbose _ _ hloop hloop'
    have hwf : ∀ p ∈ ps, p.WF := hat.wf
    have l1 := (Fit.C02_fixed_unchanged ((problemOf k (ops ++ [.fit a])).env a.pinvh a.tol) ⟨ps, s.flatHess, s.converged⟩ a.maxSteps a.verbose .newton hwf).1
    have l2 := (Fit.C02_fixed_unchanged ((problemOf k (ops ++ [.fit a'])).env a.pinvh a.tol) ⟨ps, s.flatHess, s.converged⟩ a.maxSteps a.verbose .newton hwf).1
    rw [← hloop] at l1
    rw [← hloop'] at l2
    have heq : (s.loop a' ps).obj.params = (s.loop a ps).obj.params := params_eq j2 j3 (l2.trans l1.symm)
    refine ⟨?_, ?_, fun b hb hcn nan => ?_⟩
    · rw [fit_some hd hs, fit_some hd' hs]
      exact j1
    · show (s.fit a').2.getParams = (s.fit a).2.getParams
      rw [fit_some hd hs, fit_some hd' hs]
      unfold Session.getParams
      dsimp only
      rw [heq]
    · rw [fit_some hd hs] at hb
      obtain ⟨J, J', k1, k2, -, k3⟩ := C80_errors (e := Equiv.refl _) hS hS' hc0 hTT hsame hsmooth (o := ⟨ps, s.flatHess, s.converged⟩) (o' := ⟨ps, s.flatHess, s.converged⟩)
        ⟨_, hat, hat⟩ (fun _ => Iff.rfl) rfl hF' a.maxSteps a.verbose _ _ hloop hloop' b hb
      obtain ⟨rs, rs', q1, q2, q3⟩ := (k3 nan).2 (hcl.2 hcn)
      refine ⟨rs, rs', ?_, ?_, fun i j hij => q3 (i, j) ((hfree i j).1 hij)⟩
      · show (s.fit a).2.stdError nan = .ok rs
        rw [fit_some hd hs]
        unfold Session.stdError
        dsimp only
        rw [k1]
        dsimp only
        rw [← hp] at q1
        unfold stdErrorT at q1 ⊢
        rw [problem_constraint] at q1 ⊢
        exact q1
      · show (s.fit a').2.stdError nan = .ok rs'
        rw [fit_some hd' hs]
        unfold Session.stdError
        dsimp only
        rw [k2]
        dsimp only
        rw [← hp'] at q2
        unfold stdErrorT at q2 ⊢
        rw [problem_constraint] at q2 ⊢
        exact q2

end

section
variable {L : Type} [LinearOrder L] {pr : Problem} {m : Nat} {gs : List Con}

theorem series_shapes {obs : Series L ℝ} {ts : List (String × (List ℝ → Option ℝ))} {addAxis : String → Option (List L)} {res : List (String × Prep.Arr ℝ)} {axis : List (List L)}
    (h : prepareSeries obs ts addAxis = .ok (res, axis)) : ∀ r ∈ res, r.2.shape = axis.map List.length := by
  unfold prepareSeries at h
  split_ifs at h
  simp only [Except.ok.injEq, Prod.mk.injEq] at h
  obtain ⟨rfl, rfl⟩ := h
  intro r hr
  obtain ⟨t, -, rfl⟩ := List.mem_map.1 hr
  rfl

theorem lookup_map {β γ : Type} (g : β → γ) (name : String) : ∀ res : List (String × β), (res.map fun r => (r.1, g r.2)).lookup name = (res.lookup name).map g
  | [] => rfl
  | r :: res => by
    rw [List.map_cons, List.lookup_cons, List.lookup_cons, lookup_map g name res]
    cases name == r.1 <;> rfl

/-- What `prepare_series` must be asked for: everything the class reads, as sums, numbers of observations or numbers of zeros. -/
structure Prepares (k : Kind) (ts : List (String × (List ℝ → Option ℝ))) : Prop where
  nodup : (ts.map Prod.fst).Nodup
  kinds : ∀ t ∈ ts, t.2 = npSum ∨ t.2 = npSize ∨ t.2 = npZeros
  reads : ∀ n ∈ k.reads, ∃ t ∈ ts, kwargName t.1 = n

/-- **C80.** From a series of observations to the fit.  A second table has every row of the first one `n` times (`n ≥ 1`); both are prepared with the same transformations and
fitted, with the same arguments, by an object with the same history: the fits return the same or raise the same exception, `get_params()` is the same afterwards, and the
standard errors of the second are those of the first divided by the square root of `n`.  (Logistic, Finite, NormalizedFinite; no penalties.) -/
theorem C80_repeated_rows (depth : Nat) (hpr : pr.Ok) (k : Kind) (hk : k.Proportional) (hd : pr.d = k.axes) {obs : Series L ℝ}
    (hw : WellFormed obs.levels obs.names (obs.rows.map Prod.fst)) {ts : List (String × (List ℝ → Option ℝ))} (hts : Prepares k ts)
    (hN : ("N", npSize) ∈ ts ∧ obs.rows ≠ [] ∨ ("N", npSum) ∈ ts ∧ (obs.rows.map Prod.snd).sum ≠ 0)
    {addAxis : String → Option (List L)} {res res' : List (String × Prep.Arr ℝ)} {axis axis' : List (List L)} (h : prepareSeries obs ts addAxis = .ok (res, axis))
    {n : Nat} (hn : 1 ≤ n) (h' : prepareSeries ⟨obs.levels, obs.names, (List.replicate n obs.rows).flatten⟩ ts addAxis = .ok (res', axis')) (hax : pr.HasAxes axis)
    (ops : List SessionOp) (a : FitArgs) (hops : ∀ op ∈ ops, op.Proper k.axes) (hnew : a.method = .newton)
    {f : TFunc ℝ} (hmod : lastModel ops = some f) {st : Store} {val : Val} (hm : 0 < m) {outcomes : Nat → Prop}
    (hf : Computes pr (cOrder pr m) outcomes st (fun _ => True) f val) (hout : k.SumsOutcomes → ∀ q, pr.n ≤ q → outcomes q)
    (hone : f.gradOne = false) (ht : st.tot) (hu : ∀ p < m, st.used p) (hc : k.SumsOutcomes → st.clean)
    (hpos : k.IsProbability → ∀ θ n d, pr.Pos n d → 0 < val θ n d) (hsm : ∀ q θ, Smooth2 (fun θ => valCell pr val θ q) θ)
    (hcs : List.Forall₂ (fun t g => IsConstraint (cOrder pr m) t g.val g.der) (constraintsOf ops) gs) (hreg : regularizationsOf ops = [])
    {θ0 : Theta} (hini : AtPoint pr m θ0 (initialParams ops)) (hF : 1 ≤ totalFree (initialParams ops)) :
    axis' = axis ∧
      ((Session.run (depth + 2) k ops).fit { a with kwargs := kwargsOf res' }).1 = ((Session.run (depth + 2) k ops).fit { a with kwargs := kwargsOf res }).1 ∧
      (Session.run (depth + 2) k (ops ++ [.fit { a with kwargs := kwargsOf res' }])).getParams =
        (Session.run (depth + 2) k (ops ++ [.fit { a with kwargs := kwargsOf res }])).getParams ∧
      ∀ b, ((Session.run (depth + 2) k ops).fit { a with kwargs := kwargsOf res }).1 = .ok b → constraintsOf ops ≠ [] → ∀ nan, ∃ rs rs',
        (Session.run (depth + 2) k (ops ++ [.fit { a with kwargs := kwargsOf res }])).stdError nan = .ok rs ∧
          (Session.run (depth + 2) k (ops ++ [.fit { a with kwargs := kwargsOf res' }])).stdError nan = .ok rs' ∧
          ∀ i j, isFree (initialParams ops) i j → ∃ v, entry rs i j = some v ∧ (entry rs' i j = some (v / Real.sqrt n) ∨ v = nan ∧ entry rs' i j = some nan) := by
  obtain ⟨s1, s2, s3⟩ := series_shape hw h
  have hrep := Verif.Prep.C81_repeated hts.kinds h n
  rw [hrep] at h'
  injection h' with h'
  obtain ⟨rfl, rfl⟩ := Prod.mk.inj h'
  have hnd : (res.map Prod.fst).Nodup := by rw [s1]; exact hts.nodup
  have hnd' : ((res.map fun r => (r.1, (⟨r.2.shape, r.2.data.map ((n : ℝ) * ·)⟩ : Prep.Arr ℝ))).map Prod.fst).Nodup := by
    rw [List.map_map]; exact hnd
  obtain ⟨cell, c1, c2⟩ := exists_cell hpr hax s2 _ s3
  set res' := res.map fun r => (r.1, (⟨r.2.shape, r.2.data.map ((n : ℝ) * ·)⟩ : Prep.Arr ℝ)) with hres'
  have arr : ∀ t ∈ ts, ∃ v v' : NDArray ℝ, lastData (ops ++ [.fit { a with kwargs := kwargsOf res }]) (kwargName t.1) = some v ∧
      lastData (ops ++ [.fit { a with kwargs := kwargsOf res' }]) (kwargName t.1) = some v' ∧
      pr.IsData (.tensor ⟨v, 0, 0, pr.d, [], []⟩) ∧ pr.IsData (.tensor ⟨v', 0, 0, pr.d, [], []⟩) ∧
      Times pr n (.tensor ⟨v, 0, 0, pr.d, [], []⟩) (.tensor ⟨v', 0, 0, pr.d, [], []⟩) ∧
      ∀ c labels, LabelsAt axis (pr.indices c) labels → pr.val (.tensor ⟨v, 0, 0, pr.d, [], []⟩) c = cellSpec t.2 (observationsAt obs.rows labels) := by
    intro t htt
    obtain ⟨ar, a1, a2, -, a4⟩ := C45_cells hts.nodup h (name := t.1) (f := t.2) htt
    obtain ⟨b1, b2⟩ := prepared_array (pr := pr) hax a2 a4
    have a1' : res'.lookup t.1 = some ⟨ar.shape, ar.data.map ((n : ℝ) * ·)⟩ := by
      rw [hres', lookup_map (fun x : Prep.Arr ℝ => (⟨x.shape, x.data.map ((n : ℝ) * ·)⟩ : Prep.Arr ℝ)), a1]
      rfl
    obtain ⟨d1, d2⟩ := prepared_array (pr := pr) hax (arr := ⟨ar.shape, ar.data.map ((n : ℝ) * ·)⟩) (g := fun labels => n * cellSpec t.2 (observationsAt obs.rows labels)) a2
      (fun idx labels hl => by
        show (ar.data.map _)[Prep.ravel ar.shape idx]? = _
        rw [List.getElem?_map, a4 idx labels hl]
        rfl)
    refine ⟨_, _, lastData_kwargs rfl hnd a1, lastData_kwargs rfl hnd' a1', b1, d1, fun q => ?_, b2⟩
    obtain ⟨labels, hl⟩ := labels_of_cell hax q
    rw [d2 q labels hl, b2 q labels hl]
  have hx : ∀ nm : Name, ∃ v v' : NDArray ℝ, nm ∈ k.reads → lastData (ops ++ [.fit { a with kwargs := kwargsOf res }]) nm = some v ∧
      lastData (ops ++ [.fit { a with kwargs := kwargsOf res' }]) nm = some v' ∧
      pr.IsData (.tensor ⟨v, 0, 0, pr.d, [], []⟩) ∧ pr.IsData (.tensor ⟨v', 0, 0, pr.d, [], []⟩) ∧
      Times pr n (.tensor ⟨v, 0, 0, pr.d, [], []⟩) (.tensor ⟨v', 0, 0, pr.d, [], []⟩) := by
    intro nm
    by_cases hr : nm ∈ k.reads
    · obtain ⟨t, t1, rfl⟩ := hts.reads nm hr
      obtain ⟨v, v', w1, w2, w3, w4, w5, -⟩ := arr t t1
      exact ⟨v, v', fun _ => ⟨w1, w2, w3, w4, w5⟩⟩
    · exact ⟨⟨0, fun _ => 1, fun _ => 0⟩, ⟨0, fun _ => 1, fun _ => 0⟩, fun h => absurd h hr⟩
  choose x x' hx using hx
  have hdim : ∀ r ∈ res, k.axes ≤ r.2.shape.length := by
    intro r hr
    rw [series_shapes h r hr, List.length_map, hax.1, hd]
    omega
  have key : ∀ {g : List ℝ → Option ℝ} (e : ℝ → ℝ), ("N", g) ∈ ts → (∀ vals, cellSpec g vals = (vals.map e).sum) →
      ∑ q, pr.val (.tensor ⟨x .N, 0, 0, k.axes, [], []⟩) q = (obs.rows.map fun r => e r.2).sum := by
    intro g e hg he
    obtain ⟨v, v', w1, -, -, -, -, w6⟩ := arr _ hg
    have hNr : Name.N ∈ k.reads := by cases k <;> simp [Kind.reads]
    have hv : x .N = v := Option.some.inj ((hx .N hNr).1.symm.trans w1)
    rw [hv, ← hd]
    have := sum_cellSum (fun r : List L × ℝ => cell r.1) (fun r => e r.2) (fun _ => 1) obs.rows
    simp only [mul_one] at this
    rw [← this]
    refine Finset.sum_congr rfl fun c _ => ?_
    obtain ⟨labels, hl⟩ := labels_of_cell hax c
    rw [w6 c labels hl, he, observations_cell (c2 c labels hl)]
  refine ⟨rfl, C80_session depth hpr k hk ops { a with kwargs := kwargsOf res } { a with kwargs := kwargsOf res' } hops ?_ ?_ hnew rfl x x' (fun nm hr => ⟨(hx nm hr).1, hd ▸ (hx nm hr).2.2.1⟩)
    (fun nm hr => ⟨(hx nm hr).2.1, hd ▸ (hx nm hr).2.2.2.1⟩) (c := n) (by exact_mod_cast hn) (fun nm hr => hd ▸ (hx nm hr).2.2.2.2) hmod hm hf hout hone ht hu hc hpos hsm ?_ hcs hreg
    hini hF⟩
  · intro y hy
    obtain ⟨r, hr, rfl⟩ := List.mem_map.1 hy
    exact hdim r hr
  · intro y hy
    obtain ⟨r, hr, rfl⟩ := List.mem_map.1 hy
    obtain ⟨r0, hr0, rfl⟩ := List.mem_map.1 hr
    exact hdim r0 hr0
  · rcases hN with ⟨h1, h2⟩ | ⟨h1, h2⟩
    · rw [key (fun _ => 1) h1 Verif.Prep.cellSpec_size]
      simp
      exact_mod_cast h2
    · rw [key (fun v => v) h1 fun vals => by rw [Verif.Prep.cellSpec_sum, List.map_id']]
      exact h2

/-- **C80**, an instance of the hypotheses: test_logistic (tests.py:378-409) as a session, for a series of observations with three index levels and for the series with every
row `n` times. -/
theorem C80_example_repeated (depth : Nat) {obs : Series L ℝ} (hw : WellFormed obs.levels obs.names (obs.rows.map Prod.fst)) (hne : obs.rows ≠ [])
    {addAxis : String → Option (List L)} {res res' : List (String × Prep.Arr ℝ)} {A B C : List L} {axis' : List (List L)}
    (h : prepareSeries obs [("N", npSize), ("X", npSum)] addAxis = .ok (res, [A, B, C])) {n : Nat} (hn : 1 ≤ n)
    (h' : prepareSeries ⟨obs.levels, obs.names, (List.replicate n obs.rows).flatten⟩ [("N", npSize), ("X", npSum)] addAxis = .ok (res', axis'))
    {vector : NDArray ℝ} (h1 : vector.ndim = 1) (h2 : vector.shape 0 = C.length) {a b : List ℝ} (ha : a.length = A.length) (hb : b.length = B.length) (h0 : ℝ) (args : FitArgs)
    (hnewton : args.method = .newton) :
    ((Session.run (depth + 2) .logistic (testProgram vector a b h0)).fit { args with kwargs := kwargsOf res' }).1 =
        ((Session.run (depth + 2) .logistic (testProgram vector a b h0)).fit { args with kwargs := kwargsOf res }).1 ∧
      (Session.run (depth + 2) .logistic (testProgram vector a b h0 ++ [.fit { args with kwargs := kwargsOf res' }])).getParams =
        (Session.run (depth + 2) .logistic (testProgram vector a b h0 ++ [.fit { args with kwargs := kwargsOf res }])).getParams ∧
      ∀ r, ((Session.run (depth + 2) .logistic (testProgram vector a b h0)).fit { args with kwargs := kwargsOf res }).1 = .ok r → ∀ nan, ∃ rs rs',
        (Session.run (depth + 2) .logistic (testProgram vector a b h0 ++ [.fit { args with kwargs := kwargsOf res }])).stdError nan = .ok rs ∧
          (Session.run (depth + 2) .logistic (testProgram vector a b h0 ++ [.fit { args with kwargs := kwargsOf res' }])).stdError nan = .ok rs' ∧
          ∀ i j, isFree (initialParams (testProgram vector a b h0)) i j →
            ∃ v, entry rs i j = some v ∧ (entry rs' i j = some (v / Real.sqrt n) ∨ v = nan ∧ entry rs' i j = some nan) := by
  obtain ⟨-, -, s3⟩ := series_shape hw h
  have hA : A.length ≠ 0 ∧ B.length ≠ 0 ∧ C.length ≠ 0 := by
    obtain ⟨⟨r1, r2⟩, l0, hl⟩ := List.exists_cons_of_ne_nil hne
    have := s3 r1 (by rw [hl]; simp)
    cases this with
    | cons h1 h2 =>
      cases h2 with
      | cons h2 h3 =>
        cases h3 with
        | cons h3 _ =>
          exact ⟨fun e => by rw [List.length_eq_zero_iff.1 e] at h1; simp at h1, fun e => by rw [List.length_eq_zero_iff.1 e] at h2; simp at h2,
            fun e => by rw [List.length_eq_zero_iff.1 e] at h3; simp at h3⟩
  have hpr : (threeFactor A.length B.length C.length).Ok := threeFactor_ok hA.1 hA.2.1 hA.2.2
  have hax : (threeFactor A.length B.length C.length).HasAxes [A, B, C] := by
    refine ⟨rfl, fun k a ha => ?_⟩
    match k, ha with
    | 0, ha => cases ha; rfl
    | 1, ha => cases ha; rfl
    | 2, ha => cases ha; rfl
  have hops : ∀ op ∈ testProgram vector a b h0, op.Proper (Kind.axes .logistic) := by
    intro op hop
    simp only [testProgram, List.mem_cons, List.not_mem_nil, or_false] at hop
    rcases hop with rfl | rfl | rfl | rfl | rfl
    · trivial
    · trivial
    · simp [SessionOp.Proper, Arg.data]
    · simp [SessionOp.Proper, Arg.data]
    · simp [SessionOp.Proper, Arg.data]
  have hpar : initialParams (testProgram vector a b h0) =
      [⟨[a.length], a, List.replicate a.length false⟩, ⟨[b.length], b, List.replicate b.length false⟩, ⟨[], [h0], [false]⟩] := by
    simp [initialParams, testProgram, Arg.data]
  have hini : AtPoint (threeFactor A.length B.length C.length) 3 (pointOf (initialParams (testProgram vector a b h0))) (initialParams (testProgram vector a b h0)) := by
    rw [hpar]
    refine ⟨rfl, fun p hp => ?_⟩
    have : p = 0 ∨ p = 1 ∨ p = 2 := by omega
    rcases this with rfl | rfl | rfl
    · exact ⟨_, rfl, by rw [ha]; rfl, by simp, by simp, fun a _ => rfl⟩
    · exact ⟨_, rfl, by rw [hb]; rfl, by simp, by simp, fun a _ => rfl⟩
    · exact ⟨_, rfl, rfl, by simp, by simp, fun a _ => rfl⟩
  have hcon : constraintsOf (testProgram vector a b h0) = [⟨[0, 1], linearT [1, 1]⟩] := by simp [constraintsOf, testProgram, PMap.toList]
  obtain ⟨-, k1, k2, k3⟩ := C80_repeated_rows depth hpr .logistic trivial rfl hw (ts := [("N", npSize), ("X", npSum)])
    ⟨by decide, by simp, by
      intro nm hnm
      simp only [Kind.reads, List.mem_cons, List.not_mem_nil, or_false] at hnm
      rcases hnm with rfl | rfl
      · exact ⟨_, List.mem_cons_of_mem _ (List.mem_cons_self ..), rfl⟩
      · exact ⟨_, List.mem_cons_self .., rfl⟩⟩
    (.inl ⟨List.mem_cons_self .., hne⟩) h hn h' hax (testProgram vector a b h0) args hops hnewton (f := fooModel vector) (by simp [lastModel, testProgram]) (m := 3) (by omega)
    (foo_computes hA.1 hA.2.1 hA.2.2 h1 h2) (fun hp => hp.elim) rfl trivial (fun _ _ => trivial) (fun hp => hp.elim) (fun hp => hp.elim) (fun q θ => foo_smooth q θ)
    (by rw [hcon]; exact sum_constraint (by omega)) (by simp [regularizationsOf, testProgram]) hini (by rw [hpar]; simp [totalFree]; omega)
  exact ⟨k1, k2, fun r hr => k3 r hr (by rw [hcon]; simp)⟩

end

end Verif.Tens
