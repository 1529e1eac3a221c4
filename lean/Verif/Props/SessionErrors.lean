import Verif.Model.SessionErrors
import Verif.Props.MaximumLikelihoodExample

/-!
# C77: the errors and the information criteria of a session
-/

namespace Verif.Tens
open Verif.Params Verif.Prep

set_option linter.unusedSectionVars false

section
variable {pr : Problem} {m : Nat} {dom : Theta → Prop} {gs : List Con} {φs : List Pen} {ρ : Type} {T K : ℝ} {L : Theta → ℝ}

theorem session_problem (depth : Nat) (k : Kind) (ops : List SessionOp) (hops : ∀ op ∈ ops, op.Proper k.axes) :
    (Session.run (depth + 2) k ops).problem = problemOf k ops := by
  obtain ⟨h1, h2, h3, h4, h5, -⟩ := C74_history depth k ops hops
  refine problem_congr h1 h2 h3 h4 (funext fun n => h5 n)

/-- **C77.** `akaine_information_criterion(extra)` and `bayesian_information_criterion(extra)` after any calls, at the parameters of the object: `T` times the result is the criterion of
the documentation for the (penalised) log-likelihood `L` of the problem; the number of parameters counts all the entries, fixed or free. -/
theorem C77_criteria (depth : Nat) (k : Kind) (ops : List SessionOp) (hops : ∀ op ∈ ops, op.Proper k.axes) {x : NDArray ℝ} (hN : lastData ops .N = some x)
    (hS : Solver pr m dom (problemOf k ops) L gs φs T) {θ : Theta} (hθ : dom θ) {ps : List (Param ℝ)} (hps : (Session.run (depth + 2) k ops).params = some ps)
    (hat : AtPoint pr m θ ps) (extra : Int) {d : ℝ} (hd : d = (∑ p ∈ Finset.range m, (pr.sizes p).prod : Nat) + extra - gs.length) (hd1 : T - d - 1 ≠ 0) :
    (∃ v, (Session.run (depth + 2) k ops).aic extra = .ok v ∧ T * v = 2 * d - 2 * penalised L φs θ + 2 * d * (d + 1) / (T - d - 1)) ∧
      ∃ v, (Session.run (depth + 2) k ops).bic extra = .ok v ∧ T * v = d * Real.log T - 2 * penalised L φs θ := by
  have hdat := (C74_history depth k ops hops).2.2.2.2.1 .N
  rw [hN] at hdat
  unfold Session.aic Session.bic
  rw [hps, hdat, session_problem depth k ops hops]
  exact C69_criteria hS hθ hat extra hd hd1

/-- **C77.** The constant by which the log-likelihood of a class differs from the log-probability of the observations (C75) depends on the class and the data only, not on the
model, its parameters, the constraints and the penalties. -/
theorem C77_constant {n d : Nat} {S : Nat → Nat} (k : Kind) (hd : d = k.axes) (rows : List ρ)
    (pos : ρ → (∀ k : Fin n, Fin (S k)) × (∀ k : Fin d, Fin (S (n + k)))) (w : ρ → ℝ) (v : ρ → ℕ) (hv : ∀ r ∈ rows, k.Admits (v r)) (hne : (rows.map w).sum ≠ 0)
    (x : Name → NDArray ℝ) (hdata : ∀ a ∈ k.reads, (x a).ndim = n + d ∧ ∀ k < n + d, (x a).shape k = S k)
    (hX : .X ∈ k.reads → ∀ c, Problem.val ⟨n, d, S, fun _ => 0, fun _ _ => 0⟩ (.tensor ⟨x .X, 0, 0, d, [], []⟩) c = cellSum rows pos (fun r => w r * v r) c)
    (hN : ∀ c, Problem.val ⟨n, d, S, fun _ => 0, fun _ _ => 0⟩ (.tensor ⟨x .N, 0, 0, d, [], []⟩) c = cellSum rows pos w c)
    (hZ : .Z ∈ k.reads → ∀ c, Problem.val ⟨n, d, S, fun _ => 0, fun _ _ => 0⟩ (.tensor ⟨x .Z, 0, 0, d, [], []⟩) c = cellSum rows pos (fun r => if v r = 0 then w r else 0) c) :
    ∃ K : ℝ, ∀ (nd : Nat → Nat) (P : Nat → Nat → Nat) (m : Nat) (dom : Theta → Prop) (ops : List SessionOp) (f : TFunc ℝ) (st : Store) (val : Val) (outcomes : Nat → Prop)
      (gs : List Con) (φs : List Pen), Problem.Ok ⟨n, d, S, nd, P⟩ → (∀ a ∈ k.reads, lastData ops a = some (x a)) → lastModel ops = some f → 0 < m →
      Computes ⟨n, d, S, nd, P⟩ (cOrder ⟨n, d, S, nd, P⟩ m) outcomes st dom f val → (k.SumsOutcomes → ∀ q, n ≤ q → outcomes q) → f.gradOne = false → st.tot → (∀ p < m, st.used p) →
      (k.SumsOutcomes → st.clean) → (k.IsProbability → ∀ θ, dom θ → ∀ a b, Problem.Pos ⟨n, d, S, nd, P⟩ a b → 0 < val θ a b) →
      List.Forall₂ (fun t g => IsConstraint (cOrder ⟨n, d, S, nd, P⟩ m) t g.val g.der) (constraintsOf ops) gs →
      List.Forall₂ (fun t φ => IsPenalty (cOrder ⟨n, d, S, nd, P⟩ m) t φ.val φ.der φ.hes) (regularizationsOf ops) φs →
      Solver ⟨n, d, S, nd, P⟩ m dom (problemOf k ops) (fun θ => (rows.map fun r => w r * k.logProb (valCell ⟨n, d, S, nd, P⟩ val θ) (pos r) (v r)).sum + K) gs φs (rows.map w).sum := by
  have hk : k.Ok := by
    cases rows with
    | nil => simp at hne
    | cons r rows => exact Admits.ok (hv r (List.mem_cons_self ..))
  obtain ⟨K, hK⟩ := C75_aggregate k rows pos w v hv (fun a => Problem.val ⟨n, d, S, fun _ => 0, fun _ _ => 0⟩ (.tensor ⟨x a, 0, 0, d, [], []⟩)) hX hN hZ
  refine ⟨K, fun nd P m dom ops f st val outcomes gs φs hpr hx hmod hm hf hout hone ht hu hc hpos hcs hrs => ?_⟩
  have hT : ∑ c, Problem.val ⟨n, d, S, nd, P⟩ (.tensor ⟨x .N, 0, 0, d, [], []⟩) c = (rows.map w).sum := by
    have := sum_cellSum pos w (fun _ => 1) rows
    simp only [mul_one] at this
    rw [← this]
    exact Finset.sum_congr rfl fun c _ => hN c
  have := C74_problem (pr := ⟨n, d, S, nd, P⟩) (dom := dom) hpr k hk ops x (by rw [← hd]; exact fun a ha => ⟨hx a ha, array_isData (pr := ⟨n, d, S, nd, P⟩) (hdata a ha).1 (hdata a ha).2⟩) hmod hm hf hout hone ht hu hc hpos
    (by rw [← hd, hT]; exact hne) hcs hrs
  rw [← hd, hT] at this
  refine (congrArg (fun L => Solver ⟨n, d, S, nd, P⟩ m dom (problemOf k ops) L gs φs (rows.map w).sum) (funext fun θ => ?_)).mp this
  exact hK _

/-- **C77.** Two objects of the same class with the same data but other models, parameters, constraints and penalties (`Solver` with the same constant: `C77_constant`): the difference of
their AIC, times the number of observations, is the difference of the corrected AIC of the probabilities that they give to the observations; the same for BIC. -/
theorem C77_compare {pr₁ pr₂ : Problem} {m₁ m₂ : Nat} {dom₁ dom₂ : Theta → Prop} (depth : Nat) (k : Kind) (ops₁ ops₂ : List SessionOp)
    (hops₁ : ∀ op ∈ ops₁, op.Proper k.axes) (hops₂ : ∀ op ∈ ops₂, op.Proper k.axes) {x : NDArray ℝ} (hN₁ : lastData ops₁ .N = some x) (hN₂ : lastData ops₂ .N = some x)
    (rows : List ρ) (w : ρ → ℝ) (v : ρ → ℕ) (pos₁ : ρ → pr₁.Cell) (pos₂ : ρ → pr₂.Cell) {val₁ val₂ : Val} {gs₁ gs₂ : List Con} {φs₁ φs₂ : List Pen}
    (hS₁ : Solver pr₁ m₁ dom₁ (problemOf k ops₁) (fun θ => (rows.map fun r => w r * k.logProb (valCell pr₁ val₁ θ) (pos₁ r) (v r)).sum + K) gs₁ φs₁ T)
    (hS₂ : Solver pr₂ m₂ dom₂ (problemOf k ops₂) (fun θ => (rows.map fun r => w r * k.logProb (valCell pr₂ val₂ θ) (pos₂ r) (v r)).sum + K) gs₂ φs₂ T)
    {θ₁ θ₂ : Theta} (hθ₁ : dom₁ θ₁) (hθ₂ : dom₂ θ₂) {ps₁ ps₂ : List (Param ℝ)} (hps₁ : (Session.run (depth + 2) k ops₁).params = some ps₁)
    (hps₂ : (Session.run (depth + 2) k ops₂).params = some ps₂) (hat₁ : AtPoint pr₁ m₁ θ₁ ps₁) (hat₂ : AtPoint pr₂ m₂ θ₂ ps₂) (extra₁ extra₂ : Int) {d₁ d₂ : ℝ}
    (hd₁ : d₁ = (∑ p ∈ Finset.range m₁, (pr₁.sizes p).prod : Nat) + extra₁ - gs₁.length)
    (hd₂ : d₂ = (∑ p ∈ Finset.range m₂, (pr₂.sizes p).prod : Nat) + extra₂ - gs₂.length) (h1 : T - d₁ - 1 ≠ 0) (h2 : T - d₂ - 1 ≠ 0) :
    (∃ v₁ v₂, (Session.run (depth + 2) k ops₁).aic extra₁ = .ok v₁ ∧ (Session.run (depth + 2) k ops₂).aic extra₂ = .ok v₂ ∧
      T * (v₁ - v₂) =
        (2 * d₁ - 2 * ((rows.map fun r => w r * k.logProb (valCell pr₁ val₁ θ₁) (pos₁ r) (v r)).sum - (φs₁.map fun φ => φ.val θ₁).sum) + 2 * d₁ * (d₁ + 1) / (T - d₁ - 1)) -
        (2 * d₂ - 2 * ((rows.map fun r => w r * k.logProb (valCell pr₂ val₂ θ₂) (pos₂ r) (v r)).sum - (φs₂.map fun φ => φ.val θ₂).sum) + 2 * d₂ * (d₂ + 1) / (T - d₂ - 1))) ∧
    ∃ v₁ v₂, (Session.run (depth + 2) k ops₁).bic extra₁ = .ok v₁ ∧ (Session.run (depth + 2) k ops₂).bic extra₂ = .ok v₂ ∧
      T * (v₁ - v₂) =
        (d₁ * Real.log T - 2 * ((rows.map fun r => w r * k.logProb (valCell pr₁ val₁ θ₁) (pos₁ r) (v r)).sum - (φs₁.map fun φ => φ.val θ₁).sum)) -
        (d₂ * Real.log T - 2 * ((rows.map fun r => w r * k.logProb (valCell pr₂ val₂ θ₂) (pos₂ r) (v r)).sum - (φs₂.map fun φ => φ.val θ₂).sum)) := by
  obtain ⟨⟨a1, b1, c1⟩, ⟨a1', b1', c1'⟩⟩ := C77_criteria depth k ops₁ hops₁ hN₁ hS₁ hθ₁ hps₁ hat₁ extra₁ hd₁ h1
  obtain ⟨⟨a2, b2, c2⟩, ⟨a2', b2', c2'⟩⟩ := C77_criteria depth k ops₂ hops₂ hN₂ hS₂ hθ₂ hps₂ hat₂ extra₂ hd₂ h2
  unfold penalised at c1 c1' c2 c2'
  refine ⟨⟨a1, a2, b1, b2, ?_⟩, a1', a2', b1', b2', ?_⟩
  · rw [mul_sub, c1, c2]; ring
  · rw [mul_sub, c1', c2']; ring

end

/-! ## what `std_error` and the matrices refer to -/

theorem newton_raises_hess (env : Fit.Env ℝ G Y D H M) (o : Fit.Obj ℝ M) (maxSteps verbose : Nat) (e : Err)
    (h : (Fit.fit env o maxSteps verbose .newton).outcome = .error e) : (Fit.fit env o maxSteps verbose .newton).obj.flatHess = o.flatHess := by
  have loop : ∀ k ps flat, (Fit.newtonLoop env verbose o k ps flat).outcome = .error e →
      (Fit.newtonLoop env verbose o k ps flat).obj.flatHess = o.flatHess := by
    intro k
    induction k with
    | zero => intros; rfl
    | succ k ih =>
      intro ps flat hk
      simp only [Fit.newtonLoop] at hk ⊢
      split
      · rfl
      · split
        · rfl
        · rfl
        · split
          · rfl
          · rename_i h1 _ _ _ _ _ _ h2 _ h3
            simp only [h1, h2, h3] at hk
            cases hk
          · rename_i h1 _ _ _ _ _ _ h2 _ h3
            simp only [h1, h2, h3] at hk
            exact ih _ _ hk
  simp only [Fit.fit] at h ⊢
  split
  · rfl
  · rename_i flat hf
    rw [hf] at h
    exact loop _ _ _ h

theorem setData_keeps : ∀ (kw : List (Name × NDArray ℝ)) (s : Session), (s.setData kw).2.flatHess = s.flatHess ∧ (s.setData kw).2.params = s.params ∧
    (s.setData kw).2.constraint = s.constraint ∧ (s.setData kw).2.kind = s.kind
  | [], s => ⟨rfl, rfl, rfl, rfl⟩
  | (n, v) :: kw, s => by
    unfold Session.setData
    cases mkTensor v 0 0 s.kind.dim [] [] with
    | error e => exact ⟨rfl, rfl, rfl, rfl⟩
    | ok t => exact setData_keeps kw _

theorem problem_constraint (s : Session) : s.problem.constraint = s.constraint := by
  unfold Session.problem
  dsimp only
  split <;> rfl

theorem fit_raised (s : Session) (a : FitArgs) (ha : a.method = .newton) {e : Err} (h : (s.fit a).1 = .error e) :
    (s.fit a).2.flatHess = s.flatHess ∧ (s.fit a).2.params = s.params ∧ (s.fit a).2.constraint = s.constraint := by
  obtain ⟨k1, k2, k3, -⟩ := setData_keeps a.kwargs s
  revert h k1 k2 k3
  unfold Session.fit
  rcases s.setData a.kwargs with ⟨_ | _, s'⟩
  · intro _ k1 k2 k3; exact ⟨k1, k2, k3⟩
  · dsimp only
    cases hp : s'.params with
    | none => intro _ k1 k2 k3; exact ⟨k1, hp.trans k2, k3⟩
    | some ps =>
      dsimp only
      rw [ha]
      intro h k1 k2 k3
      exact ⟨(newton_raises_hess _ _ _ _ e h).trans k1, by rw [Fit.C07_newton_atomic _ _ _ _ _ (by simp) e h, ← k2], k3⟩

/-- **C77.** A Newton fit that raises, for any reason, changes neither `get_params()` nor what `std_error()`, `error_matrix()` and `fisher_matrix()` return or raise, whatever
has been called before: they still refer to the last fit that returned, although the object may already have the new data. -/
theorem C77_raised (s : Session) (a : FitArgs) (ha : a.method = .newton) {e : Err} (h : (s.fit a).1 = .error e) (nan : ℝ) :
    (s.fit a).2.getParams = s.getParams ∧ (s.fit a).2.stdError nan = s.stdError nan ∧ (s.fit a).2.errorMatrix nan = s.errorMatrix nan ∧ (s.fit a).2.fisherMatrix = s.fisherMatrix := by
  have key := fit_raised s a ha h
  obtain ⟨k1, k2, k3⟩ := key
  unfold Session.getParams Session.stdError Session.errorMatrix Session.fisherMatrix stdErrorT
  rw [problem_constraint, problem_constraint, k1, k2, k3]
  exact ⟨rfl, rfl, rfl, rfl⟩

/-- **C77.** As long as no fit has returned (all fits are Newton fits and raised), `std_error()`, `error_matrix()` and `fisher_matrix()` raise `AttributeError`. -/
theorem C77_before (depth : Nat) (k : Kind) (ops : List SessionOp)
    (h : ∀ ops₁ a ops₂, ops = ops₁ ++ SessionOp.fit a :: ops₂ → a.method = .newton ∧ ∃ e, ((Session.run depth k ops₁).fit a).1 = .error e) (nan : ℝ) :
    (Session.run depth k ops).stdError nan = .error .attribute ∧ (Session.run depth k ops).errorMatrix nan = .error .attribute ∧
      (Session.run depth k ops).fisherMatrix = .error .attribute := by
  have key : (Session.run depth k ops).flatHess = none := by
    induction ops using List.reverseRecOn with
    | nil => rfl
    | append_singleton ops op ih =>
      have ih := ih fun ops₁ a ops₂ e => h ops₁ a (ops₂ ++ [op]) (by rw [e]; simp)
      rw [run_snoc]
      cases op with
      | fit a =>
        obtain ⟨hm, e, he⟩ := h ops a [] rfl
        show ((Session.run depth k ops).fit a).2.flatHess = none
        rw [← ih]
        exact (fit_raised _ _ hm he).1
      | _ => exact ih
  unfold Session.stdError Session.errorMatrix Session.fisherMatrix
  rw [key]
  exact ⟨rfl, rfl, rfl⟩

section
variable {pr : Problem} {m : Nat} {ρ : Type} {cs : List (List Nat × List ℝ)} {qs : List (List Nat × ℝ × ℝ)} {T K : ℝ}

/-- **C77.** After a Newton fit that returned, in a session of the classes of C76 with at least one constraint: `std_error()` and `error_matrix()` return the standard errors and the
covariances of the constrained estimate, from the second derivatives `H` of the (penalised) log-probability of the observations at a point that the fit visited. -/
theorem C77_errors (depth : Nat) (k : Kind) (hk : k.IsConcave) (ops : List SessionOp) (a : FitArgs) (hops : ∀ op ∈ ops, op.Proper k.axes)
    (ha : (SessionOp.fit a).Proper k.axes) (hnew : a.method = .newton)
    (rows : List ρ) (pos : ρ → pr.Cell) (w : ρ → ℝ) (v : ρ → ℕ) (hv : ∀ r ∈ rows, k.Admits (v r)) (hw : ∀ r ∈ rows, 0 ≤ w r)
    (hne : rows ≠ []) {val : Val} {h : pr.Cell → ℝ} {x : pr.Cell → Nat → Nat → ℝ}
    (hS : Solver pr m (fun _ => True) (problemOf k (ops ++ [.fit a])) (fun θ => (rows.map fun r => w r * k.logProb (valCell pr val θ) (pos r) (v r)).sum + K)
      (linCons pr cs) (quadPens pr qs) T)
    (hy : LinearModel pr m (valCell pr val) h x) (hcs : cs ≠ []) (hc : ∀ c ∈ cs, c.1.Nodup ∧ ∀ p ∈ c.1, p < m)
    (hq : ∀ q ∈ qs, q.1.Nodup ∧ (∀ p ∈ q.1, p < m) ∧ q.2.2 ≠ 0)
    {θ0 : Theta} (hini : AtPoint pr m θ0 (initialParams ops))
    (hwp : WellPosed pr (initialParams ops) cs qs x fun c => ∃ r ∈ rows, pos r = c ∧ 0 < w r) {b : Bool} (hret : ((Session.run (depth + 2) k ops).fit a).1 = .ok b) (nan : ℝ) :
    ∃ D H θ' ps, Derivs pr m (fun _ => True) (penalised (fun θ => (rows.map fun r => w r * k.logProb (valCell pr val θ) (pos r) (v r)).sum + K) (quadPens pr qs)) D H ∧
      (Session.run (depth + 2) k (ops ++ [.fit a])).params = some ps ∧
      (∃ rs, (Session.run (depth + 2) k (ops ++ [.fit a])).stdError nan = .ok rs ∧ StdErrors ps (H θ') (conDers pr cs) nan rs) ∧
      ∃ E bs, IsCovariance ps (H θ') (conDers pr cs) E ∧ (Session.run (depth + 2) k (ops ++ [.fit a])).errorMatrix nan = .ok bs ∧ IsBlocks ps E nan bs := by
  have hP := C76_concave k hk rows pos w v hv hw hne hS hy hc hq
  obtain ⟨D, H, hD, hE⟩ := C70_errors hP hcs
  obtain ⟨h1, -, -, -, -, h6, -, h8⟩ := C74_history depth k ops hops
  have hat := hini.layout h6 h8
  have hp := problem_of_run depth k ops a hops
  have hd : ∀ x ∈ a.kwargs, (Session.run (depth + 2) k ops).kind.dim ≤ x.2.ndim := by rw [h1, dim_eq]; exact ha
  have hnil := hini.ne hS.pos
  rw [run_snoc]
  revert h6 hp hd hret hat
  generalize Session.run (depth + 2) k ops = s
  intro hret h6 hat hp hd
  cases hs : s.params with
  | none =>
    rw [hs] at h6
    have := congrArg List.length h6
    simp at this
    exact absurd this.symm (by simpa using hnil)
  | some ps =>
    rw [hs] at h6 hat
    rw [fit_some hd hs] at hret
    have hloop : s.loop a ps = Fit.fit ((problemOf k (ops ++ [.fit a])).env a.pinvh a.tol) ⟨ps, s.flatHess, s.converged⟩ a.maxSteps a.verbose .newton := by
      rw [← hp, ← hnew]; rfl
    obtain ⟨q, θ', J, -, -, hJ, hJ2⟩ := hE a.pinvh a.tol _ ⟨ps, s.flatHess, s.converged⟩ hat (hwp.layout h6) a.maxSteps a.verbose b (s.loop a ps) hloop hret
    obtain ⟨e1, e2⟩ := hJ2 nan
    refine ⟨D, H, θ', (s.loop a ps).obj.params, hD, ?_, ?_, ?_⟩
    · show (s.fit a).2.params = _
      rw [fit_some hd hs]
    · show ∃ rs, (s.fit a).2.stdError nan = .ok rs ∧ _
      rw [fit_some hd hs]
      unfold Session.stdError
      dsimp only
      rw [hJ]
      dsimp only
      obtain ⟨rs, r1, r2⟩ := e1
      refine ⟨rs, ?_, r2⟩
      rw [← hp] at r1
      unfold stdErrorT at r1 ⊢
      rw [problem_constraint] at r1 ⊢
      exact r1
    · show ∃ E bs, _ ∧ (s.fit a).2.errorMatrix nan = .ok bs ∧ _
      rw [fit_some hd hs]
      unfold Session.errorMatrix
      dsimp only
      rw [hJ]
      exact e2

end

end Verif.Tens
