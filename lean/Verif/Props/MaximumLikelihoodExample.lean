import Verif.Props.MaximumLikelihood

/-!
# C76: from the observations to the estimate: the session
-/

namespace Verif.Tens
open Verif.Params Verif.Prep

set_option linter.unusedSectionVars false

section
variable {pr : Problem} {m : Nat} {ρ : Type} {cs : List (List Nat × List ℝ)} {qs : List (List Nat × ℝ × ℝ)} {T K : ℝ}

/-- **C76.** In a session of these classes (any calls `ops`, and then `fit`, that may also give the data), when the observations and the constraints determine the free
parameters, a Newton fit returns `True` or raises `ConvergenceError`, or divides by an average objective that is exactly 0: it never raises `LinAlgError`. -/
theorem C76_never_singular (depth : Nat) (k : Kind) (hk : k.IsConcave) (ops : List SessionOp) (a : FitArgs) (hops : ∀ op ∈ ops, op.Proper k.axes)
    (ha : (SessionOp.fit a).Proper k.axes) (hnew : a.method = .newton)
    (rows : List ρ) (pos : ρ → pr.Cell) (w : ρ → ℝ) (v : ρ → ℕ) (hv : ∀ r ∈ rows, k.Admits (v r)) (hw : ∀ r ∈ rows, 0 ≤ w r)
    (hne : rows ≠ []) {val : Val} {h : pr.Cell → ℝ} {x : pr.Cell → Nat → Nat → ℝ}
    (hS : Solver pr m (fun _ => True) (problemOf k (ops ++ [.fit a])) (fun θ => (rows.map fun r => w r * k.logProb (valCell pr val θ) (pos r) (v r)).sum + K)
      (linCons pr cs) (quadPens pr qs) T)
    (hy : LinearModel pr m (valCell pr val) h x) (hc : ∀ c ∈ cs, c.1.Nodup ∧ ∀ p ∈ c.1, p < m) (hq : ∀ q ∈ qs, q.1.Nodup ∧ (∀ p ∈ q.1, p < m) ∧ q.2.2 ≠ 0)
    {θ0 : Theta} (hini : AtPoint pr m θ0 (initialParams ops)) (hF : 1 ≤ totalFree (initialParams ops))
    (hwp : WellPosed pr (initialParams ops) cs qs x fun c => ∃ r ∈ rows, pos r = c ∧ 0 < w r) :
    ((Session.run (depth + 2) k ops).fit a).1 = .ok true ∨ ((Session.run (depth + 2) k ops).fit a).1 = .error .convergenceStep ∨
      ((Session.run (depth + 2) k ops).fit a).1 = .error .convergence ∨ ((Session.run (depth + 2) k ops).fit a).1 = .error .zeroDivision := by
  have hP := C76_concave k hk rows pos w v hv hw hne hS hy hc hq
  obtain ⟨o, o1, o2, o3, -⟩ := C74_fit depth k ops a hops ha (hini.ne hS.pos)
  obtain ⟨-, -, -, -, -, h6, -, h8⟩ := C74_history depth k ops hops
  have hat := hini.layout h6 h8
  rw [o1] at hat
  rw [o3, hnew]
  rcases C70_never_singular hP hat (by rw [Flat.SameLayout.totalFree o2]; exact hF) (hwp.layout o2) (maxSteps := a.maxSteps) (verbose := a.verbose) rfl with h | h | h | h
  · exact Or.inl h
  · exact Or.inr (Or.inl h)
  · exact Or.inr (Or.inr (Or.inl h))
  · exact Or.inr (Or.inr (Or.inr h.1))

end

/-! ## the model `a[i] + b[j]`, with `b[0]` fixed -/

section
variable {s t : Nat}

/-- The coefficients of `a[i] + b[j]`. -/
noncomputable def addCoef (s t : Nat) (c : (twoFactor s t).Cell) (p a : Nat) : ℝ :=
  if p = 0 then if a = (twoFactor s t).cellN c 0 then 1 else 0 else if a = (twoFactor s t).cellN c 1 then 1 else 0

theorem allSum_two (F : Nat → Nat → ℝ) : allSum (twoFactor s t) 2 F = ∑ a ∈ Finset.range s, F 0 a + ∑ a ∈ Finset.range t, F 1 a := by
  unfold allSum
  have h0 : ((twoFactor s t).sizes 0).prod = s := by simp [Problem.sizes, twoFactor]
  have h1 : ((twoFactor s t).sizes 1).prod = t := by simp [Problem.sizes, twoFactor]
  rw [Finset.sum_range_succ, Finset.sum_range_succ, Finset.sum_range_zero, h0, h1, zero_add]

theorem add_coef_sum (c : (twoFactor s t).Cell) (F : Nat → Nat → ℝ) : allSum (twoFactor s t) 2 (fun p a => addCoef s t c p a * F p a) =
    F 0 ((twoFactor s t).cellN c 0) + F 1 ((twoFactor s t).cellN c 1) := by
  have hp := cell_pos c
  have p0 : (twoFactor s t).cellN c 0 < s := by have := hp.1 0 (by simp [twoFactor]); simpa [twoFactor] using this
  have p1 : (twoFactor s t).cellN c 1 < t := by have := hp.1 1 (by simp [twoFactor]); simpa [twoFactor] using this
  rw [allSum_two]
  simp only [addCoef, if_true, one_ne_zero, if_false]
  rw [Finset.sum_eq_single ((twoFactor s t).cellN c 0), Finset.sum_eq_single ((twoFactor s t).cellN c 1)]
  · simp
  · intro b _ hb; simp [hb]
  · intro h; exact absurd (Finset.mem_range.2 p1) h
  · intro b _ hb; simp [hb]
  · intro h; exact absurd (Finset.mem_range.2 p0) h

theorem add_linear : LinearModel (twoFactor s t) 2 (valCell (twoFactor s t) fun θ n _ => θ 0 (n 0) + θ 1 (n 1)) (fun _ => 0) (addCoef s t) := by
  intro θ c
  rw [add_coef_sum, zero_add]
  rfl

/-- If every cell has been observed and an entry of `b` is fixed, the data determine the parameters. -/
theorem add_wellPosed {seen : (twoFactor s t).Cell → Prop} (hseen : ∀ c, seen c) (hs : s ≠ 0) {θ : Theta} {params : List (Param ℝ)} (hat : AtPoint (twoFactor s t) 2 θ params)
    {j0 : Nat} (hj : j0 < t) (hfix : isFixed params 1 j0) : WellPosed (twoFactor s t) params [] [] (addCoef s t) seen := by
  classical
  constructor
  · intro w _ hx _ i a hf
    set W : Nat → Nat → ℝ := fun i a => if isFree params i a then w i a else 0 with hW
    have hcell : ∀ i < s, ∀ j < t, W 0 i + W 1 j = 0 := by
      intro i hi j hj
      let c : (twoFactor s t).Cell := (fun z => match z with
        | ⟨0, _⟩ => ⟨i, by simpa [twoFactor] using hi⟩
        | ⟨1, _⟩ => ⟨j, by simpa [twoFactor] using hj⟩, fun z => z.elim0)
      have := hx c (hseen c)
      rw [freeSum_masked hat, add_coef_sum] at this
      exact this
    have h1 : W 1 j0 = 0 := if_neg (by
      rintro ⟨q, e1, e2⟩
      obtain ⟨q', e3, e4⟩ := hfix
      rw [e1] at e3
      cases e3
      rw [e2] at e4
      cases e4)
    have h0 : ∀ i < s, W 0 i = 0 := fun i hi => by have := hcell i hi j0 hj; rw [h1] at this; linarith
    have hwi : W i a = w i a := if_pos hf
    rw [← hwi]
    obtain ⟨i1, i2⟩ := hat.free hf
    have : i = 0 ∨ i = 1 := by omega
    rcases this with rfl | rfl
    · exact h0 a (by simpa [Problem.sizes, twoFactor] using i2)
    · have := hcell 0 (Nat.pos_of_ne_zero hs) a (by simpa [Problem.sizes, twoFactor] using i2)
      rw [h0 0 (Nat.pos_of_ne_zero hs)] at this
      linarith
  · intro μ hl _
    have : μ = [] := List.length_eq_zero_iff.1 hl
    rw [this]
    simp

end

theorem problemOf_fits (k : Kind) (ops : List SessionOp) (fits : List FitArgs) (hfits : ∀ a ∈ fits, a.kwargs = []) : problemOf k (ops ++ fits.map .fit) = problemOf k ops := by
  induction fits using List.reverseRecOn with
  | nil => simp
  | append_singleton fits a ih =>
    rw [← ih fun b hb => hfits b (List.mem_append_left _ hb), List.map_append, ← List.append_assoc]
    have ha := hfits a (by simp)
    refine problem_congr rfl ?_ ?_ ?_ (funext fun n => congrArg (Option.map _) ?_)
    · simp [lastModel]
    · simp [constraintsOf]
    · simp [regularizationsOf]
    · show lastData ((ops ++ fits.map .fit) ++ [.fit a]) n = _
      rw [lastData_fit, ha]
      rfl

section
variable {L : Type} [LinearOrder L]

/-- `ml = Poisson()`, `ml.model = Sum(2).add(X(), 0, 0).add(X(), 1, 1)`, the parameter `a`, the parameter `b` with its first entry fixed, and `ml.fit(**kwargs)`. -/
noncomputable def fixProgram (s : Nat) (b : List ℝ) (first : FitArgs) (res : List (String × Prep.Arr ℝ)) : List SessionOp :=
  [.setModel addModel, .addFree (.array [s] (List.replicate s 0)), .addMasked [b.length] b [b.length] (true :: List.replicate (b.length - 1) false),
    .fit { first with kwargs := kwargsOf res }]

/-- An instance of `C76_estimate` and `C76_never_singular`: a series of counts with two index levels in which every pair of labels occurs, prepared with
`{'N': np.size, 'X': np.sum}` and fitted with the log-linear Poisson model `a[i] + b[j]`, `b[0]` fixed.  After any number of Newton fits, returning or raising: the next one does not raise
`LinAlgError`; and if its first step is zero, the parameters are the maximum likelihood estimate, and the only one. -/
theorem C76_example (depth : Nat) {counts : List (List L × ℕ)} {obs : Series L ℝ} (hrows : obs.rows = counts.map fun r => (r.1, (r.2 : ℝ)))
    (hw : WellFormed obs.levels obs.names (obs.rows.map Prod.fst)) (hne : counts ≠ []) {addAxis : String → Option (List L)} {res : List (String × Prep.Arr ℝ)} {A B : List L}
    (h : prepareSeries obs [("N", npSize), ("X", npSum)] addAxis = .ok (res, [A, B])) (hall : ∀ x ∈ A, ∀ y ∈ B, ∃ r ∈ counts, r.1 = [x, y])
    {b : List ℝ} (hb : b.length = B.length) (first : FitArgs) (fits : List FitArgs) (hfits : ∀ a ∈ fits, a.kwargs = []) (next : FitArgs)
    (hnext : next.kwargs = []) (hnewton : next.method = .newton) :
    ∃ (θ : Theta) (i j : List L → Nat), (∀ r ∈ counts, LabelsAt [A, B] [i r.1, j r.1] r.1) ∧
      AtPoint (twoFactor A.length B.length) 2 θ ((Session.run (depth + 2) .poisson (fixProgram A.length b first res ++ fits.map .fit)).params.getD []) ∧
      (((Session.run (depth + 2) .poisson (fixProgram A.length b first res ++ fits.map .fit)).fit next).1 ∈
        [.ok true, .error .convergenceStep, .error .convergence, .error .zeroDivision]) ∧
      ∀ step g l J, Fit.newtonStep ((problemOf .poisson (fixProgram A.length b first res ++ fits.map .fit ++ [.fit next])).env next.pinvh next.tol)
          ((Session.run (depth + 2) .poisson (fixProgram A.length b first res ++ fits.map .fit)).params.getD []) = .ok (step, g, l, J) → (∀ z ∈ step, z = 0) →
        ∀ θ' : Theta, θ' 1 0 = θ 1 0 → (∃ p < 2, ∃ a < [A.length, B.length].getD p 0, θ' p a ≠ θ p a) →
          (counts.map fun r => Real.log (Real.exp (-Real.exp (θ' 0 (i r.1) + θ' 1 (j r.1))) * Real.exp (θ' 0 (i r.1) + θ' 1 (j r.1)) ^ r.2 / r.2.factorial)).sum <
            (counts.map fun r => Real.log (Real.exp (-Real.exp (θ 0 (i r.1) + θ 1 (j r.1))) * Real.exp (θ 0 (i r.1) + θ 1 (j r.1)) ^ r.2 / r.2.factorial)).sum := by
  obtain ⟨-, -, s3⟩ := series_shape hw h
  have hA : A.length ≠ 0 ∧ B.length ≠ 0 := by
    obtain ⟨⟨r1, r2⟩, l0, rfl⟩ := List.exists_cons_of_ne_nil hne
    have := s3 r1 (by rw [hrows]; simp)
    cases this with
    | cons h1 h2 =>
      cases h2 with
      | cons h2 _ =>
        exact ⟨fun e => by rw [List.length_eq_zero_iff.1 e] at h1; simp at h1, fun e => by rw [List.length_eq_zero_iff.1 e] at h2; simp at h2⟩
  have hb0 : 1 ≤ b.length := by rw [hb]; exact Nat.pos_of_ne_zero hA.2
  have hpr : (twoFactor A.length B.length).Ok := ⟨by simp [twoFactor], fun k _ => by simp only [twoFactor]; split_ifs; exacts [hA.1, hA.2]⟩
  have hax : (twoFactor A.length B.length).HasAxes [A, B] := by
    refine ⟨rfl, fun k a ha => ?_⟩
    match k, ha with
    | 0, ha => cases ha; rfl
    | 1, ha => cases ha; rfl
  set ops := fixProgram A.length b first res ++ fits.map SessionOp.fit with hopsdef
  have hops : ∀ op ∈ ops, op.Proper (Kind.axes .poisson) := by
    intro op hop
    rw [hopsdef, List.mem_append] at hop
    rcases hop with hop | hop
    · simp only [fixProgram, List.mem_cons, List.not_mem_nil, or_false] at hop
      rcases hop with rfl | rfl | rfl | rfl
      · trivial
      · simp [SessionOp.Proper, Arg.data]
      · simp [SessionOp.Proper]; omega
      · intro x _; exact Nat.zero_le _
    · obtain ⟨a, -, rfl⟩ := List.mem_map.1 hop
      intro x _; exact Nat.zero_le _
  have hfold : ∀ (l : List FitArgs) (ops : List SessionOp), initialParams (ops ++ l.map .fit) = initialParams ops := by
    intro l ops
    unfold initialParams
    rw [List.foldl_append]
    induction l with
    | nil => rfl
    | cons a l ih => exact ih
  have hpar : initialParams ops =
      [⟨[A.length], List.replicate A.length 0, List.replicate A.length false⟩, ⟨[b.length], b, true :: List.replicate (b.length - 1) false⟩] := by
    rw [hopsdef, hfold]
    simp [initialParams, fixProgram, Arg.data]
  have hini : AtPoint (twoFactor A.length B.length) 2 (pointOf (initialParams ops)) (initialParams ops) := by
    rw [hpar]
    refine ⟨rfl, fun p hp => ?_⟩
    have : p = 0 ∨ p = 1 := by omega
    rcases this with rfl | rfl
    · exact ⟨_, rfl, rfl, by simp, by simp, fun a _ => rfl⟩
    · exact ⟨_, rfl, by rw [hb]; rfl, by simp; omega, by simp, fun a _ => rfl⟩
  have hF : 1 ≤ totalFree (initialParams ops) := by
    rw [hpar]
    simp [totalFree]; omega
  obtain ⟨-, -, -, -, -, h6, -, h8⟩ := C74_history depth .poisson ops hops
  have hat := hini.layout h6 h8
  obtain ⟨cell, K, c1, hS⟩ := C75_series (dom := fun _ => True) (gs := []) (φs := []) hpr .poisson rfl hrows hw (by decide) (by simp) (fun _ => by simp)
    (fun hz => by simp [Kind.reads] at hz) h hax (fun _ _ => trivial) hne
    (ops := [.setModel addModel, .addFree (.array [A.length] (List.replicate A.length 0)), .addMasked [b.length] b [b.length] (true :: List.replicate (b.length - 1) false)])
    (a := { first with kwargs := kwargsOf res }) rfl (f := addModel) (by simp [lastModel]) (m := 2) (by omega) (add_computes hA.1 hA.2) (fun hp => hp.elim) rfl trivial (fun _ _ => trivial)
    (fun hp => hp.elim) (fun hp => hp.elim) (by simp [constraintsOf]) (by simp [regularizationsOf])
  have hprob : problemOf .poisson (ops ++ [.fit next]) = problemOf .poisson (fixProgram A.length b first res) := by
    have := problemOf_fits .poisson (fixProgram A.length b first res) (fits ++ [next]) (by
      intro a ha
      rcases List.mem_append.1 ha with ha | ha
      · exact hfits a ha
      · rw [List.mem_singleton.1 ha]; exact hnext)
    rw [List.map_append, ← List.append_assoc] at this
    exact this
  have hS' : Solver (twoFactor A.length B.length) 2 (fun _ => True) (problemOf .poisson (ops ++ [.fit next]))
      (fun θ => (counts.map fun r => 1 * Kind.logProb .poisson (valCell (twoFactor A.length B.length) (fun θ n _ => θ 0 (n 0) + θ 1 (n 1)) θ) (cell r.1) r.2).sum + K)
      (linCons (twoFactor A.length B.length) []) (quadPens (twoFactor A.length B.length) []) counts.length := by
    rw [hprob]
    simp only [one_mul]
    exact hS
  have hfix : isFixed (initialParams ops) 1 0 := by rw [hpar]; exact ⟨_, rfl, rfl⟩
  have hseen : ∀ c, ∃ r ∈ counts, cell r.1 = c ∧ (0 : ℝ) < 1 := by
    intro c
    obtain ⟨labels, hl⟩ := labels_of_cell hax c
    have hl2 : ∃ x ∈ A, ∃ y ∈ B, labels = [x, y] := by
      generalize (twoFactor A.length B.length).indices c = idx at hl
      cases hl with
      | cons h1 hl =>
        cases hl with
        | cons h2 hl =>
          cases hl
          exact ⟨_, List.mem_of_getElem? h1, _, List.mem_of_getElem? h2, rfl⟩
    obtain ⟨x, hx, y, hy, rfl⟩ := hl2
    obtain ⟨r, r1, r2⟩ := hall x hx y hy
    have := c1 r r1
    rw [r2] at this
    refine ⟨r, r1, ?_, one_pos⟩
    rw [r2]
    exact cell_unique hax (series_shape hw h).2.1 this hl
  have hwp := add_wellPosed hseen hA.1 hini (Nat.pos_of_ne_zero hA.2) hfix
  refine ⟨_, fun l => (cell l).1 ⟨0, Nat.two_pos⟩, fun l => (cell l).1 ⟨1, Nat.one_lt_two⟩, c1, hat, ?_, fun step g l J hstep h0 θ' hθ' hdiff => ?_⟩
  · have := C76_never_singular depth .poisson trivial ops next hops (fun x _ => Nat.zero_le _) hnewton counts (fun r => cell r.1) (fun _ => 1) (fun r => r.2)
      (fun _ _ => trivial) (fun _ _ => zero_le_one) hne hS' add_linear (by simp) (by simp) hini hF hwp
    simpa using this
  · have hlay : SameLayout ((Session.run (depth + 2) .poisson ops).params.getD []) (initialParams ops) := h6
    have hwp' := hwp.layout hlay
    obtain ⟨e1, e2⟩ := C76_estimate .poisson trivial counts (fun r => cell r.1) (fun _ => 1) (fun r => r.2)
      (fun _ _ => trivial) (fun _ _ => zero_le_one) hne hS' add_linear (by simp) (by simp) hat (by rw [Flat.SameLayout.totalFree hlay]; exact hF) hstep h0 (θ' := θ')
      ⟨by simp [linCons], fun i a hfx => by
        have hfx' : isFixed (initialParams ops) i a := Fit.SameLayout.isFixed hlay.symm hfx
        rw [hpar] at hfx'
        obtain ⟨q, q1, q2⟩ := hfx'
        match i, q1 with
        | 0, q1 => cases q1; simp [List.getElem?_replicate] at q2
        | 1, q1 =>
          cases q1
          cases a with
          | zero => exact hθ'
          | succ a => simp [List.getElem?_replicate] at q2⟩
    have e2' := e2 hwp'
    simp only [quadPens, List.map_nil, List.sum_nil, sub_zero, one_mul] at e1 e2'
    refine lt_of_le_of_ne e1 fun e => ?_
    obtain ⟨p, hp, a, ha, hne'⟩ := hdiff
    refine hne' (e2' e p hp a ?_)
    have : p = 0 ∨ p = 1 := by omega
    rcases this with rfl | rfl
    · simpa [Problem.sizes, twoFactor] using ha
    · simpa [Problem.sizes, twoFactor] using ha

end

end Verif.Tens
