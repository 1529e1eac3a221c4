import Verif.Spec.Linked
import Verif.Props.SessionErrors
import Verif.Props.ConcaveExamples

/-!
# C77: the programs of the test suite
-/

namespace Verif.Tens
open Verif.Params Verif.Prep

set_option linter.unusedSectionVars false

theorem Linked.eq {α β : Type} {R : α → β → Prop} {F : α → ℝ} {G : β → ℝ} (h : ∀ x y, R x y → F x = G y) {x : α} {y : β} (hl : Linked R x y) : F x = G y := by
  induction hl with
  | pair h' => exact h _ _ h'
  | chain _ h1 h2 ih => rw [ih, ← h _ _ h1, h _ _ h2]

theorem Linked.map {α β γ δ : Type} {R : α → β → Prop} {Q : γ → δ → Prop} {f : α → γ} {g : β → δ} (h : ∀ x y, R x y → Q (f x) (g y)) {x : α} {y : β} (hl : Linked R x y) :
    Linked Q (f x) (g y) := by
  induction hl with
  | pair h' => exact .pair (h _ _ h')
  | chain _ h1 h2 ih => exact .chain ih (h _ _ h1) (h _ _ h2)

/-- A tournament: when all the pairs of different labels are observed, and there are three labels, all pairs are linked. -/
theorem linked_tournament {α : Type} [DecidableEq α] {A : List α} {R : α → α → Prop} (h : ∀ x ∈ A, ∀ y ∈ A, x ≠ y → R x y) (h3 : ∃ x ∈ A, ∃ y ∈ A, ∃ z ∈ A, x ≠ y ∧ y ≠ z ∧ x ≠ z) :
    ∀ x ∈ A, ∀ y ∈ A, Linked R x y := by
  intro x hx y hy
  by_cases e : x = y
  · subst e
    have : ∃ u ∈ A, ∃ v ∈ A, u ≠ x ∧ v ≠ x ∧ u ≠ v := by
      obtain ⟨a, ha, b, hb, c, hc, n1, n2, n3⟩ := h3
      by_cases e1 : a = x
      · exact ⟨b, hb, c, hc, fun e => n1 (by rw [e1, e]), fun e => n3 (by rw [e1, e]), n2⟩
      · by_cases e2 : b = x
        · exact ⟨a, ha, c, hc, e1, fun e => n2 (by rw [e2, e]), n3⟩
        · exact ⟨a, ha, b, hb, e1, e2, n1⟩
    obtain ⟨u, hu, v, hv, n1, n2, n3⟩ := this
    exact .chain (.pair (h x hx u hu (Ne.symm n1))) (h v hv u hu (Ne.symm n3)) (h v hv x hx n2)
  · exact .pair (h x hx y hy e)

section
variable {s t u : Nat} {vector : NDArray ℝ}

/-- `a[i] - b[j] + h * vector[k]` with the constraint `sum(a) + sum(b) = 0` is determined when the observed pairs `(i, j)` link all the pairs and one pair is observed with two different
numbers of `vector`. -/
theorem foo_wellPosed_linked (hs : s ≠ 0) (ht : t ≠ 0) {seen : (threeFactor s t u).Cell → Prop} (hlink : ∀ i < s, ∀ j < t, Linked (fun i j => ∃ c, seen c ∧
      (threeFactor s t u).cellN c 0 = i ∧ (threeFactor s t u).cellN c 1 = j) i j)
    (htwo : ∃ c1 c2, seen c1 ∧ seen c2 ∧ (threeFactor s t u).cellN c1 0 = (threeFactor s t u).cellN c2 0 ∧ (threeFactor s t u).cellN c1 1 = (threeFactor s t u).cellN c2 1 ∧
      (vector.get fun _ => (threeFactor s t u).cellN c1 2) ≠ vector.get fun _ => (threeFactor s t u).cellN c2 2)
    {θ : Theta} {params : List (Param ℝ)} (hat : AtPoint (threeFactor s t u) 3 θ params) (hfree : ∃ i a, i < 2 ∧ isFree params i a) (qs : List (List Nat × ℝ × ℝ)) :
    WellPosed (threeFactor s t u) params [([0, 1], [1, 1])] qs (fooCoef vector s t u) seen := by
  classical
  constructor
  · intro w hw hx _ i a hf
    set W : Nat → Nat → ℝ := fun i a => if isFree params i a then w i a else 0 with hW
    have hcell : ∀ c, seen c → W 0 ((threeFactor s t u).cellN c 0) - W 1 ((threeFactor s t u).cellN c 1) + W 2 0 * (vector.get fun _ => (threeFactor s t u).cellN c 2) = 0 := by
      intro c hc
      have := hx c hc
      rw [freeSum_masked hat, foo_coef_sum] at this
      exact this
    have hcon : ∑ a ∈ Finset.range s, W 0 a + ∑ a ∈ Finset.range t, W 1 a = 0 := by
      have := hw ((linCon (threeFactor s t u) [0, 1] [1, 1]).der fun _ _ => 0) (by simp [conDers, linCons])
      rw [freeSum_masked hat, allSum_three] at this
      simpa [linCon, hW] using this
    have hs' := Nat.pos_of_ne_zero hs
    have ht' := Nat.pos_of_ne_zero ht
    have h2 : W 2 0 = 0 := by
      obtain ⟨c1, c2, s1, s2, q1, q2, q3⟩ := htwo
      have e1 := hcell c1 s1
      have e2 := hcell c2 s2
      rw [q1, q2] at e1
      have : W 2 0 * ((vector.get fun _ => (threeFactor s t u).cellN c1 2) - vector.get fun _ => (threeFactor s t u).cellN c2 2) = 0 := by linarith
      exact (mul_eq_zero.1 this).resolve_right (sub_ne_zero.2 q3)
    have hall : ∀ i < s, ∀ j < t, W 0 i = W 1 j := fun i hi j hj =>
      (hlink i hi j hj).eq (F := W 0) (G := W 1) fun x y ⟨c, hc, e1, e2⟩ => by
        have := hcell c hc
        rw [e1, e2, h2] at this
        linarith
    have h0 : ∀ i < s, W 0 i = W 1 0 := fun i hi => hall i hi 0 ht'
    have h1 : ∀ j < t, W 1 j = W 1 0 := fun j hj => by rw [← hall 0 hs' j hj, hall 0 hs' 0 ht']
    have hz : W 1 0 = 0 := by
      rw [Finset.sum_congr rfl fun a ha => h0 a (Finset.mem_range.1 ha), Finset.sum_congr rfl fun a ha => h1 a (Finset.mem_range.1 ha)] at hcon
      simp only [Finset.sum_const, Finset.card_range, nsmul_eq_mul] at hcon
      have : ((s : ℝ) + t) * W 1 0 = 0 := by linarith
      exact (mul_eq_zero.1 this).resolve_left (by positivity)
    have hwi : W i a = w i a := if_pos hf
    rw [← hwi]
    obtain ⟨i1, i2⟩ := hat.free hf
    have : i = 0 ∨ i = 1 ∨ i = 2 := by omega
    rcases this with rfl | rfl | rfl
    · rw [h0 a (by simpa [Problem.sizes, threeFactor] using i2), hz]
    · rw [h1 a (by simpa [Problem.sizes, threeFactor] using i2), hz]
    · have : a = 0 := by simpa [Problem.sizes, threeFactor] using i2
      rw [this, h2]
  · intro μ hl h0
    obtain ⟨i, a, hi, hf⟩ := hfree
    have := h0 i a hf
    match μ, hl with
    | [z], _ =>
      have hi' : i = 0 ∨ i = 1 := by omega
      have : z = 0 := by rcases hi' with rfl | rfl <;> simpa [conDers, linCons, linCon] using this
      simpa using this

end

section
variable {L : Type} [LinearOrder L]

/-- `mle = Poisson()` (or another class), `mle.model = Sum(3)` with `X()`, `-X()` and `Vector(vector)`, `mle.add_constraint([0, 1], Linear([1, 1]))`, and the parameters `a`, `b`
and `h` (tests.py:24-41). -/
noncomputable def testProgram (vector : NDArray ℝ) (a b : List ℝ) (h : ℝ) : List SessionOp :=
  [.setModel (fooModel vector), .addConstraint (.list [0, 1]) (linearT [1, 1]), .addFree (.array [a.length] a), .addFree (.array [b.length] b), .addFree (.plain [] [h])]

/-- The logarithm of the probability of the observations (labels and counts) when the observation with the labels `[x, y, z]` has the parameter `a[i] - b[j] + h * vector[k]`. -/
noncomputable def testLogProb (k : Kind) {s t u : Nat} (vector : NDArray ℝ) (counts : List (List L × ℕ)) (cell : List L → (threeFactor s t u).Cell) (θ : Theta) : ℝ :=
  (counts.map fun r => k.logProb (fun c => θ 0 ((threeFactor s t u).cellN c 0) - θ 1 ((threeFactor s t u).cellN c 1) +
    θ 2 0 * vector.get fun _ => (threeFactor s t u).cellN c 2) (cell r.1) r.2).sum

/-- **C77**, an instance of the hypotheses of C75, C76 and C77: the whole of test_poisson (tests.py:23-62), and of the tests of the other classes with that model, for any series of counts
with three index levels whose pairs of labels are linked, and any vector, initial values and arguments of `fit`.  The fit does not raise `LinAlgError`; if it
returns, `std_error()` and `error_matrix()` are the constrained standard errors and covariances; the information criteria are those of the log-probability of the observations at
the parameters (up to the constant `K`); and if the Newton step from these parameters is zero, they are the only maximum of the probability of the observations among the parameters with
`sum(a) + sum(b) = 0`. -/
theorem C77_test_program (depth : Nat) (k : Kind) (hk : k.IsConcave) {counts : List (List L × ℕ)} {obs : Series L ℝ} (hrows : obs.rows = counts.map fun r => (r.1, (r.2 : ℝ)))
    (hw : WellFormed obs.levels obs.names (obs.rows.map Prod.fst)) (hne : counts ≠ []) (hv : ∀ r ∈ counts, k.Admits r.2) {ts : List (String × (List ℝ → Option ℝ))}
    (hts : (ts.map Prod.fst).Nodup) (tN : ("N", npSize) ∈ ts) (tX : ("X", npSum) ∈ ts) (tZ : .Z ∈ k.reads → ("Z", npZeros) ∈ ts)
    {addAxis : String → Option (List L)} {res : List (String × Prep.Arr ℝ)} {A B C : List L} (h : prepareSeries obs ts addAxis = .ok (res, [A, B, C]))
    (hlink : ∀ x ∈ A, ∀ y ∈ B, Linked (fun x y => ∃ r ∈ counts, ∃ z, r.1 = [x, y, z]) x y)
    {vector : NDArray ℝ} (h1 : vector.ndim = 1) (h2 : vector.shape 0 = C.length)
    (htwo : ∃ (x y z1 z2 : L) (k1 k2 : Nat), C[k1]? = some z1 ∧ C[k2]? = some z2 ∧ (vector.get fun _ => k1) ≠ (vector.get fun _ => k2) ∧
      (∃ r ∈ counts, r.1 = [x, y, z1]) ∧ ∃ r ∈ counts, r.1 = [x, y, z2])
    {a b : List ℝ} (ha : a.length = A.length) (hb : b.length = B.length) (h0 : ℝ) (args : FitArgs) (hkw : args.kwargs = kwargsOf res) (hnewton : args.method = .newton) :
    ∃ (cell : List L → (threeFactor A.length B.length C.length).Cell) (K : ℝ) (θ : Theta) (ps : List (Param ℝ)),
      (∀ r ∈ counts, LabelsAt [A, B, C] ((threeFactor A.length B.length C.length).indices (cell r.1)) r.1) ∧
      (Session.run (depth + 2) k (testProgram vector a b h0 ++ [.fit args])).params = some ps ∧ AtPoint (threeFactor A.length B.length C.length) 3 θ ps ∧
      (((Session.run (depth + 2) k (testProgram vector a b h0)).fit args).1 ∈ [.ok true, .error .convergenceStep, .error .convergence, .error .zeroDivision]) ∧
      (((Session.run (depth + 2) k (testProgram vector a b h0)).fit args).1 = .ok true → ∀ nan : ℝ, ∃ D H θ',
        Derivs (threeFactor A.length B.length C.length) 3 (fun _ => True) (testLogProb k vector counts cell) D H ∧
        (∃ rs, (Session.run (depth + 2) k (testProgram vector a b h0 ++ [.fit args])).stdError nan = .ok rs ∧ StdErrors ps (H θ') [fun p _ => if p < 2 then 1 else 0] nan rs) ∧
        ∃ E bs, IsCovariance ps (H θ') [fun p _ => if p < 2 then 1 else 0] E ∧
          (Session.run (depth + 2) k (testProgram vector a b h0 ++ [.fit args])).errorMatrix nan = .ok bs ∧ IsBlocks ps E nan bs) ∧
      (∀ d : ℝ, d = A.length + B.length → (counts.length : ℝ) - d - 1 ≠ 0 →
        (∃ v, (Session.run (depth + 2) k (testProgram vector a b h0 ++ [.fit args])).aic 0 = .ok v ∧
          counts.length * v = 2 * d - 2 * (testLogProb k vector counts cell θ + K) + 2 * d * (d + 1) / (counts.length - d - 1)) ∧
        ∃ v, (Session.run (depth + 2) k (testProgram vector a b h0 ++ [.fit args])).bic 0 = .ok v ∧
          counts.length * v = d * Real.log counts.length - 2 * (testLogProb k vector counts cell θ + K)) ∧
      ∀ pinvh tol step g l J, Fit.newtonStep ((problemOf k (testProgram vector a b h0 ++ [.fit args])).env pinvh tol) ps = .ok (step, g, l, J) → (∀ z ∈ step, z = 0) →
        ∀ θ' : Theta, ∑ i ∈ Finset.range A.length, θ' 0 i + ∑ j ∈ Finset.range B.length, θ' 1 j = 0 →
          (∃ p < 3, ∃ e < [A.length, B.length, 1].getD p 0, θ' p e ≠ θ p e) → testLogProb k vector counts cell θ' < testLogProb k vector counts cell θ := by
  obtain ⟨-, hnd, s3⟩ := series_shape hw h
  have hA : A.length ≠ 0 ∧ B.length ≠ 0 ∧ C.length ≠ 0 := by
    obtain ⟨⟨r1, r2⟩, l0, rfl⟩ := List.exists_cons_of_ne_nil hne
    have := s3 r1 (by rw [hrows]; simp)
    cases this with
    | cons h1 h2 =>
      cases h2 with
      | cons h2 h3 =>
        cases h3 with
        | cons h3 _ =>
          exact ⟨fun e => by rw [List.length_eq_zero_iff.1 e] at h1; simp at h1, fun e => by rw [List.length_eq_zero_iff.1 e] at h2; simp at h2,
            fun e => by rw [List.length_eq_zero_iff.1 e] at h3; simp at h3⟩
  have hpr : (threeFactor A.length B.length C.length).Ok := threeFactor_ok hA.1 hA.2.1 hA.2.2
  have hax : (threeFactor A.length B.length C.length).HasAxes [A, B, C] := by
    refine ⟨rfl, fun k a ha => ?_⟩
    match k, ha with
    | 0, ha => cases ha; rfl
    | 1, ha => cases ha; rfl
    | 2, ha => cases ha; rfl
  have hax0 : k.axes = 0 := by cases k <;> first | rfl | exact hk.elim
  have hprob : ¬k.IsProbability := by cases k <;> first | exact hk.elim | exact fun h => h.elim
  set ops := testProgram vector a b h0 with hopsdef
  have hfitp : (SessionOp.fit args).Proper k.axes := by rw [hax0]; intro x _; exact Nat.zero_le _
  have hops : ∀ op ∈ ops, op.Proper k.axes := by
    intro op hop
    simp only [hopsdef, testProgram, List.mem_cons, List.not_mem_nil, or_false] at hop
    rcases hop with rfl | rfl | rfl | rfl | rfl
    · trivial
    · trivial
    · simp [SessionOp.Proper, Arg.data]
    · simp [SessionOp.Proper, Arg.data]
    · simp [SessionOp.Proper, Arg.data]
  have hops' : ∀ op ∈ ops ++ [.fit args], op.Proper k.axes := by
    intro op hop
    rcases List.mem_append.1 hop with hop | hop
    · exact hops op hop
    · rw [List.mem_singleton.1 hop]; exact hfitp
  have hpar : initialParams ops =
      [⟨[a.length], a, List.replicate a.length false⟩, ⟨[b.length], b, List.replicate b.length false⟩, ⟨[], [h0], [false]⟩] := by
    simp [initialParams, hopsdef, testProgram, Arg.data]
  have hpar' : initialParams (ops ++ [.fit args]) = initialParams ops := by simp [initialParams]
  have hini : AtPoint (threeFactor A.length B.length C.length) 3 (pointOf (initialParams ops)) (initialParams ops) := by
    rw [hpar]
    refine ⟨rfl, fun p hp => ?_⟩
    have : p = 0 ∨ p = 1 ∨ p = 2 := by omega
    rcases this with rfl | rfl | rfl
    · exact ⟨_, rfl, by rw [ha]; rfl, by simp, by simp, fun a _ => rfl⟩
    · exact ⟨_, rfl, by rw [hb]; rfl, by simp, by simp, fun a _ => rfl⟩
    · exact ⟨_, rfl, rfl, by simp, by simp, fun a _ => rfl⟩
  have hF : 1 ≤ totalFree (initialParams ops) := by
    rw [hpar]
    simp [totalFree]
    omega
  have hfree : ∃ i e, i < 2 ∧ isFree (initialParams ops) i e := by
    refine ⟨0, 0, by omega, ?_⟩
    rw [hpar]
    refine ⟨_, rfl, ?_⟩
    show (List.replicate a.length false)[0]? = some false
    rw [List.getElem?_replicate, if_pos (by omega)]
  obtain ⟨cell, K, c1, hS⟩ := C75_series (dom := fun _ => True) (gs := [linCon (threeFactor A.length B.length C.length) [0, 1] [1, 1]]) (φs := []) hpr k (by rw [hax0]; rfl) hrows hw hts tN
    (fun _ => tX) tZ h hax hv hne (ops := ops) (a := args) hkw (f := fooModel vector) (by simp [lastModel, hopsdef, testProgram]) (m := 3) (by omega)
    (foo_computes hA.1 hA.2.1 hA.2.2 h1 h2) (fun hp => absurd hp.isProbability hprob) rfl trivial (fun _ _ => trivial)
    (fun hp => absurd hp.isProbability hprob) (fun hp => absurd hp hprob)
    (by rw [show constraintsOf ops = [⟨[0, 1], linearT [1, 1]⟩] from rfl]; exact sum_constraint (by omega)) (by rw [show regularizationsOf ops = [] from rfl]; exact .nil)
  have hS' : Solver (threeFactor A.length B.length C.length) 3 (fun _ => True) (problemOf k (ops ++ [.fit args]))
      (fun θ => (counts.map fun r => 1 * k.logProb (valCell (threeFactor A.length B.length C.length) (fun θ n _ => fooVal vector θ n) θ) (cell r.1) r.2).sum + K)
      (linCons (threeFactor A.length B.length C.length) [([0, 1], [1, 1])]) (quadPens (threeFactor A.length B.length C.length) []) counts.length := by
    simp only [one_mul]
    exact hS
  have hidx : ∀ r ∈ counts, ∀ x y z, r.1 = [x, y, z] → A[(threeFactor A.length B.length C.length).cellN (cell r.1) 0]? = some x ∧
      B[(threeFactor A.length B.length C.length).cellN (cell r.1) 1]? = some y ∧ C[(threeFactor A.length B.length C.length).cellN (cell r.1) 2]? = some z := by
    intro r hr x y z e
    have := c1 r hr
    generalize hc : cell r.1 = c at this ⊢
    rw [e] at this
    have hi : (threeFactor A.length B.length C.length).indices c = [(threeFactor A.length B.length C.length).cellN c 0, (threeFactor A.length B.length C.length).cellN c 1,
      (threeFactor A.length B.length C.length).cellN c 2] := rfl
    rw [hi] at this
    cases this with
    | cons q1 this =>
      cases this with
      | cons q2 this =>
        cases this with
        | cons q3 _ => exact ⟨q1, q2, q3⟩
  have hinj : ∀ {D : List L} {i j : Nat} {x : L}, D.Nodup → D[i]? = some x → D[j]? = some x → i = j := by
    intro D i j x hD hi hj
    obtain ⟨i1, i2⟩ := List.getElem?_eq_some_iff.1 hi
    obtain ⟨j1, j2⟩ := List.getElem?_eq_some_iff.1 hj
    exact (List.Nodup.getElem_inj_iff hD).1 (i2.trans j2.symm)
  have hwp : WellPosed (threeFactor A.length B.length C.length) (initialParams ops) [([0, 1], [1, 1])] [] (fooCoef vector A.length B.length C.length)
      fun c => ∃ r ∈ counts, cell r.1 = c ∧ (0 : ℝ) < 1 := by
    refine foo_wellPosed_linked hA.1 hA.2.1 (fun i hi j hj => ?_) ?_ hini hfree []
    · have := (hlink A[i] (List.getElem_mem hi) B[j] (List.getElem_mem hj)).map (f := fun x => A.idxOf x) (g := fun y => B.idxOf y)
        (Q := fun i j => ∃ c, (∃ r ∈ counts, cell r.1 = c ∧ (0 : ℝ) < 1) ∧ (threeFactor A.length B.length C.length).cellN c 0 = i ∧
          (threeFactor A.length B.length C.length).cellN c 1 = j) (fun x y ⟨r, hr, z, e⟩ => by
            obtain ⟨q1, q2, -⟩ := hidx r hr x y z e
            have g : ∀ {D : List L} {i : Nat} {x : L}, D.Nodup → D[i]? = some x → i = D.idxOf x := by
              intro D i x hD hi
              exact hinj hD hi (List.getElem?_idxOf (List.mem_of_getElem? hi))
            exact ⟨_, ⟨r, hr, rfl, one_pos⟩, g (hnd A (by simp)) q1, g (hnd B (by simp)) q2⟩)
      rwa [List.Nodup.idxOf_getElem (hnd A (by simp)), List.Nodup.idxOf_getElem (hnd B (by simp))] at this
    · obtain ⟨x, y, z1, z2, k1, k2, q1, q2, q3, ⟨r1, hr1, e1⟩, ⟨r2, hr2, e2⟩⟩ := htwo
      obtain ⟨a1, a2, a3⟩ := hidx r1 hr1 x y z1 e1
      obtain ⟨b1, b2, b3⟩ := hidx r2 hr2 x y z2 e2
      refine ⟨cell r1.1, cell r2.1, ⟨r1, hr1, rfl, one_pos⟩, ⟨r2, hr2, rfl, one_pos⟩, hinj (hnd A (by simp)) a1 b1, hinj (hnd B (by simp)) a2 b2, ?_⟩
      rw [hinj (hnd C (by simp)) a3 q1, hinj (hnd C (by simp)) b3 q2]
      exact q3
  have hcs : ∀ c ∈ [(([0, 1] : List Nat), ([1, 1] : List ℝ))], c.1.Nodup ∧ ∀ p ∈ c.1, p < 3 := by
    intro c hc
    rw [List.mem_singleton.1 hc]
    simp
  obtain ⟨-, -, -, -, -, h6, -, h8⟩ := C74_history depth k (ops ++ [.fit args]) hops'
  rw [hpar'] at h6
  have hat := hini.layout h6 h8
  have hps : ∃ ps, (Session.run (depth + 2) k (ops ++ [.fit args])).params = some ps := by
    cases hs : (Session.run (depth + 2) k (ops ++ [.fit args])).params with
    | none =>
      rw [hs, hpar] at h6
      exact absurd (congrArg List.length h6) (by simp)
    | some ps => exact ⟨ps, rfl⟩
  obtain ⟨ps, hps⟩ := hps
  rw [hps] at h6 hat
  have hlog : ∀ θ, (counts.map fun r => 1 * k.logProb (valCell (threeFactor A.length B.length C.length) (fun θ n _ => fooVal vector θ n) θ) (cell r.1) r.2).sum =
      testLogProb k vector counts cell θ := by
    intro θ
    simp only [one_mul]
    rfl
  refine ⟨cell, K, _, ps, c1, hps, hat, ?_, fun hret nan => ?_, fun d hd hd1 => ?_, fun pinvh tol step g l J hstep hz θ' hθ' hdiff => ?_⟩
  · have := C76_never_singular depth k hk ops args hops hfitp hnewton counts (fun r => cell r.1) (fun _ => 1) (fun r => r.2)
      hv (fun _ _ => zero_le_one) hne hS' foo_linear hcs (by simp) hini hF hwp
    simpa using this
  · obtain ⟨D, H, θ', ps', e1, e2, e3, e4⟩ := C77_errors depth k hk ops args hops hfitp hnewton counts (fun r => cell r.1) (fun _ => 1) (fun r => r.2)
      hv (fun _ _ => zero_le_one) hne hS' foo_linear (by simp) hcs (by simp) hini hwp hret nan
    rw [hps, Option.some.injEq] at e2
    subst e2
    have hder : conDers (threeFactor A.length B.length C.length) [([0, 1], [1, 1])] = [fun p _ => if p < 2 then 1 else 0] := by
      unfold conDers linCons
      simp only [List.map_cons, List.map_nil, linCon, List.cons.injEq, and_true]
      funext p _
      match p with
      | 0 => simp
      | 1 => simp
      | p + 2 => simp
    rw [hder] at e3 e4
    refine ⟨D, H, θ', ⟨fun θ hθ p hp q hq => ?_, e1.second⟩, e3, e4⟩
    have := HasDerivAt.sub_const K (e1.first θ hθ p hp q hq)
    refine this.congr_of_eventuallyEq (Filter.Eventually.of_forall fun t => ?_)
    simp [penalised, quadPens, ← hlog]
  · obtain ⟨ar, a1, -⟩ := C45_cells hts h tN
    have hN : lastData (ops ++ [.fit args]) .N = some ar.ndarray := lastData_kwargs hkw (by rw [(series_shape hw h).1]; exact hts) a1
    have := C77_criteria depth k (ops ++ [.fit args]) hops' hN hS' trivial hps hat 0 (d := d) (by
      rw [hd]
      simp [linCons, Finset.sum_range_succ, Problem.sizes, threeFactor]) hd1
    unfold penalised at this
    simp only [hlog, quadPens, List.map_nil, List.sum_nil, sub_zero] at this
    exact this
  · obtain ⟨e1, e2⟩ := C76_estimate k hk counts (fun r => cell r.1) (fun _ => 1) (fun r => r.2)
      hv (fun _ _ => zero_le_one) hne hS' foo_linear hcs (by simp) hat (by rw [Flat.SameLayout.totalFree h6]; exact hF) hstep hz (θ' := θ')
      ⟨by
        intro c hc
        rw [List.mem_singleton.1 hc]
        simpa [linCon, Finset.sum_range_succ, Problem.sizes, threeFactor] using hθ', fun i e hfx => by
        have hfx' : isFixed (initialParams ops) i e := Fit.SameLayout.isFixed h6.symm hfx
        rw [hpar] at hfx'
        obtain ⟨q, q1, q2⟩ := hfx'
        match i, q1 with
        | 0, q1 => cases q1; simp [List.getElem?_replicate] at q2
        | 1, q1 => cases q1; simp [List.getElem?_replicate] at q2
        | 2, q1 =>
          cases q1
          cases e with
          | zero => simp at q2
          | succ e => simp at q2⟩
    have e2' := e2 (hwp.layout h6)
    simp only [hlog, quadPens, List.map_nil, List.sum_nil, sub_zero] at e1 e2'
    refine lt_of_le_of_ne e1 fun e => ?_
    obtain ⟨p, hp, q, hq, hne'⟩ := hdiff
    refine hne' (e2' e p hp q ?_)
    have : p = 0 ∨ p = 1 ∨ p = 2 := by omega
    rcases this with rfl | rfl | rfl <;> simpa [Problem.sizes, threeFactor] using hq

end

end Verif.Tens
