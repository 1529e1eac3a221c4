import Verif.Props.NewtonSteps
import Verif.Props.NewtonLocalExamples
import Verif.Props.TennisSet
import Mathlib.Analysis.Complex.ExponentialBounds

/-!
# C78: a start far from the maximum
-/

set_option linter.unusedSectionVars false

namespace Verif.Tens
open Verif.Params

/-- The function `z - exp z` at the five trial points, for a start `z ≤ -5`. -/
theorem far_trial {z : ℝ} (hz : z ≤ -5) {j : Nat} (hj : j < 5) :
    z + 1 / 2 ^ j * (Real.exp (-z) - 1) - Real.exp (z + 1 / 2 ^ j * (Real.exp (-z) - 1)) < z - Real.exp z := by
  obtain ⟨b, rfl⟩ : ∃ b, z = -(5 + b) := ⟨-z - 5, by ring⟩
  have hb : 0 ≤ b := by linarith
  have h5 : (148 : ℝ) ≤ Real.exp 5 := by
    have h1 := Real.exp_one_gt_d9
    have e : Real.exp 5 = Real.exp 1 ^ 5 := by rw [← Real.exp_nat_mul]; norm_num
    rw [e]
    calc (148 : ℝ) ≤ 2.7182818283 ^ 5 := by norm_num
      _ ≤ Real.exp 1 ^ 5 := pow_le_pow_left₀ (by norm_num) h1.le 5
  have hE : 148 + 148 * b ≤ Real.exp (- -(5 + b)) := by
    rw [neg_neg, Real.exp_add]
    have := Real.add_one_le_exp b
    nlinarith [Real.exp_pos b]
  have hj' : (1 : ℝ) / 16 ≤ 1 / 2 ^ j := by
    refine one_div_le_one_div_of_le (by positivity) ?_
    calc (2 : ℝ) ^ j ≤ 2 ^ 4 := pow_le_pow_right₀ (by norm_num) (by omega)
      _ = 16 := by norm_num
  have hd : (147 + 148 * b) / 16 ≤ 1 / 2 ^ j * (Real.exp (- -(5 + b)) - 1) := by
    have : 1 / 16 * (147 + 148 * b) ≤ 1 / 2 ^ j * (Real.exp (- -(5 + b)) - 1) := mul_le_mul hj' (by linarith) (by linarith) (by positivity)
    linarith
  generalize 1 / 2 ^ j * (Real.exp (- -(5 + b)) - 1) = d at hd
  have hq := Real.quadratic_le_exp_of_nonneg (x := -(5 + b) + d) (by linarith)
  have h1 : Real.exp (-(5 + b)) ≤ 1 := Real.exp_le_one_iff.2 (by linarith)
  have h4 : 4 + 8 * b ≤ -(5 + b) + d := by linarith
  nlinarith

theorem one_cell (c : (oneFactor 1).Cell) (F : (oneFactor 1).Cell → ℝ) : ∑ c', F c' = F c := by
  have : Subsingleton (oneFactor 1).Cell := by
    refine ⟨fun a b => Prod.ext (funext fun z => ?_) (funext fun z => z.elim0)⟩
    exact @Subsingleton.elim (Fin 1) _ (a.1 z) (b.1 z)
  exact Fintype.sum_subsingleton _ c

/-- The model `X()`. -/
theorem plain_computes (s : Nat) : Computes (oneFactor s) (cOrder (oneFactor s) 1) (fun _ => True) (Store.whole fun _ => True) (fun _ => True) xT fun θ n _ => θ 0 (n 0) := by
  have hX : Computes (oneFactor s) (cOrder (oneFactor s) 1) (fun _ => True) (Store.whole fun _ => True) (fun _ => True) xT fun θ n _ => θ 0 ((cOrder (oneFactor s) 1).num 0 n) :=
    (C64_X (fun p _ => ⟨rfl, fun _ _ => rfl⟩) rfl).weaken (fun h => h) (fun _ _ h => h) (fun h => h) (fun _ _ _ => Nat.one_pos) (fun h => h) (fun _ _ h => h) (fun _ _ h => h)
  exact hX.congr fun θ n d _ => by rw [oneFactor_num]

theorem plain_linear : LinearModel (oneFactor 1) 1 (valCell (oneFactor 1) fun θ n _ => θ 0 (n 0)) (fun _ => 0) fun _ _ _ => 1 := by
  intro θ c
  have h0 : ((oneFactor 1).sizes 0).prod = 1 := by simp [Problem.sizes, oneFactor]
  have : (oneFactor 1).cellN c 0 = 0 := by
    unfold Problem.cellN
    split_ifs
    · exact Nat.lt_one_iff.1 (c.1 _).2
    · rfl
  unfold allSum valCell
  dsimp only
  rw [Finset.sum_range_one, h0, Finset.sum_range_one, this]
  ring

/-- The sum over the only free entry. -/
theorem freeSum_one {θ : Theta} {ps : List (Param ℝ)} (hat : AtPoint (oneFactor 1) 1 θ ps) (hF : isFree ps 0 0) (F : Nat → Nat → ℝ) : freeSum ps F = F 0 0 := by
  rw [freeSum_eq hat.masks]
  have h0 : ((oneFactor 1).sizes 0).prod = 1 := by simp [Problem.sizes, oneFactor]
  have : freeSet ps = {(0, 0)} := by
    ext x
    rw [mem_freeSet, Finset.mem_singleton]
    constructor
    · intro h
      obtain ⟨i1, i2⟩ := hat.free h
      have e1 : x.1 = 0 := by omega
      rw [e1, h0] at i2
      exact Prod.ext e1 (by dsimp only; omega)
    · rintro rfl
      exact hF
  rw [this, Finset.sum_singleton]

/-- The only cell. -/
def onlyCell : (oneFactor 1).Cell := ⟨fun _ => (0 : Fin 1), fun z => z.elim0⟩

theorem plain_val (θ : Theta) (c : (oneFactor 1).Cell) : valCell (oneFactor 1) (fun θ n _ => θ 0 (n 0)) θ c = θ 0 0 := by
  rw [plain_linear θ c]
  unfold allSum
  rw [Finset.sum_range_one, show ((oneFactor 1).sizes 0).prod = 1 by simp [Problem.sizes, oneFactor], Finset.sum_range_one]
  ring

/-- `Poisson` with the model `X()` and one cell. -/
theorem plain_concave {X Nw : Num ℝ} (hX : (oneFactor 1).IsData X) (hN : (oneFactor 1).IsData Nw) {B : ℝ} (hB : 0 < B) (hNB : ∀ c, (oneFactor 1).val Nw c = B) :
    ConcaveProblem (oneFactor 1) 1 ⟨xT, PoissonT.like X Nw, PoissonT.gradLike X Nw, PoissonT.hessLike X Nw, Nw, [], []⟩
      (fun θ => Like.Poisson.like ((oneFactor 1).val X) ((oneFactor 1).val Nw) (valCell (oneFactor 1) (fun θ n _ => θ 0 (n 0)) θ)) [] [] B
      (valCell (oneFactor 1) fun θ n _ => θ 0 (n 0)) (fun _ _ _ => 1) fun c => 0 < (oneFactor 1).val Nw c := by
  have hok : (oneFactor 1).Ok := ⟨by simp [oneFactor], fun k _ => by simp [oneFactor]⟩
  have hT : ∑ c, (oneFactor 1).val Nw c = B := by rw [one_cell onlyCell, hNB]
  have hM := C68_solver_poisson (gs := linCons (oneFactor 1) []) (φs := quadPens (oneFactor 1) []) hok hX hN Nat.one_pos (plain_computes 1) rfl trivial (fun _ _ => trivial)
    (by rw [hT]; exact hB.ne') (cs := []) (rs := []) .nil .nil
  rw [hT] at hM
  exact C70_poisson hM (fun c => by rw [hNB]; exact hB.le) plain_linear (by simp) (by simp)

theorem plain_wellPosed {Nw : Num ℝ} {B : ℝ} (hB : 0 < B) (hNB : ∀ c, (oneFactor 1).val Nw c = B) {θ : Theta} {ps : List (Param ℝ)} (hat : AtPoint (oneFactor 1) 1 θ ps)
    (hF : isFree ps 0 0) : WellPosed (oneFactor 1) ps [] [] (fun _ _ _ => 1) fun c => 0 < (oneFactor 1).val Nw c := by
  constructor
  · intro u _ hx _ i a hf
    have := hx onlyCell (by beta_reduce; rw [hNB]; exact hB)
    rw [freeSum_one hat hF] at this
    obtain ⟨i1, i2⟩ := hat.free hf
    have h0 : ((oneFactor 1).sizes 0).prod = 1 := by simp [Problem.sizes, oneFactor]
    have e1 : i = 0 := by omega
    subst e1
    rw [h0] at i2
    have e2 : a = 0 := by omega
    subst e2
    linarith
  · intro μ hl _ x hx
    have : μ = [] := List.eq_nil_of_length_eq_zero (by simpa [conDers, linCons] using hl)
    rw [this] at hx
    cases hx

theorem plain_value {X Nw : Num ℝ} {A B : ℝ} (hA : 0 < A) (hB : 0 < B) (hXA : ∀ c, (oneFactor 1).val X c = A) (hNB : ∀ c, (oneFactor 1).val Nw c = B) (θ' : Theta) :
    penalised (fun θ => Like.Poisson.like ((oneFactor 1).val X) ((oneFactor 1).val Nw) (valCell (oneFactor 1) (fun θ n _ => θ 0 (n 0)) θ)) (quadPens (oneFactor 1) []) θ' =
      A * (θ' 0 0 - Real.log (A / B) - Real.exp (θ' 0 0 - Real.log (A / B))) + (A * Real.log (A / B) - Like.gammaln (A + 1)) := by
  have : penalised (fun θ => Like.Poisson.like ((oneFactor 1).val X) ((oneFactor 1).val Nw) (valCell (oneFactor 1) (fun θ n _ => θ 0 (n 0)) θ)) (quadPens (oneFactor 1) []) θ' =
      A * θ' 0 0 - B * Real.exp (θ' 0 0) - Like.gammaln (A + 1) := by
    unfold penalised Like.Poisson.like
    beta_reduce
    rw [one_cell onlyCell, hXA, hNB, plain_val]
    simp [quadPens]
  rw [this, Real.exp_sub, Real.exp_log (by positivity)]
  field_simp
  ring

/-- **C78.** Newton fits do not converge from every start, even of a concave and well posed problem: `Poisson` with the model `X()` and one cell with the counts `X > 0` and the weight `N > 0` (the
estimate is `log (X / N)`), from a start that is smaller than the estimate by 5 or more (for example 0, if the mean is 149), raises `ConvergenceError` with every tolerance and number of steps.  The Newton
step is so long that the objective is smaller than at the start after four halvings. -/
theorem C78_far_start {X Nw : Num ℝ} (hX : (oneFactor 1).IsData X) (hN : (oneFactor 1).IsData Nw) {A B : ℝ} (hA : 0 < A) (hB : 0 < B) (hXA : ∀ c, (oneFactor 1).val X c = A)
    (hNB : ∀ c, (oneFactor 1).val Nw c = B) {θ : Theta} {o : Fit.Obj ℝ (List (List ℝ))} (hat : AtPoint (oneFactor 1) 1 θ o.params) (hF : isFree o.params 0 0)
    (hfar : θ 0 0 ≤ Real.log (A / B) - 5) {pinvh : List (List ℝ) → Except Err (List (List ℝ))} {tol : ℝ} {maxSteps verbose : Nat} (hs : 1 ≤ maxSteps) :
    (Fit.fit (MaxLikeT.env ⟨xT, PoissonT.like X Nw, PoissonT.gradLike X Nw, PoissonT.hessLike X Nw, Nw, [], []⟩ pinvh tol) o maxSteps verbose .newton).outcome =
      .error .convergenceStep := by
  have hP := plain_concave hX hN hB hNB
  have hM := hP.solver
  have hone := freeSum_one hat hF
  have hw := plain_wellPosed hB hNB hat hF
  have hF' : 1 ≤ totalFree o.params := by
    have := rank_lt hF
    omega
  obtain ⟨n, rfl⟩ := Nat.exists_eq_add_of_le' hs
  obtain ⟨D, H, hD, hst⟩ := hP.step
  obtain ⟨step, μ, v, J, e, n1⟩ := hst pinvh tol θ o.params hat hF' hw
  have h0 : 0 < ((oneFactor 1).sizes 0).prod := by simp [Problem.sizes, oneFactor]
  have hval := plain_val
  obtain ⟨d1, d2⟩ := derivs_eq hM (fun θ => rfl) (cells_poisson (X := (oneFactor 1).val X) fun c => by rw [hNB]; exact hB.le) plain_linear hD
  have hD0 : D θ 0 0 = A - B * Real.exp (θ 0 0) := by
    rw [d1 θ 0 Nat.one_pos 0 h0, one_cell onlyCell, hXA, hNB, hval]
    simp [quadPens]
  have hH0 : H θ 0 0 0 0 = -(B * Real.exp (θ 0 0)) := by
    rw [d2 θ 0 Nat.one_pos 0 le_rfl 0 h0 0 h0, one_cell onlyCell, hNB, hval]
    simp [quadPens]
  have hrank : freeRank o.params 0 0 = 0 := by
    obtain ⟨p, hp, -⟩ := hF
    simp [freeRank, totalFree, hp]
  have hst0 := n1.stationary 0 0 hF
  rw [hone, hrank, hD0] at hst0
  have hb : bothSides (H θ) 0 0 0 0 = -(B * Real.exp (θ 0 0)) := by
    unfold bothSides
    rw [if_neg (lt_irrefl 0), hH0]
  rw [hb] at hst0
  have hμ : (((((linCons (oneFactor 1) []).map fun c => c.der θ).zip μ).map fun x => x.1 0 0 * x.2).sum : ℝ) = 0 := by simp [linCons]
  rw [hμ, add_zero] at hst0
  have hL := plain_value hA hB hXA hNB
  set z := θ 0 0 - Real.log (A / B) with hz
  have hE : Real.exp (-z) = A / B * Real.exp (-θ 0 0) := by
    rw [hz, neg_sub, sub_eq_add_neg, Real.exp_add, Real.exp_log (by positivity)]
  have hs0 : step.getD 0 0 = -(Real.exp (-z) - 1) := by
    rw [hE, Real.exp_neg]
    have := Real.exp_pos (θ 0 0)
    field_simp
    linarith
  unfold Fit.fit
  rw [flatParams_ok (hat.ne Nat.one_pos)]
  simp only [Fit.newtonLoop]
  rw [e]
  dsimp only
  rcases inner_trial (pinvh := pinvh) (tol := tol) hM hat hat rfl (fun _ _ _ => rfl) (flatAt_start hat Nat.one_pos) n1.len verbose (penalised _ (quadPens (oneFactor 1) []) θ / B) 5 1 with
    ⟨tr, k, h1, -⟩ | ⟨j, hj, f, q, tr, k, -, h2, -⟩
  · rw [show (MaxLikeT.env ⟨xT, PoissonT.like X Nw, PoissonT.gradLike X Nw, PoissonT.hessLike X Nw, Nw, [], []⟩ pinvh tol).one = 1 from rfl, h1]
  · exfalso
    rw [div_le_div_iff_of_pos_right hB, hL, hL] at h2
    have hn : stepTo o.params θ (step.map (1 / 2 ^ j * ·)) 0 0 = θ 0 0 + 1 / 2 ^ j * (Real.exp (-z) - 1) := by
      unfold stepTo dirOf
      rw [if_pos hF, hrank]
      have : (step.map (1 / 2 ^ j * ·)).getD 0 0 = 1 / 2 ^ j * step.getD 0 0 := by
        cases step <;> simp
      rw [this, hs0]
      ring
    rw [hn] at h2
    have := far_trial (z := z) (by rw [hz]; linarith) hj
    have e2 : θ 0 0 + 1 / 2 ^ j * (Real.exp (-z) - 1) - Real.log (A / B) = z + 1 / 2 ^ j * (Real.exp (-z) - 1) := by rw [hz]; ring
    rw [e2, ← hz] at h2
    have := mul_lt_mul_of_pos_left this hA
    linarith

/-- **C78.** The problem of `C78_far_start` converges near the estimate `log (X / N)`. -/
theorem C78_example_plain {X Nw : Num ℝ} (hX : (oneFactor 1).IsData X) (hN : (oneFactor 1).IsData Nw) {A B : ℝ} (hA : 0 < A) (hB : 0 < B) (hXA : ∀ c, (oneFactor 1).val X c = A)
    (hNB : ∀ c, (oneFactor 1).val Nw c = B) (h0 : A * Real.log (A / B) - A ≠ Like.gammaln (A + 1)) : ∃ ρ : ℝ, 0 < ρ ∧
    ∀ (o : Fit.Obj ℝ (List (List ℝ))) (θ : Theta), AtPoint (oneFactor 1) 1 θ o.params → isFree o.params 0 0 → |θ 0 0 - Real.log (A / B)| ≤ ρ →
      ∀ pinvh (tol : ℝ) (k maxSteps verbose : Nat), 0 < tol → 1 < tol * 8 ^ k → k < maxSteps →
        (Fit.fit (MaxLikeT.env ⟨xT, PoissonT.like X Nw, PoissonT.gradLike X Nw, PoissonT.hessLike X Nw, Nw, [], []⟩ pinvh tol) o maxSteps verbose .newton).outcome = .ok true := by
  have hP := plain_concave hX hN hB hNB
  let θs : Theta := fun _ _ => Real.log (A / B)
  let params : List (Param ℝ) := [⟨[1], [Real.log (A / B)], [false]⟩]
  have hsz : (oneFactor 1).sizes 0 = [1] := by simp [Problem.sizes, oneFactor]
  have hat : AtPoint (oneFactor 1) 1 θs params := by
    refine ⟨rfl, fun p hp => ?_⟩
    obtain rfl : p = 0 := by omega
    refine ⟨_, rfl, hsz.symm, rfl, rfl, fun a ha => ?_⟩
    obtain rfl : a = 0 := by simpa using ha
    rfl
  have hF : isFree params 0 0 := ⟨_, rfl, rfl⟩
  have hF' : 1 ≤ totalFree params := by
    have := rank_lt hF
    omega
  have hR : RegularCells (oneFactor 1) (fun θ => Like.Poisson.like ((oneFactor 1).val X) ((oneFactor 1).val Nw) (valCell (oneFactor 1) (fun θ n _ => θ 0 (n 0)) θ))
      (valCell (oneFactor 1) fun θ n _ => θ 0 (n 0)) :=
    ⟨_, _, _, cells_poisson (X := (oneFactor 1).val X) fun c => by rw [hNB]; exact hB.le, fun θ => rfl, (regular_poisson ((oneFactor 1).val Nw)).1, (regular_poisson ((oneFactor 1).val Nw)).2⟩
  have hcells : ConcaveCells _ _ _ := cells_poisson (X := (oneFactor 1).val X) (N := (oneFactor 1).val Nw) fun c => by rw [hNB]; exact hB.le
  have hk : FirstOrder params (penalised (fun θ => Like.Poisson.like ((oneFactor 1).val X) ((oneFactor 1).val Nw) (valCell (oneFactor 1) (fun θ n _ => θ 0 (n 0)) θ))
      (quadPens (oneFactor 1) [])) (linCons (oneFactor 1) []) θs := by
    refine ⟨fun c hc => by simp [linCons] at hc, [], rfl, fun i a hf => ?_⟩
    obtain ⟨i1, i2⟩ := hat.free hf
    obtain rfl : i = 0 := by omega
    rw [hsz] at i2
    obtain rfl : a = 0 := by simpa using i2
    obtain ⟨D, H, hD, -⟩ := hP.step
    have h00 : 0 < ((oneFactor 1).sizes 0).prod := by rw [hsz]; decide
    obtain ⟨d1, -⟩ := derivs_eq hP.solver (fun θ => rfl) hcells plain_linear hD
    have hd := hD.first θs trivial 0 Nat.one_pos 0 h00
    rw [d1 θs 0 Nat.one_pos 0 h00, one_cell onlyCell, hXA, hNB, plain_val] at hd
    have : A - B * Real.exp (θs 0 0) = 0 := by
      show A - B * Real.exp (Real.log (A / B)) = 0
      rw [Real.exp_log (by positivity)]
      field_simp
      ring
    rw [this] at hd
    simpa [quadPens, linCons] using hd
  have hne : penalised (fun θ => Like.Poisson.like ((oneFactor 1).val X) ((oneFactor 1).val Nw) (valCell (oneFactor 1) (fun θ n _ => θ 0 (n 0)) θ))
      (quadPens (oneFactor 1) []) θs ≠ 0 := by
    rw [plain_value hA hB hXA hNB]
    show A * (Real.log (A / B) - Real.log (A / B) - Real.exp (Real.log (A / B) - Real.log (A / B))) + _ ≠ 0
    rw [sub_self, Real.exp_zero]
    intro h
    exact h0 (by linarith)
  obtain ⟨ρ, r0, r1⟩ := C78_converges hP hR hB hat hF' (plain_wellPosed hB hNB hat hF) hk hne
  refine ⟨ρ, r0, fun o θ ho hf hclose pinvh tol k maxSteps verbose ht hk1 hk2 => ?_⟩
  have hfree : ∀ i a, ¬isFixed params i a := by
    rintro i a ⟨p, hp, ha⟩
    have hi : i = 0 := by
      have := (List.getElem?_eq_some_iff.1 hp).1
      simpa [params] using this
    subst hi
    obtain rfl : _ = p := by simpa [params] using hp
    have := (List.getElem?_eq_some_iff.1 ha).1
    obtain rfl : a = 0 := by simpa using this
    simp at ha
  have hlay : SameLayout o.params params := by
    obtain ⟨q, hq, q1, q2, q3, q4⟩ := ho.each 0 Nat.one_pos
    obtain ⟨q', hq', hm⟩ := hf
    obtain rfl : q = q' := by rw [hq] at hq'; exact Option.some.inj hq'
    have hl := ho.len
    obtain ⟨p, rfl'⟩ := List.length_eq_one_iff.1 hl
    rw [rfl'] at hq
    obtain rfl : p = q := by simpa using hq
    rw [q1, hsz] at q2
    obtain ⟨b, hb⟩ := List.length_eq_one_iff.1 (show p.mask.length = 1 by simpa using q2)
    rw [hb] at hm
    obtain rfl : b = false := by simpa using hm
    rw [rfl']
    simp [SameLayout, params, q1, hsz, hb]
  refine (r1 o θ hlay ho ⟨fun c hc => by simp [linCons] at hc, fun i a h => absurd h (hfree i a)⟩ (fun p hp a ha => ?_) pinvh tol k maxSteps verbose _ ht hk1 hk2 rfl).1
  obtain rfl : p = 0 := by omega
  rw [hsz] at ha
  obtain rfl : a = 0 := by simpa using ha
  exact hclose

/-- **C78.** The problem of `C78_infeasible`: after the fit of a problem with one parameter, the constraint `Linear([1])` on it, and a mean that is not 1, so that the estimate
is not 0: the next fit raises.  (The only point that satisfies the constraint is 0, where the objective is smaller.) -/
theorem C78_example_infeasible {X Nw : Num ℝ} (hX : (oneFactor 1).IsData X) (hN : (oneFactor 1).IsData Nw) {A B : ℝ} (hA : 0 < A) (hB : 0 < B) (hAB : A ≠ B)
    (hXA : ∀ c, (oneFactor 1).val X c = A) (hNB : ∀ c, (oneFactor 1).val Nw c = B) {θ : Theta} {o : Fit.Obj ℝ (List (List ℝ))} (hat : AtPoint (oneFactor 1) 1 θ o.params)
    (hF : isFree o.params 0 0) (hest : θ 0 0 = Real.log (A / B)) {pinvh : List (List ℝ) → Except Err (List (List ℝ))} {tol : ℝ} {maxSteps verbose : Nat} (hs : 1 ≤ maxSteps)
    {r : Fit.Result ℝ (List (List ℝ))} (hr : r = Fit.fit (MaxLikeT.env ⟨xT, PoissonT.like X Nw, PoissonT.gradLike X Nw, PoissonT.hessLike X Nw, Nw, [⟨[0], linearT [1]⟩], []⟩ pinvh tol)
      o maxSteps verbose .newton) :
    (r.outcome = .error .convergenceStep ∨ r.outcome = .error .linAlg) ∧ r.obj.params = o.params := by
  have hok : (oneFactor 1).Ok := ⟨by simp [oneFactor], fun k _ => by simp [oneFactor]⟩
  have hsz : (oneFactor 1).sizes 0 = [1] := by simp [Problem.sizes, oneFactor]
  have hT : ∑ c, (oneFactor 1).val Nw c = B := by rw [one_cell onlyCell, hNB]
  have hM := C68_solver_poisson (gs := [linCon (oneFactor 1) [0] [1]]) (φs := quadPens (oneFactor 1) []) hok hX hN Nat.one_pos (plain_computes 1) rfl trivial (fun _ _ => trivial)
    (by rw [hT]; exact hB.ne') (cs := [⟨[0], linearT [1]⟩]) (rs := []) (.cons (C67_linear (by simp) (by simp) (by simp) rfl) .nil) .nil
  rw [hT] at hM
  have hF' : 1 ≤ totalFree o.params := by
    have := rank_lt hF
    omega
  refine C78_infeasible hM hB hat hF' (fun θ' _ hne => ?_) ⟨_, List.mem_singleton_self _, ?_⟩ hs hr
  · rw [plain_value hA hB hXA hNB, plain_value hA hB hXA hNB, hest, sub_self, Real.exp_zero]
    obtain ⟨i, a, hf, hne⟩ := hne
    obtain ⟨i1, i2⟩ := hat.free hf
    obtain rfl : i = 0 := by omega
    rw [hsz] at i2
    obtain rfl : a = 0 := by simpa using i2
    have h1 : θ' 0 0 - Real.log (A / B) ≠ 0 := by rw [← hest]; exact sub_ne_zero.2 hne
    have h2 := Real.add_one_lt_exp h1
    have := mul_lt_mul_of_pos_left h2 hA
    linarith
  · unfold linCon
    simp only [List.length_singleton, Finset.sum_range_one, List.getD_cons_zero, hsz, List.prod_singleton, mul_one]
    rw [hest]
    exact Real.log_ne_zero_of_pos_of_ne_one (by positivity) fun h => hAB (by field_simp at h; exact h)

/-- **C78.** The problem of `C78_far_start` with one observation, equal to 1: every fit with enough steps returns `True` or raises in the line search. -/
theorem C78_example_ends {X Nw : Num ℝ} (hX : (oneFactor 1).IsData X) (hN : (oneFactor 1).IsData Nw) (hXA : ∀ c, (oneFactor 1).val X c = 1) (hNB : ∀ c, (oneFactor 1).val Nw c = 1)
    {θ : Theta} {o : Fit.Obj ℝ (List (List ℝ))} (hat : AtPoint (oneFactor 1) 1 θ o.params) (hF : isFree o.params 0 0) {pinvh : List (List ℝ) → Except Err (List (List ℝ))} {tol : ℝ}
    (ht : 0 < tol) {maxSteps verbose : Nat} (hs : Real.exp (θ 0 0) - θ 0 0 < (1 + tol) ^ maxSteps) {r : Fit.Result ℝ (List (List ℝ))}
    (hr : r = Fit.fit (MaxLikeT.env ⟨xT, PoissonT.like X Nw, PoissonT.gradLike X Nw, PoissonT.hessLike X Nw, Nw, [], []⟩ pinvh tol) o maxSteps verbose .newton) :
    r.outcome = .ok true ∨ r.outcome = .error .convergenceStep := by
  subst hr
  have hF' : 1 ≤ totalFree o.params := by
    have := rank_lt hF
    omega
  have hv : ∀ θ', penalised (fun θ => Like.Poisson.like ((oneFactor 1).val X) ((oneFactor 1).val Nw) (valCell (oneFactor 1) (fun θ n _ => θ 0 (n 0)) θ))
      (quadPens (oneFactor 1) []) θ' = θ' 0 0 - Real.exp (θ' 0 0) := by
    intro θ'
    rw [plain_value one_pos one_pos hXA hNB]
    have : Like.gammaln (1 + 1) = 0 := by
      unfold Like.gammaln
      rw [Real.Gamma_add_one one_ne_zero, Real.Gamma_one, mul_one, Real.log_one]
    rw [this]
    simp
  refine C78_ends (c := -1) (plain_concave hX hN one_pos hNB) one_pos hat hF' (plain_wellPosed one_pos hNB hat hF) (by norm_num) (fun θ' => ?_) ht ?_
  · rw [hv]
    have := Real.add_one_le_exp (θ' 0 0)
    linarith
  · rw [hv]
    linarith

end Verif.Tens
