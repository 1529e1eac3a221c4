import Verif.Props.Rearrange
import Verif.Props.FitExamples
import Verif.Props.Session

/-!
# Examples for C79
-/

set_option linter.unusedSectionVars false

namespace Verif.Tens
open Verif.Params
open NDArray

/-- **C79.** test_poisson and test_poisson2 (tests.py:23-147) write one model in two ways, `Sum` of `X`, `-X` and `Vector`, or with a `Product` of a `Constant` and a
`Scalar`.  On the same table, from the same start, the two fits do the same thing. -/
theorem C79_example_expressions {s t u : Nat} {vector : NDArray ℝ} (hs : s ≠ 0) (ht : t ≠ 0) (hu : u ≠ 0) (h1 : vector.ndim = 1) (h2 : vector.shape 0 = u) {X Nw : Num ℝ}
    (hX : (threeFactor s t u).IsData X) (hN : (threeFactor s t u).IsData Nw) (hT : ∑ c, (threeFactor s t u).val Nw c ≠ 0) (pinvh : List (List ℝ) → Except Err (List (List ℝ))) (tol : ℝ)
    (o : Fit.Obj ℝ (List (List ℝ))) {θ : Theta} (hat : AtPoint (threeFactor s t u) 3 θ o.params) (hF : 1 ≤ totalFree o.params) (maxSteps verbose : Nat) :
    ∀ r r',
      r = Fit.fit (MaxLikeT.env ⟨fooModel vector, PoissonT.like X Nw, PoissonT.gradLike X Nw, PoissonT.hessLike X Nw, Nw, [⟨[0, 1], linearT [1, 1]⟩], []⟩ pinvh tol) o maxSteps verbose .newton →
      r' = Fit.fit (MaxLikeT.env ⟨poisson2Model vector, PoissonT.like X Nw, PoissonT.gradLike X Nw, PoissonT.hessLike X Nw, Nw, [⟨[0, 1], linearT [1, 1]⟩], []⟩ pinvh tol) o maxSteps verbose
        .newton →
      r'.outcome = r.outcome ∧ ∃ θ', AtPoint (threeFactor s t u) 3 θ' r.obj.params ∧ AtPoint (threeFactor s t u) 3 θ' r'.obj.params := by
  intro r r' hr hr'
  have hS := C68_example_poisson hs ht hu h1 h2 hX hN hT
  have hS' := C68_example_poisson2 hs ht hu h1 h2 hX hN hT
  have hfun : (fun (θ : Theta) (n : Nat → Nat) (_ : Nat → Nat) => fooVal vector θ n) = fun θ n _ => θ 0 (n 0) - θ 1 (n 1) + (vector.get fun _ => n 2) * θ 2 0 := by
    funext θ n d
    unfold fooVal
    rw [mul_comm (θ 2 0)]
  rw [← hfun] at hS'
  obtain ⟨j1, -, -, -, θ', j2, j3⟩ := C79_fit (e := Equiv.refl _) hS hS' ⟨fun x => Iff.rfl, fun θ => rfl, .cons (fun θ => rfl) .nil⟩
    (fun θ => smooth_penalised (C69_smooth_poisson _ _ fun c =>
      ((Smooth2.entry _ _ _).sub (Smooth2.entry _ _ _)).add ((Smooth2.entry _ _ _).mul (Smooth2.const _ _))) fun φ hφ => absurd hφ List.not_mem_nil)
    (o := o) (o' := o) ⟨θ, hat, hat⟩ (fun x => Iff.rfl) rfl hF maxSteps verbose r r' hr hr'
  exact ⟨j1, θ', j2, j3⟩

/-- The parameters of a table of `s` rows and `t` columns in terms of those of the transposed table whose rows are in another order. -/
def turn (π : Equiv.Perm Nat) : Nat × Nat ≃ Nat × Nat where
  toFun x := if x.1 = 0 then (1, x.2) else if x.1 = 1 then (0, π x.2) else x
  invFun x := if x.1 = 0 then (1, π.symm x.2) else if x.1 = 1 then (0, x.2) else x
  left_inv x := by
    rcases x with ⟨_ | _ | k, a⟩ <;> simp
  right_inv x := by
    rcases x with ⟨_ | _ | k, a⟩ <;> simp

/-- A log-linear model of a table, with one constraint and one penalty. -/
noncomputable def tableModel (s t : Nat) (x w : Nat → Nat → ℝ) (reg : Nat) : MaxLikeT ℝ :=
  ⟨addModel, PoissonT.like (twoData s t x) (twoData s t w), PoissonT.gradLike (twoData s t x) (twoData s t w), PoissonT.hessLike (twoData s t x) (twoData s t w), twoData s t w,
    [⟨[0, 1], linearT [1, 1]⟩], [⟨[reg], quadraticT 0 1⟩]⟩

/-- Its log-likelihood. -/
noncomputable def tableLike (s t : Nat) (x w : Nat → Nat → ℝ) (θ : Theta) : ℝ :=
  Like.Poisson.like ((twoFactor s t).val (twoData s t x)) ((twoFactor s t).val (twoData s t w)) (valCell (twoFactor s t) (fun θ n _ => θ 0 (n 0) + θ 1 (n 1)) θ)

theorem table_solver {s t : Nat} (hs : s ≠ 0) (ht : t ≠ 0) (x w : Nat → Nat → ℝ) {reg : Nat} (hr : reg < 2) {T : ℝ} (hT : T ≠ 0)
    (hw : ∑ i ∈ Finset.range s, ∑ j ∈ Finset.range t, w i j = T) :
    Solver (twoFactor s t) 2 (fun _ => True) (tableModel s t x w reg) (tableLike s t x w) [linCon (twoFactor s t) [0, 1] [1, 1]] [quadPen (twoFactor s t) [reg] 0 1] T := by
  have hpr : (twoFactor s t).Ok := ⟨by simp [twoFactor], fun k _ => by simp only [twoFactor]; split_ifs <;> assumption⟩
  have hsum : ∑ c, (twoFactor s t).val (twoData s t w) c = T := by
    rw [← hw, ← two_sum]
    simp only [two_data_val]
  rw [← hsum]
  exact C68_solver_poisson hpr (two_isData s t x) (two_isData s t w) (by omega) (add_computes hs ht) rfl trivial (fun _ _ => trivial) (by rw [hsum]; exact hT)
    (.cons (C67_linear (by simp) (by simp) (by simp) (by simp)) .nil) (.cons (C67_quadratic (by intro p hp; rw [List.mem_singleton.1 hp]; exact hr) (by simp) one_ne_zero) .nil)

theorem table_penalised (s t : Nat) (x w : Nat → Nat → ℝ) (reg : Nat) (θ : Theta) : penalised (tableLike s t x w) [quadPen (twoFactor s t) [reg] 0 1] θ =
    (∑ i ∈ Finset.range s, ∑ j ∈ Finset.range t, (x i j * (θ 0 i + θ 1 j) - w i j * Real.exp (θ 0 i + θ 1 j) - Like.gammaln (x i j + 1))) -
      ∑ i ∈ Finset.range (if reg = 0 then s else t), (θ reg i) ^ 2 := by
  unfold penalised
  congr 1
  · rw [← two_sum s t fun i j => x i j * (θ 0 i + θ 1 j) - w i j * Real.exp (θ 0 i + θ 1 j) - Like.gammaln (x i j + 1)]
    unfold tableLike Like.Poisson.like
    refine Finset.sum_congr rfl fun c _ => ?_
    rw [two_data_val, two_data_val]
    rfl
  · simp [quadPen, Problem.sizes, twoFactor]

theorem sum_perm {s : Nat} {π : Equiv.Perm Nat} (hπ : ∀ a, π a < s ↔ a < s) (F : Nat → ℝ) : ∑ i ∈ Finset.range s, F (π i) = ∑ i ∈ Finset.range s, F i :=
  Finset.sum_bij (fun i _ => π i) (fun i hi => Finset.mem_range.2 ((hπ i).2 (Finset.mem_range.1 hi))) (fun _ _ _ _ h => π.injective h)
    (fun i hi => ⟨π.symm i, Finset.mem_range.2 ((hπ _).1 (by rw [π.apply_symm_apply]; exact Finset.mem_range.1 hi)), π.apply_symm_apply i⟩) fun _ _ => rfl

/-- **C79.** Rows and columns of a table exchanged, and the rows listed in another order `π`: the fits of the two tables take the same course, and the estimate of row `i` of
the second one is that of row `π i` of the first. -/
theorem C79_example_transposed {s t : Nat} (hs : s ≠ 0) (ht : t ≠ 0) (x w : Nat → Nat → ℝ) (hT : ∑ i ∈ Finset.range s, ∑ j ∈ Finset.range t, w i j ≠ 0) (π : Equiv.Perm Nat)
    (hπ : ∀ a, π a < s ↔ a < s) (pinvh : List (List ℝ) → Except Err (List (List ℝ))) (tol : ℝ) (f g : Nat → ℝ) (maxSteps verbose : Nat) :
    ∀ r r',
      r = Fit.fit ((tableModel s t x w 0).env pinvh tol)
        ⟨[⟨[s], (List.range s).map f, List.replicate s false⟩, ⟨[t], (List.range t).map g, List.replicate t false⟩], none, false⟩ maxSteps verbose .newton →
      r' = Fit.fit ((tableModel t s (fun j i => x (π i) j) (fun j i => w (π i) j) 1).env pinvh tol)
        ⟨[⟨[t], (List.range t).map g, List.replicate t false⟩, ⟨[s], (List.range s).map fun i => f (π i), List.replicate s false⟩], none, false⟩ maxSteps verbose .newton →
      r'.outcome = r.outcome ∧ ∃ θ : Theta, AtPoint (twoFactor s t) 2 θ r.obj.params ∧
        AtPoint (twoFactor t s) 2 (fun i a => if i = 0 then θ 1 a else if i = 1 then θ 0 (π a) else θ i a) r'.obj.params := by
  have hat : ∀ {s t : Nat} (f g : Nat → ℝ) (θ : Theta), (∀ a, θ 0 a = f a) → (∀ a, θ 1 a = g a) → AtPoint (twoFactor s t) 2 θ
      [⟨[s], (List.range s).map f, List.replicate s false⟩, ⟨[t], (List.range t).map g, List.replicate t false⟩] := by
    intro s t f g θ hf hg
    refine ⟨rfl, fun p hp => ?_⟩
    have : p = 0 ∨ p = 1 := by omega
    rcases this with rfl | rfl
    · exact ⟨_, rfl, rfl, by simp, by simp, fun a ha => by
        have ha : a < s := by simpa [Problem.sizes, twoFactor] using ha
        rw [hf]; simp [List.getD_eq_getElem?_getD, ha]⟩
    · exact ⟨_, rfl, rfl, by simp, by simp, fun a ha => by
        have ha : a < t := by simpa [Problem.sizes, twoFactor] using ha
        rw [hg]; simp [List.getD_eq_getElem?_getD, ha]⟩
  have hpull : ∀ θ : Theta, pull (turn π) θ = fun i a => if i = 0 then θ 1 a else if i = 1 then θ 0 (π a) else θ i a := by
    intro θ
    funext i a
    rcases i with _ | _ | k <;> simp [pull, turn]
  have hfr : ∀ (s t : Nat) (f g : List ℝ) (k a : Nat), isFree [⟨[s], f, List.replicate s false⟩, ⟨[t], g, List.replicate t false⟩] k a ↔ k = 0 ∧ a < s ∨ k = 1 ∧ a < t := by
    intro s t f g k a
    rcases k with _ | _ | k <;> simp [isFree, List.getElem?_replicate]
  intro r r' hr hr'
  have hS' := table_solver (reg := 1) ht hs (fun j i => x (π i) j) (fun j i => w (π i) j) (by omega) hT (by
    rw [Finset.sum_comm]
    exact sum_perm hπ fun i => ∑ j ∈ Finset.range t, w i j)
  have hsame : SameProblem (turn π) (twoFactor s t) 2 (penalised (tableLike s t x w) [quadPen (twoFactor s t) [0] 0 1]) [linCon (twoFactor s t) [0, 1] [1, 1]] (twoFactor t s) 2
      (penalised (tableLike t s (fun j i => x (π i) j) (fun j i => w (π i) j)) [quadPen (twoFactor t s) [1] 0 1]) [linCon (twoFactor t s) [0, 1] [1, 1]] := by
    refine ⟨fun x => ?_, fun θ => ?_, .cons (fun θ => ?_) .nil⟩
    · rcases x with ⟨_ | _ | k, a⟩ <;> simp [turn, Problem.HasEntry, Problem.sizes, twoFactor, hπ]
    · rw [table_penalised, table_penalised, hpull]
      dsimp only
      simp only [if_true, if_false, one_ne_zero]
      rw [sum_perm hπ (fun i => (θ 0 i) ^ 2), Finset.sum_comm,
        sum_perm hπ (fun i => ∑ j ∈ Finset.range t, (x i j * (θ 1 j + θ 0 i) - w i j * Real.exp (θ 1 j + θ 0 i) - Like.gammaln (x i j + 1)))]
      simp only [add_comm (θ 1 _) (θ 0 _)]
    · rw [hpull]
      simp [linCon, Problem.sizes, twoFactor, Finset.sum_range_succ]
      rw [sum_perm hπ (fun i => θ 0 i), add_comm]
  have hsm : ∀ θ, Smooth2 (penalised (tableLike s t x w) [quadPen (twoFactor s t) [0] 0 1]) θ := by
    intro θ
    refine smooth_penalised ?_ fun φ hφ => ?_
    · refine C69_smooth_poisson _ _ fun c => ?_
      exact (Smooth2.entry _ _ _).add (Smooth2.entry _ _ _)
    · rw [List.mem_singleton.1 hφ]
      exact smooth_quadPen _ _ _ _
  have hst : SamePoint (turn π) (twoFactor s t) 2 (twoFactor t s) 2 [⟨[s], (List.range s).map f, List.replicate s false⟩, ⟨[t], (List.range t).map g, List.replicate t false⟩]
      [⟨[t], (List.range t).map g, List.replicate t false⟩, ⟨[s], (List.range s).map fun i => f (π i), List.replicate s false⟩] := by
    refine ⟨fun i a => if i = 0 then f a else g a, hat f g _ (fun a => rfl) (fun a => rfl), hat g (fun i => f (π i)) _ (fun a => ?_) fun a => ?_⟩ <;> rw [hpull] <;> rfl
  have hfree : SameFree (turn π) [⟨[s], (List.range s).map f, List.replicate s false⟩, ⟨[t], (List.range t).map g, List.replicate t false⟩]
      [⟨[t], (List.range t).map g, List.replicate t false⟩, ⟨[s], (List.range s).map fun i => f (π i), List.replicate s false⟩] := by
    intro x
    rw [hfr, hfr]
    rcases x with ⟨_ | _ | k, a⟩ <;> simp [turn, hπ]
  obtain ⟨j1, -, -, -, θ', j2, j3⟩ := C79_fit (table_solver hs ht x w (by omega) hT rfl) hS' hsame hsm (o := ⟨_, none, false⟩) (o' := ⟨_, none, false⟩) hst hfree rfl
    (by simp [totalFree]; omega) maxSteps verbose r r' hr hr'
  exact ⟨j1, θ', j2, by rw [← hpull]; exact j3⟩

end Verif.Tens
