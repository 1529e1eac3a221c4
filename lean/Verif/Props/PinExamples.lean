import Verif.Props.PinErrors
import Verif.Props.ReparamExamples
import Verif.Props.Terms

/-!
# C85: test_poisson under the hypothesis `h = c`
-/

set_option linter.unusedSectionVars false

namespace Verif.Tens
open Verif.Params

/-- The parameters `a`, `b` and `h` with the values `θ`; `h` is fixed. -/
noncomputable def threeParamsFixed (s t : Nat) (θ : Theta) : List (Param ℝ) :=
  [⟨[s], (List.range s).map (θ 0), List.replicate s false⟩, ⟨[t], (List.range t).map (θ 1), List.replicate t false⟩, ⟨[], [θ 2 0], [true]⟩]

/-- The constraint `h = c`. -/
noncomputable def hCon (s t u : Nat) (c : ℝ) : Con := ⟨fun θ => (linCon (threeFactor s t u) [2] [1]).val θ - c, (linCon (threeFactor s t u) [2] [1]).der⟩

section
variable {s t u : Nat} {vector : NDArray ℝ}

theorem threeParamsFixed_at (s t u : Nat) (θ : Theta) : AtPoint (threeFactor s t u) 3 θ (threeParamsFixed s t θ) := by
  refine ⟨rfl, fun p hp => ?_⟩
  obtain rfl | rfl | rfl : p = 0 ∨ p = 1 ∨ p = 2 := by omega
  · exact ⟨_, rfl, by simp [Problem.sizes, threeFactor], by simp, by simp, fun a ha => by simp at ha; simp [List.getD_eq_getElem?_getD, ha]⟩
  · exact ⟨_, rfl, by simp [Problem.sizes, threeFactor], by simp, by simp, fun a ha => by simp at ha; simp [List.getD_eq_getElem?_getD, ha]⟩
  · exact ⟨_, rfl, by simp [Problem.sizes, threeFactor], by simp, by simp, fun a ha => by simp at ha; simp [ha]⟩

theorem threeParamsFixed_free (θ : Theta) (i a : Nat) : isFree (threeParamsFixed s t θ) i a ↔ (i = 0 ∧ a < s) ∨ (i = 1 ∧ a < t) := by
  unfold isFree threeParamsFixed
  rcases i with _ | _ | _ | i
  · simp [List.getElem?_replicate]
  · simp [List.getElem?_replicate]
  · simp only [List.getElem?_cons_succ, List.getElem?_cons_zero, Option.some.injEq, exists_eq_left']
    rcases a with _ | a <;> simp
  · simp

theorem threeParamsFixed_released (s t u : Nat) (θ : Theta) : Released [(2, 0)] (threeParamsFixed s t θ) (threeParams s t θ) := by
  obtain ⟨-, hat, -, hall, -⟩ := C83_example_start s t u θ 0 0 1 one_ne_zero
  refine ⟨by simp, fun x hx => ?_, fun i a => ?_⟩
  · obtain rfl := List.mem_singleton.1 hx
    exact ⟨_, rfl, rfl⟩
  · rw [allFree_iff hat hall, threeParamsFixed_free, List.mem_singleton, Prod.mk.injEq, or_assoc]

variable {X Nw : Num ℝ} {M M' : MaxLikeT ℝ} {θ : Theta}

/-- **C85.** test_poisson (tests.py:23-60) with the scalar parameter `h` fixed at `c`, or free with the constraint `Linear([1]) - c`: the fits do the same, with the same estimates, and `std_error()` is the
same for `a` and `b`, and 0 for the constrained `h`. -/
theorem C85_example_poisson (hs : s ≠ 0) (ht : t ≠ 0) (hu : u ≠ 0) (h1 : vector.ndim = 1) (h2 : vector.shape 0 = u)
    (hX : (threeFactor s t u).IsData X) (hN : (threeFactor s t u).IsData Nw) (hT : ∑ q, (threeFactor s t u).val Nw q ≠ 0)
    (pinvh : List (List ℝ) → Except Err (List (List ℝ))) (tol : ℝ) {o o' : Fit.Obj ℝ (List (List ℝ))} (ho : o.params = threeParamsFixed s t θ) (ho' : o'.params = threeParams s t θ)
    (hcv : o'.converged = o.converged) (maxSteps verbose : Nat)
    (hM : M = ⟨fooModel vector, PoissonT.like X Nw, PoissonT.gradLike X Nw, PoissonT.hessLike X Nw, Nw, [⟨[0, 1], linearT [1, 1]⟩], []⟩)
    (hM' : M' = ⟨fooModel vector, PoissonT.like X Nw, PoissonT.gradLike X Nw, PoissonT.hessLike X Nw, Nw, [⟨[0, 1], linearT [1, 1]⟩, ⟨[2], affineT (linearT [1]) 1 (-(θ 2 0))⟩], []⟩) :
    ∀ r r', r = Fit.fit (M.env pinvh tol) o maxSteps verbose .newton → r' = Fit.fit (M'.env pinvh tol) o' maxSteps verbose .newton →
      r'.outcome = r.outcome ∧ r'.prints = r.prints ∧ (∃ θ', AtPoint (threeFactor s t u) 3 θ' r.obj.params ∧ AtPoint (threeFactor s t u) 3 θ' r'.obj.params) ∧
        ∀ v, r.outcome = .ok v → ∀ nan, ∃ J J' rs rs', r.obj.flatHess = some J ∧ r'.obj.flatHess = some J' ∧ stdErrorT M r.obj.params J nan = .ok rs ∧
          stdErrorT M' r'.obj.params J' nan = .ok rs' ∧ (∀ a < s, entry rs' 0 a = entry rs 0 a) ∧ (∀ a < t, entry rs' 1 a = entry rs 1 a) ∧ entry rs' 2 0 = some 0 := by
  obtain ⟨-, hat', -, -, -⟩ := C83_example_start s t u θ 0 0 1 one_ne_zero
  have hat := threeParamsFixed_at s t u θ
  have hre := threeParamsFixed_released s t u θ
  have hfr := threeParamsFixed_free (s := s) (t := t) θ
  rw [← ho] at hat hre hfr
  rw [← ho'] at hat' hre
  have hcs : List.Forall₂ (fun f g => IsConstraint (cOrder (threeFactor s t u) 3) f g.val g.der) [⟨[0, 1], linearT [1, 1]⟩, ⟨[2], affineT (linearT [1]) 1 (-(θ 2 0))⟩]
      ([linCon (threeFactor s t u) [0, 1] [1, 1]] ++ [hCon s t u (θ 2 0)]) :=
    .cons (C67_linear (by simp) (by simp) (by simp) (by simp)) (.cons (C67_linear_value (by simp) (by simp) (by simp) (by simp) _) .nil)
  have hS' : Solver (threeFactor s t u) 3 (fun _ => True) M' (fun θ => Like.Poisson.like ((threeFactor s t u).val X) ((threeFactor s t u).val Nw)
      (valCell (threeFactor s t u) (fun θ n _ => fooVal vector θ n) θ)) ([linCon (threeFactor s t u) [0, 1] [1, 1]] ++ [hCon s t u (θ 2 0)]) [] (∑ q, (threeFactor s t u).val Nw q) := by
    rw [hM']
    exact C68_solver_poisson (threeFactor_ok hs ht hu) hX hN (by omega) (foo_computes hs ht hu h1 h2) rfl trivial (fun _ _ => trivial) hT hcs .nil
  have hS := C68_example_poisson hs ht hu h1 h2 hX hN hT
  rw [← hM] at hS
  have hc : Constrained (threeFactor s t u) 3 M _ _ _ M' _ _ _ _ := ⟨hS, hS', fun θ => rfl, fun θ =>
    smoothAt_penalised (smoothAt_poisson _ _ fun q => ((SmoothAt.entry _ _ _).sub (SmoothAt.entry _ _ _)).add ((SmoothAt.entry _ _ _).mul (SmoothAt.const _ _)))
      fun φ hφ => absurd hφ List.not_mem_nil⟩
  have hpin : List.Forall₂ (fun x g => Pins x (θ x.1 x.2) g) [(2, 0)] [hCon s t u (θ 2 0)] :=
    .cons ⟨1, one_ne_zero, fun θ' => by simp [hCon, linCon, Problem.sizes, threeFactor]⟩ .nil
  have hF : 1 ≤ totalFree o.params := by
    have := rank_lt ((hfr 0 0).2 (by omega))
    omega
  intro r r' hr hr'
  obtain ⟨j1, j2, -, -, j5, -⟩ := C85_fit (pinvh := pinvh) (tol := tol) hc hat hat' hre hpin hcv hF maxSteps verbose r r' hr hr'
  refine ⟨j1, j2, j5, fun v hv nan => ?_⟩
  obtain ⟨J, J', k3, k4, k5⟩ := C85_errors (pinvh := pinvh) (tol := tol) hc hat hat' hre hpin hcv hF maxSteps verbose r r' hr hr' v hv
  obtain ⟨E, bs, bs', -, -, -, -, k6, k7⟩ := k5 nan
  obtain ⟨rs, l1, l2⟩ := k6 (by simp)
  obtain ⟨rs', l3, l4, l5⟩ := k7 (by simp)
  refine ⟨J, J', rs, rs', k3, k4, l1, l3, fun a ha => ?_, fun a ha => ?_, l4 (2, 0) (by simp)⟩
  · rw [l2 0 a ((hfr 0 a).2 (by omega)), l5 0 a ((hfr 0 a).2 (by omega))]
  · rw [l2 1 a ((hfr 1 a).2 (by omega)), l5 1 a ((hfr 1 a).2 (by omega))]

end

end Verif.Tens
