import Verif.Spec.SessionLike
import Verif.Props.Session

/-!
# C74: the problem of a session, class by class
-/

namespace Verif.Tens
open Verif.Params

set_option linter.unusedSectionVars false

section
variable {pr : Problem} {m : Nat} {dom : Theta → Prop} {gs : List Con} {φs : List Pen}

/-- **C74.** What the next `fit` maximises after the calls `ops`: the log-likelihood of the class at the data given last under the names that the class reads, with the model
assigned last, minus the penalties added, under the constraints added; the average is over the total weight `N`.  (`Solver` is the hypothesis of C68, C69, C70 and C71.) -/
theorem C74_problem (hpr : pr.Ok) (k : Kind) (hk : k.Ok) (ops : List SessionOp) (x : Name → NDArray ℝ)
    (hx : ∀ n ∈ k.reads, lastData ops n = some (x n) ∧ pr.IsData (.tensor ⟨x n, 0, 0, k.axes, [], []⟩))
    {f : TFunc ℝ} (hmod : lastModel ops = some f) {st : Store} {val : Val} (hm : 0 < m) {outcomes : Nat → Prop} (hf : Computes pr (cOrder pr m) outcomes st dom f val)
    (hout : k.SumsOutcomes → ∀ q, pr.n ≤ q → outcomes q)
    (hone : f.gradOne = false) (ht : st.tot) (hu : ∀ p < m, st.used p) (hc : k.SumsOutcomes → st.clean)
    (hpos : k.IsProbability → ∀ θ, dom θ → ∀ n d, pr.Pos n d → 0 < val θ n d)
    (hT : ∑ c, pr.val (.tensor ⟨x .N, 0, 0, k.axes, [], []⟩) c ≠ 0)
    (hcs : List.Forall₂ (fun t g => IsConstraint (cOrder pr m) t g.val g.der) (constraintsOf ops) gs)
    (hrs : List.Forall₂ (fun t φ => IsPenalty (cOrder pr m) t φ.val φ.der φ.hes) (regularizationsOf ops) φs) :
    Solver pr m dom (problemOf k ops) (fun θ => k.logLike (fun n => pr.val (.tensor ⟨x n, 0, 0, k.axes, [], []⟩)) (valCell pr val θ)) gs φs
      (∑ c, pr.val (.tensor ⟨x .N, 0, 0, k.axes, [], []⟩) c) := by
  have hN : lastData ops .N = some (x .N) ∧ pr.IsData (.tensor ⟨x .N, 0, 0, k.axes, [], []⟩) := hx .N (by cases k <;> simp [Kind.reads])
  unfold problemOf Session.problem
  cases k with
  | poisson =>
    have hX := hx .X (by simp [Kind.reads])
    dsimp only
    rw [hN.1, hX.1, hmod]
    exact C68_solver_poisson hpr hX.2 hN.2 hm hf hone ht hu hT hcs hrs
  | zeroInflatedPoisson s =>
    have hX := hx .X (by simp [Kind.reads])
    have hZ := hx .Z (by simp [Kind.reads])
    dsimp only
    rw [hN.1, hX.1, hZ.1, hmod]
    exact C68_solver_zeroInflatedPoisson hpr s hk hX.2 hN.2 hZ.2 hm hf hone ht hu hT hcs hrs
  | logistic =>
    have hX := hx .X (by simp [Kind.reads])
    dsimp only
    rw [hN.1, hX.1, hmod]
    exact C68_solver_logistic hpr hX.2 hN.2 hm hf hone ht hu hT hcs hrs
  | negativeBinomial r =>
    have hX := hx .X (by simp [Kind.reads])
    dsimp only
    rw [hN.1, hX.1, hmod]
    exact C68_solver_negativeBinomial hpr r hk hX.2 hN.2 hm hf hone ht hu hT hcs hrs
  | normalizedFinite d =>
    dsimp only
    rw [hN.1, hmod]
    exact C68_solver_normalizedFinite hpr hN.2 hm hf hone ht hu (hpos trivial) hT hcs hrs
  | finite d =>
    dsimp only
    rw [hN.1, hmod]
    exact C68_solver_finite hpr hN.2 hm hf hone ht (hc trivial) hu (hpos trivial) hT hcs hrs (hout trivial)

end

end Verif.Tens
