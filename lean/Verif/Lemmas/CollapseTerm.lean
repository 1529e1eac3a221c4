import Verif.Lemmas.Terms
import Verif.Lemmas.FuncTensor
import Verif.Model.TennisTensor
import Verif.Props.FitTensor

/-!
# `Collapse(f)` as a term of the objective
-/

set_option linter.unusedSectionVars false

namespace Verif.Tens
open Verif.Params
open NDArray

/-- Summing `Tensor(0)`. -/
theorem zero_sumAll {t : Tensor ℝ} (h : t.IsZero) : ∃ r, (Num.tensor t).sumAll = .ok (.tensor r) ∧ r.IsZero := by
  obtain ⟨d1, d2, d3, d4, d5, d6⟩ := h.dims
  obtain ⟨r, e1, e2, e3, e4, e5, e6, e7, e8, -, -, e10⟩ := C55_sum_all_partial h.1
    (by unfold Tensor.MapsInjective; rw [d5, d6]; simp) true
  have hnd : r.values.ndim = 0 := by
    rw [e2.nd, e3, e4, e5, e6, d1, d2]; simp
  refine ⟨r, ?_, e2, hnd, ?_⟩
  · unfold Num.sumAll Num.sum
    dsimp only
    rw [e1]
  · have := e10 ⟨fun _ => 0, fun _ => 0, fun _ => 0, fun _ => 0⟩ (fun k hk => absurd hk (by omega))
    rw [Tensor.dense_zero e2 hnd] at this
    rw [this]
    unfold Tensor.sumDense
    rw [d3, d4, if_pos rfl]
    exact h.dense _

theorem isZero_isGrad {pr : Problem} {e : Nat → Nat → Nat → Nat} {p : Nat} {r : Tensor ℝ} (h : r.IsZero) {F : Nat → ℝ}
    (hF : ∀ a, pr.Entry p (e p a) → F a = 0) : pr.IsGrad e p (.tensor r) F := by
  obtain ⟨d1, d2, d3, d4, d5, d6⟩ := h.dims
  refine ⟨r, rfl, h.1, Or.inl d1, d2, d4, d3, ⟨d5, d6, fun k hk => absurd hk (by omega)⟩, fun a i _ hE => ?_⟩
  rw [h.dense, hF a hE]

theorem isZero_isBlock {pr : Problem} {e : Nat → Nat → Nat → Nat} {p q : Nat} {r : Tensor ℝ} (h : r.IsZero) {F : Nat → Nat → ℝ}
    (hF : ∀ a b, pr.Entry p (e p a) → pr.Entry q (e q b) → F a b = 0) : pr.IsBlock e p q (.tensor r) F := by
  obtain ⟨d1, d2, d3, d4, d5, d6⟩ := h.dims
  refine ⟨r, rfl, h.1, Or.inl d1, Or.inl d2, d4, d3, ⟨d5, d6, fun k hk => absurd hk (by omega), fun k hk => absurd hk (by omega)⟩, fun a b i _ _ hE hE' => ?_⟩
  rw [h.dense, hF a b hE hE']

theorem solid_full {L : Layout} {v : Num ℝ} (h : Solid (fun _ => True) L v) (hc : v.Clean) :
    NumFull L v ∨ ∃ t, v = .tensor t ∧ t.IsZero := by
  cases v with
  | tensor t =>
    rcases h with h | ⟨h1, h2, h3⟩
    · exact Or.inr ⟨t, rfl, h⟩
    · exact Or.inl ⟨h1, h2, h3⟩
  | generic g =>
    refine Or.inl fun e he => ?_
    obtain ⟨t, e1, h1⟩ := h.2 e he
    obtain ⟨t', e2, h2⟩ := hc e he
    rw [e1] at e2
    cases e2
    obtain ⟨a, b, c⟩ := h1.resolve_left h2
    exact ⟨t, e1, a, b, c⟩

section
variable {pr0 : Problem} {pr : Problem} {p0 p q0 q : Nat} {e0 e : Nat → Nat → Nat → Nat}

theorem entry_sizes (hs : pr0.sizes p0 = pr.sizes p) (x : Nat → Nat) : pr0.Entry p0 x ↔ pr.Entry p x := by
  rw [entry_inList, entry_inList, hs]

theorem nd_sizes (hs : pr0.sizes p0 = pr.sizes p) : pr0.nd p0 = pr.nd p := by
  have := congrArg List.length hs
  simpa [Problem.sizes] using this

theorem P_sizes (hs : pr0.sizes p0 = pr.sizes p) {k : Nat} (hk : k < pr.nd p) : pr0.P p0 k = pr.P p k := by
  have := congrArg (fun l : List Nat => l.getD k 0) hs
  simpa [Problem.sizes, hk, nd_sizes hs] using this

theorem isGrad_sizes (hs : pr0.sizes p0 = pr.sizes p) (he : e0 p0 = e p) {v : Num ℝ} {F : Nat → ℝ} (h : pr0.IsGrad e0 p0 v F) : pr.IsGrad e p v F := by
  obtain ⟨r, h1, h2, h3, h4, h5, h6, ⟨h7, h8, h9⟩, h10⟩ := h
  have hn := nd_sizes hs
  refine ⟨r, h1, h2, by omega, h4, h5, h6, ⟨h7, h8, fun k hk => ?_⟩, fun a i hi hE => ?_⟩
  · rw [← P_sizes hs (by omega)]; exact h9 k hk
  · rw [← he] at hi hE
    exact h10 a i hi ((entry_sizes hs _).2 hE)

theorem isBlock_sizes (hs : pr0.sizes p0 = pr.sizes p) (hs' : pr0.sizes q0 = pr.sizes q) (he : e0 p0 = e p) (he' : e0 q0 = e q) {v : Num ℝ}
    {F : Nat → Nat → ℝ} (h : pr0.IsBlock e0 p0 q0 v F) : pr.IsBlock e p q v F := by
  obtain ⟨r, h1, h2, h3, h4, h5, h6, ⟨h7, h8, h9, h9'⟩, h10⟩ := h
  have hn := nd_sizes hs
  have hn' := nd_sizes hs'
  refine ⟨r, h1, h2, by omega, by omega, h5, h6, ⟨h7, h8, fun k hk => ?_, fun k hk => ?_⟩, fun a b i hi hi' hE hE' => ?_⟩
  · rw [← P_sizes hs (by omega)]; exact h9 k hk
  · rw [← P_sizes hs' (by omega)]; exact h9' k hk
  · rw [← he] at hi hE
    rw [← he'] at hi' hE'
    exact h10 a b i hi hi' ((entry_sizes hs _).2 hE) ((entry_sizes hs' _).2 hE')
end

theorem args_params {pr0 pr : Problem} {m0 m : Nat} {pm : List Nat} (hlen : pm.length = m0) (hs : ∀ k < m0, pr0.sizes k = pr.sizes (pm.getD k 0))
    {θ : Theta} {args : List (Tensor ℝ)} (h : (cOrder pr m).IsArgs θ pm args) : (cOrder pr0 m0).IsParams (θ.sub pm) args := by
  refine ⟨h.1.trans hlen, fun k hk => ?_⟩
  obtain ⟨v, h1, h2, h3, h4⟩ := h.2 k (by omega)
  have hs := hs k hk
  refine ⟨v, h1, by rw [h2, nd_sizes hs], fun j hj => ?_, fun a hE => ?_⟩
  · rw [h3 j (by rw [h2, ← nd_sizes hs]; exact hj), P_sizes hs (by rw [← nd_sizes hs]; exact hj)]
  · have e : (cOrder pr0 m0).e k a = (cOrder pr m).e (pm.getD k 0) a := by
      show unravel (pr0.sizes k) a = unravel (pr.sizes _) a
      rw [hs]
    rw [e] at hE ⊢
    rw [h4 a ((entry_sizes hs _).1 hE)]
    unfold Theta.sub
    rw [if_pos (by omega)]

theorem sumOver_ok {v w : Num ℝ} (h : v.sumAll = .ok w) : (Py.arr v).sumOver .all true = .ok (.arr w) := by
  show (v.sumAll).map Py.arr = _
  rw [h]
  rfl

theorem hasPartial_sum {ι : Type} [Fintype ι] {F : ι → Theta → ℝ} {θ : Theta} {p a : Nat} {d : ι → ℝ} (h : ∀ c, HasPartial (F c) θ p a (d c)) :
    HasPartial (fun θ => ∑ c, F c θ) θ p a (∑ c, d c) := by
  unfold HasPartial at h ⊢
  exact HasDerivAt.fun_sum fun c _ => h c

end Verif.Tens
