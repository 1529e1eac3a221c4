import Verif.Spec.Acts
import Verif.Lemmas.ComposeKit
import Verif.Props.FuncLeafTensor

/-!
# The elementary functions act on each position separately
-/

set_option linter.unusedSectionVars false

namespace Verif.Tens
open Verif.Params (Err)
open NDArray

/-- Derivatives with diagonal maps -/
theorem sheet_hessTensor {α : Type} [Field α] [DecidableEq α] {W : NDArray α} {R : Nat → Nat} {len : Nat} (x y : Nat) {d : Nat} (h1 : W.ndim = len) (h2 : ∀ j < len, W.shape j = R j)
    (hd : d ≤ len) : ∃ t, hessTensor W x y .diag .diag d = .ok t ∧ Sheet R x y len d (idMap x) (idMap y) t W.get := by
  have hl : List.replicate x MapArg.diag.isNone ++ List.replicate y MapArg.diag.isNone = List.replicate (x + y) false ++ [] := by
    simp [MapArg.isNone]
  obtain ⟨r, hr⟩ := newAxes_isOk (a := W) (l := List.replicate (x + y) false ++ []) (by simp [List.count_replicate])
  obtain ⟨r1, r2, r3, r4, r5, r6⟩ := newAxes_ok hr
  have hc : (List.replicate (x + y) false ++ []).count false = x + y := by simp
  have hp : ∀ j, posOf (List.replicate (x + y) false ++ []) j = x + y + j := fun j => by rw [posOf_false]; rfl
  rw [hc] at r1
  refine ⟨⟨r, x, y, d, idMap x, idMap y⟩, ?_, ⟨rfl, rfl, rfl, rfl, rfl, by show r.ndim = _; omega, hd, fun k hk => ?_, fun j hj => Or.inl ?_, fun idx hi => ?_⟩, fun j hj => ?_⟩
  · unfold hessTensor
    rw [hl, hr]
    show mkTensor r x y d _ _ = _
    unfold mkTensor
    rw [if_neg (by omega)]
    rfl
  · refine r3 k ?_
    rw [axisOf_false, if_pos hk]
  · have := r2 j (by omega)
    rw [hp] at this
    show r.shape _ = _
    rw [this, h2 j hj]
  · show r.bget idx = _
    rw [r5, ← get_eq_bget]
    · refine get_congr W fun j hj => ?_
      rw [hp, cut_of (by omega)]
    · intro j hj
      dsimp only
      rw [hp, h2 j (by omega)]
      exact hi j (by omega)
  · have := r2 j (by omega)
    rw [hp] at this
    show r.shape _ = _
    rw [this, h2 j hj]

theorem sheet_gradTensor {α : Type} [Field α] [DecidableEq α] {W : NDArray α} {R : Nat → Nat} {len : Nat} (x : Nat) {d : Nat} (h1 : W.ndim = len) (h2 : ∀ j < len, W.shape j = R j)
    (hd : d ≤ len) : ∃ t, gradTensor W x .diag d = .ok t ∧ Sheet R x 0 len d (idMap x) [] t W.get := by
  obtain ⟨t, t1, t2⟩ := sheet_hessTensor x 0 h1 h2 hd
  refine ⟨t, ?_, t2⟩
  rw [gradTensor_eq _ _ _ _ (by simp [MapArg.isNone]), ← t1]
  rfl

theorem sheet_value {α : Type} [Field α] [DecidableEq α] {W : NDArray α} {R : Nat → Nat} {len d : Nat} (h1 : W.ndim = len) (h2 : ∀ j < len, W.shape j = R j)
    (hd : d ≤ len) : ∃ t, mkTensor W 0 0 d [] [] = .ok t ∧ Sheet R 0 0 len d [] [] t W.get := by
  refine ⟨⟨W, 0, 0, d, [], []⟩, ?_, ⟨rfl, rfl, rfl, rfl, rfl, by simpa using h1, hd, fun k hk => by omega, fun j hj => Or.inl ?_, fun idx hi => ?_⟩, fun j hj => ?_⟩
  · unfold mkTensor
    rw [if_neg (by omega)]
  · show W.shape (0 + 0 + j) = _
    rw [show 0 + 0 + j = j by omega]; exact h2 j hj
  · show W.bget idx = _
    rw [← get_eq_bget]
    · refine get_congr W fun j hj => ?_
      rw [cut_of (by omega)]; congr 1; omega
    · intro j hj
      have := hi j (by omega)
      rw [show 0 + 0 + j = j by omega] at this
      rw [h2 j (by omega)]; exact this
  · show W.shape (0 + 0 + j) = _
    rw [show 0 + 0 + j = j by omega]; exact h2 j hj

/-- A function of one number -/
theorem curves_one {U : ℝ → Prop} {O : (Nat → Nat) → Prop} {φ φ1 φ2 : ℝ → (Nat → Nat) → ℝ} (h : OneFun U O φ φ1 φ2) :
    Curves 1 (fun u => U (u 0)) O (fun u o => φ (u 0) o) (fun u _ o => φ1 (u 0) o) fun u _ _ o => φ2 (u 0) o where
  h1 γ v t hγ hU o ho := by
    rw [Finset.sum_range_one]
    exact (h.h1 _ hU o ho).comp t (hγ 0 (by omega))
  h2 γ v t hγ hU o ho k hk := by
    rw [Finset.sum_range_one]
    exact (h.h2 _ hU o ho).comp t (hγ 0 (by omega))
  symm _ _ _ _ _ _ _ _ := rfl

theorem leaf_acts {f : TFunc ℝ} (he : ∀ ps, f.eval ps = f.sep ps) (hg : f.gradNull = false) (hh : f.hessNull = false) {δ : Nat} {T : Nat → Nat} {P : Nat → Nat → Prop}
    {U : ℝ → Prop} {φ φ1 φ2 : ℝ → (Nat → Nat) → ℝ} (hf : OneFun U (Outcome δ T) φ φ1 φ2) {V G H : NDArray ℝ → NDArray ℝ}
    (hc : ∀ v d, P v.ndim d → f.call [⟨v, 0, 0, d, [], []⟩] = ofArray (V v) (d + δ) ∧
      f.grad [⟨v, 0, 0, d, [], []⟩] 0 = ((gradTensor (G v) v.ndim .diag (d + δ)).map fun t => .arr (.tensor t)) ∧
      f.hess [⟨v, 0, 0, d, [], []⟩] 0 0 = ((hessTensor (H v) v.ndim v.ndim .diag .diag (d + δ)).map fun t => .arr (.tensor t)))
    (hR : ∀ (v : NDArray ℝ) (S : Nat → Nat), (∀ j < v.ndim, v.shape j = S j) → ∀ p ∈ [(V v, φ), (G v, φ1), (H v, φ2)], p.1.ndim = v.ndim + δ ∧
      (∀ j < v.ndim + δ, p.1.shape j = joinAt v.ndim S T j) ∧
      ∀ s, (∀ j < v.ndim + δ, s j < joinAt v.ndim S T j) → p.1.get s = p.2 (v.get s) fun j => s (v.ndim + j)) :
    Acts f 1 δ T P (fun u => U (u 0)) fun u o => φ (u 0) o := by
  refine ⟨hg, hh, _, _, curves_one hf, fun q d S v hq hdq hP hv hU => ?_⟩
  rw [he, and_self]
  obtain ⟨h1, h2⟩ := hv 0 (by omega)
  subst h1
  obtain ⟨c1, c2, c3⟩ := hc (v 0) d hP
  have hd : d + δ ≤ (v 0).ndim + δ := by omega
  have a1 := hR (v 0) S h2 (V (v 0), φ) (by simp)
  have a2 := hR (v 0) S h2 (G (v 0), φ1) (by simp)
  have a3 := hR (v 0) S h2 (H (v 0), φ2) (by simp)
  obtain ⟨tV, v1, v2⟩ := sheet_value a1.1 a1.2.1 hd
  obtain ⟨tG, g1, g2⟩ := sheet_gradTensor (v 0).ndim a2.1 a2.2.1 hd
  obtain ⟨tH, k1, k2⟩ := sheet_hessTensor (v 0).ndim (v 0).ndim a3.1 a3.2.1 hd
  refine ⟨tV, fun _ => tG, fun _ _ => tH, (sep_iff (m := 1) rfl).2 ⟨?_, fun p hp => ?_, fun p hp q hq => ?_⟩, v2.congr fun s hs _ => a1.2.2 s hs,
    fun _ _ => g2.congr fun s hs _ => a2.2.2 s hs, fun _ _ _ _ => k2.congr fun s hs _ => a3.2.2 s hs⟩
  · show f.call [_] = _
    rw [c1]
    unfold ofArray
    rw [v1]; rfl
  · have : p = 0 := by omega
    subst this
    show f.grad [_] 0 = _
    rw [c2, g1]; rfl
  · have : p = 0 := by omega
    subst this
    have : q = 0 := by omega
    subst this
    show f.hess [_] 0 0 = _
    rw [c3, k1]; rfl

theorem entry_acts {U : ℝ → Prop} {φ φ1 φ2 : ℝ → ℝ} (h1 : ∀ u, U u → HasDerivAt φ (φ1 u) u) (h2 : ∀ u, U u → HasDerivAt φ1 (φ2 u) u) (T : Nat → Nat) (P : Nat → Nat → Prop) :
    Acts (entryT φ φ1 φ2) 1 0 T P (fun u => U (u 0)) fun u _ => φ (u 0) := by
  refine leaf_acts (fun _ => rfl) rfl rfl (φ := fun u _ => φ u) (φ1 := fun u _ => φ1 u) (φ2 := fun u _ => φ2 u) (V := fun v => v.map φ) (G := fun v => v.map φ1)
    (H := fun v => v.map φ2) ⟨fun u hu _ _ => h1 u hu, fun u hu _ _ => h2 u hu⟩ (fun v d _ => ⟨rfl, rfl, rfl⟩) fun v S hv p hp => ?_
  have key : ∀ φ : ℝ → ℝ, (v.map φ).ndim = v.ndim + 0 ∧ (∀ j < v.ndim + 0, (v.map φ).shape j = joinAt v.ndim S T j) ∧
      ∀ s, (∀ j < v.ndim + 0, s j < joinAt v.ndim S T j) → (v.map φ).get s = φ (v.get s) := by
    intro φ
    refine ⟨rfl, fun j hj => ?_, fun s _ => map_get _ _ _⟩
    rw [joinAt_lt (by omega)]
    exact hv j (by omega)
  simp only [List.mem_cons, List.not_mem_nil, or_false] at hp
  rcases hp with rfl | rfl | rfl
  · exact key φ
  · exact key φ1
  · exact key φ2

theorem row_acts {size : Nat} {U : ℝ → Prop} {row row1 row2 : ℝ → List ℝ} (h1 : ∀ u, U u → ∀ k < size, HasDerivAt (fun t => (row t).getD k 0) ((row1 u).getD k 0) u)
    (h2 : ∀ u, U u → ∀ k < size, HasDerivAt (fun t => (row1 t).getD k 0) ((row2 u).getD k 0) u) :
    Acts (rowT row row1 row2 size) 1 1 (fun _ => size) (fun _ d => d = 0) (fun u => U (u 0)) fun u o => (row (u 0)).getD (o 0) 0 := by
  refine leaf_acts (fun _ => rfl) rfl rfl (φ := fun u o => (row u).getD (o 0) 0) (φ1 := fun u o => (row1 u).getD (o 0) 0) (φ2 := fun u o => (row2 u).getD (o 0) 0)
    (V := addAxis row size) (G := addAxis row1 size)
    (H := addAxis row2 size) ⟨fun u hu o ho => h1 u hu _ (ho.1 0 (by omega)), fun u hu o ho => h2 u hu _ (ho.1 0 (by omega))⟩ (fun v d hd => ?_) fun v S hv p hp => ?_
  · subst hd; exact ⟨rfl, rfl, rfl⟩
  have key : ∀ row : ℝ → List ℝ, (addAxis row size v).ndim = v.ndim + 1 ∧ (∀ j < v.ndim + 1, (addAxis row size v).shape j = joinAt v.ndim S (fun _ => size) j) ∧
      ∀ s, (∀ j < v.ndim + 1, s j < joinAt v.ndim S (fun _ => size) j) → (addAxis row size v).get s = (row (v.get s)).getD (s (v.ndim + 0)) 0 := by
    intro row
    refine ⟨rfl, fun j hj => ?_, fun s _ => ?_⟩
    · show (if j < v.ndim then v.shape j else size) = _
      unfold joinAt
      split_ifs with hc
      · exact hv j hc
      · rfl
    · show (row (v.get fun k => if k < v.ndim + 1 then s k else 0)).getD (if v.ndim < v.ndim + 1 then s v.ndim else 0) 0 = _
      rw [if_pos (by omega)]
      congr 2
      exact get_congr v fun k hk => if_pos (by omega)
  simp only [List.mem_cons, List.not_mem_nil, or_false] at hp
  rcases hp with rfl | rfl | rfl
  · exact key row
  · exact key row1
  · exact key row2

end Verif.Tens
