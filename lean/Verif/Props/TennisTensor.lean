import Verif.Lemmas.Tennis
import Verif.Lemmas.Cells
import Verif.Props.Tennis
import Verif.Props.FlatTensor
import Verif.Props.FuncComposeTensor

/-!
# C33, C65: `Game`, `TieBreak`, `Set` and `Collapse` on Tensors
-/

set_option linter.unusedSectionVars false

namespace Verif.Tens
open Verif.Params (Err)
open NDArray
open Verif.Func (gameVals gameGrad gameHess tieVals tieGrad tieHess setVals setGrad setHess setPoly setGradP setHessPP expit)

theorem givesEntries_iff {r δ q d : Nat} {T S : Nat → Nat} {v : Nat → NDArray ℝ} {F : (Nat → ℝ) → (Nat → Nat) → ℝ} {F1 : (Nat → ℝ) → Nat → (Nat → Nat) → ℝ}
    {F2 : (Nat → ℝ) → Nat → Nat → (Nat → Nat) → ℝ} {x : Except Err (Ev3 ℝ)} : GivesEntries r δ T q d S v F F1 F2 x ↔ GivesSheets r q (q + δ) (d + δ) (joinAt q S T) (fun s => F (entriesAt r v s) fun j => s (q + j))
      (fun k s => F1 (entriesAt r v s) k fun j => s (q + j)) (fun k l s => F2 (entriesAt r v s) k l fun j => s (q + j)) x := Iff.rfl

theorem GivesSheets.sizes {m q len dd : Nat} {R R' : Nat → Nat} {A : (Nat → Nat) → ℝ} {B : Nat → (Nat → Nat) → ℝ} {C : Nat → Nat → (Nat → Nat) → ℝ} {x : Except Err (Ev3 ℝ)}
    (h : GivesSheets m q len dd R A B C x) (hR : ∀ j < len, R' j = R j) : GivesSheets m q len dd R' A B C x := by
  obtain ⟨V, D, H, h1, h2, h3, h4⟩ := h
  exact ⟨V, D, H, h1, h2.sizes hR, fun k hk => (h3 k hk).sizes hR, fun k hk l hl => (h4 k hk l hl).sizes hR⟩

/-! ### `Collapse` -/

/-- The positions that the sum visits. -/
theorem extend_outcome {δ : Nat} {T : Nat → Nat} (c : ∀ k : Fin δ, Fin (T k)) : Outcome δ T (extend δ T c fun _ => 0) := by
  refine ⟨fun j hj => ?_, fun j hj => ?_⟩
  · unfold extend
    rw [dif_pos hj]; exact (c ⟨j, hj⟩).2
  · exact dif_neg (by omega)

theorem hasDerivAt_sumOutcome {δ : Nat} {T : Nat → Nat} {f : ℝ → (Nat → Nat) → ℝ} {f' : (Nat → Nat) → ℝ} {t : ℝ} (h : ∀ o, Outcome δ T o → HasDerivAt (fun s => f s o) (f' o) t) :
    HasDerivAt (fun s => sumOutcome δ T (f s)) (sumOutcome δ T f') t := by
  unfold sumOutcome
  simp only [sumAt_range]
  exact HasDerivAt.fun_sum fun c _ => h _ (extend_outcome c)

theorem sumOutcome_congr {δ : Nat} {T : Nat → Nat} {f g : (Nat → Nat) → ℝ} (h : ∀ o, Outcome δ T o → f o = g o) : sumOutcome δ T f = sumOutcome δ T g := by
  unfold sumOutcome
  simp only [sumAt_range]
  exact Finset.sum_congr rfl fun c _ => h _ (extend_outcome c)

theorem sumOutcome_linear {δ r : Nat} {T : Nat → Nat} {f : Nat → (Nat → Nat) → ℝ} {v : Nat → ℝ} :
    sumOutcome δ T (fun o => ∑ k ∈ Finset.range r, f k o * v k) = ∑ k ∈ Finset.range r, sumOutcome δ T (f k) * v k := by
  unfold sumOutcome
  simp only [sumAt_range]
  rw [Finset.sum_comm]
  simp only [Finset.sum_mul]

/-- **C65.** `Collapse(f, False)`, where `f` acts on each position separately, acts on each position separately: its values are the sums of those of `f` over the outcomes,
if it is called with arrays without `dim` axes. -/
theorem C65_Collapse_partial {f : TFunc ℝ} {r δ : Nat} {T : Nat → Nat} {P : Nat → Nat → Prop} {U : (Nat → ℝ) → Prop} {F : (Nat → ℝ) → (Nat → Nat) → ℝ} (hf : Acts f r δ T P U F) (T' : Nat → Nat) :
    Acts (collapseT f .none true) r 0 T' (fun q d => d = 0 ∧ P q d) U fun u _ => sumOutcome δ T (F u) := by
  obtain ⟨-, -, F1, F2, cF, hf⟩ := hf
  refine ⟨rfl, rfl, fun u k _ => sumOutcome δ T (F1 u k), fun u k l _ => sumOutcome δ T (F2 u k l), ⟨fun γ v t hγ hU o _ => ?_, fun γ v t hγ hU o _ k hk => ?_, fun u hU o _ k hk l hl => ?_⟩,
    fun q d S v hq hdq ⟨hd, hP⟩ hv hU => ?_⟩
  · rw [← sumOutcome_linear]
    exact hasDerivAt_sumOutcome fun o ho => cF.h1 γ v t hγ hU o ho
  · rw [← sumOutcome_linear]
    exact hasDerivAt_sumOutcome fun o ho => cF.h2 γ v t hγ hU o ho k hk
  · exact sumOutcome_congr fun o ho => cF.symm u hU o ho k hk l hl
  subst hd
  have h := hf q 0 S v hq hdq hP hv hU
  rw [givesEntries_iff, givesEntries_iff, Nat.zero_add] at h
  have hps : (row r fun k => (⟨v k, 0, 0, 0, [], []⟩ : Tensor ℝ)).length = r := by simp [row]
  have h' := collapse_sheets hps h
  have hnd : ∀ k < r, (v k).ndim = q := fun k hk => (hv k hk).1
  have e : ∀ (Φ : (Nat → ℝ) → (Nat → Nat) → ℝ) (s : Nat → Nat), sumAt (fun k => joinAt q S T (q + k)) (List.range δ) (fun o => Φ (entriesAt r v (joinAt q s o)) fun j => joinAt q s o (q + j)) (fun _ => 0) =
      sumOutcome δ T (Φ (entriesAt r v s)) := by
    intro Φ s
    unfold sumOutcome
    have e1 : (fun k => joinAt q S T (q + k)) = T := by funext k; exact joinAt_ge
    rw [e1]
    congr 1
    funext o
    rw [entriesAt_congr hnd (s' := s) fun j hj => joinAt_lt hj]
    congr 1
    funext j
    exact joinAt_ge
  have key : ∀ {x : Except Err (Ev3 ℝ)}, GivesSheets r q q 0 (joinAt q S T) (fun s => sumAt (fun k => joinAt q S T (q + k)) (List.range δ) (fun o => F (entriesAt r v (joinAt q s o)) fun j => joinAt q s o (q + j)) fun _ => 0)
      (fun k s => sumAt (fun k => joinAt q S T (q + k)) (List.range δ) (fun o => F1 (entriesAt r v (joinAt q s o)) k fun j => joinAt q s o (q + j)) fun _ => 0)
      (fun k l s => sumAt (fun k => joinAt q S T (q + k)) (List.range δ) (fun o => F2 (entriesAt r v (joinAt q s o)) k l fun j => joinAt q s o (q + j)) fun _ => 0) x →
      GivesEntries r 0 T' q 0 S v (fun u _ => sumOutcome δ T (F u)) (fun u k _ => sumOutcome δ T (F1 u k)) (fun u k l _ => sumOutcome δ T (F2 u k l)) x := by
    intro x hx
    rw [givesEntries_iff]
    refine (hx.congr (fun s _ _ => e F s) (fun k _ s _ _ => e (fun u => F1 u k) s) fun k _ l _ s _ _ => e (fun u => F2 u k l) s).sizes fun j hj => ?_
    rw [joinAt_lt hj, joinAt_lt hj]
  exact ⟨key h'.1, key h'.2⟩

/-! ### one axis -/

theorem rot_one {s : Nat → Nat} {j : Nat} (hj : j < 1) : rot 1 s j = s j := by
  have : j = 0 := by omega
  subst this; rfl

theorem point_acts {row0 row1 row2 : ℝ → List ℝ} {size : Nat} (hz : 0 < size) (h1 : ∀ u, ∀ k < size, HasDerivAt (fun t => (row0 t).getD k 0) ((row1 u).getD k 0) u)
    (h2 : ∀ u, ∀ k < size, HasDerivAt (fun t => (row1 t).getD k 0) ((row2 u).getD k 0) u) :
    Acts (pointT row0 row1 row2 size) 1 1 (fun _ => size) (fun q d => q = 1 ∧ d = 0) (fun _ => True) fun u o => (row0 (u 0)).getD (o 0) 0 := by
  refine ⟨rfl, rfl, _, _, curves_one (U := fun _ => True) (φ := fun x o => (row0 x).getD (o 0) 0) (φ1 := fun x o => (row1 x).getD (o 0) 0) (φ2 := fun x o => (row2 x).getD (o 0) 0)
    ⟨fun u _ o (ho : Outcome 1 (fun _ => size) o) => h1 u _ (ho.1 0 Nat.one_pos), fun u _ o (ho : Outcome 1 (fun _ => size) o) => h2 u _ (ho.1 0 Nat.one_pos)⟩, fun q d S v hq hdq ⟨hq1, hd⟩ hv _ => ?_⟩
  subst hq1 hd
  have hev : (pointT row0 row1 row2 size).eval (row 1 fun k => ⟨v k, 0, 0, 0, [], []⟩) = (pointT row0 row1 row2 size).sep (row 1 fun k => ⟨v k, 0, 0, 0, [], []⟩) := rfl
  rw [hev, and_self, givesEntries_iff]
  have h := point_sheets (row0 := row0) (row1 := row1) (row2 := row2) (d := 0) hz hq (S := S) (fun j hj => by rw [show j = 0 by omega]) (hv 0 (by omega))
  have e : ∀ s, (v 0).get (rot 1 s) = entriesAt 1 v s 0 := fun s => by
    unfold entriesAt
    rw [upto_lt (by omega)]
    exact get_congr _ fun j hj => rot_one (by rw [(hv 0 (by omega)).1] at hj; exact hj)
  simp only [e] at h
  exact h

/-- **C65.** `Game`, called with an array that has one axis (with more axes it reads the wrong entries: C33). -/
theorem C65_Game_partial : Acts gameT 1 1 (fun _ => 4) (fun q d => q = 1 ∧ d = 0) (fun _ => True) fun u o => (gameVals (u 0)).getD (o 0) 0 :=
  point_acts (by omega) (fun u k hk => Func.C31_game_grad u hk) fun u k hk => Func.C31_game_hess u hk

/-- **C65.** `TieBreak` -/
theorem C65_TieBreak_partial : Acts tieT 1 1 (fun _ => 7) (fun q d => q = 1 ∧ d = 0) (fun _ => True) fun u o => (tieVals (u 0)).getD (o 0) 0 :=
  point_acts (by omega) (fun u k hk => Func.C31_tiebreak_grad u hk) fun u k hk => Func.C31_tiebreak_hess u hk

/-- The game probabilities that `Set` does not clip. -/
def unclipped (p : ℝ) : Prop := 1 / 10 ^ 10 < p ∧ p < 1 - 1 / 10 ^ 10

/-- The derivatives computed by `Set`, as a symmetric matrix. -/
noncomputable def setHessSym (p t : ℝ) (k l o : Nat) : ℝ := (elems (if k < l then setHess p t l k else setHess p t k l)).getD o 0

theorem setGradP_affine (p t : ℝ) {o : Nat} (ho : o < 7) : (setGradP p t).getD o 0 = (1 - t) * (setGradP p 0).getD o 0 + t * (setGradP p 1).getD o 0 := by
  interval_cases o <;> simp [setGradP] <;> ring

theorem setPoly_affine (p t : ℝ) {o : Nat} (ho : o < 7) : (setPoly p t).getD o 0 = (1 - t) * (setPoly p 0).getD o 0 + t * (setPoly p 1).getD o 0 := by
  interval_cases o <;> simp [setPoly] <;> ring

theorem set_curves : Curves 2 (fun u => unclipped (u 0)) (Outcome 1 fun _ => 7) (fun u o => (setVals (u 0) (u 1)).getD (o 0) 0)
    (fun u k o => (elems (setGrad (u 0) (u 1) k)).getD (o 0) 0) fun u k l o => setHessSym (u 0) (u 1) k l (o 0) where
  h1 γ v t hγ hU o ho := by
    have h0 := hγ 0 (by omega)
    have h1 := hγ 1 (by omega)
    have ho' := ho.1 0 Nat.one_pos
    have hd : HasDerivAt (fun s => (setPoly (γ s 0) (γ s 1)).getD (o 0) 0)
        (∑ k ∈ Finset.range 2, (elems (setGrad (γ t 0) (γ t 1) k)).getD (o 0) 0 * v k) t := by
      have a0 := (Func.setPoly_dp (γ t 0) 0 ho').comp t h0
      have a1 := (Func.setPoly_dp (γ t 0) 1 ho').comp t h0
      have := ((h1.const_sub 1).mul a0).add (h1.mul a1)
      refine HasDerivAt.congr_deriv (this.congr_of_eventuallyEq (Filter.Eventually.of_forall fun s => setPoly_affine _ _ ho')) ?_
      rw [Finset.sum_range_succ, Finset.sum_range_one]
      have e1 : (elems (setGrad (γ t 0) (γ t 1) 0)).getD (o 0) 0 = (setGradP (γ t 0) (γ t 1)).getD (o 0) 0 := rfl
      have e2 : (elems (setGrad (γ t 0) (γ t 1) 1)).getD (o 0) 0 = (setPoly (γ t 0) 1).getD (o 0) 0 - (setPoly (γ t 0) 0).getD (o 0) 0 := by
        show (List.replicate 6 (0 : ℝ) ++ [504 * (1 - γ t 0) ^ 6 * γ t 0 ^ 6]).getD (o 0) 0 = _
        generalize o 0 = k at ho'
        interval_cases k <;> simp [setPoly]
        ring
      rw [e1, e2, setGradP_affine _ (γ t 1) ho']
      simp only [Function.comp_apply]
      ring
    refine hd.congr_of_eventuallyEq ?_
    filter_upwards [h0.continuousAt (Ioo_mem_nhds hU.1 hU.2)] with s hs
    have hs : 1 / 10 ^ 10 < γ s 0 ∧ γ s 0 < 1 - 1 / 10 ^ 10 := hs
    simp only [setVals, Func.setClip_of_mem hs.1.le hs.2.le]
  h2 γ v t hγ hU o ho k hk := by
    have h0 := hγ 0 (by omega)
    have h1 := hγ 1 (by omega)
    have ho' := ho.1 0 Nat.one_pos
    rw [Finset.sum_range_succ, Finset.sum_range_one]
    have hk' : k = 0 ∨ k = 1 := by omega
    rcases hk' with rfl | rfl
    · have a0 := (Func.setGradP_dp (γ t 0) 0 ho').comp t h0
      have a1 := (Func.setGradP_dp (γ t 0) 1 ho').comp t h0
      have := ((h1.const_sub 1).mul a0).add (h1.mul a1)
      refine HasDerivAt.congr_deriv (this.congr_of_eventuallyEq (Filter.Eventually.of_forall fun s => setGradP_affine _ _ ho')) ?_
      have e1 : setHessSym (γ t 0) (γ t 1) 0 0 (o 0) = (setHessPP (γ t 0) (γ t 1)).getD (o 0) 0 := rfl
      have e2 : setHessSym (γ t 0) (γ t 1) 0 1 (o 0) = (setGradP (γ t 0) 1).getD (o 0) 0 - (setGradP (γ t 0) 0).getD (o 0) 0 := by
        show (List.replicate 6 (0 : ℝ) ++ [3024 * (1 - 2 * γ t 0) * (1 - γ t 0) ^ 5 * γ t 0 ^ 5]).getD (o 0) 0 = _
        generalize o 0 = k at ho'
        interval_cases k <;> simp [setGradP]
      have e3 : (setHessPP (γ t 0) (γ t 1)).getD (o 0) 0 = (1 - γ t 1) * (setHessPP (γ t 0) 0).getD (o 0) 0 + γ t 1 * (setHessPP (γ t 0) 1).getD (o 0) 0 := by
        generalize o 0 = k at ho'
        interval_cases k <;> simp [setHessPP] <;> ring
      rw [e1, e2, e3]
      simp only [Function.comp_apply]
      ring
    · obtain ⟨h, hh, hp, -⟩ := Func.C31_set_hess_tp (γ t 0) (γ t 1) ho'
      have := hp.comp t h0
      refine HasDerivAt.congr_deriv (this.congr_of_eventuallyEq (Filter.Eventually.of_forall fun s => rfl)) ?_
      have e1 : setHessSym (γ t 0) (γ t 1) 1 0 (o 0) = h.getD (o 0) 0 := by
        unfold setHessSym
        rw [if_neg (by omega), hh]; rfl
      have e2 : setHessSym (γ t 0) (γ t 1) 1 1 (o 0) = 0 := by
        show (List.replicate 7 (0 : ℝ)).getD (o 0) 0 = 0
        generalize o 0 = k at ho'
        interval_cases k <;> rfl
      rw [e1, e2]
      ring
  symm u _ o _ k hk l hl := by
    have hk' : k = 0 ∨ k = 1 := by omega
    have hl' : l = 0 ∨ l = 1 := by omega
    rcases hk' with rfl | rfl <;> rcases hl' with rfl | rfl <;> rfl

/-- **C65.** `Set`, called with arrays that have one axis, for game probabilities that are not clipped (C31). -/
theorem C65_Set_partial : Acts setT 2 1 (fun _ => 7) (fun q d => q = 1 ∧ d = 0) (fun u => unclipped (u 0)) fun u o => (setVals (u 0) (u 1)).getD (o 0) 0 := by
  refine ⟨rfl, rfl, _, _, set_curves, fun q d S v hq hdq ⟨hq1, hd⟩ hv _ => ?_⟩
  subst hq1 hd
  have hev : setT.eval (row 2 fun k => ⟨v k, 0, 0, 0, [], []⟩) = setT.sep (row 2 fun k => ⟨v k, 0, 0, 0, [], []⟩) := rfl
  rw [hev, and_self, givesEntries_iff]
  have h := set_sheets (d := 0) hq (S := S) (fun j hj => by rw [show j = 0 by omega]) hv
  have e : ∀ i < 2, ∀ s, (v i).get (rot 1 s) = entriesAt 2 v s i := fun i hi s => by
    unfold entriesAt
    rw [upto_lt hi]
    exact get_congr _ fun j hj => rot_one (by rw [(hv i hi).1] at hj; exact hj)
  simp only [e 0 (by omega), e 1 (by omega)] at h
  refine h.congr (fun _ _ _ => rfl) (fun _ _ _ _ _ => rfl) fun k hk l hl s _ _ => ?_
  unfold setHessSym
  rw [if_neg (by omega)]

end Verif.Tens
