import Verif.Props.TennisTensor
import Verif.Props.FitTensor
import Verif.Props.TwoFactor

/-!
# C33: the model of the test `test_set` (tests/test_maxlike.py)
-/

set_option linter.unusedSectionVars false

namespace Verif.Tens
open Verif.Params (Err)
open NDArray
open Verif.Func (gameVals gameGrad gameHess tieVals tieGrad tieHess setVals setGrad setHess setPoly setGradP setHessPP expit)

/-- `Set() @ [Collapse(Game(), False), Collapse(TieBreak(), False)] @ Logistic()` -/
noncomputable def setModel : TFunc ℝ := composeT (composeT setT [collapseT gameT .none true, collapseT tieT .none true]) [logisticT]

/-- The probability of the outcome `k` of a set (6-0, …, 7-6), if the log-odds of winning a point are `x`: the probabilities of winning a game or the tie-break are the sums of
those of the ways to win it. -/
noncomputable def setOutcome (k : Nat) (x : ℝ) : ℝ := (setVals (gameVals (expit x)).sum (tieVals (expit x)).sum).getD k 0

/-- The game probability is not clipped by `Set`, at the log-odds `x`. -/
def gameUnclipped (x : ℝ) : Prop := unclipped (gameVals (expit x)).sum

theorem entry_sheets {φ φ1 φ2 : ℝ → ℝ} {q : Nat} {R : Nat → Nat} {v : NDArray ℝ} (hv : v.ndim = q ∧ ∀ j < q, v.shape j = R j) :
    GivesSheets 1 q q 0 R (fun s => φ (v.get s)) (fun _ s => φ1 (v.get s)) (fun _ _ s => φ2 (v.get s)) ((entryT φ φ1 φ2).sep [⟨v, 0, 0, 0, [], []⟩]) := by
  obtain ⟨h1, h2⟩ := hv
  subst h1
  have key : ∀ f : ℝ → ℝ, (v.map f).ndim = v.ndim + 0 ∧ (∀ j < v.ndim + 0, (v.map f).shape j = R j) ∧ ∀ s, (∀ j < v.ndim + 0, s j < R j) → (v.map f).get s = f (v.get s) :=
    fun f => ⟨rfl, fun j hj => h2 j hj, fun s _ => map_get _ _ _⟩
  refine sep_sheets (δ := 0) rfl (V := v.map φ) (G := fun _ => v.map φ1) (H := fun _ _ => v.map φ2) rfl (fun k hk => ?_) (fun k hk l hl => ?_) (key φ) (fun _ _ => key φ1) fun _ _ _ _ => key φ2
  · rw [show k = 0 from Nat.lt_one_iff.1 hk]; rfl
  · have hk0 : k = 0 := Nat.lt_one_iff.1 hk
    rw [hk0, show l = 0 by omega]; rfl

theorem sum_getD (l : List ℝ) {n : Nat} (h : l.length = n) : ∑ i ∈ Finset.range n, l.getD i 0 = l.sum := by
  subst h
  induction l with
  | nil => rfl
  | cons a l ih =>
    rw [List.length_cons, Finset.sum_range_succ', List.sum_cons, add_comm]
    simpa using ih

/-- The probability of winning a game (`k = 0`) or a tie-break, as a function of that of winning a point, and its derivatives. -/
noncomputable def win (k : Nat) (x : ℝ) : ℝ := if k = 0 then (gameVals x).sum else (tieVals x).sum
noncomputable def win1 (k : Nat) (x : ℝ) : ℝ := if k = 0 then (gameGrad x).sum else (tieGrad x).sum
noncomputable def win2 (k : Nat) (x : ℝ) : ℝ := if k = 0 then (gameHess x).sum else (tieHess x).sum

theorem win_deriv (k : Nat) (x : ℝ) : HasDerivAt (win k) (win1 k x) x := by
  unfold win1
  have e : ∀ k, win k = fun x => if k = 0 then ∑ i ∈ Finset.range 4, (gameVals x).getD i 0 else ∑ i ∈ Finset.range 7, (tieVals x).getD i 0 := fun k => by
    funext x; unfold win; rw [sum_getD (gameVals x) (n := 4) rfl, sum_getD (tieVals x) (n := 7) rfl]
  rw [e]
  split_ifs
  · rw [← sum_getD (gameGrad x) (n := 4) rfl]
    exact HasDerivAt.fun_sum fun i hi => Func.C31_game_grad x (Finset.mem_range.1 hi)
  · rw [← sum_getD (tieGrad x) (n := 7) rfl]
    exact HasDerivAt.fun_sum fun i hi => Func.C31_tiebreak_grad x (Finset.mem_range.1 hi)

theorem win1_deriv (k : Nat) (x : ℝ) : HasDerivAt (win1 k) (win2 k x) x := by
  unfold win2
  have e : ∀ k, win1 k = fun x => if k = 0 then ∑ i ∈ Finset.range 4, (gameGrad x).getD i 0 else ∑ i ∈ Finset.range 7, (tieGrad x).getD i 0 := fun k => by
    funext x; unfold win1; rw [sum_getD (gameGrad x) (n := 4) rfl, sum_getD (tieGrad x) (n := 7) rfl]
  rw [e]
  split_ifs
  · rw [← sum_getD (gameHess x) (n := 4) rfl]
    exact HasDerivAt.fun_sum fun i hi => Func.C31_game_hess x (Finset.mem_range.1 hi)
  · rw [← sum_getD (tieHess x) (n := 7) rfl]
    exact HasDerivAt.fun_sum fun i hi => Func.C31_tiebreak_hess x (Finset.mem_range.1 hi)

theorem win_compl (k : Nat) (x : ℝ) : win k (1 - x) = 1 - win k x := by
  unfold win
  have h1 := Func.C32_game_total x
  have h2 := Func.C32_tiebreak_total x
  split_ifs <;> linarith

theorem win1_compl (k : Nat) (x : ℝ) : win1 k (1 - x) = win1 k x := by
  have h1 : HasDerivAt (fun y => win k (1 - y)) (win1 k (1 - x) * -1) x := (win_deriv k (1 - x)).comp x ((hasDerivAt_id x).const_sub 1)
  have h2 : HasDerivAt (fun y => 1 - win k y) (-win1 k x) x := (win_deriv k x).const_sub 1
  have h3 := h1.unique (h2.congr_of_eventuallyEq (Filter.Eventually.of_forall fun y => win_compl k y))
  linarith

theorem win2_compl (k : Nat) (x : ℝ) : win2 k (1 - x) = -win2 k x := by
  have h1 : HasDerivAt (fun y => win1 k (1 - y)) (win2 k (1 - x) * -1) x := (win1_deriv k (1 - x)).comp x ((hasDerivAt_id x).const_sub 1)
  have h3 := h1.unique ((win1_deriv k x).congr_of_eventuallyEq (Filter.Eventually.of_forall fun y => win1_compl k y))
  linarith

theorem rot_two {s : Nat → Nat} {j : Nat} (hj : j < 2) : rot 2 (rot 2 s) j = s j := by
  have : j = 0 ∨ j = 1 := by omega
  rcases this with rfl | rfl <;> rfl

section
variable {n : Nat} {v : NDArray ℝ}

/-- `Collapse(Game(), False)` and `Collapse(TieBreak(), False)`, for an array with two axes -/
theorem win_sheets {row0 row1 row2 : ℝ → List ℝ} {size : Nat} (hz : 0 < size) (l0 : ∀ x, (row0 x).length = size) (l1 : ∀ x, (row1 x).length = size) (l2 : ∀ x, (row2 x).length = size)
    (hv : v.ndim = 2 ∧ ∀ j < 2, v.shape j = n) (R : Nat → Nat) (hR : ∀ j < 2, R j = n) :
    GivesSheets 1 2 2 0 R (fun s => (row0 (v.get (rot 2 s))).sum) (fun _ s => (row1 (v.get (rot 2 s))).sum) (fun _ _ s => (row2 (v.get (rot 2 s))).sum)
      ((collapseT (pointT row0 row1 row2 size) .none true).eval [⟨v, 0, 0, 0, [], []⟩]) ∧
    GivesSheets 1 2 2 0 R (fun s => (row0 (v.get (rot 2 s))).sum) (fun _ s => (row1 (v.get (rot 2 s))).sum) (fun _ _ s => (row2 (v.get (rot 2 s))).sum)
      ((collapseT (pointT row0 row1 row2 size) .none true).sep [⟨v, 0, 0, 0, [], []⟩]) := by
  have h := point_sheets (row0 := row0) (row1 := row1) (row2 := row2) (d := 0) hz (q := 2) (by omega) (S := fun _ => n) (fun _ _ => rfl) hv
  have h' := collapse_sheets (ps := [⟨v, 0, 0, 0, [], []⟩]) rfl ⟨h, h⟩
  have e : ∀ f : ℝ → List ℝ, (∀ x, (f x).length = size) → ∀ s, sumAt (fun k => joinAt 2 (fun _ => n) (fun _ => size) (2 + k)) (List.range 1) (fun o => (f (v.get (rot 2 (joinAt 2 s o)))).getD (joinAt 2 s o 2) 0) (fun _ => 0) =
      (f (v.get (rot 2 s))).sum := by
    intro f hf s
    show ∑ i ∈ Finset.range size, (f (v.get (rot 2 (joinAt 2 s (Function.update (fun _ => 0) 0 i))))).getD (joinAt 2 s (Function.update (fun _ => 0) 0 i) 2) 0 = _
    rw [← sum_getD _ (hf _)]
    refine Finset.sum_congr rfl fun i _ => ?_
    have e1 : joinAt 2 s (Function.update (fun _ => 0) 0 i) 2 = i := rfl
    have e2 : v.get (rot 2 (joinAt 2 s (Function.update (fun _ => 0) 0 i))) = v.get (rot 2 s) := get_congr v fun j hj => by
      rw [hv.1] at hj
      have : j = 0 ∨ j = 1 := by omega
      rcases this with rfl | rfl <;> rfl
    rw [e1, e2]
  have hR' : ∀ j < 2, R j = joinAt 2 (fun _ => n) (fun _ => size) j := fun j hj => by rw [hR j hj, joinAt_lt hj]
  exact ⟨(h'.1.congr (fun s _ _ => e _ l0 s) (fun _ _ s _ _ => e _ l1 s) fun _ _ _ _ s _ _ => e _ l2 s).sizes hR',
    (h'.2.congr (fun s _ _ => e _ l0 s) (fun _ _ s _ _ => e _ l1 s) fun _ _ _ _ s _ _ => e _ l2 s).sizes hR'⟩

/-- The entries of `Set() @ [Collapse(Game(), False), Collapse(TieBreak(), False)]`: the derivatives of `Set` are those at the entry of the array at the position, the others those at
the entry at the transposed position. -/
theorem chain_sheets (hv : v.ndim = 2 ∧ ∀ j < 2, v.shape j = n) :
    let f := composeT setT [collapseT gameT .none true, collapseT tieT .none true]
    let val := fun s : Nat → Nat => (setVals (win 0 (v.get s)) (win 1 (v.get s))).getD (s 2) 0
    let b := fun (k : Nat) (s : Nat → Nat) => (elems (setGrad (win 0 (v.get s)) (win 1 (v.get s)) k)).getD (s 2) 0
    let c := fun (k l : Nat) (s : Nat → Nat) => setHessSym (win 0 (v.get s)) (win 1 (v.get s)) k l (s 2)
    let der := fun s => ∑ k ∈ Finset.range 2, b k s * win1 k (v.get (rot 2 s))
    let hes := fun s => ∑ k ∈ Finset.range 2, (b k s * win2 k (v.get (rot 2 s)) + ∑ l ∈ Finset.range 2, c k l s * win1 k (v.get (rot 2 s)) * win1 l (v.get (rot 2 s)))
    GivesSheets 1 2 3 1 (joinAt 2 (fun _ => n) fun _ => 7) val (fun _ => der) (fun _ _ => hes) (f.eval [⟨v, 0, 0, 0, [], []⟩]) ∧
    GivesSheets 1 2 3 1 (joinAt 2 (fun _ => n) fun _ => 7) val (fun _ => der) (fun _ _ => hes) (f.sep [⟨v, 0, 0, 0, [], []⟩]) := by
  intro f val b c der hes
  have hR : ∀ j < 2, joinAt 2 (fun _ => n) (fun _ => 7) j = n := fun j hj => joinAt_lt hj
  have hg : ∀ k < 1 + 1, GivesSheets 1 2 2 0 (joinAt 2 (fun _ => n) fun _ => 7) (fun s => win k (v.get (rot 2 s))) (fun _ s => win1 k (v.get (rot 2 s))) (fun _ _ s => win2 k (v.get (rot 2 s)))
        (((fun k => if k = 0 then collapseT gameT .none true else collapseT tieT .none true) k : TFunc ℝ).eval [⟨v, 0, 0, 0, [], []⟩]) ∧
      GivesSheets 1 2 2 0 (joinAt 2 (fun _ => n) fun _ => 7) (fun s => win k (v.get (rot 2 s))) (fun _ s => win1 k (v.get (rot 2 s))) (fun _ _ s => win2 k (v.get (rot 2 s)))
        (((fun k => if k = 0 then collapseT gameT .none true else collapseT tieT .none true) k : TFunc ℝ).sep [⟨v, 0, 0, 0, [], []⟩]) := by
    intro k hk
    have : k = 0 ∨ k = 1 := by omega
    rcases this with rfl | rfl
    · exact win_sheets (row0 := gameVals) (row1 := gameGrad) (row2 := gameHess) (size := 4) (by omega) (fun _ => rfl) (fun _ => rfl) (fun _ => rfl) hv _ hR
    · exact win_sheets (row0 := tieVals) (row1 := tieGrad) (row2 := tieHess) (size := 7) (by omega) (fun _ => rfl) (fun _ => rfl) (fun _ => rfl) hv _ hR
  have hf : ∀ V : Nat → NDArray ℝ, (∀ k < 1 + 1, (V k).ndim = 2 ∧ (∀ j < 2, (V k).shape j = joinAt 2 (fun _ => n) (fun _ => 7) j) ∧
        ∀ s, (∀ j < 2, s j < joinAt 2 (fun _ => n) (fun _ => 7) j) → (V k).get s = win k (v.get (rot 2 (cut 2 s)))) →
      GivesSheets (1 + 1) 2 3 1 (joinAt 2 (fun _ => n) fun _ => 7) val b (fun k l s => (elems (setHess (win 0 (v.get s)) (win 1 (v.get s)) k l)).getD (s 2) 0) (setT.eval (row (1 + 1) fun k => ⟨V k, 0, 0, 0, [], []⟩)) ∧
      GivesSheets (1 + 1) 2 3 1 (joinAt 2 (fun _ => n) fun _ => 7) val b (fun k l s => (elems (setHess (win 0 (v.get s)) (win 1 (v.get s)) k l)).getD (s 2) 0) (setT.sep (row (1 + 1) fun k => ⟨V k, 0, 0, 0, [], []⟩)) := by
    intro V hV
    have h := set_sheets (d := 0) (q := 2) (by omega) (S := fun _ => n) (fun _ _ => rfl) (v := V) fun k hk => ⟨(hV k hk).1, fun j hj => by rw [(hV k hk).2.1 j hj, hR j hj]⟩
    have e : ∀ k < 2, ∀ s, (∀ j < 2 + 1, s j < joinAt 2 (fun _ => n) (fun _ => 7) j) → (V k).get (rot 2 s) = win k (v.get s) := by
      intro k hk s hs
      have hs' : ∀ j < 2, s j < n := fun j hj => by have := hs j (by omega); rwa [hR j hj] at this
      rw [(hV k hk).2.2 (rot 2 s) fun j hj => by rw [hR j hj]; exact rot_lt (S := fun _ => n) (fun _ _ => rfl) hs' hj]
      congr 1
      refine get_congr v fun j hj => ?_
      rw [hv.1] at hj
      have : j = 0 ∨ j = 1 := by omega
      rcases this with rfl | rfl <;> rfl
    have h2 := h.congr (A' := val) (B' := b) (C' := fun k l s => (elems (setHess (win 0 (v.get s)) (win 1 (v.get s)) k l)).getD (s 2) 0)
      (fun s hs _ => by dsimp only [val]; rw [e 0 (by omega) s hs, e 1 (by omega) s hs]) (fun k _ s hs _ => by dsimp only [b]; rw [e 0 (by omega) s hs, e 1 (by omega) s hs])
      fun k _ l _ s hs _ => by rw [e 0 (by omega) s hs, e 1 (by omega) s hs]
    exact ⟨h2, h2⟩
  have main := compose_sheets (f := setT) rfl rfl (r := 1) (q := 2) (q' := 2) (by omega) le_rfl (by omega) (ps := [⟨v, 0, 0, 0, [], []⟩]) rfl hg hf
  have ecut : ∀ s : Nat → Nat, v.get (rot 2 (cut 2 s)) = v.get (rot 2 s) := fun s => get_congr v fun j hj => by
    rw [hv.1] at hj
    have : j = 0 ∨ j = 1 := by omega
    rcases this with rfl | rfl <;> rfl
  have c1 : ∀ s, ∑ k ∈ Finset.range (1 + 1), b k s * win1 k (v.get (rot 2 (cut 2 s))) = der s := fun s => by rw [ecut]
  have c2 : ∀ s, ∑ k ∈ Finset.range (1 + 1), (b k s * win2 k (v.get (rot 2 (cut 2 s))) + ∑ l ∈ Finset.range (1 + 1),
      (if k < l then (elems (setHess (win 0 (v.get s)) (win 1 (v.get s)) l k)).getD (s 2) 0 else (elems (setHess (win 0 (v.get s)) (win 1 (v.get s)) k l)).getD (s 2) 0) *
        win1 k (v.get (rot 2 (cut 2 s))) * win1 l (v.get (rot 2 (cut 2 s)))) = hes s := fun s => by
    rw [ecut]
    refine Finset.sum_congr rfl fun k _ => ?_
    congr 1
    refine Finset.sum_congr rfl fun l _ => ?_
    congr 2
    dsimp only [c]
    unfold setHessSym
    split_ifs <;> rfl
  exact ⟨main.1.congr (fun _ _ _ => rfl) (fun _ _ s _ _ => c1 s) fun _ _ _ _ s _ _ => c2 s, main.2.congr (fun _ _ _ => rfl) (fun _ _ s _ _ => c1 s) fun _ _ _ _ s _ _ => c2 s⟩

end

/-! ### the model -/

theorem expit_neg (x : ℝ) : expit (-x) = 1 - expit x := by
  unfold expit
  have h1 : (1 : ℝ) + Real.exp x ≠ 0 := by positivity
  have h2 : (1 : ℝ) + Real.exp (-x) ≠ 0 := by positivity
  rw [neg_neg, Real.exp_neg] at *
  have h3 := (Real.exp_pos x).ne'
  field_simp
  ring

/-- The derivative of the logistic function -/
noncomputable def expit1 (x : ℝ) : ℝ := expit x * (1 - expit x)
noncomputable def expit2 (x : ℝ) : ℝ := expit x * (1 - expit x) * (1 - 2 * expit x)

theorem expit1_deriv (x : ℝ) : HasDerivAt expit1 (expit2 x) x := by
  have h := Func.hasDerivAt_expit x
  refine HasDerivAt.congr_deriv (h.fun_mul (h.const_sub 1)) ?_
  unfold expit2
  ring

/-- The first derivative of the probability of an outcome. -/
noncomputable def setOutcome1 (o : Nat) (x : ℝ) : ℝ :=
  (∑ k ∈ Finset.range 2, (elems (setGrad (win 0 (expit x)) (win 1 (expit x)) k)).getD o 0 * win1 k (expit x)) * expit1 x

/-- The second derivative of the probability of an outcome (`σ = 1`), and what the model returns (`σ = -1`). -/
noncomputable def setOutcome2 (σ : ℝ) (o : Nat) (x : ℝ) : ℝ :=
  (∑ k ∈ Finset.range 2, (elems (setGrad (win 0 (expit x)) (win 1 (expit x)) k)).getD o 0 * win1 k (expit x)) * expit2 x +
  (∑ k ∈ Finset.range 2, ((elems (setGrad (win 0 (expit x)) (win 1 (expit x)) k)).getD o 0 * (σ * win2 k (expit x)) +
    ∑ l ∈ Finset.range 2, setHessSym (win 0 (expit x)) (win 1 (expit x)) k l o * win1 k (expit x) * win1 l (expit x))) * expit1 x ^ 2

theorem outcome_at {o : Nat} (ho : o < 7) : Outcome 1 (fun _ => 7) fun j => if j = 0 then o else 0 :=
  ⟨fun j hj => by rw [show j = 0 by omega]; simpa using ho, fun j hj => if_neg (by omega)⟩

theorem win_expit_deriv (k : Nat) (x : ℝ) : HasDerivAt (fun x => win k (expit x)) (win1 k (expit x) * expit1 x) x := (win_deriv k _).comp x (Func.hasDerivAt_expit x)

theorem setOutcome_deriv {o : Nat} (ho : o < 7) {x : ℝ} (hx : gameUnclipped x) : HasDerivAt (setOutcome o) (setOutcome1 o x) x := by
  have h := set_curves.h1 (fun x k => win k (expit x)) (fun k => win1 k (expit x) * expit1 x) x (fun k _ => win_expit_deriv k x) hx _ (outcome_at ho)
  refine HasDerivAt.congr_deriv h ?_
  unfold setOutcome1
  rw [Finset.sum_mul]
  exact Finset.sum_congr rfl fun k _ => by simp only [if_true]; ring

theorem setOutcome1_deriv {o : Nat} (ho : o < 7) {x : ℝ} (hx : gameUnclipped x) : HasDerivAt (setOutcome1 o) (setOutcome2 1 o x) x := by
  have h := set_curves.h2 (fun x k => win k (expit x)) (fun k => win1 k (expit x) * expit1 x) x (fun k _ => win_expit_deriv k x) hx _ (outcome_at ho)
  simp only [if_true] at h
  have h2 : HasDerivAt (fun x => ∑ k ∈ Finset.range 2, (elems (setGrad (win 0 (expit x)) (win 1 (expit x)) k)).getD o 0 * win1 k (expit x)) _ x :=
    HasDerivAt.fun_sum fun k hk => (h k (Finset.mem_range.1 hk)).fun_mul ((win1_deriv k _).comp x (Func.hasDerivAt_expit x))
  refine HasDerivAt.congr_deriv (h2.fun_mul (expit1_deriv x)) ?_
  unfold setOutcome2 expit1
  simp only [Finset.sum_range_succ, Finset.sum_range_zero, zero_add]
  ring

section
variable {n : Nat} {u : NDArray ℝ}

/-- The entries that the model computes, if `u` is antisymmetric. -/
theorem model_sheets (hu : u.ndim = 2 ∧ ∀ j < 2, u.shape j = n) (anti : ∀ s : Nat → Nat, s 0 < n → s 1 < n → u.get (rot 2 s) = -u.get s) :
    GivesSheets 1 2 3 1 (joinAt 2 (fun _ => n) fun _ => 7) (fun s => setOutcome (s 2) (u.get s)) (fun _ s => setOutcome1 (s 2) (u.get s)) (fun _ _ s => setOutcome2 (-1) (s 2) (u.get s))
      (setModel.eval [⟨u, 0, 0, 0, [], []⟩]) ∧
    GivesSheets 1 2 3 1 (joinAt 2 (fun _ => n) fun _ => 7) (fun s => setOutcome (s 2) (u.get s)) (fun _ s => setOutcome1 (s 2) (u.get s)) (fun _ _ s => setOutcome2 (-1) (s 2) (u.get s))
      (setModel.sep [⟨u, 0, 0, 0, [], []⟩]) := by
  have hR : ∀ j < 2, joinAt 2 (fun _ => n) (fun _ => 7) j = n := fun j hj => joinAt_lt hj
  have hl := entry_sheets (φ := expit) (φ1 := expit1) (φ2 := expit2) (R := joinAt 2 (fun _ => n) fun _ => 7) ⟨hu.1, fun j hj => by rw [hu.2 j hj, hR j hj]⟩
  have hcut : ∀ s, u.get (cut 2 s) = u.get s := fun s => get_congr u fun j hj => by rw [hu.1] at hj; exact cut_of hj
  let x := fun s : Nat → Nat => expit (u.get s)
  let b := fun s : Nat → Nat => ∑ k ∈ Finset.range 2, (elems (setGrad (win 0 (x s)) (win 1 (x s)) k)).getD (s 2) 0 * win1 k (x s)
  let c := fun s : Nat → Nat => ∑ k ∈ Finset.range 2, ((elems (setGrad (win 0 (x s)) (win 1 (x s)) k)).getD (s 2) 0 * (-1 * win2 k (x s)) +
    ∑ l ∈ Finset.range 2, setHessSym (win 0 (x s)) (win 1 (x s)) k l (s 2) * win1 k (x s) * win1 l (x s))
  have main := compose_sheets (f := composeT setT [collapseT gameT .none true, collapseT tieT .none true]) rfl rfl (r := 0) (g := fun _ => logisticT) (q := 2) (q' := 2) (len := 3) (dd := 1) (by omega) le_rfl (by omega)
    (ps := [⟨u, 0, 0, 0, [], []⟩]) rfl (fun k _ => ⟨hl, hl⟩) (a := fun s => setOutcome (s 2) (u.get s)) (b := fun _ => b) (c := fun _ _ => c) (fun V hV => by
      obtain ⟨v1, v2, v3⟩ := hV 0 (by omega)
      have h := chain_sheets (v := V 0) ⟨v1, fun j hj => by rw [v2 j hj, hR j hj]⟩
      have e : ∀ s, (∀ j < 3, s j < joinAt 2 (fun _ => n) (fun _ => 7) j) → (V 0).get s = x s ∧ (V 0).get (rot 2 s) = 1 - x s := by
        intro s hs
        have hs' : ∀ j < 2, s j < n := fun j hj => by have := hs j (by omega); rwa [hR j hj] at this
        constructor
        · rw [v3 s fun j hj => hs j (by omega), hcut]
        · rw [v3 (rot 2 s) fun j hj => by rw [hR j hj]; exact rot_lt (S := fun _ => n) (fun _ _ => rfl) hs' hj, hcut, anti s (hs' 0 (by omega)) (hs' 1 (by omega)), expit_neg]
      have k1 := fun (s : Nat → Nat) hs => show (setVals (win 0 ((V 0).get s)) (win 1 ((V 0).get s))).getD (s 2) 0 = setOutcome (s 2) (u.get s) by rw [(e s hs).1]; rfl
      have k2 := fun (s : Nat → Nat) hs => show ∑ k ∈ Finset.range 2, (elems (setGrad (win 0 ((V 0).get s)) (win 1 ((V 0).get s)) k)).getD (s 2) 0 * win1 k ((V 0).get (rot 2 s)) = b s by
        rw [(e s hs).1, (e s hs).2]; simp only [win1_compl, b]
      have k3 := fun (s : Nat → Nat) hs => show ∑ k ∈ Finset.range 2, ((elems (setGrad (win 0 ((V 0).get s)) (win 1 ((V 0).get s)) k)).getD (s 2) 0 * win2 k ((V 0).get (rot 2 s)) +
          ∑ l ∈ Finset.range 2, setHessSym (win 0 ((V 0).get s)) (win 1 ((V 0).get s)) k l (s 2) * win1 k ((V 0).get (rot 2 s)) * win1 l ((V 0).get (rot 2 s))) = c s by
        rw [(e s hs).1, (e s hs).2]; simp only [win1_compl, win2_compl, c, neg_one_mul]
      exact ⟨h.1.congr (fun s hs _ => k1 s hs) (fun _ _ s hs _ => k2 s hs) fun _ _ _ _ s hs _ => k3 s hs, h.2.congr (fun s hs _ => k1 s hs) (fun _ _ s hs _ => k2 s hs) fun _ _ _ _ s hs _ => k3 s hs⟩)
  have c1 : ∀ s, ∑ k ∈ Finset.range (0 + 1), b s * expit1 (u.get (cut 2 s)) = setOutcome1 (s 2) (u.get s) := fun s => by
    rw [hcut, Finset.sum_range_one]; rfl
  have c2 : ∀ s, ∑ k ∈ Finset.range (0 + 1), (b s * expit2 (u.get (cut 2 s)) + ∑ l ∈ Finset.range (0 + 1), (if k < l then c s else c s) * expit1 (u.get (cut 2 s)) * expit1 (u.get (cut 2 s))) =
      setOutcome2 (-1) (s 2) (u.get s) := fun s => by
    rw [hcut, Finset.sum_range_one, Finset.sum_range_one, if_neg (by omega), mul_assoc, ← sq]; rfl
  exact ⟨main.1.congr (fun _ _ _ => rfl) (fun _ _ s _ _ => c1 s) fun _ _ _ _ s _ _ => c2 s, main.2.congr (fun _ _ _ => rfl) (fun _ _ s _ _ => c1 s) fun _ _ _ _ s _ _ => c2 s⟩

/-- The position `(i, j)` in two axes. -/
def cell2 (i j : Nat) : Nat → Nat := fun k => if k = 0 then i else if k = 1 then j else 0

/-- An `n × n` array with `u[j, i] = -u[i, j]`, like the differences `a[i] - a[j]` that the function of `test_set` computes. -/
def Antisymmetric (n : Nat) (u : NDArray ℝ) : Prop := u.ndim = 2 ∧ (∀ j < 2, u.shape j = n) ∧ ∀ i < n, ∀ j < n, u.get (cell2 j i) = -u.get (cell2 i j)

theorem Antisymmetric.rot (h : Antisymmetric n u) (s : Nat → Nat) (h0 : s 0 < n) (h1 : s 1 < n) : u.get (rot 2 s) = -u.get s := by
  have := h.2.2 (s 0) h0 (s 1) h1
  rw [get_congr u (i := cell2 (s 1) (s 0)) (j := Tens.rot 2 s) fun j hj => ?_, get_congr u (i := cell2 (s 0) (s 1)) (j := s) fun j hj => ?_] at this
  · exact this
  all_goals
    rw [h.1] at hj
    have : j = 0 ∨ j = 1 := by omega
    rcases this with rfl | rfl <;> rfl

/-- **C33.** The model of `test_set`, for a matrix `u` of log-odds with `u[j, i] = -u[i, j]`: although `Game`, `TieBreak` and `Set` read the entries at the transposed positions, the
values and the first derivatives are those of the entry at each position.  Missing: the second derivatives, which are not. -/
theorem C33_test_set_partial (hu : Antisymmetric n u) (hx : ∀ i < n, ∀ j < n, gameUnclipped (u.get (cell2 i j))) :
    ∃ B C : (Nat → Nat) → ℝ, (GivesSheets 1 2 3 1 (joinAt 2 (fun _ => n) fun _ => 7) (fun s => setOutcome (s 2) (u.get s)) (fun _ => B) (fun _ _ => C) (setModel.eval [⟨u, 0, 0, 0, [], []⟩]) ∧
      GivesSheets 1 2 3 1 (joinAt 2 (fun _ => n) fun _ => 7) (fun s => setOutcome (s 2) (u.get s)) (fun _ => B) (fun _ _ => C) (setModel.sep [⟨u, 0, 0, 0, [], []⟩])) ∧
      ∀ s : Nat → Nat, s 0 < n → s 1 < n → s 2 < 7 → HasDerivAt (setOutcome (s 2)) (B s) (u.get s) := by
  refine ⟨_, _, model_sheets ⟨hu.1, hu.2.1⟩ hu.rot, fun s h0 h1 h2 => setOutcome_deriv h2 ?_⟩
  have := hx (s 0) h0 (s 1) h1
  rwa [get_congr u (i := cell2 (s 0) (s 1)) (j := s) fun j hj => ?_] at this
  rw [hu.1] at hj
  have : j = 0 ∨ j = 1 := by omega
  rcases this with rfl | rfl <;> rfl

end

/-- The log-odds `[[0, log 2], [-log 2, 0]]`: the first player wins a point against the second one with probability 2/3. -/
noncomputable def oddsTwo : NDArray ℝ := ⟨2, fun _ => 2, fun s => if s 0 = s 1 then 0 else if s 0 = 0 then Real.log 2 else -Real.log 2⟩

theorem expit_log_two : expit (Real.log 2) = 2 / 3 := by
  unfold expit
  rw [Real.exp_neg, Real.exp_log (by norm_num)]
  norm_num

theorem oddsTwo_anti : Antisymmetric 2 oddsTwo := by
  refine ⟨rfl, fun _ _ => rfl, fun i hi j hj => ?_⟩
  interval_cases i <;> interval_cases j <;> simp [oddsTwo, cell2, NDArray.get]

theorem oddsTwo_unclipped : ∀ i < 2, ∀ j < 2, gameUnclipped (oddsTwo.get (cell2 i j)) := by
  have h0 : expit 0 = 1 / 2 := by unfold expit; norm_num
  have h1 : expit (-Real.log 2) = 1 / 3 := by rw [expit_neg, expit_log_two]; norm_num
  intro i hi j hj
  unfold gameUnclipped unclipped
  interval_cases i <;> interval_cases j <;> simp [oddsTwo, cell2, NDArray.get, h0, h1, expit_log_two, gameVals] <;> norm_num

/-- The hypotheses of `C33_test_set_partial` are met. -/
example : ∃ B C : (Nat → Nat) → ℝ, (GivesSheets 1 2 3 1 (joinAt 2 (fun _ => 2) fun _ => 7) (fun s => setOutcome (s 2) (oddsTwo.get s)) (fun _ => B) (fun _ _ => C) (setModel.eval [⟨oddsTwo, 0, 0, 0, [], []⟩]) ∧
      GivesSheets 1 2 3 1 (joinAt 2 (fun _ => 2) fun _ => 7) (fun s => setOutcome (s 2) (oddsTwo.get s)) (fun _ => B) (fun _ _ => C) (setModel.sep [⟨oddsTwo, 0, 0, 0, [], []⟩])) ∧
      ∀ s : Nat → Nat, s 0 < 2 → s 1 < 2 → s 2 < 7 → HasDerivAt (setOutcome (s 2)) (B s) (oddsTwo.get s) :=
  C33_test_set_partial oddsTwo_anti oddsTwo_unclipped

theorem setOutcome2_diff (o : Nat) (x : ℝ) : setOutcome2 1 o x - setOutcome2 (-1) o x =
    2 * (∑ k ∈ Finset.range 2, (elems (setGrad (win 0 (expit x)) (win 1 (expit x)) k)).getD o 0 * win2 k (expit x)) * expit1 x ^ 2 := by
  unfold setOutcome2
  simp only [Finset.sum_range_succ, Finset.sum_range_zero, zero_add]
  ring

/-- **C33 fails** for the second derivatives of the model of `test_set`: for `u = [[0, log 2], [-log 2, 0]]`, the second derivative that `eval` and `hess` return for the probability of
6-0 of the first player against the second one is not the derivative of the first derivative.  (`std_error` uses it.) -/
theorem C33_test_set_hess_counterexample : Antisymmetric 2 oddsTwo ∧ (∀ i < 2, ∀ j < 2, gameUnclipped (oddsTwo.get (cell2 i j))) ∧
    ∃ A B C : (Nat → Nat) → ℝ, GivesSheets 1 2 3 1 (joinAt 2 (fun _ => 2) fun _ => 7) A (fun _ => B) (fun _ _ => C) (setModel.eval [⟨oddsTwo, 0, 0, 0, [], []⟩]) ∧
      GivesSheets 1 2 3 1 (joinAt 2 (fun _ => 2) fun _ => 7) A (fun _ => B) (fun _ _ => C) (setModel.sep [⟨oddsTwo, 0, 0, 0, [], []⟩]) ∧
      oddsTwo.get (cell2 0 1) = Real.log 2 ∧ ¬ HasDerivAt (deriv (setOutcome 0)) (C (cell2 0 1)) (Real.log 2) := by
  have h := model_sheets ⟨oddsTwo_anti.1, oddsTwo_anti.2.1⟩ oddsTwo_anti.rot
  have e : oddsTwo.get (cell2 0 1) = Real.log 2 := by simp [oddsTwo, cell2, NDArray.get]
  refine ⟨oddsTwo_anti, oddsTwo_unclipped, _, _, _, h.1, h.2, e, fun hd => ?_⟩
  have hx := oddsTwo_unclipped 0 (by omega) 1 (by omega)
  rw [e] at hx
  have hx' : 1 / 10 ^ 10 < win 0 (expit (Real.log 2)) ∧ win 0 (expit (Real.log 2)) < 1 - 1 / 10 ^ 10 := hx
  have h1 := setOutcome1_deriv (o := 0) (by omega) hx
  have hev : deriv (setOutcome 0) =ᶠ[nhds (Real.log 2)] setOutcome1 0 := by
    filter_upwards [(win_expit_deriv 0 (Real.log 2)).continuousAt (Ioo_mem_nhds hx'.1 hx'.2)] with y hy
    exact (setOutcome_deriv (o := 0) (by omega) hy).deriv
  have h2 := (h1.congr_of_eventuallyEq hev).unique hd
  rw [e] at h2
  have h3 := setOutcome2_diff 0 (Real.log 2)
  have h4 : setOutcome2 1 0 (Real.log 2) - setOutcome2 (-1) 0 (Real.log 2) = 0 := sub_eq_zero.2 h2
  rw [h4] at h3
  have g0 : ∀ p t : ℝ, (elems (setGrad p t 0)).getD 0 0 = 6 * p ^ 5 := fun _ _ => rfl
  have g1 : ∀ p t : ℝ, (elems (setGrad p t 1)).getD 0 0 = 0 := fun _ _ => rfl
  simp only [Finset.sum_range_succ, Finset.sum_range_zero, zero_add, g0, g1, zero_mul, add_zero, expit1, expit_log_two, win, win2, if_true, gameVals, gameHess] at h3
  norm_num at h3

/-! ### one player -/

theorem counts_longer (s size : Nat) : Longer (cOrder (oneFactor s) 1) 1 (fun _ => size) (cOrder (counts s size) 1) where
  n := rfl
  d := rfl
  S k hk := by
    have hk : k < 1 := hk
    simp only [counts, oneFactor]
    rw [if_pos (by omega)]
  T j hj := by
    show (if 1 + 0 + j = 0 then s else size) = size
    rw [if_neg (by omega)]
  nd _ _ := rfl
  P _ _ _ _ := rfl
  e _ _ _ := rfl

theorem expit_pos (x : ℝ) : 0 < expit x ∧ expit x < 1 := by
  unfold expit
  have := Real.exp_pos (-x)
  exact ⟨by positivity, by rw [div_lt_one (by positivity)]; linarith⟩

theorem setOutcome_pos {k : Nat} (hk : k < 7) (x : ℝ) : 0 < setOutcome k x := by
  unfold setOutcome setVals
  have h0 : 0 < Func.setClip (gameVals (expit x)).sum := lt_of_lt_of_le (by norm_num) (le_max_right _ _)
  have h1 : Func.setClip (gameVals (expit x)).sum < 1 := by
    unfold Func.setClip
    exact max_lt ((min_le_right _ _).trans_lt (by norm_num)) (by norm_num)
  have ht : 0 < (tieVals (expit x)).sum := by
    obtain ⟨p0, p1⟩ := expit_pos x
    have hq : 0 < 1 - expit x := by linarith
    have hd := Func.denom_pos (expit x)
    simp only [tieVals, List.sum_cons, List.sum_nil]
    positivity
  generalize Func.setClip (gameVals (expit x)).sum = p at *
  generalize (tieVals (expit x)).sum = t at *
  have hq : 0 < 1 - p := by linarith
  interval_cases k <;> simp only [setPoly] <;> simp <;> positivity

theorem oneFactor_num {s : Nat} {n : Nat → Nat} : (cOrder (oneFactor s) 1).num 0 n = n 0 := by
  show ravel [s] n = n 0
  simp [ravel]

/-- `Set() @ [Collapse(Game(), False), Collapse(TieBreak(), False)]` acts on each entry of an array with one axis. -/
theorem C65_set_chain_partial : Acts (composeT setT [collapseT gameT .none true, collapseT tieT .none true]) 1 1 (fun _ => 7) (fun q d => q = 1 ∧ d = 0) (fun u => unclipped (gameVals (u 0)).sum)
    fun u o => (setVals (gameVals (u 0)).sum (tieVals (u 0)).sum).getD (o 0) 0 := by
  have e4 : ∀ u : Nat → ℝ, (sumOutcome 1 (fun _ => 4) fun o => (gameVals (u 0)).getD (o 0) 0) = (gameVals (u 0)).sum := fun u => sum_getD (gameVals (u 0)) (n := 4) rfl
  have e7 : ∀ u : Nat → ℝ, (sumOutcome 1 (fun _ => 7) fun o => (tieVals (u 0)).getD (o 0) 0) = (tieVals (u 0)).sum := fun u => sum_getD (tieVals (u 0)) (n := 7) rfl
  have h1 := C65_Collapse_partial C65_Game_partial fun _ => 7
  have h2 := C65_Collapse_partial C65_TieBreak_partial fun _ => 7
  simp only [e4] at h1
  simp only [e7] at h2
  have h := C65_compose_acts_partial (r := 1) (g := fun k => if k = 0 then collapseT gameT .none true else collapseT tieT .none true)
    (G := fun k u _ => if k = 0 then (gameVals (u 0)).sum else (tieVals (u 0)).sum) C65_Set_partial fun k hk => by
      have : k = 0 ∨ k = 1 := by omega
      rcases this with rfl | rfl
      · exact h1
      · exact h2
  have e : joinAt 0 (fun _ => 7) (fun _ => 7) = fun _ => 7 := by
    funext j; unfold joinAt; split_ifs <;> rfl
  rw [e] at h
  refine Acts.congr (h.mono (P' := fun q d => q = 1 ∧ d = 0) (fun q d ⟨hq, hd⟩ => ⟨⟨hd, hq, hd⟩, hq, hd⟩) fun u hu => ⟨trivial, fun o _ => hu⟩) fun _ _ _ => rfl

/-- The same for the model of `test_set`. -/
theorem setModel_acts : Acts setModel 1 1 (fun _ => 7) (fun q d => q = 1 ∧ d = 0) (fun u => gameUnclipped (u 0)) fun u o => setOutcome (o 0) (u 0) := by
  have h := C65_compose_acts_partial (r := 0) (g := fun _ => logisticT) C65_set_chain_partial fun _ _ => C65_Logistic (fun q d => q = 1 ∧ d = 0) fun _ => 7
  have e : joinAt 0 (fun _ => 7) (fun _ => 7) = fun _ => 7 := by
    funext j; unfold joinAt; split_ifs <;> rfl
  rw [e] at h
  exact Acts.congr (h.mono (P' := fun q d => q = 1 ∧ d = 0) (fun q d hq => ⟨hq, hq⟩) fun u hu => ⟨trivial, fun o _ => hu⟩) fun _ _ _ => rfl

/-- The log-odds of `s` players for which no game probability is clipped. -/
def oddsOk (s : Nat) (θ : Theta) : Prop := ∀ i < s, gameUnclipped (θ 0 i)

theorem set_computes {s : Nat} (hs : s ≠ 0) : Computes (counts s 7) (cOrder (counts s 7) 1) (fun _ => True) (.solid fun _ => True) (oddsOk s) (composeT setModel [xT])
    fun θ n d => setOutcome (d 0) (θ 0 (n 0)) := by
  have hok : (counts s 7).Ok := ⟨by simp [counts], fun k _ => by simp only [counts]; split_ifs <;> first | assumption | simp⟩
  have hX : Computes (oneFactor s) (cOrder (oneFactor s) 1) (fun _ => True) (Store.whole fun _ => True) (fun _ => True) xT fun θ n _ => θ 0 ((cOrder (oneFactor s) 1).num 0 n) :=
    (C64_X (fun p _ => ⟨rfl, fun _ _ => rfl⟩) rfl).weaken (fun h => h) (fun _ _ h => h) (fun h => h) (fun _ _ _ => Nat.one_pos) (fun h => h) (fun _ _ h => h) (fun _ _ h => h)
  have h := C65_compose_partial (r := 0) (counts_longer s 7) hok (P := fun q d => q = 1 ∧ d = 0) ⟨rfl, rfl⟩ setModel_acts (g := fun _ => xT) fun _ _ => hX
  refine ((h.congr fun θ n d _ => ?_).mono fun θ hθ => ⟨fun _ _ => trivial, fun n d hp => ?_⟩).weaken (fun h => h) (fun _ _ h => h) (fun h => h) (fun _ _ h => h) (fun h => h) (fun _ _ _ => ⟨rfl, trivial⟩)
    (fun _ _ h => h) fun _ _ _ _ h => h
  · unfold composeAt
    simp only [upto_lt Nat.zero_lt_one, oneFactor_num]
    rfl
  · simp only [upto_lt Nat.zero_lt_one, oneFactor_num]
    exact hθ _ (hp.1 0 Nat.one_pos)

/-- **C65.** `NormalizedFinite` with the model `Set() @ [Collapse(Game(), False), Collapse(TieBreak(), False)] @ Logistic() @ X()`, for players with one parameter each (against the field):
`like`, `grad_like` and `hess_like` return the log likelihood and its derivatives. -/
theorem C65_example_set_normalized {s : Nat} (hs : s ≠ 0) {Nw : Num ℝ} (hN : (counts s 7).IsData Nw) :
    FitReturns (counts s 7) (cOrder (counts s 7) 1) (oddsOk s)
      (fun θ => Like.NormalizedFinite.like ((counts s 7).val Nw) (valCell (counts s 7) (fun θ n d => setOutcome (d 0) (θ 0 (n 0))) θ))
      (modelLike (composeT setModel [xT]) (NormalizedFiniteT.like Nw))
      (modelGrad (composeT setModel [xT]) (NormalizedFiniteT.gradLike Nw))
      (modelHess (composeT setModel [xT]) (NormalizedFiniteT.hessLike Nw)) := by
  have hok : (counts s 7).Ok := ⟨by simp [counts], fun k _ => by simp only [counts]; split_ifs <;> first | assumption | simp⟩
  refine C64_fit_normalizedFinite hok hN (set_computes hs) trivial fun θ _ n d hp => setOutcome_pos ?_ _
  have := hp.2.2.1 0 Nat.one_pos
  simpa [counts] using this

/-- **C65.** The same for `Finite`. -/
theorem C65_example_set_finite {s : Nat} (hs : s ≠ 0) {Nw : Num ℝ} (hN : (counts s 7).IsData Nw) :
    FitReturns (counts s 7) (cOrder (counts s 7) 1) (oddsOk s)
      (fun θ => Like.Finite.like ((counts s 7).val Nw) (valCell (counts s 7) (fun θ n d => setOutcome (d 0) (θ 0 (n 0))) θ))
      (modelLike (composeT setModel [xT]) (FiniteT.like Nw))
      (modelGrad (composeT setModel [xT]) (FiniteT.gradLike Nw))
      (modelHess (composeT setModel [xT]) (FiniteT.hessLike Nw)) := by
  have hok : (counts s 7).Ok := ⟨by simp [counts], fun k _ => by simp only [counts]; split_ifs <;> first | assumption | simp⟩
  refine C64_fit_finite hok hN (set_computes hs) trivial trivial fun θ _ n d hp => setOutcome_pos ?_ _
  have := hp.2.2.1 0 Nat.one_pos
  simpa [counts] using this

/-- The parameters 0 and `log 2` are in the domain. -/
example : oddsOk 2 fun _ i => if i = 0 then 0 else Real.log 2 := by
  intro i hi
  have h := oddsTwo_unclipped 0 (by omega) i hi
  interval_cases i <;> simpa [oddsTwo, cell2, NDArray.get] using h

end Verif.Tens
