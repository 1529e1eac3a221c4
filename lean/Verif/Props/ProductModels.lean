import Verif.Props.FuncProductTensor
import Verif.Props.TestModels

/-!
# C66: the models of the test suite that use `Product`

`Product(2, 2)` of two Poisson distributions (tests/matrix_test.py:73-96), for arrays of any size.
-/

namespace Verif.Tens
open Verif.Params (Err)
open NDArray

/-- `Inside` for parameters in C order. -/
theorem inside_cOrder {pr0 pr : Problem} {m0 m : Nat} {pm fm dm : List Nat} (pmS : pm.Pairwise (· < ·)) (pmLt : ∀ p ∈ pm, p < m) (pmLen : pm.length = m0)
    (nd : ∀ k < m0, pr0.nd k = pr.nd (pm.getD k 0)) (P : ∀ k < m0, ∀ j < pr0.nd k, pr0.P k j = pr.P (pm.getD k 0) j)
    (fmN : fm.Nodup) (fmLt : ∀ k ∈ fm, k < pr.n) (fmLen : fm.length = pr0.n) (fmS : ∀ k < pr0.n, pr0.S k = pr.S (fm.getD k 0))
    (dmN : dm.Nodup) (dmLt : ∀ k ∈ dm, k < pr.d) (dmLen : dm.length = pr0.d) (dmS : ∀ k < pr0.d, pr0.S (pr0.n + k) = pr.S (pr.n + dm.getD k 0)) :
    Inside (cOrder pr0 m0) (cOrder pr m) pm fm dm := by
  refine ⟨pmS, pmLt, pmLen, nd, P, fun k hk a => ?_, fmN, fmLt, fmLen, fmS, dmN, dmLt, dmLen, dmS⟩
  show unravel (pr0.sizes k) a = unravel (pr.sizes (pm.getD k 0)) a
  congr 1
  unfold Problem.sizes
  rw [nd k hk]
  refine List.map_congr_left fun j hj => P k hk j ?_
  rw [nd k hk]
  exact List.mem_range.1 hj

theorem solid_axes {L : Layout} {K K' : Nat → Prop} {v : Num ℝ} (h : Solid K L v) (hK : ∀ k < L.n + L.d, K' k → K k) : Solid K' L v := by
  cases v with
  | tensor t => exact h.imp id fun h => ⟨h.1, h.2.1, fun k hk hk' => h.2.2 k hk (hK k hk hk')⟩
  | generic g =>
    refine ⟨h.1, fun e he => ?_⟩
    obtain ⟨t, rfl, ht⟩ := h.2 e he
    exact ⟨t, rfl, ht.imp id fun h => ⟨h.1, h.2.1, fun k hk hk' => h.2.2 k hk (hK k hk hk')⟩⟩

theorem Computes.axes {pr : Problem} {m : Nat} {N : Numbering pr m} {K K' : Nat → Prop} {s : Store} {dom : Theta → Prop} {f : TFunc ℝ} {val : Val}
    (h : Computes pr N K s dom f val) (hK : ∀ k < pr.n + pr.d, K' k → K k) : Computes pr N K' s dom f val := by
  obtain ⟨⟨der, hess, h1, h2⟩, h3, h4⟩ := h
  have hR : ∀ {θ x}, Returns pr N K s θ val der hess x → Returns pr N K' s θ val der hess x := by
    rintro θ x ⟨V, D, H, e, hv, ht⟩
    refine ⟨V, D, H, e, ?_, ht⟩
    exact ⟨hv.vx, hv.vy, solid_axes hv.vs hK, hv.v, hv.dp, fun p hp => solid_axes (hv.ds p hp) hK, hv.d, hv.hp,
      fun p hp q hq => solid_axes (hv.hs p hp q hq) hK, hv.h⟩
  exact ⟨⟨der, hess, h1, fun θ hθ ps hps => ⟨hR (h2 θ hθ ps hps).1, hR (h2 θ hθ ps hps).2⟩⟩, h3, h4⟩

/-- The problem `square` with one outcome that has `size` values. -/
def squareCounts (s size : Nat) : Problem := ⟨2, 1, fun k => if k < 2 then s else size, fun p => if p = 2 then 0 else 1, fun _ _ => s⟩

/-- The same with two outcomes. -/
def squareMatrix (s size : Nat) : Problem := ⟨2, 2, fun k => if k < 2 then s else size, fun p => if p = 2 then 0 else 1, fun _ _ => s⟩

theorem square_longer (s size : Nat) : Longer (cOrder (square s) 3) 1 (fun _ => size) (cOrder (squareCounts s size) 3) where
  n := rfl
  d := rfl
  S k hk := by
    have hk : k < 2 := hk
    simp only [squareCounts, square]
    rw [if_pos hk]
  T j hj := by
    have : j = 0 := by omega
    subst this; rfl
  nd _ _ := rfl
  P _ _ _ _ := rfl
  e _ _ _ := rfl

theorem squareMatrix_ok {s size : Nat} (hs : s ≠ 0) (hz : size ≠ 0) : (squareMatrix s size).Ok :=
  ⟨by simp [squareMatrix], fun k _ => by simp only [squareMatrix]; split_ifs <;> assumption⟩

/-- `Poisson(size) @ Exp() @ f`, with `f = X(a)[i] - X(b)[j] + c * h` (matrix_test.py:76-88) -/
noncomputable def countModel (size : Nat) (c : ℝ) : TFunc ℝ := composeT (composeT (poissonT size) [expT]) [pairModel c]

theorem count_computes {s size : Nat} (hs : s ≠ 0) (hz : size ≠ 0) {c : ℝ} (hc : c ≠ 0) :
    Computes (squareCounts s size) (cOrder (squareCounts s size) 3) (fun _ => True) (.solid fun _ => True) (fun _ => True) (countModel size c)
      fun θ n d => Real.exp (θ 0 (n 0) - θ 1 (n 1) + c * θ 2 0) ^ d 0 / ((d 0).factorial : ℝ) := by
  have hok : (squareCounts s size).Ok := ⟨by simp [squareCounts], fun k _ => by simp only [squareCounts]; split_ifs <;> assumption⟩
  have h := C65_compose_acts_partial (r := 0) (C65_Poisson size) (g := fun _ => expT) fun _ _ => C65_Exp (fun _ _ => True) fun _ => size
  have e : joinAt 0 (fun _ => size) (fun _ => size) = fun _ => size := by
    funext j; unfold joinAt; split_ifs <;> rfl
  rw [e] at h
  have h' := h.mono (P' := fun _ d => d = 0) (fun _ d hd => ⟨trivial, hd⟩) (U' := fun _ => True) fun u _ => ⟨trivial, fun o _ => trivial⟩
  have := C65_compose_partial (r := 0) (square_longer s size) hok (P := fun _ d => d = 0) rfl h' (g := fun _ => pairModel c) fun _ _ => pair_computes hs hc
  refine ((this.congr fun θ n d _ => ?_).mono fun θ _ => ⟨fun _ _ => trivial, fun _ _ _ => trivial⟩).weaken (fun _ => trivial) (fun _ _ _ => trivial) (fun _ => trivial)
    (fun _ _ _ => trivial) (fun _ => trivial) (fun _ _ _ => ⟨rfl, trivial⟩) (fun _ _ h => h.elim) fun _ _ _ _ h => h
  unfold composeAt
  simp only [upto_lt Nat.zero_lt_one]
  rfl

/-- `F = Product(2, 2); F.add(F1, [0, 1, 2], [0, 1], 0); F.add(F2, [0, 1, 2], [1, 0], 1)` (matrix_test.py:90-92, `o = 0`), or with the outcomes
exchanged (matrix_test.py:220-222, `o = 1`) -/
noncomputable def matrixModel (size o : Nat) : TFunc ℝ :=
  productT (row 2 fun i => (countModel size (if i = 0 then 1 / 2 else -(1 / 2)), ⟨[0, 1, 2], if i = 0 then [0, 1] else [1, 0], 2, [if i = 0 then o else 1 - o], 2, []⟩))

theorem matrix_inside {s size i o : Nat} (ho : o < 2) :
    Inside (cOrder (squareCounts s size) 3) (cOrder (squareMatrix s size) 3) [0, 1, 2] (if i = 0 then [0, 1] else [1, 0]) [if i = 0 then o else 1 - o] := by
  have h3 : ∀ k < 3, [0, 1, 2].getD k 0 = k := by
    intro k hk
    match k, hk with
    | 0, _ => rfl
    | 1, _ => rfl
    | 2, _ => rfl
  have h2 : ∀ k, k < 2 → (if i = 0 then [0, 1] else [1, 0]).getD k 0 < 2 := by
    intro k hk
    match k, hk with
    | 0, _ => split_ifs <;> simp
    | 1, _ => split_ifs <;> simp
  refine inside_cOrder (by simp) (by simp) rfl (fun k hk => by rw [h3 k hk]; rfl) (fun k hk j hj => rfl) (by split_ifs <;> simp) (fun k hk => ?_) (by split_ifs <;> rfl)
    (fun k hk => ?_) (by simp) (fun k hk => ?_) rfl fun k hk => ?_
  · show k < 2
    split_ifs at hk <;> simp at hk <;> omega
  · have hk : k < 2 := hk
    simp only [squareCounts, squareMatrix]
    rw [if_pos hk, if_pos (h2 k hk)]
  · have : k = if i = 0 then o else 1 - o := by simpa using hk
    subst this
    show _ < 2
    split_ifs <;> omega
  · simp only [squareCounts, squareMatrix]
    rw [if_neg (by omega), if_neg (by omega)]

theorem matrix_computes {s size o : Nat} (hs : s ≠ 0) (hz : size ≠ 0) (ho : o < 2) :
    Computes (squareMatrix s size) (cOrder (squareMatrix s size) 3) (fun _ => True) (.solid fun _ => False) (fun _ => True) (matrixModel size o)
      fun θ n d => Real.exp (θ 0 (n 0) - θ 1 (n 1) + 1 / 2 * θ 2 0) ^ d o / ((d o).factorial : ℝ) *
        (Real.exp (θ 0 (n 1) - θ 1 (n 0) - 1 / 2 * θ 2 0) ^ d (1 - o) / ((d (1 - o)).factorial : ℝ)) := by
  have hpr := squareMatrix_ok hs hz
  have h3 : ∀ k < 3, [0, 1, 2].getD k 0 = k := by
    intro k hk
    match k, hk with
    | 0, _ => rfl
    | 1, _ => rfl
    | 2, _ => rfl
  have hax : ∀ i k, k < 2 → ∃ j < 2, k = (if i = 0 then [0, 1] else [1, 0]).getD j 0 := by
    intro i k hk
    by_cases c : i = 0
    · refine ⟨k, hk, ?_⟩
      rw [if_pos c]
      match k, hk with
      | 0, _ => rfl
      | 1, _ => rfl
    · refine ⟨1 - k, by omega, ?_⟩
      rw [if_neg c]
      match k, hk with
      | 0, _ => rfl
      | 1, _ => rfl
  have key : ∀ {i k : Nat}, (k < 2 ∨ k = 2 + (if i = 0 then o else 1 - o)) → (∃ j < 2, k = (if i = 0 then [0, 1] else [1, 0]).getD j 0 ∧ True) ∨ ∃ j < 1, k = 2 + [if i = 0 then o else 1 - o].getD j 0 ∧ True := by
    intro i k hk
    rcases hk with hk | hk
    · obtain ⟨j, hj, e⟩ := hax i k hk
      exact Or.inl ⟨j, hj, e, trivial⟩
    · exact Or.inr ⟨0, Nat.one_pos, hk, trivial⟩
  have cov : ∀ k < 4, ∃ i < 2, k < 2 ∨ k = 2 + (if i = 0 then o else 1 - o) := by
    intro k hk
    by_cases h : k = 2 + o
    · exact ⟨0, by omega, Or.inr h⟩
    · refine ⟨1, by omega, ?_⟩
      rw [if_neg one_ne_zero]
      omega
  have hW : ∀ i, i < 2 → _ := fun i hi => C64_wrap_partial (K := fun k => k < 2 ∨ k = 2 + (if i = 0 then o else 1 - o)) hpr (matrix_inside (s := s) (size := size) ho) (fun k _ hk => key hk)
    (count_computes hs hz (c := if i = 0 then 1 / 2 else -(1 / 2)) (by split_ifs <;> norm_num))
  have hprod := C66_product hpr (r := 2) (by omega) (K := fun i k => k < 2 ∨ k = 2 + (if i = 0 then o else 1 - o)) (K' := fun k => k < 4)
    (f := fun i => countModel size (if i = 0 then 1 / 2 else -(1 / 2)))
    (g := fun i => ⟨[0, 1, 2], if i = 0 then [0, 1] else [1, 0], 2, [if i = 0 then o else 1 - o], 2, []⟩)
    (st := fun i => ⟨True, fun k => k < 2 ∨ k = 2 + (if i = 0 then o else 1 - o), True, fun _ => True, True, fun _ => True, fun _ => False, fun _ _ => True⟩) (dom := fun _ _ => True)
    (val := fun i θ n d => Real.exp (if i = 0 then θ 0 (n 0) - θ 1 (n 1) + 1 / 2 * θ 2 0 else θ 0 (n 1) - θ 1 (n 0) - 1 / 2 * θ 2 0) ^ d (if i = 0 then o else 1 - o) / ((d (if i = 0 then o else 1 - o)).factorial : ℝ))
    (N := cOrder (squareMatrix s size) 3) (fun k hk => Or.inr ⟨⟨fun i hi => ⟨trivial, trivial, fun _ _ => trivial⟩, fun _ _ => trivial⟩, ?_⟩) ?_
  · have e2 : (fun _ : Theta => ∀ i < 2, True) = fun _ => True := by simp
    rw [e2] at hprod
    refine ((hprod.congr fun θ n d _ => ?_).axes (K' := fun _ => True) fun k hk _ => hk).weaken (fun _ i hi => trivial) (fun k hk _ => ?_) (fun _ _ _ => trivial) (fun p hp _ => ⟨0, by omega, trivial, fun _ _ _ => trivial⟩)
      (fun _ => ⟨fun i hi => ⟨trivial, trivial, fun _ _ => trivial⟩, fun _ _ => trivial⟩) (fun p hp h => h.elim) (fun p hp h => h.elim) (fun _ _ _ _ _ _ _ => ⟨trivial, trivial⟩)
    · rw [Finset.prod_range_succ, Finset.prod_range_one]
      simp only [if_true, one_ne_zero, if_false]
    · have hk : k < 4 := hk
      exact cov k hk
  · exact cov k hk
  · intro i hi
    refine (((hW i hi).congr fun θ n d _ => ?_).mono fun θ _ => trivial).weaken (fun _ => ⟨trivial, by simp [squareCounts]⟩)
        (fun k hk h => key h) (fun _ => trivial) (fun p hp h => ⟨p, hp, h3 p hp, trivial⟩) (fun _ => trivial) (fun p hp h _ _ _ => trivial) (fun p hp h => h.elim)
        fun p hp q hq h => ⟨p, hp, q, Nat.lt_of_le_of_lt hq hp, h3 p hp, h3 q (Nat.lt_of_le_of_lt hq hp), h⟩
    by_cases c : i = 0
    · subst c
      simp [Theta.sub, through]
    · have : i = 1 := by omega
      subst this
      simp only [if_neg c]
      simp [Theta.sub, through]
      congr 2

/-- **C66.** `Finite(dim=2)` with a `Product` of two Poisson distributions (test_poisson_matrix): `like`, `grad_like` and `hess_like` return the log
likelihood and its derivatives, for all parameters. -/
theorem C66_example_matrix {s size : Nat} (hs : s ≠ 0) (hz : size ≠ 0) {Nw : Num ℝ} (hN : (squareMatrix s size).IsData Nw) :
    FitReturns (squareMatrix s size) (cOrder (squareMatrix s size) 3) (fun _ => True)
      (fun θ => Like.Finite.like ((squareMatrix s size).val Nw) (valCell (squareMatrix s size)
        (fun θ n d => Real.exp (θ 0 (n 0) - θ 1 (n 1) + 1 / 2 * θ 2 0) ^ d 0 / ((d 0).factorial : ℝ) *
          (Real.exp (θ 0 (n 1) - θ 1 (n 0) - 1 / 2 * θ 2 0) ^ d 1 / ((d 1).factorial : ℝ))) θ))
      (modelLike (matrixModel size 0) (FiniteT.like Nw))
      (modelGrad (matrixModel size 0) (FiniteT.gradLike Nw))
      (modelHess (matrixModel size 0) (FiniteT.hessLike Nw)) := by
  refine C64_fit_finite (squareMatrix_ok hs hz) hN (matrix_computes hs hz Nat.two_pos) trivial trivial fun θ _ n d _ => ?_
  have h1 := Real.exp_pos (θ 0 (n 0) - θ 1 (n 1) + 1 / 2 * θ 2 0)
  have h2 := Real.exp_pos (θ 0 (n 1) - θ 1 (n 0) - 1 / 2 * θ 2 0)
  positivity

/-! ### test_poisson2 and test_poisson3 -/

/-- What is known about the way in which results are stored: the values are not `Tensor(0)` (if `t`), nor are the derivatives with respect to the parameters `u`. -/
def Store.only (t : Prop) (u : Nat → Prop) : Store := ⟨t, fun _ => False, False, u, False, fun _ => False, fun _ => False, fun _ _ => False⟩

theorem Computes.only {pr : Problem} {m : Nat} {N : Numbering pr m} {K : Nat → Prop} {s : Store} {dom dom' : Theta → Prop} {f : TFunc ℝ} {val val' : Val} {t : Prop}
    {u : Nat → Prop} (h : Computes pr N K s dom f val) (ht : t → s.tot) (hu : ∀ p < m, u p → s.used p) (hd : ∀ θ, dom' θ → dom θ)
    (he : ∀ θ n d, pr.Pos n d → val θ n d = val' θ n d) : Computes pr N (fun _ => False) (.only t u) dom' f val' :=
  (((h.congr he).mono hd).axes fun _ _ h => h.elim).weaken ht (fun _ _ h => h.elim) (fun h => h.elim) hu (fun h => h.elim)
    (fun _ _ h => h.elim) fun _ _ h => h.elim

/-- Two features with `s` values; parameters 0 and 1 are vectors with `s` entries, the others are numbers. -/
def plane (s : Nat) : Problem := ⟨2, 0, fun _ => s, fun p => if p < 2 then 1 else 0, fun _ _ => s⟩

/-- The same with a third feature that has `u` values. -/
def cube (s u : Nat) : Problem := ⟨3, 0, fun k => if k < 2 then s else u, fun p => if p < 2 then 1 else 0, fun _ _ => s⟩

theorem plane_ok {s : Nat} (hs : s ≠ 0) : (plane s).Ok := ⟨by simp [plane], fun _ _ => hs⟩

theorem cube_ok {s u : Nat} (hs : s ≠ 0) (hu : u ≠ 0) : (cube s u).Ok :=
  ⟨by simp [cube], fun k _ => by simp only [cube]; split_ifs <;> assumption⟩

theorem inside_plane {s i j : Nat} (hi : i < 2) (hj : j < 2) : Inside (cOrder (oneFactor s) 1) (cOrder (plane s) 2) [i] [j] [] := by
  refine inside_cOrder (by simp) (by simp; omega) rfl (fun k hk => ?_) (fun k hk j hj => rfl) (by simp) (fun k hk => ?_) rfl (fun k hk => rfl) (by simp) (by simp) rfl
    fun k hk => absurd hk (by simp [oneFactor])
  · have : k = 0 := by omega
    subst this
    show 1 = if i < 2 then 1 else 0
    rw [if_pos hi]
  · have : k = j := by simpa using hk
    subst this; exact hj

theorem inside_number {s m : Nat} (hm : 2 < m) : Inside (cOrder number 1) (cOrder (plane s) m) [2] [] [] :=
  inside_cOrder (by simp) (by simp; omega) rfl (fun k hk => by have : k = 0 := by omega
                                                               subst this; rfl)
    (fun k hk j hj => absurd hj (by simp [number])) (by simp) (by simp) rfl (fun k hk => absurd hk (by simp [number])) (by simp) (by simp) rfl
    fun k hk => absurd hk (by simp [number])

theorem inside_two {s : Nat} : Inside (cOrder (plane s) 2) (cOrder (plane s) 3) [0, 1] [0, 1] [] := by
  refine inside_cOrder (by simp) (by simp) rfl (fun k hk => ?_) (fun k hk j hj => rfl) (by simp) (fun k hk => ?_) rfl (fun k hk => rfl) (by simp) (by simp) rfl
    fun k hk => absurd hk (by simp [plane])
  · match k, hk with
    | 0, _ => rfl
    | 1, _ => rfl
  · show k < 2
    simp at hk; omega

theorem inside_three {s : Nat} : Inside (cOrder (plane s) 3) (cOrder (plane s) 4) [0, 1, 3] [0, 1] [] := by
  refine inside_cOrder (by simp) (by simp) rfl (fun k hk => ?_) (fun k hk j hj => rfl) (by simp) (fun k hk => ?_) rfl (fun k hk => rfl) (by simp) (by simp) rfl
    fun k hk => absurd hk (by simp [plane])
  · match k, hk with
    | 0, _ => rfl
    | 1, _ => rfl
    | 2, _ => rfl
  · show k < 2
    simp at hk; omega

theorem inside_plane_cube {s u : Nat} : Inside (cOrder (plane s) 4) (cOrder (cube s u) 4) [0, 1, 2, 3] [0, 1] [] := by
  refine inside_cOrder (by simp) (by simp) rfl (fun k hk => ?_) (fun k hk j hj => rfl) (by simp) (fun k hk => ?_) rfl (fun k hk => ?_) (by simp) (by simp) rfl
    fun k hk => absurd hk (by simp [plane])
  · match k, hk with
    | 0, _ => rfl
    | 1, _ => rfl
    | 2, _ => rfl
    | 3, _ => rfl
  · show k < 3
    simp at hk; omega
  · have hk : k < 2 := hk
    match k, hk with
    | 0, _ => rfl
    | 1, _ => rfl

theorem inside_constant {s u : Nat} : Inside (cOrder (oneNumber u) 0) (cOrder (cube s u) 4) [] [2] [] := by
  refine inside_cOrder (by simp) (by simp) rfl (fun k hk => by omega) (fun k hk => by omega) (by simp) (by simp [cube]) rfl (fun k hk => ?_) (by simp) (by simp) rfl
    fun k hk => absurd hk (by simp [oneNumber])
  have : k = 0 := by simpa [oneNumber] using hk
  subst this; rfl

theorem inside_factor {s u i : Nat} (hi : i < 2) : Inside (cOrder (oneFactor s) 1) (cOrder (cube s u) 4) [i] [i] [] := by
  refine inside_cOrder (by simp) (by simp; omega) rfl (fun k hk => ?_) (fun k hk j hj => rfl) (by simp) (fun k hk => ?_) rfl (fun k hk => ?_) (by simp) (by simp) rfl
    fun k hk => absurd hk (by simp [oneFactor])
  · have : k = 0 := by omega
    subst this
    show 1 = if i < 2 then 1 else 0
    rw [if_pos hi]
  · have : k = i := by simpa using hk
    subst this
    show k < 3
    omega
  · have : k = 0 := by simpa [oneFactor] using hk
    subst this
    show s = if i < 2 then s else u
    rw [if_pos hi]

theorem inside_cube {s u : Nat} : Inside (cOrder (cube s u) 4) (cOrder (cube s u) 4) [0, 1, 2, 3] [0, 1, 2] [] := by
  refine inside_cOrder (by simp) (by simp) rfl (fun k hk => ?_) (fun k hk j hj => rfl) (by simp) (fun k hk => ?_) rfl (fun k hk => ?_) (by simp) (by simp) rfl
    fun k hk => absurd hk (by simp [cube])
  · match k, hk with
    | 0, _ => rfl
    | 1, _ => rfl
    | 2, _ => rfl
    | 3, _ => rfl
  · show k < 3
    simp at hk; omega
  · have hk : k < 3 := hk
    match k, hk with
    | 0, _ => rfl
    | 1, _ => rfl
    | 2, _ => rfl

/-- `s_diff`: `Sum(2).add(s, [0, 1], [0, 1]).add(-s, [0, 1], [1, 0])` with `s = Sum(2).add(X(), 0, 0).add(-X(), 1, 1)` (tests.py:150-155): `Sum.add` adds
the four terms of the sums (func_op.py:182-190) -/
noncomputable def diffModel : TFunc ℝ :=
  sumT (row 4 fun i => (if i = 0 ∨ i = 3 then 1 else -1, xT, ⟨[i % 2], [if i < 2 then i else 3 - i], 2, [], 0, []⟩)) 0

theorem diff_computes {s : Nat} (hs : s ≠ 0) : Computes (plane s) (cOrder (plane s) 2) (fun _ => False) (.only True fun _ => False) (fun _ => True) diffModel
    fun θ n _ => (θ 0 (n 0) - θ 1 (n 1)) - (θ 0 (n 1) - θ 1 (n 0)) := by
  have hP : (oneFactor s).Pointwise 1 := fun p _ => ⟨rfl, fun _ _ => rfl⟩
  have hg : ∀ i, i < 4 → _ := fun i hi => C64_wrap_partial (K := fun _ => False) (plane_ok hs) (inside_plane (s := s) (i := i % 2) (j := if i < 2 then i else 3 - i) (by omega) (by split_ifs <;> omega))
    (fun k _ h => h.elim) (C64_X (N := cOrder (oneFactor s) 1) hP rfl)
  have hsum := sum_computes (plane_ok hs) (r := 4) (by omega) (w := fun i => if i = 0 ∨ i = 3 then 1 else -1) (fun i _ => by split_ifs <;> simp) (K := fun _ => False)
    (f := fun _ => xT) (g := fun i => ⟨[i % 2], [if i < 2 then i else 3 - i], 2, [], 0, []⟩) (dom := fun _ _ => True) (st := fun _ => .only True fun _ => False)
    (val := fun i θ n _ => θ (i % 2) (n (if i < 2 then i else 3 - i))) (N := cOrder (plane s) 2)
    fun i hi => (hg i hi).only (fun _ => ⟨trivial, Nat.one_pos⟩) (fun _ _ h => h.elim) (fun _ _ => trivial) fun θ n d _ => by simp [Theta.sub, cOrder, Problem.sizes, oneFactor, ravel, through]
  refine hsum.only (fun _ => ⟨0, by omega, trivial⟩) (fun _ _ h => h.elim) (fun _ _ _ _ => trivial) fun θ n d _ => ?_
  simp [Finset.sum_range_succ]
  ring

/-- `hs = Product(2).add(Scalar(), 2, None).add(s_diff, [0, 1], [0, 1])` (tests.py:158-160) -/
noncomputable def hsModel : TFunc ℝ :=
  productT (row 2 fun i => (if i = 0 then scalarT else diffModel, if i = 0 then ⟨[2], [], 2, [], 0, []⟩ else ⟨[0, 1], [0, 1], 2, [], 0, []⟩))

theorem hs_computes {s : Nat} (hs : s ≠ 0) : Computes (plane s) (cOrder (plane s) 3) (fun _ => False) (.only False (· = 2)) (fun _ => True) hsModel
    fun θ n _ => θ 2 0 * ((θ 0 (n 0) - θ 1 (n 1)) - (θ 0 (n 1) - θ 1 (n 0))) := by
  have g0 := C64_wrap_partial (K := fun _ => False) (plane_ok hs) (inside_number (s := s) (m := 3) (by omega)) (fun k _ h => h.elim) (C64_Scalar (N := cOrder number 1) rfl rfl rfl)
  have g1 := C64_wrap_partial (K := fun _ => False) (plane_ok hs) (inside_two (s := s)) (fun k _ h => h.elim) (diff_computes hs)
  have hprod := C66_product (plane_ok hs) (r := 2) (by omega) (K := fun _ _ => False) (K' := fun _ => False) (f := fun i => if i = 0 then scalarT else diffModel)
    (g := fun i => if i = 0 then ⟨[2], [], 2, [], 0, []⟩ else ⟨[0, 1], [0, 1], 2, [], 0, []⟩) (dom := fun _ _ => True) (st := fun i => .only (i = 1) fun p => i = 0 ∧ p = 2)
    (val := fun i θ n _ => if i = 0 then θ 2 0 else (θ 0 (n 0) - θ 1 (n 1)) - (θ 0 (n 1) - θ 1 (n 0))) (N := cOrder (plane s) 3) (fun _ h => h.elim) ?_
  · refine hprod.only (fun h => h.elim) (fun p _ h => ⟨0, by omega, ⟨rfl, h⟩, fun j hj h0 => by show j = 1; omega⟩) (fun _ _ _ _ => trivial) fun θ n d _ => ?_
    simp [Finset.prod_range_succ]
  · intro i hi
    have : i = 0 ∨ i = 1 := by omega
    rcases this with rfl | rfl
    · exact g0.only (fun h => absurd h (by omega)) (fun p _ h => ⟨0, by simp, h.2.symm, trivial⟩) (fun _ _ => trivial) fun θ n d _ => by simp [Theta.sub, cOrder, Problem.sizes, number, ravel]
    · exact g1.only (fun _ => ⟨trivial, Nat.two_pos⟩) (fun p _ h => absurd h.1 (by omega)) (fun _ _ => trivial) fun θ n d _ => by simp [Theta.sub, through]

/-- `h_diff = Sum(2).add(Scalar(), 2, None).add(hs, [0, 1, 3], [0, 1])` (tests.py:161-163) -/
noncomputable def hDiffModel : TFunc ℝ :=
  sumT (row 2 fun i => (1, if i = 0 then scalarT else hsModel, if i = 0 then ⟨[2], [], 2, [], 0, []⟩ else ⟨[0, 1, 3], [0, 1], 2, [], 0, []⟩)) 0

theorem hDiff_computes {s : Nat} (hs : s ≠ 0) : Computes (plane s) (cOrder (plane s) 4) (fun _ => False) (.only False fun p => p = 2 ∨ p = 3) (fun _ => True) hDiffModel
    fun θ n _ => θ 2 0 + θ 3 0 * ((θ 0 (n 0) - θ 1 (n 1)) - (θ 0 (n 1) - θ 1 (n 0))) := by
  have g0 := C64_wrap_partial (K := fun _ => False) (plane_ok hs) (inside_number (s := s) (m := 4) (by omega)) (fun k _ h => h.elim) (C64_Scalar (N := cOrder number 1) rfl rfl rfl)
  have g1 := C64_wrap_partial (K := fun _ => False) (plane_ok hs) (inside_three (s := s)) (fun k _ h => h.elim) (hs_computes hs)
  have hsum := sum_computes (plane_ok hs) (r := 2) (by omega) (w := fun _ => 1) (fun _ _ => one_ne_zero) (K := fun _ => False) (f := fun i => if i = 0 then scalarT else hsModel)
    (g := fun i => if i = 0 then ⟨[2], [], 2, [], 0, []⟩ else ⟨[0, 1, 3], [0, 1], 2, [], 0, []⟩) (dom := fun _ _ => True) (st := fun i => .only False fun p => p = 2 + i)
    (val := fun i θ n _ => if i = 0 then θ 2 0 else θ 3 0 * ((θ 0 (n 0) - θ 1 (n 1)) - (θ 0 (n 1) - θ 1 (n 0)))) (N := cOrder (plane s) 4) ?_
  · refine hsum.only (fun h => h.elim) (fun p _ h => h.elim (fun h => ⟨0, by omega, h⟩) fun h => ⟨1, by omega, h⟩) (fun _ _ _ _ => trivial) fun θ n d _ => ?_
    simp [Finset.sum_range_succ]
  · intro i hi
    have : i = 0 ∨ i = 1 := by omega
    rcases this with rfl | rfl
    · exact g0.only (fun h => h.elim) (fun p _ h => ⟨0, by simp, h.symm, trivial⟩) (fun _ _ => trivial) fun θ n d _ => by simp [Theta.sub, cOrder, Problem.sizes, number, ravel]
    · exact g1.only (fun h => h.elim) (fun p _ h => ⟨2, by simp, h.symm, rfl⟩) (fun _ _ => trivial) fun θ n d _ => by simp [Theta.sub, through]

/-- `H = Product(3).add(Constant(vector), [], 2).add(h_diff, [0, 1, 2, 3], [0, 1])` (tests.py:164-166) -/
noncomputable def bigHModel (vector : NDArray ℝ) : TFunc ℝ :=
  productT (row 2 fun i => (if i = 0 then constantT vector else hDiffModel, if i = 0 then ⟨[], [2], 3, [], 0, []⟩ else ⟨[0, 1, 2, 3], [0, 1], 3, [], 0, []⟩))

theorem bigH_computes {s u : Nat} (hs : s ≠ 0) (hu : u ≠ 0) {vector : NDArray ℝ} (h1 : vector.ndim = 1) (h2 : vector.shape 0 = u) :
    Computes (cube s u) (cOrder (cube s u) 4) (fun _ => False) (.only False fun p => p = 2 ∨ p = 3) (fun _ => True) (bigHModel vector)
    fun θ n _ => (vector.get fun _ => n 2) * (θ 2 0 + θ 3 0 * ((θ 0 (n 0) - θ 1 (n 1)) - (θ 0 (n 1) - θ 1 (n 0)))) := by
  have g0 := C64_wrap_partial (K := fun _ => False) (cube_ok hs hu) (inside_constant (s := s)) (fun k _ h => h.elim)
    (C64_Constant (N := cOrder (oneNumber u) 0) rfl h1 (fun k hk => by have : k = 0 := by simpa [oneNumber] using hk
                                                                       subst this; exact h2))
  have g1 := C64_wrap_partial (K := fun _ => False) (cube_ok hs hu) (inside_plane_cube (s := s)) (fun k _ h => h.elim) (hDiff_computes hs)
  have hprod := C66_product (cube_ok hs hu) (r := 2) (by omega) (K := fun _ _ => False) (K' := fun _ => False) (f := fun i => if i = 0 then constantT vector else hDiffModel)
    (g := fun i => if i = 0 then ⟨[], [2], 3, [], 0, []⟩ else ⟨[0, 1, 2, 3], [0, 1], 3, [], 0, []⟩) (dom := fun _ _ => True)
    (st := fun i => .only (i = 0) fun p => i = 1 ∧ (p = 2 ∨ p = 3))
    (val := fun i θ n _ => if i = 0 then vector.get fun _ => n 2 else θ 2 0 + θ 3 0 * ((θ 0 (n 0) - θ 1 (n 1)) - (θ 0 (n 1) - θ 1 (n 0)))) (N := cOrder (cube s u) 4) (fun _ h => h.elim) ?_
  · refine hprod.only (fun h => h.elim) (fun p _ h => ⟨1, by omega, ⟨rfl, h⟩, fun j hj h0 => by show j = 0; omega⟩) (fun _ _ _ _ => trivial) fun θ n d _ => ?_
    simp [Finset.prod_range_succ]
  · intro i hi
    have : i = 0 ∨ i = 1 := by omega
    rcases this with rfl | rfl
    · exact g0.only (fun _ => ⟨trivial, Nat.one_pos⟩) (fun p _ h => absurd h.1 (by omega)) (fun _ _ => trivial) fun θ n d _ => get_congr _ fun j hj => by
        have : j = 0 := by omega
        subst this; rfl
    · exact g1.only (fun h => absurd h (by omega)) (fun p _ h => ⟨p, by simp; omega, by rcases h.2 with rfl | rfl <;> rfl, h.2⟩) (fun _ _ => trivial) fun θ n d _ => by simp [Theta.sub, through]

/-- `F = Sum(3).add(s, [0, 1], [0, 1]).add(H, [0, 1, 2, 3], [0, 1, 2])` (tests.py:168-170) -/
noncomputable def poisson3Model (vector : NDArray ℝ) : TFunc ℝ :=
  sumT (row 3 fun i => (if i = 1 then -1 else 1, if i = 2 then bigHModel vector else xT, if i = 2 then ⟨[0, 1, 2, 3], [0, 1, 2], 3, [], 0, []⟩ else ⟨[i], [i], 3, [], 0, []⟩)) 0

theorem poisson3_computes {s u : Nat} (hs : s ≠ 0) (hu : u ≠ 0) {vector : NDArray ℝ} (h1 : vector.ndim = 1) (h2 : vector.shape 0 = u) :
    Computes (cube s u) (cOrder (cube s u) 4) (fun _ => False) (.only True fun p => p < 4) (fun _ => True) (poisson3Model vector)
    fun θ n _ => θ 0 (n 0) - θ 1 (n 1) + (vector.get fun _ => n 2) * (θ 2 0 + θ 3 0 * ((θ 0 (n 0) - θ 1 (n 1)) - (θ 0 (n 1) - θ 1 (n 0)))) := by
  have hP : (oneFactor s).Pointwise 1 := fun p _ => ⟨rfl, fun _ _ => rfl⟩
  have g0 : ∀ i < 2, _ := fun i hi => C64_wrap_partial (K := fun _ => False) (cube_ok hs hu) (inside_factor (s := s) (u := u) hi) (fun k _ h => h.elim) (C64_X (N := cOrder (oneFactor s) 1) hP rfl)
  have g2 := C64_wrap_partial (K := fun _ => False) (cube_ok hs hu) (inside_cube (s := s)) (fun k _ h => h.elim) (bigH_computes hs hu h1 h2)
  have hsum := sum_computes (cube_ok hs hu) (r := 3) (by omega) (w := fun i => if i = 1 then -1 else 1) (fun i _ => by split_ifs <;> simp) (K := fun _ => False)
    (f := fun i => if i = 2 then bigHModel vector else xT)
    (g := fun i => if i = 2 then ⟨[0, 1, 2, 3], [0, 1, 2], 3, [], 0, []⟩ else ⟨[i], [i], 3, [], 0, []⟩) (dom := fun _ _ => True)
    (st := fun i => .only (i < 2) fun p => if i < 2 then p = i else p = 2 ∨ p = 3)
    (val := fun i θ n _ => if i = 2 then (vector.get fun _ => n 2) * (θ 2 0 + θ 3 0 * ((θ 0 (n 0) - θ 1 (n 1)) - (θ 0 (n 1) - θ 1 (n 0)))) else θ i (n i)) (N := cOrder (cube s u) 4) ?_
  · refine hsum.only (fun _ => ⟨0, by omega, Nat.two_pos⟩) (fun p hp _ => ?_) (fun _ _ _ _ => trivial) fun θ n d _ => ?_
    · by_cases h : p < 2
      · exact ⟨p, by omega, by simp [Store.only, h]⟩
      · exact ⟨2, by omega, by simp [Store.only]; omega⟩
    simp [Finset.sum_range_succ]
    ring
  · intro i hi
    by_cases h2 : i = 2
    · subst h2
      refine g2.only (fun h => absurd h (by simp)) (fun p _ h => ?_) (fun _ _ => trivial) fun θ n d _ => ?_
      · have h : p = 2 ∨ p = 3 := by simpa using h
        exact ⟨p, by simp; omega, by rcases h with rfl | rfl <;> rfl, h⟩
      simp [Theta.sub, through]
    · have hi2 : i < 2 := by omega
      simp only [if_neg h2]
      refine (g0 i hi2).only (fun _ => ⟨trivial, Nat.one_pos⟩) (fun p _ h => ⟨0, by simp, ?_, Nat.one_pos⟩) (fun _ _ => trivial) fun θ n d _ => ?_
      · rw [if_pos hi2] at h
        exact h.symm
      simp [Theta.sub, cOrder, Problem.sizes, oneFactor, ravel, through]

/-- **C66.** `Poisson` with the model of test_poisson3, a sum of products of sums: `like`, `grad_like` and `hess_like` return the log likelihood and its
derivatives, for all parameters. -/
theorem C66_example_poisson3 {s u : Nat} (hs : s ≠ 0) (hu : u ≠ 0) {vector : NDArray ℝ} (h1 : vector.ndim = 1) (h2 : vector.shape 0 = u) {X Nw : Num ℝ}
    (hX : (cube s u).IsData X) (hN : (cube s u).IsData Nw) :
    FitReturns (cube s u) (cOrder (cube s u) 4) (fun _ => True)
      (fun θ => Like.Poisson.like ((cube s u).val X) ((cube s u).val Nw) (valCell (cube s u)
        (fun θ n _ => θ 0 (n 0) - θ 1 (n 1) + (vector.get fun _ => n 2) * (θ 2 0 + θ 3 0 * ((θ 0 (n 0) - θ 1 (n 1)) - (θ 0 (n 1) - θ 1 (n 0))))) θ))
      (modelLike (poisson3Model vector) (PoissonT.like X Nw))
      (modelGrad (poisson3Model vector) (PoissonT.gradLike X Nw))
      (modelHess (poisson3Model vector) (PoissonT.hessLike X Nw)) :=
  C64_fit_poisson (cube_ok hs hu) hX hN (poisson3_computes hs hu h1 h2) trivial

/-! ### test_poisson2 -/

theorem number_inside_oneNumber (u : Nat) : Inside (cOrder number 1) (cOrder (oneNumber u) 1) [0] [] [] :=
  inside_cOrder (by simp) (by simp) rfl (fun k hk => by have : k = 0 := by omega
                                                        subst this; rfl)
    (fun k hk j hj => absurd hj (by simp [number])) (by simp) (by simp) rfl (fun k hk => absurd hk (by simp [number])) (by simp) (by simp) rfl
    fun k hk => absurd hk (by simp [number])

theorem constant_inside_oneNumber (u : Nat) : Inside (cOrder (oneNumber u) 0) (cOrder (oneNumber u) 1) [] [0] [] := by
  refine inside_cOrder (by simp) (by simp) rfl (fun k hk => by omega) (fun k hk => by omega) (by simp) (by simp [oneNumber]) rfl (fun k hk => ?_) (by simp) (by simp) rfl
    fun k hk => absurd hk (by simp [oneNumber])
  rfl

/-- `f_h = Product(1).add(k, None, 0).add(Scalar(), 0, None)` (tests.py:113); `Product.add` turns `None` into `[]` (func_op.py, `IndexMap`) -/
noncomputable def fhModel (vector : NDArray ℝ) : TFunc ℝ :=
  productT (row 2 fun i => (if i = 0 then constantT vector else scalarT, if i = 0 then ⟨[], [0], 1, [], 0, []⟩ else ⟨[0], [], 1, [], 0, []⟩))

theorem fh_computes {u : Nat} (hu : u ≠ 0) {vector : NDArray ℝ} (h1 : vector.ndim = 1) (h2 : vector.shape 0 = u) :
    Computes (oneNumber u) (cOrder (oneNumber u) 1) (fun _ => False) (.only False fun _ => True) (fun _ => True) (fhModel vector)
      fun θ n _ => (vector.get fun _ => n 0) * θ 0 0 := by
  have hpr : (oneNumber u).Ok := ⟨by simp [oneNumber], fun _ _ => hu⟩
  have g0 := C64_wrap_partial (K := fun _ => False) hpr (constant_inside_oneNumber u) (fun k _ h => h.elim)
    (C64_Constant (N := cOrder (oneNumber u) 0) rfl h1 (fun k hk => by have : k = 0 := by simpa [oneNumber] using hk
                                                                       subst this; exact h2))
  have g1 := C64_wrap_partial (K := fun _ => False) hpr (number_inside_oneNumber u) (fun k _ h => h.elim) (C64_Scalar (N := cOrder number 1) rfl rfl rfl)
  have hprod := C66_product hpr (r := 2) (by omega) (K := fun _ _ => False) (K' := fun _ => False) (f := fun i => if i = 0 then constantT vector else scalarT)
    (g := fun i => if i = 0 then ⟨[], [0], 1, [], 0, []⟩ else ⟨[0], [], 1, [], 0, []⟩) (dom := fun _ _ => True) (st := fun i => .only (i = 0) fun _ => i = 1)
    (val := fun i θ n _ => if i = 0 then vector.get fun _ => n 0 else θ 0 0) (N := cOrder (oneNumber u) 1) (fun _ h => h.elim) ?_
  · refine hprod.only (fun h => h.elim) (fun p _ _ => ⟨1, by omega, rfl, fun j hj h0 => by show j = 0; omega⟩) (fun _ _ _ _ => trivial) fun θ n d _ => ?_
    simp [Finset.prod_range_succ]
  · intro i hi
    have : i = 0 ∨ i = 1 := by omega
    rcases this with rfl | rfl
    · exact g0.only (fun _ => ⟨trivial, Nat.one_pos⟩) (fun p _ h => absurd h (by simp [Store.only])) (fun _ _ => trivial) fun θ n d _ => get_congr _ fun j hj => by
        have : j = 0 := by omega
        subst this; rfl
    · exact g1.only (fun h => absurd h (by omega)) (fun p hp _ => ⟨0, by simp, by show 0 = p; omega, trivial⟩) (fun _ _ => trivial) fun θ n d _ => by
        simp [Theta.sub, cOrder, Problem.sizes, number, ravel]

/-- The model of test_poisson2: `Sum(3)` of `s` on the first two features and `f_h` on the third (tests.py:108-115); `Sum.add` adds the terms of `s` one by one -/
noncomputable def poisson2Model (vector : NDArray ℝ) : TFunc ℝ :=
  sumT (row 3 fun i => (if i = 1 then -1 else 1, if i = 2 then fhModel vector else xT, ⟨[i], [i], 3, [], 0, []⟩)) 0

theorem poisson2_computes {s t u : Nat} (hs : s ≠ 0) (ht : t ≠ 0) (hu : u ≠ 0) {vector : NDArray ℝ} (h1 : vector.ndim = 1) (h2 : vector.shape 0 = u) :
    Computes (threeFactor s t u) (cOrder (threeFactor s t u) 3) (fun _ => False) (.only True fun p => p < 3) (fun _ => True) (poisson2Model vector)
      fun θ n _ => θ 0 (n 0) - θ 1 (n 1) + (vector.get fun _ => n 2) * θ 2 0 := by
  have hpr : (threeFactor s t u).Ok := ⟨by simp [threeFactor], fun k _ => by simp only [threeFactor]; split_ifs <;> assumption⟩
  have hP : ∀ u, (oneFactor u).Pointwise 1 := fun u p _ => ⟨rfl, fun _ _ => rfl⟩
  have g0 := C64_wrap_partial (K := fun _ => False) hpr (three_inside0 s t u) (fun k _ h => h.elim) (C64_X (N := cOrder (oneFactor s) 1) (hP s) rfl)
  have g1 := C64_wrap_partial (K := fun _ => False) hpr (three_inside1 s t u) (fun k _ h => h.elim) (C64_X (N := cOrder (oneFactor t) 1) (hP t) rfl)
  have g2 := C64_wrap_partial (K := fun _ => False) hpr (three_inside2 s t u) (fun k _ h => h.elim) (fh_computes hu h1 h2)
  have hsum := sum_computes hpr (r := 3) (by omega) (w := fun i => if i = 1 then -1 else 1) (fun i _ => by split_ifs <;> simp)
    (f := fun i => if i = 2 then fhModel vector else xT) (g := fun i => ⟨[i], [i], 3, [], 0, []⟩) (K := fun _ => False)
    (st := fun i => .only (i < 2) fun p => p = i) (dom := fun _ _ => True)
    (val := fun i θ n _ => if i = 2 then (vector.get fun _ => n 2) * θ 2 0 else θ i (n i)) (N := cOrder (threeFactor s t u) 3) ?_
  · refine hsum.only (fun _ => ⟨0, by omega, Nat.two_pos⟩) (fun p hp _ => ⟨p, hp, rfl⟩) (fun _ _ _ _ => trivial) fun θ n d _ => ?_
    simp [Finset.sum_range_succ]
    ring
  · intro i hi
    have : i = 0 ∨ i = 1 ∨ i = 2 := by omega
    rcases this with rfl | rfl | rfl
    · exact g0.only (fun _ => ⟨trivial, Nat.one_pos⟩) (fun p _ h => ⟨0, by simp, Eq.symm h, Nat.one_pos⟩) (fun _ _ => trivial) fun θ n d _ => by
        simp [Theta.sub, cOrder, Problem.sizes, oneFactor, ravel, through]
    · exact g1.only (fun _ => ⟨trivial, Nat.one_pos⟩) (fun p _ h => ⟨0, by simp, Eq.symm h, Nat.one_pos⟩) (fun _ _ => trivial) fun θ n d _ => by
        simp [Theta.sub, cOrder, Problem.sizes, oneFactor, ravel, through]
    · exact g2.only (fun h => absurd h (by omega)) (fun p _ h => ⟨0, by simp, Eq.symm h, trivial⟩) (fun _ _ => trivial) fun θ n d _ => by
        simp [Theta.sub, through]

end Verif.Tens
