import Verif.Props.CollapseTerm
import Verif.Props.FuncSumTensor
import Verif.Props.TwoFactor
import Verif.Props.FitFull
import Verif.Props.TennisSet

/-!
# C64: `Collapse(f)` as a part of a model

The sum of the values of a function over all its cells, as a number that other parts of a model can use: for example
`Sum(1).add(X(), 0, 0).add(Collapse(X()), 0, [], weight=-1/s)`, whose values are the entries of the parameter minus their mean.
-/

set_option linter.unusedSectionVars false

namespace Verif.Tens
open Verif.Params
open NDArray

/-- The problem with the same parameters without features and outcomes. -/
def Problem.collapsed (pr : Problem) : Problem := ⟨0, 0, pr.S, pr.nd, pr.P⟩

/-- The layout without features and outcomes. -/
def Layout.collapsed (L : Layout) : Layout := { L with n := 0, d := 0 }

/-- Every second derivative that `f` returns is an array, and if it is a GenericTensor with axes of a parameter, then one of its elements is a Tensor with axes of that parameter. -/
def TallHess (dom : Theta → Prop) {pr : Problem} {m : Nat} (N : Numbering pr m) (f : TFunc ℝ) : Prop :=
  ∀ θ, dom θ → ∀ ps, N.IsParams θ ps → ∀ e, f.eval ps = .ok e ∨ f.sep ps = .ok e → ∀ l ∈ e.hess, ∀ h ∈ l, ∃ v : Num ℝ, h = .arr v ∧ v.HasX ∧ v.HasY

/-- No second derivative that `f` returns is a GenericTensor. -/
def SingleHess (dom : Theta → Prop) {pr : Problem} {m : Nat} (N : Numbering pr m) (f : TFunc ℝ) : Prop :=
  ∀ θ, dom θ → ∀ ps, N.IsParams θ ps → ∀ e, f.eval ps = .ok e ∨ f.sep ps = .ok e → ∀ l ∈ e.hess, ∀ h ∈ l, ∃ t, h = .arr (.tensor t)

theorem SingleHess.tall {dom : Theta → Prop} {pr : Problem} {m : Nat} {N : Numbering pr m} {f : TFunc ℝ} (h : SingleHess dom N f) : TallHess dom N f := by
  intro θ hθ ps hps e he l hl x hx
  obtain ⟨t, ht⟩ := h θ hθ ps hps e he l hl x hx
  exact ⟨.tensor t, ht, trivial, trivial⟩

/-- How the results of `Collapse(f)` are stored. -/
def Store.collapsed (s : Store) (pr : Problem) (m : Nat) : Store :=
  ⟨True, fun _ => True, ∀ p < m, pr.nd p = 0, fun p => s.used p ∧ 0 < pr.nd p, True, fun _ => True, s.dead, fun _ _ => False⟩

section
variable {pr : Problem} {m : Nat} {f : TFunc ℝ} {val : Val} {st : Store}

/-- The sum of one array. -/
theorem collapse_num {L : Layout} (hL : L.Ok) {v : Num ℝ} (h : NumPiece L v) (hs : Solid (fun _ => True) L v) (hc : v.Clean) (hx : v.HasX) (hy : v.HasY) :
    ∃ r, (Py.arr v).sumOver .all true = .ok (.arr (.tensor r)) ∧ (r.IsZero ∨ Piece L.collapsed r) ∧ r.dim = 0 ∧ r.xDim = v.xDim ∧ r.yDim = v.yDim ∧ (v.Dead → r.IsZero) ∧ (¬v.Dead → Piece L.collapsed r) ∧
      ∀ i, (∀ k < L.a, i.x k < L.PX k) → (∀ k < L.b, i.y k < L.PY k) → r.dense i = L.sumCells fun n d => v.dense ⟨i.x, i.y, n, d⟩ := by
  rcases solid_full hs hc with hf | ⟨t, rfl, hz⟩
  · obtain ⟨r, e1, e2, e3, e4, e5, e6, ⟨m1, m2, -, -⟩, fx, fy, e7⟩ := num_sumAll hL h hf
    have hP : Piece L.collapsed r := by
      refine ⟨e2, ?_, ?_, ?_, e5, Or.inl e6, ?_, fun k hk => ⟨?_, fun _ => fx hx k hk⟩, fun k hk => ⟨?_, fun _ => fy hy k hk⟩⟩
      · rw [m1, m2]; simp
      · rw [e3]; exact num_xDim (L := L) h
      · rw [e4]; exact num_yDim' (L := L) h
      · intro k hk
        rw [e6] at hk
        exact absurd hk (Nat.not_lt_zero _)
      · intro h0
        rw [m1] at h0
        simp at h0
      · intro h0
        rw [m2] at h0
        simp at h0
    refine ⟨r, sumOver_ok e1, Or.inr hP, e6, e3, e4, fun hd => ?_, fun _ => hP, e7⟩
    · cases v with
      | tensor t => exact absurd hd.2.1 (hf.1.ne hL)
      | generic g => exact absurd hd id
  · obtain ⟨r, r1, r2⟩ := zero_sumAll hz
    obtain ⟨d1, d2, d3, d4, d5, d6⟩ := hz.dims
    obtain ⟨c1, c2, c3, c4, c5, c6⟩ := r2.dims
    refine ⟨r, sumOver_ok r1, Or.inl r2, c3, c1.trans d1.symm, c2.trans d2.symm, fun _ => r2, fun hd => absurd hz hd, fun i _ _ => ?_⟩
    rw [r2.dense]
    have : L.sumCells (fun n d => (Num.tensor t).dense ⟨i.x, i.y, n, d⟩) = L.sumCells fun _ _ => (0 : ℝ) := sumCells_congr fun n d _ _ => hz.dense _
    rw [this]
    unfold Layout.sumCells
    simp only [sumAt_zero]

theorem wide_hasX {L : Layout} {v : Num ℝ} (h : NumPiece L v) (hc : v.Clean) (hw : v.Wide L.a) : v.HasX := by
  cases v with
  | tensor t => trivial
  | generic g =>
    intro h0
    obtain ⟨e, he⟩ := List.exists_mem_of_ne_nil _ h.2.2.2.2.1
    obtain ⟨t, rfl, ht⟩ := hw e he
    obtain ⟨t', e2, h2⟩ := hc _ he
    cases e2
    refine ⟨t, he, ?_⟩
    rw [ht.resolve_left h2]
    rcases h.1 with h1 | h1
    · exact absurd h1 h0
    · rw [← h1]; exact h0

theorem wide_xDim {L : Layout} {v : Num ℝ} (h : NumPiece L v) (hc : v.Clean) (hw : v.Wide L.a) : v.Dead ∨ v.xDim = L.a := by
  cases v with
  | tensor t => exact hw
  | generic g =>
    right
    obtain ⟨e, he⟩ := List.exists_mem_of_ne_nil _ h.2.2.2.2.1
    obtain ⟨t, rfl, ht⟩ := hw e he
    obtain ⟨t', e2, h2⟩ := hc _ he
    cases e2
    obtain ⟨t'', e3, -, h3, -⟩ := h.2.2.2.2.2 _ he
    cases e3
    rw [ht.resolve_left h2] at h3
    show g.xDim = L.a
    rcases h.1 with h1 | h1 <;> omega

/-- The value of `Collapse(f)`. -/
noncomputable def sumVals (pr : Problem) (val : Val) : Val := fun θ _ _ => ∑ c : pr.Cell, val θ (pr.cellN c) (pr.cellD c)

/-- Its first derivatives. -/
noncomputable def sumDers (pr : Problem) (der : Der) : Der := fun θ p a _ _ => ∑ c : pr.Cell, der θ p a (pr.cellN c) (pr.cellD c)

/-- Its second derivatives. -/
noncomputable def sumHess' (pr : Problem) (hes : Hes) : Hes := fun θ p q a b _ _ => ∑ c : pr.Cell, hes θ p q a b (pr.cellN c) (pr.cellD c)

theorem sumOver_values (hpr : pr.Ok) {θ : Theta} {der : Der} {hes : Hes} {V : Tensor ℝ} {D : Nat → Num ℝ} {H : Nat → Nat → Num ℝ}
    (hv : Values pr (cOrder pr m) (fun _ => True) θ val der hes V D H) (hs : Stored pr m st V D H) (htot : st.tot) (hcl : st.clean)
    (hH : ∀ p < m, ∀ q ≤ p, (H p q).HasX ∧ (H p q).HasY) :
    ∃ V' D' H', (Py.arr (.tensor V)).sumOver .all true = .ok (.arr (.tensor V')) ∧ (∀ p < m, (Py.arr (D p)).sumOver .all true = .ok (.arr (D' p))) ∧
      (∀ p < m, ∀ q ≤ p, (Py.arr (H p q)).sumOver .all true = .ok (.arr (H' p q))) ∧
      Values pr.collapsed (cOrder pr.collapsed m) (fun _ => True) θ (sumVals pr val) (sumDers pr der) (sumHess' pr hes) V' D' H' ∧
      Stored pr.collapsed m (st.collapsed pr m) V' D' H' := by
  have hD : ∀ p, ∃ r : Tensor ℝ, p < m → (Py.arr (D p)).sumOver .all true = .ok (.arr (.tensor r)) ∧ (r.IsZero ∨ Piece (pr.collapsed.layout p p).noY r) ∧ r.dim = 0 ∧
      r.xDim = (D p).xDim ∧ r.yDim = 0 ∧ ((D p).Dead → r.IsZero) ∧
      ∀ a, pr.Entry p ((cOrder pr m).e p a) → ∀ y n d, r.dense ⟨(cOrder pr m).e p a, y, n, d⟩ = ∑ c : pr.Cell, der θ p a (pr.cellN c) (pr.cellD c) := by
    intro p
    by_cases hp : p < m
    · have hy := num_yDim (hv.dp p hp)
      obtain ⟨r, r1, r2, r3, r4, r5, r6, -, r7⟩ := collapse_num (hpr.layoutY p p) (hv.dp p hp) (hv.ds p hp) (hs.cleanD hcl p hp)
        (wide_hasX (hv.dp p hp) (hs.cleanD hcl p hp) (hs.wide hcl p hp)) (by
          cases hd : D p with
          | tensor t => trivial
          | generic g =>
            intro h0
            rw [hd] at hy
            exact absurd hy h0)
      refine ⟨r, fun _ => ⟨r1, r2, r3, r4, r5.trans hy, r6, fun a ha y n d => ?_⟩⟩
      rw [r7 ⟨(cOrder pr m).e p a, y, n, d⟩ ha.1 (fun k hk => absurd hk (Nat.not_lt_zero _))]
      refine Eq.trans (sumCells_eq pr p p ((cOrder pr m).e p a) y (D p).dense) (Finset.sum_congr rfl fun c _ => ?_)
      exact hv.d p hp a ha _ _ (cell_pos c) _
    · exact ⟨V, fun h => absurd h hp⟩
  have hHs : ∀ p q, ∃ r : Tensor ℝ, p < m → q ≤ p → (Py.arr (H p q)).sumOver .all true = .ok (.arr (.tensor r)) ∧ (r.IsZero ∨ Piece (pr.collapsed.layout p q) r) ∧ r.dim = 0 ∧
      (r.xDim = 0 ∨ r.xDim = pr.nd p) ∧ (r.yDim = 0 ∨ r.yDim = pr.nd q) ∧
      ∀ a b, pr.Entry p ((cOrder pr m).e p a) → pr.Entry q ((cOrder pr m).e q b) → ∀ n d, r.dense ⟨(cOrder pr m).e p a, (cOrder pr m).e q b, n, d⟩ =
        ∑ c : pr.Cell, hes θ p q a b (pr.cellN c) (pr.cellD c) := by
    intro p q
    by_cases hpq : p < m ∧ q ≤ p
    · obtain ⟨hp, hq⟩ := hpq
      obtain ⟨tx, ty⟩ := hH p hp q hq
      obtain ⟨r, r1, r2, r3, r4, r5, -, -, r7⟩ := collapse_num (hpr.layout p q) (hv.hp p hp q hq) (hv.hs p hp q hq) (hs.cleanH hcl p hp q hq) tx ty
      refine ⟨r, fun _ _ => ⟨r1, r2, r3, ?_, ?_, fun a b ha hb n d => ?_⟩⟩
      · rw [r4]; exact num_xDim (hv.hp p hp q hq)
      · rw [r5]; exact num_yDim' (hv.hp p hp q hq)
      · rw [r7 ⟨(cOrder pr m).e p a, (cOrder pr m).e q b, n, d⟩ ha.1 hb.1]
        refine Eq.trans (sumCells_eq pr p q ((cOrder pr m).e p a) ((cOrder pr m).e q b) (H p q).dense) (Finset.sum_congr rfl fun c _ => ?_)
        exact hv.h p hp q hq a b ha hb _ _ (cell_pos c)
    · exact ⟨V, fun h h' => absurd ⟨h, h'⟩ hpq⟩
  obtain ⟨t1, t2, -⟩ := hs.tot htot
  obtain ⟨V', v1, -, v3, v4, v5, -, v6, v7⟩ := collapse_num (v := .tensor V) (hpr.layout 0 0) (Or.inl t1) hv.vs trivial trivial trivial
  have v6 := v6 fun h => t1.ne (hpr.layout 0 0) h.2.1
  have v4 : V'.xDim = 0 := v4.trans hv.vx
  have v5 : V'.yDim = 0 := v5.trans hv.vy
  choose D' hD' using hD
  choose H' hH' using hHs
  refine ⟨V', fun p => .tensor (D' p), fun p q => .tensor (H' p q), v1, fun p hp => (hD' p hp).1, fun p hp q hq => (hH' p q hp hq).1, ⟨v4, v5, Or.inr ⟨v6, v3, fun k hk => absurd hk (Nat.not_lt_zero _)⟩, ?_, ?_, ?_, ?_, ?_, ?_, ?_⟩, ⟨?_, ?_, ?_, ?_, ?_, ?_, ?_, ?_, ?_, ?_⟩⟩
  · intro n d _ x y
    obtain ⟨r, r1, r', rfl, w1, w2, w3⟩ := (collapse_arrays hpr hv hs htot hcl).1
    rw [v1] at r1
    cases r1
    rw [Tensor.dense_zero w1 w2]
    exact w3
  · intro p hp
    rcases (hD' p hp).2.1 with h | h
    · exact Or.inr h
    · exact Or.inl h
  · intro p hp
    rcases (hD' p hp).2.1 with h | h
    · exact Or.inl h
    · exact Or.inr ⟨h, (hD' p hp).2.2.1, fun k hk => absurd hk (Nat.not_lt_zero _)⟩
  · intro p hp a ha n d _ y
    exact (hD' p hp).2.2.2.2.2.2 a ha y n d
  · intro p hp q hq
    rcases (hH' p q hp hq).2.1 with h | h
    · exact Or.inr h
    · exact Or.inl h
  · intro p hp q hq
    rcases (hH' p q hp hq).2.1 with h | h
    · exact Or.inl h
    · exact Or.inr ⟨h, (hH' p q hp hq).2.2.1, fun k hk => absurd hk (Nat.not_lt_zero _)⟩
  · intro p hp q hq a b ha hb n d _
    exact (hH' p q hp hq).2.2.2.2.2 a b ha hb n d
  · exact fun _ => ⟨v6, v3, fun k hk => absurd hk (Nat.not_lt_zero _)⟩
  · intro h0 p hp
    have hx : (D' p).xDim = 0 := by
      rw [(hD' p hp).2.2.2.1]
      rcases num_xDim (hv.dp p hp) with h | h
      · exact h
      · exact h.trans (h0 p hp)
    refine ⟨fun k hk => absurd hk (by omega), fun k hk => absurd hk ?_⟩
    rw [(hD' p hp).2.2.2.2.1]
    exact Nat.not_lt_zero _
  · intro h0 p hp q hq
    have h1 := h0 p hp
    have h2 := h0 q (by omega)
    obtain ⟨-, -, -, a1, a2, -⟩ := hH' p q hp hq
    exact ⟨fun k hk => absurd hk (by omega), fun k hk => absurd hk (by omega)⟩
  · rintro p hp ⟨hu, hn⟩
    obtain ⟨d1, -⟩ := numTall_dims (hv.dp p hp) (spans_tall (hv.dp p hp) (hs.live p hp hu))
    have hx : (D' p).xDim = pr.nd p := (hD' p hp).2.2.2.1.trans d1
    refine ⟨fun hz => ?_, hx⟩
    have := hz.dims.1
    omega
  · exact fun _ p hp => trivial
  · exact fun _ p hp q hq => trivial
  · exact fun p hp _ => trivial
  · exact fun p hp h => (hD' p hp).2.2.2.2.2.1 (hs.dead p hp h)
  · exact fun p hp q hq h => absurd h id
  · intro _ p hp
    rcases wide_xDim (hv.dp p hp) (hs.cleanD hcl p hp) (hs.wide hcl p hp) with h | h
    · exact Or.inl ((hD' p hp).2.2.2.2.2.1 h)
    · exact Or.inr ((hD' p hp).2.2.2.1.trans h)

/-- **C64.** `Collapse(f)`: if `f` returns its function with its derivatives, with all axes in full size and, if second derivatives are GenericTensors, with elements that have the axes of the parameters, then `Collapse(f)` returns the sum of the values over
all cells, with its derivatives, as a function without features and outcomes.  With `C64_wrap_partial` and `C64_sum_partial` it can be an atom of a `Sum`. -/
theorem C64_collapse_partial (hpr : pr.Ok) {dom : Theta → Prop} (hf : Computes pr (cOrder pr m) (fun _ => True) st dom f val) (htot : st.tot) (hcl : st.clean)
    (hH : TallHess dom (cOrder pr m) f) :
    Computes pr.collapsed (cOrder pr.collapsed m) (fun _ => True) (st.collapsed pr m) dom (collapseT f .all true)
      fun θ _ _ => ∑ c : pr.Cell, val θ (pr.cellN c) (pr.cellD c) := by
  obtain ⟨⟨der, hes, hsm, hret⟩, -, -⟩ := hf
  refine ⟨⟨sumDers pr der, sumHess' pr hes, ⟨fun θ hθ p hp a ha n d _ => ?_, fun θ hθ p hp q hq a b ha hb n d _ => ?_⟩, fun θ hθ ps hps => ?_⟩, fun h => (by cases h), fun h => (by cases h)⟩
  · exact hasPartial_sum fun c => hsm.hd θ hθ p hp a ha _ _ (cell_pos c)
  · exact hasPartial_sum fun c => hsm.hh θ hθ p hp q hq a b ha hb _ _ (cell_pos c)
  · have hps' : (cOrder pr m).IsParams θ ps := hps
    obtain ⟨⟨V, D, H, ev, hv, ht⟩, V', D', H', ev', hv', ht'⟩ := hret _ hθ ps hps'
    have hm : ∀ (H : Nat → Nat → Num ℝ) (e : Ev3 ℝ), (f.eval ps = .ok e ∨ f.sep ps = .ok e) → e.hess = triangle m (fun p q => .arr (H p q)) → ∀ p < m, ∀ q ≤ p, (H p q).HasX ∧ (H p q).HasY := by
      intro H e he hh p hp q hq
      obtain ⟨v, ht, hxy⟩ := hH θ hθ ps hps' e he (row (p + 1) fun q => .arr (H p q)) (by
        rw [hh]
        exact List.mem_map.2 ⟨p, List.mem_range.2 hp, rfl⟩) (.arr (H p q)) (List.mem_map.2 ⟨q, List.mem_range.2 (by omega), rfl⟩)
      injection ht with ht
      rw [ht]
      exact hxy
    constructor
    · obtain ⟨V1, D1, H1, a1, a2, a3, a4, a5⟩ := sumOver_values hpr hv ht htot hcl (hm H _ (Or.inl ev) rfl)
      refine ⟨V1, D1, H1, ?_, a4, a5⟩
      show (f.eval ps >>= fun e => _) = _
      rw [ev]
      show ((Py.arr (.tensor V)).sumOver .all true >>= fun v => _) = _
      rw [a1]
      show ((row m fun p => Py.arr (D p)).mapM (Py.sumOver .all true) >>= fun g => _) = _
      rw [mapM_row a2]
      show ((triangle m fun p q => Py.arr (H p q)).mapM (fun l => l.mapM (Py.sumOver .all true)) >>= fun h => _) = _
      rw [mapM_triangle a3]
      rfl
    · obtain ⟨V1, D1, H1, a1, a2, a3, a4, a5⟩ := sumOver_values hpr hv' ht' htot hcl (hm H' _ (Or.inr ev') rfl)
      obtain ⟨c1, c2, c3⟩ := (sep_iff hps.1).1 ev'
      refine ⟨V1, D1, H1, (sep_iff hps.1).2 ⟨?_, fun p hp => ?_, fun p hp q hq => ?_⟩, a4, a5⟩
      · show (f.call ps >>= fun v => v.sumOver .all true) = _
        rw [c1]; exact a1
      · show (f.grad ps p >>= fun v => v.sumOver .all true) = _
        rw [c2 p hp]; exact a2 p hp
      · show (f.hess ps p q >>= fun v => v.sumOver .all true) = _
        rw [c3 p hp q hq]; exact a3 p hp q hq

theorem mapM_mem {β γ : Type} {f : β → Except Err γ} : ∀ {l : List β} {r : List γ}, l.mapM f = .ok r → ∀ y ∈ r, ∃ x ∈ l, f x = .ok y
  | [], r, h, y, hy => by
    cases h
    cases hy
  | x :: l, r, h, y, hy => by
    rw [List.mapM_cons] at h
    cases hx : f x with
    | error e => rw [hx] at h; cases h
    | ok z =>
      rw [hx] at h
      cases hl : l.mapM f with
      | error e => rw [hl] at h; cases h
      | ok zs =>
        rw [hl] at h
        cases h
        rcases List.mem_cons.1 hy with rfl | hy
        · exact ⟨x, List.mem_cons_self, hx⟩
        · obtain ⟨x', h1, h2⟩ := mapM_mem hl y hy
          exact ⟨x', List.mem_cons_of_mem _ h1, h2⟩

/-- Functions whose class defines `hess` by `hess_tensor` or as `null_func`. -/
theorem singleHess_methods {dom : Theta → Prop} {N : Numbering pr m} {call : List (Tensor ℝ) → Except Err (Py ℝ)} {grad : List (Tensor ℝ) → Nat → Except Err (Py ℝ)}
    {hess : List (Tensor ℝ) → Nat → Nat → Except Err (Py ℝ)} {g h : Bool} (hh : ∀ ps i j e, hess ps i j = .ok e → ∃ t, e = .arr (.tensor t)) :
    SingleHess dom N (.ofMethods call grad hess g h) := by
  intro θ _ ps _ e he l hl x hx
  have he' : TFunc.sep (.ofMethods call grad hess g h) ps = .ok e := by
    rcases he with h | h <;> exact h
  unfold TFunc.sep at he'
  cases h1 : (TFunc.ofMethods call grad hess g h).call ps with
  | error e' => rw [h1] at he'; cases he'
  | ok v =>
    rw [h1] at he'
    cases h2 : gradAll (TFunc.ofMethods call grad hess g h).grad ps with
    | error e' => rw [h2] at he'; cases he'
    | ok v2 =>
      rw [h2] at he'
      cases h3 : hessAll (TFunc.ofMethods call grad hess g h).hess ps with
      | error e' => rw [h3] at he'; cases he'
      | ok v3 =>
        rw [h3] at he'
        cases he'
        obtain ⟨i, -, hi⟩ := mapM_mem h3 l hl
        obtain ⟨j, -, hj⟩ := mapM_mem hi x hx
        exact hh _ _ _ _ hj

end

/-- The model `Sum(1).add(X(), 0, 0).add(Collapse(X()), 0, [], weight=-1/s)`. -/
noncomputable def centeredModel (s : Nat) : TFunc ℝ :=
  sumT (row 2 fun i => (if i = 0 then 1 else -(1 / s : ℝ), if i = 0 then xT else collapseT xT .all true, ⟨[0], if i = 0 then [0] else [], 1, [], 0, []⟩)) 0

theorem centered_inside0 (s : Nat) : Inside (cOrder (oneFactor s) 1) (cOrder (oneFactor s) 1) [0] [0] [] := by
  refine ⟨by simp, by simp, rfl, fun k hk => rfl, fun k hk j hj => rfl, fun k hk a => ?_, by simp, by simp [oneFactor], rfl, fun k hk => ?_, by simp,
    by simp, rfl, fun k hk => absurd hk (by simp [oneFactor])⟩
  · have : k = 0 := by omega
    subst this; rfl
  · rfl

theorem centered_inside1 (s : Nat) : Inside (cOrder (oneFactor s).collapsed 1) (cOrder (oneFactor s) 1) [0] [] [] := by
  refine ⟨by simp, by simp, rfl, fun k hk => rfl, fun k hk j hj => rfl, fun k hk a => ?_, by simp, by simp, rfl, fun k hk => absurd hk (Nat.not_lt_zero _), by simp,
    by simp, rfl, fun k hk => absurd hk (Nat.not_lt_zero _)⟩
  have : k = 0 := by omega
  subst this; rfl

/-- A concrete case of `C64_collapse_partial`: the entries of the parameter minus their mean. -/
theorem C64_example_centered {s : Nat} (hs : s ≠ 0) : Computes (oneFactor s) (cOrder (oneFactor s) 1) (fun _ => False)
    ⟨True, fun _ => True, False, fun _ => True, True, fun _ => False, fun _ => False, fun _ _ => False⟩ (fun _ => True) (centeredModel s)
    fun θ n _ => θ 0 (n 0) - (∑ a ∈ Finset.range s, θ 0 a) / s := by
  have hpr : (oneFactor s).Ok := ⟨by simp [oneFactor], fun k _ => hs⟩
  have hX := C64_X (pr := oneFactor s) (N := cOrder (oneFactor s) 1) (fun p _ => ⟨rfl, fun _ _ => rfl⟩) rfl
  have hC := C64_collapse_partial hpr hX trivial trivial (singleHess_methods fun ps i j e h => by
    cases h
    exact ⟨_, rfl⟩).tall
  have g0 := C64_wrap_partial (K := fun _ => False) hpr (centered_inside0 s) (fun k _ h => h.elim) hX
  have g1 := C64_wrap_partial (K := fun _ => False) hpr (centered_inside1 s) (fun k _ h => h.elim) hC
  have hs' : (s : ℝ) ≠ 0 := by exact_mod_cast hs
  have hsum := sum_computes hpr (r := 2) (by omega) (w := fun i => if i = 0 then 1 else -(1 / s : ℝ)) (fun i _ => by split_ifs <;> simp [hs'])
    (f := fun i => if i = 0 then xT else collapseT xT .all true) (g := fun i => ⟨[0], if i = 0 then [0] else [], 1, [], 0, []⟩) (K := fun _ => False)
    (st := fun i => ⟨i = 0, fun _ => i = 0, False, fun p => True, True, fun _ => False, fun p => False, fun _ _ => False⟩) (dom := fun _ _ => True)
    (val := fun i θ n _ => if i = 0 then θ 0 (n 0) else ∑ a ∈ Finset.range s, θ 0 a) (N := cOrder (oneFactor s) 1) ?_
  · have e2 : (fun _ : Theta => ∀ i < 2, True) = fun _ => True := by simp
    rw [e2] at hsum
    refine (hsum.congr fun θ n d _ => ?_).weaken (fun _ => ⟨0, by omega, rfl⟩)
      (fun k hk _ => ⟨0, by omega, rfl, rfl⟩) (fun h => h.elim) (fun p hp _ => ⟨0, by omega, trivial⟩) (fun _ _ _ => trivial)
      (fun p hp h => h.elim) fun p hp h => h.elim
    simp [Finset.sum_range_succ]
    ring
  · intro i hi
    have : i = 0 ∨ i = 1 := by omega
    rcases this with rfl | rfl
    · refine (g0.congr fun θ n d _ => ?_).weaken (fun _ => ⟨trivial, Nat.one_pos⟩)
        (fun k hk _ => Or.inl ⟨0, Nat.one_pos, ?_, trivial⟩) (fun h => h.elim) (fun p hp h => ⟨0, Nat.one_pos, ?_, Nat.one_pos⟩) (fun _ => trivial) (fun p hp h => h.elim)
        fun p hp h => h.elim
      · simp [Theta.sub, cOrder, Problem.sizes, oneFactor, ravel, through]
      · have : k < 1 := hk
        simp; omega
      · simp; omega
    · refine (g1.congr fun θ n d _ => ?_).weaken (fun h => absurd h (by decide))
        (fun k hk h => absurd (show 1 = 0 from h) (by decide)) (fun h => h.elim) (fun p hp h => ⟨0, Nat.one_pos, ?_, Nat.one_pos, Nat.one_pos⟩) (fun _ => trivial) (fun p hp h => h.elim)
        fun p hp h => h.elim
      · rw [if_neg (by decide)]
        refine Eq.trans ?_ (sum_vectorOf s (θ 0))
        refine Finset.sum_congr rfl fun c _ => ?_
        rw [oneFactor_num]
        rfl
      · simp; omega

/-- ... so `Poisson` with this model satisfies the hypotheses of the theorems about fits (C68-C74, C77, C78), with any constraints and regularisations. -/
theorem C68_example_centered {s : Nat} (hs : s ≠ 0) {X Nw : Num ℝ} (hX : (oneFactor s).IsData X) (hN : (oneFactor s).IsData Nw) (hT : ∑ c, (oneFactor s).val Nw c ≠ 0)
    {gs : List Con} {φs : List Pen} {cs rs : List (TTerm ℝ)} (hcs : List.Forall₂ (fun t g => IsConstraint (cOrder (oneFactor s) 1) t g.val g.der) cs gs)
    (hrs : List.Forall₂ (fun t φ => IsPenalty (cOrder (oneFactor s) 1) t φ.val φ.der φ.hes) rs φs) :
    Solver (oneFactor s) 1 (fun _ => True) ⟨centeredModel s, PoissonT.like X Nw, PoissonT.gradLike X Nw, PoissonT.hessLike X Nw, Nw, cs, rs⟩
      (fun θ => Like.Poisson.like ((oneFactor s).val X) ((oneFactor s).val Nw) (valCell (oneFactor s) (fun θ n _ => θ 0 (n 0) - (∑ a ∈ Finset.range s, θ 0 a) / s) θ)) gs φs
      (∑ c, (oneFactor s).val Nw c) :=
  C68_solver_poisson ⟨by simp [oneFactor], fun k _ => hs⟩ hX hN Nat.one_pos (C64_example_centered hs) rfl trivial (fun _ _ => trivial) hT hcs hrs

end Verif.Tens
