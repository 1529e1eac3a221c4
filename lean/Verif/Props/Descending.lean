import Verif.Props.Unused

/-!
# C67, C68: terms whose `param_map` is not in increasing order

`hess_like` returns the lower triangle of the blocks, and `flat_hess` updates the block `hess[idx][param_map[j]]`: above the diagonal there is none.
-/

namespace Verif.Tens
open Verif.Params (Err Param flatParams)
open Flat (bind_ok)

set_option linter.unusedSectionVars false

section
variable {α β : Type}

/-- Row `p` has `p + 1` elements. -/
def Lower (h : List (List β)) : Prop := ∀ (p : Nat) (r : List β), h[p]? = some r → r.length = p + 1

theorem updateAt_inv {l l' : List β} {i : Nat} {f : β → Except Err β} (h : updateAt l i f = .ok l') :
    ∃ x y, l[i]? = some x ∧ f x = .ok y ∧ l' = l.set i y := by
  unfold updateAt at h
  cases hx : l[i]? with
  | none => rw [hx] at h; cases h
  | some x =>
    rw [hx] at h
    dsimp only at h
    cases hy : f x with
    | error e => rw [hy] at h; cases h
    | ok y => rw [hy] at h; cases h; exact ⟨x, y, rfl, hy, rfl⟩

theorem updateBlock_inv {h h' : List (List β)} {p q : Nat} {f : β → Except Err β} (hl : Lower h)
    (e : updateAt h p (fun r => updateAt r q f) = .ok h') : Lower h' ∧ q ≤ p := by
  obtain ⟨r, r', h1, h2, rfl⟩ := updateAt_inv e
  obtain ⟨x, y, g1, -, rfl⟩ := updateAt_inv h2
  have hr := hl p r h1
  obtain ⟨g2, -⟩ := List.getElem?_eq_some_iff.1 g1
  refine ⟨fun p' r'' hp' => ?_, by omega⟩
  by_cases c : p' = p
  · subst c
    obtain ⟨g3, -⟩ := List.getElem?_eq_some_iff.1 h1
    rw [List.getElem?_set_self g3] at hp'
    cases hp'
    simpa using hr
  · rw [List.getElem?_set_ne (Ne.symm c)] at hp'
    exact hl p' r'' hp'

theorem fold_lower {γ : Type} {P : γ → Nat} {Q : γ → Nat} {F : γ → β → Except Err β} : ∀ {l : List γ} {h h' : List (List β)}, Lower h →
    l.foldlM (fun h z => updateAt h (P z) fun r => updateAt r (Q z) (F z)) h = .ok h' → Lower h' ∧ ∀ z ∈ l, Q z ≤ P z
  | [], h, h', hl, e => by cases e; exact ⟨hl, by simp⟩
  | z :: l, h, h', hl, e => by
    rw [List.foldlM_cons] at e
    obtain ⟨h1, e1, e2⟩ := bind_ok e
    obtain ⟨a, b⟩ := updateBlock_inv hl e1
    obtain ⟨c, d⟩ := fold_lower a e2
    exact ⟨c, fun y hy => (List.mem_cons.1 hy).elim (fun q => q ▸ b) (d y)⟩

theorem updateBlocks_inv {pm : List Nat} {hg : List (List (Py α))} {op : Py α → Py α → Except Err (Py α)} {h h' : List (List (Py α))} (hl : Lower h)
    (e : updateBlocks pm hg op h = .ok h') : Lower h' ∧ pm.Pairwise (· ≤ ·) := by
  unfold updateBlocks at e
  rw [foldlM_nested (f := fun h (x y : Nat × Nat) => updateAt h x.1 fun row => updateAt row y.1 fun z => do
    let line ← pick hg x.2
    let d ← pick line y.2
    op z d)] at e
  obtain ⟨h1, h2⟩ := fold_lower (P := fun z : (Nat × Nat) × (Nat × Nat) => z.1.1) (Q := fun z => z.2.1) (F := fun z y => do
    let line ← pick hg z.1.2
    let d ← pick line z.2.2
    op y d) hl e
  refine ⟨h1, List.pairwise_iff_getElem.2 fun i j hi hj hij => ?_⟩
  exact h2 ((pm[j], j), (pm[i], i)) (mem_blockPairs.2 ⟨List.getElem?_eq_getElem hj, List.getElem?_eq_getElem hi, by dsimp only; omega⟩)

theorem hessCons_inv [Field α] [DecidableEq α] {params : List (Param α)} : ∀ {cs : List (TTerm α)} {h : List (List (Py α))} {r : List (List (Py α)) × List (List (NDArray α))},
    Lower h → hessCons params cs h = .ok r → Lower r.1 ∧ ∀ t ∈ cs, t.paramMap.Pairwise (· ≤ ·)
  | [], h, r, hl, e => by cases e; exact ⟨hl, by simp⟩
  | t :: ts, h, r, hl, e => by
    unfold hessCons at e
    obtain ⟨args, -, e⟩ := bind_ok e
    obtain ⟨gg, -, e⟩ := bind_ok e
    obtain ⟨hg, -, e⟩ := bind_ok e
    obtain ⟨c, -, e⟩ := bind_ok e
    obtain ⟨h1, e1, e⟩ := bind_ok e
    obtain ⟨⟨h2, c2⟩, e2, e⟩ := bind_ok e
    cases e
    obtain ⟨a, b⟩ := updateBlocks_inv hl e1
    obtain ⟨c, d⟩ := hessCons_inv a e2
    exact ⟨c, fun y hy => (List.mem_cons.1 hy).elim (fun q => q ▸ b) (d y)⟩

theorem hessRegs_inv [Field α] [DecidableEq α] {ps : List (Tensor α)} : ∀ {rs : List (TTerm α)} {h h' : List (List (Py α))},
    Lower h → hessRegs ps rs h = .ok h' → ∀ t ∈ rs, t.paramMap.Pairwise (· ≤ ·)
  | [], h, r, hl, e => by simp
  | t :: ts, h, r, hl, e => by
    unfold hessRegs at e
    obtain ⟨args, -, e⟩ := bind_ok e
    obtain ⟨hg, -, e⟩ := bind_ok e
    obtain ⟨h1, e1, e⟩ := bind_ok e
    obtain ⟨a, b⟩ := updateBlocks_inv hl e1
    exact fun y hy => (List.mem_cons.1 hy).elim (fun q => q ▸ b) (hessRegs_inv a e y)

end

theorem mapM_len {β γ : Type} {f : β → Except Err γ} : ∀ {l : List β} {r : List γ}, l.mapM f = .ok r → r.length = l.length ∧
    ∀ (i : Nat) (y : γ), r[i]? = some y → ∃ x, l[i]? = some x ∧ f x = .ok y
  | [], r, h => by cases h; simp
  | x :: l, r, h => by
    rw [List.mapM_cons] at h
    obtain ⟨y, h1, h⟩ := bind_ok h
    obtain ⟨ys, h2, h⟩ := bind_ok h
    cases h
    obtain ⟨a, b⟩ := mapM_len h2
    refine ⟨by simp [a], fun i z hz => ?_⟩
    cases i with
    | zero => rw [List.getElem?_cons_zero] at hz; cases hz; exact ⟨x, rfl, h1⟩
    | succ i => rw [List.getElem?_cons_succ] at hz; rw [List.getElem?_cons_succ]; exact b i z hz

theorem blocks_lower {α : Type} {n : Nat} {f : Nat → Nat → Except Err (Num α)} {h : List (List (Num α))} (e : blocks n f = .ok h) : Lower h := by
  intro p r hp
  obtain ⟨-, b⟩ := mapM_len e
  obtain ⟨x, x1, x2⟩ := b p r hp
  obtain ⟨l, hl⟩ := List.getElem?_eq_some_iff.1 x1
  have : p = x := by simpa using hl
  subst this
  have := (mapM_len x2).1
  simpa using this

/-- `hess_like` of one of the six likelihood classes. -/
def IsHessLike (h : Num ℝ → List (Num ℝ) → List (List (Num ℝ)) → Except Err (List (List (Num ℝ)))) : Prop :=
  (∃ X N, h = PoissonT.hessLike X N) ∨ (∃ s X N, h = ZeroInflatedPoissonT.hessLike s X N) ∨ (∃ X N, h = LogisticT.hessLike X N) ∨
  (∃ N, h = FiniteT.hessLike N) ∨ (∃ N, h = NormalizedFiniteT.hessLike N) ∨ ∃ r X N, h = NegativeBinomialT.hessLike r X N

theorem IsHessLike.lower {h : Num ℝ → List (Num ℝ) → List (List (Num ℝ)) → Except Err (List (List (Num ℝ)))} (hh : IsHessLike h) {y : Num ℝ} {d : List (Num ℝ)}
    {hs r : List (List (Num ℝ))} (e : h y d hs = .ok r) : Lower r := by
  rcases hh with ⟨X, N, rfl⟩ | ⟨s, X, N, rfl⟩ | ⟨X, N, rfl⟩ | ⟨N, rfl⟩ | ⟨N, rfl⟩ | ⟨s, X, N, rfl⟩
  · unfold PoissonT.hessLike at e
    iterate 3 obtain ⟨_, -, e⟩ := bind_ok e
    exact blocks_lower e
  · unfold ZeroInflatedPoissonT.hessLike at e
    iterate 11 obtain ⟨_, -, e⟩ := bind_ok e
    exact blocks_lower e
  · unfold LogisticT.hessLike at e
    iterate 7 obtain ⟨_, -, e⟩ := bind_ok e
    exact blocks_lower e
  · unfold FiniteT.hessLike at e
    iterate 2 obtain ⟨_, -, e⟩ := bind_ok e
    exact blocks_lower e
  · exact blocks_lower e
  · unfold NegativeBinomialT.hessLike at e
    iterate 13 obtain ⟨_, -, e⟩ := bind_ok e
    exact blocks_lower e

/-- **C67 is false of the code** for every constraint or regularisation that does not list its parameters in increasing order: `flat_hess` does not return, whatever the
parameters, the function of the term and the other terms.  (`hl`: a lower triangle, as all the `hess_like` return, `IsHessLike.lower`.) -/
theorem C67_decreasing_counterexample (params : List (Param ℝ)) {hl : List (List (Num ℝ))} (hlow : Lower hl) {cs rs : List (TTerm ℝ)} {t : TTerm ℝ} (ht : t ∈ cs ++ rs)
    (hd : ¬ t.paramMap.Pairwise (· ≤ ·)) : ∃ e, flatHessT params hl cs rs = .error e := by
  cases h : flatHessT params hl cs rs with
  | error e => exact ⟨e, rfl⟩
  | ok M =>
    exfalso
    unfold flatHessT at h
    obtain ⟨⟨h1, b⟩, e1, h⟩ := bind_ok h
    obtain ⟨h2, e2, -⟩ := bind_ok h
    have hlow' : Lower (hl.map fun l => l.map Py.arr) := by
      intro p r hp
      rw [List.getElem?_map, Option.map_eq_some_iff] at hp
      obtain ⟨x, x1, rfl⟩ := hp
      simpa using hlow p x x1
    obtain ⟨a1, a2⟩ := hessCons_inv hlow' e1
    have a3 := hessRegs_inv a1 e2
    exact hd ((List.mem_append.1 ht).elim (a2 t) (a3 t))

/-- **C68 is false of the code** for such a term: `fit` raises an exception for every number of steps and leaves the parameters as they were: Newton's method always, Broyden's
unless it reuses the Hessian stored by an earlier fit. -/
theorem C68_decreasing_counterexample (M : MaxLikeT ℝ) (hM : IsHessLike M.hessLike) {t : TTerm ℝ} (ht : t ∈ M.constraint ++ M.reg)
    (hd : ¬ t.paramMap.Pairwise (· ≤ ·)) (o : Fit.Obj ℝ (List (List ℝ))) (pinvh : List (List ℝ) → Except Err (List (List ℝ))) (tol : ℝ) (maxSteps verbose : Nat) :
    ((∃ e, (Fit.fit (M.env pinvh tol) o maxSteps verbose .newton).outcome = .error e) ∧
      (Fit.fit (M.env pinvh tol) o maxSteps verbose .newton).obj.params = o.params) ∧
    (o.flatHess = none →
      (∃ e, (Fit.fit (M.env pinvh tol) o maxSteps verbose .broyden).outcome = .error e) ∧
      (Fit.fit (M.env pinvh tol) o maxSteps verbose .broyden).obj.params = o.params) := by
  have hH : ∀ ps y d h, ∃ e, (M.env pinvh tol).flatHess ps y d h = .error e := by
    intro ps y d h
    show ∃ e, (M.hessLike y d h >>= fun hl => flatHessT ps hl M.constraint M.reg) = .error e
    cases e1 : M.hessLike y d h with
    | error e => exact ⟨e, rfl⟩
    | ok hl => exact C67_decreasing_counterexample ps (hM.lower e1) ht hd
  have hN : ∀ ps, ∃ e, Fit.newtonStep (M.env pinvh tol) ps = .error e := by
    intro ps
    cases e1 : Fit.newtonStep (M.env pinvh tol) ps with
    | error e => exact ⟨e, rfl⟩
    | ok r =>
      exfalso
      unfold Fit.newtonStep at e1
      have e := e1
      obtain ⟨⟨y, d, h⟩, -, e⟩ := bind_ok e
      obtain ⟨_, -, e⟩ := bind_ok e
      obtain ⟨_, -, e⟩ := bind_ok e
      obtain ⟨_, e1, e⟩ := bind_ok e
      obtain ⟨e2, h2⟩ := hH ps y d h
      rw [h2] at e1
      cases e1
  refine ⟨?_, fun hnone => ?_⟩
  · unfold Fit.fit
    cases flatParams o.params with
    | error e => exact ⟨⟨e, rfl⟩, rfl⟩
    | ok flat =>
      dsimp only
      cases maxSteps with
      | zero => exact ⟨⟨_, rfl⟩, rfl⟩
      | succ k =>
        unfold Fit.newtonLoop
        obtain ⟨e, he⟩ := hN o.params
        rw [he]
        exact ⟨⟨e, rfl⟩, rfl⟩
  · unfold Fit.fit
    cases flatParams o.params with
    | error e => exact ⟨⟨e, rfl⟩, rfl⟩
    | ok flat =>
      dsimp only
      unfold Fit.broyden
      cases Fit.objective (M.env pinvh tol) o.params with
      | error e => exact ⟨⟨e, rfl⟩, rfl⟩
      | ok g =>
        dsimp only
        split
        · exact ⟨⟨_, rfl⟩, rfl⟩
        · rename_i y der hess grad _
          have hr : Fit.reuseHess (M.env pinvh tol) o grad.length = false := by unfold Fit.reuseHess; rw [hnone]
          obtain ⟨e, he⟩ := hH o.params y der hess
          rw [hr, he]
          exact ⟨⟨e, rfl⟩, rfl⟩

/-- Such a term: a penalty on the parameters 1 and 0, in this order. -/
example : ¬ (⟨[1, 0], quadraticT 0 1⟩ : TTerm ℝ).paramMap.Pairwise (· ≤ ·) := by simp

end Verif.Tens
