import Verif.Lemmas.FlatAssembly
import Verif.Lemmas.LinQuadTerms
import Verif.Props.TestModels

/-!
# C67: `flat_grad` and `flat_hess` return the derivatives of the penalised log-likelihood, and the constraints
-/

set_option linter.unusedSectionVars false

namespace Verif.Tens
open Verif.Params

variable {pr : Problem} {m : Nat} {dom : Theta → Prop} {L : Theta → ℝ} {like : List (Tensor ℝ) → Except Err (Num ℝ)}
  {grad : List (Tensor ℝ) → Except Err (List (Num ℝ))} {hess : List (Tensor ℝ) → Except Err (List (List (Num ℝ)))}

theorem rank_lt {params : List (Param ℝ)} {i a : Nat} (h : isFree params i a) : freeRank params i a < totalFree params := by
  have h1 := Flat.freePairs_getElem? params i a h
  have h2 := (List.getElem?_eq_some_iff.1 h1).1
  rwa [Flat.freePairs, Flat.freePairsFrom_length] at h2

theorem flatEntries_is (params : List (Param ℝ)) (D : Nat → Nat → ℝ) (res : List ℝ) : FlatGradIs params D res (flatEntries params D res) where
  length := by
    unfold flatEntries Flat.freePairs
    rw [List.length_append, List.length_map, Flat.freePairsFrom_length]
  free i a h := by
    unfold flatEntries
    rw [List.getElem?_append_left, List.getElem?_map, Flat.freePairs_getElem? params i a h]
    · rfl
    · rw [List.length_map, Flat.freePairs, Flat.freePairsFrom_length]
      exact rank_lt h
  rest k := by
    unfold flatEntries
    have : ((Flat.freePairs params).map fun x => D x.1 x.2).length = totalFree params := by
      rw [List.length_map, Flat.freePairs, Flat.freePairsFrom_length]
    rw [List.getElem?_append_right (by omega), this, Nat.add_sub_cancel_left]

theorem flatMatrix_is (params : List (Param ℝ)) (H : Nat → Nat → Nat → Nat → ℝ) (ders : List (Nat → Nat → ℝ)) :
    FlatHessIs params H ders (flatMatrix params H ders) := by
  have len : (Flat.freePairs params).length = totalFree params := by rw [Flat.freePairs, Flat.freePairsFrom_length]
  have top : ∀ i a : Nat, isFree params i a → (flatMatrix params H ders)[freeRank params i a]? =
      some (((Flat.freePairs params).map fun y => Flat.fullEntry H (i, a) y) ++ ders.map fun d => d i a) := by
    intro i a h
    unfold flatMatrix
    rw [List.getElem?_append_left (by rw [List.length_map, len]; exact rank_lt h), List.getElem?_map, Flat.freePairs_getElem? params i a h]
    rfl
  have bot : ∀ k : Nat, (flatMatrix params H ders)[totalFree params + k]? =
      ders[k]?.map fun d => ((Flat.freePairs params).map fun x => d x.1 x.2) ++ List.replicate ders.length 0 := by
    intro k
    unfold flatMatrix
    rw [List.getElem?_append_right (by rw [List.length_map, len]; omega), List.length_map, len, Nat.add_sub_cancel_left, List.getElem?_map]
  have sq : ∀ i a j b : Nat, isFree params i a → isFree params j b →
      Flat.mat (flatMatrix params H ders) (freeRank params i a) (freeRank params j b) = some (Flat.fullEntry H (i, a) (j, b)) := by
    intro i a j b hi hj
    unfold Flat.mat
    rw [top i a hi, Option.bind_some, List.getElem?_append_left (by rw [List.length_map, len]; exact rank_lt hj), List.getElem?_map,
      Flat.freePairs_getElem? params j b hj]
    rfl
  constructor
  · unfold flatMatrix
    rw [List.length_append, List.length_map, List.length_map, len]
  · intro line h
    unfold flatMatrix at h
    rcases List.mem_append.1 h with h | h
    · obtain ⟨x, -, rfl⟩ := List.mem_map.1 h
      rw [List.length_append, List.length_map, List.length_map, len]
    · obtain ⟨x, -, rfl⟩ := List.mem_map.1 h
      rw [List.length_append, List.length_map, List.length_replicate, len]
  · intro i j a b hij hi hj
    rw [sq i a j b hi hj]
    unfold Flat.fullEntry
    rw [if_pos hij]
  · intro i j a b hij hi hj
    rw [sq j b i a hj hi]
    unfold Flat.fullEntry
    rw [if_neg (by omega)]
  · intro i a k hi
    unfold Flat.mat
    rw [top i a hi, Option.bind_some, List.getElem?_append_right (by rw [List.length_map, len]; omega), List.length_map, len,
      Nat.add_sub_cancel_left, List.getElem?_map]
  · intro i a k hi
    unfold Flat.mat
    rw [bot]
    cases ders[k]? with
    | none => rfl
    | some d =>
      rw [Option.map_some, Option.bind_some, List.getElem?_append_left (by rw [List.length_map, len]; exact rank_lt hi), List.getElem?_map,
        Flat.freePairs_getElem? params i a hi]
      rfl
  · intro k l hk hl
    unfold Flat.mat
    rw [bot, List.getElem?_eq_getElem hk, Option.map_some, Option.bind_some, List.getElem?_append_right (by rw [List.length_map, len]; omega),
      List.length_map, len, Nat.add_sub_cancel_left, List.getElem?_replicate, if_pos hl]

theorem hasPartial_sub {F G : Theta → ℝ} {θ : Theta} {p a : Nat} {f g : ℝ} (hF : HasPartial F θ p a f) (hG : HasPartial G θ p a g) :
    HasPartial (fun θ => F θ - G θ) θ p a (f - g) := HasDerivAt.sub hF hG

theorem hasPartial_list {β : Type} {F : β → Theta → ℝ} {F' : β → ℝ} {θ : Theta} {p a : Nat} : ∀ {l : List β},
    (∀ x ∈ l, HasPartial (F x) θ p a (F' x)) → HasPartial (fun θ => (l.map fun x => F x θ).sum) θ p a (l.map F').sum
  | [], _ => by
    simp only [List.map_nil, List.sum_nil]
    exact hasDerivAt_const _ _
  | x :: l, h => by
    simp only [List.map_cons, List.sum_cons]
    exact HasDerivAt.add (h x (List.mem_cons_self ..)) (hasPartial_list fun y hy => h y (List.mem_cons_of_mem _ hy))

theorem forall₂_right {β γ : Type} {R : β → γ → Prop} : ∀ {l : List β} {l' : List γ}, List.Forall₂ R l l' → ∀ y ∈ l', ∃ x, R x y
  | _, _, .cons h t, y, hy => (List.mem_cons.1 hy).elim (fun e => ⟨_, e ▸ h⟩) fun hy => forall₂_right t y hy

/-- **C67.** If the methods of the likelihood return the log-likelihood and its derivatives, then `flat_grad` returns the first derivatives of the log-likelihood minus the
penalties with respect to the free entries of the parameters, followed by the values of the constraints, and `flat_hess` the second derivatives, bordered by the first
derivatives of the constraints.  They can fail only with `IndexError`, and not if the arrays that the likelihood returns have the shapes of the parameters. -/
theorem C67_flat_partial (h0 : 0 < m) (hfit : FitReturns pr (cOrder pr m) dom L like grad hess) {cs rs : List (TTerm ℝ)} {gs : List Con} {φs : List Pen}
    (hcs : List.Forall₂ (fun t g => IsConstraint (cOrder pr m) t g.val g.der) cs gs)
    (hrs : List.Forall₂ (fun t φ => IsPenalty (cOrder pr m) t φ.val φ.der φ.hes) rs φs) :
    ∃ (D : Theta → Nat → Nat → ℝ) (H : Theta → Nat → Nat → Nat → Nat → ℝ),
      (∀ θ, dom θ → ∀ p < m, ∀ a < (pr.sizes p).prod, HasPartial (penalised L φs) θ p a (D θ p a)) ∧
      (∀ θ, dom θ → ∀ p < m, ∀ q ≤ p, ∀ a < (pr.sizes p).prod, ∀ b < (pr.sizes q).prod, HasPartial (fun θ => D θ p a) θ q b (H θ p q a b)) ∧
      (∀ θ, ∀ c ∈ gs, ∀ p < m, ∀ a < (pr.sizes p).prod, HasPartial c.val θ p a (c.der θ p a)) ∧
      ∀ θ, dom θ → ∀ params, AtPoint pr m θ params →
        ((∃ v, flatGradM grad params cs rs = .ok v ∧ FlatGradIs params (D θ) (gs.map fun c => c.val θ) v) ∨
          flatGradM grad params cs rs = .error .indexError) ∧
        ((∀ G : Nat → Num ℝ, grad (params.map paramTensor) = .ok (row m G) → ∀ p < m, pr.Whole p (G p)) →
          ∃ v, flatGradM grad params cs rs = .ok v ∧ FlatGradIs params (D θ) (gs.map fun c => c.val θ) v) ∧
        ((∃ M, flatHessM hess params cs rs = .ok M ∧ FlatHessIs params (H θ) (gs.map fun c => c.der θ) M) ∨
          flatHessM hess params cs rs = .error .indexError) ∧
        ((∀ B : Nat → Nat → Num ℝ, hess (params.map paramTensor) = .ok (triangle m B) → ∀ p < m, ∀ q ≤ p, pr.Whole2 p q (B p q)) →
          ∃ M, flatHessM hess params cs rs = .ok M ∧ FlatHessIs params (H θ) (gs.map fun c => c.der θ) M) := by
  obtain ⟨g, h, hr, hg, hh⟩ := hfit
  have ent : ∀ {p a : Nat}, a < (pr.sizes p).prod → pr.Entry p ((cOrder pr m).e p a) := fun ha => entry_iff.2 ha
  refine ⟨fun θ p a => g θ p a - (φs.map fun φ => φ.der θ p a).sum, fun θ p q a b => h θ p q a b - (φs.map fun φ => φ.hes θ p q a b).sum, ?_, ?_, ?_, ?_⟩
  · intro θ hθ p hp a ha
    refine hasPartial_sub (hg θ hθ p hp a (ent ha)) (hasPartial_list (F := fun (φ : Pen) θ => φ.val θ) (F' := fun φ => φ.der θ p a) fun φ hφ => ?_)
    obtain ⟨t, ht⟩ := forall₂_right hrs φ hφ
    exact ht.partials θ p hp a (ent ha)
  · intro θ hθ p hp q hq a ha b hb
    refine hasPartial_sub (hh θ hθ p hp q hq a b (ent ha) (ent hb)) (hasPartial_list (F := fun (φ : Pen) θ => φ.der θ p a) (F' := fun φ => φ.hes θ p q a b) fun φ hφ => ?_)
    obtain ⟨t, ht⟩ := forall₂_right hrs φ hφ
    exact ht.partials2 θ p hp q hq a b (ent ha) (ent hb)
  · intro θ c hc p hp a ha
    obtain ⟨t, ht⟩ := forall₂_right hcs c hc
    exact ht.partials θ p hp a (ent ha)
  · intro θ hθ params hat
    obtain ⟨-, ⟨G, eG, hG⟩, B, eB, hB⟩ := hr θ hθ _ hat.isParams
    have e1 : flatGradM grad params cs rs = flatGradT params (row m G) cs rs := by unfold flatGradM; rw [eG]; rfl
    have e2 : flatHessM hess params cs rs = flatHessT params (triangle m B) cs rs := by unfold flatHessM; rw [eB]; rfl
    obtain ⟨a1, a2, -⟩ := flatGradT_eq hat h0 hcs hrs hG
    obtain ⟨b1, b2⟩ := flatHessT_eq hat h0 hcs hrs hB
    rw [e1, e2]
    exact ⟨a1.imp_left fun e => ⟨_, e, flatEntries_is ..⟩, fun w => ⟨_, a2 (w G eG), flatEntries_is ..⟩,
      b1.imp_left fun e => ⟨_, e, flatMatrix_is ..⟩, fun w => ⟨_, b2 (w B eB), flatMatrix_is ..⟩⟩

theorem row_inj {β : Type} {m : Nat} {f g : Nat → β} (h : row m f = row m g) : ∀ p < m, f p = g p := by
  intro p hp
  have := congrArg (fun l => l[p]?) h
  unfold row at this
  simpa [hp] using this

theorem triangle_inj {β : Type} {m : Nat} {f g : Nat → Nat → β} (h : triangle m f = triangle m g) : ∀ p < m, ∀ q ≤ p, f p q = g p q := fun p hp q hq =>
  row_inj (row_inj (f := fun i => row (i + 1) (f i)) (g := fun i => row (i + 1) (g i)) h p hp) q (by omega)

/-- **C67.** If the methods of the likelihood return the log-likelihood and its derivatives, in arrays with the shapes of the parameters, then `flat_grad` returns the
first derivatives of the log-likelihood minus the penalties with respect to the free entries of the parameters, followed by the values of the constraints, and `flat_hess`
the second derivatives, bordered by the first derivatives of the constraints. -/
theorem C67_flat (h0 : 0 < m) (hfit : FitReturns pr (cOrder pr m) dom L like grad hess) (hw : FitWhole pr (cOrder pr m) dom grad hess)
    {cs rs : List (TTerm ℝ)} {gs : List Con} {φs : List Pen}
    (hcs : List.Forall₂ (fun t g => IsConstraint (cOrder pr m) t g.val g.der) cs gs)
    (hrs : List.Forall₂ (fun t φ => IsPenalty (cOrder pr m) t φ.val φ.der φ.hes) rs φs) :
    ∃ (D : Theta → Nat → Nat → ℝ) (H : Theta → Nat → Nat → Nat → Nat → ℝ),
      (∀ θ, dom θ → ∀ p < m, ∀ a < (pr.sizes p).prod, HasPartial (penalised L φs) θ p a (D θ p a)) ∧
      (∀ θ, dom θ → ∀ p < m, ∀ q ≤ p, ∀ a < (pr.sizes p).prod, ∀ b < (pr.sizes q).prod, HasPartial (fun θ => D θ p a) θ q b (H θ p q a b)) ∧
      (∀ θ, ∀ c ∈ gs, ∀ p < m, ∀ a < (pr.sizes p).prod, HasPartial c.val θ p a (c.der θ p a)) ∧
      ∀ θ, dom θ → ∀ params, AtPoint pr m θ params →
        (∃ v, flatGradM grad params cs rs = .ok v ∧ FlatGradIs params (D θ) (gs.map fun c => c.val θ) v) ∧
        ∃ M, flatHessM hess params cs rs = .ok M ∧ FlatHessIs params (H θ) (gs.map fun c => c.der θ) M := by
  obtain ⟨D, H, h1, h2, h3, h4⟩ := C67_flat_partial h0 hfit hcs hrs
  refine ⟨D, H, h1, h2, h3, fun θ hθ params hat => ?_⟩
  obtain ⟨-, a1, -, a2⟩ := h4 θ hθ params hat
  obtain ⟨⟨G, e1, w1⟩, B, e2, w2⟩ := hw θ hθ _ hat.isParams
  refine ⟨a1 fun G' e' p hp => ?_, a2 fun B' e' p hp q hq => ?_⟩
  · rw [e1] at e'
    rw [← row_inj (Except.ok.inj e') p hp]
    exact w1 p hp
  · rw [e2] at e'
    rw [← triangle_inj (Except.ok.inj e') p hp q hq]
    exact w2 p hp q hq

/-- **C67.** `Linear` with one weight per parameter is a constraint: its value is the weighted sum of the entries of its parameters, the derivatives are the weights. -/
theorem C67_linear {pm : List Nat} (hne : pm ≠ []) (hlt : ∀ p ∈ pm, p < m) (hinc : pm.Pairwise (· < ·)) {w : List ℝ} (hw : w.length = pm.length) :
    IsConstraint (cOrder pr m) ⟨pm, linearT w⟩ (linCon pr pm w).val (linCon pr pm w).der :=
  linear_isConstraint hne hlt hinc hw

/-- **C67.** `Quadratic(u, s)` is a penalty: the sum of the squared standardised entries of its parameters, with its derivatives. -/
theorem C67_quadratic {pm : List Nat} (hlt : ∀ p ∈ pm, p < m) (hinc : pm.Pairwise (· < ·)) {u s : ℝ} (hs : s ≠ 0) :
    IsPenalty (cOrder pr m) ⟨pm, quadraticT u s⟩ (quadPen pr pm u s).val (quadPen pr pm u s).der (quadPen pr pm u s).hes :=
  quadratic_isPenalty hlt hinc hs

/-- The hypotheses of C67 hold for the model of test_poisson_sum with the constraint `Linear([1, 1])` and the penalty `Quadratic(0, 10)` on the first two parameters. -/
theorem C67_example_poisson_sum {s : Nat} (hs : s ≠ 0) {X Nw : Num ℝ} (hX : (square s).IsData X) (hN : (square s).IsData Nw) {θ : Theta} {params : List (Param ℝ)}
    (hat : AtPoint (square s) 3 θ params) :
    ∃ (D : Theta → Nat → Nat → ℝ) (H : Nat → Nat → Nat → Nat → ℝ),
      (∀ θ, ∀ p < 3, ∀ a < ((square s).sizes p).prod, HasPartial (fun θ =>
        Like.Poisson.like ((square s).val X) ((square s).val Nw) (valCell (square s)
          (fun θ n _ => Real.log (Real.exp (θ 0 (n 0) - θ 1 (n 1) + θ 2 0) + Real.exp (θ 0 (n 1) - θ 1 (n 0) - θ 2 0))) θ) -
        ∑ k ∈ Finset.range 2, ∑ a ∈ Finset.range ((square s).sizes k).prod, ((θ k a - 0) / 10) ^ 2) θ p a (D θ p a)) ∧
      (∀ p < 3, ∀ q ≤ p, ∀ a < ((square s).sizes p).prod, ∀ b < ((square s).sizes q).prod, HasPartial (fun θ => D θ p a) θ q b (H p q a b)) ∧
      (∃ v, flatGradM (modelGrad (composeT logT [bothModel]) (PoissonT.gradLike X Nw)) params [⟨[0, 1], linearT [1, 1]⟩] [⟨[0, 1], quadraticT 0 10⟩] = .ok v ∧
        FlatGradIs params (D θ) [∑ k ∈ Finset.range 2, ∑ a ∈ Finset.range ((square s).sizes k).prod, θ k a] v) ∧
      ∃ M, flatHessM (modelHess (composeT logT [bothModel]) (PoissonT.hessLike X Nw)) params [⟨[0, 1], linearT [1, 1]⟩] [⟨[0, 1], quadraticT 0 10⟩] = .ok M ∧
        FlatHessIs params H [fun p _ => if p < 2 then 1 else 0] M := by
  obtain ⟨D, H, h1, h2, -, h4⟩ := C67_flat (m := 3) (by omega) (C65_example_poisson_sum hs hX hN)
    (C67_whole_poisson (square_ok hs) hX hN (poisson_sum_computes hs) trivial fun _ _ => trivial)
    (cs := [⟨[0, 1], linearT [1, 1]⟩]) (rs := [⟨[0, 1], quadraticT 0 10⟩]) (gs := [linCon (square s) [0, 1] [1, 1]]) (φs := [quadPen (square s) [0, 1] 0 10])
    (.cons (C67_linear (by simp) (by simp) (by simp) (by simp)) .nil) (.cons (C67_quadratic (by simp) (by simp) (by norm_num)) .nil)
  refine ⟨D, H θ, fun θ p hp a ha => ?_, h2 θ trivial, ?_, ?_⟩
  · have := h1 θ trivial p hp a ha
    have e : ∀ θ, ((quadPen (square s) [0, 1] 0 10).val θ) =
        ∑ k ∈ Finset.range 2, ∑ a ∈ Finset.range ((square s).sizes k).prod, ((θ k a - 0) / 10) ^ 2 := fun θ => by
      simp [quadPen, Finset.sum_range_succ]
    unfold penalised at this
    simp only [List.map_cons, List.map_nil, List.sum_cons, List.sum_nil, add_zero, e] at this
    exact this
  · have := (h4 θ trivial params hat).1
    simpa [linCon, Finset.sum_range_succ] using this
  · have e : (linCon (square s) [0, 1] [1, 1]).der θ = fun p _ => if p < 2 then 1 else 0 := by
      funext p a
      show (if p ∈ [0, 1] then ([1, 1] : List ℝ).getD (List.idxOf p [0, 1]) 0 else 0) = _
      match p with
      | 0 => simp
      | 1 => simp
      | p + 2 => simp
    have := (h4 θ trivial params hat).2
    simp only [List.map_cons, List.map_nil, e] at this
    exact this

end Verif.Tens
