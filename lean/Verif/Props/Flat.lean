import Verif.Lemmas.FlatHess
import Verif.Lemmas.Linear
import Mathlib.Algebra.BigOperators.Fin
import Mathlib.Tactic.NormNum
import Mathlib.Tactic.FinCases

/-!
# C15, C16, C17: flat gradient and flat Hessian
-/

namespace Verif.Flat
open Verif.Params

variable {R : Type}

/-- C15.  With valid indices `flat_grad` succeeds; the result has one component per free entry and
one per constraint.  The component of free entry `a` of parameter `i` sits at its rank and is the
likelihood gradient minus the regularisation gradients; the residuals of the constraints follow, in
the order the constraints were added. -/
theorem C15_flat_grad_layout [CommRing R] (params : List (Param R)) (hne : params ≠ [])
    (gl : Nat → Nat → R) (cs rs : List (Term R))
    (hc : ∀ t ∈ cs, t.Valid params ∧ t.paramMap ≠ []) (hr : ∀ t ∈ rs, t.Valid params) :
    ∃ v, flatGrad params gl cs rs = .ok v ∧ v.length = totalFree params + cs.length ∧
      (∀ i a, isFree params i a → v[freeRank params i a]? =
        some (gl i a - (rs.map fun t => termGrad params t i a).sum)) ∧
      (∀ (k : Nat) t, cs[k]? = some t →
        v[totalFree params + k]? = some (t.val (argsOf params t.paramMap))) := by
  refine ⟨_, flatGrad_eq params hne gl cs rs hc hr, ?_, ?_, ?_⟩
  · simp [freePairs, freePairsFrom_length]
  · intro i a h
    have hg := freePairs_getElem? params i a h
    rw [List.getElem?_append_left, List.getElem?_map, hg]
    · rfl
    · rw [List.length_map]; exact (List.getElem?_eq_some_iff.mp hg).1
  · intro k t ht
    rw [List.getElem?_append_right (by simp [freePairs, freePairsFrom_length])]
    simp [freePairs, freePairsFrom_length, ht]

/-- C16.  With valid, increasing parameter maps and symmetric diagonal blocks `flat_hess` returns a
square symmetric matrix of size (free entries + constraints): likelihood Hessian minus
regularisation Hessians at pairs of free entries, constraint gradients in the border rows and
columns, zeros in the corner. -/
theorem C16_flat_hess_bordered_partial [CommRing R] (params : List (Param R)) (hne : params ≠ [])
    (hl : Nat → Nat → Nat → Nat → R) (cs rs : List (Term R))
    (hc : ∀ t ∈ cs, t.Valid params ∧ StrictlyIncreasing t.paramMap)
    (hr : ∀ t ∈ rs, t.Valid params ∧ StrictlyIncreasing t.paramMap)
    (hd : ∀ k a b, hl k k a b = hl k k b a)
    (hdr : ∀ t ∈ rs, ∀ k a b, t.hess (argsOf params t.paramMap) k k a b =
      t.hess (argsOf params t.paramMap) k k b a) :
    ∃ M, flatHess params hl cs rs = .ok M ∧
      M.length = totalFree params + cs.length ∧
      (∀ row ∈ M, row.length = totalFree params + cs.length) ∧
      (∀ i a j b, isFree params i a → isFree params j b →
        mat M (freeRank params i a) (freeRank params j b) =
          some (symBlocks hl i j a b - (rs.map fun t => termHessFull params t i a j b).sum)) ∧
      (∀ (k : Nat) t i a, cs[k]? = some t → isFree params i a →
        mat M (totalFree params + k) (freeRank params i a) = some (termGrad params t i a) ∧
        mat M (freeRank params i a) (totalFree params + k) = some (termGrad params t i a)) ∧
      (∀ k l : Nat, k < cs.length → l < cs.length →
        mat M (totalFree params + k) (totalFree params + l) = some 0) ∧
      (∀ r s : Nat, mat M r s = mat M s r) := by
  obtain ⟨h, e1, e2⟩ := flatHess_eq params hne hl cs rs
    (fun t ht => ⟨(hc t ht).1, (hc t ht).2.nonDecreasing⟩)
    (fun t ht => ⟨(hr t ht).1, (hr t ht).2.nonDecreasing⟩)
  have hF : (freePairs params).length = totalFree params := by
    simp [freePairs, freePairsFrom_length]
  have hfull := fullEntry_sub params hl h rs (fun t ht => ⟨(hr t ht).2, hdr t ht⟩) hd e1
  have hsym : ∀ x y, fullEntry h x y = fullEntry h y x := by
    intro x y
    rw [hfull, hfull, symBlocks_symm hl hd]
    congr 2
    apply List.map_congr_left
    intro t ht
    exact termHessFull_symm params t (hdr t ht) _ _ _ _
  refine ⟨_, e2, by simp [hF], ?_, ?_, ?_, ?_, ?_⟩
  · intro row hrow
    simp only [List.mem_append, List.mem_map] at hrow
    rcases hrow with ⟨x, _, rfl⟩ | ⟨t, _, rfl⟩ <;> simp [hF]
  · intro i a j b ha hb
    have h1 := freePairs_getElem? params i a ha
    have h2 := freePairs_getElem? params j b hb
    have h1l := (List.getElem?_eq_some_iff.mp h1).1
    have h2l := (List.getElem?_eq_some_iff.mp h2).1
    unfold mat
    rw [List.getElem?_append_left (by simpa using h1l), List.getElem?_map, h1]
    simp only [Option.map_some, Option.bind_some]
    rw [List.getElem?_append_left (by simpa using h2l), List.getElem?_map, h2]
    simp only [Option.map_some]
    rw [hfull]
  · intro k t i a hk ha
    have h1 := freePairs_getElem? params i a ha
    have h1l := (List.getElem?_eq_some_iff.mp h1).1
    constructor
    · unfold mat
      rw [List.getElem?_append_right (by simp [hF])]
      simp only [List.length_map, hF, Nat.add_sub_cancel_left, List.getElem?_map, hk,
        Option.map_some, Option.bind_some]
      rw [List.getElem?_append_left (by simpa using h1l), List.getElem?_map, h1]
      rfl
    · unfold mat
      rw [List.getElem?_append_left (by simpa using h1l), List.getElem?_map, h1]
      simp only [Option.map_some, Option.bind_some]
      rw [List.getElem?_append_right (by simp [hF])]
      simp [hF, hk]
  · intro k l hk hl'
    unfold mat
    rw [List.getElem?_append_right (by simp [hF])]
    simp only [List.length_map, hF, Nat.add_sub_cancel_left, List.getElem?_map,
      List.getElem?_eq_getElem hk, Option.map_some, Option.bind_some]
    rw [List.getElem?_append_right (by simp [hF])]
    simp [hF, hl']
  · have key : ∀ r s : Nat, mat
        ((((freePairs params).map fun x => ((freePairs params).map fun y => fullEntry h x y) ++
            cs.map fun t => termGrad params t x.1 x.2) ++
         cs.map fun t => ((freePairs params).map fun x => termGrad params t x.1 x.2) ++
            List.replicate cs.length 0)) r s =
        match (freePairs params)[r]?, (freePairs params)[s]? with
        | some x, some y => some (fullEntry h x y)
        | some x, none => (cs[s - totalFree params]?).map fun t => termGrad params t x.1 x.2
        | none, some y => (cs[r - totalFree params]?).map fun t => termGrad params t y.1 y.2
        | none, none => if r - totalFree params < cs.length ∧ s - totalFree params < cs.length
            then some 0 else none := by
      intro r s
      unfold mat
      by_cases h1 : r < (freePairs params).length
      · rw [List.getElem?_append_left (by simpa using h1), List.getElem?_map,
          List.getElem?_eq_getElem h1]
        simp only [Option.map_some, Option.bind_some]
        by_cases h2 : s < (freePairs params).length
        · rw [List.getElem?_append_left (by simpa using h2), List.getElem?_map,
            List.getElem?_eq_getElem h2]
          rfl
        · rw [List.getElem?_append_right (by simpa using h2), List.getElem?_map,
            List.getElem?_eq_none (l := freePairs params) (i := s) (by omega)]
          simp [hF]
      · rw [List.getElem?_append_right (by simpa using h1), List.getElem?_map,
          List.getElem?_eq_none (l := freePairs params) (i := r) (by omega)]
        simp only [List.length_map, hF]
        by_cases h2 : s < (freePairs params).length
        · rw [List.getElem?_eq_getElem h2]
          cases hcr : cs[r - totalFree params]? with
          | none => simp
          | some t =>
            simp only [Option.map_some, Option.bind_some]
            rw [List.getElem?_append_left (by simpa using h2), List.getElem?_map,
              List.getElem?_eq_getElem h2]
            rfl
        · rw [List.getElem?_eq_none (l := freePairs params) (i := s) (by omega)]
          cases hcr : cs[r - totalFree params]? with
          | none =>
            have := List.getElem?_eq_none_iff.mp hcr
            simp; omega
          | some t =>
            have hlt := (List.getElem?_eq_some_iff.mp hcr).1
            simp only [Option.map_some, Option.bind_some]
            rw [List.getElem?_append_right (by simpa using h2)]
            simp only [List.length_map, hF, List.getElem?_replicate, hlt, true_and]
    intro r s
    rw [key r s, key s r]
    cases (freePairs params)[r]? <;> cases (freePairs params)[s]? <;> simp only
    · simp only [and_comm]
    · rw [hsym]

/-- A regularisation whose map decreases somewhere makes `addBlocks` fail. -/
theorem addBlocks_decreasing [AddCommMonoid R] (pm : List Nat) (hpm : ¬ NonDecreasing pm)
    (v : Nat → Nat → Nat → Nat → R) (h : Nat → Nat → Nat → Nat → R) :
    addBlocks pm v h = .error .indexError := by
  -- the fold over any list of positions containing a bad one fails with `IndexError`
  have only : ∀ (l : List (Nat × Nat)) (idx : Nat) (w : Nat → Nat → Nat → R) h e,
      l.foldlM (fun h (y : Nat × Nat) => addBlock h idx y.1 (w y.2)) h = .error e →
      e = .indexError := by
    intro l idx w
    induction l with
    | nil => intro h e he; cases he
    | cons y l ih =>
      intro h e he
      rw [List.foldlM_cons] at he
      unfold addBlock at he
      split at he
      · exact ih _ e he
      · cases he; rfl
  have bad : ∀ (l : List (Nat × Nat)) (idx : Nat) (w : Nat → Nat → Nat → R) h,
      (∃ y ∈ l, idx < y.1) →
      l.foldlM (fun h (y : Nat × Nat) => addBlock h idx y.1 (w y.2)) h = .error .indexError := by
    intro l idx w
    induction l with
    | nil => rintro h ⟨y, hy, _⟩; cases hy
    | cons z l ih =>
      rintro h ⟨y, hy, hlt⟩
      rw [List.foldlM_cons]
      unfold addBlock
      split
      · rename_i hle
        rcases List.mem_cons.mp hy with rfl | hy
        · omega
        · exact ih _ ⟨y, hy, hlt⟩
      · rfl
  have outer : ∀ (l : List (Nat × Nat)) h,
      (∃ x ∈ l, ∃ y ∈ (pm.take (x.2 + 1)).zipIdx, x.1 < y.1) →
      l.foldlM (fun h (x : Nat × Nat) =>
        (pm.take (x.2 + 1)).zipIdx.foldlM (fun h (y : Nat × Nat) =>
          addBlock h x.1 y.1 (v x.2 y.2)) h) h = .error .indexError := by
    intro l
    induction l with
    | nil => rintro h ⟨y, hy, _⟩; cases hy
    | cons z l ih =>
      rintro h ⟨x, hx, hb⟩
      rw [List.foldlM_cons]
      cases hz : (pm.take (z.2 + 1)).zipIdx.foldlM (fun h (y : Nat × Nat) =>
          addBlock h z.1 y.1 (v z.2 y.2)) h with
      | error e =>
        have := only _ _ _ _ _ hz
        subst this; rfl
      | ok h' =>
        rcases List.mem_cons.mp hx with rfl | hx
        · rw [bad _ _ _ _ hb] at hz; cases hz
        · exact ih h' ⟨x, hx, hb⟩
  apply outer
  unfold NonDecreasing at hpm
  rw [List.pairwise_iff_getElem] at hpm
  push Not at hpm
  obtain ⟨i, j, hi, hj, hij, hlt⟩ := hpm
  refine ⟨(pm[j], j), List.mk_mem_zipIdx_iff_getElem?.mpr (by simp [hj]), (pm[i], i), ?_, hlt⟩
  apply List.mk_mem_zipIdx_iff_getElem?.mpr
  rw [List.getElem?_take_of_lt (by simp; omega)]
  simp [hi]

/-- C17 is false of the code: whenever some regularisation lists its parameters in a decreasing
order (all indices being valid), `flat_hess` raises `IndexError`. -/
theorem C17_decreasing_map_counterexample [CommRing R] (params : List (Param R))
    (hl : Nat → Nat → Nat → Nat → R) (t : Term R) (hv : t.Valid params)
    (hd : ¬ NonDecreasing t.paramMap) :
    flatHess params hl [] [t] = .error .indexError ∧
    flatHess params hl [t] [] = .error .indexError := by
  constructor
  · simp only [flatHess, hessConstraints, hessRegs, getArgs_ok _ _ hv, bind, Except.bind,
      addBlocks_decreasing _ hd]
  · simp only [flatHess, hessConstraints, getArgs_ok _ _ hv, bind, Except.bind,
      addBlocks_decreasing _ hd]

/-- Two scalar parameters and the regularisation `p0 * p1` listing them as `[1, 0]`. -/
def exTerm (pm : List Nat) : Term Rat where
  paramMap := pm
  val args := (args.map fun p => p.values.sum).prod
  grad args i _ := ((args.eraseIdx i).map fun p => p.values.sum).prod
  hess _ i j _ _ := if i = j then 0 else 1

/-- Two free scalar parameters. -/
def exParams : List (Param Rat) := [⟨[], [2], [false]⟩, ⟨[], [5], [false]⟩]

example : (exTerm [1, 0]).Valid exParams ∧ ¬ NonDecreasing (exTerm [1, 0]).paramMap := by
  constructor
  · intro k hk; simp [exTerm] at hk; rcases hk with rfl | rfl <;> decide
  · simp [exTerm, NonDecreasing]

/-- Concrete case of C15 and C16: the flat Hessian and gradient of a model with zero likelihood,
the regularisation `p0 * p1` and the constraint `p0 + 3 p1`. -/
example : flatHess exParams (fun _ _ _ _ => 0) [linearTerm [0, 1] [1, 3]] [exTerm [0, 1]] =
      .ok [[0, -1, 1], [-1, 0, 3], [1, 3, 0]] ∧
    flatGrad exParams (fun _ _ => 0) [linearTerm [0, 1] [1, 3]] [exTerm [0, 1]] =
      .ok [-5, -2, 17] := by
  constructor <;> decide +kernel

theorem argsOf_ofFn (params : List (Param R)) {n : Nat} (f : Fin n → Nat)
    (h : ∀ p, f p < params.length) :
    argsOf params (List.ofFn f) = List.ofFn fun p => params[f p]?.getD emptyParam := by
  rw [argsOf_eq]
  · rw [List.map_ofFn]; rfl
  · intro k hk
    rw [List.mem_ofFn] at hk
    obtain ⟨p, rfl⟩ := hk
    exact h p

theorem zipIdx_sum_ofFn [AddCommMonoid R] {n : Nat} (f : Fin n → Nat) (F : Nat → Nat → R) :
    ((List.ofFn f).zipIdx.map fun x => F x.1 x.2).sum = ∑ p : Fin n, F (f p) p := by
  rw [← List.sum_ofFn]
  congr 1
  apply List.ext_getElem
  · simp
  · intro i h1 h2
    simp

theorem PermutedTerm.args {n : Nat} {σ : Equiv.Perm (Fin n)} {t t' : Term R}
    (h : PermutedTerm σ t t') (params : List (Param R)) (hv : t.Valid params) :
    ∃ (f : Fin n → Nat) (A : Fin n → Param R), t.paramMap = List.ofFn f ∧
      t'.paramMap = List.ofFn (f ∘ σ) ∧
      argsOf params t.paramMap = List.ofFn A ∧ argsOf params t'.paramMap = List.ofFn (A ∘ σ) := by
  have hl := h.len
  let f : Fin n → Nat := fun p => t.paramMap[p.val]'(hl ▸ p.isLt)
  have e1 : t.paramMap = List.ofFn f := by
    apply List.ext_getElem
    · simp [hl]
    · intro i h1 h2; simp [f]
  have e2 : t'.paramMap = List.ofFn (f ∘ σ) := h.map
  have hf : ∀ p, f p < params.length := fun p => hv _ (List.getElem_mem _)
  refine ⟨f, fun p => params[f p]?.getD emptyParam, e1, e2, ?_, ?_⟩
  · rw [e1, argsOf_ofFn _ _ hf]
  · rw [e2, argsOf_ofFn params (f ∘ σ) (fun p => hf (σ p))]; rfl

/-- C17 for gradients and residuals: permuting the parameter list of a constraint or regularisation
(with the function permuted correspondingly) changes neither its value nor its gradient
contributions. -/
theorem PermutedTerm.same [CommRing R] {n : Nat} {σ : Equiv.Perm (Fin n)} {t t' : Term R}
    (h : PermutedTerm σ t t') (params : List (Param R)) (hv : t.Valid params) :
    t'.Valid params ∧ t'.val (argsOf params t'.paramMap) = t.val (argsOf params t.paramMap) ∧
    (∀ i a, termGrad params t' i a = termGrad params t i a) ∧
    (∀ i a j b, termHessFull params t' i a j b = termHessFull params t i a j b) := by
  obtain ⟨f, A, e1, e2, e3, e4⟩ := h.args params hv
  refine ⟨?_, ?_, ?_, ?_⟩
  · intro k hk
    rw [e2, List.mem_ofFn] at hk
    obtain ⟨p, rfl⟩ := hk
    apply hv
    rw [e1, List.mem_ofFn]
    exact ⟨σ p, rfl⟩
  · rw [e4, e3, h.val]
  · intro i a
    unfold termGrad
    rw [e4, e3, e2, e1,
      zipIdx_sum_ofFn _ (fun k p => if k = i then t'.grad (List.ofFn (A ∘ σ)) p a else 0),
      zipIdx_sum_ofFn _ (fun k p => if k = i then t.grad (List.ofFn A) p a else 0),
      ← Equiv.sum_comp σ (fun p => if f p = i then t.grad (List.ofFn A) p a else 0)]
    apply Finset.sum_congr rfl
    intro p _
    rw [h.grad]; rfl
  · intro i a j b
    unfold termHessFull
    rw [e4, e3, e2, e1]
    rw [zipIdx_sum_ofFn _ (fun k p => ((List.ofFn (f ∘ σ)).zipIdx.map fun y =>
        if k = i ∧ y.1 = j then symBlocks (t'.hess (List.ofFn (A ∘ σ))) p y.2 a b else 0).sum),
      zipIdx_sum_ofFn _ (fun k p => ((List.ofFn f).zipIdx.map fun y =>
        if k = i ∧ y.1 = j then symBlocks (t.hess (List.ofFn A)) p y.2 a b else 0).sum),
      ← Equiv.sum_comp σ (fun p => ((List.ofFn f).zipIdx.map fun y =>
        if f p = i ∧ y.1 = j then symBlocks (t.hess (List.ofFn A)) p y.2 a b else 0).sum)]
    apply Finset.sum_congr rfl
    intro p _
    rw [zipIdx_sum_ofFn _ (fun k q => if (f ∘ σ) p = i ∧ k = j then
        symBlocks (t'.hess (List.ofFn (A ∘ σ))) p q a b else 0),
      zipIdx_sum_ofFn _ (fun k q => if f (σ p) = i ∧ k = j then
        symBlocks (t.hess (List.ofFn A)) (σ p) q a b else 0),
      ← Equiv.sum_comp σ (fun q => if f (σ p) = i ∧ f q = j then
        symBlocks (t.hess (List.ofFn A)) (σ p) q a b else 0)]
    apply Finset.sum_congr rfl
    intro q _
    rw [h.hess]; rfl

/-- C17, the part that holds: the flat gradient (with the residuals) does not depend on the order
in which the constraints and regularisations list their parameters.  Missing (and false): the flat
Hessian, see the counterexample above. -/
theorem C17_flat_grad_any_order_partial [CommRing R] (params : List (Param R)) (hne : params ≠ [])
    (gl : Nat → Nat → R) (cs cs' rs rs' : List (Term R))
    (hc : ∀ t ∈ cs, t.Valid params ∧ t.paramMap ≠ []) (hr : ∀ t ∈ rs, t.Valid params)
    (pc : List.Forall₂ (fun t t' => ∃ (n : Nat) (σ : Equiv.Perm (Fin n)), PermutedTerm σ t t') cs cs')
    (pr : List.Forall₂ (fun t t' => ∃ (n : Nat) (σ : Equiv.Perm (Fin n)), PermutedTerm σ t t') rs rs') :
    flatGrad params gl cs' rs' = flatGrad params gl cs rs := by
  have hvals : (∀ t ∈ cs', t.Valid params ∧ t.paramMap ≠ []) ∧
      cs'.map (fun t => t.val (argsOf params t.paramMap)) =
        cs.map (fun t => t.val (argsOf params t.paramMap)) := by
    induction pc with
    | nil => simp
    | cons h _ ih =>
      rename_i t t' l l' _
      obtain ⟨n, σ, hp⟩ := h
      have h0 := hc t (by simp)
      have hs := hp.same params h0.1
      obtain ⟨i1, i2⟩ := ih (fun t ht => hc t (by simp [ht]))
      constructor
      · intro u hu
        rcases List.mem_cons.mp hu with rfl | hu
        · refine ⟨hs.1, ?_⟩
          have := hp.len
          intro hnil
          rw [hp.map] at hnil
          have hn : n = 0 := by simpa using congrArg List.length hnil
          exact h0.2 (List.length_eq_zero_iff.mp (by omega))
        · exact i1 u hu
      · simp only [List.map_cons, i2, hs.2.1]
  have hgr : (∀ t ∈ rs', t.Valid params) ∧ ∀ i a,
      (rs'.map fun t => termGrad params t i a).sum = (rs.map fun t => termGrad params t i a).sum := by
    clear hvals
    induction pr with
    | nil => simp
    | cons h _ ih =>
      rename_i t t' l l' _
      obtain ⟨n, σ, hp⟩ := h
      have hs := hp.same params (hr t (by simp))
      obtain ⟨i1, i2⟩ := ih (fun t ht => hr t (by simp [ht]))
      constructor
      · intro u hu
        rcases List.mem_cons.mp hu with rfl | hu
        · exact hs.1
        · exact i1 u hu
      · intro i a
        simp only [List.map_cons, List.sum_cons, i2, hs.2.2.1]
  rw [flatGrad_eq params hne gl cs rs hc hr, flatGrad_eq params hne gl cs' rs' hvals.1 hgr.1,
    hvals.2]
  congr 2
  apply List.map_congr_left
  intro x _
  rw [hgr.2]

/-- The concrete regularisation listed as `[1, 0]` is the one listed as `[0, 1]`, permuted. -/
example : PermutedTerm (Equiv.swap (0 : Fin 2) 1) (exTerm [0, 1]) (exTerm [1, 0]) where
  len := rfl
  map := by simp [exTerm, List.ofFn_succ]
  val A := by simp [exTerm, List.ofFn_succ, mul_comm]
  grad A p a := by
    fin_cases p <;> simp [exTerm, List.ofFn_succ]
  hess A p q a b := by
    fin_cases p <;> fin_cases q <;> simp [exTerm, symBlocks]

/-- C16/C17: a regularisation may also repeat a parameter; then the Hessian block is wrong.  For the
regularisation `f(p, q) = p0 * q1` applied to the same two-entry parameter (`param_map = [0, 0]`,
i.e. `x0 * x1`), the returned Hessian is not even symmetric. -/
def exRepeat : Term Rat where
  paramMap := [0, 0]
  val args := (args.map fun p => p.values).flatten.getD 0 0 *
    (args.map fun p => p.values).flatten.getD 3 0
  grad args i a := if i = 0 ∧ a = 0 then (args.map fun p => p.values).flatten.getD 3 0 else
    if i = 1 ∧ a = 1 then (args.map fun p => p.values).flatten.getD 0 0 else 0
  hess _ i j a b := if i = 1 ∧ j = 0 ∧ a = 1 ∧ b = 0 then 1 else 0

theorem C16_repeated_parameter_counterexample :
    flatHess [⟨[2], [3, 4], [false, false]⟩] (fun _ _ _ _ => (0 : Rat)) [] [exRepeat] =
      .ok [[0, -1], [0, 0]] ∧
    termHessFull [⟨[2], [3, 4], [false, false]⟩] exRepeat 0 1 0 0 = 1 ∧
    termHessFull [⟨[2], [3, 4], [false, false]⟩] exRepeat 0 0 0 1 = 1 := by
  refine ⟨?_, ?_, ?_⟩ <;> decide +kernel

end Verif.Flat
