import Verif.Spec.Func
import Mathlib.Tactic.Ring
import Mathlib.Tactic.Linarith
import Mathlib.Tactic.FinCases
import Mathlib.Algebra.BigOperators.Group.Finset.Basic
import Mathlib.Algebra.BigOperators.Intervals

/-! `eval` against the separate methods, combinator by combinator. -/

set_option linter.unusedSectionVars false

namespace Verif.Func
open Verif.Params (Err)
open Finset

variable {ι : Type} [Fintype ι]

theorem leaf_evalAgrees (n : Nat) (call : Prm ι → Val ι) (grad : Prm ι → Nat → GradT ι)
    (hess : Prm ι → Nat → Nat → HessT ι) (gN hN : Bool) :
    EvalAgrees n (leaf call grad hess gN hN) :=
  fun _ => ⟨_, rfl, fun _ => rfl, fun _ _ _ _ => rfl, fun _ _ _ _ _ _ _ => rfl⟩

theorem affine_evalAgrees {n : Nat} {f : Fn ι} (a b : ℝ) (hN : NullHonest f)
    (h : EvalAgrees n f) : EvalAgrees n (affine f a b) := by
  intro θ
  obtain ⟨r, hr, hv, hg, hh⟩ := h θ
  refine ⟨_, by simp only [affine, hr]; rfl, fun c => ?_, fun i hi e c => ?_,
    fun i hi j hj e e' c => ?_⟩
  · simp [affine, hv]
  · simp only [affine]
    split
    · rename_i hn; rw [hg i hi, (hN.1 hn).1]; simp
    · rw [hg i hi]
  · simp only [affine]
    split
    · rename_i hn; rw [hh i hi j hj, hN.2 hn]; simp
    · rw [hh i hi j hj]

theorem affine_nullHonest {f : Fn ι} (a b : ℝ) (hN : NullHonest f) :
    NullHonest (affine f a b) := by
  refine ⟨fun hg => ⟨fun θ i e c => ?_, fun θ i j e e' c => ?_⟩, fun hh θ i j e e' c => ?_⟩
  · have : f.gradNull = true := hg
    simp [affine, this]
  · have : f.gradNull = true := hg
    simp [affine, (hN.1 this).2]
  · have : f.hessNull = true := hh
    simp [affine, this]

theorem indexOf?_lt {pm : List Nat} {i k : Nat} (h : indexOf? pm i = some k) : k < pm.length := by
  unfold indexOf? at h
  rw [List.findIdx?_eq_some_iff_getElem] at h
  exact h.1

theorem indexOf?_get {pm : List Nat} {i k : Nat} (h : indexOf? pm i = some k) :
    pm.getD k 0 = i := by
  unfold indexOf? at h
  rw [List.findIdx?_eq_some_iff_getElem] at h
  obtain ⟨hlt, he, -⟩ := h
  simpa [List.getD, List.getElem?_eq_getElem hlt] using he

theorem wrapAccessOk_spec {pm : List Nat} {n : Nat} (h : wrapAccessOk pm n = true) {i j k l : Nat}
    (hi : i < n) (hj : j ≤ i) (hk : indexOf? pm i = some k) (hl : indexOf? pm j = some l) :
    l ≤ k := by
  rcases Nat.lt_or_ge j i with hlt | hge
  · unfold wrapAccessOk at h
    rw [List.all_eq_true] at h
    have h1 := h i (List.mem_range.2 hi)
    rw [List.all_eq_true] at h1
    have h2 := h1 j (List.mem_range.2 hlt)
    rw [hk, hl] at h2
    simpa using h2
  · have : j = i := le_antisymm hj hge
    subst this
    rw [hk] at hl
    cases hl
    exact le_rfl

theorem wrap_evalAgrees {n : Nat} {f : Fn ι} {pm : List Nat} (ρ : ι → ι) (hN : NullHonest f)
    (h : EvalAgrees pm.length f) (hok : f.hessNull = true ∨ wrapAccessOk pm n = true) :
    EvalAgrees n (wrap f pm ρ) := by
  intro θ
  obtain ⟨r, hr, hv, hg, hh⟩ := h (selectParams pm θ)
  have hG : ∀ i e c, (match indexOf? pm i with
      | some idx => r.grad idx e (ρ c)
      | none => 0) = (wrap f pm ρ).grad θ i e c := by
    intro i e c
    simp only [wrap]
    cases hix : indexOf? pm i with
    | none => simp
    | some k =>
      dsimp only
      rw [hg k (indexOf?_lt hix)]
      split
      · rename_i hn; simp [(hN.1 hn).1]
      · rfl
  by_cases hn : f.hessNull = true
  · refine ⟨_, by simp only [wrap, hr, hn]; rfl, fun c => ?_, fun i hi e c => hG i e c,
      fun i hi j hj e e' c => ?_⟩
    · simp [wrap, hv]
    · simp [wrap, hn]
  · have hok' : wrapAccessOk pm n = true := hok.resolve_left hn
    have hn' : f.hessNull = false := by simpa using hn
    refine ⟨_, by simp only [wrap, hr, hn', hok']; rfl, fun c => ?_, fun i hi e c => hG i e c,
      fun i hi j hj e e' c => ?_⟩
    · simp [wrap, hv]
    · simp only [wrap, hn']
      cases hix : indexOf? pm i with
      | none => simp
      | some k =>
        cases hjx : indexOf? pm j with
        | none => simp
        | some l =>
          simp only
          rw [hh k (indexOf?_lt hix) l (wrapAccessOk_spec hok' hi hj hix hjx)]
          simp

theorem wrap_nullHonest {f : Fn ι} (pm : List Nat) (ρ : ι → ι) (hN : NullHonest f) :
    NullHonest (wrap f pm ρ) := by
  refine ⟨fun hg => ⟨fun θ i e c => ?_, fun θ i j e e' c => ?_⟩, fun hh θ i j e e' c => ?_⟩
  · have : f.gradNull = true := hg
    simp [wrap, this]
  · have : f.gradNull = true := hg
    simp only [wrap]
    split
    · rfl
    · split <;> simp [(hN.1 this).2]
  · have : f.hessNull = true := hh
    simp [wrap, this]

theorem collapse_evalAgrees {n : Nat} {f : Fn ι} (fib : ι → Finset ι) (h : EvalAgrees n f) :
    EvalAgrees n (collapse f fib) := by
  intro θ
  obtain ⟨r, hr, hv, hg, hh⟩ := h θ
  refine ⟨_, by simp only [collapse, hr]; rfl, fun c => ?_, fun i hi e c => ?_,
    fun i hi j hj e e' c => ?_⟩
  · simp only [collapse]
    exact Finset.sum_congr rfl fun c' _ => hv c'
  · simp only [collapse]
    exact Finset.sum_congr rfl fun c' _ => hg i hi e c'
  · simp only [collapse]
    exact Finset.sum_congr rfl fun c' _ => hh i hi j hj e e' c'

theorem sumEval_spec {n : Nat} (θ : Prm ι) (atoms : List (ℝ × Fn ι))
    (h : ∀ x ∈ atoms, EvalAgrees n x.2) (acc : Ev ι) :
    ∃ r, sumEval n θ atoms acc = .ok r ∧
      (∀ c, r.val c = acc.val c + (atoms.map fun x => x.1 * x.2.call θ c).sum) ∧
      (∀ i < n, ∀ e c, r.grad i e c =
        acc.grad i e c + (atoms.map fun x => x.1 * x.2.grad θ i e c).sum) ∧
      (∀ i < n, ∀ j ≤ i, ∀ e e' c, r.hess i j e e' c =
        acc.hess i j e e' c + (atoms.map fun x => x.1 * x.2.hess θ i j e e' c).sum) := by
  induction atoms generalizing acc with
  | nil => exact ⟨acc, rfl, by simp, by simp, by simp⟩
  | cons x xs ih =>
    obtain ⟨w, f⟩ := x
    obtain ⟨r0, hr0, hv0, hg0, hh0⟩ := h (w, f) (by simp) θ
    change f.eval n θ = _ at hr0
    obtain ⟨r, hr, hv, hg, hh⟩ := ih (fun x hx => h x (by simp [hx]))
      ⟨fun c => acc.val c + w * r0.val c, fun i e c => acc.grad i e c + w * r0.grad i e c,
       fun i j e e' c => acc.hess i j e e' c + w * r0.hess i j e e' c⟩
    refine ⟨r, by simp only [sumEval, hr0, bind, Except.bind]; exact hr, fun c => ?_, fun i hi e c => ?_,
      fun i hi j hj e e' c => ?_⟩
    · rw [hv]; simp [hv0]; ring
    · rw [hg i hi]; simp only [hg0 i hi, List.map_cons, List.sum_cons]; ring
    · rw [hh i hi j hj]; simp only [hh0 i hi j hj, List.map_cons, List.sum_cons]; ring

/-- What `Sum.eval` returns: everything right except that the offset is missing. -/
theorem sum_eval_exact {n : Nat} (atoms : List (ℝ × Fn ι)) (b : ℝ)
    (h : ∀ x ∈ atoms, EvalAgrees n x.2) (θ : Prm ι) :
    ∃ r, (sum atoms b).eval n θ = .ok r ∧
      (∀ c, r.val c = (sum atoms b).call θ c - b) ∧
      (∀ i < n, ∀ e c, r.grad i e c = (sum atoms b).grad θ i e c) ∧
      (∀ i < n, ∀ j ≤ i, ∀ e e' c, r.hess i j e e' c = (sum atoms b).hess θ i j e e' c) := by
  obtain ⟨r, hr, hv, hg, hh⟩ := sumEval_spec θ atoms h Ev.zero
  refine ⟨r, hr, fun c => ?_, fun i hi e c => ?_, fun i hi j hj e e' c => ?_⟩
  · rw [hv]; simp [sum, Ev.zero]
  · rw [hg i hi]; simp [sum, Ev.zero]
  · rw [hh i hi j hj]; simp [sum, Ev.zero]

theorem sum_evalAgrees {n : Nat} (atoms : List (ℝ × Fn ι))
    (h : ∀ x ∈ atoms, EvalAgrees n x.2) : EvalAgrees n (sum atoms 0) := by
  intro θ
  obtain ⟨r, hr, hv, hg, hh⟩ := sum_eval_exact atoms 0 h θ
  exact ⟨r, hr, fun c => by rw [hv]; ring, hg, hh⟩

/-! ### Products -/

theorem pGet_append_lt (fs gs : List (Fn ι)) {k : Nat} (hk : k < fs.length) (sel : Fn ι → ℝ) :
    pGet (fs ++ gs) k sel = pGet fs k sel := by
  simp [pGet, List.getElem?_append_left hk]

theorem pGet_append_len (fs gs : List (Fn ι)) (g : Fn ι) (sel : Fn ι → ℝ) :
    pGet (fs ++ g :: gs) fs.length sel = sel g := by
  simp [pGet]

theorem range_succ_erase_lt {m k : Nat} (h : k < m) :
    (range (m + 1)).erase k = insert m ((range m).erase k) := by
  ext x
  simp only [mem_erase, mem_range, mem_insert]
  omega

theorem range_succ_erase_self (m : Nat) : (range (m + 1)).erase m = range m := by
  ext x
  simp only [mem_erase, mem_range]
  omega

variable (fs : List (Fn ι)) (f : Fn ι) (θ : Prm ι)

theorem prod_erase_snoc {k : Nat} (hk : k < fs.length) (c : ι) :
    ∏ m ∈ (range (fs.length + 1)).erase k, pGet (fs ++ [f]) m (fun g => g.call θ c) =
      (∏ m ∈ (range fs.length).erase k, pGet fs m fun g => g.call θ c) * f.call θ c := by
  rw [range_succ_erase_lt hk, prod_insert (by simp), pGet_append_len, mul_comm]
  congr 1
  refine prod_congr rfl fun m hm => ?_
  rw [pGet_append_lt]
  exact mem_range.1 (mem_of_mem_erase hm)

theorem prod_range_snoc (c : ι) :
    ∏ m ∈ range fs.length, pGet (fs ++ [f]) m (fun g => g.call θ c) =
      ∏ m ∈ range fs.length, pGet fs m fun g => g.call θ c :=
  prod_congr rfl fun m hm => by rw [pGet_append_lt _ _ (mem_range.1 hm)]

theorem product_call_snoc (c : ι) :
    (product (fs ++ [f])).call θ c = (product fs).call θ c * f.call θ c := by
  simp only [product, List.length_append, List.length_singleton]
  rw [prod_range_succ, prod_range_snoc, pGet_append_len]

theorem product_grad_snoc (i : Nat) (e c : ι) :
    (product (fs ++ [f])).grad θ i e c =
      (product fs).call θ c * f.grad θ i e c + f.call θ c * (product fs).grad θ i e c := by
  simp only [product, List.length_append, List.length_singleton]
  rw [sum_range_succ, range_succ_erase_self, prod_range_snoc, pGet_append_len, mul_sum, add_comm]
  congr 1
  refine sum_congr rfl fun k hk => ?_
  have hk' := mem_range.1 hk
  rw [prod_erase_snoc fs f θ hk', pGet_append_lt _ _ hk']
  ring

theorem prod_erase2_snoc {k l : Nat} (hk : k < fs.length) (hl : l < fs.length) (c : ι) :
    ∏ m ∈ ((range (fs.length + 1)).erase k).erase l, pGet (fs ++ [f]) m (fun g => g.call θ c) =
      (∏ m ∈ ((range fs.length).erase k).erase l, pGet fs m fun g => g.call θ c) * f.call θ c := by
  have : ((range (fs.length + 1)).erase k).erase l =
      insert fs.length (((range fs.length).erase k).erase l) := by
    ext x
    simp only [mem_erase, mem_range, mem_insert]
    omega
  rw [this, prod_insert (by simp), pGet_append_len, mul_comm]
  congr 1
  refine prod_congr rfl fun m hm => ?_
  rw [pGet_append_lt]
  exact mem_range.1 (mem_of_mem_erase (mem_of_mem_erase hm))

theorem product_hess_snoc (i j : Nat) (e e' c : ι) :
    (product (fs ++ [f])).hess θ i j e e' c =
      (product fs).call θ c * f.hess θ i j e e' c + f.call θ c * (product fs).hess θ i j e e' c +
        (product fs).grad θ i e c * f.grad θ j e' c +
        f.grad θ i e c * (product fs).grad θ j e' c := by
  simp only [product, List.length_append, List.length_singleton]
  rw [sum_range_succ, range_succ_erase_self, prod_range_snoc, pGet_append_len, pGet_append_len]
  have h1 : ∑ l ∈ range fs.length,
      (∏ m ∈ (range fs.length).erase l, pGet (fs ++ [f]) m fun g => g.call θ c) * f.grad θ i e c *
        (pGet (fs ++ [f]) l fun g => g.grad θ j e' c) =
      f.grad θ i e c * ∑ l ∈ range fs.length,
      (∏ m ∈ (range fs.length).erase l, pGet fs m fun g => g.call θ c) *
        (pGet fs l fun g => g.grad θ j e' c) := by
    rw [mul_sum]
    refine sum_congr rfl fun l hl => ?_
    rw [pGet_append_lt _ _ (mem_range.1 hl)]
    rw [prod_congr rfl (g := fun m => pGet fs m fun g => g.call θ c)
      (fun m hm => by rw [pGet_append_lt _ _ (mem_range.1 (mem_of_mem_erase hm))])]
    ring
  rw [h1]
  have h2 : ∀ k ∈ range fs.length,
      ((∑ l ∈ (range (fs.length + 1)).erase k,
        (∏ m ∈ ((range (fs.length + 1)).erase k).erase l,
          pGet (fs ++ [f]) m fun g => g.call θ c) *
          (pGet (fs ++ [f]) k fun g => g.grad θ i e c) *
          pGet (fs ++ [f]) l fun g => g.grad θ j e' c) +
        (∏ m ∈ (range (fs.length + 1)).erase k, pGet (fs ++ [f]) m fun g => g.call θ c) *
          pGet (fs ++ [f]) k fun g => g.hess θ i j e e' c) =
      f.call θ c * ((∑ l ∈ (range fs.length).erase k,
        (∏ m ∈ ((range fs.length).erase k).erase l, pGet fs m fun g => g.call θ c) *
          (pGet fs k fun g => g.grad θ i e c) * pGet fs l fun g => g.grad θ j e' c) +
        (∏ m ∈ (range fs.length).erase k, pGet fs m fun g => g.call θ c) *
          pGet fs k fun g => g.hess θ i j e e' c) +
      (∏ m ∈ (range fs.length).erase k, pGet fs m fun g => g.call θ c) *
        (pGet fs k fun g => g.grad θ i e c) * f.grad θ j e' c := by
    intro k hk
    have hk' := mem_range.1 hk
    rw [prod_erase_snoc fs f θ hk', pGet_append_lt _ _ hk', pGet_append_lt _ _ hk']
    have hs : ∑ l ∈ (range (fs.length + 1)).erase k,
        (∏ m ∈ ((range (fs.length + 1)).erase k).erase l,
          pGet (fs ++ [f]) m fun g => g.call θ c) *
          (pGet fs k fun g => g.grad θ i e c) *
          (pGet (fs ++ [f]) l fun g => g.grad θ j e' c) =
        (∏ m ∈ (range fs.length).erase k, pGet fs m fun g => g.call θ c) *
          (pGet fs k fun g => g.grad θ i e c) * f.grad θ j e' c +
        f.call θ c * ∑ l ∈ (range fs.length).erase k,
        (∏ m ∈ ((range fs.length).erase k).erase l, pGet fs m fun g => g.call θ c) *
          (pGet fs k fun g => g.grad θ i e c) * (pGet fs l fun g => g.grad θ j e' c) := by
      rw [range_succ_erase_lt hk', sum_insert (by simp), pGet_append_len, mul_sum]
      congr 1
      · congr 2
        have : (insert fs.length ((range fs.length).erase k)).erase fs.length =
            (range fs.length).erase k := by
          ext x; simp only [mem_erase, mem_range, mem_insert]; omega
        rw [this]
        exact prod_congr rfl fun m hm => by
          rw [pGet_append_lt _ _ (mem_range.1 (mem_of_mem_erase hm))]
      · refine sum_congr rfl fun l hl => ?_
        have hl' := mem_range.1 (mem_of_mem_erase hl)
        rw [← range_succ_erase_lt hk', prod_erase2_snoc fs f θ hk' hl', pGet_append_lt _ _ hl']
        ring
    rw [hs]
    ring
  rw [sum_congr rfl h2, sum_add_distrib, ← mul_sum, sum_mul]
  ring

theorem prodEval_spec {n : Nat} (gs : List (Fn ι)) (h : ∀ g ∈ gs, EvalAgrees n g) (acc : Ev ι)
    (hv : ∀ c, acc.val c = (product fs).call θ c)
    (hg : ∀ i < n, ∀ e c, acc.grad i e c = (product fs).grad θ i e c)
    (hh : ∀ i < n, ∀ j ≤ i, ∀ e e' c, acc.hess i j e e' c = (product fs).hess θ i j e e' c) :
    ∃ r, prodEval n θ gs acc = .ok r ∧
      (∀ c, r.val c = (product (fs ++ gs)).call θ c) ∧
      (∀ i < n, ∀ e c, r.grad i e c = (product (fs ++ gs)).grad θ i e c) ∧
      (∀ i < n, ∀ j ≤ i, ∀ e e' c,
        r.hess i j e e' c = (product (fs ++ gs)).hess θ i j e e' c) := by
  induction gs generalizing fs acc with
  | nil => exact ⟨acc, rfl, by simpa using hv, by simpa using hg, by simpa using hh⟩
  | cons g gs ih =>
    obtain ⟨r0, hr0, hv0, hg0, hh0⟩ := h g (by simp) θ
    have := ih (fs ++ [g]) (fun x hx => h x (by simp [hx]))
      ⟨fun c => acc.val c * r0.val c,
        fun i e c => acc.val c * r0.grad i e c + r0.val c * acc.grad i e c,
        fun i j e e' c => acc.val c * r0.hess i j e e' c + r0.val c * acc.hess i j e e' c +
          acc.grad i e c * r0.grad j e' c + r0.grad i e c * acc.grad j e' c⟩
      (fun c => by rw [product_call_snoc, ← hv, ← hv0])
      (fun i hi e c => by rw [product_grad_snoc, ← hv, ← hv0, ← hg i hi, ← hg0 i hi])
      (fun i hi j hj e e' c => by
        have hj' := lt_of_le_of_lt hj hi
        rw [product_hess_snoc, ← hv, ← hv0, ← hg i hi, ← hg0 i hi, ← hg j hj', ← hg0 j hj',
          ← hh i hi j hj, ← hh0 i hi j hj])
    rw [List.append_assoc, List.singleton_append] at this
    obtain ⟨r, hr, rest⟩ := this
    exact ⟨r, by simp only [prodEval, hr0, bind, Except.bind]; exact hr, rest⟩

theorem product_evalAgrees {n : Nat} (gs : List (Fn ι)) (h : ∀ g ∈ gs, EvalAgrees n g) :
    EvalAgrees n (product gs) := by
  intro θ
  have := prodEval_spec [] θ gs h ⟨fun _ => 1, fun _ _ _ => 0, fun _ _ _ _ _ => 0⟩
    (by simp [product]) (by simp [product]) (by simp [product])
  rw [List.nil_append] at this
  exact this

/-! ### Composition -/

theorem evalAll_spec {n : Nat} (gs : List (Fn ι)) (h : ∀ g ∈ gs, EvalAgrees n g) :
    ∃ rs, evalAll n θ gs = .ok rs ∧ ∀ k : Nat, k < gs.length →
      (∀ c, (rs.getD k Ev.zero).val c = gVals gs θ k c) ∧
      (∀ i < n, ∀ e c, (rs.getD k Ev.zero).grad i e c = gGet gs k fun g => g.grad θ i e c) ∧
      (∀ i < n, ∀ j ≤ i, ∀ e e' c,
        (rs.getD k Ev.zero).hess i j e e' c = gGet gs k fun g => g.hess θ i j e e' c) := by
  induction gs with
  | nil => exact ⟨[], rfl, by simp⟩
  | cons g gs ih =>
    obtain ⟨r0, hr0, hv0, hg0, hh0⟩ := h g (by simp) θ
    obtain ⟨rs, hrs, hk⟩ := ih fun x hx => h x (by simp [hx])
    refine ⟨r0 :: rs, by simp only [evalAll, hr0, hrs]; rfl, fun k hkl => ?_⟩
    cases k with
    | zero =>
      refine ⟨fun c => ?_, fun i hi e c => ?_, fun i hi j hj e e' c => ?_⟩
      · simpa [gVals] using hv0 c
      · simpa [gGet] using hg0 i hi e c
      · simpa [gGet] using hh0 i hi j hj e e' c
    | succ k =>
      have := hk k (by simpa using hkl)
      refine ⟨fun c => ?_, fun i hi e c => ?_, fun i hi j hj e e' c => ?_⟩
      · simpa [gVals] using this.1 c
      · simpa [gGet] using this.2.1 i hi e c
      · simpa [gGet] using this.2.2 i hi j hj e e' c

theorem evalAll_length {n : Nat} (gs : List (Fn ι)) {rs : List (Ev ι)}
    (h : evalAll n θ gs = .ok rs) : rs.length = gs.length := by
  induction gs generalizing rs with
  | nil => cases h; rfl
  | cons g gs ih =>
    simp only [evalAll] at h
    cases hg : g.eval n θ with
    | error x => rw [hg] at h; cases h
    | ok r =>
      rw [hg] at h
      cases hgs : evalAll n θ gs with
      | error x => rw [hgs] at h; cases h
      | ok rs' =>
        rw [hgs] at h
        cases h
        simp [ih hgs]

theorem compose_nullHonest {f : Fn ι} (gs : List (Fn ι)) : NullHonest (compose f gs) := by
  refine ⟨fun hg => ⟨fun θ i e c => ?_, fun θ i j e e' c => ?_⟩, fun hh θ i j e e' c => ?_⟩
  · have : f.gradNull = true := hg
    simp [compose, this]
  · have : f.gradNull = true := hg
    simp [compose, this]
  · have : f.gradNull = true := hh
    simp [compose, this]

theorem compose_evalAgrees {n : Nat} {f : Fn ι} {gs : List (Fn ι)} (hN : NullHonest f)
    (hf : EvalAgrees gs.length f) (h : ∀ g ∈ gs, EvalAgrees n g) :
    EvalAgrees n (compose f gs) := by
  intro θ
  obtain ⟨rs, hrs, hk⟩ := evalAll_spec θ gs h
  have hlen := evalAll_length θ gs hrs
  have hvals : (fun k => (rs.getD k Ev.zero).val) = gVals gs θ := by
    funext k c
    rcases Nat.lt_or_ge k gs.length with hlt | hge
    · exact (hk k hlt).1 c
    · simp [gVals, List.getElem?_eq_none hge, List.getD, List.getElem?_eq_none (hlen ▸ hge),
        Ev.zero]
  obtain ⟨r, hr, hv, hg, hh⟩ := hf (gVals gs θ)
  have hr' : f.eval gs.length (fun k => (rs.getD k Ev.zero).val) = .ok r := by rw [hvals]; exact hr
  have hG : ∀ i < n, ∀ e c, ∑ k ∈ range gs.length,
      contract1 (r.grad k) ((rs.getD k Ev.zero).grad i) e c = (compose f gs).grad θ i e c := by
    intro i hi e c
    simp only [compose]
    split
    · rename_i hn
      refine sum_eq_zero fun k hkm => sum_eq_zero fun p _ => ?_
      rw [hg k (mem_range.1 hkm), (hN.1 hn).1, mul_zero]
    · refine sum_congr rfl fun k hkm => sum_congr rfl fun p _ => ?_
      rw [hg k (mem_range.1 hkm), (hk k (mem_range.1 hkm)).2.1 i hi]
  have hLow : ∀ k < gs.length, ∀ l < gs.length, ∀ e e' c, lowerGet r.hess k l e e' c =
      (if l > k then fun e e' c => f.hess (gVals gs θ) l k e' e c
        else f.hess (gVals gs θ) k l) e e' c := by
    intro k hkl l hll e e' c
    unfold lowerGet
    split
    · rename_i hgt; exact hh l hll k (le_of_lt hgt) e' e c
    · rename_i hle; exact hh k hkl l (not_lt.1 hle) e e' c
  by_cases hsp : f.gradNull = false ∧ f.hessNull = true
  · refine ⟨⟨r.val, fun i e c => ∑ k ∈ range gs.length,
      contract1 (r.grad k) ((rs.getD k Ev.zero).grad i) e c,
      fun i j e e' c => ∑ k ∈ range gs.length,
        contractH (r.grad k) ((rs.getD k Ev.zero).hess i j) e e' c⟩, by
      simp only [compose, hrs, bind, Except.bind, hr']; rw [if_pos hsp]; rfl, hv, hG, ?_⟩
    intro i hi j hj e e' c
    simp only [compose, hsp.1, hsp.2]
    simp only [Bool.false_eq_true, if_false, if_true]
    refine sum_congr rfl fun k hkm => sum_congr rfl fun p _ => ?_
    rw [hg k (mem_range.1 hkm), (hk k (mem_range.1 hkm)).2.2 i hi j hj]
  · refine ⟨⟨r.val, fun i e c => ∑ k ∈ range gs.length,
      contract1 (r.grad k) ((rs.getD k Ev.zero).grad i) e c,
      fun i j e e' c => ∑ k ∈ range gs.length,
        (contractH (r.grad k) ((rs.getD k Ev.zero).hess i j) e e' c +
          ∑ l ∈ range gs.length, contract2 (lowerGet r.hess k l)
            ((rs.getD k Ev.zero).grad i) ((rs.getD l Ev.zero).grad j) e e' c)⟩, by
      simp only [compose, hrs, bind, Except.bind, hr']; rw [if_neg hsp]; rfl, hv, hG, ?_⟩
    intro i hi j hj e e' c
    have hji := lt_of_le_of_lt hj hi
    by_cases hgn : f.gradNull = true
    · simp only [compose, hgn, if_true]
      refine sum_eq_zero fun k hkm => ?_
      have hkl := mem_range.1 hkm
      have h1 : contractH (r.grad k) ((rs.getD k Ev.zero).hess i j) e e' c = 0 :=
        sum_eq_zero fun p _ => by rw [hg k hkl, (hN.1 hgn).1, mul_zero]
      rw [h1, zero_add]
      refine sum_eq_zero fun l hlm => sum_eq_zero fun p _ => sum_eq_zero fun q _ => ?_
      rw [hLow k hkl l (mem_range.1 hlm)]
      split <;> simp [(hN.1 hgn).2]
    · have hgn' : f.gradNull = false := by simpa using hgn
      have hhn : f.hessNull = false := by
        by_contra hcon
        exact hsp ⟨hgn', by simpa using hcon⟩
      simp only [compose, hgn', hhn]
      simp only [Bool.false_eq_true, if_false]
      refine sum_congr rfl fun k hkm => ?_
      have hkl := mem_range.1 hkm
      rw [add_comm]
      congr 1
      · refine sum_congr rfl fun l hlm => ?_
        have hll := mem_range.1 hlm
        refine sum_congr rfl fun p _ => sum_congr rfl fun q _ => ?_
        rw [hLow k hkl l hll, (hk k hkl).2.1 i hi, (hk l hll).2.1 j hji]
      · refine sum_congr rfl fun p _ => ?_
        rw [hg k hkl, (hk k hkl).2.2 i hi j hj]

end Verif.Func
