import Verif.Lemmas.FuncEval
import Mathlib.Analysis.Calculus.Deriv.Add
import Mathlib.Analysis.Calculus.Deriv.Mul
import Mathlib.Analysis.Calculus.Deriv.Pow

/-! Derivatives of composite Funcs, combinator by combinator. -/

set_option linter.unusedSectionVars false

namespace Verif.Func
open Verif.Params (Err)
open Finset

variable {ι : Type} [Fintype ι]

/-- `Σ_j Σ_e F j e * v j e` -/
def pair (n : Nat) (v : Prm ι) (F : Nat → ι → ℝ) : ℝ := ∑ j ∈ range n, ∑ e, F j e * v j e

theorem pair_congr {n : Nat} {v : Prm ι} {F G : Nat → ι → ℝ} (h : ∀ j < n, ∀ e, F j e = G j e) :
    pair n v F = pair n v G :=
  sum_congr rfl fun j hj => sum_congr rfl fun e _ => by rw [h j (mem_range.1 hj)]

theorem pair_add (n : Nat) (v : Prm ι) (F G : Nat → ι → ℝ) :
    pair n v (fun j e => F j e + G j e) = pair n v F + pair n v G := by
  simp only [pair, add_mul, sum_add_distrib]

theorem pair_zero (n : Nat) (v : Prm ι) : pair n v (fun _ _ => 0) = 0 := by
  simp [pair]

theorem pair_mul_left (n : Nat) (v : Prm ι) (a : ℝ) (F : Nat → ι → ℝ) :
    pair n v (fun j e => a * F j e) = a * pair n v F := by
  simp only [pair, mul_assoc, mul_sum]

theorem pair_mul_right (n : Nat) (v : Prm ι) (a : ℝ) (F : Nat → ι → ℝ) :
    pair n v (fun j e => F j e * a) = pair n v F * a := by
  simp only [pair, sum_mul]
  exact sum_congr rfl fun _ _ => sum_congr rfl fun _ _ => by ring

theorem pair_sum {κ : Type} (n : Nat) (v : Prm ι) (s : Finset κ) (F : κ → Nat → ι → ℝ) :
    pair n v (fun j e => ∑ k ∈ s, F k j e) = ∑ k ∈ s, pair n v (F k) := by
  classical
  induction s using Finset.induction_on with
  | empty => simp [pair]
  | insert a s ha ih => simp only [sum_insert ha, pair_add, ih]

theorem pair_listSum {α : Type} (n : Nat) (v : Prm ι) (l : List α) (F : α → Nat → ι → ℝ) :
    pair n v (fun j e => (l.map fun x => F x j e).sum) = (l.map fun x => pair n v (F x)).sum := by
  induction l with
  | nil => simp [pair]
  | cons a l ih => simp only [List.map_cons, List.sum_cons, pair_add, ih]

theorem hasDerivAt_listSum {α : Type} (l : List α) (F : α → ℝ → ℝ) (F' : α → ℝ) (t : ℝ)
    (h : ∀ x ∈ l, HasDerivAt (F x) (F' x) t) :
    HasDerivAt (fun s => (l.map fun x => F x s).sum) (l.map F').sum t := by
  induction l with
  | nil => simpa using hasDerivAt_const t (0 : ℝ)
  | cons a l ih =>
    simp only [List.map_cons, List.sum_cons]
    exact (h a (by simp)).fun_add (ih fun x hx => h x (by simp [hx]))

theorem fullHess_symm {n : Nat} {f : Fn ι} {θ : Prm ι} (h : HessCorrectAt n f θ) {i j : Nat}
    (hi : i < n) (e e' c : ι) : fullHess f θ i j e e' c = fullHess f θ j i e' e c := by
  unfold fullHess
  rcases lt_trichotomy i j with hlt | heq | hgt
  · rw [if_neg (by omega), if_pos (by omega)]
  · subst heq; simp only [le_refl, if_true]; exact h.2 i hi e e' c
  · rw [if_pos (by omega), if_neg (by omega)]

/-! ### Affine -/

theorem affine_grad_eq {f : Fn ι} (a b : ℝ) (hN : NullHonest f) (θ : Prm ι) (i : Nat) (e c : ι) :
    (affine f a b).grad θ i e c = a * f.grad θ i e c := by
  simp only [affine]
  split
  · rename_i h; simp [(hN.1 h).1]
  · rfl

theorem affine_hess_eq {f : Fn ι} (a b : ℝ) (hN : NullHonest f) (θ : Prm ι) (i j : Nat)
    (e e' c : ι) : (affine f a b).hess θ i j e e' c = a * f.hess θ i j e e' c := by
  simp only [affine]
  split
  · rename_i h; simp [hN.2 h]
  · rfl

theorem affine_gradCorrect {n : Nat} {f : Fn ι} {θ : Prm ι} (a b : ℝ) (hN : NullHonest f)
    (h : GradCorrectAt n f θ) : GradCorrectAt n (affine f a b) θ := by
  intro γ v t hγ c
  have := ((h γ v t hγ c).const_mul a).add_const b
  refine HasDerivAt.congr_deriv this ?_
  simp only [affine_grad_eq a b hN]
  exact (pair_mul_left n v a _).symm

theorem affine_hessCorrect {n : Nat} {f : Fn ι} {θ : Prm ι} (a b : ℝ) (hN : NullHonest f)
    (h : HessCorrectAt n f θ) : HessCorrectAt n (affine f a b) θ := by
  refine ⟨fun γ v t hγ i hi e c => ?_, fun i hi e e' c => ?_⟩
  · simp only [affine_grad_eq a b hN]
    refine HasDerivAt.congr_deriv ((h.1 γ v t hγ i hi e c).const_mul a) ?_
    rw [show (∑ j ∈ range n, ∑ e', fullHess (affine f a b) θ i j e e' c * v j e') =
      pair n v (fun j e' => a * fullHess f θ i j e e' c) from ?_]
    · exact (pair_mul_left n v a _).symm
    · refine pair_congr fun j _ e' => ?_
      simp only [fullHess, affine_hess_eq a b hN]
      split <;> rfl
  · rw [affine_hess_eq a b hN, affine_hess_eq a b hN, h.2 i hi]

/-! ### Collapse -/

theorem collapse_gradCorrect {n : Nat} {f : Fn ι} {θ : Prm ι} (fib : ι → Finset ι)
    (h : GradCorrectAt n f θ) : GradCorrectAt n (collapse f fib) θ := by
  intro γ v t hγ c
  refine HasDerivAt.congr_deriv (HasDerivAt.fun_sum fun c' _ => h γ v t hγ c') ?_
  exact (pair_sum n v (fib c) fun c' j e => f.grad θ j e c').symm

theorem collapse_hessCorrect {n : Nat} {f : Fn ι} {θ : Prm ι} (fib : ι → Finset ι)
    (h : HessCorrectAt n f θ) : HessCorrectAt n (collapse f fib) θ := by
  refine ⟨fun γ v t hγ i hi e c => ?_, fun i hi e e' c => ?_⟩
  · refine HasDerivAt.congr_deriv (HasDerivAt.fun_sum fun c' _ => h.1 γ v t hγ i hi e c') ?_
    refine (pair_sum n v (fib c) fun c' j e' => fullHess f θ i j e e' c').symm.trans ?_
    refine pair_congr fun j _ e' => ?_
    simp only [fullHess, collapse]
    split <;> rfl
  · exact sum_congr rfl fun c' _ => h.2 i hi e e' c'

/-! ### Sum -/

theorem sum_gradCorrect {n : Nat} {θ : Prm ι} (atoms : List (ℝ × Fn ι)) (b : ℝ)
    (h : ∀ x ∈ atoms, GradCorrectAt n x.2 θ) : GradCorrectAt n (sum atoms b) θ := by
  intro γ v t hγ c
  refine HasDerivAt.congr_deriv ((hasDerivAt_listSum atoms (fun x s => x.1 * x.2.call (γ s) c)
    (fun x => x.1 * pair n v fun i e => x.2.grad θ i e c) t
    (fun x hx => (h x hx γ v t hγ c).const_mul x.1)).add_const b) ?_
  simp only [← pair_mul_left]
  exact (pair_listSum n v atoms fun x j e => x.1 * x.2.grad θ j e c).symm

theorem sum_hessCorrect {n : Nat} {θ : Prm ι} (atoms : List (ℝ × Fn ι)) (b : ℝ)
    (h : ∀ x ∈ atoms, HessCorrectAt n x.2 θ) : HessCorrectAt n (sum atoms b) θ := by
  refine ⟨fun γ v t hγ i hi e c => ?_, fun i hi e e' c => ?_⟩
  · refine HasDerivAt.congr_deriv (hasDerivAt_listSum atoms
      (fun x s => x.1 * x.2.grad (γ s) i e c)
      (fun x => x.1 * pair n v fun j e' => fullHess x.2 θ i j e e' c) t
      (fun x hx => ((h x hx).1 γ v t hγ i hi e c).const_mul x.1)) ?_
    simp only [← pair_mul_left]
    refine (pair_listSum n v atoms fun x j e' => x.1 * fullHess x.2 θ i j e e' c).symm.trans ?_
    refine pair_congr fun j _ e' => ?_
    simp only [fullHess, sum]
    split <;> rfl
  · simp only [sum]
    congr 1
    exact List.map_congr_left fun x hx => by rw [(h x hx).2 i hi]

/-! ### FuncWrap -/

theorem indexOf?_eq_some_of_nodup {pm : List Nat} (hnd : pm.Nodup) {k : Nat} (hk : k < pm.length) :
    indexOf? pm (pm.getD k 0) = some k := by
  unfold indexOf?
  rw [List.findIdx?_eq_some_iff_getElem]
  have hget : pm.getD k 0 = pm[k] := by simp [List.getD, List.getElem?_eq_getElem hk]
  refine ⟨hk, by rw [hget]; simp, fun j hj => ?_⟩
  simp only [hget, beq_iff_eq]
  intro heq
  exact absurd ((List.Nodup.getElem_inj_iff hnd).1 heq) (by omega)

/-- The sum over the parameters of a wrapped function equals the sum over all parameters of what
`index` finds. -/
theorem indexOf_sum {n : Nat} {pm : List Nat} (hnd : pm.Nodup) (hr : ∀ p ∈ pm, p < n)
    (G : Nat → Nat → ℝ) :
    ∑ k ∈ range pm.length, G k (pm.getD k 0) =
      ∑ i ∈ range n, (match indexOf? pm i with
        | some k => G k i
        | none => 0) := by
  have hmem : ∀ k ∈ range pm.length, pm.getD k 0 ∈ range n := fun k hk => by
    have hk' := mem_range.1 hk
    refine mem_range.2 (hr _ ?_)
    simp [List.getD, List.getElem?_eq_getElem hk']
  refine Finset.sum_of_injOn (fun k => pm.getD k 0) ?_ (fun k hk => by simpa using hmem k (by simpa using hk)) ?_ ?_
  · intro k hk l hl heq
    have h1 := indexOf?_eq_some_of_nodup hnd (k := k) (by simpa using hk)
    have h2 := indexOf?_eq_some_of_nodup hnd (k := l) (by simpa using hl)
    simp only at heq
    rw [heq, h2] at h1
    exact (Option.some.inj h1).symm
  · intro i _ hni
    cases hx : indexOf? pm i with
    | none => rfl
    | some k =>
      exfalso
      exact hni ⟨k, by simpa using indexOf?_lt hx, indexOf?_get hx⟩
  · intro k hk
    rw [indexOf?_eq_some_of_nodup hnd (mem_range.1 hk)]

theorem wrap_grad_eq {f : Fn ι} (pm : List Nat) (ρ : ι → ι) (hN : NullHonest f) (θ : Prm ι)
    (i : Nat) (e c : ι) : (wrap f pm ρ).grad θ i e c =
      match indexOf? pm i with
      | some k => f.grad (selectParams pm θ) k e (ρ c)
      | none => 0 := by
  simp only [wrap]
  split
  · rename_i h
    split <;> simp [(hN.1 h).1]
  · rfl

theorem wrap_hess_eq {f : Fn ι} (pm : List Nat) (ρ : ι → ι) (hN : NullHonest f) (θ : Prm ι)
    (i j : Nat) (e e' c : ι) : (wrap f pm ρ).hess θ i j e e' c =
      match indexOf? pm i, indexOf? pm j with
      | some k, some l => f.hess (selectParams pm θ) k l e e' (ρ c)
      | _, _ => 0 := by
  simp only [wrap]
  split
  · rename_i h
    split <;> simp [hN.2 h]
  · rfl

theorem selectParams_curve {n : Nat} {pm : List Nat} (hr : ∀ p ∈ pm, p < n) {γ : ℝ → Prm ι}
    {v : Prm ι} {t : ℝ} {θ : Prm ι} (hγ : CurveAt n γ v t θ) :
    CurveAt pm.length (fun s => selectParams pm (γ s)) (selectParams pm v) t
      (selectParams pm θ) := by
  refine ⟨by simp only [hγ.1], fun k hk e => ?_⟩
  simp only [selectParams, List.getElem?_eq_getElem hk]
  exact hγ.2 _ (hr _ (List.getElem_mem hk)) e

theorem selectParams_getD {pm : List Nat} {k : Nat} (hk : k < pm.length) (θ : Prm ι) :
    selectParams pm θ k = θ (pm.getD k 0) := by
  simp [selectParams, List.getD, List.getElem?_eq_getElem hk]

theorem wrap_gradCorrect {n : Nat} {f : Fn ι} {pm : List Nat} (ρ : ι → ι) {θ : Prm ι}
    (hN : NullHonest f) (hnd : pm.Nodup) (hr : ∀ p ∈ pm, p < n)
    (h : GradCorrectAt pm.length f (selectParams pm θ)) : GradCorrectAt n (wrap f pm ρ) θ := by
  intro γ v t hγ c
  refine HasDerivAt.congr_deriv (h _ _ t (selectParams_curve hr hγ) (ρ c)) ?_
  refine (sum_congr rfl fun k hk => by rw [selectParams_getD (mem_range.1 hk)]).trans
    ((indexOf_sum hnd hr fun k i => ∑ e,
    f.grad (selectParams pm θ) k e (ρ c) * v i e).trans ?_)
  refine sum_congr rfl fun i _ => ?_
  simp only [wrap_grad_eq pm ρ hN]
  cases indexOf? pm i with
  | none => simp
  | some k => rfl

theorem pairwise_index_le {pm : List Nat} (hinc : pm.Pairwise (· < ·)) {i j k l : Nat}
    (hk : indexOf? pm i = some k) (hl : indexOf? pm j = some l) (hij : j ≤ i) : l ≤ k := by
  by_contra hcon
  have hkl : k < l := not_le.1 hcon
  have h1 := indexOf?_lt hk
  have h2 := indexOf?_lt hl
  have h3 := List.pairwise_iff_getElem.1 hinc k l h1 h2 hkl
  have e1 := indexOf?_get hk
  have e2 := indexOf?_get hl
  simp [List.getD, List.getElem?_eq_getElem h1] at e1
  simp [List.getD, List.getElem?_eq_getElem h2] at e2
  omega

/-- `hess(i, j)` and `hess(j, i)` are transposes of each other also off the diagonal. -/
def HessFullSymm (f : Fn ι) (θ : Prm ι) : Prop :=
  ∀ i j e e' c, f.hess θ i j e e' c = f.hess θ j i e' e c

theorem wrap_hessCorrect {n : Nat} {f : Fn ι} {pm : List Nat} (ρ : ι → ι) {θ : Prm ι}
    (hN : NullHonest f) (hnd : pm.Nodup) (hr : ∀ p ∈ pm, p < n)
    (hord : pm.Pairwise (· < ·) ∨ HessFullSymm f (selectParams pm θ))
    (h : HessCorrectAt pm.length f (selectParams pm θ)) : HessCorrectAt n (wrap f pm ρ) θ := by
  have hfull : ∀ i j e e' c, fullHess (wrap f pm ρ) θ i j e e' c =
      match indexOf? pm i, indexOf? pm j with
      | some k, some l => fullHess f (selectParams pm θ) k l e e' (ρ c)
      | _, _ => 0 := by
    intro i j e e' c
    simp only [fullHess, wrap_hess_eq pm ρ hN]
    cases hi : indexOf? pm i with
    | none =>
      split
      · rfl
      · cases indexOf? pm j <;> rfl
    | some k =>
      cases hj : indexOf? pm j with
      | none => simp
      | some l =>
        rcases hord with hinc | hsym
        · by_cases hij : j ≤ i
          · have hlk := pairwise_index_le hinc hi hj hij
            simp only [hij, hlk, if_true]
          · have hkl := pairwise_index_le hinc hj hi (by omega)
            by_cases hlk : l ≤ k
            · have : k = l := le_antisymm hkl hlk
              subst this
              have := indexOf?_get hi
              rw [indexOf?_get hj] at this
              omega
            · simp only [hij, hlk, if_false]
        · simp only
          rw [hsym k l]
          simp
  refine ⟨fun γ v t hγ i hi e c => ?_, fun i hi e e' c => ?_⟩
  · simp only [wrap_grad_eq pm ρ hN, hfull]
    cases hix : indexOf? pm i with
    | none => simpa using hasDerivAt_const t (0 : ℝ)
    | some k =>
      simp only
      refine HasDerivAt.congr_deriv
        (h.1 _ _ t (selectParams_curve hr hγ) k (indexOf?_lt hix) e (ρ c)) ?_
      refine (sum_congr rfl fun l hl => by rw [selectParams_getD (mem_range.1 hl)]).trans
        ((indexOf_sum hnd hr fun l j => ∑ e',
        fullHess f (selectParams pm θ) k l e e' (ρ c) * v j e').trans ?_)
      refine sum_congr rfl fun j _ => ?_
      cases indexOf? pm j with
      | none => simp
      | some l => rfl
  · simp only [wrap_hess_eq pm ρ hN]
    cases hix : indexOf? pm i with
    | none => rfl
    | some k => exact h.2 k (indexOf?_lt hix) e e' (ρ c)

/-! ### Product -/

theorem pGet_lt (fs : List (Fn ι)) {k : Nat} (hk : k < fs.length) (sel : Fn ι → ℝ) :
    pGet fs k sel = sel fs[k] := by
  simp [pGet, List.getElem?_eq_getElem hk]

theorem product_gradCorrect {n : Nat} {θ : Prm ι} (fs : List (Fn ι))
    (h : ∀ f ∈ fs, GradCorrectAt n f θ) : GradCorrectAt n (product fs) θ := by
  intro γ v t hγ c
  have hk : ∀ k ∈ range fs.length, HasDerivAt (fun s => pGet fs k fun f => f.call (γ s) c)
      (pair n v fun i e => pGet fs k fun f => f.grad θ i e c) t := by
    intro k hk
    have hk' := mem_range.1 hk
    simp only [pGet_lt fs hk']
    exact h _ (List.getElem_mem hk') γ v t hγ c
  refine HasDerivAt.congr_deriv (HasDerivAt.fun_finsetProd hk) ?_
  simp only [smul_eq_mul, hγ.1, ← pair_mul_left]
  exact (pair_sum n v _ _).symm

theorem product_fullHess {θ : Prm ι} (fs : List (Fn ι)) (i j : Nat) (e e' c : ι) :
    fullHess (product fs) θ i j e e' c = ∑ k ∈ range fs.length,
      ((∑ l ∈ (range fs.length).erase k,
        (∏ m ∈ ((range fs.length).erase k).erase l, pGet fs m fun f => f.call θ c) *
          (pGet fs k fun f => f.grad θ i e c) * pGet fs l fun f => f.grad θ j e' c) +
      (∏ m ∈ (range fs.length).erase k, pGet fs m fun f => f.call θ c) *
        pGet fs k fun f => fullHess f θ i j e e' c) := by
  simp only [fullHess]
  by_cases hij : j ≤ i
  · simp only [hij, if_true, product]
  · simp only [hij, if_false, product, sum_add_distrib]
    congr 1
    rw [Finset.sum_comm' (s' := fun l => (range fs.length).erase l) (t' := range fs.length)]
    · refine sum_congr rfl fun k _ => sum_congr rfl fun l _ => ?_
      rw [erase_right_comm]
      ring
    · intro x y
      simp only [mem_erase, mem_range]
      omega

theorem product_hessCorrect {n : Nat} {θ : Prm ι} (fs : List (Fn ι))
    (hg : ∀ f ∈ fs, GradCorrectAt n f θ) (h : ∀ f ∈ fs, HessCorrectAt n f θ) :
    HessCorrectAt n (product fs) θ := by
  refine ⟨fun γ v t hγ i hi e c => ?_, fun i hi e e' c => ?_⟩
  · have hc : ∀ k ∈ range fs.length, HasDerivAt (fun s => pGet fs k fun f => f.call (γ s) c)
        (pair n v fun i e => pGet fs k fun f => f.grad θ i e c) t := by
      intro k hk
      have hk' := mem_range.1 hk
      simp only [pGet_lt fs hk']
      exact hg _ (List.getElem_mem hk') γ v t hγ c
    have hd : ∀ k ∈ range fs.length, HasDerivAt (fun s => pGet fs k fun f => f.grad (γ s) i e c)
        (pair n v fun j e' => pGet fs k fun f => fullHess f θ i j e e' c) t := by
      intro k hk
      have hk' := mem_range.1 hk
      simp only [pGet_lt fs hk']
      exact (h _ (List.getElem_mem hk')).1 γ v t hγ i hi e c
    refine HasDerivAt.congr_deriv (HasDerivAt.fun_sum fun k hk =>
      (HasDerivAt.fun_finsetProd fun m hm => hc m (mem_of_mem_erase hm)).fun_mul (hd k hk)) ?_
    simp only [smul_eq_mul, hγ.1, sum_mul]
    have : (∑ j ∈ range n, ∑ e', fullHess (product fs) θ i j e e' c * v j e') =
        pair n v fun j e' => ∑ k ∈ range fs.length,
      ((∑ l ∈ (range fs.length).erase k,
        (∏ m ∈ ((range fs.length).erase k).erase l, pGet fs m fun f => f.call θ c) *
          (pGet fs k fun f => f.grad θ i e c) * pGet fs l fun f => f.grad θ j e' c) +
      (∏ m ∈ (range fs.length).erase k, pGet fs m fun f => f.call θ c) *
        pGet fs k fun f => fullHess f θ i j e e' c) :=
      pair_congr fun j _ e' => product_fullHess fs i j e e' c
    rw [this, pair_sum]
    refine sum_congr rfl fun k _ => ?_
    rw [pair_add, pair_sum, pair_mul_left]
    congr 1
    refine sum_congr rfl fun l _ => ?_
    rw [pair_mul_left]
    ring
  · have h1 := product_fullHess (θ := θ) fs i i e e' c
    simp only [fullHess, le_refl, if_true] at h1
    rw [h1]
    simp only [product, sum_add_distrib]
    congr 1
    · rw [Finset.sum_comm' (s' := fun l => (range fs.length).erase l) (t' := range fs.length)]
      · refine sum_congr rfl fun k _ => sum_congr rfl fun l _ => ?_
        rw [erase_right_comm]
        ring
      · intro x y
        simp only [mem_erase, mem_range]
        omega
    · refine sum_congr rfl fun k hk => ?_
      have hk' := mem_range.1 hk
      simp only [pGet_lt fs hk']
      rw [(h _ (List.getElem_mem hk')).2 i hi]

/-! ### Compose -/

theorem gGet_lt (gs : List (Fn ι)) {k : Nat} (hk : k < gs.length) (sel : Fn ι → ℝ) :
    gGet gs k sel = sel gs[k] := by
  simp [gGet, List.getElem?_eq_getElem hk]

theorem gVals_lt (gs : List (Fn ι)) {k : Nat} (hk : k < gs.length) (θ : Prm ι) :
    gVals gs θ k = gs[k].call θ := by
  simp [gVals, List.getElem?_eq_getElem hk]

theorem compose_grad_eq {f : Fn ι} (gs : List (Fn ι)) (hN : NullHonest f) (θ : Prm ι) (i : Nat)
    (e c : ι) : (compose f gs).grad θ i e c = ∑ k ∈ range gs.length, ∑ p,
      (gGet gs k fun g => g.grad θ i e p) * f.grad (gVals gs θ) k p c := by
  simp only [compose, contract1]
  split
  · rename_i hn; simp [(hN.1 hn).1]
  · rfl

theorem compose_hess_eq {f : Fn ι} (gs : List (Fn ι)) (hN : NullHonest f) (θ : Prm ι) (i j : Nat)
    (e e' c : ι) : (compose f gs).hess θ i j e e' c = ∑ k ∈ range gs.length,
      ((∑ l ∈ range gs.length, ∑ p, ∑ q, (gGet gs k fun g => g.grad θ i e p) *
        (gGet gs l fun g => g.grad θ j e' q) * fullHess f (gVals gs θ) k l p q c) +
      ∑ p, (gGet gs k fun g => g.hess θ i j e e' p) * f.grad (gVals gs θ) k p c) := by
  have hfull : f.hessNull = true → ∀ k l p q, fullHess f (gVals gs θ) k l p q c = 0 := by
    intro hn k l p q
    simp [fullHess, hN.2 hn]
  have hfull' : f.gradNull = true → ∀ k l p q, fullHess f (gVals gs θ) k l p q c = 0 := by
    intro hn k l p q
    simp [fullHess, (hN.1 hn).2]
  simp only [compose, contract1, contract2, contractH]
  split
  · rename_i hn; simp [(hN.1 hn).1, hfull' hn]
  · split
    · rename_i hn; simp [hfull hn]
    · refine sum_congr rfl fun k _ => ?_
      congr 1
      refine sum_congr rfl fun l _ => sum_congr rfl fun p _ => sum_congr rfl fun q _ => ?_
      unfold fullHess
      by_cases hlk : l ≤ k
      · rw [if_neg (by omega), if_pos hlk]
      · rw [if_pos (by omega), if_neg hlk]

theorem gVals_curve {n : Nat} {gs : List (Fn ι)} {γ : ℝ → Prm ι} {v : Prm ι} {t : ℝ} {θ : Prm ι}
    (hγ : CurveAt n γ v t θ) (h : ∀ g ∈ gs, GradCorrectAt n g θ) :
    CurveAt gs.length (fun s => gVals gs (γ s))
      (fun k p => pair n v fun j e' => gGet gs k fun g => g.grad θ j e' p) t (gVals gs θ) := by
  refine ⟨by simp only [hγ.1], fun k hk p => ?_⟩
  simp only [gVals_lt gs hk, gGet_lt gs hk]
  exact h _ (List.getElem_mem hk) γ v t hγ p

theorem compose_gradCorrect {n : Nat} {f : Fn ι} {gs : List (Fn ι)} {θ : Prm ι}
    (hN : NullHonest f) (hf : GradCorrectAt gs.length f (gVals gs θ))
    (h : ∀ g ∈ gs, GradCorrectAt n g θ) : GradCorrectAt n (compose f gs) θ := by
  intro γ v t hγ c
  refine HasDerivAt.congr_deriv (hf _ _ t (gVals_curve hγ h) c) ?_
  have : (∑ i ∈ range n, ∑ e, (compose f gs).grad θ i e c * v i e) =
      pair n v fun i e => ∑ k ∈ range gs.length, ∑ p,
        (gGet gs k fun g => g.grad θ i e p) * f.grad (gVals gs θ) k p c :=
    pair_congr fun i _ e => compose_grad_eq gs hN θ i e c
  rw [this, pair_sum]
  refine sum_congr rfl fun k _ => ?_
  rw [pair_sum]
  refine sum_congr rfl fun p _ => ?_
  rw [pair_mul_right, mul_comm]

theorem compose_quad_symm {f : Fn ι} {gs : List (Fn ι)} {θ : Prm ι}
    (hf : HessCorrectAt gs.length f (gVals gs θ)) (i j : Nat) (e e' c : ι) :
    (∑ k ∈ range gs.length, ∑ l ∈ range gs.length, ∑ p, ∑ q, (gGet gs k fun g => g.grad θ i e p) *
        (gGet gs l fun g => g.grad θ j e' q) * fullHess f (gVals gs θ) k l p q c) =
    ∑ k ∈ range gs.length, ∑ l ∈ range gs.length, ∑ p, ∑ q, (gGet gs k fun g => g.grad θ j e' p) *
        (gGet gs l fun g => g.grad θ i e q) * fullHess f (gVals gs θ) k l p q c := by
  rw [Finset.sum_comm]
  refine sum_congr rfl fun l hl => sum_congr rfl fun k _ => ?_
  rw [Finset.sum_comm]
  refine sum_congr rfl fun q _ => sum_congr rfl fun p _ => ?_
  rw [fullHess_symm hf (i := l) (j := k) (mem_range.1 hl)]
  ring

theorem compose_fullHess {f : Fn ι} {gs : List (Fn ι)} {θ : Prm ι}
    (hN : NullHonest f) (hf : HessCorrectAt gs.length f (gVals gs θ)) (i j : Nat) (e e' c : ι) :
    fullHess (compose f gs) θ i j e e' c = ∑ k ∈ range gs.length,
      ((∑ l ∈ range gs.length, ∑ p, ∑ q, (gGet gs k fun g => g.grad θ i e p) *
        (gGet gs l fun g => g.grad θ j e' q) * fullHess f (gVals gs θ) k l p q c) +
      ∑ p, (gGet gs k fun g => fullHess g θ i j e e' p) * f.grad (gVals gs θ) k p c) := by
  have : fullHess (compose f gs) θ i j e e' c = if j ≤ i then (compose f gs).hess θ i j e e' c
    else (compose f gs).hess θ j i e' e c := rfl
  rw [this]
  by_cases hij : j ≤ i
  · rw [if_pos hij, compose_hess_eq gs hN]
    simp only [sum_add_distrib]
    congr 1
    refine sum_congr rfl fun k hk => sum_congr rfl fun p _ => ?_
    rw [gGet_lt gs (mem_range.1 hk), gGet_lt gs (mem_range.1 hk)]
    simp [fullHess, hij]
  · rw [if_neg hij, compose_hess_eq gs hN]
    simp only [sum_add_distrib]
    rw [compose_quad_symm hf j i e' e c]
    congr 1
    refine sum_congr rfl fun k hk => sum_congr rfl fun p _ => ?_
    rw [gGet_lt gs (mem_range.1 hk), gGet_lt gs (mem_range.1 hk)]
    simp [fullHess, hij]

theorem compose_hessCorrect {n : Nat} {f : Fn ι} {gs : List (Fn ι)} {θ : Prm ι}
    (hN : NullHonest f)
    (hf' : HessCorrectAt gs.length f (gVals gs θ))
    (hg : ∀ g ∈ gs, GradCorrectAt n g θ) (h : ∀ g ∈ gs, HessCorrectAt n g θ) :
    HessCorrectAt n (compose f gs) θ := by
  refine ⟨fun γ v t hγ i hi e c => ?_, fun i hi e e' c => ?_⟩
  · simp only [compose_grad_eq gs hN]
    have hd : ∀ k ∈ range gs.length, ∀ p, HasDerivAt
        (fun s => gGet gs k fun g => g.grad (γ s) i e p)
        (pair n v fun j e' => gGet gs k fun g => fullHess g θ i j e e' p) t := by
      intro k hk p
      have hk' := mem_range.1 hk
      simp only [gGet_lt gs hk']
      exact (h _ (List.getElem_mem hk')).1 γ v t hγ i hi e p
    refine HasDerivAt.congr_deriv (HasDerivAt.fun_sum fun k hk => HasDerivAt.fun_sum fun p _ =>
      (hd k hk p).fun_mul (hf'.1 _ _ t (gVals_curve hγ hg) k (mem_range.1 hk) p c)) ?_
    simp only [hγ.1]
    have : (∑ j ∈ range n, ∑ e', fullHess (compose f gs) θ i j e e' c * v j e') =
        pair n v fun j e' => ∑ k ∈ range gs.length,
      ((∑ l ∈ range gs.length, ∑ p, ∑ q, (gGet gs k fun g => g.grad θ i e p) *
        (gGet gs l fun g => g.grad θ j e' q) * fullHess f (gVals gs θ) k l p q c) +
      ∑ p, (gGet gs k fun g => fullHess g θ i j e e' p) * f.grad (gVals gs θ) k p c) :=
      pair_congr fun j _ e' => compose_fullHess hN hf' i j e e' c
    rw [this, pair_sum]
    refine sum_congr rfl fun k _ => ?_
    rw [pair_add, pair_sum, pair_sum, sum_add_distrib, add_comm]
    congr 1
    · simp only [mul_sum]
      rw [Finset.sum_comm]
      refine sum_congr rfl fun l _ => ?_
      rw [pair_sum]
      refine sum_congr rfl fun p _ => ?_
      rw [pair_sum]
      refine sum_congr rfl fun q _ => ?_
      rw [pair_mul_right, pair_mul_left]
      ring
    · refine sum_congr rfl fun p _ => ?_
      rw [pair_mul_right]
  · rw [compose_hess_eq gs hN, compose_hess_eq gs hN]
    simp only [sum_add_distrib]
    rw [compose_quad_symm hf' i i e e' c]
    congr 1
    refine sum_congr rfl fun k hk => sum_congr rfl fun p _ => ?_
    rw [gGet_lt gs (mem_range.1 hk), gGet_lt gs (mem_range.1 hk),
      (h _ (List.getElem_mem (mem_range.1 hk))).2 i hi]

end Verif.Func
