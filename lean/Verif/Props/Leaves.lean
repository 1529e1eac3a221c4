import Verif.Model.Leaves
import Verif.Props.Func
import Mathlib.Analysis.SpecialFunctions.ExpDeriv
import Mathlib.Analysis.SpecialFunctions.Log.Deriv
import Mathlib.Analysis.SpecialFunctions.Trigonometric.ArctanDeriv
import Mathlib.Analysis.Calculus.Deriv.Inv
import Mathlib.Tactic.FieldSimp
import Mathlib.Tactic.Positivity
import Mathlib.Tactic.NormNum.GCD

/-!
# Elementary functions: C29 – C33
-/

set_option linter.unusedSectionVars false

namespace Verif.Func
open Verif.Params (Err)
open Finset

variable {ι : Type} [Fintype ι] [DecidableEq ι]

/-! ### cellwise functions -/

theorem cellwise_gradCorrect {src : ι → ι} {φ φ' φ'' : ι → ℝ → ℝ} {gN hN : Bool} {θ : Prm ι}
    (h : ∀ c, HasDerivAt (φ c) (φ' c (θ 0 (src c))) (θ 0 (src c))) :
    GradCorrectAt 1 (cellwise src φ φ' φ'' gN hN) θ := by
  intro γ v t hγ c
  have h0 := hγ.2 0 (by omega) (src c)
  have hc := h c
  rw [← hγ.1] at hc
  refine HasDerivAt.congr_deriv (hc.comp t h0) ?_
  simp [cellwise, leaf, hγ.1]

theorem cellwise_hessCorrect {src : ι → ι} {φ φ' φ'' : ι → ℝ → ℝ} {gN hN : Bool} {θ : Prm ι}
    (h : ∀ c, HasDerivAt (φ' c) (φ'' c (θ 0 (src c))) (θ 0 (src c))) :
    HessCorrectAt 1 (cellwise src φ φ' φ'' gN hN) θ := by
  refine ⟨fun γ v t hγ i hi e c => ?_, fun i hi e e' c => ?_⟩
  · have h0 := hγ.2 0 (by omega) (src c)
    have hc := h c
    rw [← hγ.1] at hc
    by_cases he : e = src c
    · simp only [cellwise, leaf, he, if_true]
      refine HasDerivAt.congr_deriv (hc.comp t h0) ?_
      have hi0 : i = 0 := by omega
      subst hi0
      simp [fullHess, hγ.1]
    · simp only [cellwise, leaf, he, if_false]
      refine HasDerivAt.congr_deriv (hasDerivAt_const t (0 : ℝ)) ?_
      simp [fullHess, he]
  · simp only [cellwise, leaf]
    simp only [and_comm]

theorem cellwise_null (src : ι → ι) (φ φ' φ'' : ι → ℝ → ℝ) (hN : Bool)
    (h : hN = true → ∀ c y, φ'' c y = 0) :
    NullHonest (cellwise src φ φ' φ'' false hN) := by
  refine ⟨fun hg => by simp [cellwise, leaf] at hg, fun hh θ i j e e' c => ?_⟩
  have : hN = true := hh
  simp [cellwise, leaf, h this]

/-- `f` is a correct atom at `θ`: true derivatives, consistent `eval`, honest flags. -/
def AtomOk (n : Nat) (f : Fn ι) (θ : Prm ι) : Prop :=
  GradCorrectAt n f θ ∧ HessCorrectAt n f θ ∧ NullHonest f ∧ EvalAgrees n f

theorem cellwise_ok {src : ι → ι} {φ φ' φ'' : ι → ℝ → ℝ} {hN : Bool} {θ : Prm ι}
    (h1 : ∀ c, HasDerivAt (φ c) (φ' c (θ 0 (src c))) (θ 0 (src c)))
    (h2 : ∀ c, HasDerivAt (φ' c) (φ'' c (θ 0 (src c))) (θ 0 (src c)))
    (h : hN = true → ∀ c y, φ'' c y = 0) :
    AtomOk 1 (cellwise src φ φ' φ'' false hN) θ :=
  ⟨cellwise_gradCorrect h1, cellwise_hessCorrect h2, cellwise_null _ _ _ _ _ h,
    leaf_evalAgrees _ _ _ _ _ _⟩

/-! ## C29 -/

theorem C29_X (θ : Prm ι) : AtomOk 1 (xFn : Fn ι) θ :=
  cellwise_ok (fun _ => hasDerivAt_id _) (fun _ => hasDerivAt_const _ _) (fun _ _ _ => rfl)

theorem C29_Scalar (e₀ : ι) (θ : Prm ι) : AtomOk 1 (scalarFn e₀) θ :=
  cellwise_ok (fun _ => hasDerivAt_id _) (fun _ => hasDerivAt_const _ _) (fun _ _ _ => rfl)

theorem C29_Vector (e₀ : ι) (vec : ι → ℝ) (θ : Prm ι) : AtomOk 1 (vectorFn e₀ vec) θ :=
  cellwise_ok (fun c => by simpa using (hasDerivAt_id (θ 0 e₀)).mul_const (vec c))
    (fun c => hasDerivAt_const _ _) (fun _ _ _ => rfl)

theorem C29_Constant (n : Nat) (vec : ι → ℝ) (θ : Prm ι) : AtomOk n (constantFn vec) θ := by
  refine ⟨fun γ v t _ c => ?_, ⟨fun γ v t _ i _ e c => ?_, fun _ _ _ _ _ => rfl⟩,
    ⟨fun _ => ⟨fun _ _ _ _ => rfl, fun _ _ _ _ _ _ => rfl⟩, fun _ _ _ _ _ _ _ => rfl⟩,
    leaf_evalAgrees _ _ _ _ _ _⟩
  · refine HasDerivAt.congr_deriv (hasDerivAt_const t (vec c)) ?_
    simp [constantFn, leaf]
  · refine HasDerivAt.congr_deriv (hasDerivAt_const t (0 : ℝ)) ?_
    simp [constantFn, leaf, fullHess]

theorem C29_Exp (θ : Prm ι) : AtomOk 1 (expFn : Fn ι) θ :=
  cellwise_ok (fun _ => Real.hasDerivAt_exp _) (fun _ => Real.hasDerivAt_exp _)
    (fun h => by simp at h)

/-- `Log` where all entries are non-zero (numpy returns `nan` for negative ones). -/
theorem C29_Log (θ : Prm ι) (h : ∀ c, θ 0 c ≠ 0) : AtomOk 1 (logFn : Fn ι) θ := by
  refine cellwise_ok (fun c => ?_) (fun c => ?_) (fun h => by simp at h)
  · simpa using Real.hasDerivAt_log (h c)
  · have := hasDerivAt_inv (h c)
    simp only [one_div]
    refine HasDerivAt.congr_deriv this ?_
    simp [neg_div]

theorem hasDerivAt_expit (y : ℝ) : HasDerivAt expit (expit y * (1 - expit y)) y := by
  have hpos : (1 : ℝ) + Real.exp (-y) ≠ 0 := by positivity
  have h1 : HasDerivAt (fun z => 1 + Real.exp (-z)) (Real.exp (-y) * -1) y :=
    ((Real.hasDerivAt_exp (-y)).comp y (hasDerivAt_neg y)).const_add 1
  have h2 := (hasDerivAt_const y (1 : ℝ)).fun_div h1 hpos
  refine HasDerivAt.congr_deriv h2 ?_
  simp only [expit]
  field_simp
  ring

theorem C29_Logistic (θ : Prm ι) : AtomOk 1 (logisticFn : Fn ι) θ := by
  refine cellwise_ok (fun c => hasDerivAt_expit _) (fun c => ?_) (fun h => by simp at h)
  have h := hasDerivAt_expit (θ 0 (id c))
  refine HasDerivAt.congr_deriv (h.fun_mul (h.const_sub 1)) ?_
  ring

theorem C29_ArcTan (θ : Prm ι) : AtomOk 1 (arctanFn : Fn ι) θ := by
  refine cellwise_ok (fun c => ?_) (fun c => ?_) (fun h => by simp at h)
  · refine HasDerivAt.congr_deriv (Real.hasDerivAt_arctan _) ?_
    rw [sq]
  · set y := θ 0 (id c)
    have hpos : (1 : ℝ) + y * y ≠ 0 := by nlinarith [mul_self_nonneg y]
    have h1 : HasDerivAt (fun z : ℝ => 1 + z * z) (1 * y + y * 1) y :=
      ((hasDerivAt_id y).fun_mul (hasDerivAt_id y)).const_add 1
    refine HasDerivAt.congr_deriv ((hasDerivAt_const y (1 : ℝ)).fun_div h1 hpos) ?_
    congr 1
    ring

/-- `Sigmoid(name)`: both names give a correct function with values in (0, 1); any other name
raises `ValueError`. -/
theorem C29_Sigmoid (name : String) (θ : Prm ι) :
    (∀ f, sigmoid name = .ok f → AtomOk 1 f θ ∧ ∀ c, 0 < f.call θ c ∧ f.call θ c < 1) ∧
    (name ≠ "logistic" → name ≠ "arctan" →
      (sigmoid name : Except Err (Fn ι)) = .error .valueError) := by
  constructor
  · intro f hf
    unfold sigmoid at hf
    split at hf
    · cases hf
      refine ⟨C29_Logistic θ, fun c => ?_⟩
      simp only [logisticFn, cellwise, leaf, expit]
      have : 0 < Real.exp (-(θ 0 (id c))) := Real.exp_pos _
      constructor
      · positivity
      · rw [div_lt_one (by linarith)]; linarith
    · split at hf
      · cases hf
        obtain ⟨h1, h2, h3, h4⟩ := C29_ArcTan (ι := ι) θ
        refine ⟨⟨affine_gradCorrect _ _ h3 h1, affine_hessCorrect _ _ h3 h2,
          affine_nullHonest _ _ h3, affine_evalAgrees _ _ h3 h4⟩, fun c => ?_⟩
        simp only [affine, arctanFn, cellwise, leaf]
        have hl := Real.neg_pi_div_two_lt_arctan (θ 0 (id c))
        have hu := Real.arctan_lt_pi_div_two (θ 0 (id c))
        have hpi := Real.pi_pos
        have e1 : 1 / Real.pi * (-(Real.pi / 2)) = -(1 / 2) := by field_simp
        have e2 : 1 / Real.pi * (Real.pi / 2) = 1 / 2 := by field_simp
        have hinv : (0 : ℝ) < 1 / Real.pi := by positivity
        have b1 := mul_lt_mul_of_pos_left hl hinv
        have b2 := mul_lt_mul_of_pos_left hu hinv
        rw [e1] at b1
        rw [e2] at b2
        norm_num at *
        constructor <;> linarith
      · cases hf
  · intro h1 h2
    simp [sigmoid, h1, h2]

/-- `Linear` with as many weights as parameters. -/
theorem C29_Linear (weights : List ℝ) (supp : Nat → Finset ι) (θ : Prm ι) :
    AtomOk weights.length (linearFn weights supp) θ := by
  refine ⟨fun γ v t hγ c => ?_, ⟨fun γ v t _ i _ e c => ?_, fun _ _ _ _ _ => rfl⟩,
    ⟨fun h => by simp [linearFn, leaf] at h, fun h => by simp [linearFn, leaf] at h⟩,
    leaf_evalAgrees _ _ _ _ _ _⟩
  · refine HasDerivAt.congr_deriv (HasDerivAt.fun_sum fun k hk => HasDerivAt.fun_sum fun e _ =>
      (hγ.2 k (mem_range.1 hk) e).mul_const (weights.getD k 0)) ?_
    refine sum_congr rfl fun k _ => ?_
    simp only [linearFn, leaf, ite_mul, zero_mul]
    rw [Finset.sum_ite_mem, Finset.univ_inter]
    exact sum_congr rfl fun e _ => mul_comm _ _
  · refine HasDerivAt.congr_deriv (hasDerivAt_const t _) ?_
    simp [linearFn, leaf, fullHess]

theorem C29_Quadratic (n : Nat) (u s : ℝ) (supp : Nat → Finset ι) (θ : Prm ι) :
    AtomOk n (quadraticFn n u s supp) θ := by
  refine ⟨fun γ v t hγ c => ?_, ⟨fun γ v t hγ i hi e c => ?_, fun i _ e e' c => ?_⟩,
    ⟨fun h => by simp [quadraticFn, leaf] at h, fun h => by simp [quadraticFn, leaf] at h⟩,
    leaf_evalAgrees _ _ _ _ _ _⟩
  · have hz : ∀ k ∈ range n, ∀ e, HasDerivAt (fun x => (γ x k e - u) / s) (v k e / s) t :=
      fun k hk e => ((hγ.2 k (mem_range.1 hk) e).sub_const u).div_const s
    refine HasDerivAt.congr_deriv (HasDerivAt.fun_sum fun k hk => HasDerivAt.fun_sum fun e _ =>
      (hz k hk e).fun_mul (hz k hk e)) ?_
    refine sum_congr rfl fun k _ => ?_
    simp only [quadraticFn, leaf, ite_mul, zero_mul, hγ.1]
    rw [Finset.sum_ite_mem, Finset.univ_inter]
    refine sum_congr rfl fun e _ => ?_
    ring
  · have hF : ∀ j e', fullHess (quadraticFn n u s supp) θ i j e e' c =
        if i = j ∧ e = e' ∧ e ∈ supp i then 2 * 1 / s / s else 0 := by
      intro j e'
      simp only [fullHess, quadraticFn, leaf]
      split
      · rfl
      · rename_i hji
        have : i ≠ j := by omega
        rw [if_neg (fun h => this h.1.symm), if_neg (fun h => this h.1)]
    simp only [hF]
    change HasDerivAt (fun x => if e ∈ supp i then 2 * ((γ x i e - u) / s) / s else 0) _ t
    by_cases he : e ∈ supp i
    · simp only [he, if_true, and_true]
      refine HasDerivAt.congr_deriv
        (((((hγ.2 i hi e).sub_const u).div_const s).const_mul 2).div_const s) ?_
      rw [Finset.sum_eq_single i]
      · rw [Finset.sum_eq_single e]
        · simp; ring
        · intro b _ hb
          simp [Ne.symm hb]
        · simp
      · intro j _ hj
        refine Finset.sum_eq_zero fun e' _ => ?_
        simp [Ne.symm hj]
      · intro h; exact absurd (mem_range.2 hi) h
    · simp only [he, if_false, and_false]
      refine HasDerivAt.congr_deriv (hasDerivAt_const t _) ?_
      simp
  · simp only [quadraticFn, leaf]
    by_cases h : e = e'
    · subst h; rfl
    · rw [if_neg (by tauto), if_neg (fun hh => h hh.2.1.symm)]

/-- The atoms compose: e.g. `Sigmoid`-like nestings `Exp @ (2 * Logistic + 1)` have true first and
second derivatives everywhere. -/
example (θ : Prm ι) : DerivBuilt 1 (compose expFn [affine logisticFn 2 1] : Fn ι) θ := by
  have hE : ∀ θ : Prm ι, DerivBuilt 1 expFn θ := fun θ =>
    .atom (C29_Exp θ).1 (C29_Exp θ).2.1 (C29_Exp θ).2.2.1
  refine .compose _ (hE _) fun g hg => ?_
  simp only [List.mem_cons, List.not_mem_nil, or_false] at hg
  subst hg
  exact .affine _ _ (.atom (C29_Logistic θ).1 (C29_Logistic θ).2.1 (C29_Logistic θ).2.2.1)

example : ∃ θ : Prm (Fin 3), ∀ c, θ 0 c ≠ 0 := ⟨fun _ _ => 1, fun _ => one_ne_zero⟩

/-! ## C30 -/

theorem poissonRow_get {size k : Nat} (h : k < size) (a : ℝ) :
    (poissonRow size a).getD k 0 = a ^ k / (k.factorial : ℝ) := by
  simp [poissonRow, List.getD, h]

theorem poissonRow_length (size : Nat) (a : ℝ) : (poissonRow size a).length = size := by
  simp [poissonRow]

theorem shiftRight_get (v : List ℝ) {k : Nat} (h : k < v.length) :
    (shiftRight v).getD k 0 = if k = 0 then 0 else v.getD (k - 1) 0 := by
  cases k with
  | zero => simp [shiftRight]
  | succ k =>
    have : k < v.length - 1 := by omega
    have h2 : k < v.length := by omega
    simp [shiftRight, this, List.getElem?_eq_getElem h2]

theorem shiftRight_length (v : List ℝ) (h : 0 < v.length) : (shiftRight v).length = v.length := by
  simp [shiftRight]; omega

theorem hasDerivAt_pow_fact (k : Nat) (a : ℝ) :
    HasDerivAt (fun a : ℝ => a ^ (k + 1) / ((k + 1).factorial : ℝ)) (a ^ k / (k.factorial : ℝ)) a := by
  have h := (hasDerivAt_pow (k + 1) a).div_const ((k + 1).factorial : ℝ)
  refine HasDerivAt.congr_deriv h ?_
  have : ((k + 1).factorial : ℝ) = ((k : ℝ) + 1) * (k.factorial : ℝ) := by
    rw [Nat.factorial_succ]; push_cast; ring
  rw [this]
  have hk : (k.factorial : ℝ) ≠ 0 := by positivity
  have hk1 : (k : ℝ) + 1 ≠ 0 := by positivity
  push_cast
  field_simp

/-- C30, values: component `x` of `Poisson(size)` is `λ^x / x!`, for every size and parameter. -/
theorem C30_poisson_values (size : Nat) (a : ℝ) :
    poissonRow size a = (List.range size).map fun x => a ^ x / (x.factorial : ℝ) := rfl

theorem poissonGrad_get {size k : Nat} (h : k < size) (a : ℝ) :
    (poissonGradRow size a).getD k 0 =
      if k = 0 then 0 else a ^ (k - 1) / ((k - 1).factorial : ℝ) := by
  unfold poissonGradRow
  rw [shiftRight_get _ (by rw [poissonRow_length]; exact h)]
  split
  · rfl
  · rw [poissonRow_get (by omega)]

theorem poissonHess_get {size k : Nat} (h : k < size) (a : ℝ) :
    (poissonHessRow size a).getD k 0 =
      if k ≤ 1 then 0 else a ^ (k - 2) / ((k - 2).factorial : ℝ) := by
  unfold poissonHessRow
  have hl : (shiftRight (poissonRow size a)).length = size := by
    rw [shiftRight_length _ (by rw [poissonRow_length]; omega), poissonRow_length]
  rw [shiftRight_get _ (by rw [hl]; exact h)]
  by_cases h0 : k = 0
  · simp [h0]
  · rw [if_neg h0, show shiftRight (poissonRow size a) = poissonGradRow size a from rfl,
      poissonGrad_get (by omega)]
    by_cases h1 : k ≤ 1
    · rw [if_pos (by omega), if_pos h1]
    · rw [if_neg (by omega), if_neg h1]
      rfl

/-- C30, first derivative of every component, boundary included. -/
theorem C30_poisson_grad {size k : Nat} (h : k < size) (a : ℝ) :
    HasDerivAt (fun a => (poissonRow size a).getD k 0) ((poissonGradRow size a).getD k 0) a := by
  rw [poissonGrad_get h]
  simp only [poissonRow_get h]
  cases k with
  | zero => simpa using hasDerivAt_const a (1 : ℝ)
  | succ k => simpa using hasDerivAt_pow_fact k a

/-- C30, second derivative of every component. -/
theorem C30_poisson_hess {size k : Nat} (h : k < size) (a : ℝ) :
    HasDerivAt (fun a => (poissonGradRow size a).getD k 0) ((poissonHessRow size a).getD k 0) a := by
  rw [poissonHess_get h]
  simp only [poissonGrad_get h]
  match k with
  | 0 => simpa using hasDerivAt_const a (0 : ℝ)
  | 1 => simpa using hasDerivAt_const a (1 : ℝ)
  | k + 2 => simpa using hasDerivAt_pow_fact k a

/-- C30: `eval` returns the three rows of the separate methods. -/
theorem C30_poisson_eval (size : Nat) (a : ℝ) :
    poissonEvalRow size a = (poissonRow size a, poissonGradRow size a, poissonHessRow size a) := rfl

/-- C30: no component is lost: the rows have `size` entries (for `size ≥ 1`). -/
theorem C30_poisson_lengths {size : Nat} (h : 0 < size) (a : ℝ) :
    (poissonRow size a).length = size ∧ (poissonGradRow size a).length = size ∧
      (poissonHessRow size a).length = size := by
  have h1 := poissonRow_length size a
  have h2 : (poissonGradRow size a).length = size := by
    unfold poissonGradRow
    rw [shiftRight_length _ (by omega), h1]
  refine ⟨h1, h2, ?_⟩
  show (shiftRight (poissonGradRow size a)).length = size
  rw [shiftRight_length _ (by omega), h2]

theorem logNegBin_get {size x : Nat} (h : x < size) (r m : ℝ) :
    (logNegBinRow size r m).getD x 0 =
      (x : ℝ) * Real.log m + Real.log (Real.Gamma (r + x)) - Real.log (Real.Gamma r) +
        r * Real.log r - Real.log (x.factorial : ℝ) - ((x : ℝ) + r) * Real.log (r + m) := by
  simp [logNegBinRow, List.getD, h]

/-- The negative binomial probability of `x` with mean `m` and shape `r`. -/
noncomputable def negBinPmf (r m : ℝ) (x : Nat) : ℝ :=
  Real.Gamma (r + x) / (Real.Gamma r * (x.factorial : ℝ)) * (r / (r + m)) ^ r * (m / (r + m)) ^ x

/-- C30, values: component `x` of `LogNegativeBinomial(size, r)` is the logarithm of the negative
binomial probability. -/
theorem C30_negbin_values {size x : Nat} (h : x < size) {r m : ℝ} (hr : 0 < r) (hm : 0 < m) :
    (logNegBinRow size r m).getD x 0 = Real.log (negBinPmf r m x) := by
  rw [logNegBin_get h, negBinPmf]
  have g1 : 0 < Real.Gamma (r + x) := Real.Gamma_pos_of_pos (by positivity)
  have g2 : 0 < Real.Gamma r := Real.Gamma_pos_of_pos hr
  have g3 : (0 : ℝ) < (x.factorial : ℝ) := by positivity
  have g4 : 0 < r / (r + m) := by positivity
  have g5 : 0 < m / (r + m) := by positivity
  rw [Real.log_mul (by positivity) (by positivity), Real.log_mul (by positivity) (by positivity),
    Real.log_div g1.ne' (by positivity), Real.log_mul g2.ne' g3.ne', Real.log_rpow g4,
    Real.log_pow, Real.log_div hr.ne' (by positivity), Real.log_div hm.ne' (by positivity)]
  ring

/-- C30: first derivative of `LogNegativeBinomial`, every component. -/
theorem C30_negbin_grad {size x : Nat} (h : x < size) {r m : ℝ} (hm : m ≠ 0) (hrm : r + m ≠ 0) :
    HasDerivAt (fun m => (logNegBinRow size r m).getD x 0)
      ((logNegBinGradRow size r m).getD x 0) m := by
  simp only [logNegBin_get h]
  have h1 := (Real.hasDerivAt_log hm).const_mul (x : ℝ)
  have h2 := ((hasDerivAt_id m).const_add r).log hrm
  have h3 := h2.const_mul ((x : ℝ) + r)
  have h4 := ((((h1.add_const (Real.log (Real.Gamma (r + x)))).sub_const
    (Real.log (Real.Gamma r))).add_const (r * Real.log r)).sub_const
    (Real.log (x.factorial : ℝ))).fun_sub h3
  refine HasDerivAt.congr_deriv h4 ?_
  simp [logNegBinGradRow, List.getD, h]
  field_simp

/-- C30: second derivative of `LogNegativeBinomial`, every component. -/
theorem C30_negbin_hess {size x : Nat} (h : x < size) {r m : ℝ} (hm : m ≠ 0) (hrm : r + m ≠ 0) :
    HasDerivAt (fun m => (logNegBinGradRow size r m).getD x 0)
      ((logNegBinHessRow size r m).getD x 0) m := by
  have hg : (fun m => (logNegBinGradRow size r m).getD x 0) =
      fun m : ℝ => (x : ℝ) / m - ((x : ℝ) + r) / (r + m) := by
    funext m; simp [logNegBinGradRow, List.getD, h]
  rw [hg]
  have h1 := (hasDerivAt_const m (x : ℝ)).fun_div (hasDerivAt_id m) hm
  have h2 := (hasDerivAt_const m ((x : ℝ) + r)).fun_div ((hasDerivAt_id m).const_add r) hrm
  refine HasDerivAt.congr_deriv (h1.fun_sub h2) ?_
  simp [logNegBinHessRow, List.getD, h]
  field_simp
  ring

/-- C30: `Poisson(size)` as a Func is a correct atom: with C26 its compositions are correct too. -/
theorem C30_poisson_atom {size : Nat} (src : ι → ι) (k : ι → Nat) (hk : ∀ c, k c < size)
    (θ : Prm ι) : AtomOk 1 (poissonFn size src k) θ :=
  cellwise_ok (fun c => C30_poisson_grad (hk c) _) (fun c => C30_poisson_hess (hk c) _)
    (fun h => by simp at h)

theorem C30_negbin_atom {size : Nat} {r : ℝ} (hr : 0 < r) (src : ι → ι) (k : ι → Nat)
    (hk : ∀ c, k c < size) (θ : Prm ι) (hθ : ∀ c, 0 < θ 0 c) :
    AtomOk 1 (logNegBinFn size r src k) θ :=
  cellwise_ok
    (fun c => C30_negbin_grad (hk c) (hθ _).ne' (by have := hθ (src c); positivity))
    (fun c => C30_negbin_hess (hk c) (hθ _).ne' (by have := hθ (src c); positivity))
    (fun h => by simp at h)

/-- C30: `NegativeBinomial = Exp @ LogNegativeBinomial` returns the probabilities and their true
derivatives. -/
theorem C30_negbin_composed {size : Nat} {r : ℝ} (hr : 0 < r) (src : ι → ι) (k : ι → Nat)
    (hk : ∀ c, k c < size) (θ : Prm ι) (hθ : ∀ c, 0 < θ 0 c) :
    (∀ c, (negBinFn size r src k).call θ c = negBinPmf r (θ 0 (src c)) (k c)) ∧
    GradCorrectAt 1 (negBinFn size r src k) θ ∧ HessCorrectAt 1 (negBinFn size r src k) θ ∧
    EvalAgrees 1 (negBinFn size r src k) := by
  have hL := C30_negbin_atom hr src k hk θ hθ
  have hb : DerivBuilt 1 (negBinFn size r src k) θ := by
    refine .compose _ (.atom (C29_Exp _).1 (C29_Exp _).2.1 (C29_Exp θ).2.2.1) fun g hg => ?_
    simp only [List.mem_cons, List.not_mem_nil, or_false] at hg
    subst hg
    exact .atom hL.1 hL.2.1 hL.2.2.1
  refine ⟨fun c => ?_, (C26_composite_derivatives_partial hb).1,
    (C26_composite_derivatives_partial hb).2, ?_⟩
  · have hpos : 0 < negBinPmf r (θ 0 (src c)) (k c) := by
      have g1 : 0 < Real.Gamma (r + (k c : ℝ)) := Real.Gamma_pos_of_pos (by positivity)
      have g2 : 0 < Real.Gamma r := Real.Gamma_pos_of_pos hr
      have := hθ (src c)
      unfold negBinPmf
      positivity
    show Real.exp ((logNegBinRow size r (θ 0 (src c))).getD (k c) 0) = _
    rw [C30_negbin_values (hk c) hr (hθ _), Real.exp_log hpos]
  · refine compose_evalAgrees (C29_Exp θ).2.2.1 (C29_Exp θ).2.2.2 fun g hg => ?_
    simp only [List.mem_cons, List.not_mem_nil, or_false] at hg
    subst hg
    exact hL.2.2.2

/-- Two feature cells and three outcomes: positions `(cell, outcome)`. -/
example : AtomOk 1 (logNegBinFn (ι := Fin 2 × Fin 3) 3 2 (fun c => (c.1, 0)) (fun c => c.2))
    (fun _ _ => 5) :=
  C30_negbin_atom (by norm_num) _ _ (fun c => c.2.2) _ (fun _ => by norm_num)

end Verif.Func
