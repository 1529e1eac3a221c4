import Verif.Model.Operators
import Verif.Props.TensorGeneric
import Verif.Props.TensorDot

/-!
# C72: operators and numpy functions on Tensors mean the operation on the represented arrays

Specification: `Arith.fn` (the four operations on numbers) and the arrays represented by the operands
(`Spec/Tensor.lean`).
-/

set_option linter.unusedSectionVars false

namespace Verif.Tens
open Verif.Params (Err)
open NDArray

variable {α : Type} [Field α] [DecidableEq α]

/-- The operation on numbers. -/
def Arith.fn : Arith → α → α → α
  | .add, x, y => x + y
  | .sub, x, y => x - y
  | .mul, x, y => x * y
  | .div, x, y => x / y

/-- The array represented by a number or an array: an array has only value axes. -/
def Operand.dense (p : Operand α) (i : Idx) : α := p.prim.dense i

/-- Tensors in diagonal storage, and GenericTensors built from them. -/
def Num.Good : Num α → Prop
  | .tensor t => t.WF
  | .generic g => g.Good

/-- The position lies in the array: in that of the Tensor, or in those of all elements of a GenericTensor. -/
def Num.Holds (i : Idx) : Num α → Prop
  | .tensor t => t.InBox i
  | .generic g => ∀ t, .inl t ∈ g.elements → t.InBox i

theorem Operand.wf (p : Operand α) : p.prim.asTensor.WF := by
  cases p <;> exact Tensor.wf_nomap (by simp)

theorem Operand.nomap (p : Operand α) : p.prim.asTensor.xMap = [] ∧ p.prim.asTensor.yMap = [] ∧
    p.prim.asTensor.xDim = 0 ∧ p.prim.asTensor.yDim = 0 := by
  cases p <;> exact ⟨rfl, rfl, rfl, rfl⟩

/-- `a.bin_op(p, op)` for a number or array `p`. -/
theorem Num.binOp_plain {a r : Num α} (ha : a.Good) {p : Operand α} {op : Op}
    (hr : a.binOp (.prim p.prim) op = .ok r) {i : Idx} (hi : a.Holds i)
    (hd : op = .div → p.dense i ≠ 0) (hd' : op = .rdiv → a.dense i ≠ 0) :
    r.dense i = op.app (a.dense i) (p.dense i) := by
  obtain ⟨m1, m2, m3, m4⟩ := p.nomap
  cases a with
  | tensor t =>
    have hr' : t.binPrim p.prim op = .ok r := hr
    rw [t.binPrim_eq] at hr'
    by_cases hop : op.additive
    · exact C50_add_sub_partial ha p.wf (fun _ => ⟨m1, m2⟩) hop hr' i fun _ => hi
    · exact C51_mul_div_partial ha p.wf (C51_value_tensor_ok p.wf m3 m4).2 hop hr' i hd hd'
  | generic g =>
    simp only [Num.binOp] at hr
    cases hb : g.binPrim p.prim op with
    | error e => rw [hb] at hr; cases hr
    | ok s =>
      rw [hb] at hr
      cases hr
      by_cases hop : op.additive
      · exact C57_add_sub_partial ha p.wf hop hb i fun _ => hi
      · rcases op.mult_iff.1 hop with rfl | rfl | rfl
        · exact (C57_mul_div_partial ha p.wf (Or.inl rfl) (fun t _ => (C51_value_tensor_ok p.wf m3 m4).2) hb).2 i
            (by simp)
        · exact (C57_mul_div_partial ha p.wf (Or.inr rfl) (fun t _ => (C51_value_tensor_ok p.wf m3 m4).2) hb).2 i
            (fun _ => hd rfl)
        · simp [Generic.binPrim] at hb

/-- **C72.** `a + p`, `a - p`, `a * p`, `a / p` for a number or an array `p`: whenever it returns, the result
represents the operation at every position (for a quotient, where the divisor is not zero). -/
theorem C72_left (f : Arith) {a r : Num α} (ha : a.Good) (p : Operand α) (hr : opLeft f a (.prim p.prim) = .ok r)
    (i : Idx) (hi : a.Holds i) (hd : f = .div → p.dense i ≠ 0) :
    r.dense i = f.fn (a.dense i) (p.dense i) := by
  have := Num.binOp_plain ha hr hi (by cases f <;> simp_all [Arith.op]) (by cases f <;> simp [Arith.op])
  rw [this]
  cases f <;> rfl

theorem Num.binOp_arg (a b : Num α) (op : Op) : a.binOp b.arg op = a.bin b op := by
  cases a <;> cases b <;> rfl

/-- **C72.** `a + b` and `a - b` of two Tensors or GenericTensors: whenever it returns, the result represents the sum or the difference at every position. -/
theorem C72_add_sub {a b r : Num α} (ha : a.Proper) (hb : b.Proper) {f : Arith} (hf : f = .add ∨ f = .sub) (hr : opLeft f a b.arg = .ok r) (i : Idx) :
    r.Proper ∧ r.dense i = f.fn (a.dense i) (b.dense i) := by
  unfold opLeft at hr
  rw [Num.binOp_arg] at hr
  obtain ⟨h1, h2⟩ := num_bin_add ha hb (op := f.op) (by rcases hf with rfl | rfl <;> simp [Arith.op]) hr
  refine ⟨h1, (h2 i).trans ?_⟩
  rcases hf with rfl | rfl <;> rfl

/-- **C72.** `a * v` of a Tensor or GenericTensor and a Tensor of values: the same. -/
theorem C72_mul_values {a r : Num α} (ha : a.Proper) {v : Tensor α} (hv : v.Proper) (hx : v.xDim = 0) (hy : v.yDim = 0)
    (hr : opLeft .mul a (Num.tensor v).arg = .ok r) (i : Idx) : r.Proper ∧ r.dense i = a.dense i * v.dense i := by
  unfold opLeft at hr
  rw [Num.binOp_arg] at hr
  obtain ⟨h1, h2⟩ := num_bin_scale ha hv hx hy hr
  exact ⟨h1, h2 i⟩

/-- **C72.** `p + a`, `p - a`, `p * a`, `p / a` with the number or array on the left: the same. -/
theorem C72_right (f : Arith) {a r : Num α} (ha : a.Good) (p : Operand α) (hr : opRight f p a = .ok r)
    (i : Idx) (hi : a.Holds i) (hd : f = .div → a.dense i ≠ 0) :
    r.dense i = f.fn (p.dense i) (a.dense i) := by
  have hb : a.binOp (.prim p.prim) f.rop = .ok r := by
    cases p with
    | number c => exact hr
    | array v => cases f <;> exact hr
  have := Num.binOp_plain ha hb hi (by cases f <;> simp [Arith.rop]) (by cases f <;> simp_all [Arith.rop])
  rw [this]
  cases f
  · exact add_comm _ _
  · rfl
  · exact mul_comm _ _
  · rfl

/-- **C72.** `np.add(p, a)`, `np.subtract(p, a)`, … with a number or an array on the left are the operators. -/
theorem C72_np_right (f : Arith) (p : Operand α) (a : Num α) : npRight f p a = opRight f p a := by
  cases p with
  | number c => cases f <;> rfl
  | array v => rfl

/-- **C72, finding.** With a Tensor on the left, `np.add(t, y)`, `np.subtract(t, y)`, `np.multiply(t, y)`,
`np.divide(t, y)` ignore `y`: they represent `t + t`, `t - t`, `t * t`, `t / t`. -/
theorem C72_np_left (f : Arith) {t : Tensor α} (ht : t.WF) (y : Arg α) {r : Num α}
    (hr : npLeft f (.tensor t) y = .ok r) (i : Idx) (hi : t.InBox i) (hd : f = .div → t.dense i ≠ 0) :
    r.dense i = f.fn (t.dense i) (t.dense i) := by
  have hb : t.binTensor t f.ufuncOp = .ok r := hr
  have hs : t.values.ndim = 0 → t.xMap = [] ∧ t.yMap = [] := by
    intro h0
    have h1 := ht.ndim
    have h2 := ht.xLen
    have h3 := ht.yLen
    exact ⟨List.eq_nil_of_length_eq_zero (by omega), List.eq_nil_of_length_eq_zero (by omega)⟩
  cases f with
  | add => exact C50_add_sub_partial ht ht hs (op := .add) trivial hb i fun _ => hi
  | sub => exact C50_add_sub_partial ht ht hs (op := .rsub) trivial hb i fun _ => hi
  | mul => exact C51_mul_div_partial ht ht (C51_same_maps_ok rfl rfl) (op := .mul) (by simp [Op.additive]) hb i (by simp) (by simp)
  | div =>
    exact C51_mul_div_partial ht ht (C51_same_maps_ok rfl rfl) (op := .rdiv) (by simp [Op.additive]) hb i (by simp)
      fun _ => hd rfl

/-- A vector of three entries. -/
def vec3 : Tensor ℚ := ⟨⟨1, fun _ => 3, fun idx => (idx 0 : ℚ) + 5⟩, 0, 0, 0, [], []⟩

theorem vec3_wf : vec3.WF := Tensor.wf_nomap (by decide)

/-- **C72, finding.** `np.subtract(t, 1)` is zero where `t - 1` is not. -/
theorem C72_np_left_counterexample : ∃ (t : Tensor ℚ) (r s : Num ℚ) (i : Idx), t.WF ∧ t.InBox i ∧
    npLeft .sub (.tensor t) (.prim (.scalar 1)) = .ok r ∧ opLeft .sub (.tensor t) (.prim (.scalar 1)) = .ok s ∧
    r.dense i = 0 ∧ s.dense i = t.dense i - 1 ∧ s.dense i = 6 := by
  let i : Idx := ⟨fun _ => 0, fun _ => 0, fun _ => 2, fun _ => 0⟩
  have hi : vec3.InBox i := by unfold Tensor.InBox; decide
  have hd : vec3.dense i = 7 := by
    unfold Tensor.dense
    rw [if_pos ⟨by decide, by decide⟩]
    show ((2 : Nat) : ℚ) + 5 = 7
    norm_num
  obtain ⟨r, hr⟩ := C50_add_sub_succeeds (op := .rsub) vec3_wf vec3_wf
    ⟨by decide, by decide, by decide, by decide⟩ ⟨by decide, by decide, by decide, by decide⟩ trivial
  obtain ⟨s, hs⟩ : ∃ s, opLeft .sub (.tensor vec3) (.prim (.scalar 1)) = .ok s := by
    have : vec3.binPrim (.scalar 1) .sub = vec3.binTensor (Prim.scalar 1 : Prim ℚ).asTensor .sub := Tensor.binPrim_eq _ _ _
    obtain ⟨s, hs⟩ := C50_add_sub_succeeds (op := .sub) vec3_wf (Operand.wf (.number (1 : ℚ)))
      ⟨by decide, by decide, by decide, by decide⟩ ⟨by decide, by decide, by decide, by decide⟩ trivial
    exact ⟨s, this.trans hs⟩
  refine ⟨vec3, r, s, i, vec3_wf, hi, hr, hs, ?_, ?_, ?_⟩
  · rw [C72_np_left .sub vec3_wf (.prim (.scalar 1)) hr i hi (by simp)]
    exact sub_self _
  · exact C72_left .sub (a := .tensor vec3) vec3_wf (.number 1) hs i hi (by simp)
  · rw [C72_left .sub (a := .tensor vec3) vec3_wf (.number 1) hs i hi (by simp)]
    show vec3.dense i - 1 = 6
    rw [hd]; norm_num

/-- `10 / t`, `array - t` for the vector: the hypotheses of `C72_right` hold. -/
example : (∃ r, opRight .div (.number 10) (.tensor vec3) = .ok r ∧
      ∀ i, vec3.InBox i → vec3.dense i ≠ 0 → r.dense i = 10 / vec3.dense i) ∧
    ∃ r, opRight .sub (.array vec3.values) (.tensor vec3) = .ok r ∧ ∀ i, vec3.InBox i → r.dense i = 0 := by
  constructor
  · refine ⟨.tensor ⟨vec3.values.map fun v => Op.rdiv.app v 10, 0, 0, 0, [], []⟩, ?_, fun i hi h0 => ?_⟩
    · show vec3.binPrim (.scalar 10) .rdiv = _
      unfold Tensor.binPrim Tensor.binScalar
      dsimp only
      rw [if_neg (by decide), if_neg (by decide), if_neg (by decide), if_neg (by decide), if_neg (by decide),
        if_neg (by decide)]
      rfl
    · refine C72_right .div (a := .tensor vec3) vec3_wf (.number 10) ?_ i hi fun _ => h0
      show vec3.binPrim (.scalar 10) .rdiv = _
      unfold Tensor.binPrim Tensor.binScalar
      dsimp only
      rw [if_neg (by decide), if_neg (by decide), if_neg (by decide), if_neg (by decide), if_neg (by decide),
        if_neg (by decide)]
      rfl
  · obtain ⟨r, hr⟩ := C50_add_sub_succeeds (op := .rsub) vec3_wf vec3_wf
      ⟨by decide, by decide, by decide, by decide⟩ ⟨by decide, by decide, by decide, by decide⟩ trivial
    refine ⟨r, hr, fun i hi => ?_⟩
    rw [C72_right .sub (a := .tensor vec3) vec3_wf (.array vec3.values) hr i hi (by simp)]
    exact sub_self _

/-! ### functions of one argument -/

/-- **C72.** `np.exp(t)`, `np.log(t)`, … of a Tensor without `x` and `y` axes: the function at every position, and
the same layout. -/
theorem C72_unary {t : Tensor α} (ht : t.WF) (hx : t.xDim = 0) (hy : t.yDim = 0) (f : α → α) :
    ∃ r, t.ufunc f = .ok r ∧ r.WF ∧ r.xDim = 0 ∧ r.yDim = 0 ∧ r.n = t.n ∧ r.dim = t.dim ∧
      ∀ i, r.dense i = f (t.dense i) := by
  have h1 := ht.ndim
  have h2 := ht.xLen
  have h3 := ht.yLen
  have e1 : t.xMap = [] := List.eq_nil_of_length_eq_zero (by omega)
  have e2 : t.yMap = [] := List.eq_nil_of_length_eq_zero (by omega)
  have hn : ¬ (t.values.map f).ndim < 0 + 0 + t.dim := by show ¬ t.values.ndim < 0 + 0 + t.dim; omega
  refine ⟨⟨t.values.map f, 0, 0, t.dim, [], []⟩, ?_, Tensor.wf_nomap (by show 0 + 0 + t.dim ≤ t.values.ndim; omega), rfl,
    rfl, ?_, rfl, fun i => ?_⟩
  · unfold Tensor.ufunc mkTensor
    rw [if_neg (by omega), if_neg hn]
  · unfold Tensor.n; dsimp only; rw [hx, hy]; rfl
  · have := Tensor.dense_map t f i
    rw [e1, e2, hx, hy, if_pos ⟨by intro k hk; simp at hk, by intro k hk; simp at hk⟩] at this
    rw [this]
    unfold Tensor.dense
    rw [e1, e2, if_pos ⟨by intro k hk; simp at hk, by intro k hk; simp at hk⟩]

/-- **C72.** They are refused for Tensors with `x` or `y` axes and for GenericTensors. -/
theorem C72_unary_refused (f : α → α) :
    (∀ t : Tensor α, 0 < t.xDim ∨ 0 < t.yDim → Num.ufunc f (.tensor t) = .error .invalidOperation) ∧
    ∀ g : Generic α, Num.ufunc f (.generic g) = .error .invalidOperation := by
  refine ⟨fun t h => ?_, fun g => rfl⟩
  unfold Num.ufunc Tensor.ufunc
  dsimp only
  rw [if_pos h]

/-! ### np.maximum and np.minimum -/

/-- **C72.** `np.maximum(t, c)`, `np.minimum(t, c)` with a number: the function at every position. -/
theorem C72_extremum_number {t : Tensor α} (ht : t.WF) (hx : t.xDim = 0) (hy : t.yDim = 0) (f : α → α → α) (c : α)
    (depth : Nat) :
    ∃ r, npExtremum f (depth + 1) (.tensor t) (.scalar c) = .ok r ∧ r.n = t.n ∧ r.dim = t.dim ∧
      ∀ i, r.dense i = f (t.dense i) c := by
  obtain ⟨r, h1, -, -, -, h5, h6, h7⟩ := C72_unary ht hx hy fun v => f v c
  refine ⟨r, ?_, h5, h6, h7⟩
  unfold Tensor.ufunc at h1
  rw [if_neg (by omega)] at h1
  unfold npExtremum
  dsimp only
  rw [if_neg (by omega)]
  exact h1

/-- **C72.** `np.maximum(t, v)`, `np.minimum(t, v)` with an array that has all the axes of the Tensor (value and `dim`
axes): the function at every position. -/
theorem C72_extremum_array {t r : Tensor α} (ht : t.WF) (f : α → α → α) {v : NDArray α} (hv : v.ndim = t.values.ndim)
    {depth : Nat} (hr : npExtremum f (depth + 1) (.tensor t) (.array v) = .ok r) (i : Idx) :
    r.n = t.n ∧ r.dim = t.dim ∧ r.dense i = f (t.dense i) (v.bget (t.flat i)) := by
  unfold npExtremum at hr
  dsimp only at hr
  by_cases hx : 0 < t.xDim ∨ 0 < t.yDim
  · rw [if_pos hx] at hr; cases hr
  rw [if_neg hx] at hr
  cases hb : NDArray.binary f t.values v with
  | error e => rw [hb] at hr; cases hr
  | ok w =>
    rw [hb] at hr
    obtain ⟨b1, -, -, b4⟩ := binary_ok hb hv
    obtain ⟨rfl, -⟩ := mkTensor_ok hr
    have h2 := ht.xLen
    have h3 := ht.yLen
    have e1 : t.xMap = [] := List.eq_nil_of_length_eq_zero (by omega)
    have e2 : t.yMap = [] := List.eq_nil_of_length_eq_zero (by omega)
    have hxx : t.xDim = 0 := by omega
    have hyy : t.yDim = 0 := by omega
    have hn : Tensor.n (⟨w, 0, 0, t.dim, [], []⟩ : Tensor α) = t.n := by
      unfold Tensor.n; dsimp only; rw [b1, hxx, hyy]
    refine ⟨hn, rfl, ?_⟩
    have hf : Tensor.flat (⟨w, 0, 0, t.dim, [], []⟩ : Tensor α) i = t.flat i := by
      unfold Tensor.flat
      rw [hn, hxx, hyy]
    unfold Tensor.dense
    rw [e1, e2, hf]
    have hA : ∀ v n : Nat → Nat, Agrees [] v n := fun v n k hk => by simp at hk
    rw [if_pos ⟨hA _ _, hA _ _⟩, if_pos ⟨hA _ _, hA _ _⟩]
    exact b4 _

/-- **C72, finding.** With a Tensor as second operand (`np.maximum(v, t)`, `np.maximum(s, t)`) `__array_ufunc__` calls
itself with the same operand until the call stack is exhausted. -/
theorem C72_extremum_recursion (f : α → α → α) (x : Prim α) {t : Tensor α} (ht : t.xDim = 0 ∧ t.yDim = 0)
    (hx : ∀ s, x = .tensor s → s.xDim = 0 ∧ s.yDim = 0) (depth : Nat) :
    npExtremum f depth x (.tensor t) = .error .recursion := by
  induction depth generalizing x with
  | zero => rfl
  | succ depth ih =>
    have hrec : ∀ v, npExtremum f depth (.array v) (.tensor t) = .error .recursion := fun v =>
      ih (.array v) (by intro s hs; cases hs)
    unfold npExtremum
    cases x with
    | scalar c =>
      dsimp only
      rw [if_neg (by omega), hrec]
    | array v =>
      dsimp only
      rw [if_neg (by omega), hrec]
    | tensor s =>
      have := hx s rfl
      dsimp only
      rw [if_neg (by omega), hrec]

/-! ### powers -/

/-- **C72.** `t ** a` for a positive exponent: the power at every position, also off the diagonals. -/
theorem C72_pow {t : Tensor ℝ} (ht : t.WF) {a : ℝ} (ha : 0 < a) :
    (t.pow a).WF ∧ ∀ i, (t.pow a).dense i = t.dense i ^ a := by
  refine ⟨⟨ht.ndim, ht.xLen, ht.yLen, ht.xRange, ht.yRange, ht.xOne, ht.yOne⟩, fun i => ?_⟩
  refine (Tensor.dense_map t (fun v => v ^ a) i).trans ?_
  unfold Tensor.dense
  split_ifs
  · rfl
  · exact (Real.zero_rpow ha.ne').symm

/-- A 3×3 diagonal matrix, over the reals. -/
noncomputable def rdiag3 : Tensor ℝ := ⟨⟨2, fun k => if k = 0 then 1 else 3, fun _ => 2⟩, 1, 0, 0, [0], []⟩

theorem rdiag3_wf : rdiag3.WF := ⟨by decide, by decide, by decide, by decide, by decide, by decide, by decide⟩

example : (rdiag3.pow 2).dense ⟨fun _ => 1, fun _ => 0, fun _ => 1, fun _ => 0⟩ = 4 := by
  rw [(C72_pow rdiag3_wf (by norm_num)).2]
  unfold Tensor.dense
  rw [if_pos ⟨by decide, by decide⟩]
  show (2 : ℝ) ^ (2 : ℝ) = 4
  norm_num

/-- **C72, finding.** With a Tensor in diagonal storage `t ** 0` is 0 off the diagonal, where `0 ** 0` is 1. -/
theorem C72_pow_zero_counterexample : ∃ (t : Tensor ℝ) (i : Idx), t.WF ∧ t.InBox i ∧
    (t.pow 0).dense i = 0 ∧ t.dense i ^ (0 : ℝ) = 1 := by
  refine ⟨rdiag3, ⟨fun _ => 1, fun _ => 0, fun _ => 2, fun _ => 0⟩, rdiag3_wf, ?_, ?_, Real.rpow_zero _⟩
  · have : ∀ k < 2, Tens.flat 1 0 1 ⟨fun _ => 1, fun _ => 0, fun _ => 2, fun _ => 0⟩ k < 3 := by decide
    intro k hk
    have hk2 : k < 2 := hk
    refine (this k hk2).trans_eq ?_
    show 3 = rdiag3.fullShape k
    interval_cases k <;> rfl
  · exact if_neg (by decide)

/-! ### dot (C56) -/

/-- **C56 (partial).** `t.dot(o)` for a gradient or a vector `o` (no `y` axes) whose value axes are the `x` axes of
`t`: the contraction of `dot_left`. -/
theorem C56_dot_vector_partial {t o : Tensor α} (ht : t.WF) (ho : o.WF) (hf : DotFit t o) (hy : o.yDim = 0)
    (h0 : ¬ (t.values.ndim = 0 ∧ t.values.get (fun _ => 0) = 0))
    (hxn : (t.xMap.filter fun f => 0 ≤ f).Nodup)
    (hon : t.xMap = [] → (o.xMap.filter fun f => 0 ≤ f).Nodup)
    (hc : t.xMap ≠ [] → ∀ f ∈ o.xMap, 0 ≤ f → 0 ≤ t.xMap.getD f.toNat (-1)) :
    ∃ r, t.dot o = .ok (some r) ∧ r.WF ∧ r.xDim = o.xDim ∧ r.yDim = t.yDim ∧ r.n = t.n ∧
      r.dim = max t.dim o.dim ∧ ∀ i, r.InBox i → r.dense i = contractLeft t o i := by
  obtain ⟨r, h1, h2⟩ := C56_dot_left_partial ht ho hf hy hxn hon hc
  refine ⟨r, ?_, h2⟩
  unfold Tensor.dot
  rw [if_neg h0, if_neg (not_not.2 hf.dim), if_neg (by omega)]
  by_cases hx : 0 < o.xDim
  · rw [if_pos hx, h1]; rfl
  · rw [if_neg hx, if_neg (by omega), if_pos hf.xDim.symm, h1]; rfl

/-- **C56 (partial).** `t.dot(o)` for a Hessian `o` (with `x` and `y` axes) whose value axes are the `x` axes of the
gradient `t`: the contraction of `dot_right`. -/
theorem C56_dot_matrix_partial {t o : Tensor α} (ht : t.WF) (ho : o.WF) (hf : DotFit t o) (hy : t.yDim = 0)
    (hx : 0 < t.xDim) (hox : 0 < o.xDim) (hoy : 0 < o.yDim)
    (hxn : (t.xMap.filter fun f => 0 ≤ f).Nodup) (hne : t.xMap = [] → o.xMap = [] ∧ o.yMap = [])
    (hc : ∀ f ∈ o.xMap ++ o.yMap, 0 ≤ f → 0 ≤ t.xMap.getD f.toNat (-1)) :
    ∃ r, t.dot o = .ok (some r) ∧ r.WF ∧ r.xDim = o.xDim ∧ r.yDim = o.yDim ∧ r.n = t.n ∧
      r.dim = max t.dim o.dim ∧ ∀ i, r.InBox i → r.dense i = contractRight t o i := by
  have h1 := ht.ndim
  have h2 := ho.ndim
  obtain ⟨r, h3, h4⟩ := C56_dot_right_partial ht ho hf hy (by omega) hxn hne hc
  refine ⟨r, ?_, h4⟩
  unfold Tensor.dot
  rw [if_neg (by omega), if_neg (not_not.2 hf.dim), if_pos ⟨hox, hoy⟩, if_pos hx, h3]

/-- **C56.** `t.dot(o)` is refused when `o` has `x` and `y` axes and `t` has neither (unless `t` is 0). -/
theorem C56_dot_refused {t o : Tensor α} (hd : t.dim = 0 ∨ o.dim = 0 ∨ t.dim = o.dim)
    (h0 : ¬ (t.values.ndim = 0 ∧ t.values.get (fun _ => 0) = 0)) (hx : t.xDim = 0) (hy : t.yDim = 0)
    (hox : 0 < o.xDim) (hoy : 0 < o.yDim) : t.dot o = .error .valueError := by
  unfold Tensor.dot
  rw [if_neg h0, if_neg (not_not.2 hd), if_pos ⟨hox, hoy⟩, if_neg (by omega), if_neg (by omega)]

/-- **C56.** `Tensor(0).dot(o)` is `Tensor(0)` for every `o`. -/
theorem C56_dot_zero (o : Tensor α) : (Tensor.const (0 : α)).dot o = .ok (some (Tensor.const 0)) := by
  unfold Tensor.dot
  rw [if_pos ⟨rfl, rfl⟩]

/-- The hypotheses of `C56_dot_vector_partial` hold for the product of a diagonal matrix with itself
(tests/tensor_test.py:492), and the entry of the product is the product of the entries. -/
example : ∃ r, diag3.dot diag3 = .ok (some r) ∧ ∀ i, r.InBox i → r.dense i = contractLeft diag3 diag3 i := by
  obtain ⟨r, h1, -, -, -, -, -, h2⟩ := C56_dot_vector_partial diag3_wf diag3_wf ⟨by decide, by decide, by decide, by decide⟩
    (by decide) (by decide) (by decide) (by decide) (by decide)
  exact ⟨r, h1, h2⟩

end Verif.Tens
