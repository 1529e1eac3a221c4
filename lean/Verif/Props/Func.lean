import Verif.Lemmas.FuncDeriv
import Mathlib.Tactic.IntervalCases
import Mathlib.Tactic.NormNum

/-!
# Function objects: C23 – C28
-/

set_option linter.unusedSectionVars false

namespace Verif.Func
open Verif.Params (Err)
open Finset

/-! ## C23  Arithmetic on Funcs -/

/-- A nesting of the operators of `Func` around one object. -/
inductive Arith where
  | self
  /-- `e + b` and `b + e` -/
  | add (e : Arith) (b : ℝ)
  | sub (e : Arith) (b : ℝ)
  | rsub (b : ℝ) (e : Arith)
  | neg (e : Arith)
  /-- `e * a` and `a * e` -/
  | mul (e : Arith) (a : ℝ)

/-- Specification: the arithmetic on numbers. -/
def Arith.value : Arith → ℝ → ℝ
  | self, y => y
  | add e b, y => e.value y + b
  | sub e b, y => e.value y - b
  | rsub b e, y => b - e.value y
  | neg e, y => -e.value y
  | mul e a, y => e.value y * a

/-- The object the operators build. -/
def Arith.build (f : Obj) : Arith → Obj
  | self => f
  | add e b => (e.build f).add b
  | sub e b => (e.build f).sub b
  | rsub b e => (e.build f).rsub b
  | neg e => (e.build f).neg
  | mul e a => (e.build f).mul a

theorem mkAffine_call (f : Obj) (a b : ℝ) (θ : Prm Pos) (x : Pos) :
    (f.mkAffine a b).call θ x = a * f.call θ x + b := by
  cases f <;> simp only [Obj.mkAffine, Obj.call]
  ring

/-- C23: whatever the nesting, the value is the arithmetic on the value. -/
theorem C23_arith_value (f : Obj) (e : Arith) (θ : Prm Pos) (x : Pos) :
    (e.build f).call θ x = e.value (f.call θ x) := by
  induction e with
  | self => rfl
  | add e b ih => simp only [Arith.build, Obj.add, mkAffine_call, ih, Arith.value]; ring
  | sub e b ih => simp only [Arith.build, Obj.sub, mkAffine_call, ih, Arith.value]; ring
  | rsub b e ih => simp only [Arith.build, Obj.rsub, mkAffine_call, ih, Arith.value]; ring
  | neg e ih => simp only [Arith.build, Obj.neg, mkAffine_call, ih, Arith.value]; ring
  | mul e a ih => simp only [Arith.build, Obj.mul, mkAffine_call, ih, Arith.value]; ring

/-- Is the object an `Affine`? -/
def Obj.isAffine : Obj → Bool
  | .affine .. => true
  | _ => false

/-- However deep the nesting, at most one `Affine` layer is built around an object that is not an
`Affine` itself (so evaluation cost does not grow with the nesting). -/
theorem C23_flat (f : Obj) (hf : f.isAffine = false) (e : Arith) :
    e.build f = f ∨ ∃ a b, e.build f = .affine f a b := by
  have key : ∀ (g : Obj) (a b : ℝ), (g = f ∨ ∃ a b, g = .affine f a b) →
      ∃ a' b', g.mkAffine a b = .affine f a' b' := by
    rintro g a b (rfl | ⟨a₀, b₀, rfl⟩)
    · cases g with
      | affine => cases hf
      | other => exact ⟨_, _, rfl⟩
      | sum => exact ⟨_, _, rfl⟩
      | prod => exact ⟨_, _, rfl⟩
    · exact ⟨_, _, rfl⟩
  induction e with
  | self => exact .inl rfl
  | add e b ih => exact .inr (key _ _ _ ih)
  | sub e b ih => exact .inr (key _ _ _ ih)
  | rsub b e ih => exact .inr (key _ _ _ ih)
  | neg e ih => exact .inr (key _ _ _ ih)
  | mul e a ih => exact .inr (key _ _ _ ih)

/-- Slope of a nesting. -/
def Arith.slope (e : Arith) : ℝ := e.value 1 - e.value 0

theorem Arith.value_affine (e : Arith) (y : ℝ) : e.value y = e.slope * y + e.value 0 := by
  induction e with
  | self => simp [Arith.value, Arith.slope]
  | add e b ih => simp only [Arith.value, Arith.slope] at *; rw [ih]; ring
  | sub e b ih => simp only [Arith.value, Arith.slope] at *; rw [ih]; ring
  | rsub b e ih => simp only [Arith.value, Arith.slope] at *; rw [ih]; ring
  | neg e ih => simp only [Arith.value, Arith.slope] at *; rw [ih]; ring
  | mul e a ih => simp only [Arith.value, Arith.slope] at *; rw [ih]; ring

/-- The coefficients of the built `Affine` are the slope and the intercept of the arithmetic: with
`affine` (the model of the class) this determines `grad`, `hess` and `eval`. -/
theorem C23_coefficients (f : Fn Pos) (e : Arith) :
    e.build (.other f) = .other f ∧ e = .self ∨
      e.build (.other f) = .affine (.other f) e.slope (e.value 0) := by
  have key : ∀ (g : Arith) (a b : ℝ),
      (g.build (.other f) = .other f ∧ g = .self ∨
        g.build (.other f) = .affine (.other f) g.slope (g.value 0)) →
      (g.build (.other f)).mkAffine a b =
        .affine (.other f) (a * g.slope) (a * g.value 0 + b) := by
    rintro g a b (⟨h, rfl⟩ | h)
    · simp [Arith.build, Obj.mkAffine, Arith.slope, Arith.value]
    · rw [h]; rfl
  induction e with
  | self => exact .inl ⟨rfl, rfl⟩
  | add e b ih =>
    refine .inr ?_
    simp only [Arith.build, Obj.add]
    rw [key e _ _ ih]
    simp only [Arith.slope, Arith.value]
    congr 1 <;> ring
  | sub e b ih =>
    refine .inr ?_
    simp only [Arith.build, Obj.sub]
    rw [key e _ _ ih]
    simp only [Arith.slope, Arith.value]
    congr 1 <;> ring
  | rsub b e ih =>
    refine .inr ?_
    simp only [Arith.build, Obj.rsub]
    rw [key e _ _ ih]
    simp only [Arith.slope, Arith.value]
    congr 1 <;> ring
  | neg e ih =>
    refine .inr ?_
    simp only [Arith.build, Obj.neg]
    rw [key e _ _ ih]
    simp only [Arith.slope, Arith.value]
    congr 1 <;> ring
  | mul e a ih =>
    refine .inr ?_
    simp only [Arith.build, Obj.mul]
    rw [key e _ _ ih]
    simp only [Arith.slope, Arith.value]
    congr 1 <;> ring

/-- C23: gradient and Hessian of the built object are those of `f` scaled by the slope. -/
theorem C23_arith_derivatives {ι : Type} {f : Fn ι} (hN : NullHonest f) (e : Arith) (θ : Prm ι) :
    (∀ c, (affine f e.slope (e.value 0)).call θ c = e.value (f.call θ c)) ∧
    (∀ i a c, (affine f e.slope (e.value 0)).grad θ i a c = e.slope * f.grad θ i a c) ∧
    (∀ i j a a' c, (affine f e.slope (e.value 0)).hess θ i j a a' c =
      e.slope * f.hess θ i j a a' c) := by
  refine ⟨fun c => ?_, fun i a c => ?_, fun i j a a' c => ?_⟩
  · simp only [affine]; exact (e.value_affine _).symm
  · simp only [affine]
    split
    · rename_i h; simp [(hN.1 h).1]
    · rfl
  · simp only [affine]
    split
    · rename_i h; simp [hN.2 h]
    · rfl

/-- `-(3 - 2 * (f - 5))` is one `Affine` with slope 2 and intercept -13. -/
example (f : Fn Pos) :
    (Arith.neg (.rsub 3 (.mul (.sub .self 5) 2))).build (.other f) = .affine (.other f) 2 (-13) := by
  have := C23_coefficients f (Arith.neg (.rsub 3 (.mul (.sub .self 5) 2)))
  rcases this with ⟨-, h⟩ | h
  · cases h
  · rw [h]; norm_num [Arith.slope, Arith.value]

/-! ## C24  Sum.add -/

theorem pull_mapThrough {idx m r : List Nat} (h : mapThrough idx m = .ok r) (x : Nat → Nat) :
    pull r x = pull idx (pull m x) := by
  induction idx generalizing r with
  | nil => cases h; funext k; simp [pull]
  | cons k ks ih =>
    simp only [mapThrough] at h
    cases hk : m[k]? with
    | none => rw [hk] at h; cases h
    | some j =>
      rw [hk] at h
      cases hr : mapThrough ks m with
      | error e => simp only [hr, bind, Except.bind] at h; cases h
      | ok r' =>
        simp only [hr, bind, Except.bind] at h
        cases h
        funext n
        cases n with
        | zero => simp [pull, hk]
        | succ n => simpa [pull] using congrFun (ih hr) n

theorem selectParams_mapThrough {ι : Type} {idx m r : List Nat} (h : mapThrough idx m = .ok r)
    (θ : Prm ι) : selectParams r θ = selectParams idx (selectParams m θ) := by
  induction idx generalizing r with
  | nil => cases h; funext k; simp [selectParams]
  | cons k ks ih =>
    simp only [mapThrough] at h
    cases hk : m[k]? with
    | none => rw [hk] at h; cases h
    | some j =>
      rw [hk] at h
      cases hr : mapThrough ks m with
      | error e => simp only [hr, bind, Except.bind] at h; cases h
      | ok r' =>
        simp only [hr, bind, Except.bind] at h
        cases h
        funext n
        cases n with
        | zero => simp [selectParams, hk]
        | succ n => simpa [selectParams] using congrFun (ih hr) n

theorem sumCall_append (at_ : Atoms) (w : ℝ) (f : Obj) (pm fm dm : List Nat) (θ : Prm Pos)
    (x : Pos) : (at_.append w f pm fm dm).sumCall θ x =
      at_.sumCall θ x + w * f.call (selectParams pm θ) (pull fm x.1, pull dm x.2) := by
  induction at_ using Atoms.rec (motive_1 := fun _ => True) with
  | other | affine | sum | prod => trivial
  | nil => simp [Atoms.append, Atoms.sumCall]
  | cons w' f' pm' fm' dm' rest _ ih => simp only [Atoms.append, Atoms.sumCall, ih]; ring

mutual
/-- The constant part of an object's value: what its offsets really contribute. -/
noncomputable def Obj.offset : Obj → ℝ
  | .other _ => 0
  | .affine base a b => a * base.offset + b
  | .sum atoms b => atoms.offset + b
  | .prod _ => 0
noncomputable def Atoms.offset : Atoms → ℝ
  | .nil => 0
  | .cons w foo _ _ _ rest => w * foo.offset + rest.offset
end

mutual
/-- The sum of the `b` attributes met when flattening, without weights. -/
noncomputable def Obj.rawOffset : Obj → ℝ
  | .other _ => 0
  | .affine base _ b => base.rawOffset + b
  | .sum atoms b => atoms.rawOffset + b
  | .prod _ => 0
noncomputable def Atoms.rawOffset : Atoms → ℝ
  | .nil => 0
  | .cons _ foo _ _ _ rest => foo.rawOffset + rest.rawOffset
end

mutual
theorem sumAdd_exact (st st' : Atoms × ℝ) : (foo : Obj) → (pm fm dm : List Nat) → (w : ℝ) →
    sumAdd st foo pm fm dm w = .ok st' → ∀ (θ : Prm Pos) (x : Pos),
    st'.1.sumCall θ x + st'.2 = (st.1.sumCall θ x + st.2) +
      w * foo.call (selectParams pm θ) (pull fm x.1, pull dm x.2) +
      (foo.rawOffset - w * foo.offset)
  | .other f, pm, fm, dm, w, h, θ, x => by
    simp only [sumAdd] at h
    cases h
    simp only [sumCall_append, Obj.rawOffset, Obj.offset]
    ring
  | .prod atoms, pm, fm, dm, w, h, θ, x => by
    simp only [sumAdd] at h
    cases h
    simp only [sumCall_append, Obj.rawOffset, Obj.offset]
    ring
  | .affine base a b, pm, fm, dm, w, h, θ, x => by
    simp only [sumAdd] at h
    rw [sumAdd_exact _ _ base pm fm dm (w * a) h θ x]
    simp only [Obj.rawOffset, Obj.offset, Obj.call]
    ring
  | .sum atoms b, pm, fm, dm, w, h, θ, x => by
    simp only [sumAdd] at h
    rw [sumAddAll_exact _ _ atoms pm fm dm w h θ x]
    simp only [Obj.rawOffset, Obj.offset, Obj.call]
    ring
theorem sumAddAll_exact (st st' : Atoms × ℝ) : (atoms : Atoms) → (pm fm dm : List Nat) →
    (w : ℝ) → sumAddAll st atoms pm fm dm w = .ok st' → ∀ (θ : Prm Pos) (x : Pos),
    st'.1.sumCall θ x + st'.2 = (st.1.sumCall θ x + st.2) +
      w * atoms.sumCall (selectParams pm θ) (pull fm x.1, pull dm x.2) +
      (atoms.rawOffset - w * atoms.offset)
  | .nil, pm, fm, dm, w, h, θ, x => by
    simp only [sumAddAll] at h
    cases h
    simp [Atoms.sumCall, Atoms.rawOffset, Atoms.offset]
  | .cons w' foo pm' fm' dm' rest, pm, fm, dm, w, h, θ, x => by
    simp only [sumAddAll] at h
    cases hp : mapThrough pm' pm with
    | error e => simp only [hp, bind, Except.bind] at h; cases h
    | ok p =>
    cases hf : mapThrough fm' fm with
    | error e => simp only [hp, hf, bind, Except.bind] at h; cases h
    | ok f =>
    cases hd : mapThrough dm' dm with
    | error e => simp only [hp, hf, hd, bind, Except.bind] at h; cases h
    | ok d =>
    cases hs : sumAdd st foo p f d (w' * w) with
    | error e => simp only [hp, hf, hd, hs, bind, Except.bind] at h; cases h
    | ok st1 =>
      simp only [hp, hf, hd, hs, bind, Except.bind] at h
      rw [sumAddAll_exact st1 st' rest pm fm dm w h θ x,
        sumAdd_exact st st1 foo p f d (w' * w) hs θ x]
      simp only [Atoms.rawOffset, Atoms.offset, Atoms.sumCall]
      rw [selectParams_mapThrough hp, pull_mapThrough hf, pull_mapThrough hd]
      ring
end

/-- C24 (what the code does): after `S.add(foo, param_map, feat_map, dim_map, weight)` the value of
`S` has grown by `weight * foo(mapped parameters)` on the mapped cell *plus* an error which is the
unweighted sum of the offsets inside `foo` minus their weighted contribution. -/
theorem C24_add_exact (at_ at' : Atoms) (b b' : ℝ) (foo : Obj) (pm fm dm : List Nat) (w : ℝ)
    (h : sumAdd (at_, b) foo pm fm dm w = .ok (at', b')) (θ : Prm Pos) (x : Pos) :
    (Obj.sum at' b').call θ x = (Obj.sum at_ b).call θ x +
      w * foo.call (selectParams pm θ) (pull fm x.1, pull dm x.2) +
      (foo.rawOffset - w * foo.offset) := by
  simp only [Obj.call]
  exact sumAdd_exact _ _ foo pm fm dm w h θ x

/-- C24: the claimed value is obtained exactly when the error vanishes. -/
theorem C24_add_correct_iff (at_ at' : Atoms) (b b' : ℝ) (foo : Obj) (pm fm dm : List Nat) (w : ℝ)
    (h : sumAdd (at_, b) foo pm fm dm w = .ok (at', b')) (θ : Prm Pos) (x : Pos) :
    (Obj.sum at' b').call θ x = (Obj.sum at_ b).call θ x +
      w * foo.call (selectParams pm θ) (pull fm x.1, pull dm x.2) ↔
    foo.rawOffset = w * foo.offset := by
  rw [C24_add_exact at_ at' b b' foo pm fm dm w h θ x]
  constructor
  · intro h; linarith
  · intro h; rw [h]; ring

mutual
/-- No offset occurs anywhere in the object (nothing was ever added to or subtracted from it). -/
def Obj.OffsetFree : Obj → Prop
  | .other _ => True
  | .affine base _ b => b = 0 ∧ base.OffsetFree
  | .sum atoms b => b = 0 ∧ atoms.OffsetFree
  | .prod _ => True
def Atoms.OffsetFree : Atoms → Prop
  | .nil => True
  | .cons _ foo _ _ _ rest => foo.OffsetFree ∧ rest.OffsetFree
end

mutual
theorem Obj.OffsetFree.zero : (f : Obj) → f.OffsetFree → f.offset = 0 ∧ f.rawOffset = 0
  | .other _, _ => ⟨rfl, rfl⟩
  | .prod _, _ => ⟨rfl, rfl⟩
  | .affine base a b, h => by
    have := Obj.OffsetFree.zero base h.2
    simp [Obj.offset, Obj.rawOffset, this, h.1]
  | .sum atoms b, h => by
    have := Atoms.OffsetFree.zero atoms h.2
    simp [Obj.offset, Obj.rawOffset, this, h.1]
theorem Atoms.OffsetFree.zero : (a : Atoms) → a.OffsetFree → a.offset = 0 ∧ a.rawOffset = 0
  | .nil, _ => ⟨rfl, rfl⟩
  | .cons w foo _ _ _ rest, h => by
    have h1 := Obj.OffsetFree.zero foo h.1
    have h2 := Atoms.OffsetFree.zero rest h.2
    simp [Atoms.offset, Atoms.rawOffset, h1, h2]
end

/-- A call of `Sum.add`. -/
structure AddCall where
  foo : Obj
  pm : List Nat
  fm : List Nat
  dm : List Nat
  w : ℝ

/-- A sequence of calls of `Sum.add`. -/
noncomputable def runAdds : Atoms × ℝ → List AddCall → Except Err (Atoms × ℝ)
  | st, [] => .ok st
  | st, c :: cs => do
    let st' ← sumAdd st c.foo c.pm c.fm c.dm c.w
    runAdds st' cs

/-- C24 for every sequence of additions of offset-free objects, Sums and scaled Sums included, to
any starting state (in particular the empty `Sum`).  Missing for the full claim: objects with
offsets, for which it is false unless `rawOffset = w * offset` (`C24_add_correct_iff`). -/
theorem C24_adds_partial (cs : List AddCall) (hfree : ∀ c ∈ cs, c.foo.OffsetFree)
    (st st' : Atoms × ℝ) (h : runAdds st cs = .ok st') (θ : Prm Pos) (x : Pos) :
    (Obj.sum st'.1 st'.2).call θ x = (Obj.sum st.1 st.2).call θ x +
      (cs.map fun c =>
        c.w * c.foo.call (selectParams c.pm θ) (pull c.fm x.1, pull c.dm x.2)).sum := by
  induction cs generalizing st with
  | nil => cases h; simp
  | cons c cs ih =>
    simp only [runAdds] at h
    cases hs : sumAdd st c.foo c.pm c.fm c.dm c.w with
    | error e => simp only [hs, bind, Except.bind] at h; cases h
    | ok st1 =>
      simp only [hs, bind, Except.bind] at h
      rw [ih (fun c' hc' => hfree c' (by simp [hc'])) st1 h]
      have h0 := Obj.OffsetFree.zero c.foo (hfree c (by simp))
      have := C24_add_exact st.1 st1.1 st.2 st1.2 c.foo c.pm c.fm c.dm c.w hs θ x
      rw [this, h0.1, h0.2]
      simp only [List.map_cons, List.sum_cons]
      ring

/-- C24 also holds for unit weight and one layer of offset (`S.add(f + b, ...)`,
`S.add(a * f + b, ...)`). -/
theorem C24_add_affine_unit_weight (at_ at' : Atoms) (b b' a b₀ : ℝ) (f : Fn Pos)
    (pm fm dm : List Nat)
    (h : sumAdd (at_, b) (.affine (.other f) a b₀) pm fm dm 1 = .ok (at', b')) (θ : Prm Pos)
    (x : Pos) :
    (Obj.sum at' b').call θ x = (Obj.sum at_ b).call θ x +
      1 * (Obj.affine (.other f) a b₀).call (selectParams pm θ) (pull fm x.1, pull dm x.2) := by
  rw [C24_add_correct_iff at_ at' b b' _ pm fm dm 1 h]
  simp [Obj.offset, Obj.rawOffset]

/-- The function with value 0 everywhere. -/
def zeroFn : Fn Pos := leaf (fun _ _ => 0) (fun _ _ _ _ => 0) (fun _ _ _ _ _ _ => 0) true true

/-- C24 is false in general: `Sum(1).add(f + 1, 0, 0, weight=2)` with `f = 0` evaluates to 1,
not to `2 * (0 + 1) = 2`. -/
theorem C24_weighted_offset_counterexample :
    ∃ at' b', sumAdd (.nil, 0) ((Obj.other zeroFn).add 1) [0] [0] [] 2 = .ok (at', b') ∧
      ∀ θ x, (Obj.sum at' b').call θ x = 1 ∧
        2 * ((Obj.other zeroFn).add 1).call (selectParams [0] θ) (pull [0] x.1, pull [] x.2) = 2 := by
  refine ⟨_, _, rfl, fun θ x => ⟨?_, ?_⟩⟩
  · simp [Obj.call, Atoms.append, Atoms.sumCall, zeroFn, leaf]
  · simp [Obj.call, Obj.add, Obj.mkAffine, zeroFn, leaf]

/-- Also with unit weights: a `Sum` with offset 1 inside `2 * S + 0` added with weight 1. -/
theorem C24_nested_sum_counterexample :
    ∃ at' b', sumAdd (.nil, 0) ((Obj.sum .nil 1).mul 2) [0] [0] [] 1 = .ok (at', b') ∧
      ∀ θ x, (Obj.sum at' b').call θ x = 1 ∧
        ((Obj.sum .nil 1).mul 2).call (selectParams [0] θ) (pull [0] x.1, pull [] x.2) = 2 := by
  refine ⟨.nil, 0 + 0 + 1, by simp [sumAdd, sumAddAll, Obj.mul, Obj.mkAffine], fun θ x => ⟨?_, ?_⟩⟩
  · simp [Obj.call, Atoms.sumCall]
  · simp [Obj.call, Obj.mul, Obj.mkAffine, Atoms.sumCall]

/-- Hypotheses of `C24_adds_partial` on a case with a nested, scaled Sum and permuted maps. -/
example (f g : Fn Pos) : ∃ st', runAdds (.nil, 0)
    [⟨.other f, [0], [1], [], 3⟩,
     ⟨(Obj.sum (.cons 5 (.other g) [1] [0] [] .nil) 0).mul 2, [2, 0], [1, 0], [], 7⟩] = .ok st' ∧
    st'.1 = .cons 3 (.other f) [0] [1] [] (.cons (5 * (7 * 2)) (.other g) [0] [1] [] .nil) := by
  refine ⟨_, rfl, rfl⟩

example (g : Fn Pos) : ((Obj.sum (.cons 5 (.other g) [1] [0] [] .nil) 0).mul 2).OffsetFree := by
  simp [Obj.mul, Obj.mkAffine, Obj.OffsetFree, Atoms.OffsetFree]

/-! ## C28  Product.add -/

theorem prodCall_append (at_ : Atoms) (w : ℝ) (f : Obj) (pm fm dm : List Nat) (θ : Prm Pos)
    (x : Pos) : (at_.append w f pm fm dm).prodCall θ x =
      at_.prodCall θ x * f.call (selectParams pm θ) (pull fm x.1, pull dm x.2) := by
  induction at_ using Atoms.rec (motive_1 := fun _ => True) with
  | other | affine | sum | prod => trivial
  | nil => simp [Atoms.append, Atoms.prodCall]
  | cons w' f' pm' fm' dm' rest _ ih => simp only [Atoms.append, Atoms.prodCall, ih]; ring

mutual
theorem prodAdd_exact (st st' : Atoms) : (foo : Obj) → (pm fm dm : List Nat) →
    prodAdd st foo pm fm dm = .ok st' → ∀ (θ : Prm Pos) (x : Pos),
    st'.prodCall θ x = st.prodCall θ x *
      foo.call (selectParams pm θ) (pull fm x.1, pull dm x.2)
  | .other f, pm, fm, dm, h, θ, x => by
    simp only [prodAdd] at h
    cases h
    exact prodCall_append ..
  | .affine base a b, pm, fm, dm, h, θ, x => by
    simp only [prodAdd] at h
    cases h
    exact prodCall_append ..
  | .sum atoms b, pm, fm, dm, h, θ, x => by
    simp only [prodAdd] at h
    cases h
    exact prodCall_append ..
  | .prod atoms, pm, fm, dm, h, θ, x => by
    simp only [prodAdd] at h
    simp only [Obj.call]
    exact prodAddAll_exact _ _ atoms pm fm dm h θ x
theorem prodAddAll_exact (st st' : Atoms) : (atoms : Atoms) → (pm fm dm : List Nat) →
    prodAddAll st atoms pm fm dm = .ok st' → ∀ (θ : Prm Pos) (x : Pos),
    st'.prodCall θ x = st.prodCall θ x *
      atoms.prodCall (selectParams pm θ) (pull fm x.1, pull dm x.2)
  | .nil, pm, fm, dm, h, θ, x => by
    simp only [prodAddAll] at h
    cases h
    simp [Atoms.prodCall]
  | .cons w' foo pm' fm' dm' rest, pm, fm, dm, h, θ, x => by
    simp only [prodAddAll] at h
    cases hp : mapThrough pm' pm with
    | error e => simp only [hp, bind, Except.bind] at h; cases h
    | ok p =>
    cases hf : mapThrough fm' fm with
    | error e => simp only [hp, hf, bind, Except.bind] at h; cases h
    | ok f =>
    cases hd : mapThrough dm' dm with
    | error e => simp only [hp, hf, hd, bind, Except.bind] at h; cases h
    | ok d =>
    cases hs : prodAdd st foo p f d with
    | error e => simp only [hp, hf, hd, hs, bind, Except.bind] at h; cases h
    | ok st1 =>
      simp only [hp, hf, hd, hs, bind, Except.bind] at h
      rw [prodAddAll_exact st1 st' rest pm fm dm h θ x,
        prodAdd_exact st st1 foo p f d hs θ x]
      simp only [Atoms.prodCall]
      rw [selectParams_mapThrough hp, pull_mapThrough hf, pull_mapThrough hd]
      ring
end

/-- A sequence of calls of `Product.add` (weights unused). -/
noncomputable def runProdAdds : Atoms → List AddCall → Except Err Atoms
  | st, [] => .ok st
  | st, c :: cs => do
    let st' ← prodAdd st c.foo c.pm c.fm c.dm
    runProdAdds st' cs

/-- C28: after any sequence of `Product.add` calls that raise nothing, the value is the product of
what was added, at the mapped parameters and cells. -/
theorem C28_product_adds (cs : List AddCall) (st st' : Atoms) (h : runProdAdds st cs = .ok st')
    (θ : Prm Pos) (x : Pos) :
    (Obj.prod st').call θ x = (Obj.prod st).call θ x *
      (cs.map fun c => c.foo.call (selectParams c.pm θ) (pull c.fm x.1, pull c.dm x.2)).prod := by
  simp only [Obj.call]
  induction cs generalizing st with
  | nil => cases h; simp
  | cons c cs ih =>
    simp only [runProdAdds] at h
    cases hs : prodAdd st c.foo c.pm c.fm c.dm with
    | error e => simp only [hs, bind, Except.bind] at h; cases h
    | ok st1 =>
      simp only [hs, bind, Except.bind] at h
      rw [ih st1 h, prodAdd_exact st st1 c.foo c.pm c.fm c.dm hs θ x]
      simp only [List.map_cons, List.prod_cons]
      ring

mutual
/-- No atom of the product, at any depth reached by flattening, is itself a `Product`. -/
def Atoms.noProd : Atoms → Prop
  | .nil => True
  | .cons _ foo _ _ _ rest => (∀ a, foo ≠ .prod a) ∧ rest.noProd
end

theorem noProd_append (at_ : Atoms) (w : ℝ) (f : Obj) (pm fm dm : List Nat) (h : at_.noProd)
    (hf : ∀ a, f ≠ .prod a) : (at_.append w f pm fm dm).noProd := by
  induction at_ using Atoms.rec (motive_1 := fun _ => True) with
  | other | affine | sum | prod => trivial
  | nil => exact ⟨hf, trivial⟩
  | cons w' f' pm' fm' dm' rest _ ih => exact ⟨h.1, ih h.2⟩

mutual
theorem prodAdd_noProd (st st' : Atoms) : (foo : Obj) → (pm fm dm : List Nat) →
    prodAdd st foo pm fm dm = .ok st' → st.noProd → st'.noProd
  | .other f, pm, fm, dm, h, h0 => by
    simp only [prodAdd] at h; cases h; exact noProd_append _ _ _ _ _ _ h0 (by simp)
  | .affine base a b, pm, fm, dm, h, h0 => by
    simp only [prodAdd] at h; cases h; exact noProd_append _ _ _ _ _ _ h0 (by simp)
  | .sum atoms b, pm, fm, dm, h, h0 => by
    simp only [prodAdd] at h; cases h; exact noProd_append _ _ _ _ _ _ h0 (by simp)
  | .prod atoms, pm, fm, dm, h, h0 => by
    simp only [prodAdd] at h
    exact prodAddAll_noProd _ _ atoms pm fm dm h h0
theorem prodAddAll_noProd (st st' : Atoms) : (atoms : Atoms) → (pm fm dm : List Nat) →
    prodAddAll st atoms pm fm dm = .ok st' → st.noProd → st'.noProd
  | .nil, pm, fm, dm, h, h0 => by
    simp only [prodAddAll] at h; cases h; exact h0
  | .cons w' foo pm' fm' dm' rest, pm, fm, dm, h, h0 => by
    simp only [prodAddAll] at h
    cases hp : mapThrough pm' pm with
    | error e => simp only [hp, bind, Except.bind] at h; cases h
    | ok p =>
    cases hf : mapThrough fm' fm with
    | error e => simp only [hp, hf, bind, Except.bind] at h; cases h
    | ok f =>
    cases hd : mapThrough dm' dm with
    | error e => simp only [hp, hf, hd, bind, Except.bind] at h; cases h
    | ok d =>
    cases hs : prodAdd st foo p f d with
    | error e => simp only [hp, hf, hd, hs, bind, Except.bind] at h; cases h
    | ok st1 =>
      simp only [hp, hf, hd, hs, bind, Except.bind] at h
      exact prodAddAll_noProd st1 st' rest pm fm dm h (prodAdd_noProd st st1 foo p f d hs h0)
end

/-- C28: flattening is complete: no `Product` is an atom of a `Product` built by `add`. -/
theorem C28_product_flat (cs : List AddCall) (st' : Atoms)
    (h : runProdAdds .nil cs = .ok st') : st'.noProd := by
  have : ∀ (cs : List AddCall) (st : Atoms), runProdAdds st cs = .ok st' → st.noProd →
      st'.noProd := by
    intro cs
    induction cs with
    | nil => intro st h h0; cases h; exact h0
    | cons c cs ih =>
      intro st h h0
      simp only [runProdAdds] at h
      cases hs : prodAdd st c.foo c.pm c.fm c.dm with
      | error e => simp only [hs, bind, Except.bind] at h; cases h
      | ok st1 =>
        simp only [hs, bind, Except.bind] at h
        exact ih st1 h (prodAdd_noProd st st1 c.foo c.pm c.fm c.dm hs h0)
  exact this cs .nil h trivial

/-- A nested product with permuted maps, flattened. -/
example (f g h : Fn Pos) : runProdAdds .nil
    [⟨.other f, [0], [1], [], 1⟩,
     ⟨.prod (.cons 1 (.other g) [1] [0] [] (.cons 1 (.other h) [0] [1] [] .nil)), [2, 0], [1, 0],
       [], 1⟩] =
    .ok (.cons 1 (.other f) [0] [1] [] (.cons 1 (.other g) [0] [1] []
      (.cons 1 (.other h) [2] [0] [] .nil))) := rfl

/-- An index of an inner atom outside the outer map raises `IndexError`. -/
theorem C28_bad_map_raises (f : Fn Pos) :
    runProdAdds .nil [⟨.prod (.cons 1 (.other f) [3] [0] [] .nil), [0], [0], [], 1⟩] =
      .error .indexError := rfl

/-! ## C25  eval -/

variable {ι : Type} [Fintype ι]

/-- Everything the six combinators can build from atoms that satisfy the claim, with `Sum`s without
offset and `FuncWrap`s whose map is increasing where both listed parameters interact. -/
inductive EvalBuilt : Nat → Fn ι → Prop
  | atom {n f} : EvalAgrees n f → NullHonest f → EvalBuilt n f
  | affine {n f} (a b : ℝ) : EvalBuilt n f → EvalBuilt n (affine f a b)
  | sum {n} (atoms : List (ℝ × Fn ι)) : (∀ x ∈ atoms, EvalBuilt n x.2) →
      EvalBuilt n (sum atoms 0)
  | product {n} (fs : List (Fn ι)) : (∀ f ∈ fs, EvalBuilt n f) → EvalBuilt n (product fs)
  | compose {n f} (gs : List (Fn ι)) : EvalBuilt gs.length f → (∀ g ∈ gs, EvalBuilt n g) →
      EvalBuilt n (compose f gs)
  | wrap {n f} (pm : List Nat) (ρ : ι → ι) : EvalBuilt pm.length f →
      (f.hessNull = true ∨ wrapAccessOk pm n = true) → EvalBuilt n (wrap f pm ρ)
  | collapse {n f} (fib : ι → Finset ι) : EvalBuilt n f → EvalBuilt n (collapse f fib)

theorem sum_nullHonest (atoms : List (ℝ × Fn ι)) (b : ℝ) : NullHonest (sum atoms b) :=
  ⟨fun h => by simp [sum] at h, fun h => by simp [sum] at h⟩

theorem product_nullHonest (fs : List (Fn ι)) : NullHonest (product fs) :=
  ⟨fun h => by simp [product] at h, fun h => by simp [product] at h⟩

theorem collapse_nullHonest (f : Fn ι) (fib : ι → Finset ι) : NullHonest (collapse f fib) :=
  ⟨fun h => by simp [collapse] at h, fun h => by simp [collapse] at h⟩

theorem EvalBuilt.nullHonest {n : Nat} {f : Fn ι} (h : EvalBuilt n f) : NullHonest f := by
  induction h with
  | atom _ hN => exact hN
  | affine a b _ ih => exact affine_nullHonest a b ih
  | sum => exact sum_nullHonest _ _
  | product => exact product_nullHonest _
  | compose => exact compose_nullHonest _
  | wrap pm ρ _ _ ih => exact wrap_nullHonest pm ρ ih
  | collapse => exact collapse_nullHonest _ _

/-- C25 for every expression over the six combinators (any depth, any number of parameters): `eval`
succeeds and returns what `__call__`, `grad` and `hess` return.  Missing: `Sum` with an offset, for
which it is false (`C25_sum_eval_misses_offset`), and `FuncWrap` with a decreasing map, for which
`eval` raises (`C27_eval_raises_on_decreasing_map`). -/
theorem C25_eval_agrees_partial {n : Nat} {f : Fn ι} (h : EvalBuilt n f) : EvalAgrees n f := by
  induction h with
  | atom he _ => exact he
  | affine a b hf ih => exact affine_evalAgrees a b hf.nullHonest ih
  | sum atoms _ ih => exact sum_evalAgrees atoms ih
  | product fs _ ih => exact product_evalAgrees fs ih
  | compose gs hf _ ihf ihg => exact compose_evalAgrees hf.nullHonest ihf ihg
  | wrap pm ρ hf hok ih => exact wrap_evalAgrees ρ hf.nullHonest ih hok
  | collapse fib _ ih => exact collapse_evalAgrees fib ih

/-- C25, what `Sum.eval` does: gradients and Hessians as from the separate methods, but the value
lacks the offset, for every `Sum`. -/
theorem C25_sum_eval_misses_offset {n : Nat} (atoms : List (ℝ × Fn ι)) (b : ℝ)
    (h : ∀ x ∈ atoms, EvalAgrees n x.2) (θ : Prm ι) :
    ∃ r, (sum atoms b).eval n θ = .ok r ∧ (∀ c, r.val c = (sum atoms b).call θ c - b) ∧
      (∀ i < n, ∀ e c, r.grad i e c = (sum atoms b).grad θ i e c) ∧
      (∀ i < n, ∀ j ≤ i, ∀ e e' c, r.hess i j e e' c = (sum atoms b).hess θ i j e e' c) :=
  sum_eval_exact atoms b h θ

/-- C25 is false for every `Sum` with a nonzero offset. -/
theorem C25_sum_with_offset_counterexample [Nonempty ι] {n : Nat} (atoms : List (ℝ × Fn ι))
    (b : ℝ) (hb : b ≠ 0) (h : ∀ x ∈ atoms, EvalAgrees n x.2) : ¬ EvalAgrees n (sum atoms b) := by
  intro hcon
  obtain ⟨r, hr, hv, -, -⟩ := hcon fun _ _ => 0
  obtain ⟨r', hr', hv', -, -⟩ := sum_eval_exact atoms b h fun _ _ => 0
  rw [hr] at hr'
  cases hr'
  obtain ⟨c⟩ := ‹Nonempty ι›
  have h1 := hv c
  have h2 := hv' c
  rw [h1] at h2
  exact hb (by linarith)

/-! ## C26  derivatives of composites -/

/-- Everything the six combinators can build, at a point, from atoms whose derivatives are right at
the points where they are used. -/
inductive DerivBuilt : Nat → Fn ι → Prm ι → Prop
  | atom {n f θ} : GradCorrectAt n f θ → HessCorrectAt n f θ → NullHonest f → DerivBuilt n f θ
  | affine {n f θ} (a b : ℝ) : DerivBuilt n f θ → DerivBuilt n (affine f a b) θ
  | sum {n θ} (atoms : List (ℝ × Fn ι)) (b : ℝ) : (∀ x ∈ atoms, DerivBuilt n x.2 θ) →
      DerivBuilt n (sum atoms b) θ
  | product {n θ} (fs : List (Fn ι)) : (∀ f ∈ fs, DerivBuilt n f θ) →
      DerivBuilt n (product fs) θ
  | compose {n f θ} (gs : List (Fn ι)) : DerivBuilt gs.length f (gVals gs θ) →
      (∀ g ∈ gs, DerivBuilt n g θ) → DerivBuilt n (compose f gs) θ
  | wrap {n f θ} (pm : List Nat) (ρ : ι → ι) : DerivBuilt pm.length f (selectParams pm θ) →
      pm.Nodup → (∀ p ∈ pm, p < n) →
      (pm.Pairwise (· < ·) ∨ HessFullSymm f (selectParams pm θ)) → DerivBuilt n (wrap f pm ρ) θ
  | collapse {n f θ} (fib : ι → Finset ι) : DerivBuilt n f θ → DerivBuilt n (collapse f fib) θ

theorem DerivBuilt.nullHonest {n : Nat} {f : Fn ι} {θ : Prm ι} (h : DerivBuilt n f θ) :
    NullHonest f := by
  induction h with
  | atom _ _ hN => exact hN
  | affine a b _ ih => exact affine_nullHonest a b ih
  | sum => exact sum_nullHonest _ _
  | product => exact product_nullHonest _
  | compose => exact compose_nullHonest _
  | wrap pm ρ _ _ _ _ ih => exact wrap_nullHonest pm ρ ih
  | collapse => exact collapse_nullHonest _ _

/-- C26: for every expression over the six combinators, `grad` is the derivative of `__call__` and
`hess` the derivative of `grad`.  Missing: `FuncWrap` with repeated indices (false, see
`C27_repeated_index_counterexample`) or with a permuted map around a function that only provides
the lower triangle. -/
theorem C26_composite_derivatives_partial {n : Nat} {f : Fn ι} {θ : Prm ι}
    (h : DerivBuilt n f θ) : GradCorrectAt n f θ ∧ HessCorrectAt n f θ := by
  induction h with
  | atom hg hh _ => exact ⟨hg, hh⟩
  | affine a b hf ih =>
    exact ⟨affine_gradCorrect a b hf.nullHonest ih.1, affine_hessCorrect a b hf.nullHonest ih.2⟩
  | sum atoms b _ ih =>
    exact ⟨sum_gradCorrect atoms b fun x hx => (ih x hx).1,
      sum_hessCorrect atoms b fun x hx => (ih x hx).2⟩
  | product fs _ ih =>
    exact ⟨product_gradCorrect fs fun f hf => (ih f hf).1,
      product_hessCorrect fs (fun f hf => (ih f hf).1) fun f hf => (ih f hf).2⟩
  | compose gs hf _ ihf ihg =>
    exact ⟨compose_gradCorrect hf.nullHonest ihf.1 fun g hg => (ihg g hg).1,
      compose_hessCorrect hf.nullHonest ihf.2 (fun g hg => (ihg g hg).1) fun g hg => (ihg g hg).2⟩
  | wrap pm ρ hf hnd hr hord ih =>
    exact ⟨wrap_gradCorrect ρ hf.nullHonest hnd hr ih.1,
      wrap_hessCorrect ρ hf.nullHonest hnd hr hord ih.2⟩
  | collapse fib _ ih => exact ⟨collapse_gradCorrect fib ih.1, collapse_hessCorrect fib ih.2⟩

/-- C26 in terms of partial derivatives: `grad(i)[e]` is `∂ call / ∂ params[i][e]` and
`hess(i, j)[e, e']` is `∂ grad(i)[e] / ∂ params[j][e']`. -/
theorem C26_partial_derivatives_partial [DecidableEq ι] {n : Nat} {f : Fn ι} {θ : Prm ι}
    (h : DerivBuilt n f θ) :
    (∀ i < n, ∀ e c, HasDerivAt (fun t => f.call (setEntry θ i e t) c) (f.grad θ i e c) (θ i e)) ∧
    (∀ i < n, ∀ j ≤ i, ∀ e e' c,
      HasDerivAt (fun t => f.grad (setEntry θ j e' t) i e c) (f.hess θ i j e e' c) (θ j e')) :=
  ⟨fun _ hi e c => (C26_composite_derivatives_partial h).1.partial hi e c,
   fun _ hi _ hj e e' c => (C26_composite_derivatives_partial h).2.partial hi hj e e' c⟩

/-! ## C27  FuncWrap and param_map -/

/-- C27: derivative zero with respect to parameters that are not listed, for every map. -/
theorem C27_unlisted_zero (f : Fn ι) (pm : List Nat) (ρ : ι → ι) (θ : Prm ι) {i : Nat}
    (hi : i ∉ pm) :
    (∀ e c, (wrap f pm ρ).grad θ i e c = 0) ∧
    (∀ j e e' c, (wrap f pm ρ).hess θ i j e e' c = 0 ∧ (wrap f pm ρ).hess θ j i e e' c = 0) := by
  have hx : indexOf? pm i = none := by
    unfold indexOf?
    rw [List.findIdx?_eq_none_iff]
    intro x hx
    simp only [beq_eq_false_iff_ne]
    exact fun h => hi (h ▸ hx)
  refine ⟨fun e c => ?_, fun j e e' c => ⟨?_, ?_⟩⟩
  · simp only [wrap, hx]; split <;> rfl
  · simp only [wrap, hx]; split <;> rfl
  · simp only [wrap, hx]; split
    · rfl
    · cases indexOf? pm j <;> rfl

/-- C27: true first derivatives for every map without repetitions, in any order. -/
theorem C27_listed_gradient_partial {n : Nat} {f : Fn ι} {pm : List Nat} (ρ : ι → ι) {θ : Prm ι}
    (hN : NullHonest f) (hnd : pm.Nodup) (hr : ∀ p ∈ pm, p < n)
    (h : GradCorrectAt pm.length f (selectParams pm θ)) : GradCorrectAt n (wrap f pm ρ) θ :=
  wrap_gradCorrect ρ hN hnd hr h

/-- C27: true second derivatives for increasing maps, and for every map without repetitions when
the wrapped function provides `hess(i, j)` on both sides of the diagonal. -/
theorem C27_listed_hessian_partial {n : Nat} {f : Fn ι} {pm : List Nat} (ρ : ι → ι) {θ : Prm ι}
    (hN : NullHonest f) (hnd : pm.Nodup) (hr : ∀ p ∈ pm, p < n)
    (hord : pm.Pairwise (· < ·) ∨ HessFullSymm f (selectParams pm θ))
    (h : HessCorrectAt pm.length f (selectParams pm θ)) : HessCorrectAt n (wrap f pm ρ) θ :=
  wrap_hessCorrect ρ hN hnd hr hord h

/-- C27: `eval` succeeds and agrees with the separate methods for increasing maps. -/
theorem C27_eval_increasing_partial {n : Nat} {f : Fn ι} {pm : List Nat} (ρ : ι → ι)
    (hN : NullHonest f) (h : EvalAgrees pm.length f) (hinc : pm.Pairwise (· < ·)) :
    EvalAgrees n (wrap f pm ρ) := by
  refine wrap_evalAgrees ρ hN h (.inr ?_)
  unfold wrapAccessOk
  simp only [List.all_eq_true, List.mem_range]
  intro i _ j hj
  cases hi : indexOf? pm i with
  | none => rfl
  | some k =>
    cases hjx : indexOf? pm j with
    | none => rfl
    | some l => simpa using pairwise_index_le hinc hi hjx (le_of_lt hj)

/-- C27 is false: `eval` raises `IndexError` whenever two parameters `j < i` are listed in
decreasing order and the wrapped function has a Hessian. -/
theorem C27_eval_raises_on_decreasing_map {n : Nat} {f : Fn ι} {pm : List Nat} (ρ : ι → ι)
    (hh : f.hessNull = false) {i j k l : Nat} (hi : i < n) (hj : j < i)
    (hk : indexOf? pm i = some k) (hl : indexOf? pm j = some l) (hkl : k < l) (θ : Prm ι)
    (r : Ev ι) (hr : f.eval pm.length (selectParams pm θ) = .ok r) :
    (wrap f pm ρ).eval n θ = .error .indexError := by
  have hno : wrapAccessOk pm n = false := by
    by_contra hcon
    have := wrapAccessOk_spec (by simpa using hcon) hi (le_of_lt hj) hk hl
    omega
  simp only [wrap, hr, hh, hno, bind, Except.bind]
  rfl

/-- Values at one position, `f(a, b) = a * b` with its derivatives. -/
def mulFn : Fn Unit :=
  leaf (fun θ _ => θ 0 () * θ 1 ()) (fun θ i _ _ => if i = 0 then θ 1 () else θ 0 ())
    (fun _ i j _ _ _ => if i = j then 0 else 1) false false

theorem mulFn_grad (θ : Prm Unit) : GradCorrectAt 2 mulFn θ := by
  intro γ v t hγ c
  have h0 := hγ.2 0 (by omega) ()
  have h1 := hγ.2 1 (by omega) ()
  refine HasDerivAt.congr_deriv (h0.fun_mul h1) ?_
  simp only [hγ.1, mulFn, leaf]
  simp [Finset.sum_range_succ]
  ring

theorem mulFn_hess (θ : Prm Unit) : HessCorrectAt 2 mulFn θ := by
  refine ⟨fun γ v t hγ i hi e c => ?_, fun i _ e e' c => rfl⟩
  have h0 := hγ.2 0 (by omega) ()
  have h1 := hγ.2 1 (by omega) ()
  interval_cases i
  · refine HasDerivAt.congr_deriv h1 ?_
    simp [Finset.sum_range_succ, fullHess, mulFn, leaf]
  · refine HasDerivAt.congr_deriv h0 ?_
    simp [Finset.sum_range_succ, fullHess, mulFn, leaf]

theorem mulFn_null : NullHonest mulFn :=
  ⟨fun h => by simp [mulFn, leaf] at h, fun h => by simp [mulFn, leaf] at h⟩

theorem indexOf_00 : indexOf? [0, 0] 0 = some 0 := by decide

/-- C27 is false for repeated indices: `FuncWrap(f, [0, 0])` with `f(a, b) = a * b` has the value
`x²` but returns the gradient `x`. -/
theorem C27_repeated_index_counterexample (x : ℝ) (hx : x ≠ 0) :
    GradCorrectAt 2 mulFn (selectParams [0, 0] fun _ _ => x) ∧
    (wrap mulFn [0, 0] id).call (fun _ _ => x) () = x * x ∧
    (wrap mulFn [0, 0] id).grad (fun _ _ => x) 0 () () = x ∧
    ¬ GradCorrectAt 1 (wrap mulFn [0, 0] id) (fun _ _ => x) := by
  refine ⟨mulFn_grad _, ?_, ?_, fun hcon => ?_⟩
  · simp [wrap, mulFn, leaf, selectParams]
  · simp [wrap, mulFn, leaf, selectParams, indexOf_00]
  · have h1 := hcon.partial (i := 0) (by omega) () ()
    have h2 : HasDerivAt (fun t => (wrap mulFn [0, 0] id).call (setEntry (fun _ _ => x) 0 () t) ())
        (1 * x + x * 1) x := by
      have := (hasDerivAt_id x).fun_mul (hasDerivAt_id x)
      refine HasDerivAt.congr_deriv (f' := 1 * x + x * 1) ?_ rfl
      simpa [wrap, mulFn, leaf, selectParams, setEntry] using this
    have := h1.unique h2
    simp [wrap, mulFn, leaf, selectParams, indexOf_00] at this
    exact hx this

/-- C27 is false for decreasing maps: `FuncWrap(f, [1, 0]).eval` raises. -/
theorem C27_decreasing_map_counterexample (θ : Prm Unit) :
    (wrap mulFn [1, 0] id).eval 2 θ = .error .indexError := by
  refine C27_eval_raises_on_decreasing_map (i := 1) (j := 0) (k := 0) (l := 1) id rfl (by omega)
    (by omega) (by decide) (by decide) (by omega) θ _ rfl

/-! ### The hypotheses are met -/

/-- `f(a, b) = a * b` satisfies the atom conditions everywhere, so e.g.
`3 * ((f @ [f, f∘(1,0)]) * f) + 1` summed with `f` has right derivatives and a consistent `eval`. -/
example (θ : Prm Unit) : DerivBuilt 2
    (sum [(2, affine (product [compose mulFn [mulFn, wrap mulFn [0, 1] id], mulFn]) 3 1),
      (5, mulFn)] 7) θ := by
  have ha : ∀ θ, DerivBuilt 2 mulFn θ := fun θ => .atom (mulFn_grad θ) (mulFn_hess θ) mulFn_null
  refine .sum _ _ fun x hx => ?_
  simp only [List.mem_cons, List.not_mem_nil, or_false] at hx
  rcases hx with rfl | rfl
  · refine .affine _ _ (.product _ fun f hf => ?_)
    simp only [List.mem_cons, List.not_mem_nil, or_false] at hf
    rcases hf with rfl | rfl
    · refine .compose _ (ha _) fun g hg => ?_
      simp only [List.mem_cons, List.not_mem_nil, or_false] at hg
      rcases hg with rfl | rfl
      · exact ha _
      · exact .wrap _ _ (ha _) (by decide) (by decide) (.inl (by decide))
    · exact ha _
  · exact ha _

example : EvalBuilt 2
    (sum [(2, affine (product [compose mulFn [mulFn, wrap mulFn [0, 1] id], mulFn]) 3 1),
      (5, mulFn)] 0) := by
  have ha : EvalBuilt 2 mulFn := .atom (leaf_evalAgrees _ _ _ _ _ _) mulFn_null
  refine .sum _ fun x hx => ?_
  simp only [List.mem_cons, List.not_mem_nil, or_false] at hx
  rcases hx with rfl | rfl
  · refine .affine _ _ (.product _ fun f hf => ?_)
    simp only [List.mem_cons, List.not_mem_nil, or_false] at hf
    rcases hf with rfl | rfl
    · refine .compose _ ha fun g hg => ?_
      simp only [List.mem_cons, List.not_mem_nil, or_false] at hg
      rcases hg with rfl | rfl
      · exact ha
      · exact .wrap _ _ ha (.inr (by decide))
    · exact ha
  · exact ha

end Verif.Func
