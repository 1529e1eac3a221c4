import Verif.Spec.Protocol
import Verif.Model.ComposeTensor

/-!
# C73: parameters and indices mean the same for every function, however they are passed
-/

set_option linter.unusedSectionVars false

namespace Verif.Protocol
open Verif.Params (Err)

variable {Obj V T : Type}

theorem Means.pack {a : PyVal V} {l : List (PyVal V)} (h : Means a l) : packParams a = l := by cases h <;> rfl

/-- What `FuncMeta` makes of a body. -/
theorem newClass_ok {b : Body Obj V T} {c : Cls Obj V T} (h : newClass b = .ok c) :
    ∃ f, b.call = some f ∧ c.call = callWrap f ∧
      c.grad = (match b.grad with
        | some g => vectorWrap g
        | none => ⟨fun _ _ _ => .error .notImplemented, false⟩) ∧
      c.hess = (match b.hess with
        | some h => matrixWrap h
        | none => ⟨fun _ _ _ _ => .error .notImplemented, false⟩) ∧
      c.eval = (match b.eval with
        | some e => evalWrap e
        | none => evalWrap fun o params => do
          let v ← c.call o (.tuple params)
          let g ← c.grad.fn o (.tuple params) none
          let h ← c.hess.fn o (.tuple params) none none
          .ok (v, g, h)) := by
  unfold newClass at h
  cases hc : b.call with
  | none => rw [hc] at h; cases h
  | some f =>
    rw [hc] at h
    cases h
    exact ⟨f, rfl, rfl, rfl, rfl, rfl⟩

/-- **C73.** For every class, `f(params)`, `f.grad(params, i)`, `f.hess(params, i, j)` and `f.eval(params)` depend only on the parameters that `params` means, not on the way
they are passed: `f(x)`, `f([x])` and `f((x,))` are the same, `f([x, y])` and `f((x, y))`, and `f()`, `f(None)`, `f([])` and `f(())`. -/
theorem C73_same_parameters {b : Body Obj V T} {c : Cls Obj V T} (h : newClass b = .ok c) (o : Obj) {a a' : PyVal V} {l : List (PyVal V)} (ha : Means a l)
    (ha' : Means a' l) :
    c.call o a = c.call o a' ∧ (∀ i, c.grad.fn o a i = c.grad.fn o a' i) ∧ (∀ i j, c.hess.fn o a i j = c.hess.fn o a' i j) ∧ c.eval o a = c.eval o a' := by
  obtain ⟨f, -, h1, h2, h3, h4⟩ := newClass_ok h
  refine ⟨?_, fun i => ?_, fun i j => ?_, ?_⟩
  · rw [h1]; unfold callWrap; rw [ha.pack, ha'.pack]
  · rw [h2]
    cases b.grad with
    | none => rfl
    | some g => unfold vectorWrap; dsimp only; rw [ha.pack, ha'.pack]
  · rw [h3]
    cases b.hess with
    | none => rfl
    | some g => unfold matrixWrap; dsimp only; rw [ha.pack, ha'.pack]
  · rw [h4]
    cases b.eval with
    | none => unfold evalWrap; dsimp only; rw [ha.pack, ha'.pack]
    | some g => unfold evalWrap; dsimp only; rw [ha.pack, ha'.pack]

/-- **C73.** The class's `__call__` gets the parameters as the user means them, and `grad`, `hess` with an index (or two) get the index as it is. -/
theorem C73_passed_on {b : Body Obj V T} {c : Cls Obj V T} (h : newClass b = .ok c) (o : Obj) {a : PyVal V} {l : List (PyVal V)} (ha : Means a l) :
    (∀ f, b.call = some f → c.call o a = f o l) ∧ (∀ g, b.grad = some g → ∀ i, c.grad.fn o a (some i) = (g.fn o l i).map .one) ∧
      (∀ g, b.hess = some g → ∀ i j, c.hess.fn o a (some i) (some j) = (g.fn o l i j).map .one) ∧ ∀ e, b.eval = some e → c.eval o a = e o l := by
  obtain ⟨f, h0, h1, h2, h3, h4⟩ := newClass_ok h
  refine ⟨fun f' hf => ?_, fun g hg i => ?_, fun g hg i j => ?_, fun e he => ?_⟩
  · rw [h0] at hf; cases hf
    rw [h1]; unfold callWrap; rw [ha.pack]
  · rw [h2, hg]; unfold vectorWrap; dsimp only; rw [ha.pack]
  · rw [h3, hg]; unfold matrixWrap; dsimp only; rw [ha.pack]
  · rw [h4, he]; unfold evalWrap; dsimp only; rw [ha.pack]

/-! ### all derivatives at once -/

theorem mapM_one {γ : Type} {f : γ → Except Err T} {g : γ → Except Err (Ret T)} (hfg : ∀ x, g x = (f x).map .one) :
    ∀ {ks : List γ} {l : List T}, ks.mapM f = .ok l ↔ List.Forall₂ (fun k r => g k = .ok (.one r)) ks l
  | [], l => by
    rw [List.mapM_nil]
    constructor
    · intro h; cases h; exact .nil
    · intro h; cases h; rfl
  | k :: ks, l => by
    rw [List.mapM_cons]
    constructor
    · intro h
      cases hk : f k with
      | error e => rw [hk] at h; cases h
      | ok r =>
        rw [hk] at h
        change (List.mapM f ks >>= fun bs => pure (r :: bs)) = _ at h
        cases hks : List.mapM f ks with
        | error e => rw [hks] at h; cases h
        | ok rs =>
          rw [hks] at h
          cases h
          exact .cons (by rw [hfg, hk]; rfl) ((mapM_one hfg).1 hks)
    · rintro (_ | ⟨h1, h2⟩)
      rename_i r rs
      rw [hfg] at h1
      cases hk : f k with
      | error e => rw [hk] at h1; cases h1
      | ok r' =>
        rw [hk] at h1
        cases h1
        rw [(mapM_one hfg).2 h2]
        rfl

/-- **C73.** `f.grad(params)` without an index returns a list exactly if `f.grad(params, 0)`, …, `f.grad(params, m - 1)` all return, and it is the list of their results; it
returns nothing else. -/
theorem C73_grad_list {b : Body Obj V T} {c : Cls Obj V T} (h : newClass b = .ok c) {g : Meth (Obj → List (PyVal V) → Int → Except Err T)} (hg : b.grad = some g)
    (o : Obj) {a : PyVal V} {l : List (PyVal V)} (ha : Means a l) (r : Ret T) :
    c.grad.fn o a none = .ok r ↔
      ∃ rs, r = .row rs ∧ List.Forall₂ (fun (k : Nat) t => c.grad.fn o a (some (k : Int)) = .ok (.one t)) (List.range l.length) rs := by
  have key := fun rs => mapM_one (l := rs) (f := fun (k : Nat) => g.fn o l (k : Int)) (g := fun (k : Nat) => c.grad.fn o a (some (k : Int)))
    (fun k => ((C73_passed_on h o ha).2.1 g hg k)) (ks := List.range l.length)
  obtain ⟨f, -, -, h2, -, -⟩ := newClass_ok h
  have e : c.grad.fn o a none = ((List.range l.length).mapM fun (k : Nat) => g.fn o l (k : Int)).map .row := by
    rw [h2, hg]; unfold vectorWrap; dsimp only; rw [ha.pack]
  rw [e]
  constructor
  · intro hr
    cases hm : (List.range l.length).mapM fun (k : Nat) => g.fn o l (k : Int) with
    | error err => rw [hm] at hr; cases hr
    | ok rs =>
      rw [hm] at hr
      cases hr
      exact ⟨rs, rfl, (key _).1 hm⟩
  · rintro ⟨rs, rfl, hr⟩
    rw [(key _).2 hr]
    rfl

theorem mapM_rel {γ δ : Type} {f : γ → Except Err δ} {P : γ → δ → Prop} (h : ∀ k r, f k = .ok r ↔ P k r) :
    ∀ {ks : List γ} {l : List δ}, ks.mapM f = .ok l ↔ List.Forall₂ P ks l
  | [], l => by
    rw [List.mapM_nil]
    constructor
    · intro h; cases h; exact .nil
    · intro h; cases h; rfl
  | k :: ks, l => by
    rw [List.mapM_cons]
    constructor
    · intro hl
      cases hk : f k with
      | error e => rw [hk] at hl; cases hl
      | ok r =>
        rw [hk] at hl
        change (List.mapM f ks >>= fun bs => pure (r :: bs)) = _ at hl
        cases hks : List.mapM f ks with
        | error e => rw [hks] at hl; cases hl
        | ok rs =>
          rw [hks] at hl
          cases hl
          exact .cons ((h _ _).1 hk) ((mapM_rel h).1 hks)
    · rintro (_ | ⟨h1, h2⟩)
      rw [(h _ _).2 h1, show (Except.ok _ >>= _ : Except Err (List δ)) = _ from rfl]
      rw [(mapM_rel h).2 h2]
      rfl

/-- **C73.** `f.hess(params)` without indices returns the lower triangle: line `k` has the results of `f.hess(params, k, 0)`, …, `f.hess(params, k, k)`. -/
theorem C73_hess_triangle {b : Body Obj V T} {c : Cls Obj V T} (h : newClass b = .ok c) {g : Meth (Obj → List (PyVal V) → Int → Int → Except Err T)} (hg : b.hess = some g)
    (o : Obj) {a : PyVal V} {l : List (PyVal V)} (ha : Means a l) (r : Ret T) :
    c.hess.fn o a none none = .ok r ↔
      ∃ rs, r = .rows rs ∧ List.Forall₂ (fun (k : Nat) line =>
        List.Forall₂ (fun (j : Nat) t => c.hess.fn o a (some (k : Int)) (some (j : Int)) = .ok (.one t)) (List.range (k + 1)) line) (List.range l.length) rs := by
  have key := fun (k : Nat) => fun line => mapM_one (f := fun (j : Nat) => g.fn o l (k : Int) (j : Int)) (g := fun (j : Nat) => c.hess.fn o a (some (k : Int)) (some (j : Int)))
    (fun j => ((C73_passed_on h o ha).2.2.1 g hg k j)) (ks := List.range (k + 1)) (l := line)
  have key2 := fun rs => mapM_rel key (ks := List.range l.length) (l := rs)
  obtain ⟨f, -, -, -, h3, -⟩ := newClass_ok h
  have e : c.hess.fn o a none none = ((List.range l.length).mapM fun (k : Nat) => (List.range (k + 1)).mapM fun (j : Nat) => g.fn o l (k : Int) (j : Int)).map .rows := by
    rw [h3, hg]; unfold matrixWrap; dsimp only; rw [ha.pack]
  rw [e]
  constructor
  · intro hr
    cases hm : (List.range l.length).mapM fun (k : Nat) => (List.range (k + 1)).mapM fun (j : Nat) => g.fn o l (k : Int) (j : Int) with
    | error err => rw [hm] at hr; cases hr
    | ok rs =>
      rw [hm] at hr
      cases hr
      exact ⟨rs, rfl, (key2 _).1 hm⟩
  · rintro ⟨rs, rfl, hr⟩
    rw [(key2 _).2 hr]
    rfl

/-- **C73.** `f.hess(params, i)` with one index returns the whole triangle, not line `i`. -/
theorem C73_hess_one_index {b : Body Obj V T} {c : Cls Obj V T} (h : newClass b = .ok c) (o : Obj) (a : PyVal V) (i : Int) :
    c.hess.fn o a (some i) none = c.hess.fn o a none none ∧ c.hess.fn o a none (some i) = c.hess.fn o a none none := by
  obtain ⟨f, -, -, -, h3, -⟩ := newClass_ok h
  rw [h3]
  cases b.hess <;> exact ⟨rfl, rfl⟩

/-! ### `eval` -/

/-- **C73.** A class that does not define `eval` gets one that returns `f(params)`, `f.grad(params)` and `f.hess(params)`. -/
theorem C73_default_eval {b : Body Obj V T} {c : Cls Obj V T} (h : newClass b = .ok c) (hb : b.eval = none) (o : Obj) (a : PyVal V) (v : T) (g q : Ret T) :
    c.eval o a = .ok (v, g, q) ↔ c.call o a = .ok v ∧ c.grad.fn o a none = .ok g ∧ c.hess.fn o a none none = .ok q := by
  have ht : ∀ a : PyVal V, packParams (.tuple (packParams a)) = packParams a := fun a => by cases a <;> rfl
  have e1 : c.call o (.tuple (packParams a)) = c.call o a := by
    obtain ⟨f, -, h1, -⟩ := newClass_ok h
    rw [h1]; unfold callWrap; rw [ht]
  have e2 : c.grad.fn o (.tuple (packParams a)) none = c.grad.fn o a none := by
    obtain ⟨f, -, -, h2, -⟩ := newClass_ok h
    rw [h2]
    cases b.grad with
    | none => rfl
    | some g => unfold vectorWrap; dsimp only; rw [ht]
  have e3 : c.hess.fn o (.tuple (packParams a)) none none = c.hess.fn o a none none := by
    obtain ⟨f, -, -, -, h3, -⟩ := newClass_ok h
    rw [h3]
    cases b.hess with
    | none => rfl
    | some g => unfold matrixWrap; dsimp only; rw [ht]
  obtain ⟨f, -, -, -, -, h4⟩ := newClass_ok h
  have e : c.eval o a = (do
      let v ← c.call o a
      let g ← c.grad.fn o a none
      let h ← c.hess.fn o a none none
      .ok (v, g, h)) := by
    rw [h4, hb]
    unfold evalWrap
    dsimp only
    rw [e1, e2, e3]
  rw [e]
  cases c.call o a with
  | error e => exact ⟨fun h => (by cases h), fun h => (by cases h.1)⟩
  | ok v' =>
    cases c.grad.fn o a none with
    | error e => exact ⟨fun h => (by cases h), fun h => (by cases h.2.1)⟩
    | ok g' =>
      cases c.hess.fn o a none none with
      | error e => exact ⟨fun h => (by cases h), fun h => (by cases h.2.2)⟩
      | ok q' =>
        constructor
        · intro h; cases h; exact ⟨rfl, rfl, rfl⟩
        · rintro ⟨h1, h2, h3⟩; cases h1; cases h2; cases h3; rfl

/-! ### what is not inherited -/

/-- **C73.** A class body without `__call__` is no class: KeyError, whatever its base class defines. -/
theorem C73_no_call {b : Body Obj V T} (h : b.call = none) : newClass b = .error (.other "KeyError") := by
  unfold newClass; rw [h]

/-- **C73.** A class body without `grad` (or `hess`) has none, also if its base class has one: `grad` raises NotImplementedError for all arguments, and so does the default
`eval` once `f(params)` has returned. -/
theorem C73_not_inherited {b : Body Obj V T} {c : Cls Obj V T} (h : newClass b = .ok c) (o : Obj) (a : PyVal V) :
    (b.grad = none → (∀ i, c.grad.fn o a i = .error .notImplemented) ∧ (b.eval = none → ∀ v, c.call o a = .ok v → c.eval o a = .error .notImplemented)) ∧
    (b.hess = none → ∀ i j, c.hess.fn o a i j = .error .notImplemented) := by
  have ht : packParams (.tuple (packParams a)) = packParams a := by cases a <;> rfl
  obtain ⟨f, -, h1, h2, h3, h4⟩ := newClass_ok h
  refine ⟨fun hg => ⟨fun i => by rw [h2, hg], fun he v hv => ?_⟩, fun hh i j => by rw [h3, hh]⟩
  have e1 : c.call o (.tuple (packParams a)) = .ok v := by
    rw [← hv, h1]; unfold callWrap; rw [ht]
  rw [h4, he]
  unfold evalWrap
  dsimp only
  rw [e1, h2, hg]
  rfl

/-! ### null functions -/

/-- **C73.** A method that is `null_func` in the class body is recognised as null after wrapping, and returns `Tensor(0)` for every parameter, as a list or triangle without indices. -/
theorem C73_null_func {b : Body Obj V T} {c : Cls Obj V T} (h : newClass b = .ok c) (zero : T) (hb : b.hess = some (nullHess zero)) (o : Obj) {a : PyVal V}
    {l : List (PyVal V)} (ha : Means a l) :
    c.hess.null = true ∧ (∀ i j, c.hess.fn o a (some i) (some j) = .ok (.one zero)) ∧
      c.hess.fn o a none none = .ok (.rows ((List.range l.length).map fun k => List.replicate (k + 1) zero)) := by
  refine ⟨?_, fun i j => (C73_passed_on h o ha).2.2.1 _ hb i j, (C73_hess_triangle h hb o ha _).2 ⟨_, rfl, ?_⟩⟩
  · obtain ⟨f, -, -, -, h3, -⟩ := newClass_ok h
    rw [h3, hb]; rfl
  · rw [List.forall₂_map_right_iff]
    refine List.forall₂_same.2 fun k _ => ?_
    have e : List.replicate (k + 1) zero = (List.range (k + 1)).map fun _ => zero := by
      apply List.ext_getElem
      · simp
      · intro i h1 h2
        rw [List.getElem_replicate, List.getElem_map]
    rw [e, List.forall₂_map_right_iff]
    exact List.forall₂_same.2 fun j _ => (C73_passed_on h o ha).2.2.1 _ hb k j

/-- **C73.** If the constructor has stored `null_method(self)` as `self.grad`, the method is recognised as null too, but without an index it returns one `Tensor(0)` and not a list. -/
theorem C73_null_method (f : Inst Obj V T) (zero : T) (hf : f.grad = some (nullMethodGrad zero)) :
    f.gradM.null = true ∧ ∀ (a : PyVal V) i, f.gradM.fn a i = .ok (.one zero) := by
  unfold Inst.gradM
  rw [hf]
  exact ⟨rfl, fun _ _ => rfl⟩

/-! ### the functions of the library -/

open Verif.Tens (TFunc Py Tensor Ev3 gradAll hessAll)

variable {α : Type} [Field α] [DecidableEq α]

/-- A parameter as the functions of the model read it. -/
def asTensor : PyVal (Tensor α) → Except Err (Tensor α)
  | .atom t => .ok t
  | _ => .error (.other "a parameter that is no array")

/-- An index as a natural number (the functions of the model are not called with negative ones). -/
def asIndex (i : Int) : Except Err Nat := if 0 ≤ i then .ok i.toNat else .error (.other "negative index")

/-- The body of the class of the function `f` (without `eval`), for a function whose constructor stores no methods. -/
def TBody (f : TFunc α) : Body Unit (Tensor α) (Py α) where
  call := some fun _ ps => do
    let ts ← ps.mapM asTensor
    f.call ts
  grad := some ⟨fun _ ps i => do
    let ts ← ps.mapM asTensor
    let i ← asIndex i
    f.grad ts i, f.gradNull⟩
  hess := some ⟨fun _ ps i j => do
    let ts ← ps.mapM asTensor
    let i ← asIndex i
    let j ← asIndex j
    f.hess ts i j, f.hessNull⟩
  eval := none

theorem mapM_asTensor (ts : List (Tensor α)) : (ts.map PyVal.atom).mapM asTensor = .ok ts := by
  induction ts with
  | nil => rfl
  | cons t ts ih => rw [List.map_cons, List.mapM_cons, ih]; rfl

theorem asIndex_nat (k : Nat) : asIndex (k : Int) = .ok k := by
  unfold asIndex
  rw [if_pos (Int.natCast_nonneg k), Int.toNat_natCast]

/-- **C73.** What the other models mean by a list of parameters (`gradAll`, `hessAll`, and `TFunc.sep` for the default `eval`) is what the wrapped methods do with parameters however
they are passed. -/
theorem C73_library {f : TFunc α} {c : Cls Unit (Tensor α) (Py α)} (h : newClass (TBody f) = .ok c) (ts : List (Tensor α)) {a : PyVal (Tensor α)}
    (ha : Means a (ts.map .atom)) :
    c.call () a = f.call ts ∧ c.grad.fn () a none = (gradAll f.grad ts).map .row ∧ c.hess.fn () a none none = (hessAll f.hess ts).map .rows ∧
      c.eval () a = (f.sep ts).map fun e => (e.val, .row e.grad, .rows e.hess) := by
  have e1 : c.call () a = f.call ts := by
    rw [(C73_passed_on h () ha).1 _ rfl, mapM_asTensor]; rfl
  have e2 : c.grad.fn () a none = (gradAll f.grad ts).map .row := by
    obtain ⟨_, -, -, h2, -, -⟩ := newClass_ok h
    rw [h2]
    unfold TBody vectorWrap gradAll
    dsimp only
    rw [ha.pack, List.length_map]
    congr 2
    funext k
    rw [mapM_asTensor, asIndex_nat]; rfl
  have e3 : c.hess.fn () a none none = (hessAll f.hess ts).map .rows := by
    obtain ⟨_, -, -, -, h3, -⟩ := newClass_ok h
    rw [h3]
    unfold TBody matrixWrap hessAll
    dsimp only
    rw [ha.pack, List.length_map]
    congr 2
    funext k
    congr 1
    funext j
    rw [mapM_asTensor, asIndex_nat, asIndex_nat]; rfl
  refine ⟨e1, e2, e3, ?_⟩
  have ht : Means (.tuple (packParams a)) (ts.map PyVal.atom) := by rw [ha.pack]; exact .tuple _
  obtain ⟨-, i2, i3, -⟩ := C73_same_parameters h () ha ht
  obtain ⟨_, -, -, -, -, h4⟩ := newClass_ok h
  rw [h4]
  unfold TBody evalWrap
  dsimp only
  rw [← (C73_same_parameters h () ha ht).1, ← i2, ← i3, e1, e2, e3]
  unfold TFunc.sep
  cases f.call ts with
  | error e => rfl
  | ok v =>
    cases gradAll f.grad ts with
    | error e => rfl
    | ok g =>
      cases hessAll f.hess ts with
      | error e => rfl
      | ok q => rfl

/-! ### where it fails -/

/-- **C73, false claim.** `Compose(f, g).eval(x)` is not `Compose(f, g).eval([x])` if `f.hess` is null: for a parameter without `len` (a `Param`, a Tensor or a number) it raises
TypeError whatever the rest of the method does, and so does `eval()`; `f(x)`, `f.grad(x)` and `f.hess(x)` accept the same parameter. -/
theorem C73_stored_eval_not_wrapped (f : Inst Obj V T) {size : V → Option Nat} {rest : Nat → PyVal V → Except Err (T × Ret T × Ret T)}
    (hf : f.eval = some (storedEval size rest)) {v : V} (hv : size v = none) :
    f.evalM (.atom v) = .error .typeError ∧ f.evalM .none = .error .typeError ∧ f.evalM (.list [.atom v]) = rest 1 (.list [.atom v]) ∧
      f.evalM (.tuple [.atom v]) = rest 1 (.tuple [.atom v]) := by
  unfold Inst.evalM
  rw [hf]
  refine ⟨?_, rfl, rfl, rfl⟩
  show storedEval size rest (.atom v) = _
  unfold storedEval PyVal.len
  dsimp only
  rw [hv]
  rfl

/-- A class whose `__call__` returns how many parameters it gets. -/
def countBody : Body Unit Int Nat := ⟨some fun _ ps => .ok ps.length, none, none, none⟩

/-- **C73, false claim.** A parameter given as a Python list is not one parameter: `f([1, 2, 3])` is `f` of three parameters, `f(([1, 2, 3],))` of one. -/
theorem C73_list_is_not_one_parameter :
    ∃ c, newClass countBody = .ok c ∧ ∀ l : List (PyVal Int), c.call () (.list l) = .ok l.length ∧ c.call () (.tuple [.list l]) = .ok 1 :=
  ⟨_, rfl, fun _ => ⟨rfl, rfl⟩⟩

/-- `X()`, with numbers as parameters: `grad` is 1 and `hess` is `null_func` (func.py:54-62). -/
def xBody : Body Unit Int Int where
  call := some fun _ ps => match ps with
    | .atom v :: _ => .ok v
    | _ => .error .indexError
  grad := some ⟨fun _ _ _ => .ok 1, false⟩
  hess := some (nullHess 0)
  eval := none

/-- A concrete class that meets the hypotheses of the theorems above, and what they say about it: `X().eval(5)`, `X().eval([5])`, `X().eval((5,))`. -/
theorem C73_example : ∃ c, newClass xBody = .ok c ∧ c.hess.null = true ∧ c.grad.null = false ∧
    ∀ v : Int, c.eval () (.atom v) = .ok (v, .row [1], .rows [[0]]) ∧ c.eval () (.list [.atom v]) = .ok (v, .row [1], .rows [[0]]) ∧
      c.eval () (.tuple [.atom v]) = .ok (v, .row [1], .rows [[0]]) ∧ c.eval () .none = .error .indexError :=
  ⟨_, rfl, rfl, rfl, fun _ => ⟨rfl, rfl, rfl, rfl⟩⟩

end Verif.Protocol
