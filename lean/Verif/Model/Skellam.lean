import Verif.Model.Params
import Mathlib.Analysis.SpecialFunctions.Exp
import Mathlib.Analysis.SpecialFunctions.Pow.Real
import Mathlib.Algebra.BigOperators.Group.Finset.Basic
import Mathlib.Algebra.Order.Floor.Ring
import Mathlib.Data.Nat.Factorial.Basic

/-!
# Model of maxlike/skellam.py

Real arithmetic.  `ndtri` (the normal quantile function, compiled code) is an arbitrary function
parameter.  `while` loops run with a number of allowed iterations `fuel`; `none` means that the loop
has not finished.
-/

namespace Verif.Skellam
open Verif.Params (Err)
open Finset

open scoped Classical in
/-- `while cond(s): s = body(s)`; the body may leave the function early (`return`, `raise`). -/
noncomputable def whileLoop {σ ρ : Type} (cond : σ → Prop) (body : σ → Except ρ σ) :
    Nat → σ → Option (Except ρ σ)
  | 0, _ => none
  | fuel + 1, s =>
    if cond s then
      match body s with
      | .error r => some (.error r)
      | .ok s' => whileLoop cond body fuel s'
    else some (.ok s)

/-! ### Poisson -/

/-- `a**u / factorial(u)` (skellam.py:8) -/
noncomputable def curve (a : ℝ) (u : Nat) : ℝ := a ^ u / (u.factorial : ℝ)

/-- `np.append(-1, curve[:-1] - curve[1:])` (skellam.py:9) -/
noncomputable def dcurve (a : ℝ) (u : Nat) : ℝ :=
  match u with
  | 0 => -1
  | u + 1 => curve a u - curve a (u + 1)

/-- First row of `poisson_vector(a, size)` (skellam.py:7-10). -/
noncomputable def poi (a : ℝ) (u : Nat) : ℝ := Real.exp (-a) * curve a u

/-- Second row of `poisson_vector(a, size)`. -/
noncomputable def dpoi (a : ℝ) (u : Nat) : ℝ := Real.exp (-a) * dcurve a u

/-- `poisson_vector(a, size)` (skellam.py:7-10): both rows, of length `size`.  `np.vectorize` raises
`ValueError` on an empty range. -/
noncomputable def poissonVector (a : ℝ) (size : Int) : Except Err (List ℝ × List ℝ) :=
  if size ≤ 0 then .error .valueError
  else .ok ((List.range size.toNat).map (poi a), (List.range size.toNat).map (dpoi a))

/-- `poisson_cdf(a, n)` (skellam.py:23-25) -/
noncomputable def poissonCdf (a : ℝ) (n : Nat) : ℝ × ℝ :=
  (∑ u ∈ range (n + 1), poi a u, ∑ u ∈ range (n + 1), dpoi a u)

/-- `poisson_mid_cdf(a, n)` (skellam.py:28-31) -/
noncomputable def poissonMidCdf (a : ℝ) (n : Nat) : ℝ × ℝ :=
  (∑ u ∈ range n, poi a u + 0.5 * poi a n, ∑ u ∈ range n, dpoi a u + 0.5 * dpoi a n)

/-! ### Skellam -/

/-- Python's `int(x)`: truncation towards zero. -/
noncomputable def pyInt (x : ℝ) : Int := if 0 ≤ x then ⌊x⌋ else ⌈x⌉

/-- `tol2size(tol, *args)` (skellam.py:34-37), for at least one argument. -/
noncomputable def tol2size (ndtri : ℝ → ℝ) (tol : ℝ) (args : List ℝ) : Int :=
  pyInt (-(ndtri tol) * (args.map fun x => x ^ (0.5 : ℝ)).sum + args.sum) + 1

/-- The three tables of `skellam_frame(a, b, size)` (skellam.py:13-19). -/
noncomputable def skFrame (a b : ℝ) : List (Nat → Nat → ℝ) :=
  [fun i j => poi a i * poi b j, fun i j => dpoi a i * poi b j, fun i j => poi a i * dpoi b j]

open scoped Classical in
/-- `v[mask].sum()` for a `rows × cols` table, where `mask` is a condition on
`xy = rng[None, :] - rng[:, None]`, i.e. on column minus row. -/
noncomputable def maskSum (rows cols : Nat) (v : Nat → Nat → ℝ) (P : Int → Prop) : ℝ :=
  ∑ i ∈ range rows, ∑ j ∈ range cols, if P ((j : Int) - (i : Int)) then v i j else 0

/-- `skellam_cdf` (skellam.py:40-46) with `size` the value of `tol2size`. -/
noncomputable def skellamCdfSize (a b : ℝ) (n : Int) (inverse : Bool) (size : Nat) : List ℝ :=
  (skFrame a b).map fun v => maskSum size size v fun d => if inverse then n ≤ d else d ≤ n

/-- `skellam_cdf(a, b, n, tol, inverse)` (skellam.py:40-46) -/
noncomputable def skellamCdf (ndtri : ℝ → ℝ) (a b : ℝ) (n : Int) (tol : ℝ) (inverse : Bool) :
    Except Err (List ℝ) :=
  let size := tol2size ndtri tol [a, b]
  if size ≤ 0 then .error .valueError else .ok (skellamCdfSize a b n inverse size.toNat)

/-- `skellam_cdf_pair` (skellam.py:49-56) with `size` the value of `tol2size`: the row of the weights
below `n` (value and derivatives) and the row above. -/
noncomputable def skellamPairSize (a b : ℝ) (n : Int) (size : Nat) : List (List ℝ) :=
  [(skFrame a b).map fun v => maskSum size size v fun d => d < n,
   (skFrame a b).map fun v => maskSum size size v fun d => n < d]

/-- `skellam_cdf_pair(a, b, n, tol)` (skellam.py:49-56) -/
noncomputable def skellamPair (ndtri : ℝ → ℝ) (a b : ℝ) (n : Int) (tol : ℝ) :
    Except Err (List (List ℝ)) :=
  let size := tol2size ndtri tol [a, b]
  if size ≤ 0 then .error .valueError else .ok (skellamPairSize a b n size.toNat)

/-! ### poisson_cdf_root -/

/-- What a call can return: a number, or an exception class (as a value). -/
inductive PyVal where
  | num (a : ℝ)
  | cls (e : Err)

open scoped Classical in
/-- The `for i in range(10)` loop of `poisson_cdf_root` (skellam.py:90-98): the value of `a` after
it. -/
noncomputable def pTry (cdf : ℝ → ℝ) (target a step absE : ℝ) : Nat → ℝ → ℝ → ℝ → ℝ
  | 0, _, _, _ => a
  | k + 1, newA, newE, scale =>
    if 0 < newA ∧ newE < absE then newA
    else
      let newA := a + scale * step
      pTry cdf target a step absE k newA |target - cdf newA| (scale * 0.5)

/-- Variables of the `while` loop: `a`, `e`, `count`. -/
structure PState where
  a : ℝ
  e : ℝ
  count : Nat

/-- The body of the `while` loop (skellam.py:82-101). -/
noncomputable def pBody (target : ℝ) (n : Nat) (s : PState) : Except PyVal PState :=
  let f := (poissonCdf s.a n).1
  let df := (poissonCdf s.a n).2
  let e := target - f
  let step := e / df
  let a := pTry (fun x => (poissonCdf x n).1) target s.a step |e| 10 (s.a + 1 * step) |target - f| 1
  let count := s.count + 1
  if count > 50 then .error (.cls .convergence) else .ok ⟨a, e, count⟩

open scoped Classical in
/-- `poisson_cdf_root(target, n, tol)` (skellam.py:60-102).  The result of the whole function is
always a returned value: it contains no `raise`. -/
noncomputable def poissonCdfRoot (ndtri : ℝ → ℝ) (target : ℝ) (n : Nat) (tol : ℝ) (fuel : Nat) :
    Option PyVal :=
  if target ≥ 1 ∨ target ≤ 0 then some (.cls .valueError)
  else
    let phi := ndtri target
    let a := max (((phi * phi + 4 * n + 2) ^ (0.5 : ℝ) - phi) ^ 2 / 4) 1e-3
    match whileLoop (fun s => |s.e| > |tol|) (pBody target n) fuel ⟨a, 1, 0⟩ with
    | none => none
    | some (.error v) => some v
    | some (.ok s) => some (.num s.a)

/-! ### skellam_cdf_root -/

/-- `np.linalg.norm` of a pair. -/
noncomputable def norm2 (x y : ℝ) : ℝ := Real.sqrt (x ^ 2 + y ^ 2)

/-- `s = skellam_cdf_pair(a, b, n, tol)[:, 0]` for the pair `ab`. -/
noncomputable def pairValue (ndtri : ℝ → ℝ) (n : Int) (tol : ℝ) (ab : ℝ × ℝ) : Except Err (ℝ × ℝ) :=
  match skellamPair ndtri ab.1 ab.2 n tol with
  | .error e => .error e
  | .ok r => .ok ((r.getD 0 []).getD 0 0, (r.getD 1 []).getD 0 0)

open scoped Classical in
/-- The `for i in range(10)` loop of `skellam_cdf_root` (skellam.py:148-156). -/
noncomputable def sTry (pv : ℝ × ℝ → Except Err (ℝ × ℝ)) (t1 t2 : ℝ) (ab step : ℝ × ℝ) (e : ℝ) :
    Nat → ℝ × ℝ → ℝ → ℝ → Except Err (ℝ × ℝ)
  | 0, _, _, _ => .ok ab
  | k + 1, newAb, newE, scale =>
    if newE < e then .ok newAb
    else do
      let scale := scale * 0.5
      let newAb := (max (ab.1 + scale * step.1) 1e-6, max (ab.2 + scale * step.2) 1e-6)
      let newS ← pv newAb
      sTry pv t1 t2 ab step e k newAb (norm2 (newS.1 - t1) (newS.2 - t2)) scale

/-- Variables of the `while` loop: `a, b`, `e`, `count`. -/
structure SState where
  ab : ℝ × ℝ
  e : ℝ
  count : Nat

open scoped Classical in
/-- `np.linalg.solve` of a 2×2 system `[[m11, m12], [m21, m22]] x = (r1, r2)`. -/
noncomputable def solve2 (m11 m12 m21 m22 r1 r2 : ℝ) : Except Err (ℝ × ℝ) :=
  if m11 * m22 - m12 * m21 = 0 then .error .linAlg
  else .ok ((r1 * m22 - m12 * r2) / (m11 * m22 - m12 * m21),
    (m11 * r2 - m21 * r1) / (m11 * m22 - m12 * m21))

/-- The body of the `while` loop (skellam.py:139-159). -/
noncomputable def sBody (ndtri : ℝ → ℝ) (t1 t2 : ℝ) (n : Int) (tol : ℝ) (s : SState) :
    Except Err SState := do
  let r ← skellamPair ndtri s.ab.1 s.ab.2 n tol
  let v1 := (r.getD 0 []).getD 0 0
  let v2 := (r.getD 1 []).getD 0 0
  let e := norm2 (t1 - v1) (t2 - v2)
  let step ← solve2 ((r.getD 0 []).getD 1 0) ((r.getD 0 []).getD 2 0)
    ((r.getD 1 []).getD 1 0) ((r.getD 1 []).getD 2 0) (t1 - v1) (t2 - v2)
  let newAb := (max (s.ab.1 + 1 * step.1) 1e-6, max (s.ab.2 + 1 * step.2) 1e-6)
  let newE := norm2 (v1 - t1) (v2 - t2)
  let ab ← sTry (pairValue ndtri n tol) t1 t2 s.ab step e 10 newAb newE 1
  if s.count + 1 > 50 then .error .convergence else .ok ⟨ab, e, s.count + 1⟩

open scoped Classical in
/-- `skellam_cdf_root(target1, target2, n, tol)` (skellam.py:105-160) -/
noncomputable def skellamCdfRoot (ndtri : ℝ → ℝ) (t1 t2 : ℝ) (n : Int) (tol : ℝ) (fuel : Nat) :
    Option (Except Err (ℝ × ℝ)) :=
  if t1 + t2 ≥ 1 ∨ min t1 t2 ≤ 0 then some (.error .valueError)
  else
    let phiD := ndtri t1
    let phiU := ndtri (1 - t2)
    let sum := 1 / (phiU - phiD) ^ 2
    let diff := 0.5 * (phiU + phiD) / (phiU - phiD) - n
    let a := max ((sum + diff) * 0.5) 1e-6
    let b := max ((sum - diff) * 0.5) 1e-6
    match whileLoop (fun s => s.e > |tol|) (sBody ndtri t1 t2 n tol) fuel ⟨(a, b), 1, 0⟩ with
    | none => none
    | some (.error e) => some (.error e)
    | some (.ok s) => some (.ok s.ab)

/-! ### conditional_skellam_cdf_root -/

/-- `frame[xy < 0].sum() + 0.5 * frame[xy == 0].sum()` (skellam.py:187-188, 204) for a table of
`rows` rows (first variable) and `cols` columns. -/
noncomputable def condSum (rows cols : Nat) (v : Nat → Nat → ℝ) : ℝ :=
  maskSum rows cols v (fun d => d < 0) + 0.5 * maskSum rows cols v (fun d => d = 0)

/-- The value `s` for parameters `a`, `b` and the table sizes in use. -/
noncomputable def condValue (rows cols : Nat) (a b : ℝ) : ℝ :=
  condSum rows cols fun i j => poi a i * poi b j

/-- Its derivative `ds` as computed. -/
noncomputable def condDeriv (rows cols : Nat) (a b : ℝ) : ℝ :=
  condSum rows cols fun i j => dpoi a i * poi b j

open scoped Classical in
/-- The `for i in range(10)` loop (skellam.py:195-205). -/
noncomputable def cTry (val : ℝ → ℝ) (target a step e : ℝ) : Nat → ℝ → ℝ → ℝ → ℝ
  | 0, _, _, _ => a
  | k + 1, newA, newE, scale =>
    if newE < e then newA
    else
      let scale := scale * 0.5
      let newA := max (a + scale * step) 1e-6
      cTry val target a step e k newA |target - val newA| scale

/-- Variables of the `while` loop: `a`, `e`, `count`. -/
structure CState where
  a : ℝ
  e : ℝ
  count : Nat

/-- The body of the `while` loop (skellam.py:180-207); `count` is never incremented. -/
noncomputable def cBody (ndtri : ℝ → ℝ) (b target tol : ℝ) (cols : Nat) (s : CState) :
    Except Err CState :=
  let size := tol2size ndtri tol [s.a, b]
  if size ≤ 0 then .error .valueError
  else
    let v := condValue size.toNat cols s.a b
    let ds := condDeriv size.toNat cols s.a b
    let e := |target - v|
    let step := (target - v) / ds
    let newA := max (s.a + 1 * step) 1e-6
    let a := cTry (fun x => condValue size.toNat cols x b) target s.a step e 10 newA |target - v| 1
    if s.count > 50 then .error .convergence else .ok ⟨a, e, s.count⟩

open scoped Classical in
/-- `conditional_skellam_cdf_root(b, target, tol)` (skellam.py:163-208) -/
noncomputable def conditionalRoot (ndtri : ℝ → ℝ) (b target tol : ℝ) (fuel : Nat) :
    Option (Except Err ℝ) :=
  if target ≤ 0 ∨ target ≥ 1 then some (.error .valueError)
  else
    let size := tol2size ndtri (0.5 * tol) [b]
    if size ≤ 0 then some (.error .valueError)
    else
      match whileLoop (fun s => s.e > |tol|) (cBody ndtri b target tol size.toNat) fuel ⟨b, 1, 0⟩ with
      | none => none
      | some (.error e) => some (.error e)
      | some (.ok s) => some (.ok s.a)

end Verif.Skellam
