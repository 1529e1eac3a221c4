import Verif.Model.FlatTensor
import Verif.Spec.FitTensor
import Verif.Spec.Flat
import Verif.Lemmas.CNumbering

/-!
# Specification: the flat gradient and Hessian of a fit
-/

namespace Verif.Tens
open Verif.Params

/-- The `Param`s of the fit have the entries of `θ` (in C order) and the shapes of the problem. -/
structure AtPoint (pr : Problem) (m : Nat) (θ : Theta) (params : List (Param ℝ)) : Prop where
  len : params.length = m
  each : ∀ p < m, ∃ q, params[p]? = some q ∧ q.shape = pr.sizes p ∧ q.mask.length = q.shape.prod ∧ q.values.length = q.shape.prod ∧
    ∀ a < q.shape.prod, q.values.getD a 0 = θ p a

/-- `args` are the parameters `pm` of `θ`. -/
def Numbering.IsArgs {pr : Problem} {m : Nat} (N : Numbering pr m) (θ : Theta) (pm : List Nat) (args : List (Tensor ℝ)) : Prop :=
  args.length = pm.length ∧ ∀ k < pm.length, ∃ v : NDArray ℝ, args[k]? = some ⟨v, 0, 0, 0, [], []⟩ ∧ v.ndim = pr.nd (pm.getD k 0) ∧
    (∀ j < v.ndim, v.shape j = pr.P (pm.getD k 0) j) ∧ ∀ a, pr.Entry (pm.getD k 0) (N.e (pm.getD k 0) a) → v.get (N.e (pm.getD k 0) a) = θ (pm.getD k 0) a

/-- What a function returned represents the number `c`: a number of Python or an array without axes. -/
def Py.IsVal (v : Py ℝ) (c : ℝ) : Prop := v = .num c ∨ ∃ w, v = .arr w ∧ IsNumber w c

/-- The constraint `val θ = 0`: the function returns the number `val θ` (or an array without axes), Tensors of first derivatives whose sum over the value axes can be
broadcast to the shape of the parameter (`der θ p a` is the derivative with respect to entry `a` of parameter `p`), and Tensors of second
derivatives. -/
structure IsConstraint {pr : Problem} {m : Nat} (N : Numbering pr m) (t : TTerm ℝ) (val : Theta → ℝ) (der : Theta → Nat → Nat → ℝ) : Prop where
  ne : t.paramMap ≠ []
  lt : ∀ p ∈ t.paramMap, p < m
  inc : t.paramMap.Pairwise (· < ·)
  call : ∀ θ args, N.IsArgs θ t.paramMap args → ∃ v, t.f.call args = .ok v ∧ v.IsVal (val θ)
  grad : ∀ θ args, N.IsArgs θ t.paramMap args → ∃ T : Nat → Tensor ℝ, t.f.grads args = .ok (row t.paramMap.length fun k => .arr (.tensor (T k))) ∧
    ∀ k < t.paramMap.length, ∃ r : Tensor ℝ, (Num.tensor (T k)).sumAll = .ok (.tensor r) ∧ r.values.ndim = pr.nd (t.paramMap.getD k 0) ∧
      (∀ j < r.values.ndim, r.values.shape j = pr.P (t.paramMap.getD k 0) j ∨ r.values.shape j = 1) ∧
      ∀ a, pr.Entry (t.paramMap.getD k 0) (N.e (t.paramMap.getD k 0) a) →
        r.values.bget (N.e (t.paramMap.getD k 0) a) = der θ (t.paramMap.getD k 0) a
  hess : ∀ θ args, N.IsArgs θ t.paramMap args → ∃ U : Nat → Nat → Tensor ℝ, t.f.hesses args = .ok (triangle t.paramMap.length fun k l => .arr (.tensor (U k l)))
  zero : ∀ θ p a, p ∉ t.paramMap → der θ p a = 0
  partials : ∀ θ, ∀ p < m, ∀ a, pr.Entry p (N.e p a) → HasPartial val θ p a (der θ p a)

/-- The penalty `val θ`: the function returns this number, and its first derivatives `der` and second derivatives `hes` with respect to the
parameters that it is applied to. -/
structure IsPenalty {pr : Problem} {m : Nat} (N : Numbering pr m) (t : TTerm ℝ) (val : Theta → ℝ) (der : Theta → Nat → Nat → ℝ)
    (hes : Theta → Nat → Nat → Nat → Nat → ℝ) : Prop where
  lt : ∀ p ∈ t.paramMap, p < m
  inc : t.paramMap.Pairwise (· < ·)
  call : ∀ θ args, N.IsArgs θ t.paramMap args → ∃ v, t.f.call args = .ok v ∧ v.IsVal (val θ)
  grad : ∀ θ args, N.IsArgs θ t.paramMap args → ∃ G : Nat → Num ℝ, t.f.grads args = .ok (row t.paramMap.length fun k => .arr (G k)) ∧
    ∀ k < t.paramMap.length, pr.IsGrad N.e (t.paramMap.getD k 0) (G k) (der θ (t.paramMap.getD k 0))
  hess : ∀ θ args, N.IsArgs θ t.paramMap args → ∃ H : Nat → Nat → Num ℝ, t.f.hesses args = .ok (triangle t.paramMap.length fun k l => .arr (H k l)) ∧
    ∀ k < t.paramMap.length, ∀ l ≤ k, pr.IsBlock N.e (t.paramMap.getD k 0) (t.paramMap.getD l 0) (H k l)
      (hes θ (t.paramMap.getD k 0) (t.paramMap.getD l 0))
  zero : ∀ θ p a, p ∉ t.paramMap → der θ p a = 0
  zero2 : ∀ θ p q a b, p ∉ t.paramMap ∨ q ∉ t.paramMap → hes θ p q a b = 0
  partials : ∀ θ, ∀ p < m, ∀ a, pr.Entry p (N.e p a) → HasPartial val θ p a (der θ p a)
  partials2 : ∀ θ, ∀ p < m, ∀ q ≤ p, ∀ a b, pr.Entry p (N.e p a) → pr.Entry q (N.e q b) →
    HasPartial (fun θ => der θ p a) θ q b (hes θ p q a b)

/-- A constraint: its value and its first derivatives. -/
structure Con where
  val : Theta → ℝ
  der : Theta → Nat → Nat → ℝ

/-- A penalty: its value and its first and second derivatives. -/
structure Pen where
  val : Theta → ℝ
  der : Theta → Nat → Nat → ℝ
  hes : Theta → Nat → Nat → Nat → Nat → ℝ

/-- The penalised log-likelihood. -/
def penalised (L : Theta → ℝ) (φs : List Pen) (θ : Theta) : ℝ := L θ - (φs.map fun φ => φ.val θ).sum

/-- The weighted sum of the entries of the parameters `pm`, one weight per parameter. -/
noncomputable def linCon (pr : Problem) (pm : List Nat) (w : List ℝ) : Con where
  val θ := ∑ k ∈ Finset.range pm.length, ∑ a ∈ Finset.range (pr.sizes (pm.getD k 0)).prod, θ (pm.getD k 0) a * w.getD k 0
  der _ p _ := if p ∈ pm then w.getD (pm.idxOf p) 0 else 0

/-- The sum of `((x - u) / s) ^ 2` over the entries of the parameters `pm`. -/
noncomputable def quadPen (pr : Problem) (pm : List Nat) (u s : ℝ) : Pen where
  val θ := ∑ k ∈ Finset.range pm.length, ∑ a ∈ Finset.range (pr.sizes (pm.getD k 0)).prod, ((θ (pm.getD k 0) a - u) / s) ^ 2
  der θ p a := if p ∈ pm then 2 * (θ p a - u) / s ^ 2 else 0
  hes _ p q a b := if p ∈ pm ∧ p = q ∧ a = b then 2 / s ^ 2 else 0

/-- `v` lists `D` for the free entries of the parameters, in order, and then `res`. -/
structure FlatGradIs (params : List (Param ℝ)) (D : Nat → Nat → ℝ) (res : List ℝ) (v : List ℝ) : Prop where
  length : v.length = totalFree params + res.length
  free : ∀ i a : Nat, isFree params i a → v[freeRank params i a]? = some (D i a)
  rest : ∀ k : Nat, v[totalFree params + k]? = res[k]?

/-- `M` is the symmetric matrix of `H` for the free entries of the parameters, bordered by the rows and columns `ders` for the same entries; the corner is 0. -/
structure FlatHessIs (params : List (Param ℝ)) (H : Nat → Nat → Nat → Nat → ℝ) (ders : List (Nat → Nat → ℝ)) (M : List (List ℝ)) : Prop where
  rows : M.length = totalFree params + ders.length
  cols : ∀ line ∈ M, line.length = totalFree params + ders.length
  lower : ∀ i j a b : Nat, j < i → isFree params i a → isFree params j b →
    Flat.mat M (freeRank params i a) (freeRank params j b) = some (H i j a b)
  upper : ∀ i j a b : Nat, j ≤ i → isFree params i a → isFree params j b →
    Flat.mat M (freeRank params j b) (freeRank params i a) = some (H i j a b)
  right : ∀ i a k : Nat, isFree params i a → Flat.mat M (freeRank params i a) (totalFree params + k) = ders[k]?.map fun d => d i a
  below : ∀ i a k : Nat, isFree params i a → Flat.mat M (totalFree params + k) (freeRank params i a) = ders[k]?.map fun d => d i a
  corner : ∀ k l : Nat, k < ders.length → l < ders.length → Flat.mat M (totalFree params + k) (totalFree params + l) = some 0

end Verif.Tens
