import Verif.Spec.FuncTensor

/-!
# Specification: how products are stored
-/

namespace Verif.Tens

/-- Nothing in a product of `r` functions of `m` parameters is multiplied with `Tensor(0)`: the values and derivatives of the factors are not
`Tensor(0)`, their GenericTensors have no element `Tensor(0)`, and the derivatives of the first factor are Tensors (`eval` multiplies them with the `Tensor(0)`
it starts from). -/
def Store.firm (r m : Nat) (s : Nat → Store) : Prop :=
  (∀ i < r, (s i).tot ∧ (s i).clean ∧ ∀ p < m, (s i).used p) ∧ ∀ p < m, (s 0).single p

/-- How the results of a product of `r` functions of `m` parameters are stored. -/
def Store.prod (r m : Nat) (s : Nat → Store) : Store where
  tot := ∀ i < r, (s i).tot
  full k := ∃ i < r, (s i).full k
  mapped := ∀ i < r, (s i).mapped
  used p := ∃ i < r, (s i).used p ∧ ∀ j < r, j ≠ i → (s j).tot
  clean := Store.firm r m s
  single p := ∃ i < r, (s i).single p ∧ ∀ j < r, j ≠ i → (s j).dead p
  dead p := ∀ i < r, (s i).dead p
  curved p q := ∀ i < r, (s i).curved p q ∧ (s i).used q

end Verif.Tens
