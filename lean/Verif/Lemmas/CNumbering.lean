import Verif.Model.COrder
import Verif.Spec.FuncTensor
import Verif.Lemmas.FuncTensor

/-!
# The entries of the parameters in C order

For every problem there is a numbering of the entries: the order of `ndarray.flatten`.
-/

namespace Verif.Tens

/-- A position in an array with the sizes `l`. -/
def InList (l : List Nat) (x : Nat → Nat) : Prop := (∀ k < l.length, x k < l.getD k 0) ∧ ∀ k ≥ l.length, x k = 0

theorem InList.tail {s : Nat} {l : List Nat} {x : Nat → Nat} (h : InList (s :: l) x) : InList l fun k => x (k + 1) :=
  ⟨fun k hk => h.1 (k + 1) (by simpa using hk), fun k hk => h.2 (k + 1) (by simpa using hk)⟩

theorem ravel_lt : ∀ {l : List Nat} {x : Nat → Nat}, InList l x → ravel l x < l.prod
  | [], _, _ => by simp [ravel]
  | s :: l, x, h => by
    have h1 := ravel_lt h.tail
    have h2 : x 0 < s := h.1 0 (by simp)
    show x 0 * l.prod + _ < _
    rw [List.prod_cons]
    calc x 0 * l.prod + ravel l (fun k => x (k + 1)) < x 0 * l.prod + l.prod := by omega
      _ = (x 0 + 1) * l.prod := by ring
      _ ≤ s * l.prod := Nat.mul_le_mul_right _ h2

theorem unravel_ravel : ∀ {l : List Nat} {x : Nat → Nat}, InList l x → unravel l (ravel l x) = x
  | [], x, h => by
    funext k
    rw [h.2 k (by simp)]
    simp [unravel, ravel]
  | s :: l, x, h => by
    have h1 := ravel_lt h.tail
    have h0 : 0 < l.prod := by omega
    funext k
    cases k with
    | zero =>
      show (x 0 * l.prod + ravel l fun k => x (k + 1)) / l.prod = x 0
      rw [mul_comm, Nat.mul_add_div h0, Nat.div_eq_of_lt h1, add_zero]
    | succ k =>
      show unravel l ((x 0 * l.prod + ravel l fun k => x (k + 1)) % l.prod) k = x (k + 1)
      rw [mul_comm, Nat.mul_add_mod, Nat.mod_eq_of_lt h1, unravel_ravel h.tail]

theorem ravel_unravel : ∀ {l : List Nat} {a : Nat}, InList l (unravel l a) → ravel l (unravel l a) = a
  | [], a, h => by
    have := h.2 0 (by simp)
    unfold unravel at this
    split_ifs at this with h0
    rw [h0]; rfl
  | s :: l, a, h => by
    have h1 : InList l (unravel l (a % l.prod)) := h.tail
    show a / l.prod * l.prod + ravel l (unravel l (a % l.prod)) = a
    rw [ravel_unravel h1, mul_comm]
    exact Nat.div_add_mod a l.prod

/-- The sizes of a parameter. -/
def Problem.sizes (pr : Problem) (p : Nat) : List Nat := (List.range (pr.nd p)).map (pr.P p)

theorem entry_inList {pr : Problem} {p : Nat} {x : Nat → Nat} : pr.Entry p x ↔ InList (pr.sizes p) x := by
  unfold Problem.Entry InList Problem.sizes
  simp only [List.length_map, List.length_range]
  refine and_congr (forall_congr' fun k => forall_congr' fun hk => ?_) Iff.rfl
  rw [List.getD_eq_getElem _ _ (by simpa using hk)]
  simp

/-- Every problem has a numbering of the entries of its parameters. -/
def cOrder (pr : Problem) (m : Nat) : Numbering pr m where
  e p a := unravel (pr.sizes p) a
  num p x := ravel (pr.sizes p) x
  e_num _ _ _ h := unravel_ravel (entry_inList.1 h)
  num_e _ _ _ h := ravel_unravel (entry_inList.1 h)

end Verif.Tens
