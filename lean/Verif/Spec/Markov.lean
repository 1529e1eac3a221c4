import Mathlib.Algebra.BigOperators.Group.Finset.Basic
import Mathlib.Algebra.Field.Basic

/-!
# The random walks the Markov functions are documented to compute

Nothing here refers to the loops of the program.
-/

namespace Verif.MarkovSpec
open Finset

variable {K : Type} [Field K]

/-- Two counters below `size`; in one step the first advances with probability `s1 * skew[x, y]`, the
second with probability `s2 * skew[y, x]`, otherwise nothing changes.  A counter at `size - 1` stays
there.  This is the probability of going from `(x, y)` to `(a, b)`. -/
def walk2P (size : Nat) (skew : Nat → Nat → K) (s1 s2 : K) (x y a b : Nat) : K :=
  (if a = min (x + 1) (size - 1) ∧ b = y then s1 * skew x y else 0) +
  (if a = x ∧ b = min (y + 1) (size - 1) then s2 * skew y x else 0) +
  (if a = x ∧ b = y then 1 - (s1 * skew x y + s2 * skew y x) else 0)

/-- The distribution after one step. -/
def walk2Step (size : Nat) (skew : Nat → Nat → K) (s1 s2 : K) (M : Nat → Nat → K) : Nat → Nat → K :=
  fun a b => ∑ x ∈ range size, ∑ y ∈ range size, M x y * walk2P size skew s1 s2 x y a b

/-- The distribution after `n` steps from `(0, 0)`. -/
def walk2Dist (size : Nat) (skew : Nat → Nat → K) (s1 s2 : K) : Nat → Nat → Nat → K
  | 0 => fun a b => if a = 0 ∧ b = 0 then 1 else 0
  | n + 1 => walk2Step size skew s1 s2 (walk2Dist size skew s1 s2 n)

/-- A difference in `0 .. 2*size-2`; up with probability `s1 * skew[x]`, down with probability
`s2 * skew[2*size-2-x]`; it stays when it would leave the range. -/
def walk1P (size : Nat) (skew : Nat → K) (s1 s2 : K) (x a : Nat) : K :=
  (if a = min (x + 1) (2 * size - 2) then s1 * skew x else 0) +
  (if a = x - 1 then s2 * skew (2 * size - 2 - x) else 0) +
  (if a = x then 1 - (s1 * skew x + s2 * skew (2 * size - 2 - x)) else 0)

/-- The distribution after one step. -/
def walk1Step (size : Nat) (skew : Nat → K) (s1 s2 : K) (M : Nat → K) : Nat → K :=
  fun a => ∑ x ∈ range (2 * size - 1), M x * walk1P size skew s1 s2 x a

/-- The distribution after `n` steps from the middle. -/
def walk1Dist (size : Nat) (skew : Nat → K) (s1 s2 : K) : Nat → Nat → K
  | 0 => fun a => if a = size - 1 then 1 else 0
  | n + 1 => walk1Step size skew s1 s2 (walk1Dist size skew s1 s2 n)

end Verif.MarkovSpec
