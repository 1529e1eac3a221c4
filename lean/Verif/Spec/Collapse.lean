import Verif.Spec.Acts

/-!
# Specification: the outcome of a match, given the numbers of goals of both sides
-/

namespace Verif.Tens

/-- The outcome of a match that ends `i : j`: 0 (the first side wins), 1 (draw) or 2. -/
def matchResult (i j : Nat) : Nat := if j < i then 0 else if i = j then 1 else 2

/-- The position `(i, j)` in two axes. -/
def pairAt (i j : Nat) : Nat → Nat := fun k => if k = 0 then i else if k = 1 then j else 0

/-- The problem `pr` has two outcomes (the numbers of goals) and features whose sizes do not change if they are moved by two places (any one or two features, or
features of equal size); `pr'` has the same features and one outcome with three
values, and the same parameters. -/
structure Collapsed {pr : Problem} {m : Nat} (N : Numbering pr m) {pr' : Problem} (N' : Numbering pr' m) : Prop where
  n : pr'.n = pr.n
  rot : ∀ k < pr.n, pr.S ((k + 2) % pr.n) = pr.S k
  d : pr.d = 2
  d' : pr'.d = 1
  S : ∀ k < pr.n, pr'.S k = pr.S k
  T : pr'.S pr.n = 3
  nd : ∀ p < m, pr'.nd p = pr.nd p
  P : ∀ p < m, ∀ k < pr.nd p, pr'.P p k = pr.P p k
  e : ∀ p < m, ∀ a, N'.e p a = N.e p a

/-- The sum of `val` over all numbers of goals (below `h` and `w`) with the outcome `d 0`: the probability of the outcome. -/
noncomputable def collapseVal (h w : Nat) (val : Val) : Val := fun θ n d =>
  ∑ i ∈ Finset.range h, ∑ j ∈ Finset.range w, if matchResult i j = d 0 then val θ n (pairAt i j) else 0

end Verif.Tens
