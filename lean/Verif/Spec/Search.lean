import Mathlib.Order.Defs.LinearOrder

/-! # What "nearest", "farthest" and "closest pair" mean -/

namespace H2d.Spec

variable {P D : Type} [LinearOrder D]

/-- `i` is the first index of an element of `cont` that is different from `q` (according to `same`)
and whose distance to `q` is minimal among all the elements that are different from `q`. -/
structure IsNearestOther (d : P → P → D) (same : P → P → Bool) (q : P) (cont : List P) (i : Nat) : Prop where
  other   : ∃ x, cont[i]? = some x ∧ same q x = false
  minimal : ∀ x (j : Nat) y, cont[i]? = some x → cont[j]? = some y → same q y = false → d q x ≤ d q y
  first   : ∀ x (j : Nat) y, cont[i]? = some x → cont[j]? = some y → same q y = false → j < i → d q x < d q y

/-- Same, for the maximal distance. -/
structure IsFarthestOther (d : P → P → D) (same : P → P → Bool) (q : P) (cont : List P) (i : Nat) : Prop where
  other   : ∃ x, cont[i]? = some x ∧ same q x = false
  maximal : ∀ x (j : Nat) y, cont[i]? = some x → cont[j]? = some y → same q y = false → d q y ≤ d q x
  first   : ∀ x (j : Nat) y, cont[i]? = some x → cont[j]? = some y → same q y = false → j < i → d q y < d q x

/-- `(i,j)` designates a pair of points of `a` and `b` at minimal distance, and `m` is that distance. -/
structure IsClosestPair (d : P → P → D) (a b : List P) (i j : Nat) (m : D) : Prop where
  designates : ∃ x y, a[i]? = some x ∧ b[j]? = some y ∧ m = d x y
  minimal    : ∀ x ∈ a, ∀ y ∈ b, m ≤ d x y

end H2d.Spec
