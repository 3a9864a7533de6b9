import Verif.Spec.Segment

/-! # Vocabulary for simple polygons -/

namespace H2d.Spec

variable {P : Type}

/-- `e` is edge number `i` of the closed polyline: it joins point `i` to the next one, the last point being joined to the first one. -/
def Edge (pts : List P) (i : ℕ) (e : P × P) : Prop := pts[i]? = some e.1 ∧ pts[(i + 1) % pts.length]? = some e.2

/-- Edges `i` and `j` of a cycle of `n` edges are different and have no vertex in common. -/
def NotNeighbours (n i j : ℕ) : Prop := i ≠ j ∧ (i + 1) % n ≠ j ∧ (j + 1) % n ≠ i

/-- No two edges without common vertex have a common point. -/
def NoEdgesMeet (pts : List (ℝ × ℝ)) : Prop :=
  ∀ i j e e', Edge pts i e → Edge pts j e' → NotNeighbours pts.length i j → ∀ q, OnSeg e.1 e.2 q → ¬ OnSeg e'.1 e'.2 q

/-- All points of two edges without common vertex are at a distance of at least `D`. -/
def EdgesApart (D : ℝ) (pts : List (ℝ × ℝ)) : Prop :=
  ∀ i j e e', Edge pts i e → Edge pts j e' → NotNeighbours pts.length i j → ∀ q q', OnSeg e.1 e.2 q → OnSeg e'.1 e'.2 q' → D ≤ eucl q q'

end H2d.Spec
