import Verif.Model.RectArea

/-!
# Vocabulary for the intersection and the union of two rectangles
-/

namespace H2d.Spec

/-- Two coordinates are the same or at least `n` apart. -/
def Apart (n x y : ℝ) : Prop := x = y ∨ n ≤ |x - y|

/-- The sides of both rectangles have at least length `n`, and the coordinates of one rectangle are equal to those of the other or at least `n` away. -/
structure ApartRects (n : ℝ) (a b : FRect ℝ) : Prop where
  wa : a.p1.1 + n ≤ a.p2.1
  ha : a.p1.2 + n ≤ a.p2.2
  wb : b.p1.1 + n ≤ b.p2.1
  hb : b.p1.2 + n ≤ b.p2.2
  x11 : Apart n a.p1.1 b.p1.1
  x12 : Apart n a.p1.1 b.p2.1
  x21 : Apart n a.p2.1 b.p1.1
  x22 : Apart n a.p2.1 b.p2.1
  y11 : Apart n a.p1.2 b.p1.2
  y12 : Apart n a.p1.2 b.p2.2
  y21 : Apart n a.p2.2 b.p1.2
  y22 : Apart n a.p2.2 b.p2.2

/-- The conditions on the thresholds (the default values meet them). -/
structure RectThr (t : Thr ℝ) : Prop where
  dist : dblEps < t.nullDistance
  orth : t.nullOrthogDistance < t.nullDistance
  denom : t.nullDenom ≤ 1
  ang0 : 0 < t.nullAngleValue
  ang1 : t.nullAngleValue ≤ 1

/-- The point is strictly inside the rectangle. -/
def StrictlyIn (p : Pt ℝ) (r : FRect ℝ) : Prop := r.p1.1 < p.1 ∧ p.1 < r.p2.1 ∧ r.p1.2 < p.2 ∧ p.2 < r.p2.2

/-- The point is in the rectangle, edges included. -/
def InClosed (p : Pt ℝ) (r : FRect ℝ) : Prop := r.p1.1 ≤ p.1 ∧ p.1 ≤ r.p2.1 ∧ r.p1.2 ≤ p.2 ∧ p.2 ≤ r.p2.2

/-- The open rectangles have a common point. -/
def Overlap (a b : FRect ℝ) : Prop := ∃ p, StrictlyIn p a ∧ StrictlyIn p b

/-- The closed rectangles have no common point. -/
def Disjoint (a b : FRect ℝ) : Prop := ∀ p, InClosed p a → ¬ InClosed p b

/-- From the largest of the min corners to the smallest of the max corners. -/
noncomputable def commonRect (a b : FRect ℝ) : FRect ℝ := ⟨(max a.p1.1 b.p1.1, max a.p1.2 b.p1.2), (min a.p2.1 b.p2.1, min a.p2.2 b.p2.2)⟩

/-- Area of the union of the two rectangles. -/
noncomputable def unionSize (a b : FRect ℝ) : ℝ := a.area + b.area - (commonRect a b).area

end H2d.Spec
