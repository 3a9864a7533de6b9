import Verif.Spec.Segment
import Verif.Model.Circle

/-! # Vocabulary for circles -/

namespace H2d.Spec

/-- The circle of center `o` and radius `r` encloses the points and no smaller circle does. -/
def IsMEC (pts : List (ℝ × ℝ)) (o : ℝ × ℝ) (r : ℝ) : Prop :=
  0 ≤ r ∧ (∀ p ∈ pts, eucl p o ≤ r) ∧ ∀ o' r', (∀ p ∈ pts, eucl p o' ≤ r') → r ≤ r'

/-- The line through both points, and its perpendiculars, are computed right by the library (see `C01_false`, `C06_false`). -/
def GoodPair (t : Thr ℝ) (p q : ℝ × ℝ) : Prop := GoodSlope t p q ∧ GoodSlopeX t p q

/-- Three points the library considers as collinear: two of them equal, or one at less than the null distance from the line through the others
(the one that gives the smallest distance). -/
def NearCollinear (t : Thr ℝ) (p1 p2 p3 : ℝ × ℝ) : Prop :=
  (eucl p1 p2 < t.nullDistance ∨ eucl p2 p3 < t.nullDistance ∨ eucl p1 p3 < t.nullDistance) ∨
    |turnAt p1 p2 p3| < t.nullDistance * max (max (eucl p1 p2) (eucl p1 p3)) (eucl p2 p3)

/-- Two sides of the triangle have nearly the same direction. -/
def ThinAngle (t : Thr ℝ) (p1 p2 p3 : ℝ × ℝ) : Prop :=
  segAngle (p1, p2) (p1, p3) < t.nullAngleValue ∨ segAngle (p2, p1) (p2, p3) < t.nullAngleValue ∨ segAngle (p3, p1) (p3, p2) < t.nullAngleValue

/-- The disk of the circle (without its edge). -/
def InDisk (p : ℝ × ℝ) (c : Circle) : Prop := eucl p c.center < c.radius

end H2d.Spec
