import Verif.Spec.Pip
import Verif.Spec.Circle
import Verif.Spec.Ellipse
import Verif.Spec.Objects

/-! # Vocabulary for containment -/

namespace H2d.Spec

/-- The point is strictly inside the rectangle. -/
def InBox (r : FRect ℝ) (p : ℝ × ℝ) : Prop := r.p1.1 < p.1 ∧ p.1 < r.p2.1 ∧ r.p1.2 < p.2 ∧ p.2 < r.p2.2

/-- All the points of an object are inside a region. -/
def Within (o : Obj ℝ) (S : ℝ × ℝ → Prop) : Prop := ∀ q, Extent o q → S q

/-- The edges of a polyline (the last one joins the last point to the first one when it is closed). -/
def edgesOf {P : Type} (closed : Bool) (pts : List P) : List (P × P) := if closed then polyEdges pts else pts.zip pts.tail

/-- The point is on the contour of the closed polygon. -/
def OnContour (pts : List (ℝ × ℝ)) (q : ℝ × ℝ) : Prop := ∃ e ∈ polyEdges pts, OnSeg e.1 e.2 q

/-- The ends of the edges are not ambiguous with respect to the circle: none is closer to it than `d`. -/
def ClearOfCircle (d : ℝ) (pts : List (ℝ × ℝ)) (c : Circle) : Prop := ∀ v ∈ pts, d ≤ |eucl v c.center - c.radius|

/-- The segment meets no edge at a small angle, and its slope is not nearly null. -/
def ClearCrossings (t : Thr ℝ) (pts : List (ℝ × ℝ)) (s : (ℝ × ℝ) × (ℝ × ℝ)) : Prop :=
  GoodSlope t s.1 s.2 ∧ ∀ e ∈ polyEdges pts, (∃ q, OnSeg e.1 e.2 q ∧ OnSeg s.1 s.2 q) → t.nullAngleValue ≤ segAngle e s

/-- The four sides of a rectangle. -/
def rectSides (r : FRect ℝ) : List ((ℝ × ℝ) × (ℝ × ℝ)) :=
  [((r.p1.1, r.p1.2), (r.p1.1, r.p2.2)), ((r.p1.1, r.p2.2), (r.p2.1, r.p2.2)), ((r.p2.1, r.p2.2), (r.p2.1, r.p1.2)), ((r.p2.1, r.p1.2), (r.p1.1, r.p1.2))]

/-- The point is inside by the even-odd rule, and not on the contour. -/
def InPolygon (pts : List (ℝ × ℝ)) (q : ℝ × ℝ) : Prop := EvenOdd pts q ∧ ¬ OnContour pts q

/-- The point is outside by the even-odd rule, or closer to the contour than `d`. -/
def OutOrNear (d : ℝ) (pts : List (ℝ × ℝ)) (q : ℝ × ℝ) : Prop := ¬ EvenOdd pts q ∨ ∃ q', OnContour pts q' ∧ eucl q q' < d

end H2d.Spec
