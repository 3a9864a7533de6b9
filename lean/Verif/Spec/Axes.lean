import Verif.Model.Axes
import Verif.Spec.Ellipse
import Verif.Spec.Line
import Verif.Spec.Bisect
import Verif.Spec.RectMore

/-! # Vocabulary for oriented boxes -/

namespace H2d.Spec

/-- The four points are the corners of a rectangle, in order, with first side of length `w` and second side of length `h`. -/
def IsRectangle (w h : ℝ) (p1 p2 p3 p4 : ℝ × ℝ) : Prop :=
  p1.1 + p3.1 = p2.1 + p4.1 ∧ p1.2 + p3.2 = p2.2 + p4.2 ∧ (p2.1 - p1.1) * (p3.1 - p2.1) + (p2.2 - p1.2) * (p3.2 - p2.2) = 0 ∧
  eucl p1 p2 = w ∧ eucl p2 p3 = h

/-- The point is in the rectangle of corners `p1, p2, p3`, contour included. -/
def InOrientedBox (p1 p2 p3 p : ℝ × ℝ) : Prop :=
  (0 ≤ (p.1 - p1.1) * (p2.1 - p1.1) + (p.2 - p1.2) * (p2.2 - p1.2) ∧
    (p.1 - p1.1) * (p2.1 - p1.1) + (p.2 - p1.2) * (p2.2 - p1.2) ≤ eucl p1 p2 ^ 2) ∧
  0 ≤ (p.1 - p2.1) * (p3.1 - p2.1) + (p.2 - p2.2) * (p3.2 - p2.2) ∧
    (p.1 - p2.1) * (p3.1 - p2.1) + (p.2 - p2.2) * (p3.2 - p2.2) ≤ eucl p2 p3 ^ 2

/-- Middle of two points. -/
noncomputable def middle (p q : ℝ × ℝ) : ℝ × ℝ := ((p.1 + q.1) / 2, (p.2 + q.2) / 2)

/-- The two points are `p + d.n` and `p - d.n`, in this order or in the other one. -/
def Around (p n : ℝ × ℝ) (d : ℝ) (pp : (ℝ × ℝ) × (ℝ × ℝ)) : Prop :=
  pp = ((p.1 + d * n.1, p.2 + d * n.2), (p.1 - d * n.1, p.2 - d * n.2)) ∨
  pp = ((p.1 - d * n.1, p.2 - d * n.2), (p.1 + d * n.1, p.2 + d * n.2))

/-- Both segments have the same ends. -/
def SameEnds (s : (ℝ × ℝ) × (ℝ × ℝ)) (p q : ℝ × ℝ) : Prop := s = (p, q) ∨ s = (q, p)

/-- Unit vector from the first end of the segment towards the second one. -/
noncomputable def unitDir (s : (ℝ × ℝ) × (ℝ × ℝ)) : ℝ × ℝ := ((s.2.1 - s.1.1) / eucl s.1 s.2, (s.2.2 - s.1.2) / eucl s.1 s.2)

/-- The point is in an image of `cols` columns and `rows` rows. -/
def InImage (cols rows : ℕ) (p : ℝ × ℝ) : Prop := 0 ≤ p.1 ∧ p.1 ≤ (cols : ℝ) - 1 ∧ 0 ≤ p.2 ∧ p.2 ≤ (rows : ℝ) - 1

/-- The rectangle of an image of `cols` columns and `rows` rows. -/
def imageRect (cols rows : ℕ) : FRect ℝ := ⟨(0, 0), ((cols : ℝ) - 1, (rows : ℝ) - 1)⟩

end H2d.Spec
