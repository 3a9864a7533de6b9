import Verif.Model.RectMore
import Verif.Spec.RectArea
import Verif.Spec.Inside
import Verif.Spec.Segment

/-! # Vocabulary for the contour of rectangles -/

namespace H2d.Spec

/-- The point is on a vertical side of the rectangle. -/
def OnVert (r : FRect ℝ) (p : ℝ × ℝ) : Prop := (p.1 = r.p1.1 ∨ p.1 = r.p2.1) ∧ r.p1.2 ≤ p.2 ∧ p.2 ≤ r.p2.2

/-- The point is on a horizontal side of the rectangle. -/
def OnHoriz (r : FRect ℝ) (p : ℝ × ℝ) : Prop := (p.2 = r.p1.2 ∨ p.2 = r.p2.2) ∧ r.p1.1 ≤ p.1 ∧ p.1 ≤ r.p2.1

/-- The point is on the contour of the rectangle. -/
def OnRect (r : FRect ℝ) (p : ℝ × ℝ) : Prop := OnVert r p ∨ OnHoriz r p

/-- A vertical side of one rectangle and a horizontal side of the other one meet at this point. -/
def SidesMeet (a b : FRect ℝ) (p : ℝ × ℝ) : Prop := (OnVert a p ∧ OnHoriz b p) ∨ (OnHoriz a p ∧ OnVert b p)

/-- The sides of the rectangle have at least length `n`. -/
def LongSides (n : ℝ) (r : FRect ℝ) : Prop := r.p1.1 + n ≤ r.p2.1 ∧ r.p1.2 + n ≤ r.p2.2

/-- No two abscissas, and no two ordinates, of the two rectangles are closer than `n`. -/
structure FarRects (n : ℝ) (a b : FRect ℝ) : Prop where
  sa : LongSides n a
  sb : LongSides n b
  x : ∀ u ∈ [a.p1.1, a.p2.1], ∀ v ∈ [b.p1.1, b.p2.1], n ≤ |u - v|
  y : ∀ u ∈ [a.p1.2, a.p2.2], ∀ v ∈ [b.p1.2, b.p2.2], n ≤ |u - v|

/-- The points are given in increasing order, without repetition. -/
def SortedPts (l : List (ℝ × ℝ)) : Prop := l.Pairwise LexLt

end H2d.Spec
