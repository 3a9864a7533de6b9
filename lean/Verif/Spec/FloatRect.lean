import Verif.Spec.FloatCross
import Verif.Spec.RectMore

/-! # Vocabulary for rectangles with rounded operations -/

namespace H2d.Spec

/-- 1 is a floating-point number, and `std::hypot` is exact if one of the values is 0. -/
structure AxisExact (F : Arith) : Prop where
  one : Rep F 1
  hypX : ∀ x, Rep F x → F.hyp x 0 = |x|
  hypY : ∀ x, Rep F x → F.hyp 0 x = |x|

/-- The coordinates of the rectangle are floating-point numbers, not above `M`. -/
structure RectRep (F : Arith) (M : ℝ) (r : FRect ℝ) : Prop where
  x1 : Rep F r.p1.1 ∧ |r.p1.1| ≤ M
  y1 : Rep F r.p1.2 ∧ |r.p1.2| ≤ M
  x2 : Rep F r.p2.1 ∧ |r.p2.1| ≤ M
  y2 : Rep F r.p2.2 ∧ |r.p2.2| ≤ M

/-- The coordinates of two rectangles differ by at most `e`. -/
def NearRect (e : ℝ) (r s : FRect ℝ) : Prop := |r.p1.1 - s.p1.1| ≤ e ∧ |r.p1.2 - s.p1.2| ≤ e ∧ |r.p2.1 - s.p2.1| ≤ e ∧ |r.p2.2 - s.p2.2| ≤ e

/-- Two rectangles with rounded operations: the sides have at least length `L`, no two abscissas and no two ordinates are closer than three null distances, and the rounding errors are small with respect to
the null distance. -/
structure RectPair (F : Arith) (t : Thr ℝ) (u v M L : ℝ) (a b : FRect ℝ) : Prop where
  ra : RectRep F M a
  rb : RectRep F M b
  L0 : 0 < L
  la : LongSides L a
  lb : LongSides L b
  far : FarRects (3 * t.nullDistance) a b
  eps : 2 * dblEps ≤ t.nullDistance
  noise : 36 * (u * M ^ 2 / L) + 11 * (u + v) * M < t.nullDistance

/-- The coordinates of the points differ by at most `e`. -/
def NearPt2 (e : ℝ) (p q : Pt ℝ) : Prop := |p.1 - q.1| ≤ e ∧ |p.2 - q.2| ≤ e

end H2d.Spec
