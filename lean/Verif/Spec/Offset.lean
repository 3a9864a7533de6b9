import Verif.Spec.Segment
import Verif.Spec.Pip
import Verif.Spec.Polyline

/-! # Specifications for offset polygons -/

namespace H2d.Spec
open H2d

/-- Signed distance from the line that goes from `a` to `b` to the point: positive on the left. -/
noncomputable def signedDist (a b p : ℝ × ℝ) : ℝ := turnAt a b p / eucl a b

/-- What is needed of the edges at `v` for the lines parallel to them to be computed right, and not to be found parallel. -/
def GoodVertex (t : Thr ℝ) (a v b : ℝ × ℝ) : Prop :=
  GoodSeg t (a, v) ∧ GoodSlopeX t a v ∧ GoodSeg t (v, b) ∧ GoodSlopeX t v b ∧ t.nullAngleValue ≤ segAngle (a, v) (v, b)

/-- All the vertices are on the left of all the edges (`s = 1`), or on the right (`s = -1`). -/
def ConvexOn (s : ℝ) (pts : List (ℝ × ℝ)) : Prop := ∀ e ∈ polyEdges pts, ∀ x ∈ pts, 0 ≤ s * turnAt e.1 e.2 x

/-- The point is on the lines parallel to the two edges at `v`, at distance `|d|`, on the outer side of both when `d > 0`, on the inner one when `d < 0`,
for a polygon that turns left (`s = 1`) or right (`s = -1`). -/
def OffsetPoint (s d : ℝ) (a v b p : ℝ × ℝ) : Prop := s * signedDist a v p = - d ∧ s * signedDist v b p = - d

/-- The cut at the vertex `v` is computed right: the segment from the vertex to the point `p` where the two parallel lines meet is neither nearly horizontal nor
nearly vertical without being so, and its normal is not found parallel to the edges. -/
def GoodCut (t : Thr ℝ) (d : ℝ) (v p : ℝ × ℝ) : Prop :=
  GoodSlope t v p ∧ GoodSlopeX t v p ∧ t.nullAngleValue ≤ Real.arccos (d / eucl v p)

/-- A point of a vertex that has been cut: on the parallel to one of the edges, on the outer side, not closer to the vertex than `d`, and not farther than `√2 d`. -/
def CutPoint (s d : ℝ) (a v b p : ℝ × ℝ) : Prop :=
  (s * signedDist a v p = - d ∨ s * signedDist v b p = - d) ∧ d ≤ eucl v p ∧ eucl v p ^ 2 ≤ 2 * d ^ 2

end H2d.Spec
