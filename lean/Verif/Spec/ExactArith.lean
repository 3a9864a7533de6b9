import Verif.Spec.FloatMec
import Verif.Spec.Simple
import Verif.Model.Homogr

/-! # Specification of the comparison between the rounded operations and those over the reals -/

namespace H2d.Spec

/-- Thresholds: no distance is under a negative number, and the angle under which two lines are parallel is positive, and at most a right angle. -/
structure ExactThr (t : Thr ℝ) : Prop where
  dist : 0 < t.nullDistance
  pos : 0 < t.nullAngleValue
  le : t.nullAngleValue ≤ Real.pi / 2

/-- The line has a direction: its first two values are not both zero. True of all lines the library builds, that are normalized. -/
abbrev HasDir (l : V3 ℝ) : Prop := 0 < l 0 * l 0 + l 1 * l 1

/-- No edge of the polyline, the closing one included, is under the distance threshold. -/
abbrev Sides (t : Thr ℝ) (pts : List (Pt ℝ)) : Prop := ∀ i e, Edge pts i e → t.nullDistance ≤ eucl e.1 e.2

/-- Outcome of an operation that changes a homography: the matrix stored afterwards, or the exception. -/
def matOf (r : Res Unit × Hom ℝ) : Res (Mat ℝ) := r.1 >>= fun _ => .ok r.2.m

/-- The outcome of the reals, as the type used with rounded numbers: `none` stands there for a result that is not a number. -/
def isNum {α : Type} (r : Res α) : Res (Option α) := r >>= fun c => .ok (some c)

end H2d.Spec
