import Verif.Model.FloatGeom
import Verif.Model.FloatSearch

/-!
# Change of unit
-/

namespace H2d.Spec

/-- A point with both coordinates multiplied by `c`. -/
def scalePt (c : ℝ) (p : Pt ℝ) : Pt ℝ := (c * p.1, c * p.2)

/-- A rectangle with all its coordinates multiplied by `c`. -/
def scaleRect (c : ℝ) (r : FRect ℝ) : FRect ℝ := ⟨scalePt c r.p1, scalePt c r.p2⟩

/-- Thresholds with those on distances multiplied by `c`. -/
def scaleThr (c : ℝ) (t : Thr ℝ) : Thr ℝ := { t with nullDistance := c * t.nullDistance, nullOrthogDistance := c * t.nullOrthogDistance }

/-- The result of a constructor of rectangle in the other unit. -/
def scaleRes (c : ℝ) : Res (FRect ℝ) → Res (FRect ℝ)
  | .ok r => .ok (scaleRect c r)
  | .throw => .throw
  | .ub => .ub

end H2d.Spec
