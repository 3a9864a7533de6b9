import Verif.Model.Polyline
import Mathlib.Analysis.SpecialFunctions.Complex.Arg

/-! # Parts of the polyline code that need real functions -/

namespace H2d

/-- `std::atan2( y, x )` on reals: argument of `x + iy`, in `(-π,π]`. -/
noncomputable def atan2 (y x : ℝ) : ℝ := Complex.arg ⟨x, y⟩

open Classical in
/-- The test of `p_minimizePL` (homog2d.hpp:7331-7338) with `thr = nullAngleValue()`, on reals (rounding not modelled).
Note the order of the arguments given to `atan2`. -/
noncomputable def sameAngle (thr : ℝ) (prev cur next : Pt ℝ) : Bool :=
  let vx1 := next.1 - cur.1
  let vy1 := next.2 - cur.2
  let vx2 := cur.1 - prev.1
  let vy2 := cur.2 - prev.2
  decide (|atan2 vx1 vy1 - atan2 vx2 vy2| < thr)

end H2d
