import Verif.Model.FloatGeom
import Verif.Model.Search

/-!
# Searches of points with rounded operations

The loops are those of `Verif.Model.Search`; the distances and the comparison of points are the rounded ones.
-/

namespace H2d.Fl

variable (F : Arith)

/-- `operator ==` of points (homog2d.hpp:9020-9029), as a value. -/
noncomputable def sameB (t : Thr ℝ) (p q : Pt ℝ) : Bool := open Classical in decide (PtSame F t p q)

/-- `findNearestPoint` (homog2d.hpp:11086-11140, 11152-11155), that uses `priv::sqDist` (3577-3582). -/
noncomputable def nearest (t : Thr ℝ) (q : Pt ℝ) (cont : List (Pt ℝ)) : Res Nat := Search.findNearestPoint (sqDist F) (sameB F t) q cont

/-- `findFarthestPoint` (homog2d.hpp:11086-11140, 11160-11163). -/
noncomputable def farthest (t : Thr ℝ) (q : Pt ℝ) (cont : List (Pt ℝ)) : Res Nat := Search.findFarthestPoint (sqDist F) (sameB F t) q cont

/-- `findNearestFarthestPoint` (homog2d.hpp:11171-11208). -/
noncomputable def nearestFarthest (t : Thr ℝ) (q : Pt ℝ) (cont : List (Pt ℝ)) : Res (Nat × Nat) := Search.findNearestFarthestPoint (sqDist F) (sameB F t) q cont

/-- `getClosestPoints` (homog2d.hpp:10595-10619), that uses `dist()` (9849-9854). -/
noncomputable def closest (a b : List (Pt ℝ)) : Res (Search.Closest ℝ) := Search.getClosestPoints (distPt F) a b

end H2d.Fl
