import Verif.Model.FloatGeom
import Verif.Model.Homogr

/-! # Inverse of a matrix with rounded operations -/

namespace H2d.Fl

variable (F : Arith)

/-- `p_det2x2( {a,b, c,d, e,f, g,h} )` (homog2d.hpp:1625-1630). -/
def det2 (m : Mat ℝ) (a b c d e f g h : Fin 3) : ℝ := F.rnd (F.rnd (m a b * m g h) - F.rnd (m c d * m e f))

/-- `determ()` (homog2d.hpp:1526-1532). -/
def determ (m : Mat ℝ) : ℝ :=
  let det := F.rnd (m 0 0 * det2 F m 1 1 1 2 2 1 2 2)
  let det := F.rnd (det - F.rnd (m 0 1 * det2 F m 1 0 1 2 2 0 2 2))
  F.rnd (det + F.rnd (m 0 2 * det2 F m 1 0 1 1 2 0 2 1))

/-- `p_adjugate()` (homog2d.hpp:1633-1651); the change of sign is exact. -/
def adjugate (m : Mat ℝ) : Mat ℝ :=
  ![![ det2 F m 1 1 1 2 2 1 2 2, -det2 F m 0 1 0 2 2 1 2 2,  det2 F m 0 1 0 2 1 1 1 2],
    ![-det2 F m 1 0 1 2 2 0 2 2,  det2 F m 0 0 0 2 2 0 2 2, -det2 F m 0 0 0 2 1 0 1 2],
    ![ det2 F m 1 0 1 1 2 0 2 1, -det2 F m 0 0 0 1 2 0 2 1,  det2 F m 0 0 0 1 1 0 1 1]]

/-- `inverse()` (homog2d.hpp:1546-1558, 1614-1619). -/
noncomputable def inverse (t : Thr ℝ) (m : Mat ℝ) : Res (Mat ℝ) :=
  if |determ F m| < t.nullDeter then .throw else .ok fun i j => F.rnd (adjugate F m i j / determ F m)

end H2d.Fl
