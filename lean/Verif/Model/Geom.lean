import Verif.Model.Basic
import Mathlib.Algebra.Order.Field.Basic

/-!
# Points as pairs of coordinates, distance, tolerance equality
-/

namespace H2d

/-- A `Point2d_` seen through `getX()`, `getY()` (homog2d.hpp:4133-4142). -/
abbrev Pt (K : Type) := K × K

/-- `priv::sqDist` on coordinates (homog2d.hpp:3577-3582), over any ring (rounding not modelled). -/
def sqDist {K : Type} [Ring K] (p q : Pt K) : K :=
  (p.1 - q.1) * (p.1 - q.1) + (p.2 - q.2) * (p.2 - q.2)

/-- Point equality `distTo(other) < thr::nullDistance()` (homog2d.hpp:9023-9026), written on squares so that it is computable:
for `t ≥ 0`, `sqrt s < t` is the same as `s < t*t`. -/
def samePt {K : Type} [Ring K] [LinearOrder K] (t : K) (p q : Pt K) : Bool :=
  decide (sqDist p q < t * t)

/-- `detail::shareCommonCoord` (homog2d.hpp:1321-1329), `t` is `thr::nullOrthogDistance()`. -/
def shareCommonCoord {K : Type} [Ring K] [LinearOrder K] (t : K) (p q : Pt K) : Bool :=
  decide (|p.1 - q.1| < t) || decide (|p.2 - q.2| < t)

end H2d
