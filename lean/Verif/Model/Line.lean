import Verif.Model.Homog
import Verif.Model.Geom
import Verif.Model.Polyline
import Mathlib.Analysis.SpecialFunctions.Trigonometric.Inverse

/-!
# Points and lines over the reals

Rounding is not modelled: `std::hypot`, `std::sqrt`, `std::acos` are the exact functions.
-/

namespace H2d

/-- `std::numeric_limits<double>::epsilon()`, used at homog2d.hpp:8791. -/
noncomputable def dblEps : ℝ := 1 / 2 ^ 52

/-- `impl_normalize` for lines (homog2d.hpp:8777-8807). `std::hypot` is the exact square root of the sum of squares. -/
noncomputable def normalizeLine (t : Thr ℝ) (v : V3 ℝ) : Res (V3 ℝ) :=
  let sq := Real.sqrt (v 0 * v 0 + v 1 * v 1)
  if sq ≤ dblEps then .throw
  else
    let w : V3 ℝ := fun i => v i / sq
    let w : V3 ℝ := if w 0 < 0 then fun i => - w i else w
    let w : V3 ℝ := if |w 0| < t.nullDenom then (if w 1 < 0 then ![w 0, - w 1, - w 2] else w) else w
    .ok w

/-- Point to point `distTo` (homog2d.hpp:9140-9152), from the coordinates. -/
noncomputable def ptDist (p q : Pt ℝ) : ℝ :=
  Real.sqrt ((p.1 - q.1) * (p.1 - q.1) + (p.2 - q.2) * (p.2 - q.2))

/-- Point to point `distTo`, from the homogeneous values (homog2d.hpp:9140-9152, 4133-4142). -/
noncomputable def hDist (p q : V3 ℝ) : ℝ := ptDist (getXY p) (getXY q)

/-- `operator ==` on points (homog2d.hpp:9023-9026). -/
abbrev PtEq (t : Thr ℝ) (p q : Pt ℝ) : Prop := ptDist p q < t.nullDistance

/-- Constructor of a line from two points and product of two points (homog2d.hpp:3839-3847, 3668-3677). -/
noncomputable def lineOfPts (t : Thr ℝ) (p q : V3 ℝ) : Res (V3 ℝ) :=
  if PtEq t (getXY p) (getXY q) then .throw else normalizeLine t (crossProd p q)

/-- Line from three values, `set(v0,v1,v2)` (homog2d.hpp:3892-3901). -/
noncomputable def lineOfValues (t : Thr ℝ) (a b c : ℝ) : Res (V3 ℝ) := normalizeLine t ![a, b, c]

/-- Horizontal line (homog2d.hpp:4559-4567). -/
def lineH (y : ℝ) : V3 ℝ := ![0, 1, -y]
/-- Vertical line (homog2d.hpp:4559-4563). -/
def lineV (x : ℝ) : V3 ℝ := ![1, 0, -x]
/-- Vertical (`v`) or horizontal line through a point (homog2d.hpp:4528-4546). -/
def lineThrough (v : Bool) (p : Pt ℝ) : V3 ℝ := if v then lineV p.1 else lineH p.2

/-- The quotient `fres` of `getAngle` before truncation (homog2d.hpp:9271-9278). -/
noncomputable def angleCos (l m : V3 ℝ) : ℝ :=
  |(l 0 * m 0 + l 1 * m 1) / Real.sqrt ((l 0 * l 0 + l 1 * l 1) * (m 0 * m 0 + m 1 * m 1))|

/-- `getAngle` of two lines (homog2d.hpp:9267-9291). -/
noncomputable def lineAngle (l m : V3 ℝ) : ℝ :=
  Real.arccos (if angleCos l m > 1 then 1 else angleCos l m)

/-- `isParallelTo` (homog2d.hpp:9232-9239). -/
abbrev IsParallel (t : Thr ℝ) (l m : V3 ℝ) : Prop := lineAngle l m < t.nullAngleValue

/-- Product of two lines (homog2d.hpp:9632-9642). -/
noncomputable def lineInter (t : Thr ℝ) (l m : V3 ℝ) : Res (V3 ℝ) :=
  if IsParallel t l m then .throw else .ok (crossProd l m)

/-- `impl_normalize` for points (homog2d.hpp:8813-8829). -/
noncomputable def normalizePoint (t : Thr ℝ) (v : V3 ℝ) : Res (V3 ℝ) :=
  let w : V3 ℝ := if v 0 < 0 then fun i => - v i else v
  if |w 2| < t.nullDenom ∧ w 0 < t.nullOrthogDistance ∧ |w 1| < t.nullOrthogDistance then .throw else .ok w

/-- Constructor of a point from two lines (homog2d.hpp:3827-3835). -/
noncomputable def pointOfLines (t : Thr ℝ) (l m : V3 ℝ) : Res (V3 ℝ) :=
  if IsParallel t l m then .throw else normalizePoint t (crossProd l m)

/-- `operator ==` on lines (homog2d.hpp:9009-9018). -/
abbrev LineEq (t : Thr ℝ) (l m : V3 ℝ) : Prop := IsParallel t l m ∧ ¬ (|l 2 - m 2| > t.nullDistance)

/-- Line to point `distTo` (homog2d.hpp:9167-9179). -/
noncomputable def lineDist (l : V3 ℝ) (p : Pt ℝ) : ℝ :=
  |l 0 * p.1 + l 1 * p.2 + l 2| / Real.sqrt (l 0 * l 0 + l 1 * l 1)

/-- `side()` (homog2d.hpp:9833-9844). -/
noncomputable def lineSide (t : Thr ℝ) (p : Pt ℝ) (l : V3 ℝ) : Int :=
  let d := l 0 * p.1 + l 1 * p.2 + l 2
  if |d| < t.nullDistance then 0 else if d < 0 then -1 else 1

/-- `getCoord` (homog2d.hpp:8835-8850); `givenX`: the given coordinate is x. -/
noncomputable def lineCoord (t : Thr ℝ) (l : V3 ℝ) (givenX : Bool) (v : ℝ) : Res ℝ :=
  if |if givenX then l 1 else l 0| < t.nullDenom then .throw
  else if givenX then .ok ((- l 0 * v - l 2) / l 1) else .ok ((- l 1 * v - l 2) / l 0)

/-- `priv::fix_order` (homog2d.hpp:3558-3562). -/
noncomputable def fixOrder {K : Type} [LinearOrder K] (p q : Pt K) : Pt K × Pt K := if !(ptLt p q) then (q, p) else (p, q)

/-- `getPoints_B2` (homog2d.hpp:3717-3734). -/
noncomputable def getPointsB2 (l : V3 ℝ) (p : Pt ℝ) (dist : ℝ) : Pt ℝ × Pt ℝ :=
  let coeff := dist / Real.sqrt (l 0 * l 0 + l 1 * l 1)
  fixOrder (p.1 - l 1 * coeff, p.2 + l 0 * coeff) (p.1 + l 1 * coeff, p.2 - l 0 * coeff)

/-- `getPoints` (homog2d.hpp:8858-8874). -/
noncomputable def getPoints (t : Thr ℝ) (l : V3 ℝ) (p : Pt ℝ) (dist : ℝ) : Res (Pt ℝ × Pt ℝ) :=
  if lineDist l p > t.nullDistance then .throw else .ok (getPointsB2 l p dist)

/-- `getOrthogonalLine_B2`, `getOrthogLine(pt)` (homog2d.hpp:3740-3750, 8898-8913): the constructor already normalises, and it is done again. -/
noncomputable def orthogLine (t : Thr ℝ) (l : V3 ℝ) (p : Pt ℝ) : Res (V3 ℝ) := do
  let out ← lineOfValues t (- l 1) (l 0) (l 1 * p.1 - l 0 * p.2)
  normalizeLine t out

/-- `getParallelLine(pt)` (homog2d.hpp:8972-8980). -/
noncomputable def parallelLine (t : Thr ℝ) (l : V3 ℝ) (p : Pt ℝ) : Res (V3 ℝ) :=
  normalizeLine t ![l 0, l 1, - l 0 * p.1 - l 1 * p.2]

/-- `getParallelLines(dist)` (homog2d.hpp:8988-8997). -/
def parallelLines (l : V3 ℝ) (d : ℝ) : V3 ℝ × V3 ℝ := (![l 0, l 1, l 2 + d], ![l 0, l 1, l 2 - d])

/-- `getParallelDistance` (homog2d.hpp:10973-10991); `none` is NaN (square root of a negative number, or 0/0). -/
noncomputable def parallelDistance (t : Thr ℝ) (l m : V3 ℝ) : Res (Option ℝ) :=
  if ¬ IsParallel t l m then .throw
  else if l 0 * m 0 < 0 ∨ l 1 * m 1 < 0 then .ok none
  else
    let a := Real.sqrt (l 0 * m 0)
    let b := Real.sqrt (l 1 * m 1)
    if a * a + b * b = 0 then .ok none
    else .ok (some (|l 2 - m 2| / Real.sqrt (a * a + b * b)))

/-- `getOrthogSegment` (homog2d.hpp:8945-8965): first and second point of the oriented segment. Building this segment throws when the points are equal
(homog2d.hpp:4900-4909). -/
noncomputable def orthogSegment (t : Thr ℝ) (l : V3 ℝ) (p : Pt ℝ) : Res (Pt ℝ × Pt ℝ) := do
  let dist := lineDist l p
  if dist < t.nullDistance then .throw
  else do
    let pl := parallelLines l dist
    let pline := if lineDist pl.2 p < t.nullDistance then pl.2 else pl.1
    let oline ← orthogLine t pline p
    let p2 ← lineInter t l oline
    if PtEq t (getXY p2) p then .throw else pure (getXY p2, p)

/-- `impl_intersectsCircle` for lines (homog2d.hpp:9463-9505); `none`: no intersection. -/
noncomputable def lineCircle (l : V3 ℝ) (c : Pt ℝ) (radius : ℝ) : Option (Pt ℝ × Pt ℝ) :=
  let cp := c.1 * l 0 + c.2 * l 1 + l 2
  let a2b2 := l 0 * l 0 + l 1 * l 1
  let d0 := |cp| / Real.sqrt a2b2
  if radius < d0 then none
  else
    let d2 := radius * radius - d0 * d0
    let xb := - l 0 * cp / a2b2
    let yb := - l 1 * cp / a2b2
    let m := Real.sqrt (d2 / a2b2)
    some (fixOrder (xb + m * l 1 + c.1, yb - m * l 0 + c.2) (xb - m * l 1 + c.1, yb + m * l 0 + c.2))

end H2d
