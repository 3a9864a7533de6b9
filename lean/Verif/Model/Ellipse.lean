import Verif.Model.Homogr
import Verif.Model.FRect
import Mathlib.Analysis.SpecialFunctions.Trigonometric.Arctan
import Mathlib.Analysis.SpecialFunctions.Sqrt

/-!
# Ellipses: class `Ellipse_`

Without the option `HOMOG2D_OPTIMIZE_SPEED`, which is off by default: the parameters are computed again from the matrix at each call
(`p_getParams`, homog2d.hpp:8487-8499). Real numbers; `double` conversion of the arguments of `p_init` is not modelled.
-/

namespace H2d

/-- `Ellipse_` inherits `Matrix_`: `_mdata`, `_isNormalized` (homog2d.hpp:1475-1476, 2219-2237). -/
structure Ell where
  m : Mat ℝ
  isNorm : Bool

/-- Values stored by `p_init()` (homog2d.hpp:2400-2423). -/
noncomputable def ellMat (x0 y0 a b theta : ℝ) : Mat ℝ :=
  let sin1 := Real.sin theta
  let cos1 := Real.cos theta
  let sin2 := sin1 * sin1
  let cos2 := cos1 * cos1
  let a2 := a * a
  let b2 := b * b
  let A := a2 * sin2 + b2 * cos2
  let B := 2 * (b2 - a2) * Real.sin theta * Real.cos theta
  let C := a2 * cos2 + b2 * sin2
  let D := (-2) * A * x0 - B * y0
  let E := - B * x0 - 2 * C * y0
  let F := A * x0 * x0 + B * x0 * y0 + C * y0 * y0 - a2 * b2
  ![![A, B / 2, D / 2], ![B / 2, C, E / 2], ![D / 2, E / 2, F]]

namespace Ell

/-- `p_init()` on an existing object (homog2d.hpp:2400-2437): `_isNormalized` is not touched. -/
noncomputable def pInit (e : Ell) (x0 y0 a b theta : ℝ) : Ell := { e with m := ellMat x0 y0 a b theta }

/-- Constructor from values (homog2d.hpp:2260-2268), also used by the other ones (2249, 2254). -/
noncomputable def new (x y major minor angle : ℝ) : Ell :=
  if major < minor then pInit ⟨fun _ _ => 0, false⟩ x y minor major angle
  else pInit ⟨fun _ _ => 0, false⟩ x y major minor angle

/-- Constructor from a circle (homog2d.hpp:2271-2274). -/
noncomputable def ofCircle (c : Pt ℝ) (r : ℝ) : Ell := pInit ⟨fun _ _ => 0, false⟩ c.1 c.2 r r 0

/-- `detail::EllParams` (homog2d.hpp:2134-2163). -/
structure Par where
  x0 : ℝ
  y0 : ℝ
  a : ℝ
  b : ℝ
  theta : ℝ
  a2 : ℝ
  b2 : ℝ
  sint : ℝ
  cost : ℝ

/-- Angle part of `p_computeParams()` (homog2d.hpp:8544-8553); `theta` is initially 0 (2160). -/
noncomputable def angleOf (t : Thr ℝ) (A B C sqr : ℝ) : ℝ :=
  if |B| < t.nullDenom then (if A > C then 90 else 0)
  else Real.arctan ((C - A - sqr) / B)

/-- `p_computeParams()` (homog2d.hpp:8510-8557). The square root of a negative value (NaN in the code) is 0 here: this does not occur
for the matrices of the theorems, multiples of the ones that `p_init()` stores. -/
noncomputable def params (t : Thr ℝ) (m : Mat ℝ) : Res Par :=
  let A := m 0 0
  let C := m 1 1
  let F := m 2 2
  let B := 2 * m 0 1
  let D := 2 * m 0 2
  let E := 2 * m 1 2
  let denom := B * B - 4 * A * C
  if |denom| < t.nullDenom then .throw
  else
    let x0 := (2 * C * D - B * E) / denom
    let y0 := (2 * A * E - B * D) / denom
    let common := 2 * (A * E * E + C * D * D - B * D * E + denom * F)
    let sqr := Real.sqrt ((A - C) * (A - C) + B * B)
    let a := - Real.sqrt (common * (A + C + sqr)) / denom
    let b := - Real.sqrt (common * (A + C - sqr)) / denom
    let theta := angleOf t A B C sqr
    .ok { x0 := x0, y0 := y0, a := a, b := b, theta := theta, a2 := a * a, b2 := b * b,
          sint := Real.sin theta, cost := Real.cos theta }

/-- `getCenter()` (homog2d.hpp:8585-8589). -/
noncomputable def getCenter (t : Thr ℝ) (e : Ell) : Res (Pt ℝ) := do
  let p ← params t e.m
  pure (p.x0, p.y0)

/-- `getMajMin()` (homog2d.hpp:8594-8598). -/
noncomputable def getMajMin (t : Thr ℝ) (e : Ell) : Res (ℝ × ℝ) := do
  let p ← params t e.m
  pure (p.a, p.b)

/-- `angle()` (homog2d.hpp:8605-8609). -/
noncomputable def angle (t : Thr ℝ) (e : Ell) : Res ℝ := do
  let p ← params t e.m
  pure p.theta

/-- `area()` (homog2d.hpp:2335-2339), with the exact value of pi. -/
noncomputable def area (t : Thr ℝ) (e : Ell) : Res ℝ := do
  let p ← params t e.m
  pure (Real.pi * p.a * p.b)

/-- `length()` (homog2d.hpp:8618-8626). -/
noncomputable def length (t : Thr ℝ) (e : Ell) : Res ℝ := do
  let p ← params t e.m
  let sum := p.a + p.b
  let diff := p.a - p.b
  let h := diff * diff / (sum * sum)
  let denom := 10 + Real.sqrt (4 - 3 * h)
  pure ((p.a + p.b) * Real.pi * (1 + 3 * h / denom))

/-- `isCircle()` (homog2d.hpp:8568-8578). -/
noncomputable def isCircle (e : Ell) (thres : ℝ) : Bool :=
  decide (|e.m 0 0 - e.m 1 1| < thres) && decide (|e.m 0 1| * 2 < thres)

/-- `pointIsInside()` (homog2d.hpp:8745-8762), called by `isInside()` of a point (9435-9445). -/
noncomputable def pointIsInside (t : Thr ℝ) (e : Ell) (pt : Pt ℝ) : Res Bool := do
  let p ← params t e.m
  let v1 := p.cost * (pt.1 - p.x0) + p.sint * (pt.2 - p.y0)
  let v2 := p.sint * (pt.1 - p.x0) - p.cost * (pt.2 - p.y0)
  pure (decide (v1 * v1 / p.a2 + v2 * v2 / p.b2 < 1))

/-- `getBB()` (homog2d.hpp:8656-8667). -/
noncomputable def getBB (t : Thr ℝ) (e : Ell) : Res (FRect ℝ) := do
  let p ← params t e.m
  let vx := p.a2 * p.cost * p.cost + p.b2 * p.sint * p.sint
  let vy := p.a2 * p.sint * p.sint + p.b2 * p.cost * p.cost
  FRect.ofPts t.nullOrthogDistance (p.x0 - Real.sqrt vx, p.y0 - Real.sqrt vy) (p.x0 + Real.sqrt vx, p.y0 + Real.sqrt vy)

/-- `translate()` (homog2d.hpp:2285-2291). -/
noncomputable def translate (t : Thr ℝ) (e : Ell) (dx dy : ℝ) : Res Ell := do
  let p ← params t e.m
  pure (e.pInit (p.x0 + dx) (p.y0 + dy) p.a p.b p.theta)

/-- `moveTo()` (homog2d.hpp:2301-2307). -/
noncomputable def moveTo (t : Thr ℝ) (e : Ell) (x y : ℝ) : Res Ell := do
  let p ← params t e.m
  pure (e.pInit x y p.a p.b p.theta)

/-- `p_normalizeMat(2,2)` (homog2d.hpp:1562-1577), outcome and new state. -/
noncomputable def normalize (t : Thr ℝ) (e : Ell) : Res Unit × Ell :=
  if |e.m 2 2| < t.nullDenom then (.throw, e)
  else
    let m' := e.m.divAll (e.m 2 2)
    let m'' := if m' 2 2 < 0 then fun i j => - m' i j else m'
    (.ok (), ⟨m'', true⟩)

/-- Normalisation if required (homog2d.hpp:2361-2364). -/
noncomputable def normIfNeeded (t : Thr ℝ) (e : Ell) : Res Unit × Ell :=
  if e.isNorm then (.ok (), e) else normalize t e

/-- `operator ==` (homog2d.hpp:2357-2374) between two different objects: result, and new values of both. -/
noncomputable def eq (t : Thr ℝ) (e f : Ell) : Res Bool × Ell × Ell :=
  match normIfNeeded t e with
  | (.ok _, e') =>
    match normIfNeeded t f with
    | (.ok _, f') => (.ok (Hom.closeMat t e'.m f'.m), e', f')
    | (_, f') => (.throw, e', f')
  | (_, e') => (.throw, e', f)

end Ell

section
variable {K : Type} [Field K] [LinearOrder K]

/-- Values of the matrix of `H * ellipse` (homog2d.hpp:9742-9754): `hm.inverse()` is the one of the base class (1547-1558), without
normalisation; `operator *` of matrices (1672-1679). -/
def homEllMat (t : Thr K) (h m : Mat K) : Res (Mat K) :=
  if |h.determ| < t.nullDeter then .throw
  else
    let hm := h.adjugate.divAll h.determ
    let hmt := hm.transpose
    .ok ((hmt.mul m).mul hm)

end

namespace Ell

/-- `H * ellipse` (homog2d.hpp:9742-9754). -/
noncomputable def homMul (t : Thr ℝ) (h : Hom ℝ) (e : Ell) : Res Ell := do
  let m ← homEllMat t h.m e.m
  pure ⟨m, false⟩

/-- `H * circle` (homog2d.hpp:9760-9764). -/
noncomputable def homCircle (t : Thr ℝ) (h : Hom ℝ) (c : Pt ℝ) (r : ℝ) : Res Ell := homMul t h (ofCircle c r)

end Ell

end H2d
