import Verif.Model.Segment
import Verif.Model.Homogr
import Verif.Model.PolyReal
import Verif.Model.Circle

/-! # Oriented angles, rotated lines, bisector lines, tangent segments -/

namespace H2d

/-- `getVector()` of an oriented segment (homog2d.hpp:5063-5071). -/
def segVector (s : Seg) : ℝ × ℝ := (s.2.1 - s.1.1, s.2.2 - s.1.2)

/-- `getAngle()` between two oriented segments (homog2d.hpp:5087-5098). -/
noncomputable def osegAngle (s s' : Seg) : ℝ :=
  let v1 := segVector s
  let v2 := segVector s'
  atan2 (v1.1 * v2.2 - v1.2 * v2.1) (v1.1 * v2.1 + v1.2 * v2.2)

/-- A call that changes an object, as an expression. -/
def Hom.call (r : Res Unit × Hom ℝ) : Res (Hom ℝ) :=
  match r with
  | (.ok _, h) => .ok h
  | (.throw, _) => .throw
  | (.ub, _) => .ub

/-- `getRotatedLine( pt, theta )` (homog2d.hpp:8919-8935); the product with a line ends with its normalisation (9696). -/
noncomputable def rotatedLine (t : Thr ℝ) (l : V3 ℝ) (p : Pt ℝ) (theta : ℝ) : Res (V3 ℝ) :=
  if lineDist l p > t.nullDistance then .throw
  else do
    let h ← Hom.call (Hom.default.addTranslation t (- p.1) (- p.2))
    let h ← Hom.call (h.addRotation t (Real.cos theta) (Real.sin theta))
    let h ← Hom.call (h.addTranslation t p.1 p.2)
    let v ← (h.appLineRaw t l).1
    normalizeLine t v

/-- The loops of `getBisectorLines()` (homog2d.hpp:9999-10005, 10011-10018): `seg1` is the current value of this variable, the list holds the
pairs of points that make `seg2`. `-seg2` swaps the points (4955-4960). -/
noncomputable def bisectorLoop (t : Thr ℝ) : Seg → List (Pt ℝ × Pt ℝ) → Res (List (V3 ℝ))
  | _, [] => .ok []
  | seg1, (p, q) :: rest => do
    let seg2 ← segMake t true p q
    let angle := osegAngle seg1 seg2
    let li ← segLine t seg1
    let r ← rotatedLine t li p (angle / 2)
    let out ← bisectorLoop t (segNeg seg2).1 rest
    pure (r :: out)

/-- `getBisectorLines()` (homog2d.hpp:9986-10021). -/
noncomputable def bisectorLines (t : Thr ℝ) (closed : Bool) (pts : List (Pt ℝ)) : Res (List (V3 ℝ)) :=
  if pts.length < 3 then .throw
  else
    match pts with
    | a :: b :: rest =>
      if closed then do
        let seg1 ← segMake t true a ((b :: rest).getLast (by simp))
        bisectorLoop t seg1 (cycPairs pts)
      else do
        let seg1 ← segMake t true b a
        bisectorLoop t seg1 ((b :: rest).zip rest)
    | _ => .throw

/-- `Circle_::operator ==` (homog2d.hpp:3524-3531). -/
abbrev CircleEq (t : Thr ℝ) (c c' : Circle) : Prop := c.radius = c'.radius ∧ PtEq t c.center c'.center

/-- One side of `getTanSegs()` (homog2d.hpp:10824-10829, 10830-10832, 10840, 10843; 10825, 10834-10837, 10841, 10847 with the other angle): both
segments parallel to the one from the center `b` of the smaller circle. `a` is the center of the larger one. -/
noncomputable def tanSide (t : Thr ℝ) (a : Pt ℝ) (cB : Circle) (l0 : V3 ℝ) (theta hcost : ℝ) : Res (Seg × Seg) := do
  let li ← rotatedLine t l0 cB.center theta
  let pp ← getPoints t li cB.center hcost
  let p := if ptDist pp.2 a < ptDist pp.1 a then pp.2 else pp.1
  let seg ← segMake t false p cB.center
  segParallel t false seg cB.radius

/-- `getTanSegs()` (homog2d.hpp:10797-10855). `none`: all coordinates are NaN. This is what comes out if the arc sine is NaN (10819): then the
rotated lines and the points have NaN values, and no check throws, as all comparisons with NaN are false. The two sides are computed one after the
other here, not step by step; this does not change the outcome. -/
noncomputable def tanSegs (t : Thr ℝ) (c1 c2 : Circle) : Res (Option (Seg × Seg)) :=
  if CircleEq t c1 c2 then .throw
  else if |c1.radius - c2.radius| < t.nullDistance then do
    let seg ← segMake t false c1.center c2.center
    let pp ← segParallel t false seg c1.radius
    pure (some pp)
  else
    let cA := if c1.radius < c2.radius then c2 else c1
    let cB := if c1.radius < c2.radius then c1 else c2
    let h := ptDist cA.center cB.center
    do
      let l0 ← lineOfPts t (mkPt cA.center.1 cA.center.2) (mkPt cB.center.1 cB.center.2)
      if 1 < (cA.radius - cB.radius) / h then pure none
      else do
        let theta := Real.arcsin ((cA.radius - cB.radius) / h)
        let hcost := h * Real.cos theta
        let pp1 ← tanSide t cA.center cB l0 theta hcost
        let pp2 ← tanSide t cA.center cB l0 (- theta) hcost
        pure (some (if (segDistTo pp1.1 cA.center).1 < (segDistTo pp1.2 cA.center).1 then pp1.2 else pp1.1,
          if (segDistTo pp2.2 cA.center).1 < (segDistTo pp2.1 cA.center).1 then pp2.1 else pp2.2))

end H2d
