import Verif.Model.Inside
import Verif.Model.RectMore

/-!
# Axes and oriented bounding box of ellipses, orthogonal segments, arrows, points inside
-/

namespace H2d

namespace Ell

/-- Point of the ellipse on the major axis, center, and line through both, from the parameters (homog2d.hpp:8634-8642, 8687-8697). -/
noncomputable def axisPts (p : Par) : Pt ℝ × Pt ℝ :=
  let dy := p.sint * p.a
  let dx := p.cost * p.a
  ((p.x0 + dx, p.y0 + dy), (p.x0, p.y0))

/-- `getAxisLines()` (homog2d.hpp:8632-8647). -/
noncomputable def axisLines (t : Thr ℝ) (e : Ell) : Res (V3 ℝ × V3 ℝ) := do
  let par ← params t e.m
  let pp := axisPts par
  let liH ← lineOfPts t (mkPt pp.1.1 pp.1.2) (mkPt pp.2.1 pp.2.2)
  let liV ← orthogLine t liH pp.2
  pure (liH, liV)

open Classical in
/-- `getOBB()` (homog2d.hpp:8684-8735), without `HOMOG2D_DEBUGMODE`: the points of the closed polyline. -/
noncomputable def obb (t : Thr ℝ) (e : Ell) : Res (List (Pt ℝ)) := do
  let par ← params t e.m
  let pp := axisPts par
  let liH ← lineOfPts t (mkPt pp.1.1 pp.1.2) (mkPt pp.2.1 pp.2.2)
  let ppts ← getPoints t liH pp.2 par.a
  let ptB := if PtEq t ppts.1 pp.1 then ppts.2 else ppts.1
  let para := parallelLines liH par.b
  let liV1 ← orthogLine t liH pp.1
  let liV2 ← orthogLine t liH ptB
  let p1 ← lineInter t para.1 liV1
  let p2 ← lineInter t para.2 liV1
  let p3 ← lineInter t para.2 liV2
  let p4 ← lineInter t para.1 liV2
  addPoints (fun p q => decide (PtEq t p q)) [] [getXY p1, getXY p2, getXY p3, getXY p4]

end Ell

/-- `getOrthogSegs()` (homog2d.hpp:5243-5252). -/
noncomputable def segOrthogSegs (t : Thr ℝ) (s : Seg) : Res (List Seg) := do
  let p := segOrthogPts s
  let s0 ← segMake t false s.1 p.1
  let s1 ← segMake t false s.1 p.2.1
  let s2 ← segMake t false s.2 p.2.2.1
  let s3 ← segMake t false s.2 p.2.2.2
  pure [s0, s1, s2, s3]

open Classical in
/-- `priv::getArrowSegments()` (homog2d.hpp:11809-11836): the bar at the first point, and the two segments of the head. -/
noncomputable def arrowSegs (t : Thr ℝ) (s : Seg) : Res ((Pt ℝ × Pt ℝ) × (Pt ℝ × Pt ℝ) × (Pt ℝ × Pt ℝ)) := do
  let li ← segLine t s
  let liA ← orthogLine t li s.1
  let bar ← getPoints t liA s.1 8
  let pB ← getPoints t li s.2 8
  let p0 := if ptDist s.1 pB.1 > ptDist s.1 pB.2 then pB.2 else pB.1
  let liB ← orthogLine t li p0
  let pC ← getPoints t liB p0 8
  pure (bar, (pC.1, s.2), (pC.2, s.2))

/-- Loop of `getPtsInside()` (homog2d.hpp:11229-11235), from the test of one point. -/
def keepRes {α : Type} (f : α → Res Bool) : List α → Res (List α)
  | [] => .ok []
  | a :: l => do
    let b ← f a
    let r ← keepRes f l
    pure (if b then a :: r else r)

/-- `getPtsInside()` for circles, rectangles, ellipses (homog2d.hpp:11216-11236). -/
noncomputable def ptsInShape (t : Thr ℝ) (sh : Shape) (pts : List (Pt ℝ)) : Res (List (Pt ℝ)) := keepRes (ptInShape t sh) pts

/-- `getPtsInside()` for closed polylines (homog2d.hpp:11216-11236). -/
noncomputable def ptsInPoly (t : Thr ℝ) (poly pts : List (Pt ℝ)) : Res (List (Pt ℝ)) := keepRes (ptInsidePoly t true poly) pts

/-- Backend-independent drawing of a line (homog2d.hpp:11717-11740): the segment that is drawn, if any, on an image of `cols` columns and `rows` rows.
A failed `assert` is `ub`. The sort of the intersection points (2610-2614) is the one of the constructor of the segment. -/
noncomputable def lineDrawn (t : Thr ℝ) (cols rows : ℕ) (l : V3 ℝ) : Res (Option Seg) :=
  if rows ≤ 2 ∨ cols ≤ 2 then .ub
  else do
    let r ← FRect.ofPts t.nullOrthogDistance ((0 : ℝ), (0 : ℝ)) ((cols : ℝ) - 1, (rows : ℝ) - 1)
    match ← rectLineInter t r l with
    | [p, q] => do
      let s ← segMake t false p q
      pure (some s)
    | _ => pure none

end H2d
