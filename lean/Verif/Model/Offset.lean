import Verif.Model.Bisect
import Verif.Model.Polyline

/-! # Offset polygons -/

namespace H2d

/-- One iteration of the loop of `getOffsetPoly()` (homog2d.hpp:6713-6752): the points added for the vertex between the oriented segments
`oseg1` and `oseg2` (`pt1` is the first point of `oseg2`). `split`: `OffsetPolyParams::_angleSplit`. -/
noncomputable def offsetVertex (t : Thr ℝ) (split : Bool) (dist : ℝ) (oseg1 oseg2 : Seg) : Res (List (Pt ℝ)) := do
  let psegs1 ← segParallel t true oseg1 |dist|
  let psegs2 ← segParallel t true oseg2 |dist|
  let pseg1 := if dist < 0 then psegs1.2 else psegs1.1
  let pseg2 := if dist < 0 then psegs2.2 else psegs2.1
  let li1 ← segLine t pseg1
  let li2 ← segLine t pseg2
  if IsParallel t li1 li2 then pure []
  else do
    let ptInt ← lineInter t li1 li2
    if split = false ∨ 0 < osegAngle oseg1 oseg2 ∨ dist < 0 then pure [getXY ptInt]
    else do
      let oseg ← segMake t true oseg2.1 (getXY ptInt)
      let ptCut ← segPointAt t oseg (min (segLength oseg) dist)
      let lo ← segLine t oseg
      let oli ← orthogLine t lo ptCut
      let c1 ← lineInter t oli li1
      let c2 ← lineInter t oli li2
      pure (if PtEq t (getXY c1) (getXY c2) then [getXY c1] else [getXY c1, getXY c2])

/-- The loop (homog2d.hpp:6709-6759), on the pairs of consecutive segments. -/
noncomputable def offsetLoop (t : Thr ℝ) (split : Bool) (dist : ℝ) : List (Seg × Seg) → Res (List (Pt ℝ))
  | [] => .ok []
  | e :: rest => do
    let v ← offsetVertex t split dist e.1 e.2
    let r ← offsetLoop t split dist rest
    pure (v ++ r)

/-- `getOffsetPoly()` on a closed polyline (homog2d.hpp:6677-6762): result, and points of the object after the call. `simple` is what `isSimple()`
gives (6693). The object is not normalised before the call; when it is, its points are not changed (7577). -/
noncomputable def offsetPoly (t : Thr ℝ) (simple split : Bool) (dist : ℝ) (pts : List (Pt ℝ)) : Res (List (Pt ℝ)) × List (Pt ℝ) :=
  if |dist| < t.nullDistance ∨ pts.length < 3 ∨ simple = false then (.ok [], pts)
  else
    match normalizePoly true pts with
    | .ok q =>
      (do
        let osegs ← getOSegs (fun p q => decide (PtEq t p q)) true q
        let out ← offsetLoop t split dist (cycPairs osegs)
        polySet (fun p q => decide (PtEq t p q)) out, q)
    | .throw => (.throw, pts)
    | .ub => (.ub, pts)

end H2d
