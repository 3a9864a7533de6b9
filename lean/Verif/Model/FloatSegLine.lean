import Verif.Model.FloatCross
import Verif.Model.Inside
import Verif.Model.FloatPip

/-!
# Intersection of a segment and a line with rounded operations

As in `Verif.Model.FloatGeom`: each operation is followed by a rounding, in the order of the code.
-/

namespace H2d.Fl

variable (F : Arith)

open Classical in
/-- Segment/line intersection (homog2d.hpp:8248-8270); `none`: no intersection. The distances to a point whose coordinates are infinite or not numbers are infinite or not numbers: the comparison is false. -/
noncomputable def segLineInter (t : Thr ℝ) (ac : ℝ → ℝ) (s : Seg) (li1 : V3 ℝ) : Res (Option (Pt ℝ)) := do
  let li2 ← lineOfPts F t s.1 s.2
  if isParallel F t ac li1 li2 then pure none
  else do
    match ← lineInter F t ac li1 li2 with
    | none => pure none
    | some p => if Between F t s p then pure (some p) else pure none

/-- Polyline/line intersection (homog2d.hpp:6572-6582 with a line), from the segments of the polyline. -/
noncomputable def segsInterLine (t : Thr ℝ) (ac : ℝ → ℝ) (li : V3 ℝ) : List Seg → Res (List (Pt ℝ)) := concatRes (fun e => do
  let i ← segLineInter F t ac e li
  pure i.toList)

/-- `intersects()` of a polyline and a line (homog2d.hpp:6572-6582, 5328-5332). -/
noncomputable def polyInterLine (t : Thr ℝ) (ac : ℝ → ℝ) (closed : Bool) (pts : List (Pt ℝ)) (li : V3 ℝ) : Res (List (Pt ℝ)) := do
  let segs ← polySegs F t (segPairs closed pts)
  segsInterLine F t ac li segs

end H2d.Fl
