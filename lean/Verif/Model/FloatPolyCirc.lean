import Verif.Model.FloatSegCirc
import Verif.Model.FloatPip
import Verif.Model.RectMore
import Verif.Model.Inside

/-!
# Intersections of polylines and rectangles with a circle, with rounded operations

As in `Verif.Model.FloatGeom`: each operation is followed by a rounding, in the order of the code.
-/

namespace H2d.Fl

variable (F : Arith)

/-- Loop of `intersects()` of a polyline (homog2d.hpp:6575-6580) with a circle. `none`: a coordinate is not a number. -/
noncomputable def segsInterCircle (t : Thr ℝ) (c : Pt ℝ) (r : ℝ) : List Seg → Res (Option (List (Pt ℝ)))
  | [] => .ok (some [])
  | e :: l => do
    let i ← segCircle F t e c r
    let rest ← segsInterCircle t c r l
    pure (match i, rest with
      | some a, some b => some (a ++ b)
      | _, _ => none)

/-- `intersects()` of a polyline and a circle (homog2d.hpp:6572-6582). -/
noncomputable def polyInterCircle (t : Thr ℝ) (closed : Bool) (pts : List (Pt ℝ)) (c : Pt ℝ) (r : ℝ) : Res (Option (List (Pt ℝ))) := do
  let segs ← polySegs F t (segPairs closed pts)
  segsInterCircle F t c r segs

/-- Loop of `p_intersects_R_C` with a circle (homog2d.hpp:3121-3133). More than two points on a side: failed assert (3127). Points whose coordinates are not numbers (`none`) are not ordered: simplified, the result is `none`. -/
noncomputable def rectCircleLoop (t : Thr ℝ) (c : Pt ℝ) (rad : ℝ) : List Seg → List (Pt ℝ) → Res (Option (List (Pt ℝ)))
  | [], pts => .ok (some pts)
  | rseg :: l, pts => do
    match ← segCircle F t rseg c rad with
    | none => pure none
    | some [] => rectCircleLoop t c rad l pts
    | some [a] => rectCircleLoop t c rad l (setInsert a pts)
    | some [a, b] => rectCircleLoop t c rad l (setInsert b (setInsert a pts))
    | some _ => .ub

/-- FRect/Circle intersection (homog2d.hpp:3056-3060, 3118-3138), also Circle/FRect. -/
noncomputable def rectCircleInter (t : Thr ℝ) (r : FRect ℝ) (c : Pt ℝ) (rad : ℝ) : Res (Option (List (Pt ℝ))) := do
  let segs ← rectSegs F t r
  rectCircleLoop F t c rad segs []

end H2d.Fl
