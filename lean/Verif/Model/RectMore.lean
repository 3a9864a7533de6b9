import Verif.Model.RectArea
import Verif.Model.Circle

/-!
# More functions of flat rectangles: intersections with lines and circles, circles, diagonals
-/

namespace H2d

open Classical in
/-- Loop of the Line/FRect intersection (homog2d.hpp:9530-9548); `pti` is the vector of points found. -/
noncomputable def rectLineLoop (t : Thr ℝ) (l : V3 ℝ) : List Seg → List (Pt ℝ) → Res (List (Pt ℝ))
  | [], pti => .ok pti
  | seg :: rest, pti => do
    match ← segLineInter t seg l with
    | none => rectLineLoop t l rest pti
    | some pt =>
      let pti' := match pti with
        | [q] => if (PtEq t pt seg.1 ∨ PtEq t pt seg.2) ∧ PtEq t q pt then pti else pti ++ [pt]
        | _ => pti ++ [pt]
      if pti'.length = 2 then pure pti' else rectLineLoop t l rest pti'

/-- Line/FRect intersection (homog2d.hpp:9524-9554), also FRect/Line (3046-3050): the points before the sort of `get()` (2610-2614). -/
noncomputable def rectLineInter (t : Thr ℝ) (r : FRect ℝ) (l : V3 ℝ) : Res (List (Pt ℝ)) := do
  let segs ← rectSegs t r
  rectLineLoop t l segs []

/-- Loop of `p_intersects_R_C` with a circle (homog2d.hpp:3121-3133). More than two points on a side: failed assert (3127). -/
noncomputable def rectCircleLoop (t : Thr ℝ) (c : Pt ℝ) (rad : ℝ) : List Seg → List (Pt ℝ) → Res (List (Pt ℝ))
  | [], pts => .ok pts
  | rseg :: l, pts => do
    match ← segCircle t rseg c rad with
    | [] => rectCircleLoop t c rad l pts
    | [a] => rectCircleLoop t c rad l (setInsert a pts)
    | [a, b] => rectCircleLoop t c rad l (setInsert b (setInsert a pts))
    | _ => .ub

/-- FRect/Circle intersection (homog2d.hpp:3056-3060, 3118-3138), also Circle/FRect. -/
noncomputable def rectCircleInter (t : Thr ℝ) (r : FRect ℝ) (c : Pt ℝ) (rad : ℝ) : Res (List (Pt ℝ)) := do
  let segs ← rectSegs t r
  rectCircleLoop t c rad segs []

/-- `FRect_::getBoundingCircle()` (homog2d.hpp:2818-2822). `flag`: value of `thr::doNotCheckRadius()`. -/
noncomputable def rectBoundingCircle (t : Thr ℝ) (flag : Bool) (r : FRect ℝ) : Res Circle :=
  circleMake t flag r.getCenter (ptDist r.getCenter r.p1)

/-- `FRect_::getInscribedCircle()` (homog2d.hpp:2826-2836, 3221-3223, 9191-9198): built with radius 1, then the radius is overwritten without check. -/
noncomputable def rectInscribedCircle (t : Thr ℝ) (flag : Bool) (r : FRect ℝ) : Res Circle := do
  let segs ← rectSegs t r
  match segs with
  | s0 :: s1 :: _ =>
    let cir ← circleMake t flag r.getCenter 1
    pure { cir with radius := min (segDistTo s0 r.getCenter).1 (segDistTo s1 r.getCenter).1 }
  | _ => .ub

/-- `FRect_::getDiagonals()` (homog2d.hpp:2898-2910). -/
noncomputable def rectDiagonals (t : Thr ℝ) (r : FRect ℝ) : Res (Seg × Seg) := do
  let a ← segMake t false (r.p1.1, r.p1.2) (r.p2.1, r.p2.2)
  let b ← segMake t false (r.p1.1, r.p2.2) (r.p2.1, r.p1.2)
  pure (a, b)

end H2d
