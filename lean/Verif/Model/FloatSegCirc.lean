import Verif.Model.FloatCross

/-!
# Intersection of a segment and a circle with rounded operations

As in `Verif.Model.FloatGeom`: each operation is followed by a rounding, in the order of the code.
-/

namespace H2d.Fl

variable (F : Arith)

/-- `getPtLabel` (homog2d.hpp:8171-8181, 4369-4390). -/
noncomputable def ptLabel (t : Thr ℝ) (p c : Pt ℝ) (r : ℝ) : PtTag :=
  if distPt F p c < r then .inside
  else if |F.rnd (distPt F p c - r)| < t.nullDistance then .onEdge
  else .outside

open Classical in
/-- Segment/circle intersection (homog2d.hpp:8295-8351, 9503): the list of intersection points. `none`: a coordinate is not a number. -/
noncomputable def segCircle (t : Thr ℝ) (s : Seg) (c : Pt ℝ) (r : ℝ) : Res (Option (List (Pt ℝ))) :=
  let tag1 := ptLabel F t s.1 c r
  let tag2 := ptLabel F t s.2 c r
  if tag1 = .inside ∧ tag2 = .inside then .ok (some [])
  else do
    let li ← lineOfPts F t s.1 s.2
    match lineCircle F li c r with
    | none => pure none
    | some none => pure (some [])
    | some (some pts) =>
      let p1 := (fixOrder pts.1 pts.2).1
      let p2 := (fixOrder pts.1 pts.2).2
      if (tag1 = .inside ∧ tag2 = .outside) ∨ (tag1 = .outside ∧ tag2 = .inside) then
        if Between F t s p1 then pure (some [p1]) else pure (some [p2])
      else if tag1 = .outside ∧ tag2 = .outside then
        if Between F t s p1 then pure (some [p1, p2]) else pure (some [])
      else pure (some ((if tag1 = .onEdge then [s.1] else []) ++ (if tag2 = .onEdge then [s.2] else [])))

end H2d.Fl
