import Verif.Model.FloatInter
import Verif.Model.Segment

/-!
# Intersections of lines and segments with rounded operations

As in `Verif.Model.FloatGeom`: each operation is followed by a rounding, in the order of the code.
-/

namespace H2d.Fl

variable (F : Arith)

/-- Coordinates of the product of two lines (homog2d.hpp:9632-9642, 4133-4142); `none`: the third value is null, the coordinates are infinite or not numbers. -/
noncomputable def crossXY (l m : V3 ℝ) : Option (Pt ℝ) :=
  let w := crossProd F l m
  if w 2 = 0 then none else some (getXY F w)

/-- Product of two lines (homog2d.hpp:9632-9642), from its coordinates. -/
noncomputable def lineInter (t : Thr ℝ) (ac : ℝ → ℝ) (l m : V3 ℝ) : Res (Option (Pt ℝ)) :=
  if isParallel F t ac l m then .throw else .ok (crossXY F l m)

/-- `operator ==` of segments (homog2d.hpp:5113-5120). -/
abbrev SegSame (t : Thr ℝ) (s s' : Seg) : Prop := PtSame F t s.1 s'.1 ∧ PtSame F t s.2 s'.2

/-- The test `homog2d_abs(d1+d2-length()) < thr::nullDistance()` (homog2d.hpp:8227-8229, 8231-8233). -/
abbrev Between (t : Thr ℝ) (s : Seg) (p : Pt ℝ) : Prop := |F.rnd (F.rnd (distPt F s.1 p + distPt F s.2 p) - distPt F s.1 s.2)| < t.nullDistance

open Classical in
/-- Segment/segment intersection (homog2d.hpp:8209-8237); `none`: no intersection. The distances to a point whose coordinates are infinite or not numbers are infinite or not numbers:
the comparison is false. -/
noncomputable def segInter (t : Thr ℝ) (ac : ℝ → ℝ) (s s' : Seg) : Res (Option (Pt ℝ)) :=
  if SegSame F t s s' then .ok none
  else do
    let l1 ← lineOfPts F t s.1 s.2
    let l2 ← lineOfPts F t s'.1 s'.2
    if isParallel F t ac l1 l2 then pure none
    else do
      match ← lineInter F t ac l1 l2 with
      | none => pure none
      | some p =>
        if Between F t s p then
          if Between F t s' p then pure (some p)
          else pure none
        else pure none

end H2d.Fl
