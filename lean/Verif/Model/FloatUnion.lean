import Verif.Model.FloatRect

/-!
# Union of two rectangles and IoU with rounded operations

Same conventions as in `FloatGeom`. `at2` is `std::atan2`.
-/

namespace H2d.Fl

variable (F : Arith)

open Classical in
/-- `operator ==` on points (homog2d.hpp:9020-9029), as a Boolean. -/
noncomputable def ptSameB (t : Thr ℝ) (p q : Pt ℝ) : Bool := decide (PtSame F t p q)

open Classical in
/-- The test of `p_minimizePL` (homog2d.hpp:7331-7338) with `thr = nullAngleValue()`. The difference of two equal numbers is `+0`, so that the sign of zeros plays no role. -/
noncomputable def sameAngle (at2 : ℝ → ℝ → ℝ) (thr : ℝ) (prev cur next : Pt ℝ) : Bool :=
  let vx1 := F.rnd (next.1 - cur.1)
  let vy1 := F.rnd (next.2 - cur.2)
  let vx2 := F.rnd (cur.1 - prev.1)
  let vy2 := F.rnd (cur.2 - prev.2)
  decide (|F.rnd (at2 vx1 vy1 - at2 vx2 vy2)| < thr)

/-- `unionArea` (homog2d.hpp:8089-8156): the points of the returned polyline. The coordinates are only compared and copied. -/
noncomputable def unionArea (t : Thr ℝ) (ac : ℝ → ℝ) (at2 : ℝ → ℝ → ℝ) (a b : FRect ℝ) : Res (List (Pt ℝ)) :=
  if rectEqB F t a b then .ok b.get4Pts
  else do
    match ← rectInter F t ac a b with
    | [] =>
      if a.isInsideRect b then pure b.get4Pts
      else if b.isInsideRect a then pure a.get4Pts
      else pure []
    | _ =>
      if a.p1.1 < b.p1.1 then unionTable (ptSameB F t) (sameAngle F at2 t.nullAngleValue) b a
      else unionTable (ptSameB F t) (sameAngle F at2 t.nullAngleValue) a b

/-- `area()` of a new polyline (homog2d.hpp:7485-7493). -/
noncomputable def polyArea (t : Thr ℝ) (ac : ℝ → ℝ) (closed : Bool) (pts : List (Pt ℝ)) : Res ℝ := do
  if ← simpleF F t ac closed pts then pure |signedArea F pts| else pure 0

/-- `IoU` (homog2d.hpp:9860-9866). A division by 0 is `ub`. -/
noncomputable def rectIoU (t : Thr ℝ) (ac : ℝ → ℝ) (at2 : ℝ → ℝ → ℝ) (a b : FRect ℝ) : Res ℝ := do
  match ← intersectArea F t ac a b with
  | some r => do
    let pts ← unionArea F t ac at2 a b
    let ar ← polyArea F t ac true pts
    if ar = 0 then .ub else pure (F.rnd (rectArea F r / ar))
  | none => pure 0

end H2d.Fl
