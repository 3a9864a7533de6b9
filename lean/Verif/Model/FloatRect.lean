import Verif.Model.FloatPip
import Verif.Model.RectArea

/-!
# Intersection of two rectangles with rounded operations

Same conventions as in `FloatGeom`. Comparisons of coordinates, `std::min` and `std::max` are exact.
-/

namespace H2d.Fl

variable (F : Arith)

open Classical in
/-- `operator ==` on rectangles (homog2d.hpp:3082-3089). -/
noncomputable def rectEqB (t : Thr ℝ) (a b : FRect ℝ) : Bool := decide (PtSame F t a.p1 b.p1) && decide (PtSame F t a.p2 b.p2)

open Classical in
/-- Loop of the FRect/Segment intersection (homog2d.hpp:3156-3171). -/
noncomputable def rectSegLoop (t : Thr ℝ) (ac : ℝ → ℝ) (seg : Seg) : List Seg → List (Pt ℝ) → Res (List (Pt ℝ))
  | [], out => .ok out
  | rseg :: l, out => do
    match ← segInter F t ac rseg seg with
    | none => rectSegLoop t ac seg l out
    | some pt =>
      let out' := match out with
        | [q] => if PtSame F t q pt then out else out ++ [pt]
        | _ => out ++ [pt]
      if out'.length = 2 then pure out' else rectSegLoop t ac seg l out'

/-- FRect/Segment intersection (homog2d.hpp:3149-3173). -/
noncomputable def rectSegInter (t : Thr ℝ) (ac : ℝ → ℝ) (r : FRect ℝ) (seg : Seg) : Res (List (Pt ℝ)) := do
  let l ← rectSegs F t r
  rectSegLoop F t ac seg l []

/-- Loop of `p_intersects_R_C` with a rectangle (homog2d.hpp:3121-3133). -/
noncomputable def rectLoop (t : Thr ℝ) (ac : ℝ → ℝ) (other : FRect ℝ) : List Seg → List (Pt ℝ) → Res (List (Pt ℝ))
  | [], pts => .ok pts
  | rseg :: l, pts => do
    match ← rectSegInter F t ac other rseg with
    | [] => rectLoop t ac other l pts
    | [a] => rectLoop t ac other l (setInsert a pts)
    | [a, b] => rectLoop t ac other l (setInsert b (setInsert a pts))
    | _ => .ub

/-- FRect/FRect intersection (homog2d.hpp:3071-3076, 3118-3138), sorted points. -/
noncomputable def rectInter (t : Thr ℝ) (ac : ℝ → ℝ) (a b : FRect ℝ) : Res (List (Pt ℝ)) :=
  if rectEqB F t a b then .ok []
  else do
    let l ← rectSegs F t a
    rectLoop F t ac b l []

/-- `intersectArea` (homog2d.hpp:7717-7819), as `H2d.intersectArea`. A failed assertion is `ub`. -/
noncomputable def intersectArea (t : Thr ℝ) (ac : ℝ → ℝ) (a b : FRect ℝ) : Res (Option (FRect ℝ)) :=
  if rectEqB F t a b then .ok (some b)
  else do
    match ← rectInter F t ac a b with
    | [] =>
      if a.isInsideRect b then pure (some a)
      else if b.isInsideRect a then pure (some b)
      else pure none
    | [_] => pure none
    | [v0, _, _, v3] => do
      let r ← rectOfPts F t v0 v3
      pure (some r)
    | [v0, v1, v2] =>
      let xmin := min v0.1 (min v1.1 v2.1)
      let ymin := min v0.2 (min v1.2 v2.2)
      let xmax := max v0.1 (max v1.1 v2.1)
      let ymax := max v0.2 (max v1.2 v2.2)
      if ¬ (F.rnd (xmax - xmin) > t.nullOrthogDistance) then .ub
      else if ¬ (F.rnd (ymax - ymin) > t.nullOrthogDistance) then .ub
      else do
        let r ← rectOfPts F t (xmin, ymin) (xmax, ymax)
        pure (some r)
    | [i0, i1] =>
      match pointsInside a b, pointsInside b a with
      | [], [] => pure none
      | [_], [_] => do
        let r ← rectOfPts F t i0 i1
        pure (some r)
      | [q0, q1], [] => pure (some (FRect.of4Pts i0 i1 q0 q1))
      | [], [q0, q1] => pure (some (FRect.of4Pts i0 i1 q0 q1))
      | _, _ => .ub
    | _ => .ub

end H2d.Fl
