import Verif.Model.Segment
import Mathlib.Analysis.SpecialFunctions.Trigonometric.Basic

/-! # Construction of particular polygons: regular polygons, parallelograms -/

namespace H2d

/-- Point of index `i` of a regular polygon (homog2d.hpp:6824, 6831-6833, 6845); `std::cos`, `std::sin` are the exact functions. -/
noncomputable def regPoint (rad : ℝ) (n i : ℕ) : Pt ℝ :=
  let angle := 2 * Real.pi / n * i
  (Real.cos angle * rad, Real.sin angle * rad)

/-- Constructor of a line from one point (homog2d.hpp:3869-3872, 4036-4045): line through this point and (0,0). -/
noncomputable def lineOfPt (t : Thr ℝ) (p : Pt ℝ) : Res (V3 ℝ) := normalizeLine t (crossProd (mkPt p.1 p.2) (mkPt 0 0))

/-- `set( rad, n )`: regular polygon of `n` points on the circle of radius `rad` (homog2d.hpp:6802-6854): the points, and the two returned values.
The integral argument can be negative. A failed `assert` (6841) is `ub`. -/
noncomputable def regPoly (t : Thr ℝ) (rad : ℝ) (ni : ℤ) : Res (List (Pt ℝ) × ℝ × ℝ) :=
  if ni < 3 then .throw
  else if rad ≤ 0 then .throw
  else do
    let n := ni.toNat
    let seg ← segMake t false (rad, 0) (regPoint rad n 1)
    let li ← lineOfPt t (segCenter seg)
    match ← segLineInter t seg li with
    | none => .ub
    | some q => do
      let radius := ptDist (0, 0) q
      let pts ← polySet (fun p q => decide (PtEq t p q)) ((List.range n).map (regPoint rad n))
      let p0 ← getPoint pts 0
      let p1 ← getPoint pts 1
      pure (pts, ptDist p0 p1, radius)

/-- `setParallelogram( p1, p2, p3 )` (homog2d.hpp:6769-6792): the points of the polyline. -/
noncomputable def parallelogram (t : Thr ℝ) (p1 p2 p3 : Pt ℝ) : Res (List (Pt ℝ)) := do
  let li21 ← lineOfPts t (mkPt p1.1 p1.2) (mkPt p2.1 p2.2)
  let li23 ← lineOfPts t (mkPt p3.1 p3.2) (mkPt p2.1 p2.2)
  let li34 ← parallelLine t li21 p3
  let li14 ← parallelLine t li23 p1
  let p4 ← lineInter t li34 li14
  polySet (fun p q => decide (PtEq t p q)) [p1, p2, p3, getXY p4]

end H2d
