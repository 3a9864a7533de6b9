import Verif.Model.FloatInter
import Verif.Model.Line

/-!
# Coordinates, sides, points and parallels of a line with rounded operations

Same conventions as in `FloatGeom` and `FloatInter`. Changes of sign are exact.
-/

namespace H2d.Fl

variable (F : Arith)

/-- `side()` (homog2d.hpp:9833-9844). -/
noncomputable def lineSide (t : Thr ℝ) (p : Pt ℝ) (l : V3 ℝ) : Int :=
  let d := F.rnd (F.rnd (F.rnd (l 0 * p.1) + F.rnd (l 1 * p.2)) + l 2)
  if |d| < t.nullDistance then 0 else if d < 0 then -1 else 1

/-- `getCoord` (homog2d.hpp:8835-8850); `givenX`: the given coordinate is x. -/
noncomputable def lineCoord (t : Thr ℝ) (l : V3 ℝ) (givenX : Bool) (v : ℝ) : Res ℝ :=
  if |if givenX then l 1 else l 0| < t.nullDenom then .throw
  else if givenX then .ok (F.rnd (F.rnd (F.rnd (- l 0 * v) - l 2) / l 1)) else .ok (F.rnd (F.rnd (F.rnd (- l 1 * v) - l 2) / l 0))

/-- `getPoints_B2` (homog2d.hpp:3717-3734); `none`: values that are not numbers. -/
noncomputable def getPointsB2 (l : V3 ℝ) (p : Pt ℝ) (dist : ℝ) : Option (Pt ℝ × Pt ℝ) := do
  let s ← sqrtF F (norm2 F (l 0) (l 1))
  let coeff ← divF F dist s
  pure (fixOrder (F.rnd (p.1 - F.rnd (l 1 * coeff)), F.rnd (p.2 + F.rnd (l 0 * coeff))) (F.rnd (p.1 + F.rnd (l 1 * coeff)), F.rnd (p.2 - F.rnd (l 0 * coeff))))

/-- `getPoints` (homog2d.hpp:8858-8874). -/
noncomputable def getPoints (t : Thr ℝ) (l : V3 ℝ) (p : Pt ℝ) (dist : ℝ) : Res (Option (Pt ℝ × Pt ℝ)) :=
  if lineDist F l p > t.nullDistance then .throw else .ok (getPointsB2 F l p dist)

/-- `getParallelLine(pt)` (homog2d.hpp:8972-8980). -/
noncomputable def parallelLine (t : Thr ℝ) (l : V3 ℝ) (p : Pt ℝ) : Res (V3 ℝ) :=
  normalizeLine F t ![l 0, l 1, F.rnd (F.rnd (- l 0 * p.1) - F.rnd (l 1 * p.2))]

/-- `getParallelLines(dist)` (homog2d.hpp:8988-8997). -/
def parallelLines (l : V3 ℝ) (d : ℝ) : V3 ℝ × V3 ℝ := (![l 0, l 1, F.rnd (l 2 + d)], ![l 0, l 1, F.rnd (l 2 - d)])

/-- `getParallelDistance` (homog2d.hpp:10973-10991); `ac` is `std::acos`, `none` is a value that is not a number. -/
noncomputable def parallelDistance (t : Thr ℝ) (ac : ℝ → ℝ) (l m : V3 ℝ) : Res (Option ℝ) :=
  if isParallel F t ac l m = false then .throw
  else .ok (do
    let a ← sqrtF F (F.rnd (l 0 * m 0))
    let b ← sqrtF F (F.rnd (l 1 * m 1))
    let s ← sqrtF F (norm2 F a b)
    divF F |F.rnd (l 2 - m 2)| s)

end H2d.Fl
