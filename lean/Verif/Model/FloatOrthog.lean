import Verif.Model.FloatMec
import Verif.Model.FloatParallel

/-!
# Orthogonal lines and segments with rounded operations

Same conventions as in `FloatGeom` and `FloatInter`. `getOrthogLine(pt)` (homog2d.hpp:8898-8913) is `orthogLine` of `FloatMec`.
-/

namespace H2d.Fl

variable (F : Arith)

/-- `getOrthogLine( GivenCoord, value )` (homog2d.hpp:8879-8892); `givenX`: the value is x. -/
noncomputable def orthogLineAt (t : Thr ℝ) (l : V3 ℝ) (givenX : Bool) (v : ℝ) : Res (V3 ℝ) := do
  let c ← lineCoord F t l givenX v
  let p : Pt ℝ := (c, v)
  let p := if givenX then (v, c) else p
  orthogLine F t l p

open Classical in
/-- `getOrthogSegment` (homog2d.hpp:8945-8965): first and second point of the oriented segment; `none`: the first point has coordinates that are infinite or not numbers. Building the segment throws when
the points are equal (homog2d.hpp:4900-4909); the comparison is false with such coordinates. -/
noncomputable def orthogSegment (t : Thr ℝ) (ac : ℝ → ℝ) (l : V3 ℝ) (p : Pt ℝ) : Res (Option (Pt ℝ × Pt ℝ)) :=
  let dist := lineDist F l p
  if dist < t.nullDistance then .throw
  else do
    let pl := parallelLines F l dist
    let pline := if lineDist F pl.2 p < t.nullDistance then pl.2 else pl.1
    let oline ← orthogLine F t pline p
    match ← lineInter F t ac l oline with
    | none => pure none
    | some q => if PtSame F t q p then .throw else pure (some (q, p))

end H2d.Fl
