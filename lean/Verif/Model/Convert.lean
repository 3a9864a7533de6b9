import Verif.Model.Simple
import Verif.Model.FloatGeom

/-!
# Conversions between number types

`F` is the arithmetic of the target type (storing a value rounds it), `G` the one of the source type, in which the constructors compare the points they are given.
-/

namespace H2d.Conv

variable (G F : Arith)

/-- `p_copyFrom` (homog2d.hpp:4026-4031), for points and lines: the three values are converted, without normalisation. -/
def vec (v : V3 ℝ) : V3 ℝ := fun i => F.rnd (v i)

/-- Conversion of a point whose third value is 1 (homog2d.hpp:4036-4039). -/
def pt (p : Pt ℝ) : Pt ℝ := (F.rnd p.1, F.rnd p.2)

/-- Converting constructor of a rectangle (homog2d.hpp:2726-2729): no check. -/
def rect (r : FRect ℝ) : FRect ℝ := ⟨pt F r.p1, pt F r.p2⟩

open Classical in
/-- `set(pa,pb)` of a rectangle with points of another type (homog2d.hpp:2764-2770, 1346-1357): the check and the order come first. -/
noncomputable def rectSet (t : Thr ℝ) (p q : Pt ℝ) : Res (FRect ℝ) := do
  let r ← Fl.rectOfPts G t p q
  pure (rect F r)

/-- Converting constructor of a circle (homog2d.hpp:3286-3289): no check. -/
def circ (c : Pt ℝ × ℝ) : Pt ℝ × ℝ := (pt F c.1, F.rnd c.2)

/-- Converting constructor of a segment (homog2d.hpp:4935-4947); no check; the order is fixed when the source is not oriented. -/
noncomputable def seg (srcOriented : Bool) (s : Seg) : Seg := segConvert srcOriented (pt F s.1, pt F s.2)

open Classical in
/-- Constructor of a segment from points of another type (homog2d.hpp:4899-4911): the points are compared before the conversion. -/
noncomputable def segOf (t : Thr ℝ) (oriented : Bool) (p q : Pt ℝ) : Res Seg :=
  if Fl.PtSame G t p q then .throw else .ok (if oriented then (pt F p, pt F q) else fixOrder (pt F p) (pt F q))

open Classical in
/-- Converting constructor of a polyline (homog2d.hpp:6140-6155), `set` with points of another type (6457-6479): the points are compared before the conversion. -/
noncomputable def poly (t : Thr ℝ) (pts : List (Pt ℝ)) : Res (List (Pt ℝ)) := do
  let l ← polySet (fun a b => decide (Fl.PtSame G t a b)) pts
  pure (l.map (pt F))

/-- Conversion of a matrix (homog2d.hpp:1486-1493). -/
def mat (a : Mat ℝ) : Mat ℝ := fun i j => F.rnd (a i j)

end H2d.Conv
