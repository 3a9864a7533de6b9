import Verif.Model.FloatGeom
import Verif.Model.Simple

/-! # Centroid of a polygon with rounded operations -/

namespace H2d.Fl

variable (F : Arith)

/-- `prod` (homog2d.hpp:7541). -/
def edgeProd (e : Pt ℝ × Pt ℝ) : ℝ := F.rnd (F.rnd (e.1.1 * e.2.2) - F.rnd (e.2.1 * e.1.2))

/-- `cx`, before the division (homog2d.hpp:7529, 7531-7542). -/
def momentX (pts : List (Pt ℝ)) : ℝ := (cycPairs pts).foldl (fun s e => F.rnd (s + F.rnd (F.rnd (e.1.1 + e.2.1) * edgeProd F e))) 0

/-- `cy`, before the division (homog2d.hpp:7530-7543). -/
def momentY (pts : List (Pt ℝ)) : ℝ := (cycPairs pts).foldl (fun s e => F.rnd (s + F.rnd (F.rnd (e.1.2 + e.2.2) * edgeProd F e))) 0

open Classical in
/-- The point computed by `centroid()` (homog2d.hpp:7529-7549). `none`: division by zero, the coordinates are not finite numbers. -/
noncomputable def centroidRaw (pts : List (Pt ℝ)) : Option (Pt ℝ) :=
  let d := F.rnd (6 * signedArea F pts)
  if d = 0 then none else some (F.rnd (momentX F pts / d), F.rnd (momentY F pts / d))

/-- `centroid()` when the cache is not valid (homog2d.hpp:7522-7553). -/
noncomputable def centroid (t : Thr ℝ) (ac : ℝ → ℝ) (closed : Bool) (pts : List (Pt ℝ)) : Res (Option (Pt ℝ)) := do
  if ← simpleF F t ac closed pts then pure (centroidRaw F pts) else .throw

end H2d.Fl
