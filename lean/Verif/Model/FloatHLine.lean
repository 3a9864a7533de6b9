import Verif.Model.FloatInverse

/-! # Product of a homography and a line with rounded operations -/

namespace H2d.Fl

variable (F : Arith)

/-- Normalisation of a homography by its value at (2,2) (homog2d.hpp:1562-1577, 1581-1587). The value at (2,2) is the last to be changed by the divisions. Changes of sign are exact. -/
noncomputable def normalizeMat (t : Thr ℝ) (m : Mat ℝ) : Res (Mat ℝ) :=
  if |m 2 2| < t.nullDenom then .throw
  else
    let n : Mat ℝ := fun i j => F.rnd (m i j / m 2 2)
    .ok (if n 2 2 < 0 then fun i j => - n i j else n)

/-- `inverse()` of a homography (homog2d.hpp:1816-1821). -/
noncomputable def homInverse (t : Thr ℝ) (m : Mat ℝ) : Res (Mat ℝ) := (inverse F t m).bind (normalizeMat F t)

/-- Product with a line (homog2d.hpp:9676-9697), when the stored matrix has to be computed; that a stored matrix is the one that would be computed is the subject of C13. -/
noncomputable def lineImage (t : Thr ℝ) (m : Mat ℝ) (l : V3 ℝ) : Res (V3 ℝ) :=
  (homInverse F t m).bind fun b => normalizeLine F t (app F b.transpose l)

end H2d.Fl
