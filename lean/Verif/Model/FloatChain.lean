import Verif.Model.FloatHLine

/-!
# Transformations added to a homography, rotated lines, with rounded operations

Same conventions as in `FloatGeom`. `co`, `si` are `std::cos`, `std::sin` as computed.
-/

namespace H2d.Fl

variable (F : Arith) (co si : ℝ → ℝ)

/-- Transformations that can be added to a homography (homog2d.hpp:1859-1949). `addScale( k )` is `scale k k` (1913-1917). -/
inductive Trans
  | translation (tx ty : ℝ)
  | rotation (theta : ℝ)
  | scale (kx ky : ℝ)

/-- Matrix of a single transformation, `setTranslation`, `setRotation`, `setScale` (homog2d.hpp:1874-1885, 1898-1909, 1938-1949): the values are rounded to the type of the matrix when they are stored. -/
noncomputable def transMat : Trans → Mat ℝ
  | .translation tx ty => Mat.translation (F.rnd tx) (F.rnd ty)
  | .rotation theta => Mat.rotation (F.rnd (co theta)) (F.rnd (si theta))
  | .scale kx ky => Mat.scale (F.rnd kx) (F.rnd ky)

/-- `addTranslation`, `addRotation`, `addScale` (homog2d.hpp:1863-1871, 1887-1895, 1911-1928), with the product and its normalisation (1971-1978); only the values of the matrix are modelled, see `Hom` for the flags. -/
noncomputable def addTrans (t : Thr ℝ) (m : Mat ℝ) (o : Trans) : Res (Mat ℝ) := normalizeMat F t (mul F (transMat F co si o) m)

/-- Transformations added one after the other. -/
noncomputable def addAll (t : Thr ℝ) : Mat ℝ → List Trans → Res (Mat ℝ)
  | m, [] => .ok m
  | m, o :: os => (addTrans F co si t m o).bind fun m' => addAll t m' os

/-- Product of a homography and a point (homog2d.hpp:9665-9673, 9608-9621), then `getX()`, `getY()`. -/
noncomputable def ptImage (m : Mat ℝ) (p : Pt ℝ) : Pt ℝ := getXY F (app F m (mkPt p.1 p.2))

/-- `getRotatedLine( pt, theta )` (homog2d.hpp:8919-8935). -/
noncomputable def rotatedLine (t : Thr ℝ) (l : V3 ℝ) (p : Pt ℝ) (theta : ℝ) : Res (V3 ℝ) :=
  if lineDist F l p > t.nullDistance then .throw
  else do
    let m ← addAll F co si t Mat.eye [.translation (- p.1) (- p.2), .rotation theta, .translation p.1 p.2]
    lineImage F t m l

end H2d.Fl
