import Verif.Model.Homogr
import Verif.Model.Polyline
import Mathlib.Data.Real.Archimedean

/-!
# Data exchanged with OpenCV and Boost Geometry

The classes of these libraries are modelled by the data that the code reads and writes. `double` is the type of the homographies and of the points.
-/

namespace H2d

variable {K : Type} [Field K] [LinearOrder K]

/-- Element types of a `cv::Mat`: `CV_64F`, `CV_32F`, or another one. -/
inductive CvType where
  | f64 | f32 | other
  deriving DecidableEq

/-- A `cv::Mat`: size, number of channels, type, and values of the elements row after row. -/
structure CvMat (K : Type) where
  rows : ℕ
  cols : ℕ
  channels : ℕ
  type : CvType
  data : List K

/-- What is stored in an element (homog2d.hpp:11660, 11664): the type `float` rounds the value with `r32`. -/
def CvType.store (r32 : K → K) : CvType → K → K
  | .f32, x => r32 x
  | _, x => x

/-- `Hmatrix_::copyTo()` (homog2d.hpp:11645-11668): result and new content of `mat`. `create()` sets the size and the type, and element `i` is `data[i/3][i%3]`. -/
def Hom.copyTo (r32 : K → K) (h : Hom K) (mat : CvMat K) (type : CvType) : Res Unit × CvMat K :=
  if type ≠ .f64 ∧ type ≠ .f32 then (.throw, mat)
  else (.ok (), { rows := 3, cols := 3, channels := 1, type := type, data := (List.range 9).map fun i => type.store r32 (h.m (Fin.ofNat 3 (i / 3)) (Fin.ofNat 3 (i % 3))) })

/-- The loop that fills the matrix of the homography (homog2d.hpp:11688-11690, 11692-11694): element `i` goes to `data[i/3][i%3]`. -/
def fillMat (m : Mat K) : ℕ → List K → Mat K
  | _, [] => m
  | i, x :: xs => fillMat (m.write (Fin.ofNat 3 (i / 3)) (Fin.ofNat 3 (i % 3)) x) (i + 1) xs

/-- `operator = ( const cv::Mat& )` (homog2d.hpp:11671-11699): neither `_isNormalized` nor `_hasChanged` is set. -/
def Hom.assignCv (h : Hom K) (mat : CvMat K) : Res Unit × Hom K :=
  if mat.rows ≠ 3 ∨ mat.cols ≠ 3 then (.throw, h)
  else if mat.channels ≠ 1 then (.throw, h)
  else if mat.type ≠ .f64 ∧ mat.type ≠ .f32 then (.throw, h)
  else (.ok (), { h with m := fillMat h.m 0 mat.data })

/-- `Matrix_()` (homog2d.hpp:1482-1485) and the fields of `Hmatrix_` (2037-2038) before the body of the constructor. -/
def Hom.blank : Hom K := { m := fun _ _ => 0, isNorm := false, changed := true, hmt := none }

/-- Constructor from a `cv::Mat` (homog2d.hpp:1798-1801). -/
def Hom.ofCv (mat : CvMat K) : Res (Hom K) :=
  match Hom.blank.assignCv mat with
  | (.ok _, h) => .ok h
  | _ => .throw

/-- Conversion of a `double` to `int`: truncation; undefined outside of the range of `int`. -/
noncomputable def toInt (x : ℝ) : Res ℤ :=
  let n := if 0 ≤ x then ⌊x⌋ else ⌈x⌉
  if -2 ^ 31 ≤ n ∧ n < 2 ^ 31 then .ok n else .ub

/-- `getCvPti()` (homog2d.hpp:4438, 4187-4190): `cv::Point2i( getX(), getY() )`. -/
noncomputable def cvPti (p : Pt ℝ) : Res (ℤ × ℤ) := do
  let x ← toInt p.1
  let y ← toInt p.2
  pure (x, y)

/-- `getCvPtd()` (homog2d.hpp:4439): a `cv::Point2d` is built, then converted to the returned type `cv::Point2i`. `cvRound` is the conversion of OpenCV. -/
def cvPtd (cvRound : ℝ → ℤ) (p : Pt ℝ) : ℤ × ℤ := (cvRound p.1, cvRound p.2)

/-- `getCvPtf()` (homog2d.hpp:4440): the same with a `cv::Point2f`, whose values are rounded by `r32`. -/
def cvPtf (r32 : ℝ → ℝ) (cvRound : ℝ → ℤ) (p : Pt ℝ) : ℤ × ℤ := (cvRound (r32 p.1), cvRound (r32 p.2))

/-- `getPt<RT>()`, `getPts<RT>()` (homog2d.hpp:4187-4190, 4646-4651, 4667-4674): `mk` is the constructor of the requested type. -/
def getPtsAs {RT : Type} (mk : ℝ → ℝ → RT) (pts : List (Pt ℝ)) : List RT := pts.map fun p => mk p.1 p.2

/-- Constructor of a point from an OpenCV point (homog2d.hpp:4443-4448): its two coordinates. -/
def ofCvPt {RT : Type} (x y : RT → ℝ) (q : RT) : Pt ℝ := (x q, y q)

/-- Constructor of a polyline from a Boost polygon (homog2d.hpp:6171-6208), `outer` being the points of its outer ring and `same` the equality of points. `front()` of an empty ring is undefined. -/
def ofBoost {P : Type} (same : P → P → Bool) (closed : Bool) : List P → Res (List P)
  | [] => .ub
  | a :: l =>
    let isClosed := same a (l.getLastD a)
    if isClosed && !closed then .throw
    else .ok (if isClosed then (a :: l).dropLast else a :: l)

end H2d
