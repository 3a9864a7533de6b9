import Verif.Model.Homog
import Verif.Model.Polyline

/-!
# Homographies: class `Hmatrix_<typ::IsHomogr>` with its hidden state
-/

namespace H2d

variable {K : Type} [Field K] [LinearOrder K]

/-- `Matrix_` and `Hmatrix_` fields: `_mdata`, `_isNormalized` (homog2d.hpp:1475-1476), `_hasChanged`, `_hmt` (2037-2038).
`_hmt` is the cached transposed inverse, `none` for the null pointer. -/
structure Hom (K : Type) where
  m : Mat K
  isNorm : Bool
  changed : Bool
  hmt : Option (Mat K)

namespace Hom

/-- `init()` (homog2d.hpp:1854-1857, 2027-2031): `_hasChanged` is not touched. -/
def init (h : Hom K) : Hom K := { h with m := Mat.eye, isNorm := true }

/-- Default constructor (homog2d.hpp:1733-1736). -/
def default : Hom K := { m := Mat.eye, isNorm := true, changed := true, hmt := none }

/-- `normalize()`, `p_normalizeMat(2,2)` (homog2d.hpp:1962-1966, 1562-1577): value of the exception flag and new state. -/
def normalize (t : Thr K) (h : Hom K) : Res Unit × Hom K :=
  if |h.m 2 2| < t.nullDenom then (.throw, h)
  else
    let m' := h.m.divAll (h.m 2 2)
    let m'' := if m' 2 2 < 0 then fun i j => - m' i j else m'
    (.ok (), { h with m := m'', isNorm := true, changed := true })

/-- Constructors from a container of 9 values (homog2d.hpp:1764-1785), sizes being right. -/
def ofValues (t : Thr K) (m : Mat K) : Res (Hom K) :=
  match normalize t { m := m, isNorm := false, changed := true, hmt := none } with
  | (.ok _, h) => .ok h
  | _ => .throw

/-- Copy-constructor (homog2d.hpp:1788-1794, 1487-1493). -/
def copy (h : Hom K) : Hom K := { m := h.m, isNorm := h.isNorm, changed := true, hmt := none }

/-- `operator =` (homog2d.hpp:1807-1813): the flag `_isNormalized` is not copied. -/
def assign (h other : Hom K) : Hom K := { h with m := other.m, changed := true }

/-- `setTranslation()` (homog2d.hpp:1874-1885). -/
def setTranslation (h : Hom K) (tx ty : K) : Hom K := { h.init with m := Mat.translation tx ty, isNorm := true, changed := true }
/-- `setRotation()` (homog2d.hpp:1898-1909), from the values of cosine and sine. -/
def setRotation (h : Hom K) (c s : K) : Hom K := { h.init with m := Mat.rotation c s, isNorm := true, changed := true }
/-- `setScale()` (homog2d.hpp:1938-1949, 1931-1935). -/
def setScale (h : Hom K) (kx ky : K) : Hom K := { h.init with m := Mat.scale kx ky, isNorm := true, changed := true }

/-- `operator *` of two homographies (homog2d.hpp:1971-1978). -/
def mul (t : Thr K) (h1 h2 : Hom K) : Res (Hom K) :=
  match normalize t { (default : Hom K) with m := h1.m.mul h2.m } with
  | (.ok _, h) => .ok { h with changed := true }
  | _ => .throw

/-- `*this = out * *this` (homog2d.hpp:1869, 1893, 1925): if the product throws, the object is unchanged. -/
def premul (t : Thr K) (out h : Hom K) : Res Unit × Hom K :=
  match mul t out h with
  | .ok p => (.ok (), h.assign p)
  | _ => (.throw, h)

/-- `addTranslation()` (homog2d.hpp:1864-1871). -/
def addTranslation (t : Thr K) (h : Hom K) (tx ty : K) : Res Unit × Hom K := premul t (default.setTranslation tx ty) h
/-- `addRotation()` (homog2d.hpp:1888-1895). -/
def addRotation (t : Thr K) (h : Hom K) (c s : K) : Res Unit × Hom K := premul t (default.setRotation c s) h
/-- `addScale()` (homog2d.hpp:1912-1928). -/
def addScale (t : Thr K) (h : Hom K) (kx ky : K) : Res Unit × Hom K := premul t (default.setScale kx ky) h

/-- `inverse()` (homog2d.hpp:1816-1821, 1547-1558). When the normalisation throws, the values have already been replaced. -/
def inverse (t : Thr K) (h : Hom K) : Res Unit × Hom K :=
  if |h.m.determ| < t.nullDeter then (.throw, h)
  else normalize t { h with m := h.m.adjugate.divAll h.m.determ, isNorm := false }

/-- `transpose()` (homog2d.hpp:1535-1544), member of the base class: `_hasChanged` is not touched. -/
def transpose (h : Hom K) : Hom K := { h with m := h.m.transpose, isNorm := false }

/-- `set(r,c,v)`, `value(r,c)=v` (homog2d.hpp:1499-1520); also what can be done through `getRaw()` (1495). -/
def write (h : Hom K) (r c : Fin 3) (v : K) : Hom K := { h with m := h.m.write r c v }

/-- Normalisation by a comparison (homog2d.hpp:1989-1992). -/
def normIfNeeded (t : Thr K) (h : Hom K) : Res Unit × Hom K :=
  if h.isNorm then (.ok (), h) else normalize t h

/-- Elementwise comparison (homog2d.hpp:1994-2001). -/
def closeMat (t : Thr K) (a b : Mat K) : Bool :=
  (List.finRange 3).all (fun i => (List.finRange 3).all (fun j => !decide (t.nullDeter ≤ |a i j - b i j|)))

/-- `operator ==` (homog2d.hpp:1985-2002) between two different objects: result, and new values of both. -/
def eq (t : Thr K) (a b : Hom K) : Res Bool × Hom K × Hom K :=
  match normIfNeeded t a with
  | (.ok _, a') =>
    match normIfNeeded t b with
    | (.ok _, b') => (.ok (closeMat t a'.m b'.m), a', b')
    | (_, b') => (.throw, a', b')
  | (_, a') => (.throw, a', b)

/-- `operator ==` of an object with itself (homog2d.hpp:1985-2002). -/
def eqSelf (t : Thr K) (a : Hom K) : Res Bool × Hom K :=
  match normIfNeeded t a with
  | (.ok _, a') => (.ok (closeMat t a'.m a'.m), a')
  | (_, a') => (.throw, a')

/-- Product with a point (homog2d.hpp:9668-9673). -/
def appPt (h : Hom K) (p : V3 K) : V3 K := h.m.app p

/-- `hi.inverse().transpose()` on a copy of the object (homog2d.hpp:9688-9689). -/
def invTransp (t : Thr K) (h : Hom K) : Res (Mat K) :=
  match inverse t h.copy with
  | (.ok _, hi) => .ok hi.transpose.m
  | _ => .throw

/-- Update of the cached matrix in the product with a line (homog2d.hpp:9680-9692). -/
def refresh (t : Thr K) (h : Hom K) : Res Unit × Hom K :=
  let h := match h.hmt with
    | none => { h with hmt := some (fun _ _ => 0), changed := true }
    | some _ => h
  if h.changed then
    match invTransp t h with
    | .ok mi => (.ok (), { h with hmt := some mi, changed := false })
    | _ => (.throw, h)
  else (.ok (), h)

/-- Product with a line (homog2d.hpp:9678-9695), before the final normalisation of the line (9696). -/
def appLineRaw (t : Thr K) (h : Hom K) (l : V3 K) : Res (V3 K) × Hom K :=
  match refresh t h with
  | (.ok _, h') => (match h'.hmt with | some mi => .ok (mi.app l) | none => .ub, h')
  | (_, h') => (.throw, h')

end Hom

/-- Public operations on one homography object. `assign` takes any other object; `cmpL`/`cmpR`: comparison with another object. -/
inductive HOp (K : Type) where
  | init | setTranslation (tx ty : K) | setRotation (c s : K) | setScale (kx ky : K)
  | addTranslation (tx ty : K) | addRotation (c s : K) | addScale (kx ky : K)
  | assign (other : Hom K) | inverse | normalize | transpose | write (r c : Fin 3) (v : K)
  | cmpL (other : Hom K) | cmpR (other : Hom K) | appLine (l : V3 K) | appPt (p : V3 K)

/-- State after an operation, whether it throws or not. -/
def HOp.exec (t : Thr K) (h : Hom K) : HOp K → Hom K
  | .init => h.init
  | .setTranslation x y => h.setTranslation x y
  | .setRotation c s => h.setRotation c s
  | .setScale x y => h.setScale x y
  | .addTranslation x y => (h.addTranslation t x y).2
  | .addRotation c s => (h.addRotation t c s).2
  | .addScale x y => (h.addScale t x y).2
  | .assign o => h.assign o
  | .inverse => (h.inverse t).2
  | .normalize => (h.normalize t).2
  | .transpose => h.transpose
  | .write r c v => h.write r c v
  | .cmpL o => (h.eq t o).2.1
  | .cmpR o => (o.eq t h).2.2
  | .appLine l => (h.appLineRaw t l).2
  | .appPt _ => h

/-- A history of operations. -/
def homRun (t : Thr K) (h : Hom K) (ops : List (HOp K)) : Hom K := ops.foldl (HOp.exec t) h

/-- Product with the elements of a container of points, same for `applyTo()` (homog2d.hpp:9806-9817, 9567-9580). -/
def appPts (h : Hom K) (l : List (V3 K)) : List (V3 K) := l.map h.appPt

/-- Product with the elements of a container of lines (homog2d.hpp:9806-9817): the cache goes from one product to the next one.
`nrm` is the final normalisation of a line (9696). -/
def appLines (t : Thr K) (nrm : V3 K → Res (V3 K)) (h : Hom K) : List (V3 K) → Res (List (V3 K)) × Hom K
  | [] => (.ok [], h)
  | l :: ls =>
    match h.appLineRaw t l with
    | (.ok v, h') =>
      match nrm v with
      | .ok v' =>
        match appLines t nrm h' ls with
        | (.ok vs, h'') => (.ok (v' :: vs), h'')
        | (e, h'') => (e, h'')
      | .throw => (.throw, h')
      | .ub => (.ub, h')
    | (.throw, h') => (.throw, h')
    | (.ub, h') => (.ub, h')

/-- Product with a polyline (homog2d.hpp:9714-9721) or, with the four corners, with a rectangle (9726-9732).
`same` is the equality of points. -/
def appPoly (same : V3 K → V3 K → Bool) (h : Hom K) (pts : List (V3 K)) : Res (List (V3 K)) :=
  addPoints same [] (pts.map h.appPt)

/-- The linear system set up by `buildFrom4Points_Eigen` (homog2d.hpp:4704-4725): one row of the matrix `A` and of the vector `b`.
Even rows are for the first coordinate, odd rows for the second one. -/
def dltRow (src dst : K × K) (odd : Bool) : (Fin 8 → K) × K :=
  let u1 := src.1; let v1 := src.2; let u2 := dst.1; let v2 := dst.2
  if odd then (![0, 0, 0, u1, v1, 1, - u1 * v2, - v1 * v2], v2)
  else (![u1, v1, 1, 0, 0, 0, - u1 * u2, - v1 * u2], u2)

/-- Product of a row of `A` with `X`. -/
def dotRow (r x : Fin 8 → K) : K :=
  r 0 * x 0 + r 1 * x 1 + r 2 * x 2 + r 3 * x 3 + r 4 * x 4 + r 5 * x 5 + r 6 * x 6 + r 7 * x 7

/-- The matrix filled from the solution (homog2d.hpp:4734-4737). -/
def dltMat (x : Fin 8 → K) : Mat K := ![![x 0, x 1, x 2], ![x 3, x 4, x 5], ![x 6, x 7, 1]]

end H2d
