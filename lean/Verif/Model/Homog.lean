import Verif.Model.Basic
import Mathlib.Algebra.Order.Field.Basic
import Mathlib.Algebra.Order.Group.Abs
import Mathlib.Data.Fin.VecNotation

/-!
# Homogeneous vectors and 3x3 matrices
-/

namespace H2d

/-- `LPBase::_v`: the three homogeneous values of a point or a line (homog2d.hpp:4463). -/
abbrev V3 (K : Type) := Fin 3 → K

/-- `detail::matrix_t`, `Matrix_::_mdata` (homog2d.hpp:1475). -/
abbrev Mat (K : Type) := Fin 3 → Fin 3 → K

variable {K : Type} [Field K]

/-- A point built from two values, `p_init_2` (homog2d.hpp:9118-9125). -/
def mkPt (x y : K) : V3 K := ![x, y, 1]

/-- `getX()`, `getY()` of a point (homog2d.hpp:4133-4142). In Lean `x/0 = 0`; the theorems only use it for a non-zero third value. -/
def getXY (p : V3 K) : K × K := (p 0 / p 2, p 1 / p 2)

/-- `detail::crossProduct` (homog2d.hpp:9057-9075). -/
def crossProd (r s : V3 K) : V3 K :=
  ![r 1 * s 2 - r 2 * s 1, r 2 * s 0 - r 0 * s 2, r 0 * s 1 - r 1 * s 0]

namespace Mat

/-- `p_det2x2( {a,b, c,d, e,f, g,h} )` (homog2d.hpp:1625-1630). -/
def det2 (m : Mat K) (a b c d e f g h : Fin 3) : K := m a b * m g h - m c d * m e f

/-- `determ()` (homog2d.hpp:1526-1532). -/
def determ (m : Mat K) : K :=
  m 0 0 * m.det2 1 1 1 2 2 1 2 2 - m 0 1 * m.det2 1 0 1 2 2 0 2 2 + m 0 2 * m.det2 1 0 1 1 2 0 2 1

/-- Values computed by `transpose()` (homog2d.hpp:1537-1540). -/
def transpose (m : Mat K) : Mat K := fun i j => m j i

/-- `p_adjugate()` (homog2d.hpp:1633-1651). -/
def adjugate (m : Mat K) : Mat K :=
  ![![ m.det2 1 1 1 2 2 1 2 2, -m.det2 0 1 0 2 2 1 2 2,  m.det2 0 1 0 2 1 1 1 2],
    ![-m.det2 1 0 1 2 2 0 2 2,  m.det2 0 0 0 2 2 0 2 2, -m.det2 0 0 0 2 1 0 1 2],
    ![ m.det2 1 0 1 1 2 0 2 1, -m.det2 0 0 0 1 2 0 2 1,  m.det2 0 0 0 1 1 0 1 1]]

/-- `p_divideAll` (homog2d.hpp:1614-1619), and `p_divideBy(2,2)` (1581-1587): the divisor is read again at each step but the element
(2,2) is the last to be changed. -/
def divAll (m : Mat K) (v : K) : Mat K := fun i j => m i j / v

/-- `detail::product` of two matrices (homog2d.hpp:9588-9600). -/
def mul (a b : Mat K) : Mat K := fun i j => a i 0 * b 0 j + a i 1 * b 1 j + a i 2 * b 2 j

/-- `detail::product` of a matrix and a point or a line (homog2d.hpp:9608-9621). -/
def app (a : Mat K) (v : V3 K) : V3 K := fun i => a i 0 * v 0 + a i 1 * v 1 + a i 2 * v 2

/-- `p_fillEye()` (homog2d.hpp:1595-1601). -/
def eye : Mat K := ![![1, 0, 0], ![0, 1, 0], ![0, 0, 1]]

/-- Values stored by `setTranslation()` (homog2d.hpp:1878-1881). -/
def translation (tx ty : K) : Mat K := ![![1, 0, tx], ![0, 1, ty], ![0, 0, 1]]

/-- Values stored by `setRotation()` (homog2d.hpp:1902-1905); `c`, `s` are the values of `std::cos`, `std::sin`. -/
def rotation (c s : K) : Mat K := ![![c, -s, 0], ![s, c, 0], ![0, 0, 1]]

/-- Values stored by `setScale()` (homog2d.hpp:1942-1945). -/
def scale (kx ky : K) : Mat K := ![![kx, 0, 0], ![0, ky, 0], ![0, 0, 1]]

/-- Element write `set(r,c,v)`, `value(r,c)=v` (homog2d.hpp:1499-1520), indexes in range. -/
def write (m : Mat K) (r c : Fin 3) (v : K) : Mat K := fun i j => if i = r ∧ j = c then v else m i j

end Mat

end H2d
