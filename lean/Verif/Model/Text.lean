import Verif.Model.Homog

/-!
# Text written on a stream

`num`: how a value is written on the stream (`std::ostream << double`, set by the user with the precision and the flags of the stream).
`Nat.repr` for sizes. Only the stream is modelled, not the errors of writing.
-/

namespace H2d.Text
open H2d

variable {K : Type} [Field K] [LinearOrder K]

/-- How a value is written. -/
abbrev Num (K : Type) := K → List Char

/-- `isInf()` of a point (homog2d.hpp:4257-4263). -/
def isInf (t : Thr K) (p : V3 K) : Bool := decide (|p 2| < t.nullDenom)

/-- `operator <<` of a line, and of a point at infinity (homog2d.hpp:8367-8372). -/
def tripleText (num : Num K) (v : V3 K) : List Char :=
  '[' :: (num (v 0) ++ ',' :: (num (v 1) ++ ',' :: (num (v 2) ++ [']'])))

/-- `operator <<` of a point (homog2d.hpp:8369-8377). -/
def ptText (num : Num K) (t : Thr K) (p : V3 K) : List Char :=
  if isInf t p then tripleText num p
  else '[' :: (num (getXY p).1 ++ ',' :: (num (getXY p).2 ++ [']']))

/-- The nine types of primitives, with the values that their text shows. The ellipse is given by the values of `p_getParams()` (the angle in degrees, homog2d.hpp:2168). -/
inductive Shape (K : Type) where
  | point (p : V3 K)
  | line (l : V3 K)
  | segment (a b : V3 K)
  | osegment (a b : V3 K)
  | rect (a b : V3 K)
  | circle (c : V3 K) (r : K)
  | ellipse (x0 y0 angle a b : K)
  | opoly (pts : List (V3 K))
  | cpoly (pts : List (V3 K))

/-- Text of the points of a polyline (homog2d.hpp:8449-8455). -/
def ptsText (num : Num K) (t : Thr K) : List (V3 K) → List Char
  | [] => []
  | p :: l => ptText num t p ++ '-' :: ptsText num t l

/-- `operator <<` of a polyline, after its first letter (homog2d.hpp:8448-8455). -/
def polyText (num : Num K) (t : Thr K) (pts : List (V3 K)) : List Char :=
  ['P', 'o', 'l', 'y', 'l', 'i', 'n', 'e', ':', ' '] ++ (if pts.isEmpty then ['e', 'm', 'p', 't', 'y'] else ptsText num t pts)

/-- `operator <<` of a rectangle (homog2d.hpp:8413-8419). -/
def rectText (num : Num K) (t : Thr K) (a b : V3 K) : List Char := ['p', 't', '1', ':', ' '] ++ (ptText num t a ++ ([' ', 'p', 't', '2', ':', ' '] ++ ptText num t b))

/-- `operator <<` of a circle (homog2d.hpp:8421-8427). -/
def circleText (num : Num K) (t : Thr K) (c : V3 K) (r : K) : List Char := ['c', 'e', 'n', 't', 'e', 'r', ':', ' '] ++ (ptText num t c ++ ([',', ' ', 'r', 'a', 'd', 'i', 'u', 's', '='] ++ num r))

/-- `operator <<` of an ellipse (homog2d.hpp:8460-8467, 2165-2173). -/
def ellipseText (num : Num K) (x0 y0 angle a b : K) : List Char :=
  ['E', 'l', 'l', 'P', 'a', 'r', 'a', 'm', 's', ':', ' ', 'o', 'r', 'i', 'g', 'i', 'n', '='] ++ (num x0 ++ ',' :: (num y0 ++ ' ' :: (['a', 'n', 'g', 'l', 'e', '='] ++ (num angle ++ ' ' :: (['a', '='] ++ (num a ++ ' ' :: (['b', '='] ++ (num b ++ [' ']))))))))

/-- `operator <<` of the primitives (homog2d.hpp:8363-8380, 8413-8467). -/
def shapeText (num : Num K) (t : Thr K) : Shape K → List Char
  | .point p => ptText num t p
  | .line l => tripleText num l
  | .segment a b => ptText num t a ++ '-' :: ptText num t b
  | .osegment a b => ptText num t a ++ '=' :: '>' :: ptText num t b
  | .rect a b => rectText num t a b
  | .circle c r => circleText num t c r
  | .ellipse x0 y0 angle a b => ellipseText num x0 y0 angle a b
  | .opoly pts => 'O' :: polyText num t pts
  | .cpoly pts => 'C' :: polyText num t pts

/-- `getString( Type )` (homog2d.hpp:946-964). -/
def typeName : Shape K → List Char
  | .point _ => ['P', 'o', 'i', 'n', 't', '2', 'd']
  | .line _ => ['L', 'i', 'n', 'e', '2', 'd']
  | .segment _ _ => ['S', 'e', 'g', 'm', 'e', 'n', 't']
  | .osegment _ _ => ['O', 'S', 'e', 'g', 'm', 'e', 'n', 't']
  | .rect _ _ => ['F', 'R', 'e', 'c', 't']
  | .circle _ _ => ['C', 'i', 'r', 'c', 'l', 'e']
  | .ellipse _ _ _ _ _ => ['E', 'l', 'l', 'i', 'p', 's', 'e']
  | .opoly _ => ['O', 'P', 'o', 'l', 'y', 'l', 'i', 'n', 'e']
  | .cpoly _ => ['C', 'P', 'o', 'l', 'y', 'l', 'i', 'n', 'e']

/-- `operator <<` of `rtp::Root` (homog2d.hpp:12228-12287). -/
def rootText (num : Num K) (t : Thr K) (s : Shape K) : List Char := ['t', 'y', 'p', 'e', '='] ++ (typeName s ++ '\n' :: shapeText num t s)

/-- Text of the elements of a container (homog2d.hpp:8396-8397). -/
def elemsText (num : Num K) (t : Thr K) : List (Shape K) → List Char
  | [] => []
  | s :: l => shapeText num t s ++ '\n' :: elemsText num t l

/-- `operator <<` of a container of primitives (homog2d.hpp:8391-8399). -/
def containerText (num : Num K) (t : Thr K) (l : List (Shape K)) : List Char :=
  ['#', '='] ++ ((Nat.repr l.length).toList ++ '\n' :: elemsText num t l)

/-- `std::setw(6) << e` (homog2d.hpp:1660): spaces are added before a short text. -/
def padded (num : Num K) (x : K) : List Char := List.replicate (6 - (num x).length) ' ' ++ num x

/-- One line of `operator <<` of a matrix (homog2d.hpp:1658-1661). -/
def rowText (num : Num K) (r : Fin 3 → K) : List Char :=
  '|' :: ' ' :: (padded num (r 0) ++ ' ' :: (padded num (r 1) ++ ' ' :: (padded num (r 2) ++ ' ' :: ' ' :: '|' :: ['\n'])))

/-- `operator <<` of `Hmatrix_` (homog2d.hpp:2040-2045, 1653-1664). -/
def homogText (num : Num K) (m : Mat K) : List Char :=
  ['H', 'm', 'a', 't', 'r', 'i', 'x', ':', '\n'] ++ (rowText num (m 0) ++ (rowText num (m 1) ++ rowText num (m 2)))

/-- `operator <<` of the intersection with a circle or a rectangle, `Inters_2` (homog2d.hpp:2565-2571). -/
def inters2Text (num : Num K) (t : Thr K) (does : Bool) (p q : V3 K) : List Char :=
  ['b', 'o', 'o', 'l', '='] ++ ((if does then '1' else '0') :: ([' ', 'p', '1', ':'] ++ (ptText num t p ++ ([' ', 'p', '2', ':'] ++ ptText num t q))))

/-- Points written by `priv::printVector()` (homog2d.hpp:1190-1204). -/
def vectorText (num : Num K) (t : Thr K) (l : List (V3 K)) : List Char :=
  ['v', 'e', 'c', 't', 'o', 'r', ':', ' ', ' ', '#', '='] ++ ((Nat.repr l.length).toList ++ '\n' :: (ptsText num t l ++ ['\n']))

/-- `operator <<` of an intersection with a polyline, `IntersectM` (homog2d.hpp:2615-2621): what goes to the stream given as argument, and what `printVector()` writes on `std::cout`. -/
def intersMText (num : Num K) (t : Thr K) (l : List (V3 K)) : List Char × List Char :=
  (['I', 'n', 't', 'e', 'r', 's', 'e', 'c', 't', 'M', ':', ' ', 's', 'i', 'z', 'e', '='] ++ ((Nat.repr l.length).toList ++ ['\n']), vectorText num t l)

end H2d.Text
