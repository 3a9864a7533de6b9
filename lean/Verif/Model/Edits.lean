import Verif.Model.Circle
import Verif.Model.RectMore
import Verif.Model.Construct

/-!
# Editing circles, results of intersections, lines and one coordinate

Over the reals. Two types of numbers hold the same values here: a conversion between them is the identity on the values.
-/

namespace H2d

/-! ## Circles -/

/-- The operations that modify a circle: `set(center)` (homog2d.hpp:3334-3338), `set(rad)` (3344-3354), `set(center,rad)` and `set(x,y,rad)` (3357-3375), `set` from two, three
points and from a container (5572-5762), `translate` (3403-3416), `moveTo` (3419-3432), writing through `radius()` and `center()` (3294, 3297).
`other` is the construction of another circle, which shares the global flag. -/
inductive CircEdit where
  | center (p : Pt ℝ)
  | radius (r : ℝ)
  | both (p : Pt ℝ) (r : ℝ)
  | two (p q : Pt ℝ)
  | three (p q r : Pt ℝ)
  | container (rnd : ℕ → ℕ) (pts : List (Pt ℝ))
  | translate (dx dy : ℝ)
  | moveTo (p : Pt ℝ)
  | writeRadius (r : ℝ)
  | writeCenter (p : Pt ℝ)
  | other (o : CircOp)

/-- A member function of `Circle_` that builds the new value first and assigns it at the end (homog2d.hpp:3358-3362, 5572-5582, 5605-5627, 5737-5762). -/
def assignRes (c : Circle) : Res Circle → Res Unit × Circle
  | .ok d => (.ok (), d)
  | .throw => (.throw, c)
  | .ub => (.ub, c)

/-- Outcome, circle and global flag after an operation (homog2d.hpp:3294-3432, 5572-5762). -/
noncomputable def CircEdit.exec (t : Thr ℝ) (c : Circle) (flag : Bool) : CircEdit → Res Unit × Circle × Bool
  | .center p => (.ok (), ⟨p, c.radius⟩, flag)
  | .radius r => (.ok (), ⟨c.center, r⟩, flag)
  | .both p r => let a := assignRes c (circleMake t flag p r); (a.1, a.2, flag)
  | .two p q => let a := assignRes c (circle2 t p q); (a.1, a.2, flag)
  | .three p q r => let a := assignRes c (circle3 t p q r); (a.1, a.2, flag)
  | .container rnd pts => let w := circleOfPts t flag rnd pts; let a := assignRes c w.1; (a.1, a.2, w.2)
  | .translate dx dy => (.ok (), ⟨(c.center.1 + dx, c.center.2 + dy), c.radius⟩, flag)
  | .moveTo p => (.ok (), ⟨p, c.radius⟩, flag)
  | .writeRadius r => (.ok (), ⟨c.center, r⟩, flag)
  | .writeCenter p => (.ok (), ⟨p, c.radius⟩, flag)
  | .other o => (.ok (), c, (o.exec t flag).2)

/-- Circle and flag after a history (exceptions are caught by the caller). The circle starts as `Circle_()` (homog2d.hpp:3204), the flag as false (1258-1262). -/
noncomputable def circAfter (t : Thr ℝ) (ops : List CircEdit) : Circle × Bool :=
  ops.foldl (fun s op => (op.exec t s.1 s.2).2) (⟨(0, 0), 1⟩, false)

/-! ## Results of intersections -/

/-- `Intersect<Inters_2,FPT>` (homog2d.hpp:2531-2563, 2473-2482). -/
structure Inter2 where
  doesIntersect : Bool
  p1 : Pt ℝ
  p2 : Pt ℝ

namespace Inter2

/-- `Intersect()` (homog2d.hpp:2537); the points are `Point2d_()`. -/
def default : Inter2 := ⟨false, (0, 0), (0, 0)⟩
/-- `Intersect( p1, p2 )` (homog2d.hpp:2538-2542). -/
def make (p q : Pt ℝ) : Inter2 := ⟨true, p, q⟩
/-- `get()` (homog2d.hpp:2554-2560). -/
def get (i : Inter2) : Res (Pt ℝ × Pt ℝ) := if !i.doesIntersect then .throw else .ok (i.p1, i.p2)
/-- `operator()` (homog2d.hpp:2478-2481). -/
def call (i : Inter2) : Bool := i.doesIntersect
/-- `size()` (homog2d.hpp:2552). -/
def size (i : Inter2) : ℕ := if i.doesIntersect then 2 else 0
/-- Constructor from an object of another type of numbers (homog2d.hpp:2544-2551). -/
def convert (i : Inter2) : Res Inter2 := do
  let pp ← i.get
  pure ⟨i.doesIntersect, pp.1, pp.2⟩

end Inter2

/-- Line/circle intersection (homog2d.hpp:4335-4339, 9463-9505) as an object. -/
noncomputable def lineCircObj (l : V3 ℝ) (c : Circle) : Inter2 :=
  match lineCircle l c.center c.radius with
  | none => Inter2.default
  | some (p, q) => Inter2.make p q

/-- Circle/line intersection (homog2d.hpp:3470-3475): the result of the line is converted to the type of the circle when the types of numbers differ. -/
noncomputable def circLineObj (sameType : Bool) (c : Circle) (l : V3 ℝ) : Res Inter2 :=
  if sameType then .ok (lineCircObj l c) else (lineCircObj l c).convert

/-- Operations on an `IntersectM` (homog2d.hpp:2598-2614). -/
inductive InterMOp where
  | add (p : Pt ℝ)
  | addV (l : List (Pt ℝ))
  | get
  | convert

/-- `std::sort` with the `operator <` of points (homog2d.hpp:2612, 9032-9043): the order is total on coordinates, so that any sort gives the same result. -/
noncomputable def sortPts (l : List (Pt ℝ)) : List (Pt ℝ) := l.mergeSort (fun p q => !ptLt q p)

/-- State of the vector after an operation (homog2d.hpp:2585-2614): `get() const` sorts it in place; the conversion sorts the source and copies it. -/
noncomputable def InterMOp.exec (v : List (Pt ℝ)) : InterMOp → List (Pt ℝ)
  | .add p => v ++ [p]
  | .addV l => v ++ l
  | .get => sortPts v
  | .convert => sortPts v

/-- `_vecInters` after a history (homog2d.hpp:2582). -/
noncomputable def interMAfter (ops : List InterMOp) : List (Pt ℝ) := ops.foldl InterMOp.exec []

/-- The points given by an operation. -/
def InterMOp.given : InterMOp → List (Pt ℝ)
  | .add p => [p]
  | .addV l => l
  | _ => []

/-! ## Lines and one coordinate -/

/-- `getPoint( GivenCoord, value )` (homog2d.hpp:4073-4084); `givenX`: the value is x. -/
noncomputable def linePoint (t : Thr ℝ) (l : V3 ℝ) (givenX : Bool) (v : ℝ) : Res (Pt ℝ) := do
  let c ← lineCoord t l givenX v
  if givenX then pure (v, c) else pure (c, v)

/-- `getPoints( GivenCoord, value, dist )` (homog2d.hpp:4087-4097). -/
noncomputable def linePointsAt (t : Thr ℝ) (l : V3 ℝ) (givenX : Bool) (v dist : ℝ) : Res (Pt ℝ × Pt ℝ) := do
  let p ← linePoint t l givenX v
  pure (getPointsB2 l p dist)

/-- `getOrthogLine( GivenCoord, value )` (homog2d.hpp:8879-8892, 3740-3750). -/
noncomputable def orthogLineAt (t : Thr ℝ) (l : V3 ℝ) (givenX : Bool) (v : ℝ) : Res (V3 ℝ) := do
  let c ← lineCoord t l givenX v
  let p : Pt ℝ := (c, v)
  let p := if givenX then (v, c) else p
  orthogLine t l p

/-- Line from four values (homog2d.hpp:3904-3913). -/
noncomputable def lineOf4 (t : Thr ℝ) (x1 y1 x2 y2 : ℝ) : Res (V3 ℝ) := lineOfPts t (mkPt x1 y1) (mkPt x2 y2)

/-- Line from two numbers: through the origin and this point (homog2d.hpp:3875-3881, 9114-9134). -/
noncomputable def lineOf2 (t : Thr ℝ) (x y : ℝ) : Res (V3 ℝ) := do
  let p ← normalizePoint t (mkPt x y)
  normalizeLine t (crossProd (mkPt 0 0) p)

/-- Vertical or horizontal line through a point (homog2d.hpp:4528-4545). -/
def lineDirPt (vertical : Bool) (p : Pt ℝ) : V3 ℝ := if vertical then ![1, 0, -p.1] else ![0, 1, -p.2]

/-- Product of two segments (homog2d.hpp:9645-9650). -/
noncomputable def segProd (t : Thr ℝ) (s s' : Seg) : Res (Pt ℝ) := do
  let l ← segLine t s
  let l' ← segLine t s'
  let p ← lineInter t l l'
  pure (getXY p)

end H2d
