import Verif.Spec.Line
import Verif.Model.Circle
import Verif.Model.Inside

/-! # Moving a whole scene by the same vector -/

namespace H2d.Spec
open H2d

/-- The point moved by the vector `d`. -/
def mvP (d p : Pt ℝ) : Pt ℝ := (p.1 + d.1, p.2 + d.2)

/-- The segment moved by the vector `d`. -/
def mvS (d : Pt ℝ) (s : Seg) : Seg := (mvP d s.1, mvP d s.2)

/-- The line moved by the vector `d`: `p` is on it exactly when `p - d` is on the line. -/
def mvL (d : Pt ℝ) (l : V3 ℝ) : V3 ℝ := ![l 0, l 1, l 2 - l 0 * d.1 - l 1 * d.2]

/-- The circle moved by the vector `d`. -/
def mvC (d : Pt ℝ) (c : Circle) : Circle := ⟨mvP d c.center, c.radius⟩

/-- The rectangle moved by the vector `d`. -/
def mvR (d : Pt ℝ) (r : FRect ℝ) : FRect ℝ := ⟨mvP d r.p1, mvP d r.p2⟩

/-- The outcome, with the value moved when there is one: same exceptions. -/
def after {α β : Type} (f : α → β) : Res α → Res β
  | .ok a => .ok (f a)
  | .throw => .throw
  | .ub => .ub

/-- The move is vertical, or the line through the two points is not in the narrow band of slopes for which normalising a line is wrong (C01). -/
def MoveOk (t : Thr ℝ) (d p q : Pt ℝ) : Prop := d.1 = 0 ∨ GoodSlope t p q

/-- The same for all the sides of a polyline. -/
def MoveOkPts (t : Thr ℝ) (d : Pt ℝ) (closed : Bool) (pts : List (Pt ℝ)) : Prop := ∀ q ∈ segPairs closed pts, MoveOk t d q.1 q.2

/-- The same for the line through the two points and for the lines perpendicular to it. -/
def MoveOkBoth (t : Thr ℝ) (d p q : Pt ℝ) : Prop := d.1 = 0 ∨ GoodSlope t p q ∧ (p.1 = q.1 ∨ t.nullDenom * eucl p q ≤ |p.1 - q.1|)

/-- The middle of two points. -/
noncomputable def midPt (p q : Pt ℝ) : Pt ℝ := ((p.1 + q.1) / 2, (p.2 + q.2) / 2)

/-- The rectangle three times as large, with the same center. -/
def bigBox (r : FRect ℝ) : FRect ℝ := ⟨(r.p1.1 * 2 - r.p2.1, r.p1.2 * 2 - r.p2.2), (r.p2.1 * 2 - r.p1.1, r.p2.2 * 2 - r.p1.2)⟩

/-- `Piece r n p q`: the points are the ends of one of the parts of a side of the rectangle, when each side is cut `n` times in two. -/
inductive Piece (r : FRect ℝ) : Nat → Pt ℝ → Pt ℝ → Prop
  | left : Piece r 0 r.p1 (r.p1.1, r.p2.2)
  | top : Piece r 0 (r.p1.1, r.p2.2) r.p2
  | right : Piece r 0 r.p2 (r.p2.1, r.p1.2)
  | bottom : Piece r 0 (r.p2.1, r.p1.2) r.p1
  | swap {n p q} : Piece r n p q → Piece r n q p
  | half {n p q} : Piece r n p q → Piece r (n + 1) p (midPt p q)

/-- The condition on slopes for the segments that may be used to find out if a point is inside a polygon: from the point to the middle of the parts of the sides of a rectangle around the polygon,
cut up to four times in two. -/
def MoveOkRefs (t : Thr ℝ) (d : Pt ℝ) (pts : List (Pt ℝ)) (p : Pt ℝ) : Prop :=
  ∀ box, polyGetBB t pts = .ok box → ∀ n < 5, ∀ a b, Piece (bigBox box) n a b → MoveOk t d p (midPt a b)

end H2d.Spec
