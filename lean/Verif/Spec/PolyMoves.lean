import Verif.Spec.PolyState

/-! # Specification of what a call does to the points of a polyline -/

namespace H2d.Spec

variable {K : Type} [Field K] [LinearOrder K]

/-- Image of a point by a quarter turn around the origin, a half turn, or a mirror. -/
def quarter : Rotate → Pt K → Pt K
  | .ccw, p => (-p.2, p.1)
  | .cw, p => (p.2, -p.1)
  | .full, p => (-p.1, -p.2)
  | .vmirror, p => (-p.1, p.2)
  | .hmirror, p => (p.1, -p.2)

/-- A container of points that a polyline accepts: empty, or two points or more, no one equal to the next, the last one not equal to the first. -/
def AcceptPts (same : Pt K → Pt K → Bool) (l : List (Pt K)) : Prop :=
  l = [] ∨ (2 ≤ l.length ∧ l.IsChain (fun p q => same p q = false) ∧ ∀ a ∈ l.head?, ∀ b ∈ l.getLast?, same a b = false)

/-- The points `b` after a call on a polyline whose points are `a`. -/
def PtsAfter (same : Pt K → Pt K → Bool) (closed : Bool) (a b : List (Pt K)) : POp K → Prop
  | .set pts => (AcceptPts same pts ∧ b = pts) ∨ (¬ AcceptPts same pts ∧ b = a)
  | .clear => b = []
  | .translate dx dy => b = a.map (fun q => (q.1 + dx, q.2 + dy))
  | .moveTo p => b = a.map (fun q => (p.1 + (q.1 - (a.headD p).1), p.2 + (q.2 - (a.headD p).2)))
  | .rotate r => b = a.map (quarter r)
  | .rotateRef r c => b = a.map (fun q => (c.1 + (quarter r (q.1 - c.1, q.2 - c.2)).1, c.2 + (quarter r (q.1 - c.1, q.2 - c.2)).2))
  | .minimize => b.Sublist a
  | .edit pts => b = pts
  | .retained pts => b = pts
  | .length => b = a
  | .area => b = a
  | .isSimple => b = a
  | .centroid => b = a
  | .isConvex => b = a
  | .compare => b = a ∨ b = a.reverse ∨ (closed = true ∧ ∃ k, b = a.rotate k ∨ b = a.reverse.rotate k)

/-- The call is a move (translation, quarter turn, mirror), or a question about the object other than a comparison. -/
def POp.isRigid : POp K → Bool
  | .translate _ _ => true
  | .moveTo _ => true
  | .rotate _ => true
  | .rotateRef _ _ => true
  | .length => true
  | .area => true
  | .isSimple => true
  | .centroid => true
  | .isConvex => true
  | _ => false

/-- Two lists of points that are the same figure up to its position in the plane: same size, and same distance between the points
of all pairs of positions. -/
def Congruent (a b : List (Pt K)) : Prop :=
  ∃ h : b.length = a.length, ∀ i j (hi : i < a.length) (hj : j < a.length),
    ((b[i]'(h ▸ hi)).1 - (b[j]'(h ▸ hj)).1)^2 + ((b[i]'(h ▸ hi)).2 - (b[j]'(h ▸ hj)).2)^2
      = (a[i].1 - a[j].1)^2 + (a[i].2 - a[j].2)^2

end H2d.Spec
