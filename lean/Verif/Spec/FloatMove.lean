import Verif.Model.FloatMove

/-!
# Exact moves of a list of points

The exact effect of each operation on each point, and the points reached on the way.
-/

namespace H2d.Spec

/-- A quarter turn, half turn or mirror about the origin. -/
def turned : Rotate → ℝ × ℝ → ℝ × ℝ
  | .ccw,     p => (-p.2, p.1)
  | .cw,      p => (p.2, -p.1)
  | .full,    p => (-p.1, -p.2)
  | .vmirror, p => (-p.1, p.2)
  | .hmirror, p => (p.1, -p.2)

/-- Exact image of a point, for a list with first point `o`. -/
def moved (o : ℝ × ℝ) : PolyMove → ℝ × ℝ → ℝ × ℝ
  | .translate dx dy, p => (p.1 + dx, p.2 + dy)
  | .moveTo org, p => (org.1 + (p.1 - o.1), org.2 + (p.2 - o.2))
  | .rotate r, p => turned r p
  | .rotateRef r c, p => (c.1 + (turned r (p.1 - c.1, p.2 - c.2)).1, c.2 + (turned r (p.1 - c.1, p.2 - c.2)).2)

/-- Exact image of a list of points. -/
def movedAll : List (ℝ × ℝ) → PolyMove → List (ℝ × ℝ)
  | [], _ => []
  | o :: l, op => (o :: l).map (moved o op)

/-- Exact result of a history. -/
def movedBy (pts : List (ℝ × ℝ)) (ops : List PolyMove) : List (ℝ × ℝ) := ops.foldl movedAll pts

/-- The points on the way of one operation: the points after it; before it, relative to the centre of the turn; for `moveTo`, the displacement. -/
def onWay : List (ℝ × ℝ) → PolyMove → List (ℝ × ℝ)
  | pts, .rotateRef r c => (pts.map fun p => (p.1 - c.1, p.2 - c.2)) ++ movedAll pts (.rotateRef r c)
  | [], _ => []
  | o :: l, .moveTo org => (org.1 - o.1, org.2 - o.2) :: movedAll (o :: l) (.moveTo org)
  | o :: l, op => movedAll (o :: l) op

/-- All points on the way of an exact history verify `P`. -/
def Along (P : ℝ × ℝ → Prop) : List (ℝ × ℝ) → List PolyMove → Prop
  | pts, [] => ∀ p ∈ pts, P p
  | pts, op :: ops => (∀ p ∈ pts, P p) ∧ (∀ p ∈ onWay pts op, P p) ∧ Along P (movedAll pts op) ops

/-- Number of roundings of each coordinate; `moveTo` excepted. -/
def roundings : List PolyMove → ℕ
  | [] => 0
  | .translate _ _ :: l => roundings l + 1
  | .rotateRef _ _ :: l => roundings l + 2
  | .rotate _ :: l => roundings l
  | .moveTo _ :: l => roundings l

/-- Both coordinates are at most `M`. -/
def SizeLe (M : ℝ) (p : ℝ × ℝ) : Prop := |p.1| ≤ M ∧ |p.2| ≤ M

end H2d.Spec
