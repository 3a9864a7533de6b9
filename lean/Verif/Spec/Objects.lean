import Verif.Model.BB
import Verif.Spec.BB
import Mathlib.Algebra.Order.Field.Rat

/-! # Specifications that mention the objects of the library -/

namespace H2d.Spec

/-- Thresholds of the library (homog2d.hpp:203-222), as rationals, for the examples. -/
def stdThr : Thr ℚ := ⟨1/10^10, 1/10^14, 1/1000, 1/10^10, 1/10^15⟩

/-- What "extreme in direction `dir`" means. -/
def Precedes {K : Type} [LinearOrder K] : CardDir → K × K → K × K → Prop
  | .top => Above | .bottom => Below | .left => LeftOf | .right => RightOf

variable {K : Type} [Field K] [LinearOrder K]

/-- The extent of a point set is too small on `x`, on `y`, or on both, to define a rectangle. -/
def TooFlat (th : Thr K) (S : Pt K → Prop) : Prop :=
  (∀ p q, S p → S q → |p.1 - q.1| < th.nullOrthogDistance) ∨
  (∀ p q, S p → S q → |p.2 - q.2| < th.nullOrthogDistance) ∨
  (∀ p q r s, S p → S q → S r → S s →
    (p.1 - q.1) * (p.1 - q.1) + (r.2 - s.2) * (r.2 - s.2) < th.nullDistance * th.nullDistance)

/-- The points covered by an object. -/
def Extent : Obj K → Pt K → Prop
  | .rect r, p => r.p1.1 ≤ p.1 ∧ p.1 ≤ r.p2.1 ∧ r.p1.2 ≤ p.2 ∧ p.2 ≤ r.p2.2
  | .circle c rad, p => (p.1 - c.1)^2 + (p.2 - c.2)^2 ≤ rad^2
  | .point q, p => p = q
  | .seg a b, p => OnSeg a b p
  | .poly closed pts, p => p ∈ pts ∨
      ∃ a b, (a, b) ∈ pts.zip (pts.tail ++ if closed then pts.head?.toList else []) ∧ OnSeg a b p
  | .line, _ => False

/-- A rectangle with ordered corners, a circle with a positive radius. -/
def Valid : Obj K → Prop
  | .rect r => r.p1.1 ≤ r.p2.1 ∧ r.p1.2 ≤ r.p2.2
  | .circle _ rad => 0 ≤ rad
  | _ => True

/-- The min corner is strictly below the max corner on both axes. -/
def ProperRect (r : FRect K) : Prop := r.p1.1 < r.p2.1 ∧ r.p1.2 < r.p2.2

end H2d.Spec
