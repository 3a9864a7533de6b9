import Verif.Spec.Construct
import Verif.Spec.Segment
import Verif.Spec.Polyline

/-! # Vocabulary for oriented angles, rotations and bisectors -/

namespace H2d.Spec

/-- Rotation about a point, anticlockwise. -/
noncomputable def rotAround (c : ℝ × ℝ) (a : ℝ) (p : ℝ × ℝ) : ℝ × ℝ :=
  (c.1 + (Real.cos a * (p.1 - c.1) - Real.sin a * (p.2 - c.2)), c.2 + (Real.sin a * (p.1 - c.1) + Real.cos a * (p.2 - c.2)))

/-- Direction of the vector from `p` to `q`: unit vector. -/
noncomputable def unitTo (p q : ℝ × ℝ) : ℝ × ℝ := ((q.1 - p.1) / eucl p q, (q.2 - p.2) / eucl p q)

/-- The line `m` is the bisector at `v` of the angle `a v b` (the one inside the angle): it goes through `v`, and has the direction of the sum of the
two unit vectors from `v` to `a` and `b`; if these are opposite (flat angle) it is perpendicular to them. -/
def IsBisector (a v b : ℝ × ℝ) (m : V3 ℝ) : Prop :=
  UnitNormal m ∧ On m v ∧ On m (v.1 + ((unitTo v a).1 + (unitTo v b).1), v.2 + ((unitTo v a).2 + (unitTo v b).2)) ∧
  ((unitTo v a).1 + (unitTo v b).1 = 0 ∧ (unitTo v a).2 + (unitTo v b).2 = 0 → m 0 * (a.2 - v.2) = m 1 * (a.1 - v.1))

/-- The direction of the bisector at `v` of the angle `a v b` is horizontal, or far enough from that: this direction is the one of `a` turned by half
of the angle. -/
def BisectorSlope (t : Thr ℝ) (a v b : ℝ × ℝ) : Prop :=
  ∃ θ, - Real.pi < θ ∧ θ ≤ Real.pi ∧ rotOrigin θ (unitTo v a) = unitTo v b ∧
    ((rotOrigin (θ / 2) (unitTo v a)).2 = 0 ∨ t.nullDenom ≤ |(rotOrigin (θ / 2) (unitTo v a)).2|)

/-- The segment from `a` to `b` is tangent at `a` to the circle: this point is on the circle, and the radius there is perpendicular to the segment. -/
def TangentAt (c : ℝ × ℝ) (r : ℝ) (a b : ℝ × ℝ) : Prop := eucl c a = r ∧ (a.1 - c.1) * (b.1 - a.1) + (a.2 - c.2) * (b.2 - a.2) = 0

/-- The segment joins the contact points of a tangent common to both circles, these being on the same side of it. -/
def OuterTangent (c1 : ℝ × ℝ) (r1 : ℝ) (c2 : ℝ × ℝ) (r2 : ℝ) (s : (ℝ × ℝ) × (ℝ × ℝ)) : Prop :=
  ∃ a b, (s = (a, b) ∨ s = (b, a)) ∧ TangentAt c1 r1 a b ∧ TangentAt c2 r2 b a ∧ 0 < turnAt a b c1 * turnAt a b c2

/-- The segments are on different sides of the line through `p` and `q`. -/
def OtherSides (p q : ℝ × ℝ) (s s' : (ℝ × ℝ) × (ℝ × ℝ)) : Prop :=
  ∀ a b, (a = s.1 ∨ a = s.2) → (b = s'.1 ∨ b = s'.2) → turnAt p q a * turnAt p q b < 0

/-- A direction (unit vector) that is horizontal, or far enough from that, and the same for vertical. -/
def GoodDir (t : Thr ℝ) (u : ℝ × ℝ) : Prop := (u.1 = 0 ∨ t.nullDenom ≤ |u.1|) ∧ (u.2 = 0 ∨ t.nullDenom ≤ |u.2|)

end H2d.Spec
