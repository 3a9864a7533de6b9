import Verif.Spec.Float
import Verif.Spec.Segment
import Verif.Model.FloatCross

/-! # Vocabulary for intersections with rounded operations -/

namespace H2d.Spec

/-- The point is on both lines. -/
def OnBoth (l m : Fin 3 → ℝ) (p : ℝ × ℝ) : Prop := l 0 * p.1 + l 1 * p.2 + l 2 = 0 ∧ m 0 * p.1 + m 1 * p.2 + m 2 = 0

/-- Sine of the angle of two lines. -/
noncomputable def sinLines (l m : Fin 3 → ℝ) : ℝ := |l 0 * m 1 - l 1 * m 0| / (Real.sqrt (l 0 ^ 2 + l 1 ^ 2) * Real.sqrt (m 0 ^ 2 + m 1 ^ 2))

/-- Distance of a line to the origin. -/
noncomputable def offLine (l : Fin 3 → ℝ) : ℝ := |l 2| / Real.sqrt (l 0 ^ 2 + l 1 ^ 2)

/-- Sine of the angle of two segments. -/
noncomputable def sinSegs (s s' : (ℝ × ℝ) × (ℝ × ℝ)) : ℝ :=
  |(s.2.1 - s.1.1) * (s'.2.2 - s'.1.2) - (s.2.2 - s.1.2) * (s'.2.1 - s'.1.1)| / (eucl s.1 s.2 * eucl s'.1 s'.2)

/-- The coordinates of the ends are floating-point numbers, not above `M`. -/
def SegRep (F : Arith) (M : ℝ) (s : (ℝ × ℝ) × (ℝ × ℝ)) : Prop :=
  (Rep F s.1.1 ∧ Rep F s.1.2) ∧ (Rep F s.2.1 ∧ Rep F s.2.2) ∧ |s.1.1| ≤ M ∧ |s.1.2| ≤ M ∧ |s.2.1| ≤ M ∧ |s.2.2| ≤ M

/-- The segment is horizontal, or its slope is large enough (see `C106_false`). -/
def SlopeOk (t : Thr ℝ) (s : (ℝ × ℝ) × (ℝ × ℝ)) : Prop := s.1.2 = s.2.2 ∨ t.nullDenom ≤ 9 / 10 * (|s.1.2 - s.2.2| / eucl s.1 s.2)

/-- Two segments with floating-point coordinates up to `M`, lengths at least `L`, an angle whose sine is at least `S`, not too short for the precision and the thresholds. `u`: unit of rounding,
`w`: error of `std::acos`. -/
structure SegPair (F : Arith) (t : Thr ℝ) (u w M L S : ℝ) (s s' : (ℝ × ℝ) × (ℝ × ℝ)) : Prop where
  rep1 : SegRep F M s
  rep2 : SegRep F M s'
  slope1 : SlopeOk t s
  slope2 : SlopeOk t s'
  L_pos : 0 < L
  len1 : L ≤ eucl s.1 s.2
  len2 : L ≤ eucl s'.1 s'.2
  S_pos : 0 < S
  sin : S ≤ sinSegs s s'
  small : 512 * (u * M ^ 2) ≤ S * L ^ 2
  thr : 3 * t.nullDistance ≤ S * L
  eps : 2 * dblEps ≤ t.nullDistance
  angle : t.nullAngleValue + (Real.pi * Real.sqrt (11 * u / 2) + w * (Real.pi / 2)) ≤ 3 / 4 * S

end H2d.Spec
