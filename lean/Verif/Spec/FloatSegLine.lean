import Verif.Spec.FloatInside
import Verif.Model.FloatSegLine

/-! # Vocabulary for the intersection of a segment and a line with rounded operations -/

namespace H2d.Spec

/-- Value of the equation of the line at a point, divided by the norm: the distance, with a sign that tells the side. -/
noncomputable def sideDist (l : Fin 3 → ℝ) (p : ℝ × ℝ) : ℝ := (l 0 * p.1 + l 1 * p.2 + l 2) / Real.sqrt (l 0 ^ 2 + l 1 ^ 2)

/-- Sine of the angle of a line and a segment. -/
noncomputable def sinLineSeg (l : Fin 3 → ℝ) (s : (ℝ × ℝ) × (ℝ × ℝ)) : ℝ := |l 0 * (s.2.1 - s.1.1) + l 1 * (s.2.2 - s.1.2)| / (Real.sqrt (l 0 ^ 2 + l 1 ^ 2) * eucl s.1 s.2)

/-- A segment with floating-point coordinates up to `M` and length at least `L`, a line at a distance up to `8/5 M` of the origin, an angle whose sine is at least `S`; the segment is not too short for
the precision and the thresholds. `u`: unit of rounding, `w`: error of `std::acos`. -/
structure SegLn (F : Arith) (t : Thr ℝ) (u w M L S : ℝ) (s : (ℝ × ℝ) × (ℝ × ℝ)) (li : Fin 3 → ℝ) : Prop where
  rep : SegRep F M s
  slope : SlopeOk t s
  L_pos : 0 < L
  len : L ≤ eucl s.1 s.2
  norm : 0 < li 0 ^ 2 + li 1 ^ 2
  off : offLine li ≤ 8 / 5 * M
  S_pos : 0 < S
  sin : S ≤ sinLineSeg li s
  small : 512 * (u * M ^ 2) ≤ S * L ^ 2
  thr : 3 * t.nullDistance ≤ S * L
  eps : 2 * dblEps ≤ t.nullDistance
  angle : t.nullAngleValue + (Real.pi * Real.sqrt (11 * u / 2) + w * (Real.pi / 2)) ≤ 3 / 4 * S

/-- The error on the position of the point. -/
noncomputable def slErr (u M L S : ℝ) : ℝ := u * M ^ 2 / (L * S)

/-- The ends are on different sides of the line. -/
def Crosses (li : Fin 3 → ℝ) (s : (ℝ × ℝ) × (ℝ × ℝ)) : Prop := sideDist li s.1 * sideDist li s.2 < 0

/-- Both ends are on the same side of the line, farther than `A`. -/
def Aside (li : Fin 3 → ℝ) (A : ℝ) (s : (ℝ × ℝ) × (ℝ × ℝ)) : Prop := (A < sideDist li s.1 ∧ A < sideDist li s.2) ∨ (sideDist li s.1 < -A ∧ sideDist li s.2 < -A)

/-- The least distance to the line that is enough for a segment of length `L`, whatever the angle. Lines whose angle is below `σ` are parallel for the library. -/
noncomputable def asideMargin (t : Thr ℝ) (u v M L σ : ℝ) : ℝ := 140 * (u * M / σ) + 61 * (u * M ^ 2 / L) + 6 * (u + v) * M + 11 / 20 * t.nullDistance

/-- A segment with floating-point coordinates up to `M`, not too short for the precision and the null distance, all on one side of the line; the angle is arbitrary. -/
structure SegAside (F : Arith) (t : Thr ℝ) (u v w M σ : ℝ) (s : (ℝ × ℝ) × (ℝ × ℝ)) (li : Fin 3 → ℝ) : Prop where
  rep : SegRep F M s
  slope : SlopeOk t s
  len : 2 * t.nullDistance ≤ eucl s.1 s.2
  norm : 0 < li 0 ^ 2 + li 1 ^ 2
  off : offLine li ≤ 8 / 5 * M
  small : 512 * (u * M ^ 2) ≤ eucl s.1 s.2 ^ 2
  eps : 2 * dblEps ≤ t.nullDistance
  σ_pos : 0 < σ
  prec : 50 * u ≤ σ
  angle : 2 * σ + (Real.pi * Real.sqrt (11 * u / 2) + w * (Real.pi / 2)) ≤ t.nullAngleValue
  aside : Aside li (asideMargin t u v M (eucl s.1 s.2) σ) s

open Classical in
/-- The edges that cross the line, in order. -/
noncomputable def crossing (es : List ((ℝ × ℝ) × (ℝ × ℝ))) (li : Fin 3 → ℝ) : List ((ℝ × ℝ) × (ℝ × ℝ)) := es.filter fun e => Crosses li e

end H2d.Spec
