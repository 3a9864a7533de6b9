import Verif.Spec.FloatChain
import Verif.Spec.FloatCross

/-! # Vocabulary for rotated lines with rounded operations -/

namespace H2d.Spec

/-- A line and a point: the normal of the line has a length of at least 1/2 (1 up to rounding, for the lines of the library); `M` bounds the coordinates of the point and, up to a factor, the distance of the line to the origin;
the values are floating-point numbers. -/
structure Turn (F : Arith) (M : ℝ) (l : Fin 3 → ℝ) (p : ℝ × ℝ) : Prop where
  normal : 1 / 2 ≤ Real.sqrt (l 0 ^ 2 + l 1 ^ 2)
  x : |p.1| ≤ M
  y : |p.2| ≤ M
  off : offLine l ≤ 8 / 5 * M
  repX : Rep F p.1
  repY : Rep F p.2
  repL : Rep F (l 2)

/-- The sine of the angle of two lines is at most `d`. -/
def SinLe (d : ℝ) (l m : Fin 3 → ℝ) : Prop := |l 0 * m 1 - l 1 * m 0| ≤ d * (Real.sqrt (l 0 ^ 2 + l 1 ^ 2) * Real.sqrt (m 0 ^ 2 + m 1 ^ 2))

/-- The line after a rotation about the origin. -/
noncomputable def turnedLine (a : ℝ) (l : Fin 3 → ℝ) : Fin 3 → ℝ := ![l 0 * Real.cos a - l 1 * Real.sin a, l 0 * Real.sin a + l 1 * Real.cos a, l 2]

end H2d.Spec
