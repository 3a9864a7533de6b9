import Verif.Spec.FloatCross

/-! # Vocabulary for orthogonal lines and segments with rounded operations -/

namespace H2d.Spec

/-- `q` is the point of the line that is the closest to `p`. -/
def ClosestOn (l : Fin 3 → ℝ) (p q : ℝ × ℝ) : Prop := On l q ∧ ∀ q', On l q' → eucl p q ≤ eucl p q'

/-- A line with a direction, that is vertical or not nearly so, and a point; `M` bounds the coordinates of the point and, up to a factor, the distance of the line to the origin. -/
structure Orthog (t : Thr ℝ) (M : ℝ) (l : Fin 3 → ℝ) (p : ℝ × ℝ) : Prop where
  dir : 0 < l 0 ^ 2 + l 1 ^ 2
  slope : l 1 = 0 ∨ t.nullDenom ≤ 1 / 2 * (|l 1| / Real.sqrt (l 0 ^ 2 + l 1 ^ 2))
  x : |p.1| ≤ M
  y : |p.2| ≤ M
  off : offLine l ≤ 8 / 5 * M

end H2d.Spec
