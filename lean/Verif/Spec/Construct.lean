import Verif.Spec.Segment
import Verif.Spec.Pip
import Mathlib.Analysis.SpecialFunctions.Trigonometric.Basic

/-! # Vocabulary for the construction of polygons -/

namespace H2d.Spec

/-- Rotation of the plane about the origin, anticlockwise. -/
noncomputable def rotOrigin (a : ℝ) (p : ℝ × ℝ) : ℝ × ℝ := (Real.cos a * p.1 - Real.sin a * p.2, Real.sin a * p.1 + Real.cos a * p.2)

/-- The polygon is the regular one with `n` vertices on the circle of radius `r` centered at the origin, that starts on the x axis and runs
anticlockwise: each vertex is the image of the previous one by the rotation of one n-th of a turn, also from the last one to the first one. -/
def IsRegular (r : ℝ) (n : ℕ) (pts : List (ℝ × ℝ)) : Prop :=
  pts.length = n ∧ pts[0]? = some (r, 0) ∧ ∀ e ∈ polyEdges pts, e.2 = rotOrigin (2 * Real.pi / n) e.1

end H2d.Spec
