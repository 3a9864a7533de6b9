import Verif.Spec.Simple
import Verif.Spec.FloatCross

/-! # Vocabulary for simple polygons with rounded operations -/

namespace H2d.Spec

/-- What the sum of the distances of a point to the ends of a segment of length up to `Λ` may exceed its length by, when the point is taken to be on the segment. -/
noncomputable def slack (t : Thr ℝ) (u v Λ : ℝ) : ℝ := 4 * (u + v) * Λ + 11 / 10 * t.nullDistance

/-- Two segments of lengths up to `Λ` that are farther apart than this are never taken to intersect. -/
noncomputable def reach (t : Thr ℝ) (u v Λ : ℝ) : ℝ := Real.sqrt (slack t u v Λ * (2 * Λ + slack t u v Λ)) + slack t u v Λ

/-- The edges are made of floating-point numbers, and have lengths between twice the null distance and `Λ`. -/
def EdgesOk (F : Arith) (t : Thr ℝ) (Λ : ℝ) (pts : List (ℝ × ℝ)) : Prop :=
  (∀ p ∈ pts, Rep F p.1 ∧ Rep F p.2) ∧ ∀ i e, Edge pts i e → 2 * t.nullDistance ≤ eucl e.1 e.2 ∧ eucl e.1 e.2 ≤ Λ

end H2d.Spec
