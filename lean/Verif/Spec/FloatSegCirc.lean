import Verif.Spec.FloatCross
import Verif.Model.FloatSegCirc

/-! # Vocabulary for the intersection of a segment and a circle with rounded operations -/

namespace H2d.Spec

/-- A segment and a circle with floating-point coordinates up to `M`; the segment has length at least `L`, and is not too short for the precision `u` and the thresholds. -/
structure SegCirc (F : Arith) (t : Thr ℝ) (u M L : ℝ) (s : (ℝ × ℝ) × (ℝ × ℝ)) (c : ℝ × ℝ) (r : ℝ) : Prop where
  rep : SegRep F M s
  slope : SlopeOk t s
  L_pos : 0 < L
  len : L ≤ eucl s.1 s.2
  small : 512 * (u * M ^ 2) ≤ L ^ 2
  thr : 2 * t.nullDistance ≤ L
  eps : 2 * dblEps ≤ t.nullDistance
  cx : |c.1| ≤ M
  cy : |c.2| ≤ M
  rad : r ≤ M

/-- The error on the position of the points: `u M (M/L)²`, up to a factor. -/
noncomputable def scErr (u M L : ℝ) : ℝ := u * M ^ 3 / L ^ 2

/-- How far from the circle the ends must be for the answer to be known. `nd`: `thr::nullDistance()`, `v`: error of `std::hypot`. -/
noncomputable def scMargin (u v M L nd : ℝ) : ℝ := 2400 * scErr u M L + 12 * (u + v) * M + 2 * nd

/-- The point is within `e` of the segment (its two ends included). -/
def NearSeg (s : (ℝ × ℝ) × (ℝ × ℝ)) (e : ℝ) (q : ℝ × ℝ) : Prop := ∃ k, 0 ≤ k ∧ k ≤ 1 ∧ eucl q (along s k) ≤ e

/-- The point is within `e` of the circle. -/
def NearCircle (c : ℝ × ℝ) (r e : ℝ) (q : ℝ × ℝ) : Prop := |eucl q c - r| ≤ e

end H2d.Spec
