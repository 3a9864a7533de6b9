import Verif.Spec.FloatSimple
import Verif.Spec.Pip
import Verif.Spec.BB

/-! # Vocabulary for the point in a polygon with rounded operations -/

namespace H2d.Spec

/-- Rounded ordinates of the points of the left side of the extended bounding box: its top, then the middle of the bottom and of the previous one. -/
noncomputable def refY (F : Arith) (lo hi : ℝ × ℝ) : ℕ → ℝ
  | 0 => F.rnd (2 * hi.2 - lo.2)
  | n + 1 => F.rnd (F.rnd (2 * lo.2 - hi.2) + refY F lo hi n) / 2

/-- The far ends of the reference segments: `refPoint` with roundings. -/
noncomputable def refPt (F : Arith) (lo hi : ℝ × ℝ) (n : ℕ) : ℝ × ℝ := (F.rnd (2 * lo.1 - hi.1), refY F lo hi n)

/-- A polygon and a point with floating-point coordinates, of absolute values up to `M / 4`; `lo`, `hi`: corners of the bounding box. The edges have a length at least `L`, and are horizontal or not too close
to it. Each edge is either far from each reference segment, or makes with it an angle whose sine is at least `S`. The null distance is large enough for the precision `u`, `v`, `w`. -/
structure PipOk (F : Arith) (t : Thr ℝ) (u v w M L S : ℝ) (pts : List (ℝ × ℝ)) (p lo hi : ℝ × ℝ) : Prop where
  box : IsTightBox (fun q => q ∈ pts) lo hi
  wide : 2 * t.nullDistance ≤ hi.1 - lo.1
  rep : ∀ q ∈ pts, (Rep F q.1 ∧ Rep F q.2) ∧ |q.1| ≤ M / 4 ∧ |q.2| ≤ M / 4
  repP : Rep F p.1 ∧ Rep F p.2
  edges : ∀ e ∈ polyEdges pts, SlopeOk t e ∧ L ≤ eucl e.1 e.2
  refs : ∀ n, 1 ≤ n → n ≤ 5 → SlopeOk t (p, refPt F lo hi n) ∧ L ≤ eucl p (refPt F lo hi n) ∧
    ∀ e ∈ polyEdges pts, S ≤ sinSegs e (p, refPt F lo hi n) ∨ ∀ x y, OnSeg e.1 e.2 x → OnSeg p (refPt F lo hi n) y → reach t u v (3 * M) < eucl x y
  L_pos : 0 < L
  S_pos : 0 < S
  S_le : S ≤ 1
  small : 512 * (u * M ^ 2) ≤ S * L ^ 2
  thr : 3 * t.nullDistance ≤ S * L
  eps : 2 * dblEps ≤ t.nullDistance
  angle : t.nullAngleValue + (Real.pi * Real.sqrt (11 * u / 2) + w * (Real.pi / 2)) ≤ 3 / 4 * S
  num : 2000 * (u * M ^ 2 / (L * S)) + 1500 * (u + v) * M ≤ t.nullDistance

end H2d.Spec
