import Verif.Spec.FloatSegLine

/-! # Vocabulary for the intersection of a rectangle and a line with rounded operations -/

namespace H2d.Spec

/-- A rectangle with floating-point coordinates up to `M` and sides at least `L`, a line at a distance up to `8/5 M` of the origin that makes an angle whose sine is at least `S` with the sides that it crosses, and that avoids the corners;
the sides are not too short for the precision and the thresholds. Sides whose angle with the line is below `σ` are parallel to it for the library. `u`, `v`: units of rounding, `w`: error of `std::acos`. -/
structure RectLn (F : Arith) (t : Thr ℝ) (u v w M L S σ : ℝ) (r : FRect ℝ) (li : Fin 3 → ℝ) : Prop where
  rep : SegRep F M (r.p1, r.p2)
  denom : t.nullDenom ≤ 9 / 10
  L_pos : 0 < L
  len : ∀ e ∈ rectSides r, L ≤ eucl e.1 e.2
  norm : 0 < li 0 ^ 2 + li 1 ^ 2
  off : offLine li ≤ 8 / 5 * M
  S_pos : 0 < S
  S_le : S ≤ 1
  sin : ∀ e ∈ rectSides r, Crosses li e → S ≤ sinLineSeg li e
  small : 512 * (u * M ^ 2) ≤ S * L ^ 2
  thr : 3 * t.nullDistance ≤ S * L
  eps : 2 * dblEps ≤ t.nullDistance
  angle : t.nullAngleValue + (Real.pi * Real.sqrt (11 * u / 2) + w * (Real.pi / 2)) ≤ 3 / 4 * S
  σ_pos : 0 < σ
  prec : 50 * u ≤ σ
  flat : 2 * σ + (Real.pi * Real.sqrt (11 * u / 2) + w * (Real.pi / 2)) ≤ t.nullAngleValue
  corner : ∀ c ∈ r.get4Pts, 5 / 2 * t.nullDistance ≤ |sideDist li c| ∧ asideMargin t u v M L σ < |sideDist li c|

end H2d.Spec
