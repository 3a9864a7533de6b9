import Verif.Model.Ellipse

/-!
# Vocabulary for ellipses
-/

namespace H2d.Spec

/-- Equation of the ellipse with center `(x0,y0)`, half axes `a` (in direction `theta`) and `b`: less than 1 inside, 1 on the curve. -/
noncomputable def ellVal (x0 y0 a b theta : ℝ) (p : Pt ℝ) : ℝ :=
  ((p.1 - x0) * Real.cos theta + (p.2 - y0) * Real.sin theta) ^ 2 / a ^ 2 +
  (-(p.1 - x0) * Real.sin theta + (p.2 - y0) * Real.cos theta) ^ 2 / b ^ 2

/-- The point is strictly inside the ellipse. -/
def InsideEll (x0 y0 a b theta : ℝ) (p : Pt ℝ) : Prop := ellVal x0 y0 a b theta p < 1

/-- The quadratic form of a symmetric matrix on homogeneous coordinates. -/
def quad {K : Type} [Field K] (m : Mat K) (p : V3 K) : K :=
  p 0 * (m 0 0 * p 0 + m 0 1 * p 1 + m 0 2 * p 2) + p 1 * (m 1 0 * p 0 + m 1 1 * p 1 + m 1 2 * p 2) +
  p 2 * (m 2 0 * p 0 + m 2 1 * p 1 + m 2 2 * p 2)

/-- The point (homogeneous coordinates) is on the conic of the matrix. -/
def OnConic {K : Type} [Field K] (m : Mat K) (p : V3 K) : Prop := quad m p = 0

/-- The angle of an ellipse with half axes `a > b` can be computed back from its matrix: it is horizontal, or a circle, or it is tilted
enough with respect to both axes for the term in `xy` not to be considered null. -/
def AngleOk (t : Thr ℝ) (a b theta : ℝ) : Prop :=
  Real.sin theta = 0 ∨ a = b ∨ t.nullDenom ≤ (a ^ 2 - b ^ 2) * |Real.sin (2 * theta)|

/-- Both objects report the same center, half axes and area. -/
def SameShape (t : Thr ℝ) (e e' : Ell) : Prop :=
  e'.getCenter t = e.getCenter t ∧ e'.getMajMin t = e.getMajMin t ∧ e'.area t = e.area t

end H2d.Spec
