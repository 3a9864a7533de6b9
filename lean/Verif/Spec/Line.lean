import Verif.Model.Basic
import Verif.Model.Homog
import Mathlib.Analysis.SpecialFunctions.Trigonometric.Inverse

/-! # Vocabulary for points and lines of the plane -/

namespace H2d.Spec

/-- Euclidean distance. -/
noncomputable def eucl (p q : ℝ × ℝ) : ℝ := Real.sqrt ((p.1 - q.1) ^ 2 + (p.2 - q.2) ^ 2)

/-- The point `(x, y)` is on the line `a.x + b.y + c = 0`. -/
def On (l : V3 ℝ) (p : ℝ × ℝ) : Prop := l 0 * p.1 + l 1 * p.2 + l 2 = 0

/-- The normal vector `(a, b)` of the line is not null. -/
def Proper (l : V3 ℝ) : Prop := l 0 ^ 2 + l 1 ^ 2 ≠ 0

/-- The normal vector `(a, b)` has norm 1. All lines built by the library are so. -/
def UnitNormal (l : V3 ℝ) : Prop := l 0 ^ 2 + l 1 ^ 2 = 1

/-- What the library guarantees on the values it stores for a line. -/
def NormLine (t : Thr ℝ) (l : V3 ℝ) : Prop := UnitNormal l ∧ 0 ≤ l 0 ∧ (l 0 < t.nullDenom → 0 ≤ l 1)

/-- Both lines have the same direction. -/
def SameDir (l m : V3 ℝ) : Prop := l 0 * m 1 = l 1 * m 0

/-- The lines are perpendicular. -/
def Perp (l m : V3 ℝ) : Prop := l 0 * m 0 + l 1 * m 1 = 0

/-- Default values of the thresholds (homog2d.hpp:203-222). -/
noncomputable def stdR : Thr ℝ := ⟨1/10^10, 1/10^14, 1/1000, 1/10^10, 1/10^15⟩

/-- Slope of the line through two points: null, or large enough for the first coefficient of the normalised line not to be mistaken for 0. -/
def GoodSlope (t : Thr ℝ) (p q : ℝ × ℝ) : Prop := p.2 = q.2 ∨ t.nullDenom * eucl p q ≤ |p.2 - q.2|

end H2d.Spec
