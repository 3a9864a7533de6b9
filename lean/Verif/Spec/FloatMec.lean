import Verif.Model.FloatMec
import Verif.Spec.Float
import Verif.Spec.Line
import Verif.Model.Polyline
import Mathlib.Analysis.SpecialFunctions.Trigonometric.Basic
import Mathlib.Data.List.Perm.Subperm

/-! # Specification of circles built from points, with rounding -/

namespace H2d.Spec

/-- The circle is the one that the constructors build from two, or three, of the points. -/
def FromPoints (F : Arith) (t : Thr ℝ) (ac : ℝ → ℝ) (pts : List (Pt ℝ)) (c : Option Circle) : Prop :=
  (∃ a b d, [a, b].Subperm pts ∧ Fl.circle2 F t a b = .ok d ∧ c = some d) ∨ (∃ a b e, [a, b, e].Subperm pts ∧ Fl.circle3 F t ac a b e = .ok c)

/-- The points are on a line that is horizontal, or vertical, or neither nearly horizontal nor nearly vertical (see `C106_false`). -/
structure Slopes (t : Thr ℝ) (p q : ℝ × ℝ) : Prop where
  hor : p.1 = q.1 ∨ t.nullDenom ≤ 1 / 2 * (|q.1 - p.1| / eucl p q)
  ver : p.2 = q.2 ∨ t.nullDenom ≤ 1 / 2 * (|q.2 - p.2| / eucl p q)

/-- Three points with floating-point coordinates up to `M`, in directions that the library handles. -/
structure Three (F : Arith) (t : Thr ℝ) (M : ℝ) (p1 p2 p3 : ℝ × ℝ) : Prop where
  rep : ∀ p ∈ [p1, p2, p3], Rep F p.1 ∧ Rep F p.2
  bound : ∀ p ∈ [p1, p2, p3], |p.1| ≤ M ∧ |p.2| ≤ M
  slopes : ∀ p ∈ [p1, p2, p3], ∀ q ∈ [p1, p2, p3], Slopes t p q

/-- Arithmetic without rounding. -/
noncomputable def exactArith : Arith := ⟨id, fun a b => Real.sqrt (a ^ 2 + b ^ 2)⟩

/-- The sine of each angle of the triangle is at least `S`. -/
def SinAtLeast (S : ℝ) (p1 p2 p3 : ℝ × ℝ) : Prop := ∀ a b c, [a, b, c].Perm [p1, p2, p3] → S * (eucl a b * eucl a c) ≤ |orientDet a b c|

/-- The circle of center `O` and radius `R` goes through the three points. -/
def Through (O : ℝ × ℝ) (R : ℝ) (p1 p2 p3 : ℝ × ℝ) : Prop := ∀ p ∈ [p1, p2, p3], eucl O p = R

/-- Three points at a distance at least `L` of each other, the sine of each angle being at least `S`, not too close nor too flat for the precision and the thresholds. `u`, `v`: units of rounding, `w`: error of `std::acos`. -/
structure WideTriangle (F : Arith) (t : Thr ℝ) (u v w M L S : ℝ) (p1 p2 p3 : ℝ × ℝ) : Prop extends Three F t M p1 p2 p3 where
  eps : 2 * dblEps ≤ t.nullDistance
  apart : L ≤ eucl p1 p2 ∧ L ≤ eucl p1 p3 ∧ L ≤ eucl p2 p3
  long : 2 * t.nullDistance ≤ L
  sharp : 1000 * u * M ^ 2 ≤ L ^ 2
  sin : SinAtLeast S p1 p2 p3
  prec : 100 * u ≤ S
  flat : 2 * t.nullDistance + 15 * (u + v) * M + 150 * u * M ^ 3 / L ^ 2 ≤ S * L
  angle : t.nullAngleValue + (Real.pi * Real.sqrt (11 * u / 2) + w * (Real.pi / 2)) ≤ 3 / 4 * S

/-- The three points are on a line. -/
def OnOneLine (p1 p2 p3 : ℝ × ℝ) : Prop := ∃ x y z : ℝ, (x ≠ 0 ∨ y ≠ 0) ∧ ∀ p ∈ [p1, p2, p3], x * p.1 + y * p.2 + z = 0

end H2d.Spec
