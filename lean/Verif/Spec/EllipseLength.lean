import Verif.Spec.Ellipse
import Mathlib.MeasureTheory.Integral.IntervalIntegral.Basic
import Mathlib.Analysis.Calculus.Deriv.Basic

/-! # Length of an ellipse: vocabulary -/

namespace H2d.Spec

/-- Length of a closed curve given by a parameter in [0, 2π]: integral of its speed. -/
noncomputable def curveLen (γ : ℝ → Pt ℝ) : ℝ :=
  ∫ s in (0 : ℝ)..2 * Real.pi, Real.sqrt (deriv (fun s => (γ s).1) s ^ 2 + deriv (fun s => (γ s).2) s ^ 2)

/-- The points of the ellipse with center `(x, y)`, half axes `a` (in direction `th`) and `b`. -/
noncomputable def ellCurve (x y a b th s : ℝ) : Pt ℝ :=
  (x + a * Real.cos s * Real.cos th - b * Real.sin s * Real.sin th, y + a * Real.cos s * Real.sin th + b * Real.sin s * Real.cos th)

end H2d.Spec
