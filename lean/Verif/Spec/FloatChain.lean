import Verif.Model.FloatChain
import Verif.Spec.Float
import Verif.Spec.Line

/-! # Vocabulary for transformations added to a homography -/

namespace H2d.Spec

/-- Cosine and sine are computed up to `w`. -/
structure TrigOk (co si : ℝ → ℝ) (w : ℝ) : Prop where
  w_nonneg : 0 ≤ w
  w_small : w ≤ 1 / 64
  cosErr : ∀ x, |co x - Real.cos x| ≤ w
  sinErr : ∀ x, |si x - Real.sin x| ≤ w

/-- What a transformation does to a point. -/
noncomputable def sentTo : Fl.Trans → ℝ × ℝ → ℝ × ℝ
  | .translation tx ty, p => (p.1 + tx, p.2 + ty)
  | .rotation a, p => (p.1 * Real.cos a - p.2 * Real.sin a, p.1 * Real.sin a + p.2 * Real.cos a)
  | .scale kx ky, p => (kx * p.1, ky * p.2)

/-- Where a point goes by transformations, one after the other. -/
noncomputable def sentBy (os : List Fl.Trans) (p : ℝ × ℝ) : ℝ × ℝ := os.foldl (fun q o => sentTo o q) p

/-- The factor by which a transformation may expand, at least 1. -/
noncomputable def stretch : Fl.Trans → ℝ
  | .scale kx ky => max 1 (max |kx| |ky|)
  | _ => 1

/-- Product of the factors by which the transformations may expand. -/
noncomputable def growth (os : List Fl.Trans) : ℝ := (os.map stretch).prod

/-- Length of a translation. -/
noncomputable def pushLen : Fl.Trans → ℝ
  | .translation tx ty => eucl (0, 0) (tx, ty)
  | _ => 0

/-- Sum of the lengths of the translations. -/
noncomputable def travel (os : List Fl.Trans) : ℝ := (os.map pushLen).sum

end H2d.Spec
