import Verif.Spec.FloatRect
import Verif.Model.PolyReal

/-! # Vocabulary for the union of rectangles with rounded operations -/

namespace H2d.Spec

/-- `at2` computes the argument with relative error `w`. -/
structure Atan2Ok (at2 : ℝ → ℝ → ℝ) (w : ℝ) : Prop where
  nonneg : 0 ≤ w
  small : w ≤ 1 / 64
  err : ∀ y x, |at2 y x - atan2 y x| ≤ w * |atan2 y x|

/-- Two rectangles with rounded operations: the sides have at least length `L`, a coordinate of one rectangle and a coordinate of the other are equal or at least three null distances apart, and the rounding errors are small with
respect to the null distance. -/
structure RectApart (F : Arith) (t : Thr ℝ) (u v M L : ℝ) (a b : FRect ℝ) : Prop where
  ra : RectRep F M a
  rb : RectRep F M b
  L0 : 0 < L
  la : LongSides L a
  lb : LongSides L b
  apart : ApartRects (3 * t.nullDistance) a b
  eps : 2 * dblEps ≤ t.nullDistance
  noise : 36 * (u * M ^ 2 / L) + 11 * (u + v) * M < t.nullDistance

/-- Two rectangles with rounded operations: two abscissas or two ordinates are equal or at least `L` apart, where `L` is at least three null distances, and the rounding errors are small with respect to the null distance and
to the areas. -/
structure RectsApart (F : Arith) (t : Thr ℝ) (u v M L : ℝ) (a b : FRect ℝ) : Prop where
  ra : RectRep F M a
  rb : RectRep F M b
  gap : 3 * t.nullDistance ≤ L
  apart : ApartRects L a b
  eps : 2 * dblEps ≤ t.nullDistance
  noise : 36 * (u * M ^ 2 / L) + 11 * (u + v) * M < t.nullDistance
  area : 5000 * (u * M ^ 3) ≤ L ^ 3

end H2d.Spec
