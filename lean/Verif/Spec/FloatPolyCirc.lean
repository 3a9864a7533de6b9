import Verif.Spec.FloatSegCirc
import Verif.Spec.Inside

/-! # Vocabulary for the intersection of a polyline or a rectangle with a circle, with rounded operations -/

namespace H2d.Spec

/-- A segment that is inside the disc, or outside, or that cuts the circle: by a margin `m` outside, and `d` inside. Segments that touch the circle, or have an end near it, are not in this list. -/
inductive ClearOf (c : ℝ × ℝ) (r m d : ℝ) (s : (ℝ × ℝ) × (ℝ × ℝ)) : Prop
  | inside (h1 : eucl s.1 c + d ≤ r) (h2 : eucl s.2 c + d ≤ r)
  | outside (h : ∀ k, 0 ≤ k → k ≤ 1 → r + m ≤ eucl (along s k) c)
  | leaves (h1 : eucl s.1 c + d ≤ r) (h2 : r + m ≤ eucl s.2 c)
  | enters (h1 : r + m ≤ eucl s.1 c) (h2 : eucl s.2 c + d ≤ r)
  | through (k : ℝ) (h0 : 0 ≤ k) (h1 : k ≤ 1) (hk : eucl (along s k) c + d ≤ r) (ha : r + m ≤ eucl s.1 c) (hb : r + m ≤ eucl s.2 c)

open Classical in
/-- Number of times that a segment cuts the circle: once if one end only is inside the disc, twice if both ends are outside and some point between them inside. -/
noncomputable def cuts (c : ℝ × ℝ) (r : ℝ) (s : (ℝ × ℝ) × (ℝ × ℝ)) : ℕ :=
  if (eucl s.1 c < r ↔ eucl s.2 c < r) then (if ¬ eucl s.1 c < r ∧ ∃ k, 0 ≤ k ∧ k ≤ 1 ∧ eucl (along s k) c < r then 2 else 0) else 1

/-- What a list of computed points says on the intersections of a circle and some segments: all of its points are near the circle and near one of the segments; each intersection has one of them near to it. -/
structure Meets (u M L d : ℝ) (c : ℝ × ℝ) (r : ℝ) (es : List ((ℝ × ℝ) × (ℝ × ℝ))) (pts : List (ℝ × ℝ)) : Prop where
  circle : ∀ q ∈ pts, NearCircle c r (48 * u * M) q
  seg : ∀ q ∈ pts, ∃ e ∈ es, NearSeg e (651 * scErr u M L) q
  found : ∀ e ∈ es, ∀ X, OnSeg e.1 e.2 X → eucl X c = r → ∃ q ∈ pts, eucl q X ≤ 1083 * scErr u M L * (1 + eucl e.1 e.2 / d)

end H2d.Spec
