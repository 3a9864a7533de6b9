import Verif.Spec.FloatPip
import Verif.Spec.Inside

/-! # Vocabulary for intersections of polylines and containment in a polygon with rounded operations -/

namespace H2d.Spec

/-- The segments have a common point. -/
def Meet (s s' : (ℝ × ℝ) × (ℝ × ℝ)) : Prop := ∃ P, OnSeg s.1 s.2 P ∧ OnSeg s'.1 s'.2 P

/-- The ends have floating-point coordinates up to `M`, the length is at least twice the null distance. -/
def SegFine (F : Arith) (t : Thr ℝ) (M : ℝ) (s : (ℝ × ℝ) × (ℝ × ℝ)) : Prop := SegRep F M s ∧ 2 * t.nullDistance ≤ eucl s.1 s.2

/-- Either the segments are farther apart than `reach`, or they have a common point and are such as in `SegPair` (long enough, with a large enough angle). -/
def Decided (F : Arith) (t : Thr ℝ) (u v w M L S : ℝ) (s s' : (ℝ × ℝ) × (ℝ × ℝ)) : Prop :=
  (∀ x y, OnSeg s.1 s.2 x → OnSeg s'.1 s'.2 y → reach t u v (3 * M) < eucl x y) ∨ (SegPair F t u w M L S s s' ∧ Meet s s')

open Classical in
/-- The edges that have a common point with the segment, in order. -/
noncomputable def meeting (es : List ((ℝ × ℝ) × (ℝ × ℝ))) (s : (ℝ × ℝ) × (ℝ × ℝ)) : List ((ℝ × ℝ) × (ℝ × ℝ)) := es.filter fun e => Meet e s

/-- The pairs of edges that have a common point: for each edge of the first list, in order, those of the second list. -/
noncomputable def meetingPairs (es es' : List ((ℝ × ℝ) × (ℝ × ℝ))) : List (((ℝ × ℝ) × (ℝ × ℝ)) × ((ℝ × ℝ) × (ℝ × ℝ))) :=
  es.flatMap fun e => (meeting es' e).map fun e' => (e, e')

/-- The polygon is large enough for the thresholds, its edges without common vertex are farther apart than `D`, itself above `reach`. -/
structure PolyClear (t : Thr ℝ) (u v M L D : ℝ) (pts : List (ℝ × ℝ)) (lo hi : ℝ × ℝ) : Prop where
  prec : 2000 * (u * M ^ 3 / L ^ 2) ≤ t.nullDistance
  orthog : 0 < t.nullOrthogDistance
  width : 12 * max t.nullDistance t.nullOrthogDistance ≤ hi.1 - lo.1
  height : 12 * max t.nullDistance t.nullOrthogDistance ≤ hi.2 - lo.2
  three : 3 ≤ pts.length
  far : reach t u v (3 * M) < D
  apart : EdgesApart D pts

/-- The point is not close to the lines of the edges, and the vertices are not close to one of the five reference segments from it. -/
structure PointClear (F : Arith) (t : Thr ℝ) (u v w M L S : ℝ) (pts : List (ℝ × ℝ)) (p lo hi : ℝ × ℝ) : Prop where
  ok : PipOk F t u v w M L S pts p lo hi
  lines : FarFromLines (11 / 10 * t.nullDistance) pts p
  ref : ∃ n, 1 ≤ n ∧ n ≤ 5 ∧ ∀ q ∈ pts, ∀ y, OnSeg p (refPt F lo hi n) y → 11 / 10 * t.nullDistance ≤ eucl q y

end H2d.Spec
