import Verif.Spec.Segment

/-! # Point in a polygon: the even-odd rule -/

namespace H2d.Spec

/-- The half line that starts at `p` and goes to the right crosses the edge from `a` to `b`: one end is strictly above the height of `p`, the other is not,
and the point of the edge at this height is at the right of `p`. -/
def CrossesRay {K : Type} [Field K] [LinearOrder K] (p a b : K × K) : Prop :=
  ((p.2 < a.2 ∧ ¬ p.2 < b.2) ∨ (p.2 < b.2 ∧ ¬ p.2 < a.2)) ∧ p.1 < a.1 + (p.2 - a.2) / (b.2 - a.2) * (b.1 - a.1)

/-- Edges of the closed polygon. -/
def polyEdges {P : Type} (pts : List P) : List (P × P) := pts.zip (pts.rotate 1)

open Classical in
/-- The even-odd rule: the half line that starts at `p` and goes to the right crosses the contour an odd number of times. -/
def EvenOdd {K : Type} [Field K] [LinearOrder K] (pts : List (K × K)) (p : K × K) : Prop :=
  Odd ((polyEdges pts).countP (fun e => decide (CrossesRay p e.1 e.2)))

/-- The point is farther than `d` from all the lines that support an edge. -/
def FarFromLines (d : ℝ) (pts : List (ℝ × ℝ)) (p : ℝ × ℝ) : Prop :=
  ∀ e ∈ polyEdges pts, ∀ k : ℝ, d ≤ eucl p (along e k)

/-- The point is farther than `d` from the contour. -/
def FarFromContour (d : ℝ) (pts : List (ℝ × ℝ)) (p : ℝ × ℝ) : Prop :=
  ∀ e ∈ polyEdges pts, ∀ q, OnSeg e.1 e.2 q → d ≤ eucl p q

/-- The points of the left side of the extended bounding box that the library may use as far ends of the reference segment; `lo`, `hi` are the
corners of the bounding box of the polygon. -/
noncomputable def refPoint (lo hi : ℝ × ℝ) (n : ℕ) : ℝ × ℝ := (2 * lo.1 - hi.1, 2 * lo.2 - hi.2 + 3 * (hi.2 - lo.2) / 2 ^ n)

/-- Situation in which intersection with the reference segments is computed right (see C22): slopes are null or not too small, and no edge that meets
a reference segment is parallel to it for the library. -/
def GoodRefs (t : Thr ℝ) (pts : List (ℝ × ℝ)) (p : ℝ × ℝ) : Prop :=
  (∀ e ∈ polyEdges pts, GoodSlope t e.1 e.2) ∧
  ∀ lo hi, IsTightBox (fun q => q ∈ pts) lo hi → ∀ n, 1 ≤ n → n ≤ 5 →
    GoodSlope t p (refPoint lo hi n) ∧
    ∀ e ∈ polyEdges pts, (∃ q, OnSeg e.1 e.2 q ∧ OnSeg p (refPoint lo hi n) q) → t.nullAngleValue ≤ segAngle e (p, refPoint lo hi n)

end H2d.Spec
