import Verif.Spec.Line
import Verif.Spec.Polyline
import Verif.Spec.BB
import Verif.Model.Segment

/-! # Vocabulary for segments -/

namespace H2d.Spec

/-- The point of parameter `k` on the line through the ends of the segment. -/
noncomputable def along (s : (ℝ × ℝ) × (ℝ × ℝ)) (k : ℝ) : ℝ × ℝ := (s.1.1 + k * (s.2.1 - s.1.1), s.1.2 + k * (s.2.2 - s.1.2))

/-- The same with x and y exchanged: the line is vertical, or far enough from that. -/
def GoodSlopeX (t : Thr ℝ) (p q : ℝ × ℝ) : Prop := p.1 = q.1 ∨ t.nullDenom * eucl p q ≤ |p.1 - q.1|

/-- What users can get as (non oriented, when `or` is false) segments: by a constructor, `set`, `translate`, `moveTo`, and, when `conv` is true,
by conversion from another object. -/
inductive SegObj (t : Thr ℝ) (conv : Bool) : Bool → (ℝ × ℝ) × (ℝ × ℝ) → Prop
  | default (o) : SegObj t conv o segDefault
  | make (o p q s) (h : segMake t o p q = .ok s) : SegObj t conv o s
  | set (o s p q) (h : SegObj t conv o s) : SegObj t conv o (segSet t o s p q).2
  | translate (o s dx dy) (h : SegObj t conv o s) : SegObj t conv o (segTranslate s dx dy)
  | moveTo (o s p) (h : SegObj t conv o s) : SegObj t conv o (segMoveTo s p)
  | neg (s) (h : SegObj t conv true s) : SegObj t conv true (segNeg s).2
  | fromSegment (s) (h : SegObj t conv false s) : SegObj t conv false (segConvert false s)
  | fromOriented (o s) (h : SegObj t conv true s) (hc : o = true ∨ conv = true) : SegObj t conv o (segConvert true s)

/-- Angle in [0, pi/2] between the directions of two segments. -/
noncomputable def segAngle (s s' : (ℝ × ℝ) × (ℝ × ℝ)) : ℝ :=
  Real.arccos (|(s.2.1 - s.1.1) * (s'.2.1 - s'.1.1) + (s.2.2 - s.1.2) * (s'.2.2 - s'.1.2)| / (eucl s.1 s.2 * eucl s'.1 s'.2))

/-- The segment shifted by a vector. -/
def shift (v : ℝ × ℝ) (s : (ℝ × ℝ) × (ℝ × ℝ)) : (ℝ × ℝ) × (ℝ × ℝ) := ((s.1.1 + v.1, s.1.2 + v.2), (s.2.1 + v.1, s.2.2 + v.2))

/-- A segment the library accepts to build, whose supporting line is computed right (see `C01_false`). -/
def GoodSeg (t : Thr ℝ) (s : (ℝ × ℝ) × (ℝ × ℝ)) : Prop := t.nullDistance ≤ eucl s.1 s.2 ∧ GoodSlope t s.1 s.2

/-- Angle in [0, pi/2] between a line (unit normal) and the direction of a segment. -/
noncomputable def lineSegAngle (l : V3 ℝ) (s : (ℝ × ℝ) × (ℝ × ℝ)) : ℝ :=
  Real.arccos (|l 1 * (s.2.1 - s.1.1) - l 0 * (s.2.2 - s.1.2)| / eucl s.1 s.2)

end H2d.Spec
