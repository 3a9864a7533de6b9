import Verif.Model.FloatRange

/-! # Numbers far from the limits of the format -/

namespace H2d.Spec
open H2d H2d.Fl

/-- A multiple of `2^e`, at most `2^n`. -/
def Grid (e n : ℤ) (x : ℝ) : Prop := (∃ m : ℤ, x = m * (2 : ℝ) ^ e) ∧ |x| ≤ (2 : ℝ) ^ n

/-- Both coordinates are multiples of `2^e`, at most `2^n`. -/
def GridPt (e n : ℤ) (p : Pt ℝ) : Prop := Grid e n p.1 ∧ Grid e n p.2

/-- The limits of the format are far enough. -/
def Fits (f : Format) (e n : ℤ) : Prop := 6 ≤ f.p ∧ e ≤ 0 ∧ 0 ≤ n ∧ f.emin + 2 * f.p + 4 ≤ 2 * e - 2 * n ∧ 2 * n - 2 * e + f.p + 4 ≤ f.emax

/-- The same for computations with two levels of quotients: lines through points, then intersections of lines. -/
def FitsDeep (f : Format) (e n : ℤ) : Prop := 6 ≤ f.p ∧ e ≤ 0 ∧ 0 ≤ n ∧ f.emin + 4 * f.p + 6 * (n - e) + 12 ≤ 0 ∧ 5 * (n - e) + 2 * f.p + 12 ≤ f.emax

/-- Segment whose ends are multiples of `2^e`, at most `2^n`. -/
def GridSeg (e n : ℤ) (s : (ℝ × ℝ) × (ℝ × ℝ)) : Prop := GridPt e n s.1 ∧ GridPt e n s.2

/-- The same for a rectangle. -/
def GridRect (e n : ℤ) (r : FRect ℝ) : Prop := GridPt e n r.p1 ∧ GridPt e n r.p2

/-- Limits of the format for the image of a line by a homography. -/
def FitsImage (f : Format) (e n : ℤ) : Prop := FitsDeep f e n ∧ f.emin + 6 * f.p + 14 * (n - e) + 24 ≤ 0 ∧ 14 * (n - e) + 4 * f.p + 24 ≤ f.emax

end H2d.Spec
