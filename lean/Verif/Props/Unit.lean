import Verif.Spec.Unit
import Verif.Lemmas.Unit

/-!
# C159: a change of unit by a power of two changes nothing but the unit

Binary floating-point numbers of any precision (C++ `float`, `double`, `long double`, without overflow or underflow), every operation rounded.
-/

namespace H2d.Props
open H2d.Fl H2d.Spec H2d.Unit

/-- C159: computed distances and lengths are multiplied by the unit, areas by its square, without any additional error. -/
theorem C159_measures (p : ℕ) (k : ℤ) :
    (∀ a b : Pt ℝ, distPt (binary p) (scalePt (2 ^ k) a) (scalePt (2 ^ k) b) = 2 ^ k * distPt (binary p) a b)
    ∧ (∀ (closed : Bool) (l : List (Pt ℝ)), polyLen (binary p) closed (l.map (scalePt (2 ^ k))) = 2 ^ k * polyLen (binary p) closed l)
    ∧ (∀ l : List (Pt ℝ), Fl.signedArea (binary p) (l.map (scalePt (2 ^ k))) = 2 ^ k * (2 ^ k * Fl.signedArea (binary p) l))
    ∧ (∀ r : FRect ℝ, rectWidth (binary p) (scaleRect (2 ^ k) r) = 2 ^ k * rectWidth (binary p) r
        ∧ rectHeight (binary p) (scaleRect (2 ^ k) r) = 2 ^ k * rectHeight (binary p) r
        ∧ rectArea (binary p) (scaleRect (2 ^ k) r) = 2 ^ k * (2 ^ k * rectArea (binary p) r)
        ∧ rectLength (binary p) (scaleRect (2 ^ k) r) = 2 ^ k * rectLength (binary p) r) :=
  have h := homog_binary p k
  ⟨dist_sc h, len_sc h, area_sc h, rect_sc h⟩

/-- C159: computed points and boxes are those of the first unit, scaled; a constructor throws in one unit if and only if it throws in the other. -/
theorem C159_points (p : ℕ) (k : ℤ) (t : Thr ℝ) :
    (∀ a b : Pt ℝ, center (binary p) (scalePt (2 ^ k) a) (scalePt (2 ^ k) b) = scalePt (2 ^ k) (center (binary p) a b))
    ∧ (∀ a b : Pt ℝ, rectOfPts (binary p) (scaleThr (2 ^ k) t) (scalePt (2 ^ k) a) (scalePt (2 ^ k) b) = scaleRes (2 ^ k) (rectOfPts (binary p) t a b))
    ∧ (∀ (a : Pt ℝ) (r : ℝ), circBB (binary p) (scaleThr (2 ^ k) t) (scalePt (2 ^ k) a) (2 ^ k * r) = scaleRes (2 ^ k) (circBB (binary p) t a r)) :=
  have h := homog_binary p k
  ⟨center_sc h, rectOf_sc h t, circBB_sc h t⟩

/-- C159: answers do not depend on the unit: equality of points, inside a circle, side of a point, convexity, indexes found by the searches. -/
theorem C159_answers (p : ℕ) (k : ℤ) (t : Thr ℝ) :
    (∀ a b : Pt ℝ, PtSame (binary p) (scaleThr (2 ^ k) t) (scalePt (2 ^ k) a) (scalePt (2 ^ k) b) ↔ PtSame (binary p) t a b)
    ∧ (∀ (a b : Pt ℝ) (r : ℝ), PtInCirc (binary p) (scalePt (2 ^ k) a) (scalePt (2 ^ k) b) (2 ^ k * r) ↔ PtInCirc (binary p) a b r)
    ∧ (∀ a b d : Pt ℝ, sideCross (binary p) (scalePt (2 ^ k) a) (scalePt (2 ^ k) b) (scalePt (2 ^ k) d) = 2 ^ k * (2 ^ k * sideCross (binary p) a b d))
    ∧ (∀ (simple : Bool) (l : List (Pt ℝ)), Fl.isConvex (binary p) simple (l.map (scalePt (2 ^ k))) = Fl.isConvex (binary p) simple l)
    ∧ (∀ (q : Pt ℝ) (l : List (Pt ℝ)),
        nearest (binary p) (scaleThr (2 ^ k) t) (scalePt (2 ^ k) q) (l.map (scalePt (2 ^ k))) = nearest (binary p) t q l
        ∧ farthest (binary p) (scaleThr (2 ^ k) t) (scalePt (2 ^ k) q) (l.map (scalePt (2 ^ k))) = farthest (binary p) t q l
        ∧ nearestFarthest (binary p) (scaleThr (2 ^ k) t) (scalePt (2 ^ k) q) (l.map (scalePt (2 ^ k))) = nearestFarthest (binary p) t q l) :=
  have h := homog_binary p k
  ⟨same_sc h t, inCirc_sc h, side_sc h, convex_sc h, search_sc h t⟩

/-- The same points, with the same threshold, are equal in one unit and not in the other: the threshold must follow the unit. -/
theorem C159_sharp : ∃ (t : Thr ℝ) (a b : Pt ℝ), PtSame (binary 53) t a b ∧ ¬ PtSame (binary 53) t (scalePt (2 ^ (1 : ℤ)) a) (scalePt (2 ^ (1 : ℤ)) b) := by
  have e := dist_sc (homog_binary 53 1) (0, 0) (1, 0)
  refine ⟨{ stdR with nullDistance := 2 }, (0, 0), (1, 0), ?_, ?_⟩
  · simp only [PtSame, dist01]; norm_num
  · simp only [PtSame, e, dist01]; norm_num

/-- Not vacuous: the distance of two different points is not zero, in any unit. -/
example (k : ℤ) : distPt (binary 53) (scalePt (2 ^ k) (0, 0)) (scalePt (2 ^ k) (1, 0)) = 2 ^ k := by
  rw [(C159_measures 53 k).1, dist01, mul_one]

end H2d.Props
