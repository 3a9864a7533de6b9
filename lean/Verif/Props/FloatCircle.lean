import Verif.Lemmas.FloatCircle

/-! # C113: circle/circle intersection with rounded operations -/

namespace H2d.Props

open H2d.Spec H2d.Fl

/-- **C113 is false in general.** With `p` bits: two circles with the same radius `x`, touching at (x, 0). None of both tests finds that they do not intersect, but the value whose square root
is taken is negative: both points have NaN coordinates. For `double`, x = 6755399441055745. -/
theorem C113_false {p : ℕ} (hp : 6 ≤ p) : ∃ (c1 c2 : Circle), Rep (binary p) c1.radius ∧ 0 < c1.radius ∧ c1.radius = c2.radius ∧ eucl c1.center c2.center = c1.radius + c2.radius ∧
    ∀ t : Thr ℝ, t.nullDistance ≤ 1 → Fl.circInter (binary p) t c1 c2 = none := by
  obtain ⟨x, s, hx8, hs0, rx, rxx, rs, rq, a, ra, hlt⟩ := touch_num hp
  refine ⟨⟨(0, 0), x⟩, ⟨(2 * x, 0), x⟩, rx, by simp only; linarith, rfl, ?_, fun t ht => touch_aux (binary_ok hp) hx8 hs0 rx rxx rs rq ra hlt ht⟩
  unfold eucl
  simp only [zero_sub, sub_self]
  rw [show (-(2 * x)) ^ 2 + (0 : ℝ) ^ 2 = (2 * x) ^ 2 by ring, Real.sqrt_sq (by linarith)]
  ring

/-- **C113, points.** Any circles with different centres (and not equal in the sense of the library), centres and radii up to `M`: if the coordinates are numbers, all the points returned
are within `62 u M` of the first circle, and their squared distance to the second centre is off by at most `400 u M²`. Missing for the full claim: the coordinates can be NaN (`C113_false`). -/
theorem C113_points_partial {F : Arith} {u v : ℝ} (h : FlOk F u v) {t : Thr ℝ} {c1 c2 : Circle} {M : ℝ} (hs : ¬ (c1.radius = c2.radius ∧ Fl.PtSame F t c1.center c2.center)) (hD : c1.center ≠ c2.center)
    (h1 : 0 ≤ c1.radius) (h1M : c1.radius ≤ M) (h2 : 0 ≤ c2.radius) (h2M : c2.radius ≤ M) (hx1 : |c1.center.1| ≤ M) (hy1 : |c1.center.2| ≤ M) (hx2 : |c2.center.1| ≤ M) (hy2 : |c2.center.2| ≤ M)
    {pts : List (Pt ℝ)} (e : Fl.circInter F t c1 c2 = some pts) {P : Pt ℝ} (hP : P ∈ pts) :
    |eucl P c1.center - c1.radius| ≤ 62 * u * M ∧ |eucl P c2.center ^ 2 - c2.radius ^ 2| ≤ 400 * u * M ^ 2 :=
  ccMain h hs (eucl_pos_of_ne hD) h1 h1M h2 h2M hx1 hy1 hx2 hy2 e hP

/-- **C113, decision.** With `D` the distance of the centres, `R = r1 + r2`: circles that are clearly outside of each other or clearly inside (margin `5 u (D² + R²)` on the squares) have no intersection;
if they clearly cross (`2 r1 D` exceeds `|r1² - r2² + D²|` by `14 u (r1² + r2² + D²)`), the coordinates are numbers, and there is at least a point when both tests have their margin too. -/
theorem C113_decision_partial {F : Arith} {u v : ℝ} (h : FlOk F u v) {t : Thr ℝ} {c1 c2 : Circle} (hs : ¬ (c1.radius = c2.radius ∧ Fl.PtSame F t c1.center c2.center)) (hD : c1.center ≠ c2.center)
    (h1 : 0 ≤ c1.radius) (h2 : 0 ≤ c2.radius) :
    ((c1.radius + c2.radius) ^ 2 + 5 * u * (eucl c1.center c2.center ^ 2 + (c1.radius + c2.radius) ^ 2) < eucl c1.center c2.center ^ 2 → Fl.circInter F t c1 c2 = some []) ∧
    (eucl c1.center c2.center ^ 2 + 5 * u * (eucl c1.center c2.center ^ 2 + (c1.radius + c2.radius) ^ 2) < (c1.radius - c2.radius) ^ 2 → Fl.circInter F t c1 c2 = some []) ∧
    (|c1.radius ^ 2 - c2.radius ^ 2 + eucl c1.center c2.center ^ 2| + 14 * u * (c1.radius ^ 2 + c2.radius ^ 2 + eucl c1.center c2.center ^ 2) ≤ 2 * c1.radius * eucl c1.center c2.center →
      (Fl.circInter F t c1 c2).isSome ∧
      ((c1.radius - c2.radius) ^ 2 + 5 * u * (eucl c1.center c2.center ^ 2 + (c1.radius + c2.radius) ^ 2) ≤ eucl c1.center c2.center ^ 2 →
        eucl c1.center c2.center ^ 2 + 5 * u * (eucl c1.center c2.center ^ 2 + (c1.radius + c2.radius) ^ 2) ≤ (c1.radius + c2.radius) ^ 2 →
        Fl.circInter F t c1 c2 ≠ some [])) := ccDecide h hs (eucl_pos_of_ne hD) h1 h2

/-- **C113, two points.** Circles that clearly cross: with `η` at least the threshold on distances, if the half chord is at least `η` and some multiples of `u`, there are two points, the first one on
the left of the direction from the first to the second centre, at a distance of at least `η` of the line of the centres, the other one on the right. -/
theorem C113_two_partial {F : Arith} {u v : ℝ} (h : FlOk F u v) {t : Thr ℝ} {c1 c2 : Circle} {M η : ℝ} (hs : ¬ (c1.radius = c2.radius ∧ Fl.PtSame F t c1.center c2.center)) (hD : c1.center ≠ c2.center)
    (h1 : 0 ≤ c1.radius) (h1M : c1.radius ≤ M) (h2 : 0 ≤ c2.radius) (hx1 : |c1.center.1| ≤ M) (hy1 : |c1.center.2| ≤ M)
    (hη : 0 < η) (ht : t.nullDistance ≤ η)
    (hm : ((|c1.radius ^ 2 - c2.radius ^ 2 + eucl c1.center c2.center ^ 2| + 14 * u * (c1.radius ^ 2 + c2.radius ^ 2 + eucl c1.center c2.center ^ 2)) / (2 * eucl c1.center c2.center)) ^ 2 + (η + 60 * u * M) ^ 2 + 6 * u * c1.radius ^ 2 ≤ c1.radius ^ 2)
    (m1 : (c1.radius - c2.radius) ^ 2 + 5 * u * (eucl c1.center c2.center ^ 2 + (c1.radius + c2.radius) ^ 2) ≤ eucl c1.center c2.center ^ 2)
    (m2 : eucl c1.center c2.center ^ 2 + 5 * u * (eucl c1.center c2.center ^ 2 + (c1.radius + c2.radius) ^ 2) ≤ (c1.radius + c2.radius) ^ 2) :
    ∃ P Q : Pt ℝ, Fl.circInter F t c1 c2 = some [P, Q] ∧
      η ≤ ((c2.center.1 - c1.center.1) * (P.2 - c1.center.2) - (c2.center.2 - c1.center.2) * (P.1 - c1.center.1)) / eucl c1.center c2.center ∧
      ((c2.center.1 - c1.center.1) * (Q.2 - c1.center.2) - (c2.center.2 - c1.center.2) * (Q.1 - c1.center.1)) / eucl c1.center c2.center ≤ - η :=
  ccTwo h hs (eucl_pos_of_ne hD) h1 h1M h2 hx1 hy1 hη ht hm m1 m2

/-- Circles of radius 5 and 4 with centres at a distance of 3 (they cross, with all the margins, for `double`), with thresholds of the library. -/
example : ∃ t : Thr ℝ, ¬ ((5 : ℝ) = 4 ∧ Fl.PtSame (binary 53) t (0, 0) (0, 3)) ∧ eucl (0, 0) (0, 3) = 3 ∧
    |(5 : ℝ) ^ 2 - 4 ^ 2 + 3 ^ 2| + 14 * (2 : ℝ) ^ (-((53 : ℕ) : ℤ)) * (5 ^ 2 + 4 ^ 2 + 3 ^ 2) ≤ 2 * 5 * 3 ∧
    ((5 : ℝ) - 4) ^ 2 + 5 * (2 : ℝ) ^ (-((53 : ℕ) : ℤ)) * (3 ^ 2 + (5 + 4) ^ 2) ≤ 3 ^ 2 ∧ (3 : ℝ) ^ 2 + 5 * (2 : ℝ) ^ (-((53 : ℕ) : ℤ)) * (3 ^ 2 + (5 + 4) ^ 2) ≤ (5 + 4) ^ 2 ∧
    t.nullDistance ≤ 3 ∧ ((|(5 : ℝ) ^ 2 - 4 ^ 2 + 3 ^ 2| + 14 * (2 : ℝ) ^ (-((53 : ℕ) : ℤ)) * (5 ^ 2 + 4 ^ 2 + 3 ^ 2)) / (2 * 3)) ^ 2 + (3 + 60 * (2 : ℝ) ^ (-((53 : ℕ) : ℤ)) * 10) ^ 2 + 6 * (2 : ℝ) ^ (-((53 : ℕ) : ℤ)) * 5 ^ 2 ≤ 5 ^ 2 := by
  refine ⟨⟨1 / 10 ^ 10, 1 / 10 ^ 14, 1 / 1000, 1 / 10 ^ 10, 1 / 10 ^ 10⟩, by norm_num, ?_, ?_, by norm_num, by norm_num, by norm_num, ?_⟩
  · unfold eucl
    rw [show ((0 : ℝ) - 0) ^ 2 + (0 - 3) ^ 2 = 3 * 3 by norm_num, Real.sqrt_mul_self (by norm_num)]
  · rw [abs_of_nonneg (by norm_num)]; norm_num
  · rw [abs_of_nonneg (by norm_num)]; norm_num

end H2d.Props
