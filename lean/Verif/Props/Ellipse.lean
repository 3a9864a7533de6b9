import Verif.Lemmas.Ellipse
import Verif.Spec.Line
import Verif.Lemmas.Line

/-!
# Ellipses: properties C55, C56
-/

set_option linter.unusedSimpArgs false

namespace H2d.Props
open H2d H2d.Spec Ell

/-- **C55**: whatever the order of the half axes and whatever the angle, an ellipse that is not too small has the given center, the
half axes sorted, and area pi.a.b. -/
theorem C55_partial (t : Thr ℝ) (x y a b th : ℝ) (ha : 0 < a) (hb : 0 < b) (hbig : t.nullDenom ≤ 4 * a ^ 2 * b ^ 2) :
    getCenter t (new x y a b th) = .ok (x, y) ∧
    getMajMin t (new x y a b th) = .ok (max a b, min a b) ∧
    area t (new x y a b th) = .ok (Real.pi * a * b) := by
  have hmin : 0 < min a b := lt_min ha hb
  have hle : min a b ≤ max a b := le_trans (min_le_left _ _) (le_max_left _ _)
  have hprod : max a b * min a b = a * b := max_mul_min a b
  have hprod2 : 4 * max a b ^ 2 * min a b ^ 2 = 4 * a ^ 2 * b ^ 2 := by
    have : 4 * max a b ^ 2 * min a b ^ 2 = 4 * (max a b * min a b) ^ 2 := by ring
    rw [this, hprod]; ring
  rw [new_swap]
  rcases params_new t x y (max a b) (min a b) th hmin hle with ⟨h, -⟩ | ⟨-, h⟩
  · rw [hprod2] at h; exact absurd h (not_lt.2 hbig)
  · simp only [getCenter, getMajMin, area, h, Res.bind_ok, Res.pure_eq, Res.ok.injEq, true_and]
    rw [mul_assoc, hprod, mul_assoc]

example : Spec.stdR.nullDenom ≤ 4 * (1 : ℝ) ^ 2 * 3 ^ 2 := by norm_num [Spec.stdR]

/-- **C55** fails for small ellipses: the parameters of a valid ellipse with half axes 1/1000 can't be read. -/
theorem C55_false (x y th : ℝ) :
    getCenter stdR (new x y (1 / 1000) (1 / 1000) th) = .throw ∧ getMajMin stdR (new x y (1 / 1000) (1 / 1000) th) = .throw ∧
    ∀ p, pointIsInside stdR (new x y (1 / 1000) (1 / 1000) th) p = .throw := by
  rw [new_m _ _ _ _ _ le_rfl]
  rcases params_new stdR x y (1 / 1000) (1 / 1000) th (by norm_num) le_rfl with ⟨-, h⟩ | ⟨h, -⟩
  · simp only [getCenter, getMajMin, pointIsInside, h, Res.bind_throw, implies_true, and_self]
  · norm_num [Spec.stdR] at h

/-- **C55**, an ellipse made from a circle: it is a circle for any positive tolerance, with the same center, half axes equal to the
radius, and circumference 2.pi.r. -/
theorem C55_circle (t : Thr ℝ) (c : Pt ℝ) (r thres : ℝ) (hr : 0 < r) (hth : 0 < thres) (hbig : t.nullDenom ≤ 4 * r ^ 4) :
    isCircle (ofCircle c r) thres = true ∧ getCenter t (ofCircle c r) = .ok c ∧ getMajMin t (ofCircle c r) = .ok (r, r) ∧
    length t (ofCircle c r) = .ok (2 * Real.pi * r) := by
  have hm : ofCircle c r = ⟨ellMat c.1 c.2 r r 0, false⟩ := rfl
  rw [hm]
  refine ⟨?_, ?_⟩
  · rw [isCircle_iff]
    simp [hth]
  · rcases params_new t c.1 c.2 r r 0 hr le_rfl with ⟨h, -⟩ | ⟨-, h⟩
    · exact absurd h (not_lt.2 (le_trans hbig (le_of_eq (by ring))))
    · simp only [getCenter, getMajMin, length, h, Res.bind_ok, Res.pure_eq, Res.ok.injEq, Prod.mk.eta, true_and]
      simp
      ring

example : Spec.stdR.nullDenom ≤ 4 * (2 : ℝ) ^ 4 := by norm_num [Spec.stdR]

/-- **C55**, `isCircle()`: true for equal half axes, false if the squares of the half axes differ by twice the tolerance,
whatever the position and the angle. -/
theorem C55_isCircle (x y a b th thres : ℝ) (hab : b ≤ a) (hth : 0 < thres) :
    (a = b → isCircle (new x y a b th) thres = true) ∧
    (2 * thres ≤ a ^ 2 - b ^ 2 → isCircle (new x y a b th) thres = false) := by
  have hsc := Real.sin_sq_add_cos_sq th
  rw [new_m _ _ _ _ _ hab, ← Bool.not_eq_true, isCircle_iff]
  constructor
  · intro h
    subst h
    simp [hth]
  · rintro h ⟨h1, h2⟩
    set d := a ^ 2 - b ^ 2 with hd
    have s1 := sq_lt_sq' (abs_lt.1 h1).1 (abs_lt.1 h1).2
    have s2 := sq_lt_sq' (abs_lt.1 h2).1 (abs_lt.1 h2).2
    have e3 : (d * (Real.sin th ^ 2 - Real.cos th ^ 2)) ^ 2 + (d * (2 * Real.sin th * Real.cos th)) ^ 2
        = d ^ 2 * (Real.sin th ^ 2 + Real.cos th ^ 2) ^ 2 := by ring
    rw [hsc] at e3
    nlinarith

/-- **C55** fails for `isCircle()` of small ellipses: a half axis may be the double of the other one. -/
theorem C55_isCircle_false (x y th : ℝ) : isCircle (new x y (2 / 10 ^ 6) (1 / 10 ^ 6) th) (1 / 10 ^ 10) = true := by
  have hs := Real.sin_sq_add_cos_sq th
  rw [new_m _ _ _ _ _ (by norm_num), isCircle_iff]
  have h1 : 0 ≤ Real.sin th ^ 2 := sq_nonneg _
  have h2 : 0 ≤ Real.cos th ^ 2 := sq_nonneg _
  have h3 : 0 ≤ (Real.sin th - Real.cos th) ^ 2 := sq_nonneg _
  have h4 : 0 ≤ (Real.sin th + Real.cos th) ^ 2 := sq_nonneg _
  constructor <;> (rw [abs_lt]; constructor <;> nlinarith)

/-- **C55**, the angle: when the major axis is horizontal or tilted enough, the reported angle is the given one, up to a half-turn. -/
theorem C55_angle_partial (t : Thr ℝ) (x y a b th : ℝ) (ht : 0 < t.nullDenom) (hb : 0 < b) (hab : b < a)
    (hbig : t.nullDenom ≤ 4 * a ^ 2 * b ^ 2) (hok : AngleOk t a b th) :
    ∃ th', angle t (new x y a b th) = .ok th' ∧
      ((Real.cos th' = Real.cos th ∧ Real.sin th' = Real.sin th) ∨ (Real.cos th' = - Real.cos th ∧ Real.sin th' = - Real.sin th)) := by
  rw [new_m _ _ _ _ _ hab.le]
  rcases params_new t x y a b th hb hab.le with ⟨h, -⟩ | ⟨-, h⟩
  · exact absurd h (not_lt.2 hbig)
  · refine ⟨_, by simp only [angle, h, Res.bind_ok, Res.pure_eq]; rfl, ?_⟩
    rcases angle_new t x y a b th ht hb hab.le hok with h | h
    · exact absurd h hab.ne'
    · exact h

example : AngleOk stdR 2 1 (Real.pi / 4) := by
  right; right
  rw [show 2 * (Real.pi / 4) = Real.pi / 2 by ring, Real.sin_pi_div_two]
  norm_num [Spec.stdR]

/-- **C55** fails for the angle of an ellipse whose major axis is vertical: 90 is returned, in a library where angles are in radians;
this is not a vertical direction. -/
theorem C55_angle_false (t : Thr ℝ) (x y a b : ℝ) (ht : 0 < t.nullDenom) (hb : 0 < b) (hab : b < a)
    (hbig : t.nullDenom ≤ 4 * a ^ 2 * b ^ 2) :
    angle t (new x y a b (Real.pi / 2)) = .ok 90 ∧ Real.cos 90 ≠ 0 := by
  rw [new_m _ _ _ _ _ hab.le]
  rcases params_new t x y a b (Real.pi / 2) hb hab.le with ⟨h, -⟩ | ⟨-, h⟩
  · exact absurd h (not_lt.2 hbig)
  · simp only at h
    rw [angle_vert t x y a b _ _ ht hb hab Real.cos_pi_div_two] at h
    exact ⟨by simp only [angle, h, Res.bind_ok, Res.pure_eq], cos90_ne⟩

/-- **C56**: when the major axis is horizontal or tilted enough (or for a circle), a point is inside exactly when it is strictly inside
the curve given by the construction parameters. -/
theorem C56_inside_partial (t : Thr ℝ) (x y a b th : ℝ) (ht : 0 < t.nullDenom) (hb : 0 < b) (hab : b ≤ a)
    (hbig : t.nullDenom ≤ 4 * a ^ 2 * b ^ 2) (hok : AngleOk t a b th) (p : Pt ℝ) :
    ∃ r, pointIsInside t (new x y a b th) p = .ok r ∧ (r = true ↔ InsideEll x y a b th p) := by
  rw [new_m _ _ _ _ _ hab]
  rcases params_new t x y a b th hb hab with ⟨h, -⟩ | ⟨-, h⟩
  · exact absurd h (not_lt.2 hbig)
  · refine ⟨_, by simp only [pointIsInside, h, Res.bind_ok, Res.pure_eq]; rfl, ?_⟩
    rw [decide_eq_true_iff, inside_val, ellVal_sameDir _ _ _ _ _ _ (angle_new t x y a b th ht hb hab hok)]
    rfl

/-- **C56** fails for every ellipse (not a circle) whose major axis is vertical: some points inside are said to be outside. -/
theorem C56_false (t : Thr ℝ) (x y a b : ℝ) (ht : 0 < t.nullDenom) (hb : 0 < b) (hab : b < a)
    (hbig : t.nullDenom ≤ 4 * a ^ 2 * b ^ 2) :
    ∃ p, InsideEll x y a b (Real.pi / 2) p ∧ b ≤ eucl (x, y) p ∧ pointIsInside t (new x y a b (Real.pi / 2)) p = .ok false := by
  have ha : 0 < a := hb.trans hab
  have hsc := Real.sin_sq_add_cos_sq 90
  have hc : 0 < Real.cos 90 ^ 2 := by have := cos90_ne; positivity
  set q := Real.sin 90 ^ 2 / a ^ 2 + Real.cos 90 ^ 2 / b ^ 2 with hq
  have hlt : 1 / a ^ 2 < q := by
    have h1 : Real.cos 90 ^ 2 / a ^ 2 < Real.cos 90 ^ 2 / b ^ 2 := div_lt_div_of_pos_left hc (by positivity) (by nlinarith)
    have h2 : 1 / a ^ 2 = Real.sin 90 ^ 2 / a ^ 2 + Real.cos 90 ^ 2 / a ^ 2 := by rw [← add_div, hsc]
    rw [h2, hq]; linarith
  have hq0 : 0 < q := lt_trans (by positivity) hlt
  have hd : Real.sqrt (1 / q) ^ 2 = 1 / q := Real.sq_sqrt (by positivity)
  refine ⟨(x, y + Real.sqrt (1 / q)), ?_, ?_, ?_⟩
  · simp only [InsideEll, ellVal, Real.cos_pi_div_two, Real.sin_pi_div_two]
    have e : ((x - x) * 0 + (y + Real.sqrt (1 / q) - y) * 1) ^ 2 / a ^ 2 + (-(x - x) * 1 + (y + Real.sqrt (1 / q) - y) * 0) ^ 2 / b ^ 2
        = Real.sqrt (1 / q) ^ 2 / a ^ 2 := by ring
    rw [e, hd, div_div, div_lt_one (by positivity)]
    rwa [div_lt_iff₀ (by positivity)] at hlt
  · rw [show eucl (x, y) (x, y + Real.sqrt (1 / q)) = Real.sqrt (1 / q) by
      rw [eucl, show (x - x) ^ 2 + (y - (y + Real.sqrt (1 / q))) ^ 2 = 1 / q by linear_combination hd]]
    refine Real.le_sqrt_of_sq_le ?_
    have h1 : Real.sin 90 ^ 2 / a ^ 2 ≤ Real.sin 90 ^ 2 / b ^ 2 := div_le_div_of_nonneg_left (sq_nonneg _) (by positivity) (by nlinarith)
    have h2 : q ≤ 1 / b ^ 2 := by rw [hq, ← hsc, add_div]; linarith
    rw [le_div_iff₀ hq0]
    rw [le_div_iff₀ (by positivity)] at h2
    linarith
  · rw [new_m _ _ _ _ _ hab.le]
    rcases params_new t x y a b (Real.pi / 2) hb hab.le with ⟨h, -⟩ | ⟨-, h⟩
    · exact absurd h (not_lt.2 hbig)
    · simp only at h
      rw [angle_vert t x y a b _ _ ht hb hab Real.cos_pi_div_two] at h
      simp only [pointIsInside, h, Res.bind_ok, Res.pure_eq, Res.ok.injEq, decide_eq_false_iff_not]
      have := inside_val x y a b 90 (x, y + Real.sqrt (1 / q))
      simp only at this
      rw [this]
      simp only [ellVal]
      have e : ((x - x) * Real.cos 90 + (y + Real.sqrt (1 / q) - y) * Real.sin 90) ^ 2 / a ^ 2
          + (-(x - x) * Real.sin 90 + (y + Real.sqrt (1 / q) - y) * Real.cos 90) ^ 2 / b ^ 2
          = Real.sqrt (1 / q) ^ 2 * q := by rw [hq]; ring
      rw [e, hd, one_div, inv_mul_cancel₀ hq0.ne']
      exact lt_irrefl 1

example : Spec.stdR.nullDenom ≤ 4 * (2 : ℝ) ^ 2 * 1 ^ 2 := by norm_num [Spec.stdR]

/-- **C56**, bounding box: when the major axis is horizontal or tilted enough (or for a circle), the bounding box exists unless the
ellipse is too thin, has all the points inside the ellipse in it, and the curve touches its four sides. -/
theorem C56_bb_partial (t : Thr ℝ) (x y a b th : ℝ) (ht : 0 < t.nullDenom) (hb : 0 < b) (hab : b ≤ a)
    (hbig : t.nullDenom ≤ 4 * a ^ 2 * b ^ 2) (hwide : t.nullOrthogDistance ≤ 2 * b) (hok : AngleOk t a b th) :
    ∃ r, getBB t (new x y a b th) = .ok r ∧
      (∀ p, InsideEll x y a b th p → r.p1.1 < p.1 ∧ p.1 < r.p2.1 ∧ r.p1.2 < p.2 ∧ p.2 < r.p2.2) ∧
      (∃ p, ellVal x y a b th p = 1 ∧ p.1 = r.p1.1) ∧ (∃ p, ellVal x y a b th p = 1 ∧ p.1 = r.p2.1) ∧
      (∃ p, ellVal x y a b th p = 1 ∧ p.2 = r.p1.2) ∧ (∃ p, ellVal x y a b th p = 1 ∧ p.2 = r.p2.2) := by
  have ha : 0 < a := hb.trans_le hab
  have hsc := Real.sin_sq_add_cos_sq th
  obtain ⟨r, hr, hr1, hr2⟩ := getBB_ok t x y a b th ht hb hab hbig hwide hok
  obtain ⟨hx0, hy0⟩ := half_pos a b th hb hab
  have hX := Real.sq_sqrt (hx0.le)
  have hY := Real.sq_sqrt (hy0.le)
  have hXp := Real.sqrt_pos.2 hx0
  have hYp := Real.sqrt_pos.2 hy0
  refine ⟨r, hr, ?_, ?_⟩
  · intro p hp
    rw [hr1, hr2]
    obtain ⟨h1, h2⟩ := inside_bounds x y a b th hb hab p hp
    have g1 := abs_lt_of_sq_lt_sq (lt_of_lt_of_eq h1 hX.symm) hXp.le
    have g2 := abs_lt_of_sq_lt_sq (lt_of_lt_of_eq h2 hY.symm) hYp.le
    obtain ⟨l1, u1⟩ := abs_lt.1 g1
    obtain ⟨l2, u2⟩ := abs_lt.1 g2
    exact ⟨by simp only; linarith, by simp only; linarith, by simp only; linarith, by simp only; linarith⟩
  · rw [hr1, hr2]
    obtain ⟨t1, t2, t3, t4⟩ := touch a b th hb hab x y
    exact ⟨t1, t2, t3, t4⟩

example : Spec.stdR.nullOrthogDistance ≤ 2 * (1 : ℝ) := by norm_num [Spec.stdR]

/-- **C56** fails for the bounding box of every ellipse (not a circle) whose major axis is vertical: some points inside the ellipse
are strictly outside the bounding box. -/
theorem C56_bb_false (t : Thr ℝ) (x y a b : ℝ) (ht : 0 < t.nullDenom) (hb : 0 < b) (hab : b < a)
    (hbig : t.nullDenom ≤ 4 * a ^ 2 * b ^ 2) (r : FRect ℝ) (hr : getBB t (new x y a b (Real.pi / 2)) = .ok r) :
    ∃ p, InsideEll x y a b (Real.pi / 2) p ∧ r.p2.2 < p.2 := by
  have ha : 0 < a := hb.trans hab
  have hsc := Real.sin_sq_add_cos_sq 90
  have hc : 0 < Real.cos 90 ^ 2 := by have := cos90_ne; positivity
  rw [new_m _ _ _ _ _ hab.le] at hr
  rcases params_new t x y a b (Real.pi / 2) hb hab.le with ⟨h, -⟩ | ⟨-, h⟩
  · exact absurd h (not_lt.2 hbig)
  · simp only at h
    rw [angle_vert t x y a b _ _ ht hb hab Real.cos_pi_div_two] at h
    simp only [getBB, h, Res.bind_ok] at hr
    set vy := a * a * Real.sin 90 * Real.sin 90 + b * b * Real.cos 90 * Real.cos 90 with hvy
    have hlt : vy < a ^ 2 := by
      have : vy = a ^ 2 * Real.sin 90 ^ 2 + b ^ 2 * Real.cos 90 ^ 2 := by rw [hvy]; ring
      rw [this]
      nlinarith [mul_pos hc (show 0 < a ^ 2 - b ^ 2 by nlinarith)]
    have hs : Real.sqrt vy < a := by rw [Real.sqrt_lt' ha]; exact hlt
    have hs0 : 0 ≤ Real.sqrt vy := Real.sqrt_nonneg _
    have hp2 : r.p2.2 = y + Real.sqrt vy := by
      rcases ofPts_cases t.nullOrthogDistance
        (x - Real.sqrt (a * a * Real.cos 90 * Real.cos 90 + b * b * Real.sin 90 * Real.sin 90), y - Real.sqrt vy)
        (x + Real.sqrt (a * a * Real.cos 90 * Real.cos 90 + b * b * Real.sin 90 * Real.sin 90), y + Real.sqrt vy) with ⟨h', -⟩ | ⟨h', -⟩
      · rw [h'] at hr; cases hr
      · rw [h'] at hr
        simp only [Res.ok.injEq] at hr
        rw [← hr]
        exact max_eq_right (by linarith)
    refine ⟨(x, y + (Real.sqrt vy + a) / 2), ?_, by rw [hp2]; simp only; linarith⟩
    simp only [InsideEll, ellVal, Real.cos_pi_div_two, Real.sin_pi_div_two]
    have e : ((x - x) * 0 + (y + (Real.sqrt vy + a) / 2 - y) * 1) ^ 2 / a ^ 2 +
        (-(x - x) * 1 + (y + (Real.sqrt vy + a) / 2 - y) * 0) ^ 2 / b ^ 2 = ((Real.sqrt vy + a) / 2) ^ 2 / a ^ 2 := by ring
    rw [e, div_lt_one (by positivity)]
    nlinarith

end H2d.Props
