import Verif.Props.Ellipse

/-!
# Ellipses: comparison, image by a homography, translation (C57, C58, C72)
-/

set_option linter.unusedSimpArgs false

namespace H2d.Props
open H2d H2d.Spec Ell

/-- **C57**, when the origin is strictly outside the ellipse (and not so far that the normalised matrix is considered null):
comparing an ellipse with anything, on the left or on the right of `==`, does not change its center, its half axes nor its area. -/
theorem C57_partial (t : Thr ℝ) (x y a b th : ℝ) (ht : 0 < t.nullDenom) (hb : 0 < b) (hab : b ≤ a)
    (hbig : t.nullDenom ≤ 4 * a ^ 2 * b ^ 2) (hout : 1 < ellVal x y a b th (0, 0))
    (hfar : t.nullDenom * (a * b * (ellVal x y a b th (0, 0) - 1)) ^ 2 ≤ 4) (f : Ell) :
    SameShape t (new x y a b th) (Ell.eq t (new x y a b th) f).2.1 ∧ SameShape t (new x y a b th) (Ell.eq t f (new x y a b th)).2.2 := by
  have ha : 0 < a := hb.trans_le hab
  rw [new_m _ _ _ _ _ hab]
  have hF := F_val x y a b th ha.ne' hb.ne'
  have hFpos : 0 < ellMat x y a b th 2 2 := by rw [hF]; have : 0 < ellVal x y a b th (0, 0) - 1 := by linarith
                                               positivity
  have key : ∀ n, SameShape t ⟨ellMat x y a b th, false⟩ ⟨fun i j => 1 / ellMat x y a b th 2 2 * ellMat x y a b th i j, n⟩ := by
    intro n
    have hk : 0 < 1 / ellMat x y a b th 2 2 := by positivity
    have hs : t.nullDenom ≤ (1 / ellMat x y a b th 2 2) ^ 2 * (4 * a ^ 2 * b ^ 2) := by
      rw [hF, one_div, inv_pow, inv_mul_eq_div, le_div_iff₀ (by rw [← hF]; positivity)]
      nlinarith [mul_le_mul_of_nonneg_right hfar (show 0 ≤ a ^ 2 * b ^ 2 by positivity)]
    rcases params_scaled t x y a b th (1 / ellMat x y a b th 2 2) hb hab hk.ne' _ (fun i j => rfl) with ⟨h, -⟩ | ⟨-, h⟩
    · exact absurd h (not_lt.2 hs)
    · rcases params_new t x y a b th hb hab with ⟨h', -⟩ | ⟨-, h'⟩
      · exact absurd h' (not_lt.2 hbig)
      · simp only [hk, if_true] at h
        simp only [SameShape, getCenter, getMajMin, area, h, h', Res.bind_ok, Res.pure_eq, and_self]
  obtain ⟨h1, h2⟩ := eq_after t ht (ellMat x y a b th) f
  constructor
  · rcases h1 with ⟨h1, -⟩ | ⟨-, h1⟩
    · rw [h1]; exact ⟨rfl, rfl, rfl⟩
    · rw [h1]; exact key _
  · rcases h2 with h2 | ⟨-, h2⟩
    · rw [h2]; exact ⟨rfl, rfl, rfl⟩
    · rw [h2]; exact key _

/-- The hypotheses hold for `Ellipse( 10, 0, 2, 1 )`. -/
example : 1 < ellVal 10 0 2 1 0 (0, 0) ∧ stdR.nullDenom * (2 * 1 * (ellVal 10 0 2 1 0 (0, 0) - 1)) ^ 2 ≤ 4 := by
  simp only [ellVal, Real.cos_zero, Real.sin_zero, stdR]; norm_num

/-- **C57**, containment, under the same conditions and an angle that can be computed from both matrices. -/
theorem C57_inside_partial (t : Thr ℝ) (x y a b th : ℝ) (ht : 0 < t.nullDenom) (hb : 0 < b) (hab : b ≤ a)
    (hbig : t.nullDenom ≤ 4 * a ^ 2 * b ^ 2) (hout : 1 < ellVal x y a b th (0, 0))
    (hfar : t.nullDenom * (a * b * (ellVal x y a b th (0, 0) - 1)) ^ 2 ≤ 4)
    (hok : Real.sin th = 0 ∨ a = b ∨ (t.nullDenom ≤ (a ^ 2 - b ^ 2) * |Real.sin (2 * th)| ∧
      t.nullDenom * (a ^ 2 * b ^ 2 * (ellVal x y a b th (0, 0) - 1)) ≤ (a ^ 2 - b ^ 2) * |Real.sin (2 * th)|)) (f : Ell) (p : Pt ℝ) :
    pointIsInside t (Ell.eq t (new x y a b th) f).2.1 p = pointIsInside t (new x y a b th) p ∧
    pointIsInside t (Ell.eq t f (new x y a b th)).2.2 p = pointIsInside t (new x y a b th) p := by
  have ha : 0 < a := hb.trans_le hab
  rw [new_m _ _ _ _ _ hab]
  have hF := F_val x y a b th ha.ne' hb.ne'
  have hFpos : 0 < ellMat x y a b th 2 2 := by rw [hF]; have : 0 < ellVal x y a b th (0, 0) - 1 := by linarith
                                               positivity
  have key : ∀ n, pointIsInside t ⟨fun i j => 1 / ellMat x y a b th 2 2 * ellMat x y a b th i j, n⟩ p
      = pointIsInside t ⟨ellMat x y a b th, false⟩ p := by
    intro n
    have hk : 0 < 1 / ellMat x y a b th 2 2 := by positivity
    have hs : t.nullDenom ≤ (1 / ellMat x y a b th 2 2) ^ 2 * (4 * a ^ 2 * b ^ 2) := by
      rw [hF, one_div, inv_pow, inv_mul_eq_div, le_div_iff₀ (by rw [← hF]; positivity)]
      nlinarith [mul_le_mul_of_nonneg_right hfar (show 0 ≤ a ^ 2 * b ^ 2 by positivity)]
    have ang := angle_pos t x y a b th _ ht hb hab hk _ (fun i j => rfl) (by
      rcases hok with h | h | ⟨-, h⟩
      · exact Or.inl h
      · exact Or.inr (Or.inl h)
      · right; right
        rw [← hF] at h
        rw [mul_assoc, one_div, inv_mul_eq_div, le_div_iff₀ hFpos]; exact h)
    have ang' := angle_new t x y a b th ht hb hab (by
      rcases hok with h | h | ⟨h, -⟩
      · exact Or.inl h
      · exact Or.inr (Or.inl h)
      · exact Or.inr (Or.inr h))
    rcases params_scaled t x y a b th (1 / ellMat x y a b th 2 2) hb hab hk.ne' _ (fun i j => rfl) with ⟨h, -⟩ | ⟨-, h⟩
    · exact absurd h (not_lt.2 hs)
    · rcases params_new t x y a b th hb hab with ⟨h', -⟩ | ⟨-, h'⟩
      · exact absurd h' (not_lt.2 hbig)
      · simp only [hk, if_true, abs_of_pos hk] at h
        simp only [pointIsInside, h, h', Res.bind_ok, Res.pure_eq, Res.ok.injEq, inside_val]
        rw [ellVal_sameDir _ _ _ _ _ _ ang, ellVal_sameDir _ _ _ _ _ _ ang']
  obtain ⟨h1, h2⟩ := eq_after t ht (ellMat x y a b th) f
  constructor
  · rcases h1 with ⟨h1, -⟩ | ⟨-, h1⟩
    · rw [h1]
    · rw [h1]; exact key _
  · rcases h2 with h2 | ⟨-, h2⟩
    · rw [h2]
    · rw [h2]; exact key _

/-- **C57** fails for every ellipse that has the origin strictly inside (not a circle, and the comparison not refused): after a
comparison the half axes are reported in the other order, `(minor, major)`. -/
theorem C57_swap_false (t : Thr ℝ) (x y a b th : ℝ) (ht : 0 < t.nullDenom) (hb : 0 < b) (hab : b < a)
    (hin : ellVal x y a b th (0, 0) < 1) (hcmp : t.nullDenom ≤ a ^ 2 * b ^ 2 * (1 - ellVal x y a b th (0, 0)))
    (hfar : t.nullDenom * (a * b * (1 - ellVal x y a b th (0, 0))) ^ 2 ≤ 4) (f : Ell) :
    getMajMin t (Ell.eq t (new x y a b th) f).2.1 = .ok (b, a) := by
  have ha : 0 < a := hb.trans hab
  rw [new_m _ _ _ _ _ hab.le]
  have hF := F_val x y a b th ha.ne' hb.ne'
  have hV : 0 < 1 - ellVal x y a b th (0, 0) := by linarith
  have hFneg : ellMat x y a b th 2 2 < 0 := by
    rw [hF]
    have : 0 < a ^ 2 * b ^ 2 * (1 - ellVal x y a b th (0, 0)) := by positivity
    linarith
  have hk : 1 / ellMat x y a b th 2 2 < 0 := one_div_neg.2 hFneg
  rcases (eq_after t ht (ellMat x y a b th) f).1 with ⟨-, h1⟩ | ⟨-, h1⟩
  · rw [abs_of_neg hFneg, hF] at h1
    exfalso; linarith
  · rw [h1]
    have hs : t.nullDenom ≤ (1 / ellMat x y a b th 2 2) ^ 2 * (4 * a ^ 2 * b ^ 2) := by
      rw [one_div, inv_pow, inv_mul_eq_div, le_div_iff₀ (by have := hFneg.ne; positivity), hF]
      nlinarith [mul_le_mul_of_nonneg_right hfar (show 0 ≤ a ^ 2 * b ^ 2 by positivity)]
    rcases params_scaled t x y a b th (1 / ellMat x y a b th 2 2) hb hab.le hk.ne _ (fun i j => rfl) with ⟨h, -⟩ | ⟨-, h⟩
    · exact absurd h (not_lt.2 hs)
    · simp only [not_lt.2 hk.le, if_false] at h
      simp only [getMajMin, h, Res.bind_ok, Res.pure_eq]

/-- The hypotheses hold for the default ellipse. -/
example : ellVal 0 0 2 1 0 (0, 0) < 1 ∧ stdR.nullDenom ≤ (2 : ℝ) ^ 2 * 1 ^ 2 * (1 - ellVal 0 0 2 1 0 (0, 0)) ∧
    stdR.nullDenom * (2 * 1 * (1 - ellVal 0 0 2 1 0 (0, 0))) ^ 2 ≤ 4 := by
  simp only [ellVal, Real.cos_zero, Real.sin_zero, stdR]; norm_num

/-- **C57** fails for containment, with the default ellipse: a point that is inside is said to be outside after a comparison. -/
theorem C57_false (f : Ell) : ∃ p, pointIsInside stdR (new 0 0 2 1 0) p = .ok true ∧
    pointIsInside stdR (Ell.eq stdR (new 0 0 2 1 0) f).2.1 p = .ok false := by
  have ht : 0 < stdR.nullDenom := by norm_num [stdR]
  obtain ⟨e00, e11, e01, e10, e02, e20, e12, e21, e22⟩ := ellMat_entries 0 0 2 1 0
  simp only [Real.cos_zero, Real.sin_zero] at e00 e11 e01
  have h00 : ellMat 0 0 2 1 0 0 0 = 1 := by rw [e00]; norm_num
  have h11 : ellMat 0 0 2 1 0 1 1 = 4 := by rw [e11]; norm_num
  have h01 : ellMat 0 0 2 1 0 0 1 = 0 := by rw [e01]; norm_num
  have h22 : ellMat 0 0 2 1 0 2 2 = -4 := by rw [e22, h00, h11, h01]; norm_num
  have hsc := Real.sin_sq_add_cos_sq 90
  have hc : 0 < Real.cos 90 ^ 2 := by have := cos90_ne; positivity
  set q := Real.cos 90 ^ 2 + Real.sin 90 ^ 2 / 4 with hq
  have hlt : 1 / 4 < q := by rw [hq]; linarith
  have hq0 : 0 < q := lt_trans (by norm_num) hlt
  have hd : Real.sqrt (1 / q) ^ 2 = 1 / q := Real.sq_sqrt (by positivity)
  refine ⟨(Real.sqrt (1 / q), 0), ?_, ?_⟩
  · obtain ⟨r, h1, h2⟩ := C56_inside_partial stdR 0 0 2 1 0 ht one_pos (by norm_num) (by norm_num [stdR]) (Or.inl Real.sin_zero)
      (Real.sqrt (1 / q), 0)
    rw [h1, Res.ok.injEq, h2]
    simp only [InsideEll, ellVal, Real.cos_zero, Real.sin_zero]
    have e : ((Real.sqrt (1 / q) - 0) * 1 + (0 - 0) * 0) ^ 2 / (2 : ℝ) ^ 2 + (-(Real.sqrt (1 / q) - 0) * 0 + (0 - 0) * 1) ^ 2 / 1 ^ 2
        = Real.sqrt (1 / q) ^ 2 / 4 := by ring
    rw [e, hd, div_div, div_lt_one (by positivity)]
    linarith
  · rw [new_m _ _ _ _ _ (by norm_num)]
    rcases (eq_after stdR ht (ellMat 0 0 2 1 0) f).1 with ⟨-, h1⟩ | ⟨-, h1⟩
    · rw [h22] at h1; norm_num [stdR] at h1
    · rw [h1]
      rcases params_scaled stdR 0 0 2 1 0 (1 / ellMat 0 0 2 1 0 2 2) one_pos (by norm_num) (by rw [h22]; norm_num) _
        (fun i j => rfl) with ⟨h, -⟩ | ⟨-, h⟩
      · rw [h22] at h; norm_num [stdR] at h
      · simp only at h
        have hang : angleOf stdR (1 / ellMat 0 0 2 1 0 2 2 * ellMat 0 0 2 1 0 0 0) (2 * (1 / ellMat 0 0 2 1 0 2 2 * ellMat 0 0 2 1 0 0 1))
            (1 / ellMat 0 0 2 1 0 2 2 * ellMat 0 0 2 1 0 1 1) (|1 / ellMat 0 0 2 1 0 2 2| * (2 ^ 2 - 1 ^ 2)) = 90 := by
          simp only [angleOf, h00, h01, h11, h22]
          rw [if_pos (by norm_num [stdR]), if_pos (by norm_num)]
        have hneg : ¬ (0 < 1 / ellMat 0 0 2 1 0 2 2) := by rw [h22]; norm_num
        rw [hang] at h
        simp only [hneg, if_false] at h
        simp only [pointIsInside, h, Res.bind_ok, Res.pure_eq, Res.ok.injEq, decide_eq_false_iff_not]
        have e : (Real.cos 90 * (Real.sqrt (1 / q) - 0) + Real.sin 90 * (0 - 0)) * (Real.cos 90 * (Real.sqrt (1 / q) - 0) + Real.sin 90 * (0 - 0))
              / (1 * 1) + (Real.sin 90 * (Real.sqrt (1 / q) - 0) - Real.cos 90 * (0 - 0)) *
              (Real.sin 90 * (Real.sqrt (1 / q) - 0) - Real.cos 90 * (0 - 0)) / (2 * 2) = Real.sqrt (1 / q) ^ 2 * q := by
          rw [hq]; ring
        rw [e, hd, one_div, inv_mul_cancel₀ hq0.ne']
        exact lt_irrefl 1

/-- **C57** fails for an ellipse far from the origin: after a comparison its center can't be read anymore. -/
theorem C57_far_false (f : Ell) :
    getCenter stdR (new 1000 0 2 1 0) = .ok (1000, 0) ∧ getCenter stdR (Ell.eq stdR (new 1000 0 2 1 0) f).2.1 = .throw := by
  have ht : 0 < stdR.nullDenom := by norm_num [stdR]
  refine ⟨(C55_partial stdR 1000 0 2 1 0 two_pos one_pos (by norm_num [stdR])).1, ?_⟩
  have h22 : ellMat 1000 0 2 1 0 2 2 = 999996 := by
    rw [F_val _ _ _ _ _ two_ne_zero one_ne_zero]
    simp only [ellVal, Real.cos_zero, Real.sin_zero]; norm_num
  rw [new_m _ _ _ _ _ (by norm_num)]
  rcases (eq_after stdR ht (ellMat 1000 0 2 1 0) f).1 with ⟨-, h1⟩ | ⟨-, h1⟩
  · rw [h22] at h1; norm_num [stdR] at h1
  · rw [h1]
    rcases params_scaled stdR 1000 0 2 1 0 (1 / ellMat 1000 0 2 1 0 2 2) one_pos (by norm_num) (by rw [h22]; norm_num) _
        (fun i j => rfl) with ⟨-, h⟩ | ⟨h, -⟩
    · simp only [getCenter, h, Res.bind_throw]
    · rw [h22] at h; norm_num [stdR] at h

/-- **C57** fails for an ellipse whose curve goes through the origin: comparing it with anything throws, and so does comparing anything with it. -/
theorem C57_origin_false (t : Thr ℝ) (x y a b th : ℝ) (ht : 0 < t.nullDenom) (hb : 0 < b) (hab : b ≤ a)
    (h0 : ellVal x y a b th (0, 0) = 1) (f : Ell) : (Ell.eq t (new x y a b th) f).1 = .throw ∧ (Ell.eq t f (new x y a b th)).1 = .throw := by
  rw [new_m _ _ _ _ _ hab]
  have hF := F_val x y a b th (hb.trans_le hab).ne' hb.ne'
  rw [h0, sub_self, mul_zero] at hF
  have key : (normIfNeeded t ⟨ellMat x y a b th, false⟩).1 = .throw := by
    simp only [normIfNeeded, Bool.false_eq_true, if_false]
    rcases normalize_cases t ht ⟨ellMat x y a b th, false⟩ with ⟨-, h⟩ | ⟨h, -⟩
    · rw [h]
    · simp only at h
      rw [hF, abs_zero] at h
      exact absurd h (not_le.2 ht)
  unfold Ell.eq
  generalize normIfNeeded t ⟨ellMat x y a b th, false⟩ = r at key
  obtain ⟨r, e'⟩ := r
  obtain rfl : r = .throw := key
  refine ⟨rfl, ?_⟩
  rcases normIfNeeded t f with ⟨_ | _ | _, f'⟩ <;> rfl

example : ellVal 2 0 2 1 0 (0, 0) = 1 := by simp only [ellVal, Real.cos_zero, Real.sin_zero]; norm_num

/-- Two ellipses built from the same values compare equal, when the comparison is not refused. -/
theorem C57_equal (t : Thr ℝ) (x y a b th : ℝ) (ht : 0 < t.nullDenom) (hd : 0 < t.nullDeter) (hb : 0 < b) (hab : b ≤ a)
    (hcmp : t.nullDenom ≤ a ^ 2 * b ^ 2 * |ellVal x y a b th (0, 0) - 1|) :
    (Ell.eq t (new x y a b th) (new x y a b th)).1 = .ok true := by
  rw [new_m _ _ _ _ _ hab]
  have ha : 0 < a := hb.trans_le hab
  have hF := F_val x y a b th ha.ne' hb.ne'
  have hF' : t.nullDenom ≤ |ellMat x y a b th 2 2| := by
    rw [hF, abs_mul, abs_of_pos (show 0 < a ^ 2 * b ^ 2 by positivity)]; exact hcmp
  simp only [Ell.eq, normIfNeeded, Bool.false_eq_true, if_false]
  rcases normalize_cases t ht ⟨ellMat x y a b th, false⟩ with ⟨h, -⟩ | ⟨-, h⟩
  · exact absurd h (not_lt.2 hF')
  · rw [h]
    simp only [Res.ok.injEq]
    rw [Hom.closeMat_iff]
    intro i j
    rw [sub_self, abs_zero]; exact hd

/-- **C57** fails after a move: two equal ellipses are compared, one of them is moved by (0,0), and they are not equal anymore (the
flag "normalised" is not reset by the move). -/
theorem C57_move_false :
    let e := new 10 0 2 1 0
    let c := Ell.eq stdR e e
    c.1 = .ok true ∧ ∃ e2, translate stdR c.2.1 0 0 = .ok e2 ∧ (Ell.eq stdR e2 c.2.2).1 = .ok false := by
  have ht : 0 < stdR.nullDenom := by norm_num [stdR]
  obtain ⟨e00, e11, e01, -⟩ := ellMat_entries 10 0 2 1 0
  simp only [Real.cos_zero, Real.sin_zero] at e00 e11 e01
  have h00 : ellMat 10 0 2 1 0 0 0 = 1 := by rw [e00]; norm_num
  have h11 : ellMat 10 0 2 1 0 1 1 = 4 := by rw [e11]; norm_num
  have h01 : ellMat 10 0 2 1 0 0 1 = 0 := by rw [e01]; norm_num
  have hV : ellVal 10 0 2 1 0 (0, 0) = 25 := by simp only [ellVal, Real.cos_zero, Real.sin_zero]; norm_num
  have h22 : ellMat 10 0 2 1 0 2 2 = 96 := by rw [F_val _ _ _ _ _ two_ne_zero one_ne_zero, hV]; norm_num
  refine ⟨C57_equal stdR 10 0 2 1 0 ht (by norm_num [stdR]) one_pos (by norm_num) (by rw [hV]; norm_num [stdR]), ?_⟩
  rw [new_m _ _ _ _ _ (by norm_num)]
  simp only [Ell.eq, normIfNeeded, Bool.false_eq_true, if_false]
  rcases normalize_cases stdR ht ⟨ellMat 10 0 2 1 0, false⟩ with ⟨h, -⟩ | ⟨-, h⟩
  · simp only [h22] at h; norm_num [stdR] at h
  · rw [h]
    simp only
    rcases params_scaled stdR 10 0 2 1 0 (1 / ellMat 10 0 2 1 0 2 2) one_pos (by norm_num) (by rw [h22]; norm_num) _
      (fun i j => rfl) with ⟨h', -⟩ | ⟨-, h'⟩
    · rw [h22] at h'; norm_num [stdR] at h'
    · have hang : angleOf stdR (1 / ellMat 10 0 2 1 0 2 2 * ellMat 10 0 2 1 0 0 0) (2 * (1 / ellMat 10 0 2 1 0 2 2 * ellMat 10 0 2 1 0 0 1))
          (1 / ellMat 10 0 2 1 0 2 2 * ellMat 10 0 2 1 0 1 1) (|1 / ellMat 10 0 2 1 0 2 2| * (2 ^ 2 - 1 ^ 2)) = 0 := by
        simp only [angleOf, h00, h01, h11, h22]
        rw [if_pos (by norm_num [stdR]), if_neg (by norm_num)]
      have hpos : 0 < 1 / ellMat 10 0 2 1 0 2 2 := by rw [h22]; norm_num
      simp only at h'
      rw [hang] at h'
      simp only [hpos, if_true] at h'
      refine ⟨_, by simp only [translate, h', Res.bind_ok, Res.pure_eq, pInit]; rfl, ?_⟩
      simp only [if_true, Res.ok.injEq]
      rw [← Bool.not_eq_true, Hom.closeMat_iff]
      intro hall
      have := hall 0 0
      simp only [add_zero, h00, h22] at this
      norm_num [stdR] at this

/-- **C58**: for every homography that is not refused and every ellipse, the quadratic form of the image takes at `H*p` the value that
the one of the ellipse takes at `p`: `p` is on the conic exactly when `H*p` is on the image, and the same for both sides of the curve. -/
theorem C58_conic {K : Type} [Field K] [LinearOrder K] [IsStrictOrderedRing K] (t : Thr K) (hd : 0 < t.nullDeter) (h m m' : Mat K)
    (hm : homEllMat t h m = .ok m') (p : V3 K) :
    (OnConic m' (h.app p) ↔ OnConic m p) ∧ (quad m' (h.app p) < 0 ↔ quad m p < 0) := by
  simp only [homEllMat] at hm
  split at hm
  · cases hm
  · next hdet =>
    have hne : h.determ ≠ 0 := by intro h0; rw [h0, abs_zero] at hdet; exact hdet hd
    simp only [Res.ok.injEq] at hm
    have : quad m' (h.app p) = quad m p := by
      rw [← hm, quad_congruence, Mat.divAll_app, Mat.adj_app]
      congr 1
      funext i
      field_simp
    simp only [OnConic, this, and_self]

/-- The product is refused only when the determinant is considered null. -/
theorem C58_refused {K : Type} [Field K] [LinearOrder K] (t : Thr K) (h m : Mat K) :
    homEllMat t h m = .throw ↔ |h.determ| < t.nullDeter := by
  simp only [homEllMat]
  split <;> simp_all

example : ∃ m', homEllMat (K := ℚ) ⟨1/10^10, 1/10^14, 1/1000, 1/10^10, 1/10^15⟩ ![![1, 2, 3], ![0, 1, 4], ![1, 0, 1]]
    ![![1, 0, 0], ![0, 4, 0], ![0, 0, -4]] = .ok m' := ⟨_, by rw [homEllMat, if_neg (by decide +kernel)]⟩

/-- **C58**, for the points that are inside an ellipse: the value of the equation of the ellipse is recovered at the image of the point. -/
theorem C58_inside (t : Thr ℝ) (hd : 0 < t.nullDeter) (h : Hom ℝ) (x y a b th : ℝ) (hb : 0 < b) (hab : b ≤ a) (e' : Ell)
    (he : homMul t h (new x y a b th) = .ok e') (p : Pt ℝ) :
    (OnConic e'.m (h.m.app ![p.1, p.2, 1]) ↔ ellVal x y a b th p = 1) ∧
    (quad e'.m (h.m.app ![p.1, p.2, 1]) < 0 ↔ InsideEll x y a b th p) := by
  have ha : 0 < a := hb.trans_le hab
  rw [new_m _ _ _ _ _ hab] at he
  simp only [homMul] at he
  cases hh : homEllMat t h.m (ellMat x y a b th) with
  | throw => rw [hh] at he; cases he
  | ub => rw [hh] at he; cases he
  | ok m' =>
    rw [hh] at he
    simp only [Res.bind_ok, Res.pure_eq, Res.ok.injEq] at he
    rw [← he]
    obtain ⟨h1, h2⟩ := C58_conic t hd h.m _ m' hh ![p.1, p.2, 1]
    rw [h1, h2, OnConic, quad_ellMat _ _ _ _ _ ha.ne' hb.ne', InsideEll]
    have : 0 < a ^ 2 * b ^ 2 := by positivity
    constructor
    · rw [mul_eq_zero, sub_eq_zero]
      exact ⟨fun h => h.resolve_left this.ne', Or.inr⟩
    · rw [mul_neg_iff]
      constructor
      · rintro (⟨-, h⟩ | ⟨h, -⟩) <;> linarith
      · intro h; left; exact ⟨this, by linarith⟩

/-- **C58**, circles: the image of a circle by a homography is the curve through the images of its points; the images of the points inside are on the negative side. -/
theorem C58_circle (t : Thr ℝ) (hd : 0 < t.nullDeter) (h : Hom ℝ) (c : Pt ℝ) (r : ℝ) (hr : 0 < r) (e' : Ell) (he : homCircle t h c r = .ok e') (p : Pt ℝ) :
    (OnConic e'.m (h.m.app ![p.1, p.2, 1]) ↔ eucl p c = r) ∧ (quad e'.m (h.m.app ![p.1, p.2, 1]) < 0 ↔ eucl p c < r) := by
  have hn : ofCircle c r = new c.1 c.2 r r 0 := by unfold ofCircle new; rw [if_neg (lt_irrefl _)]
  unfold homCircle at he
  rw [hn] at he
  obtain ⟨h1, h2⟩ := C58_inside t hd h c.1 c.2 r r 0 hr le_rfl e' he p
  have hv : ellVal c.1 c.2 r r 0 p = eucl p c ^ 2 / r ^ 2 := by
    simp only [ellVal, Real.cos_zero, Real.sin_zero]
    rw [eucl, Real.sq_sqrt (by positivity)]
    ring
  have h0 : 0 ≤ eucl p c := Real.sqrt_nonneg _
  rw [h1, h2, InsideEll, hv, div_eq_one_iff_eq (by positivity), div_lt_one (by positivity)]
  constructor
  · constructor
    · intro hh; nlinarith
    · intro hh; rw [hh]
  · constructor
    · intro hh; nlinarith
    · intro hh; nlinarith

/-- The unit circle, by the identity. -/
example : ∃ e', homCircle stdR ⟨![![1, 0, 0], ![0, 1, 0], ![0, 0, 1]], true, true, none⟩ (0, 0) 1 = .ok e' := by
  have : ¬ |Mat.determ (![![1, 0, 0], ![0, 1, 0], ![0, 0, 1]] : Mat ℝ)| < stdR.nullDeter := by
    simp [Mat.determ, Mat.det2, stdR]; norm_num
  simp only [homCircle, homMul, homEllMat, if_neg this, Res.bind_ok, Res.pure_eq]
  exact ⟨_, rfl⟩

/-- **C58**, translations: the image is the ellipse built at the translated center. -/
theorem C58_translation (t : Thr ℝ) (hd : t.nullDeter ≤ 1) (h : Hom ℝ) (dx dy x y a b th : ℝ) (hab : b ≤ a) :
    homMul t (h.setTranslation dx dy) (new x y a b th) = .ok (new (x + dx) (y + dy) a b th) := by
  rw [new_m _ _ _ _ _ hab, new_m _ _ _ _ _ hab]
  have hdet : (Mat.translation dx dy).determ = 1 := by
    simp [Mat.determ, Mat.det2, Mat.translation]
  have : homEllMat t (Mat.translation dx dy) (ellMat x y a b th) = .ok (ellMat (x + dx) (y + dy) a b th) := by
    simp only [homEllMat, hdet, abs_one, not_lt.2 hd, if_false, Res.ok.injEq]
    funext i j
    fin_cases i <;> fin_cases j <;>
    · simp [Mat.mul, Mat.transpose, Mat.divAll, Mat.adjugate, Mat.det2, Mat.translation, ellMat]
      try ring
  simp only [homMul, Hom.setTranslation, this, Res.bind_ok, Res.pure_eq]

/-- **C58**, rotations about the origin: the image is the ellipse built at the rotated center, with the angle added. -/
theorem C58_rotation (t : Thr ℝ) (hd : t.nullDeter ≤ 1) (h : Hom ℝ) (phi x y a b th : ℝ) (hab : b ≤ a) :
    homMul t (h.setRotation (Real.cos phi) (Real.sin phi)) (new x y a b th) =
      .ok (new (Real.cos phi * x - Real.sin phi * y) (Real.sin phi * x + Real.cos phi * y) a b (th + phi)) := by
  rw [new_m _ _ _ _ _ hab, new_m _ _ _ _ _ hab]
  have hsc := Real.sin_sq_add_cos_sq phi
  have hdet : (Mat.rotation (Real.cos phi) (Real.sin phi)).determ = 1 := by
    simp [Mat.determ, Mat.det2, Mat.rotation]; linarith
  have : homEllMat t (Mat.rotation (Real.cos phi) (Real.sin phi)) (ellMat x y a b th) =
      .ok (ellMat (Real.cos phi * x - Real.sin phi * y) (Real.sin phi * x + Real.cos phi * y) a b (th + phi)) := by
    simp only [homEllMat, hdet, abs_one, not_lt.2 hd, if_false, Res.ok.injEq]
    exact rot_mat x y a b th phi
  simp only [homMul, Hom.setRotation, this, Res.bind_ok, Res.pure_eq]

example : stdR.nullDeter ≤ 1 := by norm_num [stdR]

/-- **C72**: when the major axis is horizontal or tilted enough (or for a circle), `translate(dx,dy)` gives the ellipse with the same
half axes, center moved by (dx,dy), and a point is inside exactly when the point moved back was inside. -/
theorem C72_translate_partial (t : Thr ℝ) (x y a b th dx dy : ℝ) (ht : 0 < t.nullDenom) (hb : 0 < b) (hab : b ≤ a)
    (hbig : t.nullDenom ≤ 4 * a ^ 2 * b ^ 2) (hok : AngleOk t a b th) :
    ∃ e', translate t (new x y a b th) dx dy = .ok e' ∧ getCenter t e' = .ok (x + dx, y + dy) ∧
      getMajMin t e' = getMajMin t (new x y a b th) ∧
      ∀ p : Pt ℝ, pointIsInside t e' (p.1 + dx, p.2 + dy) = pointIsInside t (new x y a b th) p := by
  have hang := angle_new t x y a b th ht hb hab hok
  rcases params_new t x y a b th hb hab with ⟨h, -⟩ | ⟨-, h⟩
  · exact absurd h (not_lt.2 hbig)
  · rw [new_m _ _ _ _ _ hab]
    simp only at h
    generalize angleOf t (ellMat x y a b th 0 0) (2 * ellMat x y a b th 0 1) (ellMat x y a b th 1 1) (a ^ 2 - b ^ 2) = th' at h hang
    refine ⟨_, by simp only [translate, h, Res.bind_ok, Res.pure_eq, pInit]; rfl, ?_⟩
    have hok' : AngleOk t a b th' := angleOk_sameDir t a b th th' hok hang
    have hang' := angle_new t (x + dx) (y + dy) a b th' ht hb hab hok'
    rcases params_new t (x + dx) (y + dy) a b th' hb hab with ⟨h', -⟩ | ⟨-, h'⟩
    · exact absurd h' (not_lt.2 hbig)
    · simp only at h'
      generalize angleOf t (ellMat (x + dx) (y + dy) a b th' 0 0) (2 * ellMat (x + dx) (y + dy) a b th' 0 1)
        (ellMat (x + dx) (y + dy) a b th' 1 1) (a ^ 2 - b ^ 2) = th'' at h' hang'
      refine ⟨by simp only [getCenter, h', Res.bind_ok, Res.pure_eq],
        by simp only [getMajMin, h, h', Res.bind_ok, Res.pure_eq], fun p => ?_⟩
      have i1 := inside_val (x + dx) (y + dy) a b th'' (p.1 + dx, p.2 + dy)
      simp only at i1
      simp only [pointIsInside, h, h', Res.bind_ok, Res.pure_eq, Res.ok.injEq, inside_val, i1]
      have : ellVal (x + dx) (y + dy) a b th'' (p.1 + dx, p.2 + dy) = ellVal x y a b th' p := by
        rw [ellVal_sameDir _ _ _ _ _ _ hang']
        simp only [ellVal, add_sub_add_right_eq_sub]
      rw [this]

/-- **C72**, `moveTo(x',y')`: under the same conditions, the ellipse has the same half axes and its center at the given point; a point is inside exactly when the point moved back was inside. -/
theorem C72_moveTo_partial (t : Thr ℝ) (x y a b th x' y' : ℝ) (ht : 0 < t.nullDenom) (hb : 0 < b) (hab : b ≤ a)
    (hbig : t.nullDenom ≤ 4 * a ^ 2 * b ^ 2) (hok : AngleOk t a b th) :
    ∃ e', moveTo t (new x y a b th) x' y' = .ok e' ∧ getCenter t e' = .ok (x', y') ∧
      getMajMin t e' = getMajMin t (new x y a b th) ∧
      ∀ p : Pt ℝ, pointIsInside t e' (p.1 + (x' - x), p.2 + (y' - y)) = pointIsInside t (new x y a b th) p := by
  obtain ⟨e', h1, h2, h3, h4⟩ := C72_translate_partial t x y a b th (x' - x) (y' - y) ht hb hab hbig hok
  rw [add_sub_cancel, add_sub_cancel] at h2
  refine ⟨e', ?_, h2, h3, h4⟩
  rcases params_new t x y a b th hb hab with ⟨h, -⟩ | ⟨-, h⟩
  · exact absurd h (not_lt.2 hbig)
  · rw [← h1, new_m _ _ _ _ _ hab]
    simp only at h
    simp only [moveTo, translate, h, Res.bind_ok, Res.pure_eq, add_sub_cancel]

/-- **C72** fails for every ellipse (not a circle) whose major axis is vertical: moving it by (0,0) turns it, the end of its major axis
is not on the curve anymore. -/
theorem C72_false (t : Thr ℝ) (x y a b : ℝ) (ht : 0 < t.nullDenom) (hb : 0 < b) (hab : b < a) (hbig : t.nullDenom ≤ 4 * a ^ 2 * b ^ 2) :
    ∃ e', translate t (new x y a b (Real.pi / 2)) 0 0 = .ok e' ∧
      OnConic (new x y a b (Real.pi / 2)).m ![x, y + a, 1] ∧ ¬ OnConic e'.m ![x, y + a, 1] := by
  have ha : 0 < a := hb.trans hab
  have hsc := Real.sin_sq_add_cos_sq 90
  have hc : 0 < Real.cos 90 ^ 2 := by have := cos90_ne; positivity
  have hab2 : 0 < a ^ 2 * b ^ 2 := by positivity
  rw [new_m _ _ _ _ _ hab.le]
  rcases params_new t x y a b (Real.pi / 2) hb hab.le with ⟨h, -⟩ | ⟨-, h⟩
  · exact absurd h (not_lt.2 hbig)
  · simp only at h
    rw [angle_vert t x y a b _ _ ht hb hab Real.cos_pi_div_two] at h
    refine ⟨_, by simp only [translate, h, Res.bind_ok, Res.pure_eq, pInit]; rfl, ?_, ?_⟩
    · have := quad_ellMat x y a b (Real.pi / 2) ha.ne' hb.ne' (x, y + a)
      simp only at this
      rw [OnConic, this]
      simp only [ellVal, Real.cos_pi_div_two, Real.sin_pi_div_two]
      field_simp
      ring
    · have := quad_ellMat (x + 0) (y + 0) a b 90 ha.ne' hb.ne' (x, y + a)
      simp only at this
      rw [OnConic, this, mul_eq_zero, not_or]
      refine ⟨hab2.ne', ?_⟩
      simp only [ellVal]
      have e : ((x - (x + 0)) * Real.cos 90 + (y + a - (y + 0)) * Real.sin 90) ^ 2 / a ^ 2 +
          (-(x - (x + 0)) * Real.sin 90 + (y + a - (y + 0)) * Real.cos 90) ^ 2 / b ^ 2 - 1
          = (Real.cos 90 ^ 2 * (a ^ 2 - b ^ 2)) / b ^ 2 := by
        have : Real.sin 90 ^ 2 = 1 - Real.cos 90 ^ 2 := by linarith
        have e1 : ((x - (x + 0)) * Real.cos 90 + (y + a - (y + 0)) * Real.sin 90) ^ 2 = a ^ 2 * Real.sin 90 ^ 2 := by ring
        have e2 : (-(x - (x + 0)) * Real.sin 90 + (y + a - (y + 0)) * Real.cos 90) ^ 2 = a ^ 2 * Real.cos 90 ^ 2 := by ring
        rw [e1, e2, this]
        field_simp
        ring
      rw [e]
      have : 0 < a ^ 2 - b ^ 2 := by nlinarith
      positivity

end H2d.Props
