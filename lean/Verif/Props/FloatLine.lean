import Verif.Lemmas.FloatLine
import Mathlib.Tactic.NormNum.BigOperators

/-!
# C106–C108: lines through points, homographies, distances to lines, with rounded operations
-/

namespace H2d.Props

open H2d.Spec H2d.Fl

/-! ## C106 -/

/-- **C106, symmetry.** With rounding, the line through two points does not depend on the order of the points: same values, or an exception in both cases. -/
theorem C106_symmetric (F : Arith) (u v : ℝ) (h : FlOk F u v) (t : Thr ℝ) (ht : 0 < t.nullDenom) (p q : ℝ × ℝ) : Fl.lineOfPts F t p q = Fl.lineOfPts F t q p := by
  unfold Fl.lineOfPts PtSame
  rw [distPt_comm h p q, crossProd_swap h (mkPt q.1 q.2), Fl.normalizeLine_neg h t ht]

/-- **C106, definedness.** With rounding, and a null distance larger than the `epsilon` of the code, the construction throws only for equal points. -/
theorem C106_defined (F : Arith) (u v : ℝ) (h : FlOk F u v) (t : Thr ℝ) (ht : 2 * dblEps ≤ t.nullDistance) (p q : ℝ × ℝ) (hp : Rep F p.1 ∧ Rep F p.2) (hq : Rep F q.1 ∧ Rep F q.2) :
    (∃ l, Fl.lineOfPts F t p q = .ok l) ∨ Fl.PtSame F t p q ∧ Fl.lineOfPts F t p q = .throw := by
  by_cases hs : PtSame F t p q
  · exact Or.inr ⟨hs, if_pos hs⟩
  · left
    have hd : 2 * dblEps ≤ distPt F p q := ht.trans (not_lt.1 hs)
    have e : F.hyp (F.rnd (p.2 - q.2)) (F.rnd (q.1 - p.1)) = F.hyp (F.rnd (p.2 - q.2)) (F.rnd (p.1 - q.1)) := by
      rw [rnd_sub_comm h q.1, h.hypNeg2]
    have h1 := abs_le.1 (h.hypErr (F.rnd (p.1 - q.1)) (F.rnd (p.2 - q.2)))
    have h2 := abs_le.1 (h.hypErr (F.rnd (p.2 - q.2)) (F.rnd (p.1 - q.1)))
    rw [add_comm (F.rnd (p.2 - q.2) ^ 2)] at h2
    have h3 := h.v_nonneg
    have h4 := h.v_small
    have h5 := Real.sqrt_nonneg (F.rnd (p.1 - q.1) ^ 2 + F.rnd (p.2 - q.2) ^ 2)
    have h6 := dblEps_pos
    unfold distPt at hd
    refine ⟨_, (if_neg hs).trans (Fl.normalizeLine_ok t _ ?_)⟩
    rw [cross_pts h hp hq]
    simp only [Matrix.cons_val_zero, Matrix.cons_val_one]
    rw [e]
    nlinarith [h1.2, h2.1]

/-- **C106, normalisation.** The values of the computed line verify a² + b² = 1 up to the relative errors. -/
theorem C106_normalised (F : Arith) (u v : ℝ) (h : FlOk F u v) (t : Thr ℝ) (p q : ℝ × ℝ) (l : V3 ℝ) (hl : Fl.lineOfPts F t p q = .ok l) :
    (1 - u) / (1 + v) ≤ Real.sqrt (l 0 ^ 2 + l 1 ^ 2) ∧ Real.sqrt (l 0 ^ 2 + l 1 ^ 2) ≤ (1 + u) / (1 - v) := by
  unfold Fl.lineOfPts at hl
  split_ifs at hl
  set w := Fl.crossProd F (mkPt p.1 p.2) (mkPt q.1 q.2)
  have hs : dblEps < F.hyp (w 0) (w 1) := by
    by_contra hs
    simp only [Fl.normalizeLine, not_lt.1 hs, if_true] at hl
    cases hl
  rw [Fl.normalizeLine_ok t w hs] at hl
  injection hl with hl
  have hG := lt_trans dblEps_pos hs
  have n : l 0 ^ 2 + l 1 ^ 2 = F.rnd (w 0 / F.hyp (w 0) (w 1)) ^ 2 + F.rnd (w 1 / F.hyp (w 0) (w 1)) ^ 2 := by
    rw [← hl]; exact signFix_norm t _
  rw [n]
  have hu := h.u_nonneg
  have hu1 := h.u_small
  have hv := h.v_nonneg
  have hv1 := h.v_small
  obtain ⟨s1, s2⟩ := sqrt_near hu (by linarith) (h.err (w 0 / F.hyp (w 0) (w 1))) (h.err (w 1 / F.hyp (w 0) (w 1)))
  have e : Real.sqrt ((w 0 / F.hyp (w 0) (w 1)) ^ 2 + (w 1 / F.hyp (w 0) (w 1)) ^ 2) = Real.sqrt (w 0 ^ 2 + w 1 ^ 2) / F.hyp (w 0) (w 1) := by
    rw [div_pow, div_pow, ← add_div, Real.sqrt_div' _ (sq_nonneg _), Real.sqrt_sq hG.le]
  rw [e] at s1 s2
  have hy := abs_le.1 (h.hypErr (w 0) (w 1))
  set H := Real.sqrt (w 0 ^ 2 + w 1 ^ 2)
  set G := F.hyp (w 0) (w 1)
  have b1 : 1 / (1 + v) ≤ H / G := by rw [div_le_div_iff₀ (by linarith) hG]; linarith [hy.2]
  have b2 : H / G ≤ 1 / (1 - v) := by rw [div_le_div_iff₀ hG (by linarith)]; linarith [hy.1]
  constructor
  · have := mul_le_mul_of_nonneg_left b1 (show 0 ≤ 1 - u by linarith)
    rw [mul_one_div] at this; linarith
  · have := mul_le_mul_of_nonneg_left b2 (show 0 ≤ 1 + u by linarith)
    rw [mul_one_div] at this; linarith

/-- **C106, points on the line.** If the two points are at the same height, or the line is not nearly horizontal, the true distance between the computed line and each of the two points
is at most `16 u M² / d`, where `M` bounds the coordinates and `d` is the distance between the points. -/
theorem C106_points_partial (F : Arith) (u v : ℝ) (h : FlOk F u v) (t : Thr ℝ) (p q : ℝ × ℝ) (hp : Rep F p.1 ∧ Rep F p.2) (hq : Rep F q.1 ∧ Rep F q.2)
    (M : ℝ) (hM : |p.1| ≤ M ∧ |p.2| ≤ M ∧ |q.1| ≤ M ∧ |q.2| ≤ M) (hpq : p ≠ q) (hg : p.2 = q.2 ∨ t.nullDenom ≤ 9 / 10 * (|p.2 - q.2| / eucl p q))
    (l : V3 ℝ) (hl : Fl.lineOfPts F t p q = .ok l) (r : ℝ × ℝ) (hr : r = p ∨ r = q) :
    |l 0 * r.1 + l 1 * r.2 + l 2| ≤ 16 * u * M ^ 2 / eucl p q * Real.sqrt (l 0 ^ 2 + l 1 ^ 2) := by
  have hu := h.u_nonneg
  have hu1 := h.u_small
  have hv := h.v_nonneg
  have hv1 := h.v_small
  have hd : 0 < eucl p q := lt_of_le_of_ne (eucl_nonneg _ _) (Ne.symm fun e => hpq (eucl_eq_zero.1 e))
  unfold Fl.lineOfPts at hl
  split_ifs at hl
  rw [cross_pts h hp hq] at hl
  set a := F.rnd (p.2 - q.2) with ha
  set b := F.rnd (q.1 - p.1) with hb
  set c := F.rnd (F.rnd (p.1 * q.2) - F.rnd (p.2 * q.1)) with hc
  have hs : dblEps < F.hyp a b := by
    by_contra hs
    simp only [Fl.normalizeLine, Matrix.cons_val_zero, Matrix.cons_val_one, not_lt.1 hs, if_true] at hl
    cases hl
  rw [Fl.normalizeLine_ok t _ (by simpa using hs)] at hl
  simp only [Matrix.cons_val_zero, Matrix.cons_val_one] at hl
  injection hl with hl
  have hG := lt_trans dblEps_pos hs
  obtain ⟨s1, s2⟩ := sqrt_near hu (by linarith) (h.err (p.2 - q.2)) (h.err (q.1 - p.1))
  rw [show (p.2 - q.2) ^ 2 + (q.1 - p.1) ^ 2 = (p.1 - q.1) ^ 2 + (p.2 - q.2) ^ 2 by ring] at s1 s2
  change (1 - u) * eucl p q ≤ Real.sqrt (a ^ 2 + b ^ 2) at s1
  change Real.sqrt (a ^ 2 + b ^ 2) ≤ (1 + u) * eucl p q at s2
  have hy := abs_le.1 (h.hypErr a b)
  set G := F.hyp a b
  obtain ⟨c1, c2⟩ := cross_residual h hM hr ha hb hc
  have hw : signFix t (fun i => F.rnd (![a, b, c] i / G)) = (fun i => F.rnd (![a, b, c] i / G)) ∨
      signFix t (fun i => F.rnd (![a, b, c] i / G)) = fun i => - F.rnd (![a, b, c] i / G) := by
    apply signFix_keep
    simp only [Matrix.cons_val_zero]
    rcases hg with hg | hg
    · left
      rw [rnd_eq_zero h, ha, hg, sub_self, rnd_zero h, zero_div]
    · right
      refine hg.trans ?_
      have k1 := le_rnd_abs h (a / G)
      have k2 := le_rnd_abs h (p.2 - q.2)
      rw [← ha] at k2
      rw [abs_div, abs_of_pos hG] at k1
      have k3 : (1 - u) * |p.2 - q.2| / G ≤ |a| / G := div_le_div_of_nonneg_right k2 hG.le
      have hGd : G ≤ (1 + v) * ((1 + u) * eucl p q) := by nlinarith [hy.2]
      have k4 : (1 - u) * |p.2 - q.2| / ((1 + v) * ((1 + u) * eucl p q)) ≤ (1 - u) * |p.2 - q.2| / G :=
        div_le_div_of_nonneg_left (mul_nonneg (by linarith) (abs_nonneg _)) hG hGd
      have k5 : 9 / 10 * (|p.2 - q.2| / eucl p q) ≤ (1 - u) * ((1 - u) * |p.2 - q.2| / ((1 + v) * ((1 + u) * eucl p q))) := by
        have e2 : (1 - u) * ((1 - u) * |p.2 - q.2| / ((1 + v) * ((1 + u) * eucl p q))) = (1 - u) ^ 2 / ((1 + v) * (1 + u)) * (|p.2 - q.2| / eucl p q) := by field_simp
        rw [e2]
        refine mul_le_mul_of_nonneg_right ?_ (by positivity)
        rw [le_div_iff₀ (by positivity)]
        nlinarith
      have k6 := mul_le_mul_of_nonneg_left (k4.trans k3) (show 0 ≤ 1 - u by linarith)
      linarith
  have main := line_main h hG hd s1 c1 c2
  rw [← hl]
  rcases hw with hw | hw
  · rw [hw]; simpa using main
  · rw [hw]
    simp only [Matrix.cons_val_zero, Matrix.cons_val_one, Matrix.cons_val, neg_sq]
    rw [show - F.rnd (a / G) * r.1 + - F.rnd (b / G) * r.2 + - F.rnd (c / G) = - (F.rnd (a / G) * r.1 + F.rnd (b / G) * r.2 + F.rnd (c / G)) by ring, abs_neg]
    exact main

/-- With `double` and the standard thresholds: the points (0,0) and (3,4). -/
example : (∃ l, Fl.lineOfPts (binary 53) stdR (0, 0) (3, 4) = .ok l) ∧ (((0, 0) : ℝ × ℝ).2 = ((3, 4) : ℝ × ℝ).2 ∨
    stdR.nullDenom ≤ 9 / 10 * (|((0, 0) : ℝ × ℝ).2 - ((3, 4) : ℝ × ℝ).2| / eucl (0, 0) (3, 4))) := by
  have hok := binary_ok (p := 53) (by norm_num)
  have e : eucl (0, 0) (3, 4) = 5 := by rw [eucl_eq_iff (by norm_num)]; norm_num
  have r0 : Rep (binary 53) 0 := rnd_zero hok
  have r3 : Rep (binary 53) 3 := by have := roundTo_int (p := 53) (by norm_num) (m := 3) (by norm_num); exact_mod_cast this
  have r4 : Rep (binary 53) 4 := by have := roundTo_int (p := 53) (by norm_num) (m := 4) (by norm_num); exact_mod_cast this
  constructor
  · refine (C106_defined _ _ _ hok stdR (by simp only [dblEps, stdR]; norm_num) (0, 0) (3, 4) ⟨r0, r0⟩ ⟨r3, r4⟩).resolve_right ?_
    rintro ⟨h, -⟩
    have a := abs_le.1 (distPt_err hok (0, 0) (3, 4))
    have b := err_small hok
    rw [e] at a
    change distPt _ _ _ < stdR.nullDistance at h
    simp only [stdR] at h
    norm_num at h a b
    linarith [a.1]
  · right
    rw [e]; simp only [stdR]; norm_num

/-- **C106, false for small slopes.** Whatever the rounding, with the standard thresholds, the line computed from (0,0) and (2^40,1) does not go through the second point:
its true distance to the line is more than 1. -/
theorem C106_false (F : Arith) (u v : ℝ) (h : FlOk F u v) (h1 : Rep F 1) (h2 : Rep F (2 ^ 40)) :
    ∃ l, Fl.lineOfPts F stdR (0, 0) (2 ^ 40, 1) = .ok l ∧ Real.sqrt (l 0 ^ 2 + l 1 ^ 2) < |l 0 * 2 ^ 40 + l 1 * 1 + l 2| := by
  have hu := h.u_nonneg
  have hu1 := h.u_small
  have hv := h.v_nonneg
  have hv1 := h.v_small
  have h0 : Rep F 0 := rnd_zero h
  have hc := cross_pts h (p := (0, 0)) (q := (2 ^ 40, 1)) ⟨h0, h0⟩ ⟨h2, h1⟩
  simp only [zero_sub, sub_zero, zero_mul, rnd_zero h, sub_self, h.odd] at hc
  rw [show F.rnd 1 = 1 from h1, show F.rnd (2 ^ 40) = 2 ^ 40 from h2] at hc
  have hy := abs_le.1 (h.hypErr (-1) (2 ^ 40))
  have b1 : (2 : ℝ) ^ 40 ≤ Real.sqrt ((-1) ^ 2 + (2 ^ 40) ^ 2) := Real.le_sqrt_of_sq_le (by norm_num)
  have b2 : Real.sqrt ((-1 : ℝ) ^ 2 + (2 ^ 40) ^ 2) ≤ 2 ^ 40 + 1 := by rw [Real.sqrt_le_left (by norm_num)]; norm_num
  have hd : ¬ PtSame F stdR (0, 0) (2 ^ 40, 1) := by
    have a := abs_le.1 (distPt_err h (0, 0) (2 ^ 40, 1))
    have b := err_small h
    have c : (2 : ℝ) ^ 40 ≤ eucl (0, 0) (2 ^ 40, 1) := Real.le_sqrt_of_sq_le (by norm_num)
    change ¬ distPt F _ _ < _
    simp only [stdR]
    rw [not_lt]
    generalize eucl (0, 0) (2 ^ 40, 1) = e at *
    generalize distPt F (0, 0) (2 ^ 40, 1) = d at *
    norm_num at c ⊢
    nlinarith [a.1]
  set G := F.hyp (-1) (2 ^ 40) with hG
  have g1 : 63 / 64 * 2 ^ 40 ≤ G := by nlinarith [hy.1]
  have g2 : G ≤ 65 / 64 * (2 ^ 40 + 1) := by nlinarith [hy.2]
  have gp : 0 < G := lt_of_lt_of_le (by norm_num) g1
  have heps : dblEps < G := lt_of_lt_of_le (by unfold dblEps; norm_num) g1
  refine ⟨signFix stdR (fun i => F.rnd (![-1, 2 ^ 40, 0] i / G)), (if_neg hd).trans ?_, ?_⟩
  · rw [hc]
    exact Fl.normalizeLine_ok stdR _ (by simpa using heps)
  · have x0 := h.err (-1 / G)
    have x1 := h.err (2 ^ 40 / G)
    have i1 : 1 / G ≤ 64 / 63 / 2 ^ 40 := by rw [div_le_div_iff₀ gp (by norm_num)]; linarith
    have i2 : 64 / 65 / (2 ^ 40 + 1) ≤ 1 / G := by rw [div_le_div_iff₀ (by norm_num) gp]; linarith
    have i3 : 0 < 1 / G := by positivity
    have e0 : (-1 : ℝ) / G = - (1 / G) := by ring
    have e1 : (2 : ℝ) ^ 40 / G = 2 ^ 40 * (1 / G) := by ring
    rw [e0, abs_neg, abs_of_pos i3] at x0
    rw [e1, abs_of_pos (mul_pos (by norm_num) i3 : (0 : ℝ) < 2 ^ 40 * (1 / G))] at x1
    obtain ⟨n1, n2, n3, n4⟩ := slope_numbers hu hu1 i1 i2 x0 x1
    rw [signFix_band stdR _ (by simpa only [Matrix.cons_val_zero, e0] using n1) (by simpa only [Matrix.cons_val_zero, e0, stdR] using n2)
      (by simpa only [Matrix.cons_val_one, Matrix.cons_val_zero, e1] using n3)]
    simp only [Matrix.cons_val_zero, Matrix.cons_val_one, Matrix.cons_val, e0, e1, zero_div, rnd_zero h, add_zero, mul_one]
    exact n4

/-- 1 and 2^40 are numbers of `double`. -/
example : Rep (binary 53) 1 ∧ Rep (binary 53) (2 ^ 40) := by
  constructor
  · have := roundTo_int (p := 53) (by norm_num) (m := 1) (by norm_num); exact_mod_cast this
  · have := roundTo_int (p := 53) (by norm_num) (m := 2 ^ 40) (by rw [abs_of_pos (by positivity)]; exact pow_le_pow_right₀ (by norm_num) (by norm_num)); rw [show Rep (binary 53) (2 ^ 40) ↔ roundTo 53 (2 ^ 40) = 2 ^ 40 from Iff.rfl]; norm_num at this ⊢; exact this

/-! ## C107 -/

/-- **C107, error.** Applying a homography with rounding: error on each of the three values. -/
theorem C107_error (F : Arith) (u v : ℝ) (h : FlOk F u v) (a : Mat ℝ) (w : V3 ℝ) (i : Fin 3) :
    |Fl.app F a w i - (a i 0 * w 0 + a i 1 * w 1 + a i 2 * w 2)| ≤ ((1 + u) ^ 3 - 1) * (|a i 0 * w 0| + |a i 1 * w 1| + |a i 2 * w 2|) := dot_err h (a i) w

/-- **C107, products.** Error on each value of a product of two matrices. -/
theorem C107_product (F : Arith) (u v : ℝ) (h : FlOk F u v) (a b : Mat ℝ) (i j : Fin 3) :
    |Fl.mul F a b i j - (a i 0 * b 0 j + a i 1 * b 1 j + a i 2 * b 2 j)| ≤ ((1 + u) ^ 3 - 1) * (|a i 0 * b 0 j| + |a i 1 * b 1 j| + |a i 2 * b 2 j|) := by
  unfold Fl.mul
  rw [zero_add, h.idem]
  exact dot_err h (a i) (fun k => b k j)

/-- **C107, affine transformations.** For a homography whose last row is 0 0 1 (rotations, translations, scalings and their products), the coordinates of the transformed point
are exact up to a relative error of the sum of the absolute values. -/
theorem C107_affine (F : Arith) (u v : ℝ) (h : FlOk F u v) (h1 : Rep F 1) (a : Mat ℝ) (h20 : a 2 0 = 0) (h21 : a 2 1 = 0) (h22 : a 2 2 = 1) (p : ℝ × ℝ) :
    |(Fl.getXY F (Fl.app F a (mkPt p.1 p.2))).1 - (a 0 0 * p.1 + a 0 1 * p.2 + a 0 2)| ≤ ((1 + u) ^ 3 - 1) * (|a 0 0 * p.1| + |a 0 1 * p.2| + |a 0 2|) ∧
    |(Fl.getXY F (Fl.app F a (mkPt p.1 p.2))).2 - (a 1 0 * p.1 + a 1 1 * p.2 + a 1 2)| ≤ ((1 + u) ^ 3 - 1) * (|a 1 0 * p.1| + |a 1 1 * p.2| + |a 1 2|) := by
  have h1' : F.rnd 1 = 1 := h1
  have e2 : Fl.app F a (mkPt p.1 p.2) 2 = 1 := by simp [Fl.app, h20, h21, h22, mkPt, rnd_zero h, h1']
  have k0 := C107_error F u v h a (mkPt p.1 p.2) 0
  have k1 := C107_error F u v h a (mkPt p.1 p.2) 1
  have g : ∀ i, F.rnd (Fl.app F a (mkPt p.1 p.2) i) = Fl.app F a (mkPt p.1 p.2) i := fun i => h.idem _
  simp only [Fl.getXY, e2, div_one, g]
  simp only [mkPt, Matrix.cons_val_zero, Matrix.cons_val_one, Matrix.cons_val, mul_one] at k0 k1 ⊢
  exact ⟨k0, k1⟩

/-- **C107, identity and translations.** The identity does not change points with representable coordinates; a translation gives the rounding of the exact coordinates. -/
theorem C107_translation (F : Arith) (u v : ℝ) (h : FlOk F u v) (h1 : Rep F 1) (p : ℝ × ℝ) (hp : Rep F p.1 ∧ Rep F p.2) (dx dy : ℝ) (hx : Rep F dx) (hy : Rep F dy) :
    Fl.getXY F (Fl.app F (!![1, 0, 0; 0, 1, 0; 0, 0, 1] : Mat ℝ) (mkPt p.1 p.2)) = p ∧
    Fl.getXY F (Fl.app F (!![1, 0, dx; 0, 1, dy; 0, 0, 1] : Mat ℝ) (mkPt p.1 p.2)) = Fl.ptTranslate F p dx dy := by
  have e0 := rnd_zero h
  have e1 : F.rnd 1 = 1 := h1
  have e2 : F.rnd p.1 = p.1 := hp.1
  have e3 : F.rnd p.2 = p.2 := hp.2
  have e4 : F.rnd dx = dx := hx
  have e5 : F.rnd dy = dy := hy
  constructor
  · apply Prod.ext <;> simp [Fl.getXY, Fl.app, mkPt, e0, e1, e2, e3]
  · apply Prod.ext <;> simp [Fl.getXY, Fl.app, mkPt, Fl.ptTranslate, e0, e1, e2, e3, e4, e5, h.idem]

/-- 1 is a number of `double`. -/
example : Rep (binary 53) 1 := by have := roundTo_int (p := 53) (by norm_num) (m := 1) (by norm_num); exact_mod_cast this

/-! ## C108 -/

/-- **C108, distance to a line.** Distance between a line of values (a,b,c) and a point, computed with rounding: error relative to the sum of the absolute values. -/
theorem C108_line (F : Arith) (u v : ℝ) (h : FlOk F u v) (l : V3 ℝ) (hl : Rep F (l 2)) (hl0 : 0 < Real.sqrt (l 0 ^ 2 + l 1 ^ 2)) (p : ℝ × ℝ) :
    |Fl.lineDist F l p - |l 0 * p.1 + l 1 * p.2 + l 2| / Real.sqrt (l 0 ^ 2 + l 1 ^ 2)| ≤
      ((1 + u) ^ 4 / (1 - v) - 1) * ((|l 0 * p.1| + |l 1 * p.2| + |l 2|) / Real.sqrt (l 0 ^ 2 + l 1 ^ 2)) := by
  have hu := h.u_nonneg
  have e := dot_err h l (mkPt p.1 p.2)
  simp only [mkPt, Matrix.cons_val_zero, Matrix.cons_val_one, Matrix.cons_val, mul_one] at e
  have e2 : F.rnd (l 2) = l 2 := hl
  rw [e2] at e
  have e3 : |(|F.rnd (F.rnd (F.rnd (l 0 * p.1) + F.rnd (l 1 * p.2)) + l 2)| - |l 0 * p.1 + l 1 * p.2 + l 2|)| ≤ ((1 + u) ^ 3 - 1) * (|l 0 * p.1| + |l 1 * p.2| + |l 2|) :=
    (abs_abs_sub_abs_le _ _).trans e
  have := div_hyp_err h (by have := one_le_pow₀ (show 1 ≤ 1 + u by linarith) (n := 3); linarith) e3 (by rw [abs_abs]; exact abs_add_three _ _ _) hl0
  unfold Fl.lineDist
  refine this.trans (le_of_eq ?_)
  congr 1
  ring

/-- **C108, null distance.** The computed distance is never negative, and a point whose exact distance exceeds the error has a non null distance. -/
theorem C108_positive (F : Arith) (u v : ℝ) (h : FlOk F u v) (l : V3 ℝ) (hl : Rep F (l 2)) (hl0 : 0 < Real.sqrt (l 0 ^ 2 + l 1 ^ 2)) (p : ℝ × ℝ) :
    0 ≤ Fl.lineDist F l p ∧
    (((1 + u) ^ 4 / (1 - v) - 1) * (|l 0 * p.1| + |l 1 * p.2| + |l 2|) < |l 0 * p.1 + l 1 * p.2 + l 2| → 0 < Fl.lineDist F l p) := by
  have hy := abs_le.1 (h.hypErr (l 0) (l 1))
  have hv := h.v_small
  constructor
  · exact rnd_nonneg h (div_nonneg (abs_nonneg _) (by nlinarith [hy.1]))
  · intro hb
    have := (abs_le.1 (C108_line F u v h l hl hl0 p)).1
    have k := div_lt_div_of_pos_right hb hl0
    rw [mul_div_assoc] at k
    linarith

/-- The line y = x and the point (3,1), with `double`. -/
example : ((1 + (2 : ℝ) ^ (-53 : ℤ)) ^ 4 / (1 - (2 : ℝ) ^ (-53 : ℤ)) - 1) * (|(1 : ℝ) * 3| + |(-1 : ℝ) * 1| + |(0 : ℝ)|) < |(1 : ℝ) * 3 + -1 * 1 + 0| := by
  norm_num [abs_of_pos]

end H2d.Props
