import Verif.Lemmas.FloatAgree
import Verif.Model.FloatUnion
import Verif.Model.FloatHLine
import Verif.Model.FloatCentroid
import Verif.Model.FloatSearch

/-! # Limits of the format: intersections of lines and segments -/

namespace H2d.Fl
open H2d H2d.Spec

variable {f : Format} {e n : ℤ} {over : ℝ → ℝ}

theorem deep_bounds (hf : FitsDeep f e n) : 1 ≤ f.p ∧ 6 ≤ f.p ∧ e ≤ 0 ∧ 0 ≤ n ∧ f.emin + 4 * f.p + 6 * (n - e) + 12 ≤ 0 ∧ 5 * (n - e) + 2 * f.p + 12 ≤ f.emax :=
  ⟨le_trans (by norm_num) hf.1, hf⟩

theorem deep_fits (hf : FitsDeep f e n) : Fits f e n := by
  obtain ⟨h1, h2, h3, h4, h5, h6⟩ := deep_bounds hf
  have : (6 : ℤ) ≤ f.p := by exact_mod_cast h2
  exact ⟨h2, h3, h4, by omega, by omega⟩

/-- Size of the coefficients of a line through two points. -/
def LineGrid (f : Format) (e n : ℤ) (l : V3 ℝ) : Prop :=
  Grid (e - n - f.p - 1) (n + 1 - e) (l 0) ∧ Grid (e - n - f.p - 1) (n + 1 - e) (l 1) ∧ Grid (2 * e - n - f.p - 1) (2 * n + 1 - e) (l 2)

theorem LineGrid.neg {l : V3 ℝ} (h : LineGrid f e n l) : LineGrid f e n (fun i => - l i) := ⟨h.1.neg, h.2.1.neg, h.2.2.neg⟩

theorem grid_normalize (hf : Fits f e n) (t : Thr ℝ) {v l : V3 ℝ} (h0 : Grid e (n + 1) (v 0)) (h1 : Grid e (n + 1) (v 1)) (h2 : Grid (e + e) (n + n + 1) (v 2))
    (hl : normalizeLine (binary f.p) t v = .ok l) : LineGrid f e n l := by
  obtain ⟨g1, g2, g3, g4, g5⟩ := fits_bounds hf
  obtain ⟨a1, a2, a3⟩ := hyp_step g1 (fun _ => 0) h0 h1 (by omega) (by omega)
  unfold normalizeLine at hl
  by_cases hs : (binary f.p).hyp (v 0) (v 1) ≤ dblEps
  · simp only [if_pos hs] at hl
    cases hl
  · simp only [if_neg hs] at hl
    have hne : v 0 ≠ 0 ∨ v 1 ≠ 0 := by
      by_contra hc
      push Not at hc
      apply hs
      rw [hc.1, hc.2]
      show roundTo f.p (Real.sqrt (0 ^ 2 + 0 ^ 2)) ≤ _
      have : (0 : ℝ) ^ 2 + 0 ^ 2 = 0 := by norm_num
      rw [this, Real.sqrt_zero, roundTo_zero]
      unfold dblEps
      positivity
    have lo := a3 hne
    have hy : (2 : ℝ) ^ e ≤ |(binary f.p).hyp (v 0) (v 1)| := le_trans lo (le_abs_self _)
    have hw : LineGrid f e n (fun i => (binary f.p).rnd (v i / (binary f.p).hyp (v 0) (v 1))) := by
      refine ⟨?_, ?_, ?_⟩
      · exact (agree_div g1 (fun _ => 0) h0 hy a2.2 (by omega) (by omega)).2.mono (by omega) (by omega)
      · exact (agree_div g1 (fun _ => 0) h1 hy a2.2 (by omega) (by omega)).2.mono (by omega) (by omega)
      · exact (agree_div g1 (fun _ => 0) h2 hy a2.2 (by omega) (by omega)).2.mono (by omega) (by omega)
    have key : ∀ w : V3 ℝ, LineGrid f e n w →
        LineGrid f e n (let w : V3 ℝ := if w 0 < 0 then fun i => - w i else w; if |w 0| < t.nullDenom then (if w 1 < 0 then ![w 0, - w 1, - w 2] else w) else w) := by
      intro w hw
      have hw1 : LineGrid f e n (if w 0 < 0 then fun i => - w i else w) := by
        split_ifs
        · exact hw.neg
        · exact hw
      generalize (if w 0 < 0 then fun i => - w i else w) = w' at hw1
      dsimp only
      split_ifs
      · exact ⟨hw1.1, hw1.2.1.neg, hw1.2.2.neg⟩
      · exact hw1
      · exact hw1
    obtain rfl := Res.ok.inj hl
    exact key _ hw

theorem grid_lineOfPts (hf : Fits f e n) (t : Thr ℝ) {p q : Pt ℝ} {l : V3 ℝ} (hp : GridPt e n p) (hq : GridPt e n q) (hl : lineOfPts (binary f.p) t p q = .ok l) : LineGrid f e n l := by
  obtain ⟨g1, g2, g3, g4, g5⟩ := fits_bounds hf
  unfold lineOfPts at hl
  split_ifs at hl
  refine grid_normalize hf t ?_ ?_ ?_ hl
  · show Grid e (n + 1) ((binary f.p).rnd ((binary f.p).rnd (p.2 * 1) - (binary f.p).rnd (1 * q.2)))
    rw [mul_one, one_mul]
    exact ((hp.2.rnd g1).sub (hq.2.rnd g1)).rnd g1
  · show Grid e (n + 1) ((binary f.p).rnd ((binary f.p).rnd (1 * q.1) - (binary f.p).rnd (p.1 * 1)))
    rw [mul_one, one_mul]
    exact ((hq.1.rnd g1).sub (hp.1.rnd g1)).rnd g1
  · show Grid (e + e) (n + n + 1) ((binary f.p).rnd ((binary f.p).rnd (p.1 * q.2) - (binary f.p).rnd (p.2 * q.1)))
    exact (((hp.1.mul hq.2).rnd g1).sub ((hp.2.mul hq.1).rnd g1)).rnd g1

/-- Square root of a multiple of `2^(2a)` up to `2^(2b)`. -/
theorem sqrt_step (hp : 1 ≤ f.p) (over : ℝ → ℝ) {a b : ℤ} {x : ℝ} (hx : Grid (2 * a) (2 * b) x) (ha : f.emin + f.p - 1 ≤ a) (hb : b ≤ f.emax - 1) :
    (f.arith over).rnd (Real.sqrt x) = (binary f.p).rnd (Real.sqrt x) ∧ |(binary f.p).rnd (Real.sqrt x)| ≤ (2 : ℝ) ^ b ∧ (0 < x → (2 : ℝ) ^ a ≤ |(binary f.p).rnd (Real.sqrt x)|) := by
  have sq : ∀ k : ℤ, (2 : ℝ) ^ (2 * k) = ((2 : ℝ) ^ k) ^ 2 := fun k => by rw [← zpow_natCast, ← zpow_mul]; congr 1; push_cast; ring
  have hs : Real.sqrt x = 0 ∨ (2 : ℝ) ^ a ≤ |Real.sqrt x| := by
    by_cases h : 0 < x
    · right
      have := hx.ge h.ne'
      rw [abs_of_pos h, sq] at this
      rw [abs_of_nonneg (Real.sqrt_nonneg _)]
      exact Real.le_sqrt_of_sq_le this
    · left; exact Real.sqrt_eq_zero_of_nonpos (not_lt.1 h)
  have hb' : |Real.sqrt x| ≤ (2 : ℝ) ^ b := by
    rw [abs_of_nonneg (Real.sqrt_nonneg _), Real.sqrt_le_left (two_zpow_pos _).le, ← sq]
    exact (le_abs_self x).trans hx.2
  obtain ⟨k1, k2⟩ := far_step hp over hs hb' ha hb
  refine ⟨k1, k2.2, fun h0 => ?_⟩
  rcases hs with hs | hs
  · exact absurd hs (Real.sqrt_pos.2 h0).ne'
  · rw [abs_of_nonneg (Real.sqrt_nonneg _)] at hs
    have := roundTo_mono (p := f.p) hp hs
    have e1 : roundTo f.p ((2 : ℝ) ^ a) = (2 : ℝ) ^ a := by
      have := roundTo_exact (p := f.p) hp (m := 1) (k := a) (by rw [abs_one]; exact one_le_pow₀ (by norm_num))
      simpa using this
    rw [e1] at this
    exact this.trans (le_abs_self _)

/-- Sum or difference of two products. -/
theorem products_step (hp : 1 ≤ f.p) (over : ℝ → ℝ) {a b a' b' : ℤ} {x y z w : ℝ} (hx : Grid a b x) (hy : Grid a' b' y) (hz : Grid a b z) (hw : Grid a' b' w) (ha : f.emin ≤ a + a') (hb : b + b' + 1 ≤ f.emax - 1) :
    ((f.arith over).rnd ((f.arith over).rnd (x * y) + (f.arith over).rnd (z * w)) = (binary f.p).rnd ((binary f.p).rnd (x * y) + (binary f.p).rnd (z * w)) ∧
      Grid (a + a') (b + b' + 1) ((binary f.p).rnd ((binary f.p).rnd (x * y) + (binary f.p).rnd (z * w)))) ∧
    ((f.arith over).rnd ((f.arith over).rnd (x * y) - (f.arith over).rnd (z * w)) = (binary f.p).rnd ((binary f.p).rnd (x * y) - (binary f.p).rnd (z * w)) ∧
      Grid (a + a') (b + b' + 1) ((binary f.p).rnd ((binary f.p).rnd (x * y) - (binary f.p).rnd (z * w)))) := by
  obtain ⟨a1, a2⟩ := (hx.mul hy).step hp over ha (by omega)
  obtain ⟨b1, b2⟩ := (hz.mul hw).step hp over ha (by omega)
  rw [a1, b1]
  exact ⟨(a2.add b2).step hp over ha hb, (a2.sub b2).step hp over ha hb⟩

theorem agree_cosArg (hf : FitsDeep f e n) (over : ℝ → ℝ) {l m : V3 ℝ} (hl : LineGrid f e n l) (hm : LineGrid f e n m) : cosArg (f.arith over) l m = cosArg (binary f.p) l m := by
  obtain ⟨h1, h2, h3, h4, h5, h6⟩ := deep_bounds hf
  have h2' : (6 : ℤ) ≤ f.p := by exact_mod_cast h2
  obtain ⟨⟨a1, a2⟩, -⟩ := products_step h1 over hl.1 hm.1 hl.2.1 hm.2.1 (by omega) (by omega)
  obtain ⟨⟨b1, b2⟩, -⟩ := products_step h1 over hl.1 hl.1 hl.2.1 hl.2.1 (by omega) (by omega)
  obtain ⟨⟨c1, c2⟩, -⟩ := products_step h1 over hm.1 hm.1 hm.2.1 hm.2.1 (by omega) (by omega)
  obtain ⟨d1, d2⟩ := (b2.mul c2).step h1 over (by omega) (by omega)
  have d3 := d2.mono (show 2 * (2 * (e - n - f.p - 1)) ≤ _ by omega) (show _ ≤ 2 * (2 * (n + 1 - e) + 1) by omega)
  obtain ⟨s1, s2, s3⟩ := sqrt_step h1 over d3 (by omega) (by omega)
  unfold cosArg norm2
  simp only [a1, b1, c1, d1]
  unfold sqrtF
  generalize (binary f.p).rnd ((binary f.p).rnd ((binary f.p).rnd (l 0 * l 0) + (binary f.p).rnd (l 1 * l 1)) * (binary f.p).rnd ((binary f.p).rnd (m 0 * m 0) + (binary f.p).rnd (m 1 * m 1))) = x at *
  by_cases hx : x < 0
  · rw [if_pos hx, if_pos hx]
    rfl
  · rw [if_neg hx, if_neg hx, s1]
    show (divF (f.arith over) _ _ >>= _) = (divF (binary f.p) _ _ >>= _)
    unfold divF
    by_cases h0 : (binary f.p).rnd (Real.sqrt x) = 0
    · rw [if_pos h0, if_pos h0]
    · rw [if_neg h0, if_neg h0]
      have hx0 : 0 < x := by
        rcases lt_or_eq_of_le (not_lt.1 hx) with k | k
        · exact k
        · exfalso; apply h0; rw [← k, Real.sqrt_zero]; exact roundTo_zero
      rw [(agree_div h1 over a2 (s3 hx0) s2 (by omega) (by omega)).1]

theorem agree_isParallel (hf : FitsDeep f e n) (over : ℝ → ℝ) (t : Thr ℝ) (ac : ℝ → ℝ) {l m : V3 ℝ} (hl : LineGrid f e n l) (hm : LineGrid f e n m) :
    isParallel (f.arith over) t ac l m = isParallel (binary f.p) t ac l m := by
  unfold isParallel lineAngle
  rw [agree_cosArg hf over hl hm]

/-- Size of the coordinates of an intersection point. -/
abbrev InterGrid (f : Format) (e n : ℤ) (p : Pt ℝ) : Prop := GridPt (5 * e - 4 * n - 3 * f.p - 5) (5 * n - 4 * e + 2 * f.p + 6) p

theorem agree_crossXY (hf : FitsDeep f e n) (over : ℝ → ℝ) {l m : V3 ℝ} (hl : LineGrid f e n l) (hm : LineGrid f e n m) :
    crossXY (f.arith over) l m = crossXY (binary f.p) l m ∧ ∀ p, crossXY (binary f.p) l m = some p → InterGrid f e n p := by
  obtain ⟨h1, h2, h3, h4, h5, h6⟩ := deep_bounds hf
  have h2' : (6 : ℤ) ≤ f.p := by exact_mod_cast h2
  have l0 := hl.1
  have l1 := hl.2.1
  have l2 := hl.2.2
  have m0 := hm.1
  have m1 := hm.2.1
  have m2 := hm.2.2
  have prod : ∀ {a b a' b' : ℤ} {x y : ℝ}, Grid a b x → Grid a' b' y → a + a' = 3 * e - 2 * n - 2 * f.p - 2 → b + b' = 3 * n + 2 - 2 * e →
      (f.arith over).rnd (x * y) = (binary f.p).rnd (x * y) ∧ Grid (3 * e - 2 * n - 2 * f.p - 2) (3 * n + 2 - 2 * e) ((binary f.p).rnd (x * y)) := by
    intro a b a' b' x y hx hy ha hb
    have := hx.mul hy
    rw [ha, hb] at this
    exact this.step h1 over (by omega) (by omega)
  obtain ⟨a1, a2⟩ := prod l1 m2 (by omega) (by omega)
  obtain ⟨b1, b2⟩ := prod l2 m1 (by omega) (by omega)
  obtain ⟨c1, c2⟩ := prod l2 m0 (by omega) (by omega)
  obtain ⟨d1, d2⟩ := prod l0 m2 (by omega) (by omega)
  obtain ⟨-, k1, k2⟩ := products_step h1 over l0 m1 l1 m0 (by omega) (by omega)
  obtain ⟨x1, x2⟩ := (a2.sub b2).step h1 over (by omega) (by omega)
  obtain ⟨y1, y2⟩ := (c2.sub d2).step h1 over (by omega) (by omega)
  have e0 : crossProd (f.arith over) l m = crossProd (binary f.p) l m := by
    unfold crossProd
    rw [a1, b1, c1, d1, k1, x1, y1]
  unfold crossXY
  simp only [e0]
  have g0 : Grid (3 * e - 2 * n - 2 * f.p - 2) (3 * n + 2 - 2 * e + 1) (crossProd (binary f.p) l m 0) := x2
  have g1 : Grid (3 * e - 2 * n - 2 * f.p - 2) (3 * n + 2 - 2 * e + 1) (crossProd (binary f.p) l m 1) := y2
  have g2 : Grid (e - n - f.p - 1 + (e - n - f.p - 1)) (n + 1 - e + (n + 1 - e) + 1) (crossProd (binary f.p) l m 2) := k2
  generalize crossProd (binary f.p) l m = w at *
  by_cases hw : w 2 = 0
  · rw [if_pos hw, if_pos hw]
    exact ⟨rfl, fun p hp => by cases hp⟩
  · rw [if_neg hw, if_neg hw]
    obtain ⟨q1, q2⟩ := agree_div h1 over g0 (g2.ge hw) g2.2 (by omega) (by omega)
    obtain ⟨r1, r2⟩ := agree_div h1 over g1 (g2.ge hw) g2.2 (by omega) (by omega)
    unfold getXY
    rw [q1, r1]
    refine ⟨rfl, fun p hp => ?_⟩
    obtain rfl := Option.some.inj hp
    exact ⟨q2.mono (by omega) (by omega), r2.mono (by omega) (by omega)⟩

/-- Distance of two points, with the size of their coordinates. -/
theorem dist_step (hp : 1 ≤ f.p) (over : ℝ → ℝ) {a b : ℤ} {p q : Pt ℝ} (hp' : GridPt a b p) (hq : GridPt a b q) (ha : f.emin + f.p - 1 ≤ a) (hb : b + 2 ≤ f.emax - 1) :
    distPt (f.arith over) p q = distPt (binary f.p) p q ∧ Grid (a - f.p + 1) (b + 2) (distPt (binary f.p) p q) := by
  have ha' : f.emin ≤ a := by omega
  obtain ⟨a1, a2⟩ := (hp'.1.sub hq.1).step hp over ha' (by omega)
  obtain ⟨b1, b2⟩ := (hp'.2.sub hq.2).step hp over ha' (by omega)
  unfold distPt
  rw [a1, b1]
  obtain ⟨c1, c2, -⟩ := hyp_step hp over a2 b2 ha (by omega)
  exact ⟨c1, c2.mono le_rfl (by omega)⟩

theorem InterGrid.of {p : Pt ℝ} (hf : FitsDeep f e n) (h : GridPt e n p) : InterGrid f e n p := by
  obtain ⟨h1, h2, h3, h4, h5, h6⟩ := deep_bounds hf
  have h2' : (6 : ℤ) ≤ f.p := by exact_mod_cast h2
  exact ⟨h.1.mono (by omega) (by omega), h.2.mono (by omega) (by omega)⟩

theorem agree_same (hf : FitsDeep f e n) (over : ℝ → ℝ) (t : Thr ℝ) {p q : Pt ℝ} (hp : InterGrid f e n p) (hq : InterGrid f e n q) : PtSame (f.arith over) t p q ↔ PtSame (binary f.p) t p q := by
  obtain ⟨h1, h2, h3, h4, h5, h6⟩ := deep_bounds hf
  have h2' : (6 : ℤ) ≤ f.p := by exact_mod_cast h2
  unfold PtSame
  rw [(dist_step h1 over hp hq (by omega) (by omega)).1]

theorem agree_between (hf : FitsDeep f e n) (over : ℝ → ℝ) (t : Thr ℝ) {s : Seg} {p : Pt ℝ} (h1 : GridPt e n s.1) (h2 : GridPt e n s.2) (hp : InterGrid f e n p) :
    Between (f.arith over) t s p ↔ Between (binary f.p) t s p := by
  obtain ⟨g1, g2, g3, g4, g5, g6⟩ := deep_bounds hf
  have g2' : (6 : ℤ) ≤ f.p := by exact_mod_cast g2
  obtain ⟨a1, a2⟩ := dist_step g1 over (InterGrid.of hf h1) hp (by omega) (by omega)
  obtain ⟨b1, b2⟩ := dist_step g1 over (InterGrid.of hf h2) hp (by omega) (by omega)
  obtain ⟨c1, c2⟩ := dist_step g1 over (InterGrid.of hf h1) (InterGrid.of hf h2) (by omega) (by omega)
  obtain ⟨d1, d2⟩ := (a2.add b2).step g1 over (by omega) (by omega)
  obtain ⟨k1, -⟩ := (d2.sub (c2.mono le_rfl (show _ ≤ 5 * n - 4 * e + 2 * f.p + 6 + 2 + 1 by omega))).step g1 over (by omega) (by omega)
  unfold Between
  rw [a1, b1, c1, d1, k1]

theorem agree_segMake (hf : Fits f e n) (over : ℝ → ℝ) (t : Thr ℝ) {p q : Pt ℝ} (hp : GridPt e n p) (hq : GridPt e n q) :
    segMake (f.arith over) t p q = segMake (binary f.p) t p q := by
  unfold segMake PtSame
  rw [(agree_dist hf over hp hq).1]

theorem grid_segMake {F : Arith} {t : Thr ℝ} {p q : Pt ℝ} {s : Seg} (hp : GridPt e n p) (hq : GridPt e n q) (h : segMake F t p q = .ok s) : GridSeg e n s := by
  unfold segMake at h
  split_ifs at h
  obtain rfl := Res.ok.inj h
  unfold fixOrder
  split_ifs
  · exact ⟨hq, hp⟩
  · exact ⟨hp, hq⟩

theorem agree_segInter (hf : FitsDeep f e n) (over : ℝ → ℝ) (t : Thr ℝ) (ac : ℝ → ℝ) {s s' : Seg} (hs : GridSeg e n s) (hs' : GridSeg e n s') :
    segInter (f.arith over) t ac s s' = segInter (binary f.p) t ac s s' ∧ ∀ p, segInter (binary f.p) t ac s s' = .ok (some p) → InterGrid f e n p := by
  classical
  have hf' := deep_fits hf
  have e1 : SegSame (f.arith over) t s s' ↔ SegSame (binary f.p) t s s' := by
    unfold SegSame PtSame
    rw [(agree_dist hf' over hs.1 hs'.1).1, (agree_dist hf' over hs.2 hs'.2).1]
  unfold segInter
  by_cases h : SegSame (binary f.p) t s s'
  · rw [if_pos h, if_pos (e1.2 h)]
    exact ⟨rfl, fun p hp => by cases hp⟩
  rw [if_neg h, if_neg fun k => h (e1.1 k), agree_lineOfPts hf' over t hs.1 hs.2, agree_lineOfPts hf' over t hs'.1 hs'.2]
  rcases h1 : lineOfPts (binary f.p) t s.1 s.2 with l | _ | _
  · have hl := grid_lineOfPts hf' t hs.1 hs.2 h1
    rcases h2 : lineOfPts (binary f.p) t s'.1 s'.2 with m | _ | _
    · have hm := grid_lineOfPts hf' t hs'.1 hs'.2 h2
      simp only [Res.bind_ok]
      unfold lineInter
      rw [agree_isParallel hf over t ac hl hm, (agree_crossXY hf over hl hm).1]
      have hc := (agree_crossXY hf (fun _ => 0) hl hm).2
      by_cases hp : isParallel (binary f.p) t ac l m = true
      · simp only [hp, if_true]
        exact ⟨by simp, fun p h => by cases h⟩
      · simp only [hp, if_false, Bool.false_eq_true, Res.bind_ok]
        rcases hx : crossXY (binary f.p) l m with _ | p
        · exact ⟨rfl, fun p h => by cases h⟩
        · have hg := hc p hx
          simp only
          have b1 := agree_between hf over t hs.1 hs.2 hg
          have b2 := agree_between hf over t hs'.1 hs'.2 hg
          constructor
          · refine if_congr b1 (if_congr b2 rfl rfl) rfl
          · intro q hq
            split_ifs at hq
            · cases hq; exact hg
            · cases hq
            · cases hq
    · exact ⟨rfl, fun p h => by cases h⟩
    · exact ⟨rfl, fun p h => by cases h⟩
  · exact ⟨rfl, fun p h => by cases h⟩
  · exact ⟨rfl, fun p h => by cases h⟩

end H2d.Fl
