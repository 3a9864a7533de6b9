import Verif.Lemmas.LineOps

/-!
# C01-C10, C60, C63-C65: points and lines

Exact reals (rounding is not modelled), thresholds are parameters.
-/

set_option linter.unusedSectionVars false
set_option linter.unusedSimpArgs false

namespace H2d.Props

open H2d.Spec

/-! ## C01 -/

/-- **C01 (partial).** The line built from two finite points has a unit normal vector and contains both points, provided its slope is
null or not too small. Missing: slopes strictly between 0 and `nullDenom`, for which the claim is false, see `C01_false`. -/
theorem C01_through_partial (t : Thr ℝ) (p q r : V3 ℝ) (hp : IsFin p) (hq : IsFin q)
    (h : lineOfPts t p q = .ok r) (hs : GoodSlope t (getXY p) (getXY q)) :
    UnitNormal r ∧ OnLine r p ∧ OnLine r q := by
  unfold lineOfPts at h
  split_ifs at h with h0
  have hn := normalizeLine_norm h
  have hz := normalizeLine_zero h
  obtain ⟨he, -⟩ := normalizeLine_ok h
  have hpos := lt_trans dblEps_pos he
  rw [crossProd_norm hp hq] at hz hpos
  have hk : 0 < |p 2 * q 2| := abs_pos.2 (mul_ne_zero hp hq)
  have hd : 0 < eucl (getXY p) (getXY q) := pos_of_mul_pos_right hpos hk.le
  rw [crossProd_zero hp hq, mul_div_mul_left _ _ hk.ne'] at hz
  have hb : r 0 = 0 ∨ t.nullDenom ≤ r 0 := by
    rcases hs with hs | hs
    · left; rw [hz, hs]; simp
    · right; rw [hz, le_div_iff₀ hd]; exact hs
  have hsame := normalizeLine_same h hb
  exact ⟨hn.1, (OnLine_sameLine hsame).1 (crossProd_inc1 p q), (OnLine_sameLine hsame).1 (crossProd_inc2 p q)⟩

/-- **C01, order.** The order of the points has no influence, failures included. -/
theorem C01_symmetric (t : Thr ℝ) (ht : 0 < t.nullDenom) (p q : V3 ℝ) : lineOfPts t p q = lineOfPts t q p := by
  unfold lineOfPts
  rw [crossProd_anti p q, normalizeLine_neg ht]
  simp only [PtEq, ptDist_eucl, eucl_comm (getXY p) (getXY q)]

/-- **C01, failures.** For points given by their coordinates, the line is built exactly when they are not equal for the library, and then its
normal vector has norm 1. -/
theorem C01_defined (t : Thr ℝ) (ht : dblEps < t.nullDistance) (x1 y1 x2 y2 : ℝ) :
    (lineOfPts t (mkPt x1 y1) (mkPt x2 y2) = .throw ↔ eucl (x1, y1) (x2, y2) < t.nullDistance) ∧
    (t.nullDistance ≤ eucl (x1, y1) (x2, y2) → ∃ r, lineOfPts t (mkPt x1 y1) (mkPt x2 y2) = .ok r ∧ UnitNormal r) := by
  have hp : IsFin (mkPt x1 y1) := by simp [IsFin, mkPt]
  have hq : IsFin (mkPt x2 y2) := by simp [IsFin, mkPt]
  have e1 : getXY (mkPt x1 y1) = (x1, y1) := by simp [getXY, mkPt]
  have e2 : getXY (mkPt x2 y2) = (x2, y2) := by simp [getXY, mkPt]
  have e3 := crossProd_norm hp hq
  rw [e1, e2] at e3
  have e4 : |mkPt x1 y1 2 * mkPt x2 y2 2| = 1 := by simp [mkPt]
  rw [e4, one_mul] at e3
  unfold lineOfPts
  rw [e1, e2]
  simp only [PtEq, ptDist_eucl]
  have key : t.nullDistance ≤ eucl (x1, y1) (x2, y2) → ∃ r, normalizeLine t (crossProd (mkPt x1 y1) (mkPt x2 y2)) = .ok r ∧ UnitNormal r := by
    intro h
    have := normalizeLine_eq t (crossProd (mkPt x1 y1) (mkPt x2 y2)) (by rw [e3]; linarith)
    exact ⟨_, this, (normalizeLine_norm this).1⟩
  constructor
  · split_ifs with h
    · simp [h]
    · obtain ⟨r, hr, -⟩ := key (not_lt.1 h)
      simp [hr, h]
  · intro h
    rw [if_neg (not_lt.2 h)]
    exact key h

/-- **C01 is false** in general: whatever the (positive) threshold, there are two points such that the line built from them misses the second one.
When the first coefficient is below `nullDenom` the code changes the sign of the two others only. -/
theorem C01_false (t : Thr ℝ) (ht : 0 < t.nullDenom) (hd : 0 ≤ t.nullDistance) :
    ∃ p q r : V3 ℝ, IsFin p ∧ IsFin q ∧ lineOfPts t p q = .ok r ∧ ¬ OnLine r q := by
  obtain ⟨N, hN1, hN2, hN3⟩ : ∃ N : ℝ, 1 ≤ N ∧ 1 < N * t.nullDenom ∧ t.nullDistance ≤ N := by
    refine ⟨1 / t.nullDenom + t.nullDistance + 1, ?_, ?_, ?_⟩
    · have : 0 < 1 / t.nullDenom := by positivity
      linarith
    · have : 1 / t.nullDenom * t.nullDenom = 1 := by field_simp
      nlinarith
    · have : 0 < 1 / t.nullDenom := by positivity
      linarith
  have hp : IsFin (mkPt (0:ℝ) 0) := by simp [IsFin, mkPt]
  have hq : IsFin (mkPt N 1) := by simp [IsFin, mkPt]
  have e1 : getXY (mkPt (0:ℝ) 0) = (0, 0) := by simp [getXY, mkPt]
  have e2 : getXY (mkPt N 1) = (N, 1) := by simp [getXY, mkPt]
  set s := Real.sqrt (N ^ 2 + 1) with hs
  have hNs : N < s := by
    rw [hs]; exact Real.lt_sqrt_of_sq_lt (by linarith)
  have hs0 : 0 < s := by linarith
  have e3 : eucl (0, 0) (N, 1) = s := by rw [eucl, hs]; congr 1; ring
  have e4 := crossProd_norm hp hq
  rw [e1, e2, e3, show |mkPt (0:ℝ) 0 2 * mkPt N 1 2| = 1 by simp [mkPt], one_mul] at e4
  have e5 := normalizeLine_eq t (crossProd (mkPt 0 0) (mkPt N 1)) (by
    rw [e4]; have := dblEps_lt_one; linarith)
  refine ⟨mkPt 0 0, mkPt N 1, ![1 / s, N / s, 0], hp, hq, ?_, ?_⟩
  · unfold lineOfPts
    rw [e1, e2, if_neg (by simp only [PtEq, ptDist_eucl, e3]; linarith), e5, e4]
    congr 1
    have h1 : 1 / s < t.nullDenom := by rw [div_lt_iff₀ hs0]; nlinarith
    have h2 : 0 < 1 / s := by positivity
    have h4 : 0 < N / s := by positivity
    have c0 : crossProd (mkPt 0 0) (mkPt N 1) 0 / s = - (1 / s) := by simp [crossProd, mkPt, neg_div]
    have c1 : crossProd (mkPt 0 0) (mkPt N 1) 1 / s = N / s := by simp [crossProd, mkPt]
    have c2 : crossProd (mkPt 0 0) (mkPt N 1) 2 / s = 0 := by simp [crossProd, mkPt]
    rw [signFix_band t _ (by rw [c0]; linarith) (by rw [c0]; linarith) (by rw [c1]; exact h4)]
    rw [c0, c1, c2, neg_neg]
  · simp only [OnLine, mkPt, Matrix.cons_val_zero, Matrix.cons_val_one, Matrix.cons_val]
    have : 0 < N / s := by positivity
    intro h
    have h' : N / s + N / s = 0 := by rw [← h]; ring
    linarith

/-- The hypotheses of C01 are met by an ordinary pair of points with the default thresholds. -/
example : ∃ r, lineOfPts stdR (mkPt 0 0) (mkPt 3 4) = .ok r ∧ GoodSlope stdR (getXY (mkPt (0:ℝ) 0)) (getXY (mkPt (3:ℝ) 4)) ∧
    OnLine r (mkPt 3 4) := by
  have e : eucl (0, 0) (3, 4) = 5 := by rw [eucl_eq_iff (by norm_num)]; norm_num
  have hg : GoodSlope stdR (getXY (mkPt (0:ℝ) 0)) (getXY (mkPt (3:ℝ) 4)) := by
    right
    rw [show getXY (mkPt (0:ℝ) 0) = (0, 0) by simp [getXY, mkPt], show getXY (mkPt (3:ℝ) 4) = (3, 4) by simp [getXY, mkPt], e]
    norm_num [stdR]
  obtain ⟨r, hr, -⟩ := (C01_defined stdR (by norm_num [stdR, dblEps]) 0 0 3 4).2 (by rw [e]; norm_num [stdR])
  exact ⟨r, hr, hg, (C01_through_partial stdR _ _ r (by simp [IsFin, mkPt]) (by simp [IsFin, mkPt]) hr hg).2.2⟩

/-! ## C02 -/

/-- **C02.** The product of two lines throws exactly when the angle between them is under the threshold, in particular when they are parallel.
Otherwise the result is a finite point of both lines, and swapping the operands gives the same location. -/
theorem C02_intersection (t : Thr ℝ) (ht : 0 < t.nullAngleValue) (l m : V3 ℝ) (hl : Proper l) (hm : Proper m) :
    (lineInter t l m = .throw ↔ lineAngle l m < t.nullAngleValue) ∧
    (SameDir l m → lineInter t l m = .throw) ∧
    (∀ p, lineInter t l m = .ok p → IsFin p ∧ OnLine l p ∧ OnLine m p ∧
      ∃ p', lineInter t m l = .ok p' ∧ SameLoc p p' ∧ getXY p' = getXY p) := by
  have h1 : lineInter t l m = .throw ↔ lineAngle l m < t.nullAngleValue := by
    unfold lineInter; split_ifs with h
    · simp [h]
    · simpa using h
  refine ⟨h1, fun h => h1.2 ?_, fun p hp => ?_⟩
  · rw [(lineAngle_zero hl hm).2 h]; exact ht
  · unfold lineInter at hp
    split_ifs at hp with h
    cases hp
    have hnd : ¬ SameDir l m := by
      intro hd; apply h; rw [IsParallel, (lineAngle_zero hl hm).2 hd]; exact ht
    have hfin : IsFin (crossProd l m) := by
      intro h2; apply hnd
      have : crossProd l m 2 = l 0 * m 1 - l 1 * m 0 := by simp [crossProd]
      rw [this] at h2; unfold SameDir; linarith
    have hs : SameLoc (crossProd l m) (crossProd m l) := ⟨-1, by norm_num, fun i => by rw [crossProd_anti l m]; simp⟩
    refine ⟨hfin, crossProd_inc1' l m, crossProd_inc2' l m, crossProd m l, ?_, hs, hs.getXY.symm⟩
    unfold lineInter
    rw [if_neg]
    rw [IsParallel, lineAngle_comm]; exact h

/-- **C02, constructor.** `Point2d(l1,l2)` gives the same location as the product whenever it returns, and fails on parallel lines as well. -/
theorem C02_constructor (t : Thr ℝ) (l m : V3 ℝ) :
    (lineInter t l m = .throw → pointOfLines t l m = .throw) ∧
    (∀ p, pointOfLines t l m = .ok p → ∃ q, lineInter t l m = .ok q ∧ SameLoc q p) := by
  unfold lineInter pointOfLines
  split_ifs with h
  · simp
  · refine ⟨by simp, fun p hp => ⟨_, rfl, ?_⟩⟩
    simp only [normalizePoint] at hp
    split_ifs at hp with h1 h2 h3
    · cases hp; exact ⟨-1, by norm_num, fun i => by simp⟩
    · cases hp; exact SameLoc.refl _

/-- Two perpendicular lines: an accepted product. -/
example : lineInter stdR (lineV 3) (lineH 4) = .ok ![3, 4, 1] ∧ Proper (lineV 3) ∧ Proper (lineH 4) := by
  have h1 : Proper (lineV 3) := by simp [Proper, lineV]
  have h2 : Proper (lineH 4) := by simp [Proper, lineH]
  have h3 : lineAngle (lineV 3) (lineH 4) = Real.pi / 2 := (lineAngle_pi_div_two h1 h2).2 (by simp [Perp, lineV, lineH])
  refine ⟨?_, h1, h2⟩
  unfold lineInter
  rw [if_neg]
  · congr 1; apply v3_ext <;> simp [crossProd, lineV, lineH]
  · rw [IsParallel, h3]
    have := Real.two_le_pi
    simp only [stdR]; linarith

/-! ## C03 -/

/-- **C03.** The distance between points is a distance on locations. -/
theorem C03_metric (p q r : V3 ℝ) :
    0 ≤ hDist p q ∧ hDist p q = hDist q p ∧ hDist p r ≤ hDist p q + hDist q r ∧
    (IsFin p → IsFin q → (hDist p q = 0 ↔ SameLoc p q)) := by
  simp only [hDist, ptDist_eucl]
  refine ⟨eucl_nonneg _ _, eucl_comm _ _, eucl_triangle _ _ _, fun hp hq => ?_⟩
  rw [eucl_eq_zero]
  exact ⟨fun h => sameLoc_of_getXY hp hq h, fun h => h.getXY⟩

/-- **C03, homogeneous scaling.** Non-null multiples of the homogeneous values give the same distance. -/
theorem C03_scale (p q p' q' : V3 ℝ) (hp : SameLoc p p') (hq : SameLoc q q') : hDist p' q' = hDist p q := by
  simp only [hDist, hp.getXY, hq.getXY]

/-- **C03, coordinates.** The value is the usual one, and does not change when both points are translated. -/
theorem C03_coordinates (x1 y1 x2 y2 dx dy : ℝ) :
    hDist (mkPt x1 y1) (mkPt x2 y2) = eucl (x1, y1) (x2, y2) ∧
    hDist (mkPt (x1 + dx) (y1 + dy)) (mkPt (x2 + dx) (y2 + dy)) = hDist (mkPt x1 y1) (mkPt x2 y2) := by
  have e : ∀ x y : ℝ, getXY (mkPt x y) = (x, y) := by intro x y; simp [getXY, mkPt]
  simp only [hDist, ptDist_eucl, e, true_and]
  simp only [eucl]; congr 1; ring

/-- Non trivial case: the same location with different homogeneous values. -/
example : SameLoc (mkPt (3:ℝ) 4) ![-6, -8, -2] ∧ hDist (mkPt 0 0) ![-6, -8, -2] = 5 := by
  have h : SameLoc (mkPt (3:ℝ) 4) ![-6, -8, -2] := ⟨-2, by norm_num, fin3_forall (by norm_num [mkPt]) (by norm_num [mkPt]) (by simp [mkPt])⟩
  refine ⟨h, ?_⟩
  rw [C03_scale _ _ _ _ (SameLoc.refl _) h, (C03_coordinates 0 0 3 4 0 0).1, eucl_eq_iff (by norm_num)]; norm_num

/-! ## C04 -/

/-- **C04.** The distance between a line and a point is the smallest of the distances between this point and the points of the line;
it is null exactly for the points of the line. -/
theorem C04_shortest (l : V3 ℝ) (hl : Proper l) (p : Pt ℝ) :
    IsLeast {d | ∃ q, On l q ∧ eucl p q = d} (lineDist l p) ∧ (lineDist l p = 0 ↔ On l p) := by
  refine ⟨⟨⟨foot l p, foot_on hl p, foot_dist hl p⟩, ?_⟩, lineDist_eq_zero hl p⟩
  rintro d ⟨q, hq, rfl⟩
  exact lineDist_le hl p q hq

example : Proper ![3, 4, -10] ∧ lineDist ![3, 4, -10] (0, 0) = 2 := by
  refine ⟨by norm_num [Proper], ?_⟩
  rw [← foot_dist (by norm_num [Proper]), eucl_eq_iff (by norm_num)]
  simp [foot]; norm_num

/-! ## C05 and C63: parallel lines -/

/-- **C05.** Both lines of `getParallelLines(d)` have the direction of the line and the same unit normal vector. A point at signed distance `s` from the
line is at signed distance `s+d` of the first and `s-d` of the second: the points of these lines are exactly those at (signed) distance
`-d` and `d`, so all their points are at distance `|d|`, on opposite sides. -/
theorem C05_lines (l : V3 ℝ) (hl : UnitNormal l) (d : ℝ) :
    let r := parallelLines l d
    UnitNormal r.1 ∧ UnitNormal r.2 ∧ SameDir l r.1 ∧ SameDir l r.2 ∧
    (∀ p : Pt ℝ, On r.1 p ↔ l 0 * p.1 + l 1 * p.2 + l 2 = - d) ∧
    (∀ p : Pt ℝ, On r.2 p ↔ l 0 * p.1 + l 1 * p.2 + l 2 = d) ∧
    (∀ p : Pt ℝ, On r.1 p ∨ On r.2 p ↔ lineDist l p = |d|) := by
  intro r
  have h1 : ∀ p : Pt ℝ, On r.1 p ↔ l 0 * p.1 + l 1 * p.2 + l 2 = - d := by
    intro p; simp only [r, parallelLines, On, Matrix.cons_val_zero, Matrix.cons_val_one, Matrix.cons_val]
    constructor <;> intro h <;> linarith
  have h2 : ∀ p : Pt ℝ, On r.2 p ↔ l 0 * p.1 + l 1 * p.2 + l 2 = d := by
    intro p; simp only [r, parallelLines, On, Matrix.cons_val_zero, Matrix.cons_val_one, Matrix.cons_val]
    constructor <;> intro h <;> linarith
  refine ⟨by simpa [r, parallelLines, UnitNormal] using hl, by simpa [r, parallelLines, UnitNormal] using hl, ?_, ?_, h1, h2, fun p => ?_⟩
  · simp [r, parallelLines, SameDir]; ring
  · simp [r, parallelLines, SameDir]; ring
  · rw [h1, h2, lineDist_unit hl, abs_eq_abs, or_comm]

/-- **C05, parallel line through a point.** For a line as stored by the library, it is built without failure, contains the point and has the same
unit normal vector. -/
theorem C05_through (t : Thr ℝ) (l : V3 ℝ) (hl : NormLine t l) (p : Pt ℝ) :
    ∃ r, parallelLine t l p = .ok r ∧ On r p ∧ SameDir l r ∧ UnitNormal r ∧ r 0 = l 0 ∧ r 1 = l 1 := by
  have hn : NormLine t ![l 0, l 1, - l 0 * p.1 - l 1 * p.2] := by
    simpa [NormLine, UnitNormal] using hl
  refine ⟨_, normalizeLine_idem hn, ?_, ?_, hn.1, ?_⟩
  · simp [On]
  · simp [SameDir]; ring
  · exact ⟨by simp, by simp⟩

/-- **C63 (partial).** For two parallel lines as stored by the library, `getParallelDistance` is the distance from any point of one to the other.
Missing: lines that are only nearly parallel; the result may then not be a number, see `C63_false`. -/
theorem C63_distance_partial (t : Thr ℝ) (ht : 0 < t.nullAngleValue) (hd : 0 < t.nullDenom) (l m : V3 ℝ) (hl : NormLine t l) (hm : NormLine t m)
    (h : SameDir l m) : ∃ d, parallelDistance t l m = .ok (some d) ∧ ∀ p, On l p → lineDist m p = d := by
  have hlu : l 0 ^ 2 + l 1 ^ 2 = 1 := hl.1
  have hmu : m 0 ^ 2 + m 1 ^ 2 = 1 := hm.1
  have h' : l 0 * m 1 = l 1 * m 0 := h
  have hp : IsParallel t l m := by rw [IsParallel, (lineAngle_zero hl.1.proper hm.1.proper).2 h]; exact ht
  have h0 : l 0 = m 0 := by
    have : l 0 ^ 2 = m 0 ^ 2 := by
      have h2 : (l 0 * m 1) ^ 2 = (l 1 * m 0) ^ 2 := by rw [h']
      have e1 : m 1 ^ 2 = 1 - m 0 ^ 2 := by linarith
      have e2 : l 1 ^ 2 = 1 - l 0 ^ 2 := by linarith
      rw [mul_pow, mul_pow, e1, e2] at h2; linarith
    exact (pow_left_inj₀ hl.2.1 hm.2.1 two_ne_zero).1 this
  have h1 : l 1 = m 1 := by
    rcases eq_or_lt_of_le hl.2.1 with hz | hz
    · have a1 := hl.2.2 (by rw [← hz]; exact hd)
      have a2 := hm.2.2 (by rw [← h0, ← hz]; exact hd)
      have : l 1 ^ 2 = m 1 ^ 2 := by rw [← h0] at hmu; linarith
      exact (pow_left_inj₀ a1 a2 two_ne_zero).1 this
    · rw [← h0] at h'
      have : l 0 * m 1 = l 0 * l 1 := by rw [h']; ring
      exact (mul_left_cancel₀ hz.ne' this).symm
  refine ⟨|l 2 - m 2|, ?_, fun p hp' => ?_⟩
  · unfold parallelDistance
    rw [if_neg (not_not.2 hp), if_neg (by rw [← h0, ← h1]; have := mul_self_nonneg (l 0); have := mul_self_nonneg (l 1); rintro (h | h) <;> linarith)]
    simp only []
    rw [← h0, ← h1, Real.mul_self_sqrt (mul_self_nonneg _), Real.mul_self_sqrt (mul_self_nonneg _), hl.1.sqrt, div_one]
    have : l 0 * l 0 + l 1 * l 1 ≠ 0 := by rw [show l 0 * l 0 + l 1 * l 1 = 1 by linarith]; exact one_ne_zero
    simp only [this, if_false]
  · rw [lineDist_unit hm.1, ← h0, ← h1]
    unfold On at hp'
    rw [show l 0 * p.1 + l 1 * p.2 + m 2 = - (l 2 - m 2) by linarith, abs_neg]

/-- **C05, distance.** `getParallelDistance` between a line and one of its parallels is the distance asked for. -/
theorem C05_distance (t : Thr ℝ) (ht : 0 < t.nullAngleValue) (hd : 0 < t.nullDenom) (l : V3 ℝ) (hl : NormLine t l) (d : ℝ) :
    parallelDistance t l (parallelLines l d).1 = .ok (some |d|) ∧ parallelDistance t l (parallelLines l d).2 = .ok (some |d|) := by
  obtain ⟨h1, h2, h3, h4, h5, h6, -⟩ := C05_lines l hl.1 d
  have n1 : NormLine t (parallelLines l d).1 := ⟨h1, by simpa [parallelLines] using hl.2.1, by simpa [parallelLines] using hl.2.2⟩
  have n2 : NormLine t (parallelLines l d).2 := ⟨h2, by simpa [parallelLines] using hl.2.1, by simpa [parallelLines] using hl.2.2⟩
  have hon := foot_on hl.1.proper (0, 0)
  have hon' := hon
  unfold On at hon'
  constructor
  · obtain ⟨e, he, hp⟩ := C63_distance_partial t ht hd l _ hl n1 h3
    rw [he, ← hp _ hon, lineDist_unit h1]
    simp only [parallelLines, Matrix.cons_val_zero, Matrix.cons_val_one, Matrix.cons_val]
    rw [← add_assoc, hon', zero_add]
  · obtain ⟨e, he, hp⟩ := C63_distance_partial t ht hd l _ hl n2 h4
    rw [he, ← hp _ hon, lineDist_unit h2]
    simp only [parallelLines, Matrix.cons_val_zero, Matrix.cons_val_one, Matrix.cons_val]
    rw [← add_sub_assoc, hon', zero_sub, abs_neg]

example : NormLine stdR (lineV 7) ∧ NormLine stdR ![3/5, -4/5, 2] := by
  constructor
  · refine ⟨by simp [UnitNormal, lineV], by simp [lineV], by simp [lineV]⟩
  · refine ⟨by norm_num [UnitNormal], by norm_num, ?_⟩
    intro h; norm_num [stdR] at h

/-- **C63 is false** for lines that are nearly parallel, whatever the thresholds: for two nearly vertical lines leaning on different
sides, `isParallelTo` is true but the distance is computed from the square root of a negative number. -/
theorem C63_false (t : Thr ℝ) (ht : 0 < t.nullAngleValue) (hd : t.nullDenom ≤ 1 / 2) :
    ∃ l m, NormLine t l ∧ NormLine t m ∧ IsParallel t l m ∧ parallelDistance t l m = .ok none := by
  obtain ⟨f, hf0, hf1, hf2⟩ : ∃ f : ℝ, 0 < f ∧ f ≤ 1 / 3 ∧ 2 * f < t.nullAngleValue :=
    ⟨min t.nullAngleValue 1 / 3, by have := lt_min ht one_pos; linarith, by have := min_le_right t.nullAngleValue 1; linarith,
      by have := min_le_left t.nullAngleValue 1; linarith⟩
  have hpi := Real.two_le_pi
  have hc : 1 / 2 ≤ Real.cos f := by
    have := Real.one_sub_sq_div_two_le_cos (x := f); nlinarith
  have hs : 0 < Real.sin f := Real.sin_pos_of_pos_of_lt_pi hf0 (by linarith)
  have hcs := Real.cos_sq_add_sin_sq f
  have hl : UnitNormal ![Real.cos f, Real.sin f, 0] := by simp [UnitNormal]
  have hm : UnitNormal ![Real.cos f, - Real.sin f, 0] := by simp [UnitNormal]
  have hpar : IsParallel t ![Real.cos f, Real.sin f, 0] ![Real.cos f, - Real.sin f, 0] := by
    rw [IsParallel, lineAngle_cos hl hm (a := 2 * f) (by linarith) (by linarith)]
    · exact hf2
    · rw [Real.cos_two_mul']
      simp only [Matrix.cons_val_zero, Matrix.cons_val_one]
      rw [abs_of_nonneg]
      · ring
      · have hsin : Real.sin f ≤ Real.cos f := by have := Real.sin_lt hf0; linarith
        nlinarith
  refine ⟨_, _, ⟨hl, ?_, ?_⟩, ⟨hm, ?_, ?_⟩, hpar, ?_⟩
  · simp; linarith
  · simp; intro; linarith
  · simp; linarith
  · simp; intro; linarith
  · unfold parallelDistance
    rw [if_neg (not_not.2 hpar), if_pos]
    right
    have : 0 < Real.sin f * Real.sin f := mul_pos hs hs
    simpa using this

/-! ## C06 -/

/-- **C06 (partial).** The orthogonal line is built without failure, contains the point and is perpendicular to the line.
Missing: lines whose second coefficient is strictly between 0 and `nullDenom` (same cause as `C01_false`). -/
theorem C06_line_partial (t : Thr ℝ) (l : V3 ℝ) (hl : UnitNormal l) (hb : l 1 = 0 ∨ t.nullDenom ≤ |l 1|) (p : Pt ℝ) :
    ∃ o, orthogLine t l p = .ok o ∧ On o p ∧ Perp l o ∧ UnitNormal o := by
  obtain ⟨o, h1, h2, h3⟩ := orthogLine_spec (t := t) hl p
  have h3 := h3 hb
  refine ⟨o, h1, ?_, ?_, h2.1⟩
  · refine On.sameLine (l := ![- l 1, l 0, l 1 * p.1 - l 0 * p.2]) ?_ h3
    simp [On]
  · obtain ⟨k, -, hk⟩ := h3
    unfold Perp; rw [hk, hk]; simp; ring

/-- **C06 (partial), segment.** It is refused exactly for points closer to the line than the null distance; otherwise it goes from the point of the line
that is the closest to the given point, to this point. -/
theorem C06_segment_partial (t : Thr ℝ) (ht : t.nullAngleValue ≤ Real.pi / 2) (l : V3 ℝ) (hl : UnitNormal l)
    (hb : l 1 = 0 ∨ t.nullDenom ≤ |l 1|) (p : Pt ℝ) :
    (orthogSegment t l p = .throw ↔ lineDist l p < t.nullDistance) ∧
    (t.nullDistance ≤ lineDist l p → ∃ q, orthogSegment t l p = .ok (q, p) ∧ On l q ∧ ∀ q', On l q' → eucl p q ≤ eucl p q') := by
  have key : t.nullDistance ≤ lineDist l p → ∃ q, orthogSegment t l p = .ok (q, p) ∧ On l q ∧ ∀ q', On l q' → eucl p q ≤ eucl p q' := by
    intro hd
    obtain ⟨o, h1, h2, h3⟩ := orthogLine_spec (t := t) hl p
    obtain ⟨k, hk0, hk⟩ := h3 hb
    have k0 : o 0 = - (k * l 1) := by rw [hk]; simp
    have k1 : o 1 = k * l 0 := by rw [hk]; simp
    have k2 : o 2 = k * (l 1 * p.1 - l 0 * p.2) := by rw [hk]; simp
    have hperp : Perp l o := by unfold Perp; rw [k0, k1]; ring
    have hang : lineAngle l o = Real.pi / 2 := (lineAngle_pi_div_two hl.proper h2.1.proper).2 hperp
    have hin : lineInter t l o = .ok (crossProd l o) := by
      unfold lineInter; rw [if_neg]; rw [IsParallel, hang]; linarith
    have hlu : l 0 ^ 2 + l 1 ^ 2 = 1 := hl
    have hlu' : l 0 * l 0 + l 1 * l 1 = 1 := by linarith
    have hxy : getXY (crossProd l o) = foot l p := by
      unfold getXY foot
      simp only [crossProd, Matrix.cons_val_zero, Matrix.cons_val_one, Matrix.cons_val, k0, k1, k2, hlu', div_one]
      have : l 0 * (k * l 0) - l 1 * - (k * l 1) = k := by linear_combination k * hlu'
      rw [this]
      refine Prod.ext ?_ ?_
      · simp only; rw [div_eq_iff hk0]; linear_combination (k * p.1) * hlu'
      · simp only; rw [div_eq_iff hk0]; linear_combination (k * p.2) * hlu'
    refine ⟨foot l p, ?_, foot_on hl.proper p, fun q' hq' => ?_⟩
    · have ho : ∀ c, orthogLine t ![l 0, l 1, c] p = orthogLine t l p := by
        intro c; simp [orthogLine]
      have ho' : orthogLine t (if lineDist (parallelLines l (lineDist l p)).2 p < t.nullDistance then (parallelLines l (lineDist l p)).2
          else (parallelLines l (lineDist l p)).1) p = .ok o := by
        split_ifs
        · exact (ho _).trans h1
        · exact (ho _).trans h1
      unfold orthogSegment
      rw [if_neg (not_lt.2 hd)]
      simp only [ho', hin, Res.bind_ok, hxy]
      rw [if_neg]
      · rfl
      · rw [PtEq, ptDist_eucl, eucl_comm, foot_dist hl.proper]; linarith
    · rw [foot_dist hl.proper]; exact lineDist_le hl.proper p q' hq'
  refine ⟨?_, key⟩
  by_cases hd : lineDist l p < t.nullDistance
  · simp [orthogSegment, hd]
  · obtain ⟨q, hq, -⟩ := key (not_lt.1 hd)
    simp [hq, hd]

/-- **C06 is false** in the missing case, whatever the threshold: the "orthogonal line" at a point does not contain this point. -/
theorem C06_false (t : Thr ℝ) (ht : 0 < t.nullDenom) : ∃ l p o, NormLine t l ∧ orthogLine t l p = .ok o ∧ ¬ On o p := by
  obtain ⟨f, hf0, hf1, hf2⟩ : ∃ f : ℝ, 0 < f ∧ f ≤ 1 / 2 ∧ f < t.nullDenom :=
    ⟨min t.nullDenom 1 / 2, by have := lt_min ht one_pos; linarith, by have := min_le_right t.nullDenom 1; linarith,
      by have := min_le_left t.nullDenom 1; linarith⟩
  have hpi := Real.two_le_pi
  have hc : 1 / 2 ≤ Real.cos f := by
    have := Real.one_sub_sq_div_two_le_cos (x := f); nlinarith
  have hs : 0 < Real.sin f := Real.sin_pos_of_pos_of_lt_pi hf0 (by linarith)
  have hs2 := Real.sin_lt hf0
  have hl : NormLine t ![Real.cos f, Real.sin f, 0] := ⟨by simp [UnitNormal], by simp; linarith, by simp; intro; exact hs.le⟩
  have e : Real.sqrt ((![- Real.sin f, Real.cos f, Real.sin f] : V3 ℝ) 0 * (![- Real.sin f, Real.cos f, Real.sin f] : V3 ℝ) 0 +
      (![- Real.sin f, Real.cos f, Real.sin f] : V3 ℝ) 1 * (![- Real.sin f, Real.cos f, Real.sin f] : V3 ℝ) 1) = 1 := by
    rw [← Real.sqrt_one]; congr 1
    simp only [Matrix.cons_val_zero, Matrix.cons_val_one]
    nlinarith [Real.cos_sq_add_sin_sq f]
  have h1 := normalizeLine_eq t ![- Real.sin f, Real.cos f, Real.sin f] (by rw [e]; exact dblEps_lt_one)
  rw [e, signFix_band t _ (by simpa using hs) (by simp; linarith) (by simp; linarith)] at h1
  refine ⟨![Real.cos f, Real.sin f, 0], (1, 0), ![Real.sin f, Real.cos f, Real.sin f], hl, ?_, ?_⟩
  · have h1 : normalizeLine t ![- Real.sin f, Real.cos f, Real.sin f] = .ok ![Real.sin f, Real.cos f, Real.sin f] := by
      rw [h1]; simp
    unfold orthogLine lineOfValues
    simp only [Matrix.cons_val_zero, Matrix.cons_val_one, mul_one, mul_zero, sub_zero]
    rw [h1]
    exact normalizeLine_idem (normalizeLine_norm h1)
  · simp [On]; linarith

/-- The hypotheses hold for an ordinary line and the default thresholds. -/
example : UnitNormal ![3/5, -4/5, 2] ∧ stdR.nullDenom ≤ |(![3/5, -4/5, 2] : V3 ℝ) 1| ∧ stdR.nullAngleValue ≤ Real.pi / 2 ∧
    stdR.nullDistance ≤ lineDist ![3/5, -4/5, 2] (0, 0) := by
  have h : UnitNormal ![3/5, -4/5, 2] := by norm_num [UnitNormal]
  refine ⟨h, ?_, ?_, ?_⟩
  · norm_num [stdR, abs_of_neg]
  · have := Real.two_le_pi; simp only [stdR]; linarith
  · rw [lineDist_unit h]; simp [stdR]; norm_num

/-! ## C07 -/

/-- **C07.** For a point of the line, the two points are on the line, at the distance asked for, the given point is their middle, and they are ordered.
For a point farther than the null distance, the call is refused. -/
theorem C07_points (t : Thr ℝ) (ht : 0 ≤ t.nullDistance) (l : V3 ℝ) (hl : Proper l) (p : Pt ℝ) (d : ℝ) :
    (getPoints t l p d = .throw ↔ t.nullDistance < lineDist l p) ∧
    (On l p → ∃ a b, getPoints t l p d = .ok (a, b) ∧ On l a ∧ On l b ∧ eucl p a = |d| ∧ eucl p b = |d| ∧
      a.1 + b.1 = 2 * p.1 ∧ a.2 + b.2 = 2 * p.2 ∧ ¬ LexLt b a) := by
  constructor
  · unfold getPoints; split_ifs with h
    · simpa using h
    · simpa using h
  · intro hp
    have h0 := (lineDist_eq_zero hl p).2 hp
    have hr : getPoints t l p d = .ok (getPointsB2 l p d) := by
      unfold getPoints; rw [if_neg]; rw [h0]; exact not_lt.2 ht
    obtain ⟨h1, h2⟩ := fixOrder_spec (p.1 - l 1 * (d / Real.sqrt (l 0 * l 0 + l 1 * l 1)), p.2 + l 0 * (d / Real.sqrt (l 0 * l 0 + l 1 * l 1)))
      (p.1 + l 1 * (d / Real.sqrt (l 0 * l 0 + l 1 * l 1)), p.2 - l 0 * (d / Real.sqrt (l 0 * l 0 + l 1 * l 1)))
    refine ⟨(getPointsB2 l p d).1, (getPointsB2 l p d).2, hr, ?_⟩
    unfold getPointsB2
    simp only
    have hs := Real.sq_sqrt (norm2_nonneg l)
    have hs0 : Real.sqrt (l 0 * l 0 + l 1 * l 1) ≠ 0 := (Real.sqrt_pos.2 (proper_norm2 hl)).ne'
    generalize Real.sqrt (l 0 * l 0 + l 1 * l 1) = s at *
    have hc : (d / s) ^ 2 * (l 0 * l 0 + l 1 * l 1) = d ^ 2 := by rw [← hs]; field_simp
    generalize d / s = c at *
    have o1 : On l (p.1 - l 1 * c, p.2 + l 0 * c) := by unfold On at *; simp only; linear_combination hp
    have o2 : On l (p.1 + l 1 * c, p.2 - l 0 * c) := by unfold On at *; simp only; linear_combination hp
    have d1 : eucl p (p.1 - l 1 * c, p.2 + l 0 * c) = |d| := by
      rw [eucl_eq_iff (abs_nonneg _), sq_abs]; simp only; linear_combination hc
    have d2 : eucl p (p.1 + l 1 * c, p.2 - l 0 * c) = |d| := by
      rw [eucl_eq_iff (abs_nonneg _), sq_abs]; simp only; linear_combination hc
    rcases h1 with h1 | h1
    · rw [h1] at h2 ⊢
      exact ⟨o1, o2, d1, d2, by simp only; ring, by simp only; ring, h2⟩
    · rw [h1] at h2 ⊢
      exact ⟨o2, o1, d2, d1, by simp only; ring, by simp only; ring, h2⟩

example : On ![3, 4, -10] (2, 1) ∧ Proper ![3, 4, -10] := by
  refine ⟨?_, by norm_num [Proper]⟩
  simp [On]; norm_num

/-! ## C08 -/

/-- **C08.** Intersection of a line and a circle: none is reported exactly when no point of the line is at distance `r` of the center.
Otherwise both points are common points, there is no other common point, and they are ordered. -/
theorem C08_circle (l : V3 ℝ) (hl : Proper l) (c : Pt ℝ) (r : ℝ) (hr : 0 ≤ r) :
    (lineCircle l c r = none ↔ ¬ ∃ q, On l q ∧ eucl q c = r) ∧
    (∀ a b, lineCircle l c r = some (a, b) → On l a ∧ On l b ∧ eucl a c = r ∧ eucl b c = r ∧ ¬ LexLt b a ∧
      ∀ q, On l q → eucl q c = r → q = a ∨ q = b) := by
  have hn := proper_norm2 hl
  have hn2 : l 0 ^ 2 + l 1 ^ 2 ≠ 0 := hl
  have hd0 : |c.1 * l 0 + c.2 * l 1 + l 2| / Real.sqrt (l 0 * l 0 + l 1 * l 1) = lineDist l c := by
    unfold lineDist; congr 2; ring
  have hsq := lineDist_sq hl c
  have key : ∀ q, On l q → eucl q c = r → lineDist l c ≤ r := by
    intro q hq he; rw [← he, eucl_comm]; exact lineDist_le hl c q hq
  unfold lineCircle
  simp only [hd0]
  by_cases hlt : r < lineDist l c
  · simp only [hlt, if_true, true_iff]
    refine ⟨?_, by simp⟩
    rintro ⟨q, hq, he⟩
    exact absurd (key q hq he) (not_le.2 hlt)
  · simp only [hlt, if_false]
    have hle := not_lt.1 hlt
    have hm0 : 0 ≤ (r * r - lineDist l c * lineDist l c) / (l 0 * l 0 + l 1 * l 1) := by
      apply div_nonneg _ hn.le
      have := lineDist_nonneg l c
      nlinarith
    have hmsq := Real.sq_sqrt hm0
    generalize Real.sqrt ((r * r - lineDist l c * lineDist l c) / (l 0 * l 0 + l 1 * l 1)) = m at *
    have hm : m ^ 2 * (l 0 ^ 2 + l 1 ^ 2) ^ 2 = r ^ 2 * (l 0 ^ 2 + l 1 ^ 2) - (l 0 * c.1 + l 1 * c.2 + l 2) ^ 2 := by
      rw [hmsq, ← hsq]; field_simp
    have on : ∀ s : ℝ, On l (- l 0 * (c.1 * l 0 + c.2 * l 1 + l 2) / (l 0 * l 0 + l 1 * l 1) + s * l 1 + c.1,
        - l 1 * (c.1 * l 0 + c.2 * l 1 + l 2) / (l 0 * l 0 + l 1 * l 1) - s * l 0 + c.2) := by
      intro s; unfold On; simp only; field_simp; ring
    have di : ∀ s : ℝ, s ^ 2 = m ^ 2 → eucl (- l 0 * (c.1 * l 0 + c.2 * l 1 + l 2) / (l 0 * l 0 + l 1 * l 1) + s * l 1 + c.1,
        - l 1 * (c.1 * l 0 + c.2 * l 1 + l 2) / (l 0 * l 0 + l 1 * l 1) - s * l 0 + c.2) c = r := by
      intro s hs
      rw [eucl_eq_iff hr]; simp only
      have hP : (l 0 ^ 2 + l 1 ^ 2) ^ 2 ≠ 0 := pow_ne_zero 2 hn2
      field_simp
      linear_combination (l 0 ^ 2 + l 1 ^ 2) * hm + (l 0 ^ 2 + l 1 ^ 2) ^ 3 * hs
    have all : ∀ q : Pt ℝ, On l q → eucl q c = r → ∃ s : ℝ, s ^ 2 = m ^ 2 ∧ q = (- l 0 * (c.1 * l 0 + c.2 * l 1 + l 2) / (l 0 * l 0 + l 1 * l 1) + s * l 1 + c.1,
        - l 1 * (c.1 * l 0 + c.2 * l 1 + l 2) / (l 0 * l 0 + l 1 * l 1) - s * l 0 + c.2) := by
      intro q hq he
      rw [eucl_eq_iff hr] at he
      have hq' : l 2 = - (l 0 * q.1 + l 1 * q.2) := by unfold On at hq; linarith
      refine ⟨(l 1 * (q.1 - c.1) - l 0 * (q.2 - c.2)) / (l 0 ^ 2 + l 1 ^ 2), ?_, Prod.ext ?_ ?_⟩
      · have hP : (l 0 ^ 2 + l 1 ^ 2) ^ 2 ≠ 0 := pow_ne_zero 2 hn2
        apply mul_right_cancel₀ hP
        rw [hm, hq', ← he]; field_simp; ring
      · simp only; rw [hq']; field_simp; ring
      · simp only; rw [hq']; field_simp; ring
    obtain ⟨h1, h2⟩ := fixOrder_spec (- l 0 * (c.1 * l 0 + c.2 * l 1 + l 2) / (l 0 * l 0 + l 1 * l 1) + m * l 1 + c.1,
        - l 1 * (c.1 * l 0 + c.2 * l 1 + l 2) / (l 0 * l 0 + l 1 * l 1) - m * l 0 + c.2)
        (- l 0 * (c.1 * l 0 + c.2 * l 1 + l 2) / (l 0 * l 0 + l 1 * l 1) - m * l 1 + c.1,
        - l 1 * (c.1 * l 0 + c.2 * l 1 + l 2) / (l 0 * l 0 + l 1 * l 1) + m * l 0 + c.2)
    have e2 : (- l 0 * (c.1 * l 0 + c.2 * l 1 + l 2) / (l 0 * l 0 + l 1 * l 1) - m * l 1 + c.1,
        - l 1 * (c.1 * l 0 + c.2 * l 1 + l 2) / (l 0 * l 0 + l 1 * l 1) + m * l 0 + c.2) =
        (- l 0 * (c.1 * l 0 + c.2 * l 1 + l 2) / (l 0 * l 0 + l 1 * l 1) + (- m) * l 1 + c.1,
        - l 1 * (c.1 * l 0 + c.2 * l 1 + l 2) / (l 0 * l 0 + l 1 * l 1) - (- m) * l 0 + c.2) :=
      Prod.ext (by simp only; ring) (by simp only; ring)
    have on1 := on m
    have on2 := on (-m)
    have di1 := di m rfl
    have di2 := di (-m) (by ring)
    have all' : ∀ q : Pt ℝ, On l q → eucl q c = r → q = (- l 0 * (c.1 * l 0 + c.2 * l 1 + l 2) / (l 0 * l 0 + l 1 * l 1) + m * l 1 + c.1,
        - l 1 * (c.1 * l 0 + c.2 * l 1 + l 2) / (l 0 * l 0 + l 1 * l 1) - m * l 0 + c.2) ∨
        q = (- l 0 * (c.1 * l 0 + c.2 * l 1 + l 2) / (l 0 * l 0 + l 1 * l 1) + (- m) * l 1 + c.1,
        - l 1 * (c.1 * l 0 + c.2 * l 1 + l 2) / (l 0 * l 0 + l 1 * l 1) - (- m) * l 0 + c.2) := by
      intro q hq he
      obtain ⟨s, hs, hq'⟩ := all q hq he
      rcases sq_eq_sq_iff_eq_or_eq_neg.1 hs with h | h <;> rw [h] at hq'
      · left; exact hq'
      · right; exact hq'
    rw [e2] at h1 h2 ⊢
    clear on di all e2
    generalize (- l 0 * (c.1 * l 0 + c.2 * l 1 + l 2) / (l 0 * l 0 + l 1 * l 1) + m * l 1 + c.1,
        - l 1 * (c.1 * l 0 + c.2 * l 1 + l 2) / (l 0 * l 0 + l 1 * l 1) - m * l 0 + c.2) = A at *
    generalize (- l 0 * (c.1 * l 0 + c.2 * l 1 + l 2) / (l 0 * l 0 + l 1 * l 1) + (- m) * l 1 + c.1,
        - l 1 * (c.1 * l 0 + c.2 * l 1 + l 2) / (l 0 * l 0 + l 1 * l 1) - (- m) * l 0 + c.2) = B at *
    refine ⟨?_, ?_⟩
    · simp only [reduceCtorEq, false_iff, not_not]
      exact ⟨_, on1, di1⟩
    · intro a b hab
      simp only [Option.some.injEq] at hab
      rw [hab] at h1 h2
      rcases h1 with h1 | h1
      · cases h1
        exact ⟨on1, on2, di1, di2, h2, all'⟩
      · cases h1
        exact ⟨on2, on1, di2, di1, h2, fun q hq he => (all' q hq he).symm⟩

example : Proper (lineV 3) ∧ On (lineV 3) (3, 4) ∧ eucl (3, 4) (0, 0) = 5 := by
  refine ⟨by simp [Proper, lineV], by simp [On, lineV], ?_⟩
  rw [eucl_eq_iff (by norm_num)]; norm_num

/-! ## C09 -/

/-- **C09.** The angle between two lines. -/
theorem C09_angle (l m : V3 ℝ) (hl : Proper l) (hm : Proper m) :
    (0 ≤ angleCos l m ∧ angleCos l m ≤ 1) ∧ 0 ≤ lineAngle l m ∧ lineAngle l m ≤ Real.pi / 2 ∧
    lineAngle l m = lineAngle m l ∧ lineAngle l l = 0 ∧
    (lineAngle l m = Real.pi / 2 ↔ Perp l m) ∧ (lineAngle l m = 0 ↔ SameDir l m) ∧
    Real.cos (lineAngle l m) * Real.sqrt (l 0 ^ 2 + l 1 ^ 2) * Real.sqrt (m 0 ^ 2 + m 1 ^ 2) = |l 0 * m 0 + l 1 * m 1| := by
  refine ⟨⟨angleCos_nonneg l m, angleCos_le_one l m⟩, ?_, ?_, lineAngle_comm l m, ?_, lineAngle_pi_div_two hl hm, lineAngle_zero hl hm, ?_⟩
  · rw [lineAngle_eq]; exact Real.arccos_nonneg _
  · rw [lineAngle_eq, Real.arccos_le_pi_div_two]; exact angleCos_nonneg l m
  · exact (lineAngle_zero hl hl).2 (by unfold SameDir; ring)
  · rw [lineAngle_eq, Real.cos_arccos (by linarith [angleCos_nonneg l m]) (angleCos_le_one l m), mul_assoc,
      ← Real.sqrt_mul (by positivity)]
    unfold angleCos
    rw [abs_div, abs_of_nonneg (Real.sqrt_nonneg _)]
    rw [show (l 0 * l 0 + l 1 * l 1) * (m 0 * m 0 + m 1 * m 1) = (l 0 ^ 2 + l 1 ^ 2) * (m 0 ^ 2 + m 1 ^ 2) by ring]
    have : Real.sqrt ((l 0 ^ 2 + l 1 ^ 2) * (m 0 ^ 2 + m 1 ^ 2)) ≠ 0 := by
      apply (Real.sqrt_pos.2 _).ne'
      have a := proper_norm2 hl; have b := proper_norm2 hm
      have := mul_pos a b
      calc _ < _ := this
        _ = _ := by ring
    field_simp

example : Proper ![3, 4, -10] ∧ Proper (lineV 3) ∧ Perp (lineV 3) (lineH 2) ∧ ¬ SameDir ![3, 4, -10] (lineV 3) := by
  refine ⟨by norm_num [Proper], by simp [Proper, lineV], by simp [Perp, lineV, lineH], by simp [SameDir, lineV]⟩

/-! ## C10 -/

/-- **C10, order.** `operator <` on points is a strict total order of locations. Only the coordinates and their order matter, so this is valid for
floating point coordinates as well. -/
theorem C10_order {K : Type} [LinearOrder K] (p q r : Pt K) :
    ptLt p p = false ∧ (ptLt p q = true → ptLt q p = false) ∧ (ptLt p q = true → ptLt q r = true → ptLt p r = true) ∧
    (p ≠ q → ptLt p q = true ∨ ptLt q p = true) ∧ (ptLt p q = true ↔ p.1 < q.1 ∨ (p.1 = q.1 ∧ p.2 < q.2)) := by
  refine ⟨by simp [ptLt], fun h => ?_, fun h1 h2 => ?_, fun h => ?_, ptLt_iff p q⟩
  · rw [← Bool.not_eq_true, ptLt_iff]
    rw [ptLt_iff] at h
    unfold LexLt at *; grind
  · rw [ptLt_iff] at *
    unfold LexLt at *; grind
  · by_contra hn
    push Not at hn
    exact h (ptLt_total (by simpa using hn.1) (by simpa using hn.2))

/-- **C10, equality.** Points are equal when closer than the threshold; this is reflexive and symmetric. -/
theorem C10_equality (t : Thr ℝ) (ht : 0 < t.nullDistance) (p q : Pt ℝ) :
    PtEq t p p ∧ (PtEq t p q ↔ PtEq t q p) ∧ (PtEq t p q ↔ eucl p q < t.nullDistance) := by
  simp only [PtEq, ptDist_eucl, eucl_self, ht, true_and, and_true]
  rw [eucl_comm]

/-- **C10, remark.** This equality is not transitive, whatever the threshold. -/
theorem C10_not_transitive (t : Thr ℝ) (ht : 0 < t.nullDistance) : ∃ p q r : Pt ℝ, PtEq t p q ∧ PtEq t q r ∧ ¬ PtEq t p r := by
  refine ⟨(0, 0), (3 / 4 * t.nullDistance, 0), (3 / 2 * t.nullDistance, 0), ?_, ?_, ?_⟩
  · rw [PtEq, ptDist_eucl, eucl_lt_iff ht]; simp only; nlinarith
  · rw [PtEq, ptDist_eucl, eucl_lt_iff ht]; simp only; nlinarith
  · rw [PtEq, ptDist_eucl, eucl_lt_iff ht]; simp only; nlinarith

example : ptLt ((1, 5) : Pt ℝ) (2, 3) = true ∧ ptLt ((2, 1) : Pt ℝ) (2, 3) = true ∧ PtEq stdR (1, 1) (1, 1) := by
  refine ⟨by norm_num [ptLt], by norm_num [ptLt], (C10_equality stdR (by norm_num [stdR]) _ (0, 0)).1⟩

/-! ## C60 -/

/-- **C60 (partial).** Two lines (as stored by the library) that compare equal are close: a point of the first one is at a distance from the second
at most the null distance plus the angle threshold times its distance to the origin. Missing: pairs of lines both nearly horizontal,
leaning on different sides; the claim is false for them, see `C60_false`. -/
theorem C60_close_partial (t : Thr ℝ) (l m : V3 ℝ) (hl : NormLine t l) (hm : NormLine t m) (h : LineEq t l m)
    (hs : t.nullAngleValue ≤ l 0 ∨ 0 ≤ l 1 * m 1) (p : Pt ℝ) (hp : On l p) :
    lineDist m p ≤ t.nullAngleValue * eucl p (0, 0) + t.nullDistance := by
  obtain ⟨h1, h2⟩ := h
  have h2 := not_lt.1 h2
  have ha0 : 0 ≤ lineAngle l m := by rw [lineAngle_eq]; exact Real.arccos_nonneg _
  have hdot : 0 ≤ l 0 * m 0 + l 1 * m 1 := by
    rcases hs with hs | hs
    · by_contra hneg
      have hc := normal_close hl.1 hm.1 (-1) (Or.inr rfl) (by linarith)
      have hb : (l 0 - -1 * m 0) ^ 2 < t.nullAngleValue ^ 2 := by
        have : lineAngle l m ^ 2 < t.nullAngleValue ^ 2 := pow_lt_pow_left₀ h1 ha0 two_ne_zero
        nlinarith [sq_nonneg (l 1 - -1 * m 1)]
      have : l 0 - -1 * m 0 < t.nullAngleValue := lt_of_pow_lt_pow_left₀ 2 (by linarith [h1]) hb
      linarith [hm.2.1]
    · have := mul_nonneg hl.2.1 hm.2.1; linarith
  have hc := normal_close hl.1 hm.1 1 (Or.inl rfl) (by linarith)
  simp only [one_mul] at hc
  rw [lineDist_unit hm.1]
  have hp' : l 0 * p.1 + l 1 * p.2 + l 2 = 0 := hp
  have e : m 0 * p.1 + m 1 * p.2 + m 2 = - ((l 0 - m 0) * p.1 + (l 1 - m 1) * p.2) - (l 2 - m 2) := by linarith
  have hcs : |(l 0 - m 0) * p.1 + (l 1 - m 1) * p.2| ≤ lineAngle l m * eucl p (0, 0) := by
    apply abs_le_of_sq_le_sq _ (mul_nonneg ha0 (eucl_nonneg _ _))
    rw [mul_pow, eucl_sq]; simp only [sub_zero]
    calc ((l 0 - m 0) * p.1 + (l 1 - m 1) * p.2) ^ 2 ≤ ((l 0 - m 0) ^ 2 + (l 1 - m 1) ^ 2) * (p.1 ^ 2 + p.2 ^ 2) := by
          nlinarith [sq_nonneg ((l 0 - m 0) * p.2 - (l 1 - m 1) * p.1)]
      _ ≤ _ := mul_le_mul_of_nonneg_right hc (by positivity)
  have hle : lineAngle l m * eucl p (0, 0) ≤ t.nullAngleValue * eucl p (0, 0) := mul_le_mul_of_nonneg_right h1.le (eucl_nonneg _ _)
  rw [e]
  calc |- ((l 0 - m 0) * p.1 + (l 1 - m 1) * p.2) - (l 2 - m 2)|
      ≤ |- ((l 0 - m 0) * p.1 + (l 1 - m 1) * p.2)| + |l 2 - m 2| := abs_sub _ _
    _ ≤ _ := by rw [abs_neg]; linarith

/-- **C60, two constructions.** Two normalisations of proportional values give the same line, and they compare equal; the comparison is symmetric. -/
theorem C60_same (t : Thr ℝ) (hd : 0 < t.nullDenom) (ht : 0 < t.nullAngleValue) (hn : 0 ≤ t.nullDistance) (v v' l l' : V3 ℝ)
    (h : normalizeLine t v = .ok l) (h' : normalizeLine t v' = .ok l') (hs : SameLoc v v') :
    l = l' ∧ LineEq t l l' ∧ ∀ m, LineEq t l m ↔ LineEq t m l := by
  have e := normalizeLine_scale hd h h' hs
  subst e
  refine ⟨rfl, ⟨?_, ?_⟩, fun m => ?_⟩
  · have hp := (normalizeLine_norm h).1.proper
    rw [IsParallel, (lineAngle_zero hp hp).2 (by unfold SameDir; ring)]; exact ht
  · simpa using hn
  · simp only [LineEq, IsParallel, lineAngle_comm l m, abs_sub_comm (l 2) (m 2)]

/-- **C60 is false** in general: lines that are nearly horizontal and lean on different sides compare equal although they are as far apart as wanted. -/
theorem C60_false (t : Thr ℝ) (h4 : 4 * t.nullDenom ≤ t.nullAngleValue) (h1 : t.nullAngleValue ≤ 1) (h0 : 0 < t.nullAngleValue)
    (hn : 0 ≤ t.nullDistance) (D : ℝ) (hD : 0 ≤ D) :
    ∃ l m, NormLine t l ∧ NormLine t m ∧ LineEq t l m ∧ ∃ p, On l p ∧ D ≤ lineDist m p := by
  set f := t.nullAngleValue / 3 with hf
  have hf0 : 0 < f := by linarith
  have hpi := Real.two_le_pi
  have hc : 1 / 2 ≤ Real.cos f := by
    have := Real.one_sub_sq_div_two_le_cos (x := f); nlinarith
  have hs : t.nullDenom ≤ Real.sin f := by
    have := Real.sin_gt_sub_cube hf0
    have hf3 : f ≤ 1 / 3 := by linarith
    have : f ^ 2 ≤ 1 / 9 := by nlinarith
    nlinarith
  have hs0 : 0 < Real.sin f := Real.sin_pos_of_pos_of_lt_pi hf0 (by linarith)
  have hcs := Real.cos_sq_add_sin_sq f
  have hsc : Real.sin f ≤ Real.cos f := by
    have := Real.sin_lt hf0
    have : f ≤ 1 / 3 := by linarith
    linarith
  have hl : UnitNormal ![Real.sin f, - Real.cos f, D] := by simp [UnitNormal]
  have hm : UnitNormal ![Real.sin f, Real.cos f, D] := by simp [UnitNormal]
  refine ⟨_, _, ⟨hl, ?_, ?_⟩, ⟨hm, ?_, ?_⟩, ⟨?_, ?_⟩, (0, D / Real.cos f), ?_, ?_⟩
  · simp; exact hs0.le
  · simp; intro; linarith
  · simp; exact hs0.le
  · simp; intro; linarith
  · rw [IsParallel, lineAngle_cos hl hm (a := 2 * f) (by linarith) (by linarith)]
    · linarith
    · rw [Real.cos_two_mul']
      simp only [Matrix.cons_val_zero, Matrix.cons_val_one]
      rw [abs_of_nonpos]
      · ring
      · nlinarith
  · simpa using hn
  · simp [On]; field_simp; ring
  · rw [lineDist_unit hm]
    simp only [Matrix.cons_val_zero, Matrix.cons_val_one, Matrix.cons_val]
    have : Real.cos f ≠ 0 := by linarith
    rw [show Real.sin f * 0 + Real.cos f * (D / Real.cos f) + D = D + D by field_simp; ring, abs_of_nonneg (by linarith)]
    linarith

/-- The default thresholds are in the range of `C60_false`. -/
example : 4 * stdR.nullDenom ≤ stdR.nullAngleValue ∧ stdR.nullAngleValue ≤ 1 ∧ 0 < stdR.nullAngleValue ∧ 0 ≤ stdR.nullDistance := by
  norm_num [stdR]

/-- An ordinary line meets the hypotheses of the partial theorem. -/
example : NormLine stdR ![3/5, -4/5, 2] ∧ stdR.nullAngleValue ≤ (![3/5, -4/5, 2] : V3 ℝ) 0 ∧ LineEq stdR ![3/5, -4/5, 2] ![3/5, -4/5, 2] := by
  have h : NormLine stdR ![3/5, -4/5, 2] := by
    refine ⟨by norm_num [UnitNormal], by norm_num, ?_⟩
    intro h; norm_num [stdR] at h
  refine ⟨h, by norm_num [stdR], ?_⟩
  exact (C60_same stdR (by norm_num [stdR]) (by norm_num [stdR]) (by norm_num [stdR]) _ _ _ _ (normalizeLine_idem h) (normalizeLine_idem h)
    (SameLoc.refl _)).2.1

/-! ## C64: side of a line -/

/-- **C64.** `side()` is 0 exactly at less than the null distance of the line. Two points with opposite non-null sides are separated by the line:
it meets the segment between them, at a point that is none of them. Two points with the same non-null side are not: no point of the segment between them
is on the line. -/
theorem C64_side (t : Thr ℝ) (ht : 0 < t.nullDistance) (l : V3 ℝ) (hl : UnitNormal l) (p q : Pt ℝ) :
    (lineSide t p l = 0 ↔ lineDist l p < t.nullDistance) ∧
    (lineSide t p l * lineSide t q l = -1 → ∃ s : ℝ, 0 < s ∧ s < 1 ∧ On l (p.1 + s * (q.1 - p.1), p.2 + s * (q.2 - p.2))) ∧
    (lineSide t p l * lineSide t q l = 1 → ∀ s : ℝ, 0 ≤ s → s ≤ 1 → ¬ On l (p.1 + s * (q.1 - p.1), p.2 + s * (q.2 - p.2))) := by
  have cases : ∀ p : Pt ℝ, (lineSide t p l = 0 ∧ |l 0 * p.1 + l 1 * p.2 + l 2| < t.nullDistance) ∨
      (lineSide t p l = -1 ∧ l 0 * p.1 + l 1 * p.2 + l 2 < 0 ∧ ¬ |l 0 * p.1 + l 1 * p.2 + l 2| < t.nullDistance) ∨
      (lineSide t p l = 1 ∧ 0 < l 0 * p.1 + l 1 * p.2 + l 2 ∧ ¬ |l 0 * p.1 + l 1 * p.2 + l 2| < t.nullDistance) := by
    intro p
    simp only [lineSide]
    by_cases h : |l 0 * p.1 + l 1 * p.2 + l 2| < t.nullDistance
    · left; simp [h]
    · by_cases h2 : l 0 * p.1 + l 1 * p.2 + l 2 < 0
      · right; left; simp [h, h2]
      · right; right; simp only [h, h2, if_false, not_false_eq_true, and_true, true_and]
        rcases eq_or_lt_of_le (not_lt.1 h2) with h3 | h3
        · rw [← h3] at h; simp at h; linarith
        · exact h3
  have e : ∀ s : ℝ, l 0 * (p.1 + s * (q.1 - p.1)) + l 1 * (p.2 + s * (q.2 - p.2)) + l 2 =
      (1 - s) * (l 0 * p.1 + l 1 * p.2 + l 2) + s * (l 0 * q.1 + l 1 * q.2 + l 2) := by intro s; ring
  have hp := cases p
  have hq := cases q
  rw [lineDist_unit hl]
  simp only [On, e]
  generalize l 0 * p.1 + l 1 * p.2 + l 2 = dp at *
  generalize l 0 * q.1 + l 1 * q.2 + l 2 = dq at *
  refine ⟨?_, ?_, ?_⟩
  · rcases hp with ⟨a, b⟩ | ⟨a, b, c⟩ | ⟨a, b, c⟩ <;> simp [a] <;> grind
  · intro h
    have h0 : dp * dq < 0 := by
      rcases hp with ⟨a, b⟩ | ⟨a, b, -⟩ | ⟨a, b, -⟩ <;> rcases hq with ⟨a', b'⟩ | ⟨a', b', -⟩ | ⟨a', b', -⟩ <;>
        rw [a, a'] at h <;> first | omega | nlinarith
    have hne : dp - dq ≠ 0 := by intro h1; rw [sub_eq_zero.1 h1] at h0; nlinarith [mul_self_nonneg dq]
    refine ⟨dp / (dp - dq), ?_, ?_, ?_⟩
    · rw [show dp / (dp - dq) = (dp * (dp - dq)) / (dp - dq) ^ 2 by field_simp]
      apply div_pos
      · nlinarith [mul_self_nonneg dp]
      · positivity
    · have : 1 - dp / (dp - dq) = (- dq * (dp - dq)) / (dp - dq) ^ 2 := by field_simp; ring
      have : 0 < 1 - dp / (dp - dq) := by
        rw [this]; apply div_pos
        · nlinarith [mul_self_nonneg dq]
        · positivity
      linarith
    · field_simp; ring
  · intro h s hs0 hs1
    have h0 : (dp < 0 ∧ dq < 0) ∨ (0 < dp ∧ 0 < dq) := by
      rcases hp with ⟨a, b⟩ | ⟨a, b, -⟩ | ⟨a, b, -⟩ <;> rcases hq with ⟨a', b'⟩ | ⟨a', b', -⟩ | ⟨a', b', -⟩ <;>
        rw [a, a'] at h <;> first | omega | (left; exact ⟨b, b'⟩) | (right; exact ⟨b, b'⟩)
    rcases h0 with ⟨a, b⟩ | ⟨a, b⟩
    · intro h1
      rcases eq_or_lt_of_le hs0 with h2 | h2
      · rw [← h2] at h1; linarith
      · nlinarith
    · intro h1
      rcases eq_or_lt_of_le hs0 with h2 | h2
      · rw [← h2] at h1; linarith
      · nlinarith

example : UnitNormal (lineV 3) ∧ lineSide stdR (1, 1) (lineV 3) * lineSide stdR (5, 2) (lineV 3) = -1 ∧
    lineSide stdR (1, 1) (lineV 3) * lineSide stdR (2, 2) (lineV 3) = 1 := by
  refine ⟨by simp [UnitNormal, lineV], ?_, ?_⟩ <;> simp [lineSide, lineV, stdR] <;> norm_num [abs_of_neg]

/-! ## C65: coordinate of a point of a line -/

/-- **C65.** `getCoord` gives the second coordinate of the only point of the line having the given first coordinate (x or y); it is refused exactly when
the coefficient to divide by is below the threshold. -/
theorem C65_coord (t : Thr ℝ) (ht : 0 < t.nullDenom) (l : V3 ℝ) (v : ℝ) :
    (lineCoord t l true v = .throw ↔ |l 1| < t.nullDenom) ∧ (lineCoord t l false v = .throw ↔ |l 0| < t.nullDenom) ∧
    (∀ w, lineCoord t l true v = .ok w → ∀ y, On l (v, y) ↔ y = w) ∧
    (∀ w, lineCoord t l false v = .ok w → ∀ x, On l (x, v) ↔ x = w) := by
  have key : ∀ a b c w : ℝ, b ≠ 0 → w = (- a * v - c) / b → ∀ y, a * v + b * y + c = 0 ↔ y = w := by
    rintro a b c w hb rfl y
    rw [eq_div_iff hb]
    constructor <;> intro h <;> linarith
  refine ⟨?_, ?_, ?_, ?_⟩
  · simp only [lineCoord, if_true]; split_ifs with h <;> simp [h]
  · simp only [lineCoord, Bool.false_eq_true, if_false]; split_ifs with h <;> simp [h]
  · intro w hw
    simp only [lineCoord, if_true] at hw
    split_ifs at hw with h
    cases hw
    have hb : l 1 ≠ 0 := by intro h0; rw [h0] at h; simp at h; linarith
    exact key _ _ _ _ hb rfl
  · intro w hw
    simp only [lineCoord, Bool.false_eq_true, if_false] at hw
    split_ifs at hw with h
    cases hw
    have hb : l 0 ≠ 0 := by intro h0; rw [h0] at h; simp at h; linarith
    intro x
    have := key (l 1) (l 0) (l 2) _ hb rfl x
    unfold On; simp only
    rw [← this]; constructor <;> intro h <;> linarith

example : ∃ w, lineCoord stdR ![3/5, -4/5, 2] true 1 = .ok w := by
  refine ⟨(- (3/5) * 1 - 2) / (-4/5), ?_⟩
  simp [lineCoord, stdR]; norm_num [abs_of_neg]

end H2d.Props
