import Verif.Lemmas.LineOps
import Verif.Spec.Segment

/-!
# Lemmas on segments
-/

set_option linter.unusedSectionVars false
set_option linter.unusedSimpArgs false

namespace H2d

open H2d.Spec

theorem getXY_mkPt (x y : ℝ) : getXY (mkPt x y) = (x, y) := by simp [getXY, mkPt]
theorem isFin_mkPt (x y : ℝ) : IsFin (mkPt x y) := by simp [IsFin, mkPt]

theorem onLine_mkPt (l : V3 ℝ) (p : Pt ℝ) : OnLine l (mkPt p.1 p.2) ↔ On l p := by simp [OnLine, On, mkPt]

/-- The supporting line. -/
theorem segLine_spec {t : Thr ℝ} (he : dblEps < t.nullDistance) {a b : Pt ℝ} (hne : t.nullDistance ≤ eucl a b) :
    ∃ l, segLine t (a, b) = .ok l ∧ NormLine t l ∧ l 0 = |a.2 - b.2| / eucl a b ∧
      (GoodSlope t a b → On l a ∧ On l b) := by
  have hp := isFin_mkPt a.1 a.2
  have hq := isFin_mkPt b.1 b.2
  have e3 := crossProd_norm hp hq
  rw [getXY_mkPt, getXY_mkPt] at e3
  have e4 : |mkPt a.1 a.2 2 * mkPt b.1 b.2 2| = 1 := by simp [mkPt]
  rw [e4, one_mul] at e3
  obtain ⟨r, e5⟩ : ∃ r, normalizeLine t (crossProd (mkPt a.1 a.2) (mkPt b.1 b.2)) = .ok r :=
    ⟨_, normalizeLine_eq t _ (by rw [e3]; exact lt_of_lt_of_le he hne)⟩
  have hz := normalizeLine_zero e5
  have hd : 0 < eucl a b := by linarith [dblEps_pos]
  rw [e3, crossProd_zero hp hq, e4, one_mul, getXY_mkPt, getXY_mkPt] at hz
  refine ⟨r, ?_, normalizeLine_norm e5, hz, fun hs => ?_⟩
  · unfold segLine lineOfPts
    rw [getXY_mkPt, getXY_mkPt, if_neg (by rw [PtEq, ptDist_eucl]; exact not_lt.2 hne), e5]
  · have hb : r 0 = 0 ∨ t.nullDenom ≤ r 0 := by
      rcases hs with hs | hs
      · left; rw [hs] at hz; simpa using hz
      · right; rw [hz, le_div_iff₀ hd]; exact hs
    have hsame := normalizeLine_same e5 hb
    rw [← onLine_mkPt, ← onLine_mkPt]
    exact ⟨(OnLine_sameLine hsame).1 (crossProd_inc1 _ _), (OnLine_sameLine hsame).1 (crossProd_inc2 _ _)⟩

theorem on_along {l : V3 ℝ} {s : Seg} (ha : On l s.1) (hb : On l s.2) (k : ℝ) : On l (along s k) := by
  unfold On along at *; simp only; linear_combination (1 - k) * ha + k * hb

/-- Points of the supporting line. -/
theorem on_line_param {l : V3 ℝ} (hl : UnitNormal l) {s : Seg} (hne : s.1 ≠ s.2) (ha : On l s.1) (hb : On l s.2) {p : Pt ℝ} (hp : On l p) :
    ∃ k, p = along s k := by
  have hd : eucl s.1 s.2 ≠ 0 := fun h => hne (eucl_eq_zero.1 h)
  have hd2 : (s.2.1 - s.1.1) ^ 2 + (s.2.2 - s.1.2) ^ 2 ≠ 0 := by
    have := pow_ne_zero 2 hd
    rw [eucl_sq] at this
    intro h; apply this; linarith
  unfold On at ha hb hp
  have hl' : l 0 ^ 2 + l 1 ^ 2 = 1 := hl
  have hc : (p.1 - s.1.1) * (s.2.2 - s.1.2) - (p.2 - s.1.2) * (s.2.1 - s.1.1) = 0 := by
    have h1 : l 0 * (p.1 - s.1.1) + l 1 * (p.2 - s.1.2) = 0 := by linarith
    have h2 : l 0 * (s.2.1 - s.1.1) + l 1 * (s.2.2 - s.1.2) = 0 := by linarith
    generalize p.1 - s.1.1 = u1 at *
    generalize p.2 - s.1.2 = u2 at *
    generalize s.2.1 - s.1.1 = v1 at *
    generalize s.2.2 - s.1.2 = v2 at *
    linear_combination (-(u1 * v2 - u2 * v1)) * hl' + (l 0 * v2 - l 1 * v1) * h1 + (l 1 * u1 - l 0 * u2) * h2
  refine ⟨((p.1 - s.1.1) * (s.2.1 - s.1.1) + (p.2 - s.1.2) * (s.2.2 - s.1.2)) / ((s.2.1 - s.1.1) ^ 2 + (s.2.2 - s.1.2) ^ 2), Prod.ext ?_ ?_⟩
  · unfold along; simp only; field_simp
    linear_combination (s.2.2 - s.1.2) * hc
  · unfold along; simp only; field_simp
    linear_combination -(s.2.1 - s.1.1) * hc

theorem eucl_along_left (s : Seg) (k : ℝ) : eucl s.1 (along s k) = |k| * eucl s.1 s.2 := by
  rw [eucl_eq_iff (mul_nonneg (abs_nonneg _) (eucl_nonneg _ _)), mul_pow, sq_abs, eucl_sq]
  unfold along; simp only; ring

theorem eucl_along_right (s : Seg) (k : ℝ) : eucl s.2 (along s k) = |1 - k| * eucl s.1 s.2 := by
  rw [eucl_eq_iff (mul_nonneg (abs_nonneg _) (eucl_nonneg _ _)), mul_pow, sq_abs, eucl_sq]
  unfold along; simp only; ring

theorem eucl_along (s : Seg) (j k : ℝ) : eucl (along s j) (along s k) = |j - k| * eucl s.1 s.2 := by
  rw [eucl_eq_iff (mul_nonneg (abs_nonneg _) (eucl_nonneg _ _)), mul_pow, sq_abs, eucl_sq]
  unfold along; simp only; ring

/-- What the test on the sum of distances means for a point of the supporting line. -/
theorem sum_test {s : Seg} (hd : 0 < eucl s.1 s.2) (k : ℝ) {e : ℝ} :
    |ptDist s.1 (along s k) + ptDist s.2 (along s k) - segLength s| < e ↔
      0 < e ∧ - e < 2 * (k * eucl s.1 s.2) ∧ 2 * ((k - 1) * eucl s.1 s.2) < e := by
  simp only [segLength, ptDist_eucl, eucl_along_left, eucl_along_right]
  generalize eucl s.1 s.2 = L at *
  rw [abs_lt]
  rcases le_total 0 k with h | h <;> rcases le_total k 1 with h' | h'
  · rw [abs_of_nonneg h, abs_of_nonneg (by linarith)]
    have := mul_nonneg h hd.le
    have : (k - 1) * L ≤ 0 := mul_nonpos_of_nonpos_of_nonneg (by linarith) hd.le
    constructor
    · rintro ⟨h1, h2⟩; refine ⟨?_, ?_, ?_⟩ <;> nlinarith
    · rintro ⟨h1, h2, h3⟩; constructor <;> nlinarith
  · rw [abs_of_nonneg h, abs_of_nonpos (by linarith)]
    have := mul_nonneg h hd.le
    have : 0 ≤ (k - 1) * L := mul_nonneg (by linarith) hd.le
    constructor
    · rintro ⟨h1, h2⟩; refine ⟨?_, ?_, ?_⟩ <;> nlinarith
    · rintro ⟨h1, h2, h3⟩; constructor <;> nlinarith
  · rw [abs_of_nonpos h, abs_of_nonneg (by linarith)]
    have : k * L ≤ 0 := mul_nonpos_of_nonpos_of_nonneg h hd.le
    have : (k - 1) * L ≤ 0 := mul_nonpos_of_nonpos_of_nonneg (by linarith) hd.le
    constructor
    · rintro ⟨h1, h2⟩; refine ⟨?_, ?_, ?_⟩ <;> nlinarith
    · rintro ⟨h1, h2, h3⟩; constructor <;> nlinarith
  · linarith

theorem segMake_ok {t : Thr ℝ} {o : Bool} {p q : Pt ℝ} {s : Seg} (h : segMake t o p q = .ok s) :
    t.nullDistance ≤ eucl p q ∧ ((s = (p, q)) ∨ (o = false ∧ s = (q, p))) ∧ (o = false → ¬ LexLt s.2 s.1) := by
  unfold segMake at h
  split_ifs at h with h1 h2
  · cases h
    rw [PtEq, ptDist_eucl] at h1
    exact ⟨not_lt.1 h1, Or.inl rfl, by rw [h2]; simp⟩
  · cases h
    rw [PtEq, ptDist_eucl] at h1
    obtain ⟨h3, h4⟩ := fixOrder_spec p q
    refine ⟨not_lt.1 h1, ?_, fun _ => h4⟩
    rcases h3 with h3 | h3
    · left; exact h3
    · right; exact ⟨by simpa using h2, h3⟩

theorem segMake_eq {t : Thr ℝ} (o : Bool) {p q : Pt ℝ} (h : t.nullDistance ≤ eucl p q) :
    segMake t o p q = .ok (if o then (p, q) else fixOrder p q) := by
  unfold segMake
  rw [if_neg]; rw [PtEq, ptDist_eucl]; exact not_lt.2 h

theorem segMake_throw {t : Thr ℝ} (o : Bool) {p q : Pt ℝ} : segMake t o p q = .throw ↔ eucl p q < t.nullDistance := by
  unfold segMake
  simp only [PtEq, ptDist_eucl]; split_ifs with h <;> simp [h]

theorem fixOrder_of_lt {K : Type} [LinearOrder K] {p q : Pt K} (h : LexLt p q) : fixOrder p q = (p, q) := by
  unfold fixOrder; simp [(ptLt_iff p q).2 h]

theorem fixOrder_comm {K : Type} [LinearOrder K] (p q : Pt K) : fixOrder p q = fixOrder q p := by
  unfold fixOrder
  by_cases h1 : ptLt p q = true
  · have h2 : ptLt q p = false := by
      rw [← Bool.not_eq_true, ptLt_iff]; rw [ptLt_iff] at h1; unfold LexLt at *; grind
    simp [h1, h2]
  · by_cases h2 : ptLt q p = true
    · simp [h1, h2]
    · have : p = q := ptLt_total (by simpa using h1) (by simpa using h2)
      rw [this]

/-- The direction of a line through two points, from its unit normal. -/
theorem unit_dir {l : V3 ℝ} (hl : UnitNormal l) {s : Seg} (ha : On l s.1) (hb : On l s.2) :
    ∃ e, e ^ 2 = eucl s.1 s.2 ^ 2 ∧ s.2.1 - s.1.1 = e * l 1 ∧ s.2.2 - s.1.2 = - (e * l 0) := by
  have hl' : l 0 ^ 2 + l 1 ^ 2 = 1 := hl
  unfold On at ha hb
  have h : l 0 * (s.2.1 - s.1.1) + l 1 * (s.2.2 - s.1.2) = 0 := by linarith
  refine ⟨l 1 * (s.2.1 - s.1.1) - l 0 * (s.2.2 - s.1.2), ?_, ?_, ?_⟩
  · rw [eucl_sq]; linear_combination -(l 0 * (s.2.1 - s.1.1) + l 1 * (s.2.2 - s.1.2)) * h + ((s.2.1 - s.1.1) ^ 2 + (s.2.2 - s.1.2) ^ 2) * hl'
  · linear_combination l 0 * h - (s.2.1 - s.1.1) * hl'
  · linear_combination l 1 * h - (s.2.2 - s.1.2) * hl'

/-- Line/circle intersection along the line. -/
theorem lineCircle_param {l : V3 ℝ} (hl : UnitNormal l) {s : Seg} (hd : 0 < eucl s.1 s.2) (ha : On l s.1) (hb : On l s.2) (c : Pt ℝ) {r : ℝ}
    {p1 p2 : Pt ℝ} (h : lineCircle l c r = some (p1, p2)) (hr : 0 ≤ r) :
    ∃ k1 k2, p1 = along s k1 ∧ p2 = along s k2 ∧
      ∀ k, eucl (along s k) c ^ 2 - r ^ 2 = eucl s.1 s.2 ^ 2 * ((k - k1) * (k - k2)) := by
  have hl' : l 0 ^ 2 + l 1 ^ 2 = 1 := hl
  have hl2 : l 0 * l 0 + l 1 * l 1 = 1 := by linarith
  unfold lineCircle at h
  simp only [hl2, Real.sqrt_one, div_one] at h
  split_ifs at h with h0
  have hle := not_lt.1 h0
  have hm0 : 0 ≤ r * r - |c.1 * l 0 + c.2 * l 1 + l 2| * |c.1 * l 0 + c.2 * l 1 + l 2| := by
    have := abs_nonneg (c.1 * l 0 + c.2 * l 1 + l 2); nlinarith
  have hmsq := Real.sq_sqrt hm0
  rw [abs_mul_abs_self] at h hmsq
  generalize Real.sqrt _ = m at *
  obtain ⟨e, he, e1, e2⟩ := unit_dir hl ha hb
  have he0 : e ≠ 0 := by rintro rfl; have := pow_pos hd 2; rw [← he] at this; norm_num at this
  have hfoot : ∀ m' : ℝ, m' ^ 2 = m ^ 2 → ∃ k, (- l 0 * (c.1 * l 0 + c.2 * l 1 + l 2) + m' * l 1 + c.1, - l 1 * (c.1 * l 0 + c.2 * l 1 + l 2) - m' * l 0 + c.2) = along s k ∧
      e * k = m' + (l 1 * (c.1 - s.1.1) - l 0 * (c.2 - s.1.2)) := by
    intro m' _
    refine ⟨(m' + (l 1 * (c.1 - s.1.1) - l 0 * (c.2 - s.1.2))) / e, ?_, by field_simp⟩
    unfold along On at *
    rw [e1, e2]
    apply Prod.ext
    · simp only
      field_simp
      linear_combination -(c.1 - s.1.1) * hl' - l 0 * ha
    · simp only
      field_simp
      linear_combination -(c.2 - s.1.2) * hl' - l 1 * ha
  obtain ⟨k1, q1, w1⟩ := hfoot m rfl
  obtain ⟨k2, q2, w2⟩ := hfoot (-m) (by ring)
  have hprod : ∀ k, eucl (along s k) c ^ 2 - r ^ 2 = eucl s.1 s.2 ^ 2 * ((k - k1) * (k - k2)) := by
    intro k
    rw [← he, eucl_sq]
    have : e ^ 2 * ((k - k1) * (k - k2)) = (e * k - e * k1) * (e * k - e * k2) := by ring
    rw [this, w1, w2]
    unfold along On at *
    rw [e1, e2]; simp only
    linear_combination hmsq + (e ^ 2 * k ^ 2 - ((c.1 - s.1.1) ^ 2 + (c.2 - s.1.2) ^ 2)) * hl' -
      (l 0 * c.1 + l 1 * c.2 + l 2 + (l 0 * (c.1 - s.1.1) + l 1 * (c.2 - s.1.2))) * ha
  have h := Option.some.inj h
  have e3 : (- l 0 * (c.1 * l 0 + c.2 * l 1 + l 2) - m * l 1 + c.1, - l 1 * (c.1 * l 0 + c.2 * l 1 + l 2) + m * l 0 + c.2) = along s k2 := by
    rw [← q2]; apply Prod.ext <;> (simp only; ring)
  rw [q1, e3] at h
  rcases (fixOrder_spec (along s k1) (along s k2)).1 with h1 | h1
  · rw [h1] at h; cases h; exact ⟨k1, k2, rfl, rfl, hprod⟩
  · rw [h1] at h; cases h; exact ⟨k2, k1, rfl, rfl, fun k => by rw [hprod]; ring⟩

/-- Intersection of the orthogonal line at a point with a line parallel to the first one. -/
theorem inter_perp {t : Thr ℝ} (ht : t.nullAngleValue ≤ Real.pi / 2) {l : V3 ℝ} (hl : UnitNormal l) {p : Pt ℝ} (hp : On l p)
    (hb : l 1 = 0 ∨ t.nullDenom ≤ |l 1|) :
    ∃ o, orthogLine t l p = .ok o ∧ ∀ e, ∃ q, lineInter t o ![l 0, l 1, l 2 + e] = .ok q ∧ getXY q = (p.1 - e * l 0, p.2 - e * l 1) := by
  obtain ⟨o, h1, h2, h3⟩ := orthogLine_spec (t := t) hl p
  obtain ⟨k, hk0, hk⟩ := h3 hb
  have k0 : o 0 = - (k * l 1) := by rw [hk]; simp
  have k1 : o 1 = k * l 0 := by rw [hk]; simp
  have k2 : o 2 = k * (l 1 * p.1 - l 0 * p.2) := by rw [hk]; simp
  refine ⟨o, h1, fun e => ⟨crossProd o ![l 0, l 1, l 2 + e], ?_, ?_⟩⟩
  · have hm : UnitNormal ![l 0, l 1, l 2 + e] := by unfold UnitNormal at *; simpa using hl
    have hang := (lineAngle_pi_div_two h2.1.proper hm.proper).2 (by unfold Perp; rw [k0, k1]; simp; ring)
    unfold lineInter
    rw [if_neg (by rw [IsParallel, hang]; exact not_lt.2 ht)]
  · have hl' : l 0 ^ 2 + l 1 ^ 2 = 1 := hl
    unfold On at hp
    have hz : crossProd o ![l 0, l 1, l 2 + e] 2 = - k := by
      simp only [crossProd, Matrix.cons_val_zero, Matrix.cons_val_one, Matrix.cons_val]
      rw [k0, k1]; linear_combination -k * hl'
    have hx : crossProd o ![l 0, l 1, l 2 + e] 0 = - k * (p.1 - e * l 0) := by
      simp only [crossProd, Matrix.cons_val_zero, Matrix.cons_val_one, Matrix.cons_val]
      rw [k1, k2]; linear_combination k * l 0 * hp - k * p.1 * hl'
    have hy : crossProd o ![l 0, l 1, l 2 + e] 1 = - k * (p.2 - e * l 1) := by
      simp only [crossProd, Matrix.cons_val_zero, Matrix.cons_val_one, Matrix.cons_val]
      rw [k0, k2]; linear_combination k * l 1 * hp - k * p.2 * hl'
    unfold getXY
    rw [hx, hy, hz]
    have : -k ≠ 0 := neg_ne_zero.2 hk0
    apply Prod.ext <;> (simp only; field_simp)

/-- The supporting line of a nearly horizontal segment is wrong. -/
theorem segLine_bad {t : Thr ℝ} {N M : ℝ} (hM : 1 ≤ M) (h1 : 1 < M * t.nullDenom) (h2 : t.nullDistance ≤ M) :
    segLine t ((N, 0), (N + M, 1)) = .ok ![1 / Real.sqrt (M ^ 2 + 1), M / Real.sqrt (M ^ 2 + 1), N / Real.sqrt (M ^ 2 + 1)] := by
  have hp : IsFin (mkPt N 0) := isFin_mkPt _ _
  have hq : IsFin (mkPt (N + M) 1) := isFin_mkPt _ _
  set s := Real.sqrt (M ^ 2 + 1) with hs
  have hNs : M < s := by
    rw [hs]; exact Real.lt_sqrt_of_sq_lt (by linarith)
  have hs0 : 0 < s := by linarith
  have e3 : eucl (N, 0) (N + M, 1) = s := by rw [eucl, hs]; congr 1; ring
  have e4 := crossProd_norm hp hq
  rw [getXY_mkPt, getXY_mkPt, e3, show |mkPt N 0 2 * mkPt (N + M) 1 2| = 1 by simp [mkPt], one_mul] at e4
  have e5 := normalizeLine_eq t (crossProd (mkPt N 0) (mkPt (N + M) 1)) (by
    rw [e4]; have := dblEps_lt_one; linarith)
  unfold segLine lineOfPts
  rw [getXY_mkPt, getXY_mkPt, if_neg (by simp only [PtEq, ptDist_eucl, e3]; linarith), e5, e4]
  congr 1
  have h1' : 1 / s < t.nullDenom := by rw [div_lt_iff₀ hs0]; nlinarith
  have h2' : 0 < 1 / s := by positivity
  have h4 : 0 < M / s := by positivity
  have c0 : crossProd (mkPt N 0) (mkPt (N + M) 1) 0 / s = - (1 / s) := by simp [crossProd, mkPt, neg_div]
  have c1 : crossProd (mkPt N 0) (mkPt (N + M) 1) 1 / s = M / s := by simp [crossProd, mkPt]
  have c2 : crossProd (mkPt N 0) (mkPt (N + M) 1) 2 / s = N / s := by simp [crossProd, mkPt]
  rw [signFix_band t _ (by rw [c0]; linarith) (by rw [c0]; linarith) (by rw [c1]; exact h4)]
  rw [c0, c1, c2, neg_neg]

theorem lineAngle_seg {l m : V3 ℝ} (hl : UnitNormal l) (hm : UnitNormal m) {s s' : Seg} (hd : 0 < eucl s.1 s.2) (hd' : 0 < eucl s'.1 s'.2)
    (ha : On l s.1) (hb : On l s.2) (ha' : On m s'.1) (hb' : On m s'.2) : lineAngle l m = segAngle s s' := by
  rw [lineAngle_eq, angleCos_unit hl hm, segAngle]
  congr 1
  obtain ⟨e, he, e1, e2⟩ := unit_dir hl ha hb
  obtain ⟨f, hf, f1, f2⟩ := unit_dir hm ha' hb'
  rw [e1, e2, f1, f2]
  have h1 : |e| = eucl s.1 s.2 := by rw [← abs_of_pos hd]; exact (sq_eq_sq_iff_abs_eq_abs _ _).1 he
  have h2 : |f| = eucl s'.1 s'.2 := by rw [← abs_of_pos hd']; exact (sq_eq_sq_iff_abs_eq_abs _ _).1 hf
  rw [show e * l 1 * (f * m 1) + -(e * l 0) * -(f * m 0) = e * f * (l 0 * m 0 + l 1 * m 1) by ring, abs_mul, abs_mul, h1, h2]
  field_simp

/-- Intersection of two lines that are not parallel for the library. -/
theorem lineInter_spec {t : Thr ℝ} (ht : 0 < t.nullAngleValue) {l m : V3 ℝ} (hl : UnitNormal l) (hm : UnitNormal m) (h : ¬ IsParallel t l m) :
    lineInter t l m = .ok (crossProd l m) ∧ On l (getXY (crossProd l m)) ∧ On m (getXY (crossProd l m)) ∧
      ∀ q, On l q → On m q → q = getXY (crossProd l m) := by
  have hz : l 0 * m 1 - l 1 * m 0 ≠ 0 := by
    intro hz
    apply h
    rw [IsParallel, (lineAngle_zero hl.proper hm.proper).2 (by unfold SameDir; linarith)]; exact ht
  have hf : IsFin (crossProd l m) := by unfold IsFin; simpa [crossProd] using hz
  refine ⟨by unfold lineInter; rw [if_neg h], (on_onLine hf).2 (crossProd_inc1' l m), (on_onLine hf).2 (crossProd_inc2' l m), ?_⟩
  intro q h1 h2
  unfold On at h1 h2
  unfold getXY
  simp only [crossProd, Matrix.cons_val_zero, Matrix.cons_val_one, Matrix.cons_val]
  apply Prod.ext
  · simp only; rw [eq_div_iff hz]; linear_combination m 1 * h1 - l 1 * h2
  · simp only; rw [eq_div_iff hz]; linear_combination l 0 * h2 - m 0 * h1

theorem getXY_cross_comm (l m : V3 ℝ) : getXY (crossProd l m) = getXY (crossProd m l) := by
  rw [crossProd_anti l m]; unfold getXY; simp [neg_div_neg_eq]

theorem along_inj {s : Seg} (hd : 0 < eucl s.1 s.2) {j k : ℝ} (h : along s j = along s k) : j = k := by
  have := eucl_along s j k
  rw [h, eucl_self] at this
  rcases mul_eq_zero.1 this.symm with h1 | h1
  · exact sub_eq_zero.1 (abs_eq_zero.1 h1)
  · exact absurd h1 hd.ne'

/-- A point of the supporting line that goes beyond the ends by less than `e/2` is close to the segment. -/
theorem near_of_overshoot {s : Seg} {k e : ℝ} (he : 0 < e) (h1 : - e < 2 * (k * eucl s.1 s.2))
    (h2 : 2 * ((k - 1) * eucl s.1 s.2) < e) : ∃ q, OnSeg s.1 s.2 q ∧ eucl (along s k) q < e / 2 := by
  have on : ∀ j, 0 ≤ j → j ≤ 1 → OnSeg s.1 s.2 (along s j) := fun j h0 h1 => ⟨j, h0, h1, rfl⟩
  have hp := eucl_nonneg s.1 s.2
  rcases lt_trichotomy k 0 with hk | hk | hk
  · refine ⟨along s 0, on 0 le_rfl zero_le_one, ?_⟩
    rw [eucl_along, abs_of_neg (by linarith)]; linarith
  · exact ⟨along s k, on k (by linarith) (by linarith), by rw [eucl_self]; linarith⟩
  · rcases le_or_gt k 1 with hk1 | hk1
    · exact ⟨along s k, on k hk.le hk1, by rw [eucl_self]; linarith⟩
    · refine ⟨along s 1, on 1 zero_le_one le_rfl, ?_⟩
      rw [eucl_along, abs_of_pos (by linarith)]; linarith

/-- Decision made by the segment/segment intersection. -/
theorem segInter_eq {t : Thr ℝ} (h1 : dblEps < t.nullDistance) (h2 : 0 < t.nullAngleValue) {s s' : Seg} (hs : GoodSeg t s) (hs' : GoodSeg t s')
    (hne : ¬ SegEq t s s') (ha : t.nullAngleValue ≤ segAngle s s') :
    ∃ k k' : ℝ, along s k = along s' k' ∧ (∀ j j', along s j = along s' j' → j = k ∧ j' = k') ∧
      segInter t s s' = .ok (if (- t.nullDistance < 2 * (k * eucl s.1 s.2) ∧ 2 * ((k - 1) * eucl s.1 s.2) < t.nullDistance) ∧
        - t.nullDistance < 2 * (k' * eucl s'.1 s'.2) ∧ 2 * ((k' - 1) * eucl s'.1 s'.2) < t.nullDistance then some (along s k) else none) := by
  have hp := dblEps_pos
  have hd : 0 < eucl s.1 s.2 := by linarith [hs.1]
  have hd' : 0 < eucl s'.1 s'.2 := by linarith [hs'.1]
  have hn : s.1 ≠ s.2 := by intro h; rw [h, eucl_self] at hd; exact lt_irrefl _ hd
  have hn' : s'.1 ≠ s'.2 := by intro h; rw [h, eucl_self] at hd'; exact lt_irrefl _ hd'
  obtain ⟨l, e1, e2, -, e3⟩ := segLine_spec h1 hs.1
  obtain ⟨m, f1, f2, -, f3⟩ := segLine_spec h1 hs'.1
  obtain ⟨a1, a2⟩ := e3 hs.2
  obtain ⟨b1, b2⟩ := f3 hs'.2
  have hpar : ¬ IsParallel t l m := by rw [IsParallel, lineAngle_seg e2.1 f2.1 hd hd' a1 a2 b1 b2]; exact not_lt.2 ha
  obtain ⟨c1, c2, c3, c4⟩ := lineInter_spec h2 e2.1 f2.1 hpar
  obtain ⟨k, hk⟩ := on_line_param e2.1 hn a1 a2 c2
  obtain ⟨k', hk'⟩ := on_line_param f2.1 hn' b1 b2 c3
  have hkk : along s k = along s' k' := by rw [← hk, hk']
  refine ⟨k, k', hkk, ?_, ?_⟩
  · intro j j' hj
    have hq := c4 (along s j) (on_along a1 a2 j) (by rw [hj]; exact on_along b1 b2 j')
    exact ⟨along_inj hd (by rw [hq, hk]), along_inj hd' (by rw [← hj, hq, hk'])⟩
  · unfold segInter
    rw [if_neg hne, show segLine t s = .ok l from e1, Res.bind_ok, show segLine t s' = .ok m from f1, Res.bind_ok, if_neg hpar, c1, Res.bind_ok]
    simp only [hk]
    have t1 := sum_test hd k (e := t.nullDistance)
    have t2 := sum_test hd' k' (e := t.nullDistance)
    rw [← hkk] at t2
    have h0 : 0 < t.nullDistance := by linarith
    simp only [t1, t2, h0, true_and]
    by_cases w1 : (- t.nullDistance < 2 * (k * eucl s.1 s.2) ∧ 2 * ((k - 1) * eucl s.1 s.2) < t.nullDistance)
    · by_cases w2 : (- t.nullDistance < 2 * (k' * eucl s'.1 s'.2) ∧ 2 * ((k' - 1) * eucl s'.1 s'.2) < t.nullDistance)
      · rw [if_pos w1, if_pos w2, if_pos ⟨w1, w2⟩]; rfl
      · rw [if_pos w1, if_neg w2, if_neg (fun h => w2 h.2)]; rfl
    · rw [if_neg w1, if_neg (fun h => w1 h.1)]; rfl

theorem eucl_along_sq (s : Seg) (c : Pt ℝ) (k : ℝ) :
    eucl (along s k) c ^ 2 = (1 - k) * eucl s.1 c ^ 2 + k * eucl s.2 c ^ 2 - k * (1 - k) * eucl s.1 s.2 ^ 2 := by
  simp only [eucl_sq]; unfold along; simp only; ring

theorem along_zero (s : Seg) : along s 0 = s.1 := by unfold along; simp
theorem along_one (s : Seg) : along s 1 = s.2 := by unfold along; simp

theorem along_lt {s : Seg} (h : LexLt s.1 s.2) {j k : ℝ} (hjk : j < k) : LexLt (along s j) (along s k) := by
  unfold LexLt along at *
  simp only
  rcases h with h | ⟨h, h'⟩
  · left; nlinarith
  · right; rw [h]; constructor
    · ring
    · nlinarith

theorem lineSegAngle_eq {l m : V3 ℝ} (hl : UnitNormal l) (hm : UnitNormal m) {s : Seg} (hd : 0 < eucl s.1 s.2)
    (ha : On m s.1) (hb : On m s.2) : lineAngle l m = lineSegAngle l s := by
  rw [lineAngle_eq, angleCos_unit hl hm, lineSegAngle]
  congr 1
  obtain ⟨e, he, e1, e2⟩ := unit_dir hm ha hb
  rw [e1, e2]
  have h1 : |e| = eucl s.1 s.2 := by rw [← abs_of_pos hd]; exact (sq_eq_sq_iff_abs_eq_abs _ _).1 he
  rw [show l 1 * (e * m 1) - l 0 * (-(e * m 0)) = e * (l 0 * m 0 + l 1 * m 1) by ring, abs_mul, h1]
  field_simp

/-- Two quadratics that agree everywhere. -/
theorem roots_eq {L k1 k2 j1 j2 : ℝ} (hL : L ≠ 0) (h : ∀ k : ℝ, L * ((k - j1) * (k - j2)) = L * ((k - k1) * (k - k2))) :
    (k1 = j1 ∧ k2 = j2) ∨ (k1 = j2 ∧ k2 = j1) := by
  have h' : ∀ k : ℝ, (k - j1) * (k - j2) = (k - k1) * (k - k2) := fun k => mul_left_cancel₀ hL (h k)
  have a := h' k1
  rw [sub_self, zero_mul] at a
  have s := h' 0
  have s1 := h' 1
  have e : k1 + k2 = j1 + j2 := by nlinarith
  rcases mul_eq_zero.1 a with a | a
  · left; constructor <;> linarith
  · right; constructor <;> linarith

/-- The circle around the first end through the second one, cut by the supporting line; same with ends exchanged. -/
theorem lineCircle_ends {l : V3 ℝ} (hl : UnitNormal l) {s : Seg} (hs : LexLt s.1 s.2) (ha : On l s.1) (hb : On l s.2)
    (hC : ∀ c r, 0 ≤ r → (lineCircle l c r = none ↔ ¬ ∃ q, On l q ∧ eucl q c = r) ∧ ∀ a b, lineCircle l c r = some (a, b) → ¬ LexLt b a) :
    lineCircle l s.1 (eucl s.1 s.2) = some (along s (-1), along s 1) ∧ lineCircle l s.2 (eucl s.1 s.2) = some (along s 0, along s 2) := by
  have hne : s.1 ≠ s.2 := by intro h; rw [h] at hs; unfold LexLt at hs; simp at hs
  have hd : 0 < eucl s.1 s.2 := lt_of_le_of_ne (eucl_nonneg _ _) (fun h => hne (eucl_eq_zero.1 h.symm))
  have hL : eucl s.1 s.2 ^ 2 ≠ 0 := pow_ne_zero 2 hd.ne'
  constructor
  · obtain ⟨h1, h2⟩ := hC s.1 (eucl s.1 s.2) hd.le
    rcases hc : lineCircle l s.1 (eucl s.1 s.2) with _ | ⟨p1, p2⟩
    · exact absurd ⟨s.2, hb, eucl_comm _ _⟩ (h1.1 hc)
    · obtain ⟨k1, k2, rfl, rfl, hk⟩ := lineCircle_param hl hd ha hb s.1 hc hd.le
      have h3 := h2 _ _ hc
      rcases roots_eq (j1 := -1) (j2 := 1) hL (fun k => by rw [← hk, eucl_along_sq, eucl_self, eucl_comm s.2 s.1]; ring) with ⟨rfl, rfl⟩ | ⟨rfl, rfl⟩
      · rfl
      · exact absurd (along_lt hs (by norm_num)) h3
  · obtain ⟨h1, h2⟩ := hC s.2 (eucl s.1 s.2) hd.le
    rcases hc : lineCircle l s.2 (eucl s.1 s.2) with _ | ⟨p1, p2⟩
    · exact absurd ⟨s.1, ha, rfl⟩ (h1.1 hc)
    · obtain ⟨k1, k2, rfl, rfl, hk⟩ := lineCircle_param hl hd ha hb s.2 hc hd.le
      have h3 := h2 _ _ hc
      rcases roots_eq (j1 := 0) (j2 := 2) hL (fun k => by rw [← hk, eucl_along_sq, eucl_self]; ring) with ⟨rfl, rfl⟩ | ⟨rfl, rfl⟩
      · rfl
      · exact absurd (along_lt hs (by norm_num)) h3

theorem roots_in_out {k1 k2 : ℝ} (s0 : k1 * k2 < 0) (s1 : 0 < (1 - k1) * (1 - k2)) :
    ((0 ≤ k1 ∧ k1 ≤ 1) → ¬ 0 ≤ k2) ∧ (¬ (0 ≤ k1 ∧ k1 ≤ 1) → k1 < 0 ∧ 0 ≤ k2 ∧ k2 ≤ 1) := by
  constructor
  · intro hk1 h; nlinarith [mul_nonneg hk1.1 h]
  · intro hk1
    have hk1n : k1 < 0 := by
      by_contra h
      rw [not_lt] at h
      have h5 : 1 < k1 := by by_contra h5; exact hk1 ⟨h, not_lt.1 h5⟩
      have h6 : k2 < 0 := by by_contra h6; nlinarith [mul_nonneg h (not_lt.1 h6)]
      nlinarith
    exact ⟨hk1n, by by_contra h5; nlinarith, by by_contra h6; nlinarith⟩

theorem roots_out_in {k1 k2 : ℝ} (s0 : 0 < k1 * k2) (s1 : (1 - k1) * (1 - k2) < 0) :
    ((0 ≤ k1 ∧ k1 ≤ 1) → ¬ k2 ≤ 1) ∧ (¬ (0 ≤ k1 ∧ k1 ≤ 1) → 1 < k1 ∧ 0 ≤ k2 ∧ k2 ≤ 1) := by
  have h := roots_in_out (k1 := 1 - k1) (k2 := 1 - k2) s1 (by linarith)
  constructor
  · intro hk h'; exact h.1 ⟨by linarith [hk.2], by linarith [hk.1]⟩ (by linarith)
  · intro hk
    obtain ⟨a, b, c⟩ := h.2 (fun hh => hk ⟨by linarith [hh.2], by linarith [hh.1]⟩)
    exact ⟨by linarith, by linarith, by linarith⟩

theorem roots_out_out {k1 k2 : ℝ} (s0 : 0 < k1 * k2) (s1 : 0 < (1 - k1) * (1 - k2)) :
    ((0 ≤ k1 ∧ k1 ≤ 1) → 0 ≤ k2 ∧ k2 ≤ 1) ∧ (¬ (0 ≤ k1 ∧ k1 ≤ 1) → ¬ (0 ≤ k2 ∧ k2 ≤ 1)) := by
  constructor
  · intro hk1
    exact ⟨by by_contra h5; nlinarith [hk1.1], by by_contra h6; nlinarith [hk1.2]⟩
  · intro hk1 h
    rw [not_and_or, not_le, not_le] at hk1
    rcases hk1 with hk1 | hk1
    · nlinarith [h.1]
    · nlinarith [h.2]

end H2d
