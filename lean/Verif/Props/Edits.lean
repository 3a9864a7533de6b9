import Verif.Lemmas.Edits
import Verif.Lemmas.Segment
import Verif.Props.SegmentMore

/-! # C98–C100: lines and one coordinate, results of intersections, editing circles -/

namespace H2d.Props

open H2d.Spec H2d.Edit

/-! ## C98 -/

/-- **C98, horizontal and vertical lines.** The points of the horizontal (vertical) line built from a number are those with this ordinate (abscissa); the line built from a point is the one through this point;
it is the same object as the line built from two points with the same ordinate (abscissa). -/
theorem C98_axis (t : Thr ℝ) (ht : 0 < t.nullDenom) (h1 : dblEps < t.nullDistance) (y a b : ℝ) (hab : t.nullDistance ≤ |a - b|) :
    (∀ q : ℝ × ℝ, (On (lineH y) q ↔ q.2 = y) ∧ (On (lineV y) q ↔ q.1 = y)) ∧
    (∀ p q : ℝ × ℝ, (On (lineThrough false p) q ↔ q.2 = p.2) ∧ (On (lineThrough true p) q ↔ q.1 = p.1)) ∧
    lineOfPts t (mkPt a y) (mkPt b y) = .ok (lineH y) ∧ lineOfPts t (mkPt y a) (mkPt y b) = .ok (lineV y) := by
  have hp : 0 < |a - b| := lt_of_lt_of_le (lt_trans (by unfold dblEps; positivity) h1) hab
  have hne : a - b ≠ 0 := abs_pos.1 hp
  have e1 : Real.sqrt ((b - a) * (b - a)) = |a - b| := by rw [Real.sqrt_mul_self_eq_abs, abs_sub_comm]
  have e2 : Real.sqrt ((a - b) * (a - b)) = |a - b| := Real.sqrt_mul_self_eq_abs _
  refine ⟨fun q => ⟨?_, ?_⟩, fun p q => ⟨?_, ?_⟩, ?_, ?_⟩
  · simp [On, lineH]; constructor <;> intro h <;> linarith
  · simp [On, lineV]; constructor <;> intro h <;> linarith
  · simp [On, lineThrough, lineH]; constructor <;> intro h <;> linarith
  · simp [On, lineThrough, lineV]; constructor <;> intro h <;> linarith
  · unfold lineOfPts
    rw [if_neg (by
      show ¬ ptDist (getXY (mkPt a y)) (getXY (mkPt b y)) < _
      simp only [ptDist, getXY, mkPt, Matrix.cons_val_zero, Matrix.cons_val_one, Matrix.cons_val, div_one, sub_self, mul_zero, add_zero, e2]
      exact not_lt.2 hab)]
    have c : crossProd (mkPt a y) (mkPt b y) = ![0, b - a, y * (a - b)] := by
      funext i; fin_cases i <;> simp [crossProd, mkPt] <;> ring
    rw [c]
    unfold normalizeLine
    simp only [Matrix.cons_val_zero, Matrix.cons_val_one, Matrix.cons_val, mul_zero, zero_add, e1, zero_div, lt_self_iff_false, if_false, abs_zero, ht, if_true]
    rw [if_neg (not_le.2 (lt_of_lt_of_le h1 hab))]
    rcases lt_or_gt_of_ne hne with h | h
    · rw [abs_of_neg h, if_neg (by rw [not_lt]; apply div_nonneg <;> linarith)]
      congr 1
      funext i; fin_cases i <;> simp [lineH]
      · intro h'; exact hne (by linarith)
      · rw [div_eq_iff (by linarith)]; ring
    · rw [abs_of_pos h, if_pos (by apply div_neg_of_neg_of_pos <;> linarith)]
      congr 1
      funext i; fin_cases i <;> simp [lineH]
      · rw [← neg_div, div_eq_one_iff_eq (by linarith)]; ring
      · rw [div_eq_iff (by linarith)]
  · unfold lineOfPts
    rw [if_neg (by
      show ¬ ptDist (getXY (mkPt y a)) (getXY (mkPt y b)) < _
      simp only [ptDist, getXY, mkPt, Matrix.cons_val_zero, Matrix.cons_val_one, Matrix.cons_val, div_one, sub_self, mul_zero, zero_add, e2]
      exact not_lt.2 hab)]
    have c : crossProd (mkPt y a) (mkPt y b) = ![a - b, 0, y * (b - a)] := by
      funext i; fin_cases i <;> simp [crossProd, mkPt] <;> ring
    rw [c]
    unfold normalizeLine
    simp only [Matrix.cons_val_zero, Matrix.cons_val_one, Matrix.cons_val, mul_zero, add_zero, e2, zero_div]
    rw [if_neg (not_le.2 (lt_of_lt_of_le h1 hab))]
    have w : (if (a - b) / |a - b| < 0 then fun i => -((![a - b, 0, y * (b - a)] : V3 ℝ) i / |a - b|) else fun i => (![a - b, 0, y * (b - a)] : V3 ℝ) i / |a - b|) = lineV y := by
      rcases lt_or_gt_of_ne hne with h | h
      · rw [abs_of_neg h, if_pos (by apply div_neg_of_neg_of_pos <;> linarith)]
        funext i; fin_cases i <;> simp [lineV]
        · rw [← neg_div, div_eq_one_iff_eq (by linarith)]; ring
        · rw [div_eq_iff (by linarith)]
      · rw [abs_of_pos h, if_neg (by rw [not_lt]; apply div_nonneg <;> linarith)]
        funext i; fin_cases i <;> simp [lineV]
        · exact hne
        · rw [div_eq_iff (by linarith)]; ring
    simp only [w]
    have e0 : lineV y 1 = 0 := by simp [lineV]
    rw [e0]
    simp

/-- With the standard thresholds. -/
example : dblEps < stdR.nullDistance ∧ 0 < stdR.nullDenom ∧ stdR.nullDistance ≤ |(3 : ℝ) - 5| := by
  refine ⟨by norm_num [dblEps, stdR], by norm_num [stdR], by norm_num [stdR]⟩

/-- **C98, point of a line with a given coordinate.** The call throws exactly when the other coefficient is below the threshold; otherwise it returns the only point
of the line with this coordinate. -/
theorem C98_point (t : Thr ℝ) (ht : 0 < t.nullDenom) (l : V3 ℝ) (v : ℝ) :
    (linePoint t l true v = .throw ↔ |l 1| < t.nullDenom) ∧ (linePoint t l false v = .throw ↔ |l 0| < t.nullDenom) ∧
    (∀ p, linePoint t l true v = .ok p → ∀ q : ℝ × ℝ, q.1 = v → (On l q ↔ q = p)) ∧
    (∀ p, linePoint t l false v = .ok p → ∀ q : ℝ × ℝ, q.2 = v → (On l q ↔ q = p)) ∧
    (∀ p, linePoint t l true v = .ok p → p.1 = v) ∧ (∀ p, linePoint t l false v = .ok p → p.2 = v) := by
  obtain ⟨h1, h2, h3, h4⟩ := C65_coord t ht l v
  have k1 : ∀ w, lineCoord t l true v = .ok w → linePoint t l true v = .ok (v, w) := by intro w h; simp [linePoint, h]
  have k2 : ∀ w, lineCoord t l false v = .ok w → linePoint t l false v = .ok (w, v) := by intro w h; simp [linePoint, h]
  have k3 : ∀ g, lineCoord t l g v = .throw → linePoint t l g v = .throw := by intro g h; simp [linePoint, h]
  have k4 : ∀ g, lineCoord t l g v ≠ .ub := by intro g; unfold lineCoord; split_ifs <;> simp
  have c1 : linePoint t l true v = .throw ↔ lineCoord t l true v = .throw := by
    refine ⟨fun h => ?_, k3 _⟩
    rcases e : lineCoord t l true v with w | _ | _
    · rw [k1 w e] at h; cases h
    · rfl
    · exact absurd e (k4 _)
  have c2 : linePoint t l false v = .throw ↔ lineCoord t l false v = .throw := by
    refine ⟨fun h => ?_, k3 _⟩
    rcases e : lineCoord t l false v with w | _ | _
    · rw [k2 w e] at h; cases h
    · rfl
    · exact absurd e (k4 _)
  have d1 : ∀ p, linePoint t l true v = .ok p → ∃ w, lineCoord t l true v = .ok w ∧ p = (v, w) := by
    intro p h
    rcases e : lineCoord t l true v with w | _ | _
    · rw [k1 w e] at h; cases h; exact ⟨w, rfl, rfl⟩
    · rw [k3 _ e] at h; cases h
    · exact absurd e (k4 _)
  have d2 : ∀ p, linePoint t l false v = .ok p → ∃ w, lineCoord t l false v = .ok w ∧ p = (w, v) := by
    intro p h
    rcases e : lineCoord t l false v with w | _ | _
    · rw [k2 w e] at h; cases h; exact ⟨w, rfl, rfl⟩
    · rw [k3 _ e] at h; cases h
    · exact absurd e (k4 _)
  refine ⟨c1.trans h1, c2.trans h2, ?_, ?_, ?_, ?_⟩
  · rintro p h ⟨x, y⟩ rfl
    obtain ⟨w, hw, rfl⟩ := d1 p h
    simpa using h3 w hw y
  · rintro p h ⟨x, y⟩ rfl
    obtain ⟨w, hw, rfl⟩ := d2 p h
    simpa using h4 w hw x
  · intro p h; obtain ⟨w, -, rfl⟩ := d1 p h; rfl
  · intro p h; obtain ⟨w, -, rfl⟩ := d2 p h; rfl

/-- The line `3x - 4y + 5 = 0` (not normalised) and `x = 1`. -/
example : linePoint stdR ![3, -4, 5] true 1 = .ok (1, 2) := by
  have : ¬ (|(-4 : ℝ)| < 1 / 10 ^ 10) := by rw [abs_neg]; norm_num
  simp [linePoint, lineCoord, stdR]; norm_num

/-- **C98, points at a distance.** The two points returned for a coordinate and a distance are on the line, on both sides of the point with this coordinate, at the
absolute value of the distance, and ordered. -/
theorem C98_points (t : Thr ℝ) (ht : 0 < t.nullDenom) (h0 : 0 ≤ t.nullDistance) (l : V3 ℝ) (hl : Proper l) (g : Bool) (v d : ℝ) :
    (linePointsAt t l g v d = .throw ↔ linePoint t l g v = .throw) ∧
    ∀ a b, linePointsAt t l g v d = .ok (a, b) → ∃ p : ℝ × ℝ, On l p ∧ (if g then p.1 else p.2) = v ∧
      On l a ∧ On l b ∧ eucl p a = |d| ∧ eucl p b = |d| ∧ a.1 + b.1 = 2 * p.1 ∧ a.2 + b.2 = 2 * p.2 ∧ ¬ LexLt b a := by
  constructor
  · unfold linePointsAt
    rcases linePoint t l g v with p | _ | _ <;> simp
  · intro a b h
    unfold linePointsAt at h
    rcases e : linePoint t l g v with p | _ | _
    · rw [e, Res.bind_ok, Res.pure_eq, Res.ok.injEq] at h
      obtain ⟨-, -, c3, c4, c5, c6⟩ := C98_point t ht l v
      have hon : On l p ∧ (if g then p.1 else p.2) = v := by
        cases g
        · exact ⟨(c4 p e p (c6 p e)).2 rfl, by simpa using c6 p e⟩
        · exact ⟨(c3 p e p (c5 p e)).2 rfl, by simpa using c5 p e⟩
      obtain ⟨a', b', e1, e2⟩ := (C07_points t h0 l hl p d).2 hon.1
      unfold getPoints at e1
      split_ifs at e1
      rw [h, Res.ok.injEq, Prod.mk.injEq] at e1
      obtain ⟨rfl, rfl⟩ := e1
      exact ⟨p, hon.1, hon.2, e2⟩
    · rw [e] at h; cases h
    · rw [e] at h; cases h

/-- **C98, orthogonal line at a coordinate (partial).** Perpendicular to the line, through its point with this coordinate. Missing: lines whose second coefficient is not
null but below the threshold (see `C06_false`). -/
theorem C98_orthog_partial (t : Thr ℝ) (ht : 0 < t.nullDenom) (l : V3 ℝ) (hl : UnitNormal l) (hb : l 1 = 0 ∨ t.nullDenom ≤ |l 1|) (g : Bool) (v : ℝ) :
    (orthogLineAt t l g v = .throw ↔ linePoint t l g v = .throw) ∧
    ∀ o, orthogLineAt t l g v = .ok o → ∃ p : ℝ × ℝ, On l p ∧ (if g then p.1 else p.2) = v ∧ On o p ∧ Perp l o ∧ UnitNormal o := by
  have key : orthogLineAt t l g v = (linePoint t l g v >>= fun p => orthogLine t l p) := by
    unfold orthogLineAt linePoint
    rcases lineCoord t l g v with c | _ | _ <;> cases g <;> simp
  rw [key]
  rcases e : linePoint t l g v with p | _ | _
  · obtain ⟨o, h1, h2, h3, h4⟩ := C06_line_partial t l hl hb p
    rw [Res.bind_ok, h1]
    refine ⟨by simp, ?_⟩
    intro o' ho
    cases ho
    obtain ⟨-, -, c3, c4, c5, c6⟩ := C98_point t ht l v
    cases g
    · exact ⟨p, (c4 p e p (c6 p e)).2 rfl, by simpa using c6 p e, h2, h3, h4⟩
    · exact ⟨p, (c3 p e p (c5 p e)).2 rfl, by simpa using c5 p e, h2, h3, h4⟩
  · simp
  · simp

/-- The normalised line `0.6x - 0.8y + 1 = 0`. -/
example : UnitNormal ![3 / 5, -4 / 5, 1] ∧ stdR.nullDenom ≤ |(![3 / 5, -4 / 5, 1] : V3 ℝ) 1| ∧ (∃ p, linePoint stdR ![3 / 5, -4 / 5, 1] true 1 = .ok p) := by
  have h : |(-4 / 5 : ℝ)| = 4 / 5 := by rw [abs_of_neg] <;> norm_num
  have h1 : stdR.nullDenom ≤ |(![3 / 5, -4 / 5, 1] : V3 ℝ) 1| := by simp [h, stdR]; norm_num
  refine ⟨by simp [UnitNormal]; norm_num, h1, ?_⟩
  have h2 : ¬ |(![3 / 5, -4 / 5, 1] : V3 ℝ) 1| < stdR.nullDenom := not_lt.2 h1
  unfold linePoint lineCoord
  simp only [if_true, if_neg h2]
  exact ⟨_, rfl⟩

/-- **C98, line from one point or from two numbers.** Both are the same line; they throw exactly when the point is closer to the origin than the machine epsilon. -/
theorem C98_origin (t : Thr ℝ) (ht : 0 < t.nullDenom) (ht1 : t.nullDenom ≤ 1) (x y : ℝ) :
    lineOf2 t x y = lineOfPt t (x, y) ∧ (lineOfPt t (x, y) = .throw ↔ eucl (0, 0) (x, y) ≤ dblEps) ∧
    ∀ r, lineOfPt t (x, y) = .ok r → UnitNormal r ∧ On r (0, 0) := by
  have e0 : crossProd (mkPt x y) (mkPt 0 0) = ![y, -x, 0] := by apply v3_ext <;> simp [crossProd, mkPt]
  have hs : eucl (0, 0) (x, y) = Real.sqrt (y * y + x * x) := by rw [eucl]; congr 1; ring
  refine ⟨?_, ?_, ?_⟩
  · unfold lineOf2 lineOfPt normalizePoint
    by_cases hx : x < 0
    · have : (mkPt x y) 0 < 0 := by simpa [mkPt] using hx
      rw [if_pos this]
      have h1 : ¬ (|(fun i => - mkPt x y i) 2| < t.nullDenom ∧ (fun i => - mkPt x y i) 0 < t.nullOrthogDistance ∧ |(fun i => - mkPt x y i) 1| < t.nullOrthogDistance) := by
        rintro ⟨h, -⟩; simp [mkPt] at h; linarith
      rw [if_neg h1, Res.bind_ok]
      congr 1
      apply v3_ext <;> simp [crossProd, mkPt]
    · have : ¬ (mkPt x y) 0 < 0 := by simpa [mkPt] using hx
      simp only [if_neg this]
      have h1 : ¬ (|mkPt x y 2| < t.nullDenom ∧ mkPt x y 0 < t.nullOrthogDistance ∧ |mkPt x y 1| < t.nullOrthogDistance) := by
        rintro ⟨h, -⟩; simp [mkPt] at h; linarith
      rw [if_neg h1, Res.bind_ok, crossProd_anti (mkPt x y) (mkPt 0 0), normalizeLine_neg ht]
  · unfold lineOfPt
    rw [e0, normalizeLine_throw, hs]
    simp
  · intro r h
    unfold lineOfPt at h
    rw [e0] at h
    refine ⟨(normalizeLine_norm h).1, ?_⟩
    obtain ⟨-, rfl⟩ := normalizeLine_ok h
    simp [On, signFix]
    split_ifs <;> simp

/-- **C98, line from one point (partial).** The line goes through the point. Missing: slopes too small for the sign rule of the lines (see `C98_false`). -/
theorem C98_origin_partial (t : Thr ℝ) (p : ℝ × ℝ) (r : V3 ℝ) (h : lineOfPt t p = .ok r) (hs : GoodSlope t p (0, 0)) : On r p ∧ On r (0, 0) := by
  have e0 : crossProd (mkPt p.1 p.2) (mkPt 0 0) = ![p.2, -p.1, 0] := by apply v3_ext <;> simp [crossProd, mkPt]
  unfold lineOfPt at h
  have hz := normalizeLine_zero h
  have hok := (normalizeLine_ok h).1
  rw [e0] at h hz hok
  have e : Real.sqrt (p.2 * p.2 + p.1 * p.1) = eucl p (0, 0) := by rw [eucl]; congr 1; ring
  simp only [Matrix.cons_val_zero, Matrix.cons_val_one, neg_mul_neg, e] at hz hok
  have hpos : 0 < eucl p (0, 0) := lt_trans dblEps_pos hok
  have hb : r 0 = 0 ∨ t.nullDenom ≤ r 0 := by
    rcases hs with hs | hs
    · left; rw [hz]; simp at hs; simp [hs]
    · right; rw [hz, le_div_iff₀ hpos]; simpa using hs
  have hsame := normalizeLine_same h hb
  exact ⟨On.sameLine (by simp [On]; ring) hsame, On.sameLine (by simp [On]) hsame⟩

/-- The point (3, 4): the line `0.8x - 0.6y = 0`. -/
example : GoodSlope stdR (3, 4) (0, 0) ∧ ∃ r, lineOfPt stdR (3, 4) = .ok r := by
  have e : eucl (3, 4) (0, 0) = 5 := by rw [eucl_eq_iff (by norm_num)]; norm_num
  refine ⟨Or.inr (by rw [e]; norm_num [stdR]), ?_⟩
  have h := C98_origin stdR (by norm_num [stdR]) (by norm_num [stdR]) 3 4
  rcases hr : lineOfPt stdR (3, 4) with r | _ | _
  · exact ⟨r, rfl⟩
  · have := h.2.1.1 hr
    rw [eucl_comm, e] at this
    have := dblEps_lt_one
    linarith
  · exact absurd hr (normalizeLine_not_ub _ _)

/-- **C98 is false in general.** For any thresholds there is a point such that the line built from it does not go through it. -/
theorem C98_false (t : Thr ℝ) (ht : 0 < t.nullDenom) : ∃ p r, lineOfPt t p = .ok r ∧ On r (0, 0) ∧ ¬ On r p := by
  obtain ⟨M, hM1, hM2, hM3⟩ : ∃ M : ℝ, 1 ≤ M ∧ 1 < M * t.nullDenom ∧ t.nullDistance ≤ M := by
    have h1 : 0 < 1 / t.nullDenom := by positivity
    have h2 : 1 / t.nullDenom * t.nullDenom = 1 := by field_simp
    have h3 := abs_nonneg t.nullDistance
    refine ⟨1 / t.nullDenom + |t.nullDistance| + 1, by linarith, ?_, by linarith [le_abs_self t.nullDistance]⟩
    nlinarith
  have h := segLine_bad (t := t) (N := 0) hM1 hM2 hM3
  have hs : 0 < Real.sqrt (M ^ 2 + 1) := Real.sqrt_pos.2 (by positivity)
  refine ⟨(M, 1), ![1 / Real.sqrt (M ^ 2 + 1), M / Real.sqrt (M ^ 2 + 1), 0 / Real.sqrt (M ^ 2 + 1)], ?_, by simp [On], ?_⟩
  · rw [zero_add] at h
    rw [← h]
    unfold segLine lineOfPts
    split_ifs with hc
    · exfalso
      unfold segLine lineOfPts at h
      rw [if_pos hc] at h
      cases h
    · unfold lineOfPt
      rw [crossProd_anti, normalizeLine_neg ht]
  · simp only [On, Matrix.cons_val_zero, Matrix.cons_val_one, Matrix.cons_val]
    intro hc
    field_simp at hc
    linarith

/-- **C98, vertical and horizontal lines.** The points of the vertical (horizontal) line through a point are those with the same x (y). -/
theorem C98_dir (p q : ℝ × ℝ) : (On (lineDirPt true p) q ↔ q.1 = p.1) ∧ (On (lineDirPt false p) q ↔ q.2 = p.2) ∧
    UnitNormal (lineDirPt true p) ∧ UnitNormal (lineDirPt false p) := by
  refine ⟨?_, ?_, by simp [lineDirPt, UnitNormal], by simp [lineDirPt, UnitNormal]⟩
  · simp [lineDirPt, On]; constructor <;> intro h <;> linarith
  · simp [lineDirPt, On]; constructor <;> intro h <;> linarith

/-- **C98, line from four values (partial).** It goes through both points. Missing: slopes too small (see `C01_false`). -/
theorem C98_four_partial (t : Thr ℝ) (ht : dblEps < t.nullDistance) (x1 y1 x2 y2 : ℝ) :
    (lineOf4 t x1 y1 x2 y2 = .throw ↔ eucl (x1, y1) (x2, y2) < t.nullDistance) ∧
    ∀ r, lineOf4 t x1 y1 x2 y2 = .ok r → GoodSlope t (x1, y1) (x2, y2) → UnitNormal r ∧ On r (x1, y1) ∧ On r (x2, y2) := by
  refine ⟨(C01_defined t ht x1 y1 x2 y2).1, ?_⟩
  intro r h hs
  have e : ∀ x y : ℝ, getXY (mkPt x y) = (x, y) := fun x y => getXY_mkPt _ _
  obtain ⟨h1, h2, h3⟩ := C01_through_partial t _ _ r (isFin_mkPt x1 y1) (isFin_mkPt x2 y2) h (by rw [e, e]; exact hs)
  rw [← on_onLine (isFin_mkPt _ _), e] at h2 h3
  exact ⟨h1, h2, h3⟩

/-- **C98, product of two segments (partial).** When it is defined, the point is on both supporting lines, hence aligned with the ends of both segments. Missing: slopes too small. -/
theorem C98_segments_partial (t : Thr ℝ) (h0 : dblEps < t.nullDistance) (h1 : 0 < t.nullAngleValue) (a b c d : ℝ × ℝ)
    (hab : t.nullDistance ≤ eucl a b) (hcd : t.nullDistance ≤ eucl c d) (g1 : GoodSlope t a b) (g2 : GoodSlope t c d) (p : ℝ × ℝ)
    (h : segProd t (a, b) (c, d) = .ok p) :
    (p.1 - a.1) * (b.2 - a.2) = (p.2 - a.2) * (b.1 - a.1) ∧ (p.1 - c.1) * (d.2 - c.2) = (p.2 - c.2) * (d.1 - c.1) := by
  obtain ⟨l, e1, n1, -, o1⟩ := segLine_spec h0 hab
  obtain ⟨m, e2, n2, -, o2⟩ := segLine_spec h0 hcd
  unfold segProd at h
  rw [e1, Res.bind_ok, e2, Res.bind_ok] at h
  rcases e : lineInter t l m with q | _ | _
  · rw [e] at h
    cases h
    obtain ⟨k1, k2, k3, -⟩ := (C02_intersection t h1 l m n1.1.proper n2.1.proper).2.2 q e
    rw [← on_onLine k1] at k2 k3
    have key : ∀ (l : V3 ℝ) (a b p : ℝ × ℝ), UnitNormal l → On l a → On l b → On l p → (p.1 - a.1) * (b.2 - a.2) = (p.2 - a.2) * (b.1 - a.1) := by
      intro l a b p hn ha hb hp
      unfold UnitNormal On at *
      have f1 : l 0 * (p.1 - a.1) + l 1 * (p.2 - a.2) = 0 := by linarith
      have f2 : l 0 * (b.1 - a.1) + l 1 * (b.2 - a.2) = 0 := by linarith
      have f3 : l 0 * ((p.1 - a.1) * (b.2 - a.2) - (p.2 - a.2) * (b.1 - a.1)) = 0 := by linear_combination (b.2 - a.2) * f1 - (p.2 - a.2) * f2
      have f4 : l 1 * ((p.1 - a.1) * (b.2 - a.2) - (p.2 - a.2) * (b.1 - a.1)) = 0 := by linear_combination (p.1 - a.1) * f2 - (b.1 - a.1) * f1
      linear_combination l 0 * f3 + l 1 * f4 - ((p.1 - a.1) * (b.2 - a.2) - (p.2 - a.2) * (b.1 - a.1)) * hn
    exact ⟨key l a b _ n1.1 (o1 g1).1 (o1 g1).2 k2, key m c d _ n2.1 (o2 g2).1 (o2 g2).2 k3⟩
  · rw [e] at h; cases h
  · rw [e] at h; cases h

/-! ## C99 -/

/-- **C99, results with two points.** `operator()`, `size()` and `get()` agree, and a conversion to another type of numbers keeps an intersection. Missing: the conversion of a result without intersection (it throws, `C99_false`). -/
theorem C99_two_partial (l : V3 ℝ) (hl : Proper l) (c : Circle) (hr : 0 < c.radius) :
    let i := lineCircObj l c
    (i.call = true ↔ ∃ q, On l q ∧ eucl q c.center = c.radius) ∧ (i.call = true ↔ i.size = 2) ∧ (i.call = false ↔ i.size = 0) ∧
    (i.get = .throw ↔ i.call = false) ∧
    (i.call = true → ∃ a b, i.get = .ok (a, b) ∧ On l a ∧ On l b ∧ eucl a c.center = c.radius ∧ eucl b c.center = c.radius ∧
      circLineObj true c l = .ok i ∧ circLineObj false c l = .ok i) := by
  intro i
  obtain ⟨h1, h2⟩ := C08_circle l hl c.center c.radius hr.le
  rcases e : lineCircle l c.center c.radius with _ | ⟨a, b⟩
  · have hi : i = Inter2.default := by show lineCircObj l c = _; unfold lineCircObj; rw [e]
    rw [hi]
    simp [Inter2.call, Inter2.size, Inter2.get, Inter2.default]
    simpa using h1.1 e
  · have hi : i = Inter2.make a b := by show lineCircObj l c = _; unfold lineCircObj; rw [e]
    have hi' : lineCircObj l c = Inter2.make a b := hi
    obtain ⟨k1, k2, k3, k4, -⟩ := h2 a b e
    rw [hi]
    simp only [Inter2.call, Inter2.size, Inter2.get, Inter2.make, circLineObj, hi', Inter2.convert]
    simp
    exact ⟨⟨a.1, a.2, k1, k3⟩, a.1, a.2, b.1, b.2, ⟨rfl, rfl⟩, k1, k2, k3, k4⟩

/-- The line `y = 0` and the unit circle. -/
example : Proper ![0, 1, 0] ∧ (0 : ℝ) < (⟨(0, 0), 1⟩ : Circle).radius ∧ (lineCircObj ![0, 1, 0] ⟨(0, 0), 1⟩).call = true := by
  have hp : Proper ![0, 1, 0] := by simp [Proper]
  refine ⟨hp, by norm_num, (C99_two_partial _ hp _ (by norm_num)).1.2 ⟨(1, 0), by simp [On], by simp [eucl]⟩⟩

/-- **C99 is false when the types of numbers differ.** The intersection of a circle with a line that does not meet it throws, instead of giving an empty result. -/
theorem C99_false (l : V3 ℝ) (hl : Proper l) (c : Circle) (hr : 0 < c.radius) (h : ¬ ∃ q, On l q ∧ eucl q c.center = c.radius) :
    circLineObj false c l = .throw ∧ ∃ i, circLineObj true c l = .ok i ∧ i.call = false := by
  have e := (C08_circle l hl c.center c.radius hr.le).1.2 h
  have hi : lineCircObj l c = Inter2.default := by unfold lineCircObj; rw [e]
  exact ⟨by simp [circLineObj, hi, Inter2.convert, Inter2.get, Inter2.default], _, rfl, by rw [hi]; rfl⟩

/-- The line `y = 2` and the unit circle do not meet. -/
example : circLineObj false ⟨(0, 0), 1⟩ ![0, 1, -2] = .throw := by
  refine (C99_false _ (by simp [Proper]) _ (by norm_num) ?_).1
  rintro ⟨q, h1, h2⟩
  simp [On] at h1
  rw [eucl_eq_iff (by norm_num)] at h2
  simp at h2
  nlinarith [sq_nonneg q.1]

/-- **C99, results with many points.** After any history of additions, readings and conversions, the size is the number of points given, and `get()` returns these points,
each as many times as given, in order. -/
theorem C99_many (ops : List InterMOp) :
    (interMAfter ops).length = (ops.flatMap InterMOp.given).length ∧
    List.Perm (interMAfter (ops ++ [.get])) (ops.flatMap InterMOp.given) ∧ (interMAfter (ops ++ [.get])).Pairwise (fun p q => ¬ LexLt q p) := by
  have e : interMAfter (ops ++ [.get]) = sortPts (interMAfter ops) := by unfold interMAfter; rw [List.foldl_append]; rfl
  refine ⟨(interM_perm ops).length_eq, ?_, ?_⟩
  · rw [e]; exact (sort_perm _).trans (interM_perm ops)
  · rw [e]; exact sort_sorted _

/-- **C99, order.** What `get()` returns depends only on the points given, not on the order they were given in nor on earlier readings. -/
theorem C99_order (ops ops' : List InterMOp) (h : List.Perm (ops.flatMap InterMOp.given) (ops'.flatMap InterMOp.given)) :
    interMAfter (ops ++ [.get]) = interMAfter (ops' ++ [.get]) := by
  obtain ⟨-, p1, s1⟩ := C99_many ops
  obtain ⟨-, p2, s2⟩ := C99_many ops'
  refine List.Perm.eq_of_pairwise ?_ s1 s2 (p1.trans (h.trans p2.symm))
  intro a b _ _ h1 h2
  unfold LexLt at h1 h2
  rw [not_or, not_and, not_lt, not_lt] at h1 h2
  have hx : a.1 = b.1 := le_antisymm h1.1 h2.1
  exact Prod.ext hx (le_antisymm (h1.2 hx.symm) (h2.2 hx))

/-- Two histories with the same points. -/
example : interMAfter ([.add (2, 1), .get, .addV [(1, 3), (1, 2)]] ++ [.get]) = interMAfter ([.addV [(1, 2), (2, 1)], .convert, .add (1, 3)] ++ [.get]) := by
  apply C99_order
  simp only [List.flatMap_cons, List.flatMap_nil, InterMOp.given, List.append_nil, List.nil_append, List.cons_append]
  exact (List.perm_append_comm (l₁ := [(2, 1)]) (l₂ := [(1, 3), (1, 2)])).trans
    ((List.perm_append_comm (l₁ := [(1, 3)]) (l₂ := [(1, 2), (2, 1)])))

/-! ## C100 -/

/-- **C100, failures.** An operation that does not succeed leaves the circle as it was. -/
theorem C100_keep (t : Thr ℝ) (c : Circle) (flag : Bool) (op : CircEdit) (h : (op.exec t c flag).1 ≠ .ok ()) : (op.exec t c flag).2.1 = c := by
  cases op <;> first
    | exact absurd rfl h
    | exact assign_keep h

/-- Setting a negative radius together with a centre. -/
example : ((CircEdit.both (1, 2) (-1)).exec stdR ⟨(0, 0), 1⟩ false).1 ≠ .ok () := by
  have : |(-1 : ℝ)| = 1 := by simp
  simp [CircEdit.exec, circleMake, stdR, assignRes]

/-- **C100, radius (partial).** After any history that does not write the radius alone, the radius is not negative. Missing: `set(rad)` and writing through `radius()`
(see `C100_false`). -/
theorem C100_radius_partial (t : Thr ℝ) (ops : List CircEdit) (h : ∀ op ∈ ops, ∀ r, op ≠ .radius r ∧ op ≠ .writeRadius r) : 0 ≤ (circAfter t ops).1.radius := by
  induction ops using List.reverseRecOn with
  | nil => simp [circAfter]
  | append_singleton ops op ih =>
    rw [circAfter_append]
    exact exec_nonneg (ih fun o ho => h o (by simp [ho])) (fun r => (h op (by simp) r).1) (fun r => (h op (by simp) r).2)

/-- **C100 is false: the radius alone is not checked.** `set(rad)` accepts any value, while the same value is refused with a centre. -/
theorem C100_false (t : Thr ℝ) (h0 : 0 < t.nullDistance) (p : ℝ × ℝ) :
    ((CircEdit.radius (-1)).exec t ⟨p, 1⟩ false) = (.ok (), ⟨p, -1⟩, false) ∧ ((CircEdit.both p (-1)).exec t ⟨p, 1⟩ false) = (.throw, ⟨p, 1⟩, false) := by
  refine ⟨rfl, ?_⟩
  have := ((C35_check t h0 p (-1)).1).2 (by linarith)
  simp [CircEdit.exec, this, assignRes]

/-- **C100 is false: two close points.** A circle built from two points may have a radius that is refused when given directly. -/
theorem C100_two_false (t : Thr ℝ) (h0 : 0 < t.nullDistance) :
    ∃ p q c, circle2 t p q = .ok c ∧ circleMake t false c.center c.radius = .throw := by
  have e : eucl (0, 0) (t.nullDistance, 0) = t.nullDistance := by rw [eucl_eq_iff h0.le]; simp
  have hne : ¬ PtEq t (0, 0) (t.nullDistance, 0) := by rw [PtEq, ptDist_eucl, e]; exact lt_irrefl _
  rcases hc : circle2 t (0, 0) (t.nullDistance, 0) with c | _ | _
  · refine ⟨_, _, c, hc, ((C35_check t h0 _ _).1).2 ?_⟩
    rw [two_radius_eq hc, e]; linarith
  · unfold circle2 segMake at hc; rw [if_neg hne, if_neg hne] at hc; cases hc
  · unfold circle2 segMake at hc; rw [if_neg hne, if_neg hne] at hc; cases hc

/-- **C100, moves.** Moving a circle keeps its radius; its centre is the last position given, plus the translations since. -/
theorem C100_moves (t : Thr ℝ) (before : List CircEdit) (p : ℝ × ℝ) (d : List (ℝ × ℝ)) :
    (circAfter t (before ++ .moveTo p :: d.map fun v => .translate v.1 v.2)).1 =
      ⟨(p.1 + (d.map Prod.fst).sum, p.2 + (d.map Prod.snd).sum), (circAfter t before).1.radius⟩ := by
  rw [circAfter_append]
  simp only [List.foldl_cons, CircEdit.exec]
  generalize (circAfter t before).1.radius = r
  generalize (circAfter t before).2 = f
  induction d generalizing p with
  | nil => simp
  | cons v d ih =>
    simp only [List.map_cons, List.foldl_cons, List.sum_cons]
    rw [ih (p.1 + v.1, p.2 + v.2)]
    simp only [add_assoc]

/-- **C100, smallest radius.** As long as the circle is set by a centre and a radius, by two points, or moved, its radius is at least half of the null distance. -/
theorem C100_smallest_partial (t : Thr ℝ) (h0 : 0 < t.nullDistance) (h1 : t.nullDistance ≤ 2) (ops : List CircEdit)
    (h : ∀ op ∈ ops, (∃ p, op = .center p) ∨ (∃ p r, op = .both p r) ∨ (∃ p q, op = .two p q) ∨ (∃ x y, op = .translate x y) ∨ (∃ p, op = .moveTo p) ∨ ∃ p, op = .writeCenter p) :
    t.nullDistance / 2 ≤ (circAfter t ops).1.radius ∧ (circAfter t ops).2 = false := by
  induction ops using List.reverseRecOn with
  | nil => simp [circAfter]; linarith
  | append_singleton ops op ih =>
    obtain ⟨i1, i2⟩ := ih fun o ho => h o (by simp [ho])
    rw [circAfter_append]
    simp only [List.foldl_cons, List.foldl_nil]
    rw [i2]
    generalize (circAfter t ops).1 = c at *
    rcases h op (by simp) with ⟨p, rfl⟩ | ⟨p, r, rfl⟩ | ⟨p, q, rfl⟩ | ⟨x, y, rfl⟩ | ⟨p, rfl⟩ | ⟨p, rfl⟩
    · exact ⟨i1, rfl⟩
    · refine ⟨assign_prop (P := fun d => t.nullDistance / 2 ≤ d.radius) i1 (fun d hd => ?_), rfl⟩
      rcases lt_or_ge r t.nullDistance with hr | hr
      · rw [((C35_check t h0 p r).1).2 hr] at hd; cases hd
      · rw [(C35_check t h0 p r).2 hr] at hd; cases hd; simp only; linarith
    · exact ⟨assign_prop (P := fun d => t.nullDistance / 2 ≤ d.radius) i1 (fun d hd => (two_radius hd).1), rfl⟩
    · exact ⟨i1, rfl⟩
    · exact ⟨i1, rfl⟩
    · exact ⟨i1, rfl⟩

/-- A history with a refused value. -/
example : stdR.nullDistance / 2 ≤ (circAfter stdR [.two (0, 0) (4, 0), .translate 1 2, .both (0, 0) (-3), .moveTo (5, 5)]).1.radius :=
  (C100_smallest_partial stdR (by norm_num [stdR]) (by norm_num [stdR]) _ (by simp)).1

/-- **C100, histories.** After any history, an operation that gives a whole circle and succeeds determines the circle: what happened before has no influence on it. -/
theorem C100_reset (t : Thr ℝ) (ops ops' : List CircEdit) (p q : ℝ × ℝ) (h : eucl p q ≥ t.nullDistance) :
    (circAfter t (ops ++ [.two p q])).1 = (circAfter t (ops' ++ [.two p q])).1 ∧
    (circAfter t (ops ++ [.two p q])).1.radius = eucl p q / 2 ∧
    eucl (circAfter t (ops ++ [.two p q])).1.center p = eucl p q / 2 ∧ eucl (circAfter t (ops ++ [.two p q])).1.center q = eucl p q / 2 := by
  have hne : ¬ PtEq t p q := by rw [PtEq, ptDist_eucl]; exact not_lt.2 h
  obtain ⟨c, hc⟩ : ∃ c, circle2 t p q = .ok c := by unfold circle2 segMake; rw [if_neg hne, if_neg hne]; exact ⟨_, rfl⟩
  have k : ∀ o, (circAfter t (o ++ [.two p q])).1 = c := by
    intro o; rw [circAfter_append]; simp [CircEdit.exec, hc, assignRes]
  rw [k, k]
  refine ⟨rfl, two_radius_eq hc, two_center hc⟩

/-- Two points far apart. -/
example : eucl (0, 0) (3, 4) ≥ stdR.nullDistance := by
  have e : eucl (0, 0) (3, 4) = 5 := by rw [eucl_eq_iff (by norm_num)]; norm_num
  rw [e]; norm_num [stdR]

end H2d.Props
