import Verif.Lemmas.Derived
import Verif.Props.SegmentMore
import Verif.Props.Ellipse
import Verif.Props.Pip

/-!
# C90 Segments perpendicular to a segment
# C91 Points of a vector that are inside a shape
# C92 Arrow of an oriented segment
# C93 Drawing of a line
-/

set_option linter.unusedSimpArgs false

namespace H2d.Props
open H2d H2d.Spec

/-- **C90.** Segments of null length are refused. For the other ones, four segments are given, two at each end (first end first), towards both sides; with `v` the vector of the
segment turned by a quarter of a turn, they join the end to this end plus or minus `v`. All four have the length of the segment, and are perpendicular to it. -/
theorem C90_orthog (t : Thr ℝ) (s : Seg) (v : ℝ × ℝ) (hv : v = (s.2.2 - s.1.2, -(s.2.1 - s.1.1))) :
    (segOrthogSegs t s = .throw ↔ eucl s.1 s.2 < t.nullDistance) ∧
    (t.nullDistance ≤ eucl s.1 s.2 → ∃ s0 s1 s2 s3, segOrthogSegs t s = .ok [s0, s1, s2, s3] ∧
      SameEnds s0 s.1 (s.1.1 + v.1, s.1.2 + v.2) ∧ SameEnds s1 s.1 (s.1.1 - v.1, s.1.2 - v.2) ∧
      SameEnds s2 s.2 (s.2.1 - v.1, s.2.2 - v.2) ∧ SameEnds s3 s.2 (s.2.1 + v.1, s.2.2 + v.2) ∧
      (∀ o ∈ [s0, s1, s2, s3], eucl o.1 o.2 = eucl s.1 s.2 ∧ (o.2.1 - o.1.1) * (s.2.1 - s.1.1) + (o.2.2 - o.1.2) * (s.2.2 - s.1.2) = 0 ∧ ¬ LexLt o.2 o.1)) := by
  have hn : ∀ p : Pt ℝ, ∀ w : ℝ × ℝ, (w = v ∨ w = (-v.1, -v.2)) → eucl p (p.1 + w.1, p.2 + w.2) = eucl s.1 s.2 := by
    intro p w hw
    rw [eucl_eq_iff (eucl_nonneg _ _), eucl_sq]
    rcases hw with rfl | rfl <;> rw [hv] <;> simp only <;> ring
  have e : segOrthogPts s = ((s.1.1 + v.1, s.1.2 + v.2), (s.1.1 - v.1, s.1.2 - v.2), (s.2.1 - v.1, s.2.2 - v.2), (s.2.1 + v.1, s.2.2 + v.2)) := by
    rw [hv]; unfold segOrthogPts; simp only [Prod.mk.injEq]; refine ⟨⟨?_, ?_⟩, ⟨?_, ?_⟩, ⟨?_, ?_⟩, ?_, ?_⟩ <;> first | trivial | ring
  have a0 := hn s.1 v (Or.inl rfl)
  have a1 : eucl s.1 (s.1.1 - v.1, s.1.2 - v.2) = eucl s.1 s.2 := hn s.1 _ (Or.inr rfl)
  have a2 : eucl s.2 (s.2.1 - v.1, s.2.2 - v.2) = eucl s.1 s.2 := hn s.2 _ (Or.inr rfl)
  have a3 := hn s.2 v (Or.inl rfl)
  have key : t.nullDistance ≤ eucl s.1 s.2 → segOrthogSegs t s = .ok [fixOrder s.1 (s.1.1 + v.1, s.1.2 + v.2), fixOrder s.1 (s.1.1 - v.1, s.1.2 - v.2),
      fixOrder s.2 (s.2.1 - v.1, s.2.2 - v.2), fixOrder s.2 (s.2.1 + v.1, s.2.2 + v.2)] := by
    intro h
    unfold segOrthogSegs
    simp only [e]
    rw [segMake_eq false (a0 ▸ h), Res.bind_ok, segMake_eq false (a1 ▸ h), Res.bind_ok, segMake_eq false (a2 ▸ h), Res.bind_ok, segMake_eq false (a3 ▸ h), Res.bind_ok]
    rfl
  have hfix : ∀ p q : Pt ℝ, SameEnds (fixOrder p q) p q ∧ ¬ LexLt (fixOrder p q).2 (fixOrder p q).1 := by
    intro p q
    obtain ⟨h1, h2⟩ := fixOrder_spec p q
    exact ⟨by rcases h1 with h | h <;> rw [h] <;> simp [SameEnds], h2⟩
  have hperp : ∀ (o : Seg) (p : Pt ℝ) (w : ℝ × ℝ), (w = v ∨ w = (-v.1, -v.2)) → o = fixOrder p (p.1 + w.1, p.2 + w.2) →
      eucl o.1 o.2 = eucl s.1 s.2 ∧ (o.2.1 - o.1.1) * (s.2.1 - s.1.1) + (o.2.2 - o.1.2) * (s.2.2 - s.1.2) = 0 ∧ ¬ LexLt o.2 o.1 := by
    intro o p w hw ho
    have hh := hn p w hw
    obtain ⟨h1, h2⟩ := hfix p (p.1 + w.1, p.2 + w.2)
    rw [← ho] at h1 h2
    refine ⟨?_, ?_, h2⟩
    · rcases h1 with h | h <;> rw [h]
      · exact hh
      · rw [eucl_comm]; exact hh
    · rcases h1 with h | h <;> rw [h] <;> rcases hw with rfl | rfl <;> rw [hv] <;> simp only <;> ring
  refine ⟨⟨fun h => ?_, fun h => ?_⟩, fun h => ?_⟩
  · by_contra hc
    rw [key (not_lt.1 hc)] at h; cases h
  · unfold segOrthogSegs
    simp only [e]
    rw [(segMake_throw false).2 (by rw [a0]; exact h)]; rfl
  · refine ⟨_, _, _, _, key h, (hfix _ _).1, (hfix _ _).1, (hfix _ _).1, (hfix _ _).1, ?_⟩
    simp only [List.mem_cons, List.not_mem_nil, or_false, forall_eq_or_imp, forall_eq]
    exact ⟨hperp _ s.1 v (Or.inl rfl) rfl, hperp _ s.1 _ (Or.inr rfl) rfl, hperp _ s.2 _ (Or.inr rfl) rfl, hperp _ s.2 v (Or.inl rfl) rfl⟩

/-- On a literal segment. -/
example : ∃ s1 s2 s3, segOrthogSegs stdR ((0, 0), (3, 4)) = .ok [((0, 0), (4, -3)), s1, s2, s3] := by
  have e5 : eucl (0, 0) (3, 4) = 5 := by rw [eucl_eq_iff (by norm_num)]; norm_num
  obtain ⟨s0, s1, s2, s3, h1, h2, -, -, -, h3⟩ := (C90_orthog stdR ((0, 0), (3, 4)) (4, -3) (by norm_num)).2 (by simp only; rw [e5]; norm_num [stdR])
  have h4 := (h3 s0 (by simp)).2.2
  rcases h2 with h | h <;> subst h
  · exact ⟨s1, s2, s3, by rw [h1]; norm_num⟩
  · exact absurd (by norm_num [LexLt]) h4

open Classical in
/-- **C91.** The points kept are exactly the ones strictly inside, in the order of the vector, for circles and for rectangles; nothing is thrown. -/
theorem C91_circle_rect (t : Thr ℝ) (pts : List (Pt ℝ)) :
    (∀ c : Circle, ptsInShape t (.circle c) pts = .ok (pts.filter (fun p => decide (eucl p c.center < c.radius)))) ∧
    (∀ r : FRect ℝ, ptsInShape t (.rect r) pts = .ok (pts.filter (fun p => decide (StrictlyIn p r)))) := by
  constructor
  · intro c
    refine Axes.keepRes_filter _ (fun p => eucl p c.center < c.radius) _ (fun p _ => ⟨_, rfl, ?_⟩)
    rw [decide_eq_true_iff, PtInCircle, ptDist_eucl]
  · intro r
    refine Axes.keepRes_filter _ (fun p => StrictlyIn p r) _ (fun p _ => ⟨_, rfl, ?_⟩)
    simp only [Pt.isInsideRect, ptIsInside, Bool.and_eq_true, decide_eq_true_eq, StrictlyIn]
    tauto

/-- On a literal case. -/
example : ptsInShape stdR (.rect ⟨(0, 0), (2, 2)⟩) [(1, 1), (2, 1), (3, 3), (1, 1/2)] = .ok [(1, 1), (1, 1/2)] := by
  rw [(C91_circle_rect stdR _).2]
  have h1 : StrictlyIn (1, 1) ⟨(0, 0), (2, 2)⟩ := by norm_num [StrictlyIn]
  have h2 : ¬ StrictlyIn (2, 1) ⟨(0, 0), (2, 2)⟩ := by norm_num [StrictlyIn]
  have h3 : ¬ StrictlyIn (3, 3) ⟨(0, 0), (2, 2)⟩ := by norm_num [StrictlyIn]
  have h4 : StrictlyIn (1, 1/2) ⟨(0, 0), (2, 2)⟩ := by norm_num [StrictlyIn]
  simp only [List.filter_cons, h1, h2, h3, h4, decide_true, decide_false, if_true, List.filter_nil, Bool.false_eq_true, if_false]

open Classical in
/-- **C91, ellipses and polygons (partial).** The points kept are exactly the ones inside. Missing: ellipses whose angle is not found (`C56` has the negation), polygons that are not simple, points near the
lines of the edges (`C74` has the negations). -/
theorem C91_partial (t : Thr ℝ) (pts : List (Pt ℝ)) :
    (∀ x y a b th : ℝ, 0 < t.nullDenom → 0 < b → b ≤ a → t.nullDenom ≤ 4 * a ^ 2 * b ^ 2 → AngleOk t a b th →
      ptsInShape t (.ell (Ell.new x y a b th)) pts = .ok (pts.filter (fun p => decide (InsideEll x y a b th p)))) ∧
    (∀ poly res, dblEps < t.nullDistance → 0 < t.nullAngleValue → 0 < t.nullOrthogDistance → isSimple (segInterB t) true poly = true →
      (∀ p ∈ pts, GoodRefs t poly p ∧ FarFromLines t.nullDistance poly p) → ptsInPoly t poly pts = .ok res → res = pts.filter (fun p => decide (EvenOdd poly p))) := by
  constructor
  · intro x y a b th h1 h2 h3 h4 h5
    exact Axes.keepRes_filter _ (fun p => InsideEll x y a b th p) _ (fun p _ => C56_inside_partial t x y a b th h1 h2 h3 h4 h5 p)
  · intro poly res h1 h2 h3 h4 h5 h
    have hall : ∀ l : List (Pt ℝ), ∀ r, keepRes (ptInsidePoly t true poly) l = .ok r → ∀ p ∈ l, ∃ b, ptInsidePoly t true poly p = .ok b := by
      intro l
      induction l with
      | nil => simp
      | cons a l ih =>
        intro r hr p hp
        rw [keepRes] at hr
        rcases ha : ptInsidePoly t true poly a with b | _ | _ <;> rw [ha] at hr
        · rw [Res.bind_ok] at hr
          rcases hb : keepRes (ptInsidePoly t true poly) l with r' | _ | _ <;> rw [hb] at hr
          · rcases List.mem_cons.1 hp with rfl | hp
            · exact ⟨b, ha⟩
            · exact ih r' hb p hp
          · cases hr
          · cases hr
        · cases hr
        · cases hr
    have := Axes.keepRes_filter (ptInsidePoly t true poly) (fun p => EvenOdd poly p) pts (fun p hp => by
      obtain ⟨b, hb⟩ := hall pts res h p hp
      exact ⟨b, hb, C74_partial t h1 h2 h3 poly p h4 (h5 p hp).1 (h5 p hp).2 b hb⟩)
    rw [ptsInPoly, this] at h
    cases h
    rfl

/-- **C92 (partial).** For a segment that is neither nearly horizontal nor nearly vertical: with `u` its unit direction and `n` the unit normal, the bar joins the two points at 8 on both sides of the first
end; the two other lines start at 8 on both sides of the point at 8 before the second end, and both go to the second end. Missing: nearly horizontal or vertical segments (`C92_false`). -/
theorem C92_partial (t : Thr ℝ) (h1 : dblEps < t.nullDistance) (s : Seg) (hg : GoodSeg t s) (hx : GoodSlopeX t s.1 s.2) :
    ∃ bar a b, arrowSegs t s = .ok (bar, (a, s.2), (b, s.2)) ∧ Around s.1 (-(unitDir s).2, (unitDir s).1) 8 bar ∧
      Around (s.2.1 - 8 * (unitDir s).1, s.2.2 - 8 * (unitDir s).2) (-(unitDir s).2, (unitDir s).1) 8 (a, b) := by
  have hp := dblEps_pos
  obtain ⟨l, w, a1, a2, a3, a4, a5, a6, a7, a8, a9, a10⟩ := Axes.seg_dir h1 hg hx
  have hL : 0 < eucl s.1 s.2 := by linarith [hg.1]
  obtain ⟨o, pp, b1, b2, b3, -⟩ := Axes.perp_points (t := t) (by linarith) a2 a8 s.1 8
  obtain ⟨pB, c1, c2⟩ := Axes.line_points (t := t) (by linarith) a2 a4 8
  have c3 : Around s.2 (unitDir s) 8 pB := (Axes.around_neg (n := unitDir s) a5 (by rw [a6, a7]; simp)).1 c2
  have hw' : -w = 1 ∨ -w = -1 := by rcases a5 with h | h <;> rw [h] <;> simp
  have hnn : (l 0, l 1) = (-w * (-(unitDir s).2, (unitDir s).1).1, -w * (-(unitDir s).2, (unitDir s).1).2) := by rw [a6, a7]; simp
  have dist1 : eucl s.1 (s.2.1 + 8 * (unitDir s).1, s.2.2 + 8 * (unitDir s).2) = eucl s.1 s.2 + 8 := by
    rw [eucl_eq_iff (by linarith)]
    generalize eucl s.1 s.2 = L at *
    generalize unitDir s = u at *
    rw [a10]; simp only; linear_combination (L + 8) ^ 2 * a9
  have dist2 : eucl s.1 (s.2.1 - 8 * (unitDir s).1, s.2.2 - 8 * (unitDir s).2) = |eucl s.1 s.2 - 8| := by
    rw [eucl_eq_iff (abs_nonneg _), sq_abs]
    generalize eucl s.1 s.2 = L at *
    generalize unitDir s = u at *
    rw [a10]; simp only; linear_combination (L - 8) ^ 2 * a9
  have hlt : |eucl s.1 s.2 - 8| < eucl s.1 s.2 + 8 := by rw [abs_lt]; constructor <;> linarith
  have hp0 : (if ptDist s.1 pB.1 > ptDist s.1 pB.2 then pB.2 else pB.1) = (s.2.1 - 8 * (unitDir s).1, s.2.2 - 8 * (unitDir s).2) := by
    simp only [ptDist_eucl]
    rcases c3 with rfl | rfl <;> simp only <;> rw [dist1, dist2]
    · rw [if_pos hlt]
    · rw [if_neg (not_lt.2 hlt.le)]
  obtain ⟨o2, pC, d1, d2, d3, -⟩ := Axes.perp_points (t := t) (by linarith) a2 a8 (s.2.1 - 8 * (unitDir s).1, s.2.2 - 8 * (unitDir s).2) 8
  refine ⟨pp, pC.1, pC.2, ?_, (Axes.around_neg hw' hnn).1 b3, (Axes.around_neg hw' hnn).1 d3⟩
  unfold arrowSegs
  rw [a1, Res.bind_ok, b1, Res.bind_ok, b2, Res.bind_ok, c1, Res.bind_ok]
  simp only [hp0]
  rw [d1, Res.bind_ok, d2, Res.bind_ok]
  rfl

/-- The hypotheses of C92 are met. -/
example : ∃ bar a b, arrowSegs stdR ((0, 0), (30, 40)) = .ok (bar, (a, (30, 40)), (b, (30, 40))) ∧ Around (0, 0) (-(4/5), 3/5) 8 bar ∧ Around (126/5, 168/5) (-(4/5), 3/5) 8 (a, b) := by
  have e5 : eucl (0, 0) (30, 40) = 50 := by rw [eucl_eq_iff (by norm_num)]; norm_num
  have hu : unitDir ((0, 0), (30, 40)) = (3/5, 4/5) := by unfold unitDir; simp only; rw [e5]; norm_num
  obtain ⟨bar, a, b, h1, h2, h3⟩ := C92_partial stdR (by unfold dblEps; norm_num [stdR]) ((0, 0), (30, 40))
    ⟨by simp only; rw [e5]; norm_num [stdR], Or.inr (by simp only; rw [e5]; norm_num [stdR])⟩ (Or.inr (by simp only; rw [e5]; norm_num [stdR]))
  rw [hu] at h2 h3
  norm_num at h2 h3
  exact ⟨bar, a, b, h1, h2, by norm_num; exact h3⟩

/-- C92 is false for nearly horizontal segments, whatever the thresholds: the arrow of such a segment cannot be computed, drawing it throws. -/
theorem C92_false (t : Thr ℝ) (h1 : 0 < t.nullDenom) (h1' : t.nullDenom ≤ 1 / 2) (h2 : 0 < t.nullDistance) :
    ∃ s : Seg, (∃ p q, segMake t true p q = .ok s) ∧ arrowSegs t s = .throw := by
  obtain ⟨M, hM1, hM2, hM3⟩ : ∃ N : ℝ, 1 ≤ N ∧ 1 < N * t.nullDenom ∧ t.nullDistance ≤ N := by
    have : 0 < 1 / t.nullDenom := by positivity
    refine ⟨1 / t.nullDenom + t.nullDistance + 1, by linarith, ?_, by linarith⟩
    have : 1 / t.nullDenom * t.nullDenom = 1 := by field_simp
    nlinarith
  have hsq : Real.sqrt (M ^ 2 + 1) ≤ 2 * M := by
    rw [show 2 * M = Real.sqrt ((2 * M) ^ 2) by rw [Real.sqrt_sq (by linarith)]]; apply Real.sqrt_le_sqrt; nlinarith
  have hsq0 : 0 < Real.sqrt (M ^ 2 + 1) := by positivity
  have hsq2 := Real.sq_sqrt (show 0 ≤ M ^ 2 + 1 by positivity)
  have hlen : eucl (M * (t.nullDistance + 1) + M, 1) (M * (t.nullDistance + 1), 0) = Real.sqrt (M ^ 2 + 1) := by
    rw [eucl]; congr 1; ring
  have hMs : M ≤ Real.sqrt (M ^ 2 + 1) := Real.le_sqrt_of_sq_le (by linarith)
  refine ⟨((M * (t.nullDistance + 1) + M, 1), (M * (t.nullDistance + 1), 0)), ⟨_, _, segMake_eq true (by rw [hlen]; linarith)⟩, ?_⟩
  have hbad := segLine_bad (N := M * (t.nullDistance + 1)) hM1 hM2 hM3
  have hline : segLine t ((M * (t.nullDistance + 1) + M, 1), (M * (t.nullDistance + 1), 0)) =
      .ok ![1 / Real.sqrt (M ^ 2 + 1), M / Real.sqrt (M ^ 2 + 1), M * (t.nullDistance + 1) / Real.sqrt (M ^ 2 + 1)] := by
    rw [← hbad]; unfold segLine; exact C01_symmetric t h1 _ _
  have hun : UnitNormal ![1 / Real.sqrt (M ^ 2 + 1), M / Real.sqrt (M ^ 2 + 1), M * (t.nullDistance + 1) / Real.sqrt (M ^ 2 + 1)] := by
    unfold UnitNormal; simp only [Matrix.cons_val_zero, Matrix.cons_val_one]
    generalize Real.sqrt (M ^ 2 + 1) = S at *
    field_simp; linarith
  obtain ⟨o, pp, b1, b2, -, -⟩ := Axes.perp_points (t := t) h2.le hun (Or.inr (by
    simp only [Matrix.cons_val_one, Matrix.cons_val_zero]
    rw [abs_of_pos (by positivity)]
    refine h1'.trans ?_
    rw [div_le_div_iff₀ (by norm_num) hsq0]; linarith)) (M * (t.nullDistance + 1) + M, 1) 8
  have : getPoints t ![1 / Real.sqrt (M ^ 2 + 1), M / Real.sqrt (M ^ 2 + 1), M * (t.nullDistance + 1) / Real.sqrt (M ^ 2 + 1)]
      (M * (t.nullDistance + 1), 0) 8 = .throw := by
    unfold getPoints
    rw [if_pos]
    rw [lineDist_unit hun]
    simp only [Matrix.cons_val_zero, Matrix.cons_val_one, Matrix.cons_val]
    generalize Real.sqrt (M ^ 2 + 1) = S at *
    rw [abs_of_pos (by positivity), gt_iff_lt, mul_zero, add_zero, one_div_mul_eq_div, ← add_div, lt_div_iff₀ hsq0]
    nlinarith
  unfold arrowSegs
  rw [hline, Res.bind_ok, b1, Res.bind_ok, b2, Res.bind_ok, this]
  rfl

/-- **C93 (partial).** The drawing of a line on an image of more than 2 columns and rows: what is drawn is exactly the part of the line that is in the image, nothing if there is none,
when no corner of the image is closer to the line than the null distance and no side met is nearly parallel to it. Missing: the other lines (`C93_false`). -/
theorem C93_partial (t : Thr ℝ) (ht : RectThr t) (h1 : t.nullDistance ≤ 1) (cols rows : ℕ) (hc : 2 < cols) (hr : 2 < rows) (l : V3 ℝ) (hl : UnitNormal l)
    (hfar : ∀ c ∈ (imageRect cols rows).get4Pts, ∀ q, On l q → t.nullDistance ≤ eucl c q)
    (hang : ∀ e ∈ rectSides (imageRect cols rows), ∀ q, OnSeg e.1 e.2 q → On l q → t.nullAngleValue ≤ lineSegAngle l e) :
    (∃ p q, lineDrawn t cols rows l = .ok (some (p, q)) ∧ ∀ x, OnSeg p q x ↔ On l x ∧ InImage cols rows x) ∨
    (lineDrawn t cols rows l = .ok none ∧ ∀ x, InImage cols rows x → ¬ On l x) := by
  have hn : 0 < t.nullDistance := dblEps_pos.trans ht.dist
  have hc' : (3 : ℝ) ≤ cols := by exact_mod_cast hc
  have hr' : (3 : ℝ) ≤ rows := by exact_mod_cast hr
  have hlong : LongSides t.nullDistance (imageRect cols rows) := by
    unfold LongSides imageRect; simp only; constructor <;> linarith
  have hpr : (imageRect cols rows).p1.1 < (imageRect cols rows).p2.1 ∧ (imageRect cols rows).p1.2 < (imageRect cols rows).p2.2 := by
    unfold imageRect; simp only; constructor <;> linarith
  have hof : FRect.ofPts t.nullOrthogDistance ((0 : ℝ), (0 : ℝ)) ((cols : ℝ) - 1, (rows : ℝ) - 1) = .ok (imageRect cols rows) := by
    have o := ht.orth
    rcases ofPts_cases t.nullOrthogDistance ((0 : ℝ), (0 : ℝ)) ((cols : ℝ) - 1, (rows : ℝ) - 1) with ⟨-, h⟩ | ⟨h, -⟩
    · simp only [zero_sub, abs_neg] at h
      rw [abs_of_pos (by linarith), abs_of_pos (by linarith)] at h
      rcases h with h | h <;> linarith
    · rw [h]; simp only
      rw [min_eq_left (by linarith), min_eq_left (by linarith), max_eq_right (by linarith), max_eq_right (by linarith)]; rfl
  have hnot : ∀ c ∈ (imageRect cols rows).get4Pts, ¬ On l c := by
    intro c hc ho
    have := hfar c hc c ho
    rw [eucl_self] at this
    linarith
  obtain ⟨pts, e1, e2, e3, e4⟩ := C80_line_partial t ht _ hlong l hl hfar hang
  have hrun : ∀ v, (match pts with | [p, q] => do let s ← segMake t false p q; pure (some s) | _ => pure none : Res (Option Seg)) = v → lineDrawn t cols rows l = v := by
    intro v hv
    unfold lineDrawn
    rw [if_neg (by omega), hof, Res.bind_ok, e1, Res.bind_ok]
    exact hv
  rcases e3 with e3 | e3
  · right
    rw [List.length_eq_zero_iff] at e3
    subst e3
    refine ⟨hrun _ rfl, fun x hx ho => ?_⟩
    have hno : ∀ e ∈ rectSides (imageRect cols rows), 0 ≤ RectM.lv l e.1 * RectM.lv l e.2 := by
      intro e he
      by_contra hc
      obtain ⟨q, q1, q2⟩ := RectM.lv_hit (not_le.1 hc)
      have := (e2 q).2 ⟨q2, (RectM.onRect_iff hpr q).2 ⟨e, he, q1⟩⟩
      simp at this
    simp only [FRect.get4Pts, List.forall_mem_cons] at hnot
    obtain ⟨k0, k1, k2, k3, -⟩ := hnot
    rw [RectM.on_iff_lv] at k0 k1 k2 k3
    unfold rectSides at hno
    simp only [List.forall_mem_cons] at hno
    obtain ⟨n0, n1, n2, n3, -⟩ := hno
    have pos_of : ∀ {a b : ℝ}, 0 < a → b ≠ 0 → 0 ≤ a * b → 0 < b := fun ha hb h => lt_of_le_of_ne (by by_contra hc; nlinarith) hb.symm
    have neg_of : ∀ {a b : ℝ}, a < 0 → b ≠ 0 → 0 ≤ a * b → b < 0 := fun ha hb h => lt_of_le_of_ne (by by_contra hc; nlinarith) hb
    rcases lt_or_gt_of_ne k0 with h0 | h0
    · have g1 := neg_of h0 k1 n0
      have g2 := neg_of g1 k2 n1
      have g3 := neg_of g2 k3 n2
      exact Axes.rect_pos hpr hx (-1) (by linarith) (by linarith) (by linarith) (by linarith) ho
    · have g1 := pos_of h0 k1 n0
      have g2 := pos_of g1 k2 n1
      have g3 := pos_of g2 k3 n2
      exact Axes.rect_pos hpr hx 1 (by linarith) (by linarith) (by linarith) (by linarith) ho
  · left
    obtain ⟨p, q, rfl⟩ := List.length_eq_two.1 e3
    have hne : p ≠ q := by
      intro h; subst h; simp at e4
    obtain ⟨op, cp⟩ := (e2 p).1 (by simp)
    obtain ⟨oq, cq⟩ := (e2 q).1 (by simp)
    have hd := Axes.contour_apart hn hl hlong hfar hne op oq cp cq
    refine ⟨(fixOrder p q).1, (fixOrder p q).2, hrun _ ?_, fun x => ?_⟩
    · simp only
      rw [segMake_eq false hd, Res.bind_ok]; rfl
    · rw [Pip.onSeg_fix, Axes.chord hn hl hlong hnot hne op oq cp cq]
      rfl

/-- The hypotheses of C93 are met: an image of 11 x 11, the line 3x + 4y = 25. -/
example : ∃ p q, lineDrawn stdR 11 11 ![3/5, 4/5, -5] = .ok (some (p, q)) ∧ ∀ x, OnSeg p q x ↔ 3 * x.1 + 4 * x.2 = 25 ∧ InImage 11 11 x := by
  have hon : ∀ q : Pt ℝ, On ![3/5, 4/5, -5] q ↔ 3 * q.1 + 4 * q.2 = 25 := by
    intro q; simp only [On, Matrix.cons_val_zero, Matrix.cons_val_one, Matrix.cons_val]; constructor <;> intro h <;> linarith
  have him : imageRect 11 11 = ⟨(0, 0), (10, 10)⟩ := by unfold imageRect; norm_num
  have h := C93_partial stdR Rank.stdR_thr (by norm_num [stdR]) 11 11 (by norm_num) (by norm_num) ![3/5, 4/5, -5] (by norm_num [UnitNormal])
    (by
      intro c hc q hq
      rw [hon] at hq
      rw [him] at hc
      apply Pip.le_eucl
      simp only [FRect.get4Pts, List.mem_cons, List.not_mem_nil, or_false] at hc
      rcases hc with rfl | rfl | rfl | rfl <;> simp only [stdR] <;> nlinarith [sq_nonneg (4 * q.1 - 3 * q.2), sq_nonneg (4 * (q.1 - 10) - 3 * q.2), sq_nonneg (4 * q.1 - 3 * (q.2 - 10)), sq_nonneg (4 * (q.1 - 10) - 3 * (q.2 - 10)), sq_nonneg (3 * q.1 + 4 * q.2)])
    (by
      intro e he q _ _
      rw [him] at he
      apply RectM.angle_std (c := 4/5) _ (by norm_num)
      have v : eucl (0, 0) (0, 10) = 10 := by rw [eucl_eq_iff (by norm_num)]; norm_num
      have v2 : eucl (0, 10) (10, 10) = 10 := by rw [eucl_eq_iff (by norm_num)]; norm_num
      have v3 : eucl (10, 10) (10, 0) = 10 := by rw [eucl_eq_iff (by norm_num)]; norm_num
      have v4 : eucl (10, 0) (0, 0) = 10 := by rw [eucl_eq_iff (by norm_num)]; norm_num
      unfold rectSides at he
      simp only [List.mem_cons, List.not_mem_nil, or_false] at he
      rcases he with rfl | rfl | rfl | rfl <;> simp only [v, v2, v3, v4, Matrix.cons_val_zero, Matrix.cons_val_one] <;> norm_num [abs_le, abs_mul])
  simp only [hon] at h
  rcases h with h | ⟨-, h⟩
  · exact h
  · exact absurd (show (3 : ℝ) * (3, 4).1 + 4 * ((3, 4) : ℝ × ℝ).2 = 25 by norm_num) (h (3, 4) (by norm_num [InImage]))

/-- **C93, small images.** The drawing of a line fails on an assertion exactly on images of at most 2 columns or at most 2 rows, whatever the line. -/
theorem C93_small (t : Thr ℝ) (cols rows : ℕ) (l : V3 ℝ) : lineDrawn t cols rows l = .ub ↔ cols ≤ 2 ∨ rows ≤ 2 := by
  unfold lineDrawn
  split_ifs with h
  · exact ⟨fun _ => h.symm, fun _ => rfl⟩
  · refine ⟨fun e => absurd e ?_, fun e => absurd e.symm h⟩
    refine Pip.bind_ne_ub (Axes.ofPts_ne_ub _ _ _) fun r => Pip.bind_ne_ub (Axes.rectLineInter_ne_ub t r l) fun pts => ?_
    split
    · exact Pip.bind_ne_ub (Pip.segMake_ne_ub _ _ _ _) fun s => by simp
    · simp

/-- An image of 3 x 2, and an image of 3 x 3. -/
example (l : V3 ℝ) : lineDrawn stdR 3 2 l = .ub ∧ lineDrawn stdR 3 3 l ≠ .ub := ⟨(C93_small _ _ _ _).2 (by norm_num), fun h => by have := (C93_small _ _ _ _).1 h; norm_num at this⟩

/-- C93 is false for lines nearly parallel to a side: with the default thresholds, on an image of 2001 x 2001 nothing is drawn for the line through (1000,0) and (2000,1/2),
though 1000 pixels of it are in the image. -/
theorem C93_false : ∃ (l : V3 ℝ), UnitNormal l ∧ On l (1000, 0) ∧ On l (2000, 1/2) ∧ InImage 2001 2001 (1000, 0) ∧ InImage 2001 2001 (2000, 1/2) ∧
    lineDrawn stdR 2001 2001 l = .ok none := by
  obtain ⟨w, hw⟩ : ∃ w : ℝ, w = Real.sqrt 4000001 := ⟨_, rfl⟩
  have hw0 : 0 < w := by rw [hw]; exact Real.sqrt_pos.2 (by norm_num)
  have hw2 : w * w = 4000001 := by rw [hw]; exact Real.mul_self_sqrt (by norm_num)
  have hwl : w < 2000.001 := by nlinarith
  have hwg : 2000 < w := by nlinarith
  have hlt := Rank.stdR_thr
  obtain ⟨l, hl⟩ : ∃ l : V3 ℝ, l = ![1 / w, -2000 / w, -1000 / w] := ⟨_, rfl⟩
  have l0 : l 0 = 1 / w := by rw [hl]; rfl
  have l1 : l 1 = -2000 / w := by rw [hl]; rfl
  have l2 : l 2 = -1000 / w := by rw [hl]; rfl
  have hu : UnitNormal l := by
    unfold UnitNormal
    rw [l0, l1]; field_simp; nlinarith
  have hon : ∀ q : Pt ℝ, On l q ↔ q.1 - 2000 * q.2 = 1000 := by
    intro q
    unfold On
    rw [l0, l1, l2, show 1 / w * q.1 + -2000 / w * q.2 + -1000 / w = (q.1 - 2000 * q.2 - 1000) / w by ring, div_eq_zero_iff]
    constructor
    · rintro (h | h)
      · linarith
      · linarith
    · intro h; left; linarith
  have hlong : LongSides stdR.nullDistance ⟨(0, 0), (2000, 2000)⟩ := by norm_num [LongSides, stdR]
  have hg := RectM.sides_good hlt.denom (dblEps_pos.trans hlt.dist) hlong
  have hok : ∀ e ∈ rectSides ⟨(0, 0), (2000, 2000)⟩, ∃ i, segLineInter stdR (fixOrder e.1 e.2) l = .ok i :=
    fun e he => Inside.segLineInter_ok hlt.dist hlt.ang0 (Inside.goodSeg_fix (hg e he)) hu
  have v2 : eucl (0, 2000) (2000, 2000) = 2000 := by rw [eucl_eq_iff (by norm_num)]; norm_num
  have v4 : eucl (2000, 0) (0, 0) = 2000 := by rw [eucl_eq_iff (by norm_num)]; norm_num
  have hsmall : Real.arccos (2000 / w) < 1 / 1000 := by
    have hpi := Real.two_le_pi
    rw [← Real.arccos_cos (x := 1 / 1000) (by norm_num) (by linarith)]
    apply Real.arccos_lt_arccos
    · have := Real.neg_one_le_cos (1 / 1000); exact this
    · have hb := Real.cos_bound (x := 1 / 1000) (by norm_num [abs_le])
      rw [abs_le] at hb
      have hb2 := hb.2
      have : (0.9999995001 : ℝ) < 2000 / w := by rw [lt_div_iff₀ hw0]; nlinarith
      norm_num at hb2
      linarith
    · rw [div_le_one hw0]; linarith
  have hnone : ∀ e ∈ rectSides ⟨(0, 0), (2000, 2000)⟩, lineSegAngle l e < stdR.nullAngleValue → segLineInter stdR (fixOrder e.1 e.2) l = .ok none := by
    intro e he ha
    exact (C69_line_partial stdR hlt.dist hlt.ang0 _ (Inside.goodSeg_fix (hg e he)) l hu).1 (by rw [RectM.lineSegAngle_fix]; exact ha)
  have s1 : segLineInter stdR (fixOrder (0, 2000) (2000, 2000)) l = .ok none := by
    apply hnone (((0, 2000), (2000, 2000)) : Seg) (by simp [rectSides])
    unfold lineSegAngle
    simp only; rw [v2, l0, l1, show (-2000 / w * (2000 - 0) - 1 / w * (2000 - 2000)) = - (2000 * (2000 / w)) by ring, abs_neg, abs_of_pos (by positivity),
      show 2000 * (2000 / w) / 2000 = 2000 / w by ring]
    exact hsmall
  have s3 : segLineInter stdR (fixOrder (2000, 0) (0, 0)) l = .ok none := by
    apply hnone (((2000, 0), (0, 0)) : Seg) (by simp [rectSides])
    unfold lineSegAngle
    simp only; rw [v4, l0, l1, show (-2000 / w * (0 - 2000) - 1 / w * (0 - 0)) = (2000 * (2000 / w)) by ring, abs_of_pos (by positivity),
      show 2000 * (2000 / w) / 2000 = 2000 / w by ring]
    exact hsmall
  have s0 : segLineInter stdR (fixOrder (0, 0) (0, 2000)) l = .ok none := by
    have hm : (((0, 0), (0, 2000)) : Seg) ∈ rectSides ⟨(0, 0), (2000, 2000)⟩ := by simp [rectSides]
    obtain ⟨i, hi⟩ := hok _ hm
    simp only at hi
    rw [hi]
    rcases i with _ | p
    · rfl
    · exfalso
      obtain ⟨p1, p2⟩ := C69_line_partial stdR hlt.dist hlt.ang0 _ (Inside.goodSeg_fix (hg _ hm)) l hu
      simp only at p1 p2
      have ha : stdR.nullAngleValue ≤ lineSegAngle l (fixOrder (0, 0) (0, 2000)) := by
        by_contra hc
        rw [p1 (not_le.1 hc)] at hi
        cases hi
      obtain ⟨m1, -, q, m2, m3⟩ := (p2 ha).1 _ hi
      obtain ⟨k, k0, k1, rfl⟩ := Pip.onSeg_fix.1 m2
      rw [hon] at m1
      have b1 := (abs_lt.1 ((RectM.abs_fst_le _ _).trans_lt m3))
      have b2 := (abs_lt.1 ((RectM.abs_snd_le _ _).trans_lt m3))
      simp only [stdR] at b1 b2
      obtain ⟨b11, b12⟩ := b1
      obtain ⟨b21, b22⟩ := b2
      nlinarith
  obtain ⟨i, s2⟩ := hok (((2000, 2000), (2000, 0)) : Seg) (by simp [rectSides])
  simp only at s2
  refine ⟨l, hu, (hon _).2 (by norm_num), (hon _).2 (by norm_num), by norm_num [InImage], by norm_num [InImage], ?_⟩
  have hof : FRect.ofPts stdR.nullOrthogDistance ((0 : ℝ), (0 : ℝ)) (((2001 : ℕ) : ℝ) - 1, ((2001 : ℕ) : ℝ) - 1) = .ok ⟨(0, 0), (2000, 2000)⟩ := by
    rcases ofPts_cases stdR.nullOrthogDistance ((0 : ℝ), (0 : ℝ)) (((2001 : ℕ) : ℝ) - 1, ((2001 : ℕ) : ℝ) - 1) with ⟨-, h⟩ | ⟨h, -⟩
    · norm_num [stdR] at h
    · rw [h]; norm_num
  have hres : rectLineInter stdR ⟨(0, 0), (2000, 2000)⟩ l = .ok (match i with | none => [] | some p => [p]) := by
    unfold rectLineInter
    rw [Inside.rectSegs_ok (fun e he => (hg e he).1), Res.bind_ok]
    unfold rectSides
    simp only [List.map_cons, List.map_nil, rectLineLoop, s0, s1, s2, s3, Res.bind_ok]
    rcases i with _ | p <;> simp
  unfold lineDrawn
  rw [if_neg (by norm_num), hof, Res.bind_ok, hres, Res.bind_ok]
  rcases i with _ | p <;> rfl

end H2d.Props
