import Verif.Spec.Axes
import Verif.Lemmas.Tangent
import Verif.Lemmas.Ellipse
import Verif.Props.Line
import Verif.Props.RectMore
import Mathlib.Analysis.Real.Pi.Bounds

/-! # Lemmas for axes, oriented boxes, arrows -/

set_option linter.unusedVariables false
set_option linter.unusedSimpArgs false

namespace H2d.Axes
open H2d H2d.Spec H2d.Props Real

theorem or_of_sq_one {w : ℝ} (h : w ^ 2 = 1) : w = 1 ∨ w = -1 := by
  rw [show (1 : ℝ) = 1 ^ 2 by norm_num] at h
  exact sq_eq_sq_iff_eq_or_eq_neg.1 h

/-- A line built from two points along a unit direction. -/
theorem dir_line {t : Thr ℝ} (h1 : dblEps < t.nullDistance) {p : Pt ℝ} {u : ℝ × ℝ} (hu : u.1 ^ 2 + u.2 ^ 2 = 1) (hg : GoodDir t u) {k : ℝ}
    (hk : t.nullDistance ≤ k) :
    ∃ l w, lineOfPts t (mkPt (p.1 + k * u.1) (p.2 + k * u.2)) (mkPt p.1 p.2) = .ok l ∧ UnitNormal l ∧ On l p ∧ On l (p.1 + k * u.1, p.2 + k * u.2) ∧
      (w = 1 ∨ w = -1) ∧ l 0 = - w * u.2 ∧ l 1 = w * u.1 ∧ (l 1 = 0 ∨ t.nullDenom ≤ |l 1|) := by
  have hp := dblEps_pos
  have hk0 : 0 < k := by linarith
  obtain ⟨e, g1, g2⟩ := Tan.good_dir (p := p) hu hg hk0 hk
  obtain ⟨l, a1, a2, -, a3⟩ := segLine_spec h1 (a := (p.1 + k * u.1, p.2 + k * u.2)) (b := p) g1.1
  obtain ⟨a4, a5⟩ := a3 g1.2
  have hun : l 0 ^ 2 + l 1 ^ 2 = 1 := a2.1
  have hlu : l 0 * u.1 + l 1 * u.2 = 0 := by
    have : k * (l 0 * u.1 + l 1 * u.2) = 0 := by unfold On at a4 a5; simp only at a4; linarith
    rcases mul_eq_zero.1 this with h | h
    · exact absurd h hk0.ne'
    · exact h
  refine ⟨l, l 1 * u.1 - l 0 * u.2, a1, a2.1, a5, a4, ?_, ?_, ?_, ?_⟩
  · apply or_of_sq_one
    linear_combination hun + (l 0 ^ 2 + l 1 ^ 2) * hu - (l 0 * u.1 + l 1 * u.2) * hlu
  · linear_combination l 0 * (-hu) + u.1 * hlu
  · linear_combination l 1 * (-hu) + u.2 * hlu
  · have e2 : l 1 = (l 1 * u.1 - l 0 * u.2) * u.1 := by linear_combination l 1 * (-hu) + u.2 * hlu
    have e3 : (l 1 * u.1 - l 0 * u.2) ^ 2 = 1 := by
      linear_combination hun + (l 0 ^ 2 + l 1 ^ 2) * hu - (l 0 * u.1 + l 1 * u.2) * hlu
    rcases hg.1 with h | h
    · left; rw [e2, h]; ring
    · right; rw [e2, abs_mul]
      have : |l 1 * u.1 - l 0 * u.2| = 1 := by
        rw [← sq_eq_sq₀ (abs_nonneg _) zero_le_one, sq_abs, e3]; norm_num
      rw [this, one_mul]; exact h

/-- Points on the perpendicular line. -/
theorem perp_points {t : Thr ℝ} (h1 : 0 ≤ t.nullDistance) {l : V3 ℝ} (hl : UnitNormal l) (hb : l 1 = 0 ∨ t.nullDenom ≤ |l 1|) (p : Pt ℝ) (d : ℝ) :
    ∃ o pp, orthogLine t l p = .ok o ∧ getPoints t o p d = .ok pp ∧ Around p (l 0, l 1) d pp ∧ ¬ LexLt pp.2 pp.1 := by
  obtain ⟨o, a1, a2, a3, a4⟩ := C06_line_partial t l hl hb p
  obtain ⟨-, b⟩ := C07_points t h1 o a4.proper p d
  obtain ⟨x, y, b1, b2, b3, b4, b5, b6, b7, b8⟩ := b a2
  refine ⟨o, (x, y), a1, b1, ?_, b8⟩
  unfold UnitNormal at hl a4
  unfold Perp at a3
  unfold On at a2 b2
  -- x = p + s.(l0,l1)
  have hx : o 0 * (x.1 - p.1) + o 1 * (x.2 - p.2) = 0 := by linarith
  have hc : (x.1 - p.1) * l 1 - (x.2 - p.2) * l 0 = 0 := by
    have h1 : (o 0 * l 0 + o 1 * l 1) * (x.2 - p.2) = 0 := by rw [show o 0 * l 0 + o 1 * l 1 = 0 by linarith]; ring
    have h2 : (o 0 * l 0 + o 1 * l 1) * (x.1 - p.1) = 0 := by rw [show o 0 * l 0 + o 1 * l 1 = 0 by linarith]; ring
    have e1 : o 1 * ((x.1 - p.1) * l 1 - (x.2 - p.2) * l 0) = 0 := by linear_combination h2 - l 0 * hx
    have e2 : o 0 * ((x.1 - p.1) * l 1 - (x.2 - p.2) * l 0) = 0 := by linear_combination - h1 + l 1 * hx
    have : (o 0 ^ 2 + o 1 ^ 2) * ((x.1 - p.1) * l 1 - (x.2 - p.2) * l 0) = 0 := by linear_combination o 1 * e1 + o 0 * e2
    rwa [a4, one_mul] at this
  have hs := eucl_sq p x
  rw [b4, sq_abs] at hs
  have hn : ((x.1 - p.1) * l 0 + (x.2 - p.2) * l 1) ^ 2 = d ^ 2 := by
    linear_combination ((x.1 - p.1) ^ 2 + (x.2 - p.2) ^ 2) * hl - ((x.1 - p.1) * l 1 - (x.2 - p.2) * l 0) * hc - hs
  have x1 : x.1 = p.1 + ((x.1 - p.1) * l 0 + (x.2 - p.2) * l 1) * l 0 := by linear_combination (p.1 - x.1) * hl + l 1 * hc
  have x2 : x.2 = p.2 + ((x.1 - p.1) * l 0 + (x.2 - p.2) * l 1) * l 1 := by linear_combination (p.2 - x.2) * hl - l 0 * hc
  rcases sq_eq_sq_iff_eq_or_eq_neg.1 hn with h | h
  · left
    rw [h] at x1 x2
    refine Prod.ext (Prod.ext x1 x2) (Prod.ext ?_ ?_) <;> simp only <;> linarith
  · right
    rw [h] at x1 x2
    refine Prod.ext (Prod.ext ?_ ?_) (Prod.ext ?_ ?_) <;> simp only <;> linarith

/-- Points along the line itself. -/
theorem line_points {t : Thr ℝ} (h1 : 0 ≤ t.nullDistance) {l : V3 ℝ} (hl : UnitNormal l) {p : Pt ℝ} (hp : On l p) (d : ℝ) :
    ∃ pp, getPoints t l p d = .ok pp ∧ Around p (- l 1, l 0) d pp := by
  refine ⟨getPointsB2 l p d, ?_, ?_⟩
  · unfold getPoints
    rw [if_neg]; rw [(lineDist_eq_zero hl.proper p).2 hp]; exact not_lt.2 h1
  · have hs : Real.sqrt (l 0 * l 0 + l 1 * l 1) = 1 := by
      rw [show l 0 * l 0 + l 1 * l 1 = 1 by unfold UnitNormal at hl; linarith, Real.sqrt_one]
    unfold getPointsB2 Around
    simp only [hs, div_one]
    rcases (fixOrder_spec (p.1 - l 1 * d, p.2 + l 0 * d) (p.1 + l 1 * d, p.2 - l 0 * d)).1 with h | h <;> rw [h]
    · left; refine Prod.ext (Prod.ext ?_ ?_) (Prod.ext ?_ ?_) <;> simp only <;> ring
    · right; refine Prod.ext (Prod.ext ?_ ?_) (Prod.ext ?_ ?_) <;> simp only <;> ring

/-- Intersection with parallel lines, the parallel line being the first operand. -/
theorem para_inter {t : Thr ℝ} (h2 : 0 < t.nullAngleValue) (ht : t.nullAngleValue ≤ π / 2) {l : V3 ℝ} (hl : UnitNormal l) {p : Pt ℝ} (hp : On l p)
    (hb : l 1 = 0 ∨ t.nullDenom ≤ |l 1|) :
    ∃ o, orthogLine t l p = .ok o ∧ ∀ e, ∃ q, lineInter t ![l 0, l 1, l 2 + e] o = .ok q ∧ getXY q = (p.1 - e * l 0, p.2 - e * l 1) := by
  obtain ⟨o, a1, a2⟩ := inter_perp ht hl hp hb
  refine ⟨o, a1, fun e => ?_⟩
  obtain ⟨o', b1, b2, b3, b4⟩ := C06_line_partial t l hl hb p
  rw [a1] at b1; cases b1
  have hm : UnitNormal ![l 0, l 1, l 2 + e] := by unfold UnitNormal at *; simpa using hl
  have hang : lineAngle ![l 0, l 1, l 2 + e] o = π / 2 := (lineAngle_pi_div_two hm.proper b4.proper).2 (by unfold Perp at *; simpa using b3)
  obtain ⟨c1, c2, c3, c4⟩ := lineInter_spec h2 hm b4 (show ¬ IsParallel t ![l 0, l 1, l 2 + e] o by rw [IsParallel, hang]; exact not_lt.2 ht)
  refine ⟨_, c1, (c4 _ ?_ ?_).symm⟩
  · unfold On at *; unfold UnitNormal at hl; simp only [Matrix.cons_val_zero, Matrix.cons_val_one, Matrix.cons_val]
    linear_combination hp - e * hl
  · unfold On at *; unfold Perp at b3; simp only; linear_combination b2 - e * b3

/-- `params` of an ellipse whose angle can be computed back. -/
theorem params_dir (t : Thr ℝ) (x y a b th : ℝ) (ht : 0 < t.nullDenom) (hb : 0 < b) (hab : b ≤ a) (hbig : t.nullDenom ≤ 4 * a ^ 2 * b ^ 2)
    (hok : AngleOk t a b th) :
    ∃ ph, Ell.params t (Ell.new x y a b th).m = .ok { x0 := x, y0 := y, a := a, b := b, theta := ph, a2 := a * a, b2 := b * b, sint := sin ph, cost := cos ph } ∧
      (a = b ∧ ph = 0 ∨ H2d.SameDir ph th) := by
  rw [H2d.new_m _ _ _ _ _ hab]
  rcases H2d.params_new t x y a b th hb hab with ⟨h, -⟩ | ⟨-, h⟩
  · exact absurd h (not_lt.2 hbig)
  · refine ⟨_, h, ?_⟩
    rcases eq_or_ne a b with he | he
    · left
      refine ⟨he, ?_⟩
      obtain ⟨e00, e11, e01, -⟩ := H2d.ellMat_entries x y a b th
      subst he
      simp only [Ell.angleOf]
      rw [if_pos (by rw [e01]; simpa using ht), if_neg]
      rw [e00, e11]; simp only [gt_iff_lt, not_lt]; linarith
    · right
      exact (H2d.angle_new t x y a b th ht hb hab hok).resolve_left he

/-- Angle found for a circle. -/
theorem params_circ (t : Thr ℝ) (x y a b th : ℝ) (ht : 0 < t.nullDenom) (hb : 0 < b) (he : a = b) (hbig : t.nullDenom ≤ 4 * a ^ 2 * b ^ 2) :
    ∃ ph, Ell.params t (Ell.new x y a b th).m = .ok { x0 := x, y0 := y, a := a, b := b, theta := ph, a2 := a * a, b2 := b * b, sint := sin ph, cost := cos ph } ∧
      ph = 0 := by
  rw [H2d.new_m _ _ _ _ _ he.ge]
  rcases H2d.params_new t x y a b th hb he.ge with ⟨h, -⟩ | ⟨-, h⟩
  · exact absurd h (not_lt.2 hbig)
  · refine ⟨_, h, ?_⟩
    obtain ⟨e00, e11, e01, -⟩ := H2d.ellMat_entries x y a b th
    subst he
    simp only [Ell.angleOf]
    rw [if_pos (by rw [e01]; simpa using ht), if_neg]
    rw [e00, e11]; simp only [gt_iff_lt, not_lt]; linarith

theorem dir_unit (ph : ℝ) : (cos ph, sin ph).1 ^ 2 + (cos ph, sin ph).2 ^ 2 = 1 := by
  simp only; linarith [sin_sq_add_cos_sq ph]

/-- Lines of the axes, from the direction. -/
theorem axes_run {t : Thr ℝ} (h1 : dblEps < t.nullDistance) {e : Ell} {x y a b ph : ℝ} (ha : t.nullDistance ≤ a)
    (hp : Ell.params t e.m = .ok { x0 := x, y0 := y, a := a, b := b, theta := ph, a2 := a * a, b2 := b * b, sint := sin ph, cost := cos ph })
    (hg : GoodDir t (cos ph, sin ph)) :
    ∃ l o, e.axisLines t = .ok (l, o) ∧ UnitNormal l ∧ UnitNormal o ∧ (∀ k, On l (x + k * cos ph, y + k * sin ph)) ∧ ∀ k, On o (x - k * sin ph, y + k * cos ph) := by
  obtain ⟨l, w, a1, a2, a3, a4, a5, a6, a7, a8⟩ := dir_line h1 (p := (x, y)) (dir_unit ph) hg ha
  obtain ⟨o, b1, b2, b3, b4⟩ := C06_line_partial t l a2 a8 (x, y)
  refine ⟨l, o, ?_, a2, b4, fun k => ?_, fun k => ?_⟩
  · unfold Ell.axisLines
    rw [hp]
    simp only [Res.bind_ok, Ell.axisPts, mul_comm (sin ph), mul_comm (cos ph)]
    simp only at a1
    rw [a1, Res.bind_ok, b1, Res.bind_ok, Res.pure_eq]
  · unfold On at *; simp only at *; linear_combination a3 + k * cos ph * a6 + k * sin ph * a7
  · unfold On at *; unfold Perp at b3; simp only at *
    rw [a6, a7] at b3
    have hw : w ^ 2 = 1 := by rcases a5 with h | h <;> rw [h] <;> norm_num
    linear_combination b2 + k * w * b3 + k * (o 0 * sin ph - o 1 * cos ph) * hw

theorem ptEq_iff {t : Thr ℝ} {p q : Pt ℝ} : PtEq t p q ↔ eucl p q < t.nullDistance := by rw [PtEq, ptDist_eucl]

/-- The points of the oriented box, from the direction. -/
theorem obb_run {t : Thr ℝ} (h1 : dblEps < t.nullDistance) (h2 : 0 < t.nullAngleValue) (h3 : t.nullAngleValue ≤ π / 2) {e : Ell} {x y a b ph : ℝ}
    (ha : t.nullDistance ≤ a) (hb : t.nullDistance ≤ 2 * b)
    (hp : Ell.params t e.m = .ok { x0 := x, y0 := y, a := a, b := b, theta := ph, a2 := a * a, b2 := b * b, sint := sin ph, cost := cos ph })
    (hg : GoodDir t (cos ph, sin ph)) :
    ∃ w, (w = 1 ∨ w = -1) ∧ e.obb t = .ok [(x + a * cos ph + w * b * sin ph, y + a * sin ph - w * b * cos ph),
      (x + a * cos ph - w * b * sin ph, y + a * sin ph + w * b * cos ph), (x - a * cos ph - w * b * sin ph, y - a * sin ph + w * b * cos ph),
      (x - a * cos ph + w * b * sin ph, y - a * sin ph - w * b * cos ph)] := by
  have h0 := dblEps_pos
  have hsc := sin_sq_add_cos_sq ph
  obtain ⟨l, w, a1, a2, a3, a4, a5, a6, a7, a8⟩ := dir_line h1 (p := (x, y)) (dir_unit ph) hg ha
  have hw : w ^ 2 = 1 := by rcases a5 with h | h <;> rw [h] <;> norm_num
  obtain ⟨pp, c1, c2⟩ := line_points (t := t) (by linarith) a2 a3 a
  obtain ⟨ptB, hB, hptB⟩ : ∃ ptB : Pt ℝ, ptB = (x - a * cos ph, y - a * sin ph) ∧
      (if PtEq t pp.1 (x + a * cos ph, y + a * sin ph) then pp.2 else pp.1) = ptB := by
    refine ⟨_, rfl, ?_⟩
    have hfar : ¬ PtEq t (x - a * cos ph, y - a * sin ph) (x + a * cos ph, y + a * sin ph) := by
      rw [ptEq_iff, not_lt]
      have : eucl (x - a * cos ph, y - a * sin ph) (x + a * cos ph, y + a * sin ph) = 2 * a := by
        rw [eucl_eq_iff (by linarith)]; simp only; linear_combination 4 * a ^ 2 * hsc
      rw [this]; linarith
    have hsame : PtEq t (x + a * cos ph, y + a * sin ph) (x + a * cos ph, y + a * sin ph) := by
      rw [ptEq_iff, eucl_self]; linarith
    have hcase : pp = ((x + a * cos ph, y + a * sin ph), (x - a * cos ph, y - a * sin ph)) ∨
        pp = ((x - a * cos ph, y - a * sin ph), (x + a * cos ph, y + a * sin ph)) := by
      unfold Around at c2
      simp only [a6, a7] at c2
      rcases a5 with h | h <;> rw [h] at c2 <;> rcases c2 with c2 | c2
      · right; rw [c2]; refine Prod.ext (Prod.ext ?_ ?_) (Prod.ext ?_ ?_) <;> simp only <;> ring
      · left; rw [c2]; refine Prod.ext (Prod.ext ?_ ?_) (Prod.ext ?_ ?_) <;> simp only <;> ring
      · left; rw [c2]; refine Prod.ext (Prod.ext ?_ ?_) (Prod.ext ?_ ?_) <;> simp only <;> ring
      · right; rw [c2]; refine Prod.ext (Prod.ext ?_ ?_) (Prod.ext ?_ ?_) <;> simp only <;> ring
    rcases hcase with h | h <;> rw [h]
    · simp only; rw [if_pos hsame]
    · simp only; rw [if_neg hfar]
  have hOB : On l ptB := by
    rw [hB]; unfold On at *; simp only at *; linear_combination 2 * a3 - a4
  obtain ⟨o1, d1, d2⟩ := para_inter h2 h3 a2 a4 a8
  obtain ⟨o2, e1, e2⟩ := para_inter h2 h3 a2 hOB a8
  obtain ⟨q1, f1, g1⟩ := d2 b
  obtain ⟨q2, f2, g2⟩ := d2 (-b)
  obtain ⟨q3, f3, g3⟩ := e2 (-b)
  obtain ⟨q4, f4, g4⟩ := e2 b
  refine ⟨w, a5, ?_⟩
  unfold Ell.obb
  rw [hp]
  simp only [Res.bind_ok, Ell.axisPts, mul_comm (sin ph) a, mul_comm (cos ph) a]
  simp only at a1 c1 d1
  rw [a1, Res.bind_ok, c1, Res.bind_ok, d1, Res.bind_ok, hptB, e1, Res.bind_ok]
  simp only [parallelLines, sub_eq_add_neg (l 2)]
  rw [f1, Res.bind_ok, f2, Res.bind_ok, f3, Res.bind_ok, f4, Res.bind_ok, g1, g2, g3, g4, hB]
  simp only [a6, a7]
  have i1 : eucl ((x + a * cos ph) - -b * (-w * sin ph), (y + a * sin ph) - -b * (w * cos ph)) ((x + a * cos ph) - b * (-w * sin ph), (y + a * sin ph) - b * (w * cos ph)) = 2 * b := by
    rw [eucl_eq_iff (by linarith)]; simp only; linear_combination 4 * b ^ 2 * w ^ 2 * hsc + 4 * b ^ 2 * hw
  have i2 : eucl ((x - a * cos ph) - -b * (-w * sin ph), (y - a * sin ph) - -b * (w * cos ph)) ((x + a * cos ph) - -b * (-w * sin ph), (y + a * sin ph) - -b * (w * cos ph)) = 2 * a := by
    rw [eucl_eq_iff (by linarith)]; simp only; linear_combination 4 * a ^ 2 * hsc
  have i3 : eucl ((x - a * cos ph) - b * (-w * sin ph), (y - a * sin ph) - b * (w * cos ph)) ((x - a * cos ph) - -b * (-w * sin ph), (y - a * sin ph) - -b * (w * cos ph)) = 2 * b := by
    rw [eucl_eq_iff (by linarith)]; simp only; linear_combination 4 * b ^ 2 * w ^ 2 * hsc + 4 * b ^ 2 * hw
  have j1 := mt ptEq_iff.1 (not_lt.2 (hb.trans i1.ge))
  have j2 := mt ptEq_iff.1 (not_lt.2 ((show t.nullDistance ≤ 2 * a by linarith).trans i2.ge))
  have j3 := mt ptEq_iff.1 (not_lt.2 (hb.trans i3.ge))
  simp only [addPoints, decide_eq_true_eq]
  rw [if_neg j1, if_neg j2, if_neg j3]
  simp only [List.reverse_cons, List.reverse_nil, List.nil_append, List.cons_append, Res.ok.injEq]
  congr 1
  · apply Prod.ext <;> simp only <;> ring
  · congr 1
    · apply Prod.ext <;> simp only <;> ring
    · congr 1
      · apply Prod.ext <;> simp only <;> ring
      · congr 1
        apply Prod.ext <;> simp only <;> ring

/-- Direction found for an ellipse whose angle can be computed back, or for a circle. -/
theorem found_dir {t : Thr ℝ} (x y : ℝ) {a b th : ℝ} (ht : 0 < t.nullDenom) (ht1 : t.nullDenom ≤ 1) (hb : 0 < b) (hab : b ≤ a)
    (hbig : t.nullDenom ≤ 4 * a ^ 2 * b ^ 2) (hok : a = b ∨ AngleOk t a b th ∧ GoodDir t (cos th, sin th)) :
    ∃ ph, Ell.params t (Ell.new x y a b th).m = .ok { x0 := x, y0 := y, a := a, b := b, theta := ph, a2 := a * a, b2 := b * b, sint := sin ph, cost := cos ph } ∧
      GoodDir t (cos ph, sin ph) ∧ (a = b ∨ H2d.SameDir ph th) := by
  obtain ⟨ph, e1, e2⟩ := params_dir t x y a b th ht hb hab hbig (by
    rcases hok with h | h
    · exact Or.inr (Or.inl h)
    · exact h.1)
  refine ⟨ph, e1, ?_, ?_⟩
  · rcases e2 with ⟨-, rfl⟩ | h
    · exact ⟨Or.inr (by simpa using ht1), Or.inl (by simp)⟩
    · rcases hok with h' | h'
      · obtain ⟨ph', e1', e2'⟩ := params_circ t x y a b th ht hb h' hbig
        rw [e1] at e1'
        have : ph = ph' := by injection e1' with e; injection e
        rw [this, e2']
        exact ⟨Or.inr (by simpa using ht1), Or.inl (by simp)⟩
      · have hg := h'.2
        rcases h with ⟨h2, h3⟩ | ⟨h2, h3⟩
        · rw [h2, h3]; exact hg
        · rw [h2, h3]
          unfold GoodDir at *
          simpa [abs_neg] using hg
  · rcases e2 with ⟨h, -⟩ | h
    · exact Or.inl h
    · exact Or.inr h

theorem axes_perp {l o : V3 ℝ} {x y ph : ℝ} (h : UnitNormal l) (f4 : ∀ k, On l (x + k * cos ph, y + k * sin ph)) (f5 : ∀ k, On o (x - k * sin ph, y + k * cos ph)) :
    Perp l o := by
  have hsc := sin_sq_add_cos_sq ph
  have a0 := f4 0
  have a1 := f4 1
  have b0 := f5 0
  have b1 := f5 1
  unfold On Perp at *
  simp only [zero_mul, add_zero, one_mul, sub_zero] at *
  have e1 : l 0 * cos ph + l 1 * sin ph = 0 := by linarith
  have e2 : o 1 * cos ph - o 0 * sin ph = 0 := by linarith
  linear_combination (-(l 0 * o 0 + l 1 * o 1)) * hsc + (o 0 * cos ph + o 1 * sin ph) * e1 + (l 1 * cos ph - l 0 * sin ph) * e2

/-- All the points of the ellipse are in the box. -/
theorem box_holds {x y a b ph w : ℝ} (ha : 0 < a) (hb : 0 < b) (hw : w = 1 ∨ w = -1) {p : Pt ℝ} (hp : ellVal x y a b ph p ≤ 1) :
    InOrientedBox (x + a * cos ph + w * b * sin ph, y + a * sin ph - w * b * cos ph) (x + a * cos ph - w * b * sin ph, y + a * sin ph + w * b * cos ph)
      (x - a * cos ph - w * b * sin ph, y - a * sin ph + w * b * cos ph) p := by
  have hsc := sin_sq_add_cos_sq ph
  have hw2 : w ^ 2 = 1 := by rcases hw with h | h <;> rw [h] <;> norm_num
  unfold ellVal at hp
  obtain ⟨X, hX⟩ : ∃ X, X = (p.1 - x) * cos ph + (p.2 - y) * sin ph := ⟨_, rfl⟩
  obtain ⟨Y, hY⟩ : ∃ Y, Y = -(p.1 - x) * sin ph + (p.2 - y) * cos ph := ⟨_, rfl⟩
  rw [← hX, ← hY] at hp
  have x0 : 0 ≤ X ^ 2 / a ^ 2 := by positivity
  have y0 : 0 ≤ Y ^ 2 / b ^ 2 := by positivity
  have x1 : X ^ 2 ≤ a ^ 2 := (div_le_one (by positivity)).1 (by linarith)
  have y1 : Y ^ 2 ≤ b ^ 2 := (div_le_one (by positivity)).1 (by linarith)
  obtain ⟨x2, x3⟩ := abs_le.1 (abs_le_of_sq_le_sq x1 ha.le)
  obtain ⟨y2, y3⟩ := abs_le.1 (abs_le_of_sq_le_sq y1 hb.le)
  have wy : -b ≤ w * Y ∧ w * Y ≤ b := by rcases hw with h | h <;> rw [h] <;> constructor <;> linarith
  have e1 : ∀ q : ℝ × ℝ, q = p → (q.1 - (x + a * cos ph + w * b * sin ph)) * (x + a * cos ph - w * b * sin ph - (x + a * cos ph + w * b * sin ph)) +
      (q.2 - (y + a * sin ph - w * b * cos ph)) * (y + a * sin ph + w * b * cos ph - (y + a * sin ph - w * b * cos ph)) = 2 * b * (w * Y + b) := by
    rintro q rfl; rw [hY]; linear_combination 2 * b ^ 2 * w ^ 2 * hsc + 2 * b ^ 2 * hw2
  have e2 : ∀ q : ℝ × ℝ, q = p → (q.1 - (x + a * cos ph - w * b * sin ph)) * (x - a * cos ph - w * b * sin ph - (x + a * cos ph - w * b * sin ph)) +
      (q.2 - (y + a * sin ph + w * b * cos ph)) * (y - a * sin ph + w * b * cos ph - (y + a * sin ph + w * b * cos ph)) = 2 * a * (a - X) := by
    rintro q rfl; rw [hX]; linear_combination 2 * a ^ 2 * hsc
  unfold InOrientedBox
  rw [eucl_sq, eucl_sq]
  simp only
  rw [e1 p rfl, e2 p rfl]
  refine ⟨⟨mul_nonneg (by linarith) (by linarith), ?_⟩, mul_nonneg (by linarith) (by linarith), ?_⟩
  · have : 2 * b * (w * Y + b) ≤ 2 * b * (2 * b) := mul_le_mul_of_nonneg_left (by linarith) (by linarith)
    refine this.trans (le_of_eq ?_); linear_combination - 4 * b ^ 2 * w ^ 2 * hsc - 4 * b ^ 2 * hw2
  · have : 2 * a * (a - X) ≤ 2 * a * (2 * a) := mul_le_mul_of_nonneg_left (by linarith) (by linarith)
    refine this.trans (le_of_eq ?_); linear_combination - 4 * a ^ 2 * hsc

/-- Parameters of an ellipse with a vertical major axis. -/
theorem params_vert (t : Thr ℝ) (x y : ℝ) {a b : ℝ} (ht : 0 < t.nullDenom) (hb : 0 < b) (hab : b < a) (hbig : t.nullDenom ≤ 4 * a ^ 2 * b ^ 2) :
    Ell.params t (Ell.new x y a b (π / 2)).m = .ok { x0 := x, y0 := y, a := a, b := b, theta := 90, a2 := a * a, b2 := b * b, sint := sin 90, cost := cos 90 } := by
  rw [H2d.new_m _ _ _ _ _ hab.le]
  rcases H2d.params_new t x y a b (π / 2) hb hab.le with ⟨h, -⟩ | ⟨-, h⟩
  · exact absurd h (not_lt.2 hbig)
  · simp only at h
    rw [angle_vert t x y a b _ _ ht hb hab cos_pi_div_two] at h
    exact h

theorem turn90 : sin 90 = sin (29 * π - 90) ∧ cos 90 = - cos (29 * π - 90) := by
  have e : 29 * π - 90 = (π - 90) + (14 : ℕ) * (2 * π) := by push_cast; ring
  rw [e, sin_add_nat_mul_two_pi, cos_add_nat_mul_two_pi, sin_pi_sub, cos_pi_sub]
  simp

theorem cos90_big : 0.38 < |cos 90| := by
  have h1 := Real.pi_gt_d4
  have h2 := Real.pi_lt_d4
  rw [turn90.2, abs_neg]
  have := Real.one_sub_sq_div_two_le_cos (x := 29 * π - 90)
  refine lt_of_lt_of_le ?_ (le_trans this (le_abs_self _))
  nlinarith

theorem sin90_big : 1 / 3 ≤ |sin 90| := by
  have h1 := Real.pi_gt_d4
  have h2 := Real.pi_lt_d4
  rw [turn90.1]
  have := Real.mul_le_sin (x := 29 * π - 90) (by linarith) (by linarith)
  refine le_trans ?_ (le_trans this (le_abs_self _))
  rw [div_mul_eq_mul_div, le_div_iff₀ (by linarith)]
  linarith

theorem good90 {t : Thr ℝ} (h : t.nullDenom ≤ 1 / 3) : GoodDir t (cos 90, sin 90) :=
  ⟨Or.inr (h.trans (le_trans (by norm_num) cos90_big.le)), Or.inr (h.trans sin90_big)⟩

end H2d.Axes
