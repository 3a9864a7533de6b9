import Verif.Lemmas.Line
import Verif.Lemmas.PolyNorm
import Verif.Spec.Line
import Mathlib.Analysis.Complex.Norm
import Mathlib.Analysis.SpecialFunctions.Trigonometric.Bounds
import Mathlib.Tactic.LinearCombination

/-!
# Lemmas on points and lines over the reals
-/

set_option linter.unusedSectionVars false
set_option linter.unusedSimpArgs false

namespace H2d

open H2d.Spec

theorem ptDist_eucl (p q : Pt ℝ) : ptDist p q = eucl p q := by simp only [ptDist, eucl]; congr 1; ring

theorem eucl_nonneg (p q : Pt ℝ) : 0 ≤ eucl p q := Real.sqrt_nonneg _
theorem eucl_comm (p q : Pt ℝ) : eucl p q = eucl q p := by simp only [eucl]; congr 1; ring
theorem eucl_self (p : Pt ℝ) : eucl p p = 0 := by simp [eucl]
theorem eucl_sq (p q : Pt ℝ) : eucl p q ^ 2 = (p.1 - q.1) ^ 2 + (p.2 - q.2) ^ 2 := Real.sq_sqrt (by positivity)
theorem eucl_eq_zero {p q : Pt ℝ} : eucl p q = 0 ↔ p = q := by
  rw [eucl, Real.sqrt_eq_zero (by positivity)]
  constructor
  · intro h
    have h1 : (p.1 - q.1) ^ 2 = 0 := by nlinarith [sq_nonneg (p.1 - q.1), sq_nonneg (p.2 - q.2)]
    have h2 : (p.2 - q.2) ^ 2 = 0 := by nlinarith [sq_nonneg (p.1 - q.1), sq_nonneg (p.2 - q.2)]
    have h1 := pow_eq_zero_iff (two_ne_zero) |>.1 h1
    have h2 := pow_eq_zero_iff (two_ne_zero) |>.1 h2
    exact Prod.ext (by linarith) (by linarith)
  · rintro rfl; ring

theorem eucl_norm (p q : Pt ℝ) : eucl p q = ‖(⟨p.1 - q.1, p.2 - q.2⟩ : ℂ)‖ := by
  rw [Complex.norm_def, Complex.normSq_apply, eucl]; congr 1; ring

theorem eucl_triangle (p q r : Pt ℝ) : eucl p r ≤ eucl p q + eucl q r := by
  rw [eucl_norm, eucl_norm, eucl_norm]
  refine le_trans (le_of_eq ?_) (norm_add_le _ _)
  congr 1
  apply Complex.ext <;> simp

theorem eucl_le_iff {p q : Pt ℝ} {d : ℝ} (hd : 0 ≤ d) : eucl p q ≤ d ↔ (p.1 - q.1) ^ 2 + (p.2 - q.2) ^ 2 ≤ d ^ 2 := by
  rw [eucl, Real.sqrt_le_left hd]

theorem eucl_lt_iff {p q : Pt ℝ} {d : ℝ} (hd : 0 < d) : eucl p q < d ↔ (p.1 - q.1) ^ 2 + (p.2 - q.2) ^ 2 < d ^ 2 := by
  rw [eucl, Real.sqrt_lt' hd]

theorem eucl_eq_iff {p q : Pt ℝ} {d : ℝ} (hd : 0 ≤ d) : eucl p q = d ↔ (p.1 - q.1) ^ 2 + (p.2 - q.2) ^ 2 = d ^ 2 := by
  rw [← eucl_sq]
  exact (pow_left_inj₀ (eucl_nonneg p q) hd two_ne_zero).symm

/-! ### normalisation -/

/-- Sign correction done by the normalisation of lines. -/
noncomputable def signFix (t : Thr ℝ) (w : V3 ℝ) : V3 ℝ :=
  let w : V3 ℝ := if w 0 < 0 then fun i => - w i else w
  if |w 0| < t.nullDenom then (if w 1 < 0 then ![w 0, - w 1, - w 2] else w) else w

theorem normalizeLine_eq (t : Thr ℝ) (v : V3 ℝ) (hs : dblEps < Real.sqrt (v 0 * v 0 + v 1 * v 1)) :
    normalizeLine t v = .ok (signFix t (fun i => v i / Real.sqrt (v 0 * v 0 + v 1 * v 1))) := by
  simp only [normalizeLine, signFix, not_le.2 hs, if_false]

theorem normalizeLine_throw (t : Thr ℝ) (v : V3 ℝ) :
    normalizeLine t v = .throw ↔ Real.sqrt (v 0 * v 0 + v 1 * v 1) ≤ dblEps := by
  by_cases hs : Real.sqrt (v 0 * v 0 + v 1 * v 1) ≤ dblEps
  · simp [normalizeLine, hs]
  · rw [normalizeLine_eq t v (not_le.1 hs)]; simp [hs]

theorem normalizeLine_not_ub (t : Thr ℝ) (v : V3 ℝ) : normalizeLine t v ≠ .ub := by
  by_cases hs : Real.sqrt (v 0 * v 0 + v 1 * v 1) ≤ dblEps
  · simp [normalizeLine, hs]
  · rw [normalizeLine_eq t v (not_le.1 hs)]; simp

theorem normalizeLine_ok {t : Thr ℝ} {v r : V3 ℝ} (h : normalizeLine t v = .ok r) :
    dblEps < Real.sqrt (v 0 * v 0 + v 1 * v 1) ∧ r = signFix t (fun i => v i / Real.sqrt (v 0 * v 0 + v 1 * v 1)) := by
  by_cases hs : Real.sqrt (v 0 * v 0 + v 1 * v 1) ≤ dblEps
  · simp [normalizeLine, hs] at h
  · rw [normalizeLine_eq t v (not_le.1 hs)] at h
    exact ⟨not_le.1 hs, by cases h; rfl⟩

theorem signFix_zero (t : Thr ℝ) (w : V3 ℝ) : signFix t w 0 = |w 0| := by
  simp only [signFix]
  by_cases h : w 0 < 0
  · simp only [h, if_true, abs_of_neg h]; split_ifs <;> simp
  · simp only [h, if_false, abs_of_nonneg (not_lt.1 h)]; split_ifs <;> simp

theorem signFix_neg (t : Thr ℝ) (w : V3 ℝ) (ht : 0 < t.nullDenom) (hw : w 0 = 0 → w 1 ≠ 0) :
    signFix t (fun i => - w i) = signFix t w := by
  simp only [signFix]
  rcases lt_trichotomy (w 0) 0 with h | h | h
  · have h2 : ¬ (- w 0 < 0) := by linarith
    simp only [h, h2, if_true, if_false]
  · simp only [h, neg_zero, lt_irrefl, if_false, abs_zero, ht, if_true]
    rcases lt_trichotomy (w 1) 0 with h1 | h1 | h1
    · have h2 : ¬ (- w 1 < 0) := by linarith
      simp only [h1, h2, if_true, if_false]
      apply v3_ext <;> simp [h]
    · exact absurd h1 (hw h)
    · have h2 : ¬ (w 1 < 0) := by linarith
      have h3 : - w 1 < 0 := by linarith
      simp only [h3, h2, if_true, if_false]
      apply v3_ext <;> simp [h]
  · have h2 : ¬ (w 0 < 0) := by linarith
    have h3 : - w 0 < 0 := by linarith
    simp only [h3, h2, if_true, if_false, neg_neg]

/-- The case that does not keep the line. -/
theorem signFix_band (t : Thr ℝ) (w : V3 ℝ) (h0 : w 0 < 0) (h1 : - w 0 < t.nullDenom) (h2 : 0 < w 1) :
    signFix t w = ![- w 0, w 1, w 2] := by
  have h3 : |w 0| < t.nullDenom := by rw [abs_of_neg h0]; exact h1
  simp [signFix, h0, h3, h2]

theorem sqrt_ne_of_eps {v : V3 ℝ} (h : dblEps < Real.sqrt (v 0 * v 0 + v 1 * v 1)) : Real.sqrt (v 0 * v 0 + v 1 * v 1) ≠ 0 :=
  (lt_trans dblEps_pos h).ne'

theorem proper_of_eps {v : V3 ℝ} (h : dblEps < Real.sqrt (v 0 * v 0 + v 1 * v 1)) : v 0 = 0 → v 1 ≠ 0 := by
  intro h0 h1
  apply sqrt_ne_of_eps h
  simp [h0, h1]

/-- Proportional values give the same normalised line. -/
theorem normalizeLine_scale {t : Thr ℝ} (ht : 0 < t.nullDenom) {v v' r r' : V3 ℝ} (h : normalizeLine t v = .ok r)
    (h' : normalizeLine t v' = .ok r') (hs : SameLoc v v') : r = r' := by
  obtain ⟨h1, rfl⟩ := normalizeLine_ok h
  obtain ⟨h1', rfl⟩ := normalizeLine_ok h'
  obtain ⟨k, hk, hv⟩ := hs
  have e : Real.sqrt (v' 0 * v' 0 + v' 1 * v' 1) = |k| * Real.sqrt (v 0 * v 0 + v 1 * v 1) := by
    rw [hv, hv, ← Real.sqrt_sq_eq_abs, ← Real.sqrt_mul (sq_nonneg _)]; congr 1; ring
  have hne := sqrt_ne_of_eps h1
  have hp := proper_of_eps h1
  rw [e]
  generalize Real.sqrt (v 0 * v 0 + v 1 * v 1) = s at *
  rcases lt_or_gt_of_ne hk with hk' | hk'
  · have : (fun i => v' i / (|k| * s)) = fun i => - (v i / s) := by
      funext i; rw [hv, abs_of_neg hk']; field_simp
    rw [this, signFix_neg t _ ht]
    intro h0 h1
    simp only [div_eq_zero_iff, hne, or_false] at h0 h1
    exact hp h0 h1
  · have : (fun i => v' i / (|k| * s)) = fun i => (v i / s) := by
      funext i; rw [hv, abs_of_pos hk']; field_simp
    rw [this]

theorem normalizeLine_zero {t : Thr ℝ} {v r : V3 ℝ} (h : normalizeLine t v = .ok r) :
    r 0 = |v 0| / Real.sqrt (v 0 * v 0 + v 1 * v 1) := by
  obtain ⟨h1, rfl⟩ := normalizeLine_ok h
  rw [signFix_zero, abs_div, abs_of_nonneg (Real.sqrt_nonneg _)]

theorem dblEps_lt_one : dblEps < 1 := by unfold dblEps; norm_num

theorem normalizeLine_norm {t : Thr ℝ} {v r : V3 ℝ} (h : normalizeLine t v = .ok r) : NormLine t r := by
  rcases normalizeLine_spec t v with ⟨-, h2⟩ | ⟨-, r', h2, h3, h4, h5, -⟩
  · rw [h2] at h; cases h
  · rw [h2] at h; cases h
    exact ⟨by unfold UnitNormal; linarith, h4, h5⟩

theorem normalizeLine_idem {t : Thr ℝ} {l : V3 ℝ} (h : NormLine t l) : normalizeLine t l = .ok l := by
  obtain ⟨h1, h2, h3⟩ := h
  have e : Real.sqrt (l 0 * l 0 + l 1 * l 1) = 1 := by
    rw [show l 0 * l 0 + l 1 * l 1 = 1 by unfold UnitNormal at h1; linarith, Real.sqrt_one]
  rw [normalizeLine_eq t l (by rw [e]; exact dblEps_lt_one), e]
  simp only [div_one, signFix, not_lt.2 h2, if_false, abs_of_nonneg h2]
  congr 1
  split_ifs with h4 h5
  · exact absurd (h3 h4) (not_le.2 h5)
  · rfl
  · rfl

theorem on_onLine {l : V3 ℝ} {p : V3 ℝ} (hp : IsFin p) : On l (getXY p) ↔ OnLine l p := by
  unfold On OnLine getXY
  have hp' : p 2 ≠ 0 := hp
  constructor
  · intro h; field_simp at h; linarith
  · intro h; simp only; field_simp; linarith

theorem Spec.On.sameLine {l m : V3 ℝ} {p : Pt ℝ} (h : On l p) (hs : SameLoc l m) : On m p := by
  obtain ⟨k, -, hk⟩ := hs
  unfold On at *
  rw [hk, hk, hk]; linear_combination k * h

/-! ### angle -/

theorem dot_cross (l m : V3 ℝ) : (l 0 * m 0 + l 1 * m 1) ^ 2 + (l 0 * m 1 - l 1 * m 0) ^ 2 =
    (l 0 * l 0 + l 1 * l 1) * (m 0 * m 0 + m 1 * m 1) := by ring

theorem norm2_nonneg (l : V3 ℝ) : 0 ≤ l 0 * l 0 + l 1 * l 1 := add_nonneg (mul_self_nonneg _) (mul_self_nonneg _)

theorem angleCos_nonneg (l m : V3 ℝ) : 0 ≤ angleCos l m := abs_nonneg _

theorem angleCos_le_one (l m : V3 ℝ) : angleCos l m ≤ 1 := by
  unfold angleCos
  rw [abs_div, abs_of_nonneg (Real.sqrt_nonneg _)]
  apply div_le_one_of_le₀ _ (Real.sqrt_nonneg _)
  apply Real.abs_le_sqrt
  rw [← dot_cross]
  nlinarith [sq_nonneg (l 0 * m 1 - l 1 * m 0)]

theorem lineAngle_eq (l m : V3 ℝ) : lineAngle l m = Real.arccos (angleCos l m) := by
  unfold lineAngle
  rw [if_neg (not_lt.2 (angleCos_le_one l m))]

theorem angleCos_mul {l m : V3 ℝ} (hl : Proper l) (hm : Proper m) :
    angleCos l m ^ 2 * ((l 0 * l 0 + l 1 * l 1) * (m 0 * m 0 + m 1 * m 1)) = (l 0 * m 0 + l 1 * m 1) ^ 2 := by
  have hl' : l 0 * l 0 + l 1 * l 1 ≠ 0 := by intro h; apply hl; linarith
  have hm' : m 0 * m 0 + m 1 * m 1 ≠ 0 := by intro h; apply hm; linarith
  have hn : 0 ≤ (l 0 * l 0 + l 1 * l 1) * (m 0 * m 0 + m 1 * m 1) := mul_nonneg (norm2_nonneg l) (norm2_nonneg m)
  have hs := Real.sq_sqrt hn
  unfold angleCos
  rw [sq_abs, div_pow, hs]
  have hl2 : l 0 ^ 2 + l 1 ^ 2 ≠ 0 := hl
  have hm2 : m 0 ^ 2 + m 1 ^ 2 ≠ 0 := hm
  field_simp

theorem proper_norm2 {l : V3 ℝ} (hl : Proper l) : 0 < l 0 * l 0 + l 1 * l 1 :=
  lt_of_le_of_ne (norm2_nonneg l) (fun h => hl (by linarith))

theorem angleCos_eq_one {l m : V3 ℝ} (hl : Proper l) (hm : Proper m) : angleCos l m = 1 ↔ SameDir l m := by
  have h := angleCos_mul hl hm
  have hd := dot_cross l m
  have hp := mul_pos (proper_norm2 hl) (proper_norm2 hm)
  constructor
  · intro h1
    rw [h1, one_pow, one_mul] at h
    have : (l 0 * m 1 - l 1 * m 0) ^ 2 = 0 := by linarith
    have := pow_eq_zero_iff two_ne_zero |>.1 this
    unfold SameDir; linarith
  · intro h1
    unfold SameDir at h1
    rw [h1, sub_self] at hd
    have h2 : angleCos l m ^ 2 = 1 := by
      apply mul_right_cancel₀ hp.ne'; rw [h]; linarith
    have := angleCos_nonneg l m
    nlinarith

theorem angleCos_eq_zero {l m : V3 ℝ} (hl : Proper l) (hm : Proper m) : angleCos l m = 0 ↔ Perp l m := by
  have h := angleCos_mul hl hm
  have hp := mul_pos (proper_norm2 hl) (proper_norm2 hm)
  constructor
  · intro h1
    rw [h1] at h
    have : (l 0 * m 0 + l 1 * m 1) ^ 2 = 0 := by linarith
    exact pow_eq_zero_iff two_ne_zero |>.1 this
  · intro h1
    unfold Perp at h1
    rw [h1] at h
    have : angleCos l m ^ 2 = 0 := by
      apply mul_right_cancel₀ hp.ne'; rw [h]; ring
    exact pow_eq_zero_iff two_ne_zero |>.1 this

theorem angleCos_comm (l m : V3 ℝ) : angleCos l m = angleCos m l := by
  unfold angleCos; congr 2
  · ring
  · congr 1; ring

theorem lineAngle_comm (l m : V3 ℝ) : lineAngle l m = lineAngle m l := by rw [lineAngle_eq, lineAngle_eq, angleCos_comm]

theorem lineAngle_zero {l m : V3 ℝ} (hl : Proper l) (hm : Proper m) : lineAngle l m = 0 ↔ SameDir l m := by
  rw [lineAngle_eq, Real.arccos_eq_zero, ← angleCos_eq_one hl hm]
  exact ⟨fun h => le_antisymm (angleCos_le_one l m) h, fun h => h.ge⟩

theorem lineAngle_pi_div_two {l m : V3 ℝ} (hl : Proper l) (hm : Proper m) : lineAngle l m = Real.pi / 2 ↔ Perp l m := by
  rw [lineAngle_eq, Real.arccos_eq_pi_div_two, angleCos_eq_zero hl hm]

theorem angleCos_unit {l m : V3 ℝ} (hl : UnitNormal l) (hm : UnitNormal m) : angleCos l m = |l 0 * m 0 + l 1 * m 1| := by
  unfold angleCos UnitNormal at *
  rw [show (l 0 * l 0 + l 1 * l 1) * (m 0 * m 0 + m 1 * m 1) = 1 by
    rw [show l 0 * l 0 + l 1 * l 1 = 1 by linarith, show m 0 * m 0 + m 1 * m 1 = 1 by linarith]; ring]
  rw [Real.sqrt_one, div_one]

theorem Spec.UnitNormal.proper {l : V3 ℝ} (h : UnitNormal l) : Proper l := by
  unfold UnitNormal at h; unfold Proper; rw [h]; exact one_ne_zero

theorem Spec.UnitNormal.sqrt {l : V3 ℝ} (h : UnitNormal l) : Real.sqrt (l 0 * l 0 + l 1 * l 1) = 1 := by
  rw [show l 0 * l 0 + l 1 * l 1 = 1 by unfold UnitNormal at h; linarith, Real.sqrt_one]

theorem lineDist_unit {l : V3 ℝ} (h : UnitNormal l) (p : Pt ℝ) : lineDist l p = |l 0 * p.1 + l 1 * p.2 + l 2| := by
  unfold lineDist; rw [UnitNormal.sqrt h, div_one]

theorem lineDist_nonneg (l : V3 ℝ) (p : Pt ℝ) : 0 ≤ lineDist l p := div_nonneg (abs_nonneg _) (Real.sqrt_nonneg _)

theorem lineDist_eq_zero {l : V3 ℝ} (h : Proper l) (p : Pt ℝ) : lineDist l p = 0 ↔ On l p := by
  unfold lineDist
  rw [div_eq_zero_iff, abs_eq_zero, Real.sqrt_eq_zero (norm2_nonneg l)]
  have := (proper_norm2 h).ne'
  simp only [this, or_false, On]

/-- Foot of the perpendicular. -/
noncomputable def foot (l : V3 ℝ) (p : Pt ℝ) : Pt ℝ :=
  (p.1 - l 0 * (l 0 * p.1 + l 1 * p.2 + l 2) / (l 0 * l 0 + l 1 * l 1), p.2 - l 1 * (l 0 * p.1 + l 1 * p.2 + l 2) / (l 0 * l 0 + l 1 * l 1))

theorem foot_on {l : V3 ℝ} (h : Proper l) (p : Pt ℝ) : On l (foot l p) := by
  have hP : l 0 ^ 2 + l 1 ^ 2 ≠ 0 := h
  unfold On foot; simp only; field_simp; ring

theorem lineDist_sq {l : V3 ℝ} (h : Proper l) (p : Pt ℝ) :
    lineDist l p ^ 2 * (l 0 * l 0 + l 1 * l 1) = (l 0 * p.1 + l 1 * p.2 + l 2) ^ 2 := by
  have hP : l 0 ^ 2 + l 1 ^ 2 ≠ 0 := h
  unfold lineDist
  rw [div_pow, sq_abs, Real.sq_sqrt (norm2_nonneg l)]; field_simp

theorem foot_dist {l : V3 ℝ} (h : Proper l) (p : Pt ℝ) : eucl p (foot l p) = lineDist l p := by
  rw [eucl_eq_iff (lineDist_nonneg l p)]
  have h1 := (proper_norm2 h).ne'
  apply mul_right_cancel₀ h1
  rw [lineDist_sq h]
  have hP : l 0 ^ 2 + l 1 ^ 2 ≠ 0 := h
  unfold foot; simp only
  field_simp; ring

theorem lineDist_le {l : V3 ℝ} (h : Proper l) (p q : Pt ℝ) (hq : On l q) : lineDist l p ≤ eucl p q := by
  have h1 := proper_norm2 h
  have h2 := lineDist_sq h p
  rw [← abs_of_nonneg (lineDist_nonneg l p), ← abs_of_nonneg (eucl_nonneg p q), ← sq_le_sq, eucl_sq]
  have h3 : l 0 * p.1 + l 1 * p.2 + l 2 = l 0 * (p.1 - q.1) + l 1 * (p.2 - q.2) := by unfold On at hq; linarith
  rw [h3] at h2
  have h4 : lineDist l p ^ 2 * (l 0 * l 0 + l 1 * l 1) ≤ ((p.1 - q.1) ^ 2 + (p.2 - q.2) ^ 2) * (l 0 * l 0 + l 1 * l 1) := by
    rw [h2]; nlinarith [sq_nonneg (l 0 * (p.2 - q.2) - l 1 * (p.1 - q.1))]
  exact le_of_mul_le_mul_right h4 h1

theorem crossProd_anti (p q : V3 ℝ) : crossProd q p = fun i => - crossProd p q i := by
  funext i; fin_cases i <;> simp [crossProd] <;> ring

theorem crossProd_inc1 (p q : V3 ℝ) : OnLine (crossProd p q) p := by simp [OnLine, crossProd]; ring
theorem crossProd_inc2 (p q : V3 ℝ) : OnLine (crossProd p q) q := by simp [OnLine, crossProd]; ring
theorem crossProd_inc1' (p q : V3 ℝ) : OnLine p (crossProd p q) := by simp [OnLine, crossProd]; ring
theorem crossProd_inc2' (p q : V3 ℝ) : OnLine q (crossProd p q) := by simp [OnLine, crossProd]; ring

theorem normalizeLine_neg {t : Thr ℝ} (ht : 0 < t.nullDenom) (v : V3 ℝ) : normalizeLine t (fun i => - v i) = normalizeLine t v := by
  have e : Real.sqrt (-v 0 * -v 0 + -v 1 * -v 1) = Real.sqrt (v 0 * v 0 + v 1 * v 1) := by congr 1; ring
  by_cases h : Real.sqrt (v 0 * v 0 + v 1 * v 1) ≤ dblEps
  · rw [(normalizeLine_throw t v).2 h, (normalizeLine_throw t _).2 (by rw [e]; exact h)]
  · have h := not_le.1 h
    rw [normalizeLine_eq t v h, normalizeLine_eq t _ (by rw [e]; exact h), e]
    have := sqrt_ne_of_eps h
    have hp := proper_of_eps h
    simp only [neg_div]
    rw [signFix_neg t _ ht]
    intro h0 h1
    simp only [div_eq_zero_iff, this, or_false] at h0 h1
    exact hp h0 h1

/-- Norm of the vector product of two points. -/
theorem crossProd_norm {p q : V3 ℝ} (hp : IsFin p) (hq : IsFin q) :
    Real.sqrt (crossProd p q 0 * crossProd p q 0 + crossProd p q 1 * crossProd p q 1) = |p 2 * q 2| * eucl (getXY p) (getXY q) := by
  have hp' : p 2 ≠ 0 := hp
  have hq' : q 2 ≠ 0 := hq
  rw [eucl, ← Real.sqrt_sq_eq_abs, ← Real.sqrt_mul (sq_nonneg _)]
  congr 1
  simp only [crossProd, getXY, Matrix.cons_val_zero, Matrix.cons_val_one]
  field_simp; ring

theorem crossProd_zero {p q : V3 ℝ} (hp : IsFin p) (hq : IsFin q) :
    |crossProd p q 0| = |p 2 * q 2| * |(getXY p).2 - (getXY q).2| := by
  have hp' : p 2 ≠ 0 := hp
  have hq' : q 2 ≠ 0 := hq
  rw [← abs_mul]
  congr 1
  simp only [crossProd, getXY, Matrix.cons_val_zero, Matrix.cons_val_one]
  field_simp

theorem orthogLine_spec {t : Thr ℝ} {l : V3 ℝ} (h : UnitNormal l) (p : Pt ℝ) :
    ∃ o, orthogLine t l p = .ok o ∧ NormLine t o ∧
      ((l 1 = 0 ∨ t.nullDenom ≤ |l 1|) → SameLoc ![- l 1, l 0, l 1 * p.1 - l 0 * p.2] o) := by
  have e : Real.sqrt ((![- l 1, l 0, l 1 * p.1 - l 0 * p.2] : V3 ℝ) 0 * (![- l 1, l 0, l 1 * p.1 - l 0 * p.2] : V3 ℝ) 0 +
     (![- l 1, l 0, l 1 * p.1 - l 0 * p.2] : V3 ℝ) 1 * (![- l 1, l 0, l 1 * p.1 - l 0 * p.2] : V3 ℝ) 1) = 1 := by
    simp only [Matrix.cons_val_zero, Matrix.cons_val_one]
    rw [show - l 1 * - l 1 + l 0 * l 0 = 1 by unfold UnitNormal at h; linarith, Real.sqrt_one]
  have e1 := normalizeLine_eq t (![- l 1, l 0, l 1 * p.1 - l 0 * p.2]) (by rw [e]; exact dblEps_lt_one)
  have hn := normalizeLine_norm e1
  have e2 := normalizeLine_idem hn
  refine ⟨_, ?_, hn, fun hb => normalizeLine_same e1 ?_⟩
  · unfold orthogLine lineOfValues; rw [e1]; exact e2
  · rw [signFix_zero, e]
    simpa using hb

/-- Angle of two lines given by the directions of their normal vectors. -/
theorem lineAngle_cos {l m : V3 ℝ} (hl : UnitNormal l) (hm : UnitNormal m) {a : ℝ} (h0 : 0 ≤ a) (h1 : a ≤ Real.pi / 2)
    (h : |l 0 * m 0 + l 1 * m 1| = Real.cos a) : lineAngle l m = a := by
  rw [lineAngle_eq, angleCos_unit hl hm, h, Real.arccos_cos h0 (by linarith [Real.pi_pos])]

/-- Close normal vectors. -/
theorem normal_close {l m : V3 ℝ} (hl : UnitNormal l) (hm : UnitNormal m) (s : ℝ) (hs : s = 1 ∨ s = -1)
    (h : 0 ≤ s * (l 0 * m 0 + l 1 * m 1)) : (l 0 - s * m 0) ^ 2 + (l 1 - s * m 1) ^ 2 ≤ lineAngle l m ^ 2 := by
  have e : lineAngle l m = Real.arccos (s * (l 0 * m 0 + l 1 * m 1)) := by
    rw [lineAngle_eq, angleCos_unit hl hm]
    congr 1
    rcases hs with rfl | rfl
    · rw [one_mul] at *; exact abs_of_nonneg h
    · rw [neg_one_mul] at *; exact abs_of_nonpos (by linarith)
  have hle : s * (l 0 * m 0 + l 1 * m 1) ≤ 1 := by
    have h1 := angleCos_le_one l m
    rw [angleCos_unit hl hm] at h1
    have h2 := le_abs_self (l 0 * m 0 + l 1 * m 1)
    have h3 := neg_abs_le (l 0 * m 0 + l 1 * m 1)
    rcases hs with rfl | rfl <;> linarith
  have hc : Real.cos (lineAngle l m) = s * (l 0 * m 0 + l 1 * m 1) := by
    rw [e, Real.cos_arccos (by linarith) hle]
  have hb := Real.one_sub_sq_div_two_le_cos (x := lineAngle l m)
  rw [hc] at hb
  have hs2 : s ^ 2 = 1 := by rcases hs with rfl | rfl <;> norm_num
  unfold UnitNormal at hl hm
  have : (l 0 - s * m 0) ^ 2 + (l 1 - s * m 1) ^ 2 = (l 0 ^ 2 + l 1 ^ 2) + s ^ 2 * (m 0 ^ 2 + m 1 ^ 2) - 2 * (s * (l 0 * m 0 + l 1 * m 1)) := by ring
  rw [this, hs2, hl, hm]
  linarith

/-! ### order -/

theorem fixOrder_spec {K : Type} [LinearOrder K] (p q : Pt K) :
    (fixOrder p q = (p, q) ∨ fixOrder p q = (q, p)) ∧ ¬ LexLt (fixOrder p q).2 (fixOrder p q).1 := by
  unfold fixOrder
  by_cases h : ptLt p q = true
  · have h1 := (ptLt_iff p q).1 h
    simp only [h, Bool.not_true, Bool.false_eq_true, if_false, true_or, true_and]
    unfold LexLt at *; grind
  · have h1 : ¬ LexLt p q := fun h2 => h ((ptLt_iff p q).2 h2)
    simp only [h, Bool.not_false, if_true, or_true, true_and]
    exact h1

end H2d
