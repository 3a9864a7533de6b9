import Verif.Lemmas.FloatOrthog
import Verif.Lemmas.ExactOrthog

/-! # Orthogonal segments: an example, and lines that are nearly vertical -/

namespace H2d.Fl
open H2d.Spec

/-- The line `3/5 x + 4/5 y - 2 = 0` and the point (7,1). -/
theorem orthog_demo : Orthog stdR 7 ![3 / 5, 4 / 5, -2] (7, 1) ∧ Real.sqrt ((![3 / 5, 4 / 5, -2] : V3 ℝ) 0 ^ 2 + (![3 / 5, 4 / 5, -2] : V3 ℝ) 1 ^ 2) = 1 := by
  have e : Real.sqrt ((![3 / 5, 4 / 5, -2] : V3 ℝ) 0 ^ 2 + (![3 / 5, 4 / 5, -2] : V3 ℝ) 1 ^ 2) = 1 := by
    rw [Real.sqrt_eq_one]; simp only [Matrix.cons_val_zero, Matrix.cons_val_one]; norm_num
  refine ⟨⟨?_, Or.inr ?_, ?_, ?_, ?_⟩, e⟩
  · simp only [Matrix.cons_val_zero, Matrix.cons_val_one]; norm_num
  · rw [e]; simp only [Matrix.cons_val_one, Matrix.cons_val_zero]; norm_num [stdR]
  · norm_num
  · norm_num
  · unfold offLine; rw [e]; simp only [Matrix.cons_val]; norm_num

/-- A direction in the band. -/
theorem band_dir {d : ℝ} (hd : 0 < d) : ∃ c s : ℝ, 0 < s ∧ s < d ∧ s ≤ 1 / 4 ∧ 1 / 2 ≤ c ∧ c ^ 2 + s ^ 2 = 1 := by
  obtain ⟨s, h0, h1, h2⟩ : ∃ s : ℝ, 0 < s ∧ s < d ∧ s ≤ 1 / 4 :=
    ⟨min d 1 / 4, by have := lt_min hd one_pos; linarith, by have := min_le_left d 1; linarith, by have := min_le_right d 1; linarith⟩
  refine ⟨Real.sqrt (1 - s ^ 2), s, h0, h1, h2, Real.le_sqrt_of_sq_le (by nlinarith), ?_⟩
  rw [Real.sq_sqrt (by nlinarith)]; ring

theorem band_normalize {t : Thr ℝ} {c s : ℝ} (hs : 0 < s) (hsd : s < t.nullDenom) (hc : 1 / 2 ≤ c) (hcs : c ^ 2 + s ^ 2 = 1) (K : ℝ) : H2d.normalizeLine t ![- s, c, K] = .ok ![s, c, K] := by
  have e : Real.sqrt ((![- s, c, K] : V3 ℝ) 0 * (![- s, c, K] : V3 ℝ) 0 + (![- s, c, K] : V3 ℝ) 1 * (![- s, c, K] : V3 ℝ) 1) = 1 := by
    rw [← Real.sqrt_one]; congr 1
    simp only [Matrix.cons_val_zero, Matrix.cons_val_one]
    nlinarith
  have h1 := H2d.normalizeLine_eq t ![- s, c, K] (by rw [e]; exact dblEps_lt_one)
  rw [e, signFix_band t _ (by simpa using hs) (by simp only [div_one, Matrix.cons_val_zero, neg_neg]; exact hsd) (by simp; linarith)] at h1
  rw [h1]; simp

theorem band_orthog {t : Thr ℝ} {c s : ℝ} (hs : 0 < s) (hsd : s < t.nullDenom) (hc : 1 / 2 ≤ c) (hcs : c ^ 2 + s ^ 2 = 1) (p : Pt ℝ) :
    H2d.orthogLine t ![c, s, 0] p = .ok ![s, c, s * p.1 - c * p.2] := by
  unfold H2d.orthogLine H2d.lineOfValues
  simp only [Matrix.cons_val_zero, Matrix.cons_val_one]
  rw [band_normalize hs hsd hc hcs]
  exact normalizeLine_idem (normalizeLine_norm (band_normalize hs hsd hc hcs _))

theorem band_far {t : Thr ℝ} (ht : ExactThr t) (ha : t.nullAngleValue ≤ 1) {c s : ℝ} (hs : 0 < s) (hsd : s < t.nullDenom) (hs4 : s ≤ 1 / 4) (hc : 1 / 2 ≤ c) (hcs : c ^ 2 + s ^ 2 = 1) :
    ∃ l p q Q, NormLine t l ∧ ClosestOn l p Q ∧ Fl.orthogSegment exactArith t Real.arccos l p = .ok (some (q, p)) ∧ 1 < eucl q Q := by
  have hu : UnitNormal ![c, s, 0] := by simpa [UnitNormal] using hcs
  have hdist := ht.dist
  set d := t.nullDistance
  set R := 1 / s ^ 2 with hR
  set D := c ^ 2 - s ^ 2 with hD
  have hD0 : 1 / 4 < D := by nlinarith
  have hD1 : D ≤ 1 := by nlinarith
  set p : Pt ℝ := (-(R * s) + d * c, R * c + d * s) with hp
  have hK : s * p.1 - c * p.2 = -R := by rw [hp]; simp only; linear_combination (-R) * hcs
  have hv : c * p.1 + s * p.2 = d := by rw [hp]; simp only; linear_combination d * hcs
  have hld : H2d.lineDist ![c, s, 0] p = d := by
    rw [lineDist_unit hu]; simp only [Matrix.cons_val, add_zero]
    rw [hv, abs_of_pos hdist]
  have hq : ∀ q', On ![c, s, 0] q' → d ≤ eucl p q' := fun q' h' => by rw [← hld]; exact lineDist_le hu.proper p q' h'
  have hpar : ¬ IsParallel t ![c, s, 0] ![s, c, -R] := by
    unfold IsParallel H2d.lineAngle
    rw [not_lt]
    refine ha.trans ?_
    have hcos : angleCos ![c, s, 0] ![s, c, -R] ≤ 1 / 2 := by
      unfold angleCos
      simp only [Matrix.cons_val_zero, Matrix.cons_val_one]
      rw [show (c * c + s * s) = 1 by nlinarith, show s * s + c * c = 1 by nlinarith]
      have : c ≤ 1 := by nlinarith
      norm_num
      rw [abs_of_pos (by positivity)]
      nlinarith
    rw [if_neg (by linarith)]
    have h3 : Real.arccos (1 / 2) = Real.pi / 3 := by
      rw [← Real.cos_pi_div_three, Real.arccos_cos (by positivity) (by linarith [Real.pi_pos])]
    have := Real.arccos_le_arccos hcos
    rw [h3] at this
    linarith [Real.pi_gt_three]
  have hx : H2d.getXY (H2d.crossProd ![c, s, 0] ![s, c, -R]) = (-(R * s) / D, R * c / D) := by
    unfold H2d.getXY H2d.crossProd
    simp only [Matrix.cons_val]
    refine Prod.ext ?_ ?_
    · simp only; rw [hD]; congr 1 <;> ring
    · simp only; rw [hD]; congr 1 <;> ring
  have hDp : 0 < D := by linarith
  have hqon : On ![c, s, 0] (-(R * s) / D, R * c / D) := by
    simp only [On, Matrix.cons_val]; field_simp; ring
  refine ⟨![c, s, 0], p, (-(R * s) / D, R * c / D), (-(R * s), R * c), ⟨hu, ?_, ?_⟩, ⟨?_, ?_⟩, ?_, ?_⟩
  · simp; linarith
  · intro; simp; linarith
  · simp only [On, Matrix.cons_val]; ring
  · intro q' h'
    refine le_trans (le_of_eq ?_) (hq q' h')
    unfold eucl
    rw [Real.sqrt_eq_iff_mul_self_eq (by positivity) hdist.le, hp]
    simp only
    linear_combination (d ^ 2) * hcs
  · rw [Exact.orthogSegment_eq ht (by have : c * c + s * s = 1 := by nlinarith
                                      simp [HasDir, this])]
    unfold H2d.orthogSegment
    have ho : ∀ k, H2d.orthogLine t ![(![c, s, 0] : V3 ℝ) 0, (![c, s, 0] : V3 ℝ) 1, k] p = .ok ![s, c, -R] := by
      intro k
      have := band_orthog hs hsd hc hcs p
      rw [hK] at this
      rw [← this]; rfl
    have ho' : H2d.orthogLine t (if H2d.lineDist (H2d.parallelLines ![c, s, 0] (H2d.lineDist ![c, s, 0] p)).2 p < t.nullDistance then (H2d.parallelLines ![c, s, 0] (H2d.lineDist ![c, s, 0] p)).2
          else (H2d.parallelLines ![c, s, 0] (H2d.lineDist ![c, s, 0] p)).1) p = .ok ![s, c, -R] := by
      split_ifs
      · exact ho _
      · exact ho _
    rw [if_neg (by rw [hld]; exact lt_irrefl _)]
    simp only [ho', Res.bind_ok]
    have hin : H2d.lineInter t ![c, s, 0] ![s, c, -R] = .ok (H2d.crossProd ![c, s, 0] ![s, c, -R]) := by unfold H2d.lineInter; rw [if_neg hpar]
    rw [hin]
    simp only [Res.bind_ok, hx]
    rw [if_neg]
    · rfl
    · rw [PtEq, ptDist_eucl, eucl_comm, not_lt]; exact hq _ hqon
  · unfold eucl
    rw [Real.lt_sqrt (by norm_num)]
    have e1 : R * (1 / D - 1) = 2 / D := by
      rw [hR, show (1 : ℝ) / D - 1 = (1 - D) / D by field_simp, show 1 - D = 2 * s ^ 2 by rw [hD]; linarith]
      field_simp
    simp only
    have e2 : -(R * s) / D - -(R * s) = - s * (2 / D) := by rw [← e1]; ring
    have e3 : R * c / D - R * c = c * (2 / D) := by rw [← e1]; ring
    rw [e2, e3, show (- s * (2 / D)) ^ 2 + (c * (2 / D)) ^ 2 = (2 / D) ^ 2 by linear_combination (2 / D) ^ 2 * hcs]
    have : 2 ≤ 2 / D := by rw [le_div_iff₀ hDp]; linarith
    nlinarith

end H2d.Fl
