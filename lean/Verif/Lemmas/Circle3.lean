import Verif.Lemmas.Welzl
import Verif.Props.SegmentMore

/-!
# Circle through three points
-/

set_option linter.unusedSectionVars false
set_option linter.unusedSimpArgs false

namespace H2d

open H2d.Spec H2d.Props

/-- Angle of two bisectors. -/
theorem bisector_angle {b b' : V3 ℝ} (hb : UnitNormal b) (hb' : UnitNormal b') {p q p' q' : Pt ℝ} (hn : 0 < eucl p q) (hn' : 0 < eucl p' q')
    (h : ∀ x, On b x ↔ eucl x p = eucl x q) (h' : ∀ x, On b' x ↔ eucl x p' = eucl x q') : lineAngle b b' = segAngle (p, q) (p', q') := by
  have dir : ∀ {b : V3 ℝ} {p q : Pt ℝ}, UnitNormal b → (∀ x, On b x ↔ eucl x p = eucl x q) →
      ∃ e, e ^ 2 = eucl p q ^ 2 ∧ q.1 - p.1 = e * b 0 ∧ q.2 - p.2 = e * b 1 := by
    intro b p q hb h
    obtain ⟨m1, m2⟩ := eucl_mid p q
    have o1 := (h ((p.1 + q.1) / 2, (p.2 + q.2) / 2)).2 (by rw [eucl_comm _ p, m1, ← m2]; exact eucl_comm _ _)
    have o2 := (h ((p.1 + q.1) / 2 - (q.2 - p.2), (p.2 + q.2) / 2 + (q.1 - p.1))).2 (by
      rw [eucl_eq_iff' (eucl_nonneg _ _), eucl_sq, eucl_sq]; simp only; ring)
    unfold On at o1 o2
    simp only at o1 o2
    have hu : b 0 ^ 2 + b 1 ^ 2 = 1 := hb
    have k : b 1 * (q.1 - p.1) = b 0 * (q.2 - p.2) := by linarith
    refine ⟨(q.1 - p.1) * b 0 + (q.2 - p.2) * b 1, ?_, ?_, ?_⟩
    · rw [eucl_sq]
      linear_combination ((q.1 - p.1) ^ 2 + (q.2 - p.2) ^ 2) * hu - (b 1 * (q.1 - p.1) - b 0 * (q.2 - p.2)) * k
    · linear_combination (-(q.1 - p.1)) * hu + b 1 * k
    · linear_combination (-(q.2 - p.2)) * hu - b 0 * k
  rw [lineAngle_eq, angleCos_unit hb hb', segAngle]
  congr 1
  obtain ⟨e, he, e1, e2⟩ := dir hb h
  obtain ⟨f, hf, f1, f2⟩ := dir hb' h'
  simp only [e1, e2, f1, f2]
  have h1 : |e| = eucl p q := by rw [← abs_of_pos hn]; exact (sq_eq_sq_iff_abs_eq_abs _ _).1 he
  have h2 : |f| = eucl p' q' := by rw [← abs_of_pos hn']; exact (sq_eq_sq_iff_abs_eq_abs _ _).1 hf
  rw [show e * b 0 * (f * b' 0) + e * b 1 * (f * b' 1) = e * f * (b 0 * b' 0 + b 1 * b' 1) by ring, abs_mul, abs_mul, h1, h2]
  field_simp

theorem segAngle_comm (s s' : Seg) : segAngle s s' = segAngle s' s := by
  unfold segAngle
  rw [mul_comm (eucl s.1 s.2)]
  congr 3; ring

/-- In a triangle, the smaller side faces the smaller angle (as an angle of lines). -/
theorem segAngle_le {A B C : Pt ℝ} (hAB : 0 < eucl A B) (hAC : 0 < eucl A C) (hBC : 0 < eucl B C) (h : eucl B C ≤ eucl A C) :
    segAngle (A, B) (A, C) ≤ segAngle (B, A) (B, C) := by
  unfold segAngle
  apply Real.arccos_le_arccos
  simp only
  rw [eucl_comm B A]
  have t1 := eucl_triangle A C B
  have t2 := eucl_triangle A B C
  have t3 := eucl_triangle B A C
  rw [eucl_comm C B] at t1
  rw [eucl_comm B A] at t3
  have sa := eucl_sq B C
  have sb := eucl_sq A C
  have sc := eucl_sq A B
  set a := eucl B C
  set b := eucl A C
  set c := eucl A B
  have e1 : (B.1 - A.1) * (C.1 - A.1) + (B.2 - A.2) * (C.2 - A.2) = (b ^ 2 + c ^ 2 - a ^ 2) / 2 := by rw [sa, sb, sc]; ring
  have e2 : (A.1 - B.1) * (C.1 - B.1) + (A.2 - B.2) * (C.2 - B.2) = (a ^ 2 + c ^ 2 - b ^ 2) / 2 := by rw [sa, sb, sc]; ring
  rw [e1, e2]
  have p1 : 0 ≤ (b - a) * ((a + b) ^ 2 - c ^ 2) := mul_nonneg (by linarith) (by nlinarith)
  have p2 : 0 ≤ (a + b) * (c ^ 2 - (a - b) ^ 2) := mul_nonneg (by linarith) (by nlinarith)
  rw [div_le_div_iff₀ (by positivity) (by positivity)]
  have key : |(a ^ 2 + c ^ 2 - b ^ 2) / 2| * b ≤ (b ^ 2 + c ^ 2 - a ^ 2) / 2 * a := by
    rcases abs_cases ((a ^ 2 + c ^ 2 - b ^ 2) / 2) with ⟨h1, _⟩ | ⟨h1, _⟩ <;> rw [h1] <;> nlinarith
  have : (b ^ 2 + c ^ 2 - a ^ 2) / 2 ≤ |(b ^ 2 + c ^ 2 - a ^ 2) / 2| := le_abs_self _
  have k2 : |(a ^ 2 + c ^ 2 - b ^ 2) / 2| * b ≤ |(b ^ 2 + c ^ 2 - a ^ 2) / 2| * a := key.trans (mul_le_mul_of_nonneg_right this hBC.le)
  nlinarith

theorem Spec.GoodPair.symm {t : Thr ℝ} {p q : Pt ℝ} (h : GoodPair t p q) : GoodPair t q p := by
  unfold GoodPair GoodSlope GoodSlopeX at *
  rw [eucl_comm q p, abs_sub_comm q.2, abs_sub_comm q.1, eq_comm, @eq_comm _ q.1]; exact h

theorem NearCollinear.comm12 {t : Thr ℝ} {a b c : Pt ℝ} : NearCollinear t a b c ↔ NearCollinear t b a c := by
  unfold NearCollinear
  have e : |turnAt b a c| = |turnAt a b c| := by rw [← abs_neg]; congr 1; unfold turnAt; ring
  rw [e, eucl_comm b a, max_assoc, max_assoc, max_comm (eucl a c)]
  tauto

theorem NearCollinear.comm23 {t : Thr ℝ} {a b c : Pt ℝ} : NearCollinear t a b c ↔ NearCollinear t a c b := by
  unfold NearCollinear
  have e : |turnAt a c b| = |turnAt a b c| := by rw [← abs_neg]; congr 1; unfold turnAt; ring
  rw [e, eucl_comm c b, max_comm (eucl a b)]
  tauto

theorem ThinAngle.comm12 {t : Thr ℝ} {a b c : Pt ℝ} : ThinAngle t a b c ↔ ThinAngle t b a c := by
  unfold ThinAngle
  rw [segAngle_comm (c, a)]; tauto

theorem ThinAngle.comm23 {t : Thr ℝ} {a b c : Pt ℝ} : ThinAngle t a b c ↔ ThinAngle t a c b := by
  unfold ThinAngle
  rw [segAngle_comm (a, b)]; tauto

/-- The triangle, with sides from the largest to the smallest. -/
theorem largest_spec (p1 p2 p3 : Pt ℝ) :
    ∃ A B C, largestDistancePoints p1 p2 p3 = (A, B, C) ∧ eucl A C ≤ eucl A B ∧ eucl B C ≤ eucl A C ∧
      ((A, B, C) = (p1, p2, p3) ∨ (A, B, C) = (p2, p1, p3) ∨ (A, B, C) = (p2, p3, p1) ∨ (A, B, C) = (p1, p3, p2) ∨ (A, B, C) = (p3, p1, p2) ∨
        (A, B, C) = (p3, p2, p1)) := by
  have sq : ∀ p q, sqDist p q = eucl p q ^ 2 := by
    intro p q; rw [eucl_sq]; unfold sqDist; ring
  have cmp : ∀ p q r u : Pt ℝ, sqDist p q > sqDist r u ↔ eucl r u < eucl p q := by
    intro p q r u; rw [sq, sq]
    constructor
    · intro h; exact lt_of_pow_lt_pow_left₀ 2 (eucl_nonneg _ _) h
    · intro h; exact pow_lt_pow_left₀ h (eucl_nonneg _ _) two_ne_zero
  unfold largestDistancePoints
  simp only [cmp]
  have c12 := eucl_comm p2 p1
  have c13 := eucl_comm p3 p1
  have c23 := eucl_comm p3 p2
  split_ifs with c1 c2 c3 c2 c3
  · exact ⟨p1, p2, p3, rfl, by linarith, by linarith, by tauto⟩
  · exact ⟨p2, p1, p3, rfl, by linarith, by linarith, by tauto⟩
  · exact ⟨p2, p3, p1, rfl, by linarith, by linarith, by tauto⟩
  · exact ⟨p1, p3, p2, rfl, by linarith, by linarith, by tauto⟩
  · exact ⟨p3, p1, p2, rfl, by linarith, by linarith, by tauto⟩
  · exact ⟨p3, p2, p1, rfl, by linarith, by linarith, by tauto⟩

/-- Bisector of a segment given by its ends in any order. -/
theorem bisector_pts {t : Thr ℝ} (h1 : dblEps < t.nullDistance) {p q : Pt ℝ} (hn : t.nullDistance ≤ eucl p q) (hg : GoodPair t p q) :
    ∃ s b, segMake t false p q = .ok s ∧ segBisector t s = .ok b ∧ UnitNormal b ∧ ∀ x, On b x ↔ eucl x p = eucl x q := by
  rw [segMake_eq _ hn]
  simp only [Bool.false_eq_true, if_false]
  unfold fixOrder
  split_ifs
  · obtain ⟨b, e1, e2, e3⟩ := C70_bisector_partial t h1 (q, p) ⟨by rw [eucl_comm]; exact hn, hg.symm.1⟩ hg.symm.2
    exact ⟨_, b, rfl, e1, e2, fun x => by rw [e3]; exact eq_comm⟩
  · obtain ⟨b, e1, e2, e3⟩ := C70_bisector_partial t h1 (p, q) ⟨hn, hg.1⟩ hg.2
    exact ⟨_, b, rfl, e1, e2, e3⟩

theorem circle3_spec {t : Thr ℝ} (h1 : dblEps < t.nullDistance) (h2 : 0 < t.nullAngleValue) {p1 p2 p3 : Pt ℝ} (g12 : GoodPair t p1 p2)
    (g13 : GoodPair t p1 p3) (g23 : GoodPair t p2 p3) :
    ((NearCollinear t p1 p2 p3 ∨ ThinAngle t p1 p2 p3) ∧ circle3 t p1 p2 p3 = .throw) ∨
    (¬ NearCollinear t p1 p2 p3 ∧ ¬ ThinAngle t p1 p2 p3 ∧ ∃ c, circle3 t p1 p2 p3 = .ok c ∧
      eucl p1 c.center = c.radius ∧ eucl p2 c.center = c.radius ∧ eucl p3 c.center = c.radius) := by
  obtain ⟨b, e1, e2⟩ := C68_collinear_partial t h1 p1 p2 p3 g12.1 g13.1 g23.1
  unfold circle3
  rw [e1, Res.bind_ok]
  cases b with
  | true =>
    left
    exact ⟨Or.inl (e2.1 rfl), by simp⟩
  | false =>
    have hnc : ¬ NearCollinear t p1 p2 p3 := fun h => by have := e2.2 h; cases this
    have hp := dblEps_pos
    obtain ⟨n12, n23, n13⟩ : t.nullDistance ≤ eucl p1 p2 ∧ t.nullDistance ≤ eucl p2 p3 ∧ t.nullDistance ≤ eucl p1 p3 := by
      unfold NearCollinear at hnc; push Not at hnc; exact hnc.1
    obtain ⟨A, B, C, hl, l1, l2, hperm⟩ := largest_spec p1 p2 p3
    simp only [Bool.false_eq_true, if_false, hl]
    have key : t.nullDistance ≤ eucl A B ∧ t.nullDistance ≤ eucl A C ∧ t.nullDistance ≤ eucl B C ∧ GoodPair t A B ∧ GoodPair t A C ∧
        (ThinAngle t p1 p2 p3 ↔ ThinAngle t A B C) ∧ ∀ o r, (eucl A o = r ∧ eucl B o = r ∧ eucl C o = r) ↔ (eucl p1 o = r ∧ eucl p2 o = r ∧ eucl p3 o = r) := by
      have n21 := n12; rw [eucl_comm] at n21
      have n32 := n23; rw [eucl_comm] at n32
      have n31 := n13; rw [eucl_comm] at n31
      have t1 := @ThinAngle.comm12 t
      have t2 := @ThinAngle.comm23 t
      simp only [Prod.mk.injEq] at hperm
      rcases hperm with h | h | h | h | h | h <;> obtain ⟨rfl, rfl, rfl⟩ := h
      · exact ⟨n12, n13, n23, g12, g13, Iff.rfl, fun o r => by tauto⟩
      · exact ⟨n21, n23, n13, g12.symm, g23, t1, fun o r => by tauto⟩
      · exact ⟨n23, n21, n31, g23, g12.symm, t1.trans t2, fun o r => by tauto⟩
      · exact ⟨n13, n12, n32, g13, g12, t2, fun o r => by tauto⟩
      · exact ⟨n31, n32, n12, g13.symm, g23.symm, t2.trans t1, fun o r => by tauto⟩
      · exact ⟨n32, n31, n21, g23.symm, g13.symm, t1.trans (t2.trans t1), fun o r => by tauto⟩
    obtain ⟨nAB, nAC, nBC, gAB, gAC, hth, hon⟩ := key
    obtain ⟨s1, b1, x1, x2, x3, x4⟩ := bisector_pts h1 nAB gAB
    obtain ⟨s2, b2, y1, y2, y3, y4⟩ := bisector_pts h1 nAC gAC
    rw [x1, Res.bind_ok, y1, Res.bind_ok, x2, Res.bind_ok, y2, Res.bind_ok]
    have pAB : 0 < eucl A B := by linarith
    have pAC : 0 < eucl A C := by linarith
    have pBC : 0 < eucl B C := by linarith
    have hpar : IsParallel t b1 b2 ↔ ThinAngle t p1 p2 p3 := by
      rw [IsParallel, bisector_angle x3 y3 pAB pAC x4 y4, hth]
      have a1 := segAngle_le pAB pAC pBC l2
      have a2 := segAngle_le pAC pAB (by rw [eucl_comm]; exact pBC) (by rw [eucl_comm]; exact l2.trans l1)
      rw [segAngle_comm (A, C)] at a2
      unfold ThinAngle
      constructor
      · exact Or.inl
      · rintro (h | h | h) <;> linarith
    by_cases hpl : IsParallel t b1 b2
    · left
      exact ⟨Or.inr (hpar.1 hpl), by rw [if_pos hpl]⟩
    · right
      refine ⟨hnc, fun h => hpl (hpar.2 h), ?_⟩
      rw [if_neg hpl]
      obtain ⟨i1, i2, i3, -⟩ := lineInter_spec h2 x3 y3 hpl
      rw [i1, Res.bind_ok]
      refine ⟨_, rfl, ?_⟩
      simp only [ptDist_eucl]
      generalize getXY (crossProd b1 b2) = o at *
      have q1 := (x4 o).1 i2
      have q2 := (y4 o).1 i3
      have := (hon o (eucl A o)).1 ⟨rfl, by rw [eucl_comm B, eucl_comm A]; exact q1.symm, by rw [eucl_comm C, eucl_comm A]; exact q2.symm⟩
      obtain ⟨z1, z2, z3⟩ := this
      rw [eucl_comm o p1, z1]
      exact ⟨rfl, z2, z3⟩

end H2d
