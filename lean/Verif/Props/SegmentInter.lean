import Verif.Lemmas.Segment
import Verif.Props.Line

/-!
# C22: segment/segment intersection

Exact reals, thresholds are parameters.
-/

set_option linter.unusedSectionVars false
set_option linter.unusedSimpArgs false

namespace H2d.Props

open H2d.Spec

/-! ## C22 -/

/-- **C22 (partial), soundness.** A reported point is on both supporting lines, and closer than half the null distance to each of the segments.
Missing: nearly horizontal segments, see `C22_false`. -/
theorem C22_sound_partial (t : Thr ℝ) (h1 : dblEps < t.nullDistance) (h2 : 0 < t.nullAngleValue) (s s' : Seg) (hs : GoodSeg t s) (hs' : GoodSeg t s')
    (p : Pt ℝ) (h : segInter t s s' = .ok (some p)) :
    (∃ k k', p = along s k ∧ p = along s' k') ∧ (∃ q, OnSeg s.1 s.2 q ∧ eucl p q < t.nullDistance / 2) ∧
      ∃ q, OnSeg s'.1 s'.2 q ∧ eucl p q < t.nullDistance / 2 := by
  have hp := dblEps_pos
  have hd : 0 < eucl s.1 s.2 := by linarith [hs.1]
  have hd' : 0 < eucl s'.1 s'.2 := by linarith [hs'.1]
  by_cases hne : SegEq t s s'
  · unfold segInter at h; rw [if_pos hne] at h; cases h
  by_cases ha : t.nullAngleValue ≤ segAngle s s'
  · obtain ⟨k, k', hkk, -, he⟩ := segInter_eq h1 h2 hs hs' hne ha
    rw [he] at h
    split_ifs at h with hc
    · cases h
      refine ⟨⟨k, k', rfl, hkk⟩, near_of_overshoot (by linarith) hc.1.1 hc.1.2, ?_⟩
      rw [hkk]; exact near_of_overshoot (by linarith) hc.2.1 hc.2.2
    · cases h
  · exfalso
    obtain ⟨l, e1, e2, -, e3⟩ := segLine_spec h1 hs.1
    obtain ⟨m, f1, f2, -, f3⟩ := segLine_spec h1 hs'.1
    obtain ⟨a1, a2⟩ := e3 hs.2
    obtain ⟨b1, b2⟩ := f3 hs'.2
    unfold segInter at h
    rw [if_neg hne, show segLine t s = .ok l from e1, Res.bind_ok, show segLine t s' = .ok m from f1, Res.bind_ok,
      if_pos (by rw [IsParallel, lineAngle_seg e2.1 f2.1 hd hd' a1 a2 b1 b2]; exact not_le.1 ha)] at h
    cases h

/-- **C22 (partial), completeness.** A common point of two segments that are neither equal nor parallel for the library is reported.
Missing: nearly horizontal segments (`C22_false`); segments that are equal for the library (`C22_equal_false`). -/
theorem C22_complete_partial (t : Thr ℝ) (h1 : dblEps < t.nullDistance) (h2 : 0 < t.nullAngleValue) (s s' : Seg) (hs : GoodSeg t s) (hs' : GoodSeg t s')
    (hne : ¬ SegEq t s s') (ha : t.nullAngleValue ≤ segAngle s s') (q : Pt ℝ) (hq : OnSeg s.1 s.2 q) (hq' : OnSeg s'.1 s'.2 q) :
    segInter t s s' = .ok (some q) := by
  have hp := dblEps_pos
  have hd : 0 < eucl s.1 s.2 := by linarith [hs.1]
  have hd' : 0 < eucl s'.1 s'.2 := by linarith [hs'.1]
  obtain ⟨k, k', hkk, hu, he⟩ := segInter_eq h1 h2 hs hs' hne ha
  obtain ⟨j, j0, j1, hj⟩ := hq
  obtain ⟨j', j0', j1', hj'⟩ := hq'
  obtain ⟨rfl, rfl⟩ := hu j j' (by unfold along; rw [← hj, ← hj'])
  rw [he, if_pos]
  · unfold along; rw [← hj]
  · have := mul_nonneg j0 hd.le
    have := mul_nonneg j0' hd'.le
    have : (j - 1) * eucl s.1 s.2 ≤ 0 := mul_nonpos_of_nonpos_of_nonneg (by linarith) hd.le
    have : (j' - 1) * eucl s'.1 s'.2 ≤ 0 := mul_nonpos_of_nonpos_of_nonneg (by linarith) hd'.le
    refine ⟨⟨?_, ?_⟩, ?_, ?_⟩ <;> linarith

/-- **C22, symmetry.** The answer does not depend on the order of the operands: same point, or no intersection, or failure, in all cases. -/
theorem C22_symmetric (t : Thr ℝ) (s s' : Seg) : segInter t s s' = segInter t s' s := by
  have hE : SegEq t s s' ↔ SegEq t s' s := by
    simp only [SegEq, PtEq, ptDist_eucl, eucl_comm s.1 s'.1, eucl_comm s.2 s'.2]
  have hnub : ∀ s : Seg, segLine t s ≠ .ub := by
    intro s; unfold segLine lineOfPts; split_ifs
    · simp
    · exact normalizeLine_not_ub t _
  unfold segInter
  simp only [← hE]
  split_ifs with h0
  · rfl
  · rcases hl : segLine t s with l | _ | _
    · rcases hm : segLine t s' with m | _ | _
      · simp only [Res.bind_ok]
        have hpar : IsParallel t l m ↔ IsParallel t m l := by rw [IsParallel, IsParallel, lineAngle_comm]
        by_cases h1 : IsParallel t l m
        · rw [if_pos h1, if_pos (hpar.1 h1)]
        · have h1' := fun h => h1 (hpar.2 h)
          rw [if_neg h1, if_neg h1']
          unfold lineInter
          rw [if_neg h1, if_neg h1']
          simp only [Res.bind_ok, getXY_cross_comm m l]
          split_ifs <;> rfl
      · rfl
      · exact absurd hm (hnub s')
    · rcases hm : segLine t s' with m | _ | _
      · rfl
      · rfl
      · exact absurd hm (hnub s')
    · exact absurd hl (hnub s)

/-- **C22, direction.** The answer is the same when both segments are run in the other direction. -/
theorem C22_reversed (t : Thr ℝ) (ht : 0 < t.nullDenom) (s s' : Seg) : segInter t s.swap s'.swap = segInter t s s' := by
  have hl : ∀ s : Seg, segLine t s.swap = segLine t s := fun s => C01_symmetric t ht _ _
  have hlen : ∀ s : Seg, segLength s.swap = segLength s := by
    intro s; simp only [segLength, ptDist_eucl, Prod.fst_swap, Prod.snd_swap]; exact eucl_comm _ _
  have hE : SegEq t s.swap s'.swap ↔ SegEq t s s' := by
    simp only [SegEq, Prod.fst_swap, Prod.snd_swap]; exact and_comm
  unfold segInter
  simp only [hl, hlen, hE, Prod.fst_swap, Prod.snd_swap]
  simp only [add_comm (ptDist s.2 _), add_comm (ptDist s'.2 _)]

/-- **C22, use by polylines.** Intersection of segments has the symmetries that the theorems on polygons (C42, C45) need of it. -/
theorem C22_interSymm (t : Thr ℝ) : InterSymm (segInterB t) where
  comm a b := by unfold segInterB; rw [C22_symmetric]
  swap a b := by
    unfold segInterB
    rw [show fixOrder a.swap.1 a.swap.2 = fixOrder a.1 a.2 from fixOrder_comm _ _, show fixOrder b.swap.1 b.swap.2 = fixOrder b.1 b.2 from fixOrder_comm _ _]

/-- **C22 is false** for nearly horizontal segments, whatever the threshold: two segments with a common point, at a large angle, for which no intersection is reported. -/
theorem C22_false (t : Thr ℝ) (h0 : dblEps < t.nullDistance) (h0' : t.nullDistance ≤ 1) (h1 : 0 < t.nullDenom) (h1' : t.nullDenom ≤ 1)
    (h2' : t.nullAngleValue ≤ 1) :
    ∃ s s' q, segMake t false s.1 s.2 = .ok s ∧ segMake t false s'.1 s'.2 = .ok s' ∧ OnSeg s.1 s.2 q ∧ OnSeg s'.1 s'.2 q ∧ ¬ SegEq t s s' ∧ 1 ≤ segAngle s s' ∧
      segInter t s s' = .ok none := by
  obtain ⟨M, hM1, hM2⟩ : ∃ N : ℝ, 2 ≤ N ∧ 1 < N * t.nullDenom := by
    have : 0 < 1 / t.nullDenom := by positivity
    refine ⟨1 / t.nullDenom + 2, by linarith, ?_⟩
    have : 1 / t.nullDenom * t.nullDenom = 1 := by field_simp
    nlinarith
  have hp := dblEps_pos
  have hsq0 : 0 < Real.sqrt (M ^ 2 + 1) := by positivity
  have hsq2 := Real.sq_sqrt (show 0 ≤ M ^ 2 + 1 by positivity)
  have hMs : M ≤ Real.sqrt (M ^ 2 + 1) := Real.le_sqrt_of_sq_le (by linarith)
  have hlen : eucl (0, 0) (0 + M, 1) = Real.sqrt (M ^ 2 + 1) := by rw [eucl]; congr 1; ring
  have hlen' : eucl (M / 2, 0) (M / 2, 1) = 1 := by rw [eucl_eq_iff (by norm_num)]; norm_num
  have hbad := segLine_bad (t := t) (N := 0) (M := M) (by linarith) hM2 (by linarith)
  obtain ⟨m, f1, f2, f0, f3⟩ := segLine_spec h0 (a := (M / 2, 0)) (b := (M / 2, 1)) (by rw [hlen']; exact h0')
  obtain ⟨b1, b2⟩ := f3 (Or.inr (by rw [hlen']; norm_num; exact h1'))
  rw [hlen'] at f0
  norm_num at f0
  have hm' : m 0 ^ 2 + m 1 ^ 2 = 1 := f2.1
  have hm1 : m 1 = 0 := by rw [f0] at hm'; exact pow_eq_zero_iff (two_ne_zero) |>.1 (by linarith)
  have hm2 : m 2 = - (M / 2) := by unfold On at b1; rw [f0, hm1] at b1; simp only at b1; linarith
  have hcos : 1 / Real.sqrt (M ^ 2 + 1) ≤ Real.cos 1 := by
    have := Real.one_sub_sq_div_two_le_cos (x := 1)
    rw [div_le_iff₀ hsq0]; nlinarith
  have hpi := Real.two_le_pi
  have hacos : ∀ x : ℝ, x = 1 / Real.sqrt (M ^ 2 + 1) → 1 ≤ Real.arccos x := by
    intro x hx
    rw [← Real.arccos_cos (x := 1) (by norm_num) (by linarith), hx]
    exact Real.arccos_le_arccos hcos
  have hul : UnitNormal ![1 / Real.sqrt (M ^ 2 + 1), M / Real.sqrt (M ^ 2 + 1), 0 / Real.sqrt (M ^ 2 + 1)] := by
    unfold UnitNormal; simp only [Matrix.cons_val_zero, Matrix.cons_val_one]
    generalize Real.sqrt (M ^ 2 + 1) = S at *
    field_simp; linarith
  have hpar : ¬ IsParallel t ![1 / Real.sqrt (M ^ 2 + 1), M / Real.sqrt (M ^ 2 + 1), 0 / Real.sqrt (M ^ 2 + 1)] m := by
    rw [IsParallel, lineAngle_eq, angleCos_unit hul f2.1, not_lt]
    refine le_trans h2' (hacos _ ?_)
    simp only [Matrix.cons_val_zero, Matrix.cons_val_one, f0, hm1, mul_zero, add_zero, mul_one]
    exact abs_of_pos (by positivity)
  have hx : getXY (crossProd ![1 / Real.sqrt (M ^ 2 + 1), M / Real.sqrt (M ^ 2 + 1), 0 / Real.sqrt (M ^ 2 + 1)] m) = along ((M / 2, 0), (M / 2, 1)) (-1 / 2) := by
    unfold getXY along
    simp only [crossProd, Matrix.cons_val_zero, Matrix.cons_val_one, Matrix.cons_val, f0, hm1, hm2]
    generalize Real.sqrt (M ^ 2 + 1) = S at *
    have : M ≠ 0 := by linarith
    apply Prod.ext
    · simp only; field_simp; ring
    · simp only; field_simp; ring
  have hne : ¬ SegEq t ((0, 0), (0 + M, 1)) ((M / 2, 0), (M / 2, 1)) := by
    simp only [SegEq, PtEq, ptDist_eucl, not_and_or, not_lt]
    left
    rw [show eucl (0, 0) (M / 2, 0) = M / 2 by rw [eucl_eq_iff (by linarith)]; ring]
    linarith
  refine ⟨((0, 0), (0 + M, 1)), ((M / 2, 0), (M / 2, 1)), (M / 2, 1 / 2), ?_, ?_, ?_, ?_, hne, ?_, ?_⟩
  · rw [segMake_eq false (by simp only; rw [hlen]; linarith)]
    simp only [Bool.false_eq_true, if_false]
    rw [fixOrder_of_lt (Or.inl (by simp only; linarith))]
  · rw [segMake_eq false (by simp only; rw [hlen']; linarith)]
    simp only [Bool.false_eq_true, if_false]
    rw [fixOrder_of_lt (p := (M / 2, 0)) (q := (M / 2, 1)) (Or.inr ⟨rfl, by norm_num⟩)]
  · exact ⟨1 / 2, by norm_num, by norm_num, by simp only; apply Prod.ext <;> (simp only; ring)⟩
  · exact ⟨1 / 2, by norm_num, by norm_num, by simp only; apply Prod.ext <;> (simp only; ring)⟩
  · apply hacos
    simp only
    rw [hlen, hlen', mul_one]
    congr 1
    norm_num
  · unfold segInter
    rw [if_neg hne, hbad, Res.bind_ok, show segLine t ((M / 2, 0), (M / 2, 1)) = .ok m from f1, Res.bind_ok, if_neg hpar]
    unfold lineInter
    rw [if_neg hpar, Res.bind_ok]
    simp only [hx]
    have t2 := sum_test (s := ((M / 2, 0), (M / 2, 1))) (by rw [hlen']; norm_num) (-1/2) (e := t.nullDistance)
    simp only at t2
    rw [hlen'] at t2
    split_ifs with w1 w2
    · exfalso
      have := (t2.1 w2).2.1
      linarith
    · rfl
    · rfl

/-- **C22 is false** for segments that compare equal, whatever the threshold: they share an end, have different directions, and no intersection is reported. -/
theorem C22_equal_false (t : Thr ℝ) (h0 : 0 < t.nullDistance) :
    ∃ s s' q, segMake t false s.1 s.2 = .ok s ∧ segMake t false s'.1 s'.2 = .ok s' ∧ OnSeg s.1 s.2 q ∧ OnSeg s'.1 s'.2 q ∧ 1 / 2 ≤ segAngle s s' ∧
      segInter t s s' = .ok none := by
  set e := t.nullDistance with he
  have l1 : eucl (0, 0) (e, 0) = e := by rw [eucl_eq_iff h0.le]; ring
  have l2 : eucl (0, 0) (4 / 5 * e, 3 / 5 * e) = e := by rw [eucl_eq_iff h0.le]; ring
  refine ⟨((0, 0), (e, 0)), ((0, 0), (4 / 5 * e, 3 / 5 * e)), (0, 0), ?_, ?_, ⟨0, le_rfl, zero_le_one, by simp⟩, ⟨0, le_rfl, zero_le_one, by simp⟩, ?_, ?_⟩
  · rw [segMake_eq false (by simp only; rw [l1])]
    simp only [Bool.false_eq_true, if_false]
    rw [fixOrder_of_lt (Or.inl (by simp only; linarith))]
  · rw [segMake_eq false (by simp only; rw [l2])]
    simp only [Bool.false_eq_true, if_false]
    rw [fixOrder_of_lt (Or.inl (by simp only; linarith))]
  · unfold segAngle
    simp only
    rw [l1, l2]
    have : |(e - 0) * (4 / 5 * e - 0) + (0 - 0) * (3 / 5 * e - 0)| / (e * e) = 4 / 5 := by
      rw [abs_of_pos (by nlinarith)]; field_simp; ring
    rw [this]
    have hpi := Real.two_le_pi
    rw [← Real.arccos_cos (x := 1 / 2) (by norm_num) (by linarith)]
    apply Real.arccos_le_arccos
    have := Real.one_sub_sq_div_two_le_cos (x := 1 / 2)
    linarith
  · unfold segInter
    rw [if_pos]
    simp only [SegEq, PtEq, ptDist_eucl, eucl_self, ← he, h0, true_and]
    rw [eucl_lt_iff h0]
    simp only
    nlinarith

/-- Two ordinary segments that meet: the hypotheses hold. -/
example : segInter stdR ((0, 0), (2, 2)) ((0, 2), (2, 0)) = .ok (some (1, 1)) := by
  have hq : (2:ℝ) ≤ Real.sqrt 8 := Real.le_sqrt_of_sq_le (by norm_num)
  have hq' : Real.sqrt 8 ≤ 3 := Real.sqrt_le_iff.2 ⟨by norm_num, by norm_num⟩
  have l1 : eucl (0, 0) (2, 2) = Real.sqrt 8 := by rw [eucl]; norm_num
  have l2 : eucl (0, 2) (2, 0) = Real.sqrt 8 := by rw [eucl]; norm_num
  apply C22_complete_partial
  · norm_num [stdR, dblEps]
  · norm_num [stdR]
  · refine ⟨?_, Or.inr ?_⟩
    · simp only [l1]; norm_num [stdR]; linarith
    · simp only [l1]; norm_num [stdR]; linarith
  · refine ⟨?_, Or.inr ?_⟩
    · simp only [l2]; norm_num [stdR]; linarith
    · simp only [l2]; norm_num [stdR]; linarith
  · simp only [SegEq, PtEq, ptDist_eucl, not_and_or, not_lt]
    left; rw [show eucl (0, 0) (0, 2) = 2 by rw [eucl_eq_iff (by norm_num)]; norm_num]; norm_num [stdR]
  · unfold segAngle
    simp only
    norm_num [stdR]
    linarith [Real.two_le_pi]
  · exact ⟨1 / 2, by norm_num, by norm_num, by norm_num⟩
  · exact ⟨1 / 2, by norm_num, by norm_num, by norm_num⟩

end H2d.Props
