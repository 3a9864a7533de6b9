import Verif.Lemmas.Segment
import Verif.Props.Line

/-!
# C21-C24: parallel segments, intersections, sides, reversal

Exact reals, thresholds are parameters.
-/

set_option linter.unusedSectionVars false
set_option linter.unusedSimpArgs false

namespace H2d.Props

open H2d.Spec

/-! ## C23 -/

/-- **C23.** The side is that of the rotation from the direction of the segment to the direction of the point, unless the point is one of the ends. -/
theorem C23_side (t : Thr ℝ) (s : Seg) (p : Pt ℝ) :
    ∃ r, segPointSide t s p = .ok r ∧
      (r = .left ↔ 0 < turnAt s.1 s.2 p ∧ t.nullDistance ≤ eucl p s.1 ∧ t.nullDistance ≤ eucl p s.2) ∧
      (r = .right ↔ turnAt s.1 s.2 p < 0 ∧ t.nullDistance ≤ eucl p s.1 ∧ t.nullDistance ≤ eucl p s.2) := by
  unfold segPointSide
  by_cases h : PtEq t p s.1 ∨ PtEq t p s.2
  · rw [if_pos h]
    simp only [PtEq, ptDist_eucl] at h
    refine ⟨.neither, rfl, ?_, ?_⟩ <;>
    · constructor
      · intro h; cases h
      · rintro ⟨-, h1, h2⟩; rcases h with h | h <;> linarith
  · rw [if_neg h]
    simp only [PtEq, ptDist_eucl, not_or, not_lt] at h
    have e : crossProdV (s.1, p) s = - turnAt s.1 s.2 p := by unfold crossProdV turnAt; simp only; ring
    rw [segMake_eq true (by rw [eucl_comm]; exact h.1), Res.bind_ok, Res.pure_eq]
    simp only [if_true, e, h.1, h.2, and_true]
    refine ⟨_, rfl, ?_, ?_⟩
    · split_ifs with h1 h2
      · simpa using h1
      · simp; linarith
      · simp; linarith
    · split_ifs with h1 h2
      · simp; linarith
      · simpa using h2
      · simp; linarith

/-- **C23, reversal.** The side is exchanged when the segment is run in the other direction. -/
theorem C23_reversal (t : Thr ℝ) (s : Seg) (p : Pt ℝ) :
    (segPointSide t (s.2, s.1) p = .ok .left ↔ segPointSide t s p = .ok .right) ∧
    (segPointSide t (s.2, s.1) p = .ok .right ↔ segPointSide t s p = .ok .left) := by
  obtain ⟨r, h1, h2, h3⟩ := C23_side t s p
  obtain ⟨r', h1', h2', h3'⟩ := C23_side t (s.2, s.1) p
  have e : turnAt s.2 s.1 p = - turnAt s.1 s.2 p := by unfold turnAt; ring
  simp only [e, Left.neg_pos_iff, Left.neg_neg_iff] at h2' h3'
  rw [h1, h1', Res.ok.injEq, Res.ok.injEq, Res.ok.injEq, Res.ok.injEq, h2, h3, h2', h3']
  tauto

/-- **C23, translation.** Moving the segment and the point together changes nothing. -/
theorem C23_translation (t : Thr ℝ) (s : Seg) (p : Pt ℝ) (dx dy : ℝ) :
    segPointSide t (segTranslate s dx dy) (p.1 + dx, p.2 + dy) = segPointSide t s p := by
  have e : ∀ q : Pt ℝ, ptDist (p.1 + dx, p.2 + dy) (q.1 + dx, q.2 + dy) = ptDist p q := by
    intro q; unfold ptDist; simp only; congr 1; ring
  have e' : ∀ q : Pt ℝ, ptDist (q.1 + dx, q.2 + dy) (p.1 + dx, p.2 + dy) = ptDist q p := by
    intro q; unfold ptDist; simp only; congr 1; ring
  unfold segPointSide segTranslate segMake
  simp only [PtEq, e, e']
  split_ifs
  · rfl
  · rfl
  · simp only [if_true, Res.bind_ok]
    have : crossProdV ((s.1.1 + dx, s.1.2 + dy), (p.1 + dx, p.2 + dy)) ((s.1.1 + dx, s.1.2 + dy), (s.2.1 + dx, s.2.2 + dy)) = crossProdV (s.1, p) s := by
      unfold crossProdV; simp only; ring
    rw [this]

/-- A point on each side. -/
example : segPointSide stdR ((0, 0), (4, 0)) (0, 3) = .ok .left ∧ segPointSide stdR ((0, 0), (4, 0)) (0, -3) = .ok .right := by
  have e1 : eucl (0, 3) (0, 0) = 3 := by rw [eucl_eq_iff (by norm_num)]; norm_num
  have e2 : eucl (0, 3) (4, 0) = 5 := by rw [eucl_eq_iff (by norm_num)]; norm_num
  have e3 : eucl (0, -3) (0, 0) = 3 := by rw [eucl_eq_iff (by norm_num)]; norm_num
  have e4 : eucl (0, -3) (4, 0) = 5 := by rw [eucl_eq_iff (by norm_num)]; norm_num
  constructor
  · obtain ⟨r, h1, h2, -⟩ := C23_side stdR ((0, 0), (4, 0)) (0, 3)
    rw [h1, h2.2 (by simp only [e1, e2]; norm_num [stdR, turnAt])]
  · obtain ⟨r, h1, -, h2⟩ := C23_side stdR ((0, 0), (4, 0)) (0, -3)
    rw [h1, h2.2 (by simp only [e3, e4]; norm_num [stdR, turnAt])]

/-! ## C24 -/

/-- **C24 (partial).** `-s` has its ends exchanged, `-(-s)` is `s`, and `-s` sees the points on the other side.
Missing: the operand is not preserved, see `C24_false`. -/
theorem C24_value_partial (t : Thr ℝ) (s : Seg) (p : Pt ℝ) :
    (segNeg s).1 = (s.2, s.1) ∧ (segNeg (segNeg s).1).1 = s ∧
    (segPointSide t (segNeg s).1 p = .ok .left ↔ segPointSide t s p = .ok .right) := by
  refine ⟨rfl, rfl, (C23_reversal t s p).1⟩

/-- **C24 is false** for every oriented segment: after the evaluation of `-s`, `s` itself is reversed, hence compares different from what it was. -/
theorem C24_false (t : Thr ℝ) (p q : Pt ℝ) (s : Seg) (h : segMake t true p q = .ok s) : ¬ SegEq t (segNeg s).2 s := by
  obtain ⟨h1, h2, -⟩ := segMake_ok h
  have h2 : s = (p, q) := by simpa using h2
  subst h2
  simp only [segNeg, SegEq, PtEq, ptDist_eucl, not_and_or, not_lt]
  right; exact h1

example : ∃ s, segMake stdR true (0, 0) (3, 4) = .ok s := by
  have e : eucl (0, 0) (3, 4) = 5 := by rw [eucl_eq_iff (by norm_num)]; norm_num
  exact ⟨_, segMake_eq true (by rw [e]; norm_num [stdR])⟩

/-! ## C21 -/

/-- **C21 (partial).** The two segments are the segment shifted by a vector of length `d` perpendicular to it, in both directions. For an oriented segment,
the first one is on the left and the second one on the right. Missing: nearly horizontal or nearly vertical segments (see `C01_false`, `C06_false`), and distances below the null distance. -/
theorem C21_parallel_partial (t : Thr ℝ) (h1 : dblEps < t.nullDistance) (h2 : t.nullAngleValue ≤ Real.pi / 2) (o : Bool) (s : Seg)
    (ho : o = true ∨ LexLt s.1 s.2) (hs : GoodSeg t s) (hx : GoodSlopeX t s.1 s.2) (d : ℝ) (hd : t.nullDistance ≤ d) :
    ∃ v : ℝ × ℝ, segParallel t o s d = .ok (shift v s, shift (-v.1, -v.2) s) ∧ v.1 ^ 2 + v.2 ^ 2 = d ^ 2 ∧
      v.1 * (s.2.1 - s.1.1) + v.2 * (s.2.2 - s.1.2) = 0 ∧
      (o = true → segPointSide t s (shift v s).1 = .ok .left ∧ segPointSide t s (shift v s).2 = .ok .left ∧
        segPointSide t s (shift (-v.1, -v.2) s).1 = .ok .right ∧ segPointSide t s (shift (-v.1, -v.2) s).2 = .ok .right) := by
  have hp := dblEps_pos
  have hL : 0 < eucl s.1 s.2 := by linarith [hs.1]
  obtain ⟨l, e1, e2, e0, e3⟩ := segLine_spec h1 hs.1
  obtain ⟨a1, a2⟩ := e3 hs.2
  have hl' : l 0 ^ 2 + l 1 ^ 2 = 1 := e2.1
  obtain ⟨e, he, u1, u2⟩ := unit_dir e2.1 a1 a2
  have hee : |e| = eucl s.1 s.2 := by rw [← abs_of_pos hL]; exact (sq_eq_sq_iff_abs_eq_abs _ _).1 he
  have hb : l 1 = 0 ∨ t.nullDenom ≤ |l 1| := by
    rcases hx with hx | hx
    · left
      have : e * l 1 = 0 := by rw [← u1, hx]; ring
      rcases mul_eq_zero.1 this with h | h
      · rw [h, abs_zero] at hee; linarith
      · exact h
    · right
      rw [abs_sub_comm, u1, abs_mul, hee, mul_comm] at hx
      exact le_of_mul_le_mul_left hx hL
  obtain ⟨o1, b1, b2⟩ := inter_perp h2 e2.1 a1 hb
  obtain ⟨o2, c1, c2⟩ := inter_perp h2 e2.1 a2 hb
  obtain ⟨q1, b3, b4⟩ := b2 d
  obtain ⟨q2, c3, c4⟩ := c2 d
  obtain ⟨q3, b5, b6⟩ := b2 (-d)
  obtain ⟨q4, c5, c6⟩ := c2 (-d)
  have hside : ∀ w : ℝ, (w = d ∨ w = -d) → ∀ p, (p = s.1 ∨ p = s.2) →
      ∃ r, segPointSide t s (p.1 - w * l 0, p.2 - w * l 1) = .ok r ∧ (r = .left ↔ w * e < 0) ∧ (r = .right ↔ 0 < w * e) := by
    intro w hw p hp
    have hwd : w ^ 2 = d ^ 2 := by rcases hw with rfl | rfl <;> ring
    have dist : ∀ q : Pt ℝ, (q = s.1 ∨ q = s.2) → t.nullDistance ≤ eucl (p.1 - w * l 0, p.2 - w * l 1) q := by
      intro q hq
      refine le_trans hd ?_
      rw [← abs_of_nonneg (eucl_nonneg _ q)]
      refine le_trans (le_abs_self d) ((sq_le_sq).1 ?_)
      rw [eucl_sq]
      simp only
      have hpq : l 0 * (p.1 - q.1) + l 1 * (p.2 - q.2) = 0 := by
        have : On l p := by rcases hp with rfl | rfl <;> assumption
        have : On l q := by rcases hq with rfl | rfl <;> assumption
        unfold On at *; linarith
      have hk : (p.1 - w * l 0 - q.1) ^ 2 + (p.2 - w * l 1 - q.2) ^ 2 = (p.1 - q.1) ^ 2 + (p.2 - q.2) ^ 2 + d ^ 2 := by
        linear_combination -2 * w * hpq + w ^ 2 * hl' + hwd
      rw [hk]
      have := sq_nonneg (p.1 - q.1)
      have := sq_nonneg (p.2 - q.2)
      linarith
    obtain ⟨r, g1, g2, g3⟩ := C23_side t s (p.1 - w * l 0, p.2 - w * l 1)
    have ht : turnAt s.1 s.2 (p.1 - w * l 0, p.2 - w * l 1) = - (w * e) := by
      have hcross : (s.2.1 - s.1.1) * (p.2 - s.2.2) - (s.2.2 - s.1.2) * (p.1 - s.2.1) = 0 := by
        rcases hp with rfl | rfl <;> ring
      unfold turnAt; simp only
      rw [u1, u2] at *
      linear_combination hcross - w * e * hl'
    refine ⟨r, g1, ?_, ?_⟩
    · rw [g2, ht]; simp [dist s.1 (Or.inl rfl), dist s.2 (Or.inr rfl)]
    · rw [g3, ht]; simp [dist s.1 (Or.inl rfl), dist s.2 (Or.inr rfl)]
  have he0 : e ≠ 0 := by rintro rfl; rw [abs_zero] at hee; linarith
  have hd0 : 0 < d := by linarith
  have hmk : ∀ w : ℝ, segMake t o (s.1.1 - w * l 0, s.1.2 - w * l 1) (s.2.1 - w * l 0, s.2.2 - w * l 1) =
      .ok (shift (-w * l 0, -w * l 1) s) := by
    intro w
    rw [segMake_eq]
    · rcases ho with ho | ho
      · simp [ho, shift, sub_eq_add_neg]
      · rw [fixOrder_of_lt]
        · simp [shift, sub_eq_add_neg]
        · unfold LexLt at *; simpa using ho
    · rw [show eucl (s.1.1 - w * l 0, s.1.2 - w * l 1) (s.2.1 - w * l 0, s.2.2 - w * l 1) = eucl s.1 s.2 by
        unfold eucl; simp only; congr 1; ring]
      exact hs.1
  have hpl : parallelLines l d = (![l 0, l 1, l 2 + d], ![l 0, l 1, l 2 + -d]) := by
    unfold parallelLines; rw [sub_eq_add_neg]
  have hrun : ∀ side : PointSide, (o = true ∧ segPointSide t s (s.1.1 - -d * l 0, s.1.2 - -d * l 1) = .ok side) ∨ (o = false ∧ side = .neither) →
      segParallel t o s d = if side = .left then .ok (shift (- -d * l 0, - -d * l 1) s, shift (-d * l 0, -d * l 1) s) else
        .ok (shift (-d * l 0, -d * l 1) s, shift (- -d * l 0, - -d * l 1) s) := by
    intro side hsd
    unfold segParallel
    rw [if_neg (not_le.2 hd0), show segLine t s = .ok l from e1, Res.bind_ok, hpl]
    simp only []
    rw [b1, Res.bind_ok, c1, Res.bind_ok, b3, Res.bind_ok, c3, Res.bind_ok, b5, Res.bind_ok, c5, Res.bind_ok, b4, b6, c4, c6]
    rcases hsd with ⟨hot, hsd⟩ | ⟨hot, rfl⟩
    · rw [if_pos hot, hsd, Res.bind_ok]
      by_cases h : side = .left
      · simp only [h, if_true]
        rw [hmk, Res.bind_ok, hmk, Res.bind_ok, Res.pure_eq]
      · simp only [h, if_false]
        rw [hmk, Res.bind_ok, hmk, Res.bind_ok, Res.pure_eq]
    · rw [if_neg (by rw [hot]; simp), Res.pure_eq, Res.bind_ok]
      simp only [reduceCtorEq, if_false]
      rw [hmk, Res.bind_ok, hmk, Res.bind_ok, Res.pure_eq]
  have hshift : ∀ w : ℝ, shift (-w * l 0, -w * l 1) s = ((s.1.1 - w * l 0, s.1.2 - w * l 1), (s.2.1 - w * l 0, s.2.2 - w * l 1)) := by
    intro w; simp [shift, sub_eq_add_neg]
  have hgeo : ∀ w : ℝ, (w = d ∨ w = -d) → (-w * l 0) ^ 2 + (-w * l 1) ^ 2 = d ^ 2 ∧ (-w * l 0) * (s.2.1 - s.1.1) + (-w * l 1) * (s.2.2 - s.1.2) = 0 := by
    intro w hw
    refine ⟨?_, by rw [u1, u2]; ring⟩
    have hwd : w ^ 2 = d ^ 2 := by rcases hw with rfl | rfl <;> ring
    linear_combination w ^ 2 * hl' + hwd
  -- the vector to the first result, from its sign
  have fin : ∀ w : ℝ, (w = d ∨ w = -d) → segParallel t o s d = .ok (shift (-w * l 0, -w * l 1) s, shift (- -w * l 0, - -w * l 1) s) →
      (o = true → w * e < 0) → ∃ v : ℝ × ℝ, segParallel t o s d = .ok (shift v s, shift (-v.1, -v.2) s) ∧ v.1 ^ 2 + v.2 ^ 2 = d ^ 2 ∧
      v.1 * (s.2.1 - s.1.1) + v.2 * (s.2.2 - s.1.2) = 0 ∧
      (o = true → segPointSide t s (shift v s).1 = .ok .left ∧ segPointSide t s (shift v s).2 = .ok .left ∧
        segPointSide t s (shift (-v.1, -v.2) s).1 = .ok .right ∧ segPointSide t s (shift (-v.1, -v.2) s).2 = .ok .right) := by
    intro w hw hr hsg
    have hv : (-(-w * l 0), -(-w * l 1)) = (- -w * l 0, - -w * l 1) := by apply Prod.ext <;> (simp only; ring)
    refine ⟨(-w * l 0, -w * l 1), ?_, (hgeo w hw).1, (hgeo w hw).2, ?_⟩
    · simp only [hv]; exact hr
    · intro hot
      have hwe := hsg hot
      simp only [hv]
      rw [hshift w, hshift (-w)]
      have hw' : -w = d ∨ -w = -d := by rcases hw with rfl | rfl <;> simp
      obtain ⟨r1, x1, y1, -⟩ := hside w hw s.1 (Or.inl rfl)
      obtain ⟨r2, x2, y2, -⟩ := hside w hw s.2 (Or.inr rfl)
      obtain ⟨r3, x3, -, y3⟩ := hside (-w) hw' s.1 (Or.inl rfl)
      obtain ⟨r4, x4, -, y4⟩ := hside (-w) hw' s.2 (Or.inr rfl)
      simp only
      rw [x1, x2, x3, x4, y1.2 hwe, y2.2 hwe, y3.2 (by linarith), y4.2 (by linarith)]
      exact ⟨rfl, rfl, rfl, rfl⟩
  rcases Bool.eq_false_or_eq_true o with hot | hot
  · obtain ⟨r, x, y, z⟩ := hside (-d) (Or.inr rfl) s.1 (Or.inl rfl)
    have hr := hrun r (Or.inl ⟨hot, x⟩)
    by_cases hlt : -d * e < 0
    · rw [y.2 hlt] at hr
      exact fin (-d) (Or.inr rfl) (by rw [hr, if_pos rfl]; simp) (fun _ => hlt)
    · have : r ≠ .left := fun h => hlt (y.1 h)
      rw [if_neg this] at hr
      refine fin d (Or.inl rfl) hr (fun _ => ?_)
      have : d * e ≠ 0 := mul_ne_zero hd0.ne' he0
      rcases lt_or_gt_of_ne this with h | h
      · exact h
      · exfalso; apply hlt; linarith
  · have hr := hrun .neither (Or.inr ⟨hot, rfl⟩)
    rw [if_neg (by decide)] at hr
    exact fin d (Or.inl rfl) hr (fun h => by rw [hot] at h; cases h)

/-- **C21 is false** for distances below the null distance: the segment returned first may be on the right. -/
theorem C21_false (t : Thr ℝ) (h1 : dblEps < t.nullDistance) (h1' : t.nullDistance ≤ 1) (h2 : t.nullAngleValue ≤ Real.pi / 2) (h3 : t.nullDenom ≤ 1) :
    ∃ s u : Seg, ∃ d v, 0 < d ∧ segMake t true s.1 s.2 = .ok s ∧ segParallel t true s d = .ok (u, v) ∧ turnAt s.1 s.2 u.1 < 0 := by
  have hp := dblEps_pos
  have e : eucl (0, 1) (0, 0) = 1 := by rw [eucl_eq_iff (by norm_num)]; norm_num
  obtain ⟨l, e1, e2, e0, e3⟩ := segLine_spec h1 (a := (0, 1)) (b := (0, 0)) (by rw [e]; exact h1')
  obtain ⟨a1, a2⟩ := e3 (Or.inr (by rw [e]; norm_num; exact h3))
  rw [e] at e0
  norm_num at e0
  have hl' : l 0 ^ 2 + l 1 ^ 2 = 1 := e2.1
  have hl1 : l 1 = 0 := by rw [e0] at hl'; exact pow_eq_zero_iff (two_ne_zero) |>.1 (by linarith)
  obtain ⟨o1, b1, b2⟩ := inter_perp h2 e2.1 a1 (Or.inl hl1)
  obtain ⟨o2, c1, c2⟩ := inter_perp h2 e2.1 a2 (Or.inl hl1)
  have hd : 0 < t.nullDistance / 2 := by linarith
  obtain ⟨q1, b3, b4⟩ := b2 (t.nullDistance / 2)
  obtain ⟨q2, c3, c4⟩ := c2 (t.nullDistance / 2)
  obtain ⟨q3, b5, b6⟩ := b2 (-(t.nullDistance / 2))
  obtain ⟨q4, c5, c6⟩ := c2 (-(t.nullDistance / 2))
  have hpl : parallelLines l (t.nullDistance / 2) = (![l 0, l 1, l 2 + t.nullDistance / 2], ![l 0, l 1, l 2 + -(t.nullDistance / 2)]) := by
    unfold parallelLines; rw [sub_eq_add_neg]
  have hmk : ∀ w : ℝ, segMake t true (0 - w * l 0, 1 - w * l 1) (0 - w * l 0, 0 - w * l 1) = .ok ((0 - w * l 0, 1 - w * l 1), (0 - w * l 0, 0 - w * l 1)) := by
    intro w
    rw [segMake_eq]
    · rfl
    · rw [show eucl (0 - w * l 0, 1 - w * l 1) (0 - w * l 0, 0 - w * l 1) = eucl (0, 1) (0, 0) by unfold eucl; simp only; congr 1; ring, e]; exact h1'
  have hside : segPointSide t ((0, 1), (0, 0)) (0 - -(t.nullDistance / 2) * l 0, 1 - -(t.nullDistance / 2) * l 1) = .ok .neither := by
    unfold segPointSide
    rw [if_pos]
    left
    rw [PtEq, ptDist_eucl, eucl_lt_iff (by linarith), e0, hl1]
    simp only; nlinarith
  refine ⟨((0, 1), (0, 0)), ((0 - t.nullDistance / 2 * l 0, 1 - t.nullDistance / 2 * l 1), (0 - t.nullDistance / 2 * l 0, 0 - t.nullDistance / 2 * l 1)),
    t.nullDistance / 2, ((0 - -(t.nullDistance / 2) * l 0, 1 - -(t.nullDistance / 2) * l 1), (0 - -(t.nullDistance / 2) * l 0, 0 - -(t.nullDistance / 2) * l 1)),
    hd, segMake_eq true (by rw [e]; exact h1'), ?_, ?_⟩
  · unfold segParallel
    rw [if_neg (not_le.2 hd), e1, Res.bind_ok, hpl]
    simp only []
    rw [b1, Res.bind_ok, c1, Res.bind_ok, b3, Res.bind_ok, c3, Res.bind_ok, b5, Res.bind_ok, c5, Res.bind_ok, b4, b6, c4, c6]
    rw [if_pos trivial, hside, Res.bind_ok]
    simp only [reduceCtorEq, if_false]
    rw [hmk, Res.bind_ok, hmk, Res.bind_ok, Res.pure_eq]
  · rw [e0, hl1]; unfold turnAt; simp only; linarith

/-- The hypotheses of C21 are met. -/
example : GoodSeg stdR ((0, 0), (3, 4)) ∧ GoodSlopeX stdR (0, 0) (3, 4) ∧ LexLt ((0:ℝ), (0:ℝ)) (3, 4) ∧ dblEps < stdR.nullDistance ∧ stdR.nullAngleValue ≤ Real.pi / 2 := by
  have e : eucl (0, 0) (3, 4) = 5 := by rw [eucl_eq_iff (by norm_num)]; norm_num
  refine ⟨⟨?_, Or.inr ?_⟩, Or.inr ?_, Or.inl ?_, ?_, ?_⟩
  · simp only [e]; norm_num [stdR]
  · simp only [e]; norm_num [stdR]
  · simp only [e]; norm_num [stdR]
  · norm_num
  · norm_num [stdR, dblEps]
  · have := Real.two_le_pi; norm_num [stdR]; linarith

end H2d.Props
