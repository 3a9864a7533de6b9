import Verif.Lemmas.Segment
import Verif.Props.Line

/-!
# C17-C24: segments and oriented segments

Exact reals, thresholds are parameters.
-/

set_option linter.unusedSectionVars false
set_option linter.unusedSimpArgs false

namespace H2d.Props

open H2d.Spec

/-! ## C17 -/

/-- The default segment goes from the origin to (1,1), whether it is oriented or not: it is the one that the constructor makes from these points. -/
theorem C17_default (t : Thr ℝ) (o : Bool) (h : t.nullDistance ≤ 1) : segMake t o (0, 0) (1, 1) = .ok segDefault := by
  have hd : ¬ PtEq t ((0 : ℝ), (0 : ℝ)) (1, 1) := by
    rw [PtEq, ptDist_eucl, not_lt, eucl]
    refine h.trans (Real.le_sqrt_of_sq_le ?_)
    norm_num
  have hl : ptLt ((0 : ℝ), (0 : ℝ)) (1, 1) = true := (ptLt_iff _ _).2 (Or.inl (by norm_num))
  cases o <;> simp [segMake, hd, fixOrder, hl, segDefault]


/-- **C17 (partial).** After any history that does not convert an oriented segment, the first point of a segment is smaller than the second one.
Missing: conversions from oriented segments, for which the claim is false, see `C17_false`. -/
theorem C17_ordered_partial (t : Thr ℝ) (ht : 0 < t.nullDistance) (s : Seg) (h : SegObj t false false s) : LexLt s.1 s.2 := by
  have key : ∀ o s, SegObj t false o s → o = false → LexLt s.1 s.2 := by
    intro o s h
    have mk : ∀ p q : Pt ℝ, ¬ PtEq t p q → LexLt (fixOrder p q).1 (fixOrder p q).2 := by
      intro p q hpq
      have hne : p ≠ q := by
        rintro rfl; apply hpq; rw [PtEq, ptDist_eucl, eucl_self]; exact ht
      unfold fixOrder
      by_cases hl : ptLt p q = true
      · simpa [hl] using (ptLt_iff p q).1 hl
      · simp only [hl, Bool.not_false, if_true]
        by_contra hn
        exact hne (ptLt_total (by simpa using hl) (by rw [← Bool.not_eq_true, ptLt_iff]; exact hn))
    induction h with
    | default o => intro _; left; norm_num [segDefault]
    | make o p q s h =>
      rintro rfl
      unfold segMake at h
      simp only [Bool.false_eq_true, if_false] at h
      split_ifs at h with h1
      cases h
      exact mk p q h1
    | set o s p q h ih =>
      rintro rfl
      unfold segSet
      simp only [Bool.false_eq_true, if_false]
      split_ifs with h1
      · exact ih rfl
      · exact mk p q h1
    | translate o s dx dy h ih =>
      intro ho
      have := ih ho
      unfold LexLt segTranslate at *; simp only
      rcases this with h1 | ⟨h1, h2⟩
      · left; linarith
      · right; exact ⟨by linarith, by linarith⟩
    | moveTo o s p h ih =>
      intro ho
      have := ih ho
      unfold LexLt segMoveTo at *; simp only
      rcases this with h1 | ⟨h1, h2⟩
      · left; linarith
      · right; exact ⟨by linarith, by linarith⟩
    | neg s h ih => intro ho; cases ho
    | fromSegment s h ih =>
      intro ho
      have := ih ho
      unfold segConvert
      rw [if_neg (by simp), fixOrder_of_lt this]
      exact this
    | fromOriented o s h hc ih =>
      rintro rfl
      simp at hc
  exact key false s h rfl

/-- **C17 is false** in general: the segment got from an oriented segment keeps its order. -/
theorem C17_false (t : Thr ℝ) (ht : t.nullDistance ≤ 1) : ∃ s, SegObj t true false s ∧ ¬ LexLt s.1 s.2 := by
  refine ⟨segConvert true ((1, 0), (0, 0)), .fromOriented false _ (.make true (1, 0) (0, 0) _ ?_) (Or.inr rfl), ?_⟩
  · rw [segMake_eq]
    · rfl
    · rw [show eucl (1, 0) (0, 0) = 1 by rw [eucl_eq_iff (by norm_num)]; norm_num]; exact ht
  · simp [segConvert, LexLt]

/-- A history: built in the wrong order, moved, then changed. -/
example : ∃ s, segMake stdR false (3, 4) (0, 0) = .ok s ∧
    SegObj stdR false false (segSet stdR false (segMoveTo (segTranslate s 1 2) (5, 5)) (7, 1) (7, 0)).2 := by
  have e : eucl (3, 4) (0, 0) = 5 := by rw [eucl_eq_iff (by norm_num)]; norm_num
  have h : segMake stdR false (3, 4) (0, 0) = .ok (fixOrder (3, 4) (0, 0)) := by
    rw [segMake_eq _ (by rw [e]; norm_num [stdR])]; simp
  exact ⟨_, h, .set _ _ _ _ (.moveTo _ _ _ (.translate _ _ _ _ (.make _ _ _ _ h)))⟩

/-! ## C18 -/

/-- **C18.** Both constructors reject points that are equal for the library, and only these. The order of the points has no influence on
a non oriented segment. For oriented segments the order is kept. -/
theorem C18_constructors (t : Thr ℝ) (p q : Pt ℝ) :
    (∀ o, segMake t o p q = .throw ↔ eucl p q < t.nullDistance) ∧ segMake t false p q = segMake t false q p ∧
    (t.nullDistance ≤ eucl p q → segMake t true p q = .ok (p, q) ∧
      ∃ s, segMake t false p q = .ok s ∧ (s = (p, q) ∨ s = (q, p))) := by
  refine ⟨fun o => segMake_throw o, ?_, fun h => ⟨by rw [segMake_eq _ h]; simp, ⟨fixOrder p q, by rw [segMake_eq _ h]; simp, (fixOrder_spec p q).1⟩⟩⟩
  unfold segMake
  rw [fixOrder_comm p q]
  simp only [PtEq, ptDist_eucl, eucl_comm p q, Bool.false_eq_true, if_false]

/-- **C18, comparison.** Non oriented segments built from the same points in any order are equal; oriented ones are never equal when the order differs. -/
theorem C18_equality (t : Thr ℝ) (ht : 0 < t.nullDistance) (p q : Pt ℝ) (s s' u u' : Seg) (h1 : segMake t false p q = .ok s)
    (h2 : segMake t false q p = .ok s') (h3 : segMake t true p q = .ok u) (h4 : segMake t true q p = .ok u') : SegEq t s s' ∧ ¬ SegEq t u u' := by
  have hs : s = s' := by
    rw [(C18_constructors t p q).2.1, h2] at h1; cases h1; rfl
  obtain ⟨h5, -, -⟩ := segMake_ok h3
  rw [segMake_eq true h5] at h3
  rw [eucl_comm] at h5
  rw [segMake_eq true h5] at h4
  cases h3; cases h4
  subst hs
  simp only [SegEq, PtEq, ptDist_eucl, eucl_self, ht, true_and, if_true]
  rw [not_and_or]; right; exact not_lt.2 h5

/-- The hypotheses of C18 are met, e.g. by (0,0), (3,4). -/
example : stdR.nullDistance ≤ eucl (0, 0) (3, 4) ∧ 0 < stdR.nullDistance := by
  rw [show eucl (0, 0) (3, 4) = 5 by rw [eucl_eq_iff (by norm_num)]; norm_num]
  norm_num [stdR]

/-! ## C19 -/

/-- **C19.** The distance is that of the closest point of the segment. -/
theorem C19_shortest (s : Seg) (hs : s.1 ≠ s.2) (p : Pt ℝ) : IsLeast {d | ∃ q, OnSeg s.1 s.2 q ∧ d = eucl p q} (segDistTo s p).1 := by
  have hd2 : 0 < (s.2.1 - s.1.1) * (s.2.1 - s.1.1) + (s.2.2 - s.1.2) * (s.2.2 - s.1.2) := by
    have h := pow_pos (lt_of_le_of_ne (eucl_nonneg s.1 s.2) (fun h => hs (eucl_eq_zero.1 h.symm))) 2
    rw [eucl_sq] at h; nlinarith
  have hmono : ∀ a b : Pt ℝ, (p.1 - a.1) ^ 2 + (p.2 - a.2) ^ 2 ≤ (p.1 - b.1) ^ 2 + (p.2 - b.2) ^ 2 → eucl p a ≤ eucl p b :=
    fun a b h => Real.sqrt_le_sqrt h
  have hres : ∀ a : Pt ℝ, Real.sqrt ((p.1 - a.1) * (p.1 - a.1) + (p.2 - a.2) * (p.2 - a.2)) = eucl p a := by
    intro a; rw [← ptDist_eucl]; rfl
  unfold segDistTo
  simp only [hres]
  generalize hk : ((p.1 - s.1.1) * (s.2.1 - s.1.1) + (p.2 - s.1.2) * (s.2.2 - s.1.2)) /
    ((s.2.1 - s.1.1) * (s.2.1 - s.1.1) + (s.2.2 - s.1.2) * (s.2.2 - s.1.2)) = k
  rw [div_eq_iff hd2.ne'] at hk
  have hdiff : ∀ j : ℝ, (p.1 - (along s j).1) ^ 2 + (p.2 - (along s j).2) ^ 2 =
      (p.1 - s.1.1) ^ 2 + (p.2 - s.1.2) ^ 2 + ((s.2.1 - s.1.1) * (s.2.1 - s.1.1) + (s.2.2 - s.1.2) * (s.2.2 - s.1.2)) * (j ^ 2 - 2 * j * k) := by
    intro j; unfold along; simp only; linear_combination -2 * j * hk
  generalize (s.2.1 - s.1.1) * (s.2.1 - s.1.1) + (s.2.2 - s.1.2) * (s.2.2 - s.1.2) = D at *
  have h0 : along s 0 = s.1 := by unfold along; simp
  have h1 : along s 1 = s.2 := by unfold along; simp
  have fin : ∀ j : ℝ, 0 ≤ j → j ≤ 1 → (∀ i : ℝ, 0 ≤ i → i ≤ 1 → j ^ 2 - 2 * j * k ≤ i ^ 2 - 2 * i * k) →
      IsLeast {d | ∃ q, OnSeg s.1 s.2 q ∧ d = eucl p q} (eucl p (along s j)) := by
    intro j hj0 hj1 hmin
    refine ⟨⟨along s j, ⟨j, hj0, hj1, rfl⟩, rfl⟩, ?_⟩
    rintro d ⟨q, ⟨i, hi0, hi1, rfl⟩, rfl⟩
    apply hmono
    rw [hdiff j]
    have := hdiff i
    unfold along at this
    rw [this]
    have := mul_le_mul_of_nonneg_left (hmin i hi0 hi1) hd2.le
    linarith
  split_ifs with hk0 hk1
  · have := fin 0 le_rfl zero_le_one (by intro i hi0 hi1; nlinarith)
    rwa [h0] at this
  · have := fin 1 zero_le_one le_rfl (by intro i hi0 hi1; nlinarith)
    rwa [h1] at this
  · exact fin k (not_lt.1 hk0) (not_lt.1 hk1) (by intro i hi0 hi1; nlinarith [sq_nonneg (i - k)])

/-- **C19, region.** It tells where the projection on the supporting line is: before the first point, after the second one, or between them. -/
theorem C19_region (s : Seg) (hs : s.1 ≠ s.2) (p : Pt ℝ) :
    ((segDistTo s p).2 = -1 ↔ (p.1 - s.1.1) * (s.2.1 - s.1.1) + (p.2 - s.1.2) * (s.2.2 - s.1.2) < 0) ∧
    ((segDistTo s p).2 = 1 ↔ 0 < (p.1 - s.2.1) * (s.2.1 - s.1.1) + (p.2 - s.2.2) * (s.2.2 - s.1.2)) ∧
    ((segDistTo s p).2 = -1 ∨ (segDistTo s p).2 = 0 ∨ (segDistTo s p).2 = 1) := by
  have hd2 : 0 < (s.2.1 - s.1.1) * (s.2.1 - s.1.1) + (s.2.2 - s.1.2) * (s.2.2 - s.1.2) := by
    have h := pow_pos (lt_of_le_of_ne (eucl_nonneg s.1 s.2) (fun h => hs (eucl_eq_zero.1 h.symm))) 2
    rw [eucl_sq] at h; nlinarith
  unfold segDistTo
  simp only []
  have e1 : ((p.1 - s.1.1) * (s.2.1 - s.1.1) + (p.2 - s.1.2) * (s.2.2 - s.1.2)) /
    ((s.2.1 - s.1.1) * (s.2.1 - s.1.1) + (s.2.2 - s.1.2) * (s.2.2 - s.1.2)) < 0 ↔ (p.1 - s.1.1) * (s.2.1 - s.1.1) + (p.2 - s.1.2) * (s.2.2 - s.1.2) < 0 := by
    rw [div_lt_iff₀ hd2, zero_mul]
  have e2 : ((p.1 - s.1.1) * (s.2.1 - s.1.1) + (p.2 - s.1.2) * (s.2.2 - s.1.2)) /
    ((s.2.1 - s.1.1) * (s.2.1 - s.1.1) + (s.2.2 - s.1.2) * (s.2.2 - s.1.2)) > 1 ↔ 0 < (p.1 - s.2.1) * (s.2.1 - s.1.1) + (p.2 - s.2.2) * (s.2.2 - s.1.2) := by
    rw [gt_iff_lt, lt_div_iff₀ hd2, one_mul, ← sub_pos]
    have : (p.1 - s.1.1) * (s.2.1 - s.1.1) + (p.2 - s.1.2) * (s.2.2 - s.1.2) - ((s.2.1 - s.1.1) * (s.2.1 - s.1.1) + (s.2.2 - s.1.2) * (s.2.2 - s.1.2)) =
      (p.1 - s.2.1) * (s.2.1 - s.1.1) + (p.2 - s.2.2) * (s.2.2 - s.1.2) := by ring
    rw [this]
  have e3 : 0 < (p.1 - s.2.1) * (s.2.1 - s.1.1) + (p.2 - s.2.2) * (s.2.2 - s.1.2) → ¬ (p.1 - s.1.1) * (s.2.1 - s.1.1) + (p.2 - s.1.2) * (s.2.2 - s.1.2) < 0 := by
    intro h h'; nlinarith
  simp only [e1, e2]
  by_cases h1 : (p.1 - s.1.1) * (s.2.1 - s.1.1) + (p.2 - s.1.2) * (s.2.2 - s.1.2) < 0
  · have : ¬ 0 < (p.1 - s.2.1) * (s.2.1 - s.1.1) + (p.2 - s.2.2) * (s.2.2 - s.1.2) := fun h => e3 h h1
    simp [h1, this]
  · by_cases h2 : 0 < (p.1 - s.2.1) * (s.2.1 - s.1.1) + (p.2 - s.2.2) * (s.2.2 - s.1.2)
    · simp [h1, h2]
    · simp [h1, h2]

/-- The three regions occur. -/
example : (segDistTo ((0, 0), (2, 0)) (-1, 1)).2 = -1 ∧ (segDistTo ((0, 0), (2, 0)) (1, 1)).2 = 0 ∧ (segDistTo ((0, 0), (2, 0)) (3, 1)).2 = 1 := by
  refine ⟨?_, ?_, ?_⟩ <;> norm_num [segDistTo]

/-! ## C20 -/

/-- **C20.** Splitting in two: done exactly when half the length is not below the null distance; then both parts share the middle point, and have half the length. -/
theorem C20_middle (t : Thr ℝ) (o : Bool) (s : Seg) (ho : o = true ∨ LexLt s.1 s.2) :
    (segSplit t o s = .throw ↔ eucl s.1 s.2 / 2 < t.nullDistance) ∧
    (t.nullDistance ≤ eucl s.1 s.2 / 2 → ∃ m, segSplit t o s = .ok ((s.1, m), (m, s.2)) ∧
      m.1 = (s.1.1 + s.2.1) / 2 ∧ m.2 = (s.1.2 + s.2.2) / 2 ∧ eucl s.1 m = eucl s.1 s.2 / 2 ∧ eucl m s.2 = eucl s.1 s.2 / 2) := by
  have hc : segCenter s = along s (1 / 2) := by unfold segCenter along; apply Prod.ext <;> (simp only; ring)
  have h1 : eucl s.1 (segCenter s) = eucl s.1 s.2 / 2 := by rw [hc, eucl_along_left, abs_of_pos (by norm_num)]; ring
  have h2 : eucl (segCenter s) s.2 = eucl s.1 s.2 / 2 := by
    rw [hc, eucl_comm, eucl_along_right, show (1:ℝ) - 1 / 2 = 1 / 2 by norm_num, abs_of_pos (by norm_num)]; ring
  have key : t.nullDistance ≤ eucl s.1 s.2 / 2 → segSplit t o s = .ok ((s.1, segCenter s), (segCenter s, s.2)) := by
    intro h
    unfold segSplit
    rw [segMake_eq o (by rw [h1]; exact h), Res.bind_ok, segMake_eq o (by rw [h2]; exact h), Res.bind_ok, Res.pure_eq]
    rcases ho with ho | ho
    · simp [ho]
    · have l1 : LexLt s.1 (segCenter s) := by
        unfold LexLt segCenter at *; simp only
        rcases ho with h | ⟨h, h'⟩
        · left; linarith
        · right; constructor <;> linarith
      have l2 : LexLt (segCenter s) s.2 := by
        unfold LexLt segCenter at *; simp only
        rcases ho with h | ⟨h, h'⟩
        · left; linarith
        · right; constructor <;> linarith
      rw [fixOrder_of_lt l1, fixOrder_of_lt l2]; simp
  refine ⟨?_, fun h => ⟨segCenter s, key h, rfl, rfl, h1, h2⟩⟩
  by_cases h : eucl s.1 s.2 / 2 < t.nullDistance
  · have : segMake t o s.1 (segCenter s) = .throw := (segMake_throw o).2 (by rw [h1]; exact h)
    simp [segSplit, this, h]
  · simp [key (not_lt.1 h), h]

/-- **C20 (partial), point at a distance.** The point is on the supporting line, at the distance asked for from the first point and on the side of the second one.
Missing: nearly horizontal segments, for which it is false (`C20_false`). -/
theorem C20_pointAt_partial (t : Thr ℝ) (ht : dblEps < t.nullDistance) (s : Seg) (hL : t.nullDistance ≤ eucl s.1 s.2)
    (hs : GoodSlope t s.1 s.2) (d : ℝ) :
    (segPointAt t s d = .throw ↔ d < 0) ∧
    (0 ≤ d → segPointAt t s d = .ok (along s (d / eucl s.1 s.2)) ∧ eucl s.1 (along s (d / eucl s.1 s.2)) = d ∧
      (d ≤ eucl s.1 s.2 → OnSeg s.1 s.2 (along s (d / eucl s.1 s.2)))) := by
  have hd : 0 < eucl s.1 s.2 := by linarith [dblEps_pos]
  obtain ⟨l, e1, e2, -, e3⟩ := segLine_spec ht hL
  obtain ⟨ha, hb⟩ := e3 hs
  have key : 0 ≤ d → segPointAt t s d = .ok (along s (d / eucl s.1 s.2)) := by
    intro h0
    obtain ⟨a, b, h1, h2, h3, h4, h5, h6, h7, h8⟩ := (C07_points t (by linarith [dblEps_pos]) l e2.1.proper s.1 d).2 ha
    unfold segPointAt
    rw [if_neg (not_lt.2 h0), show segLine t s = .ok l from e1, Res.bind_ok, h1, Res.bind_ok, Res.pure_eq]
    have hne : s.1 ≠ s.2 := by intro h; rw [h, eucl_self] at hd; exact lt_irrefl _ hd
    obtain ⟨k, rfl⟩ := on_line_param e2.1 hne ha hb h2
    obtain ⟨j, rfl⟩ := on_line_param e2.1 hne ha hb h3
    rw [eucl_along_left, abs_of_nonneg h0] at h4 h5
    simp only [ptDist_eucl, eucl_along_right]
    congr 1
    have hjk : (j + k) = 0 := by
      have a1 : (j + k) * (s.2.1 - s.1.1) = 0 := by unfold along at h6; simp only at h6; linarith
      have a2 : (j + k) * (s.2.2 - s.1.2) = 0 := by unfold along at h7; simp only at h7; linarith
      rcases mul_eq_zero.1 a1 with a | a
      · exact a
      · rcases mul_eq_zero.1 a2 with b | b
        · exact b
        · exact absurd (Prod.ext (by linarith) (by linarith)) hne
    have hj : j = -k := by linarith
    subst hj
    by_cases hk : 0 ≤ k
    · rw [abs_of_nonneg hk] at h4
      have : k = d / eucl s.1 s.2 := by rw [eq_div_iff hd.ne']; exact h4
      rw [← this]
      split_ifs with hlt
      · rfl
      · have h9 := le_of_mul_le_mul_right (not_lt.1 hlt) hd
        have : k = 0 := by
          rw [← sq_le_sq] at h9
          nlinarith
        rw [this, neg_zero]
    · have hk := not_le.1 hk
      rw [abs_of_neg hk] at h4
      have : -k = d / eucl s.1 s.2 := by rw [eq_div_iff hd.ne']; exact h4
      rw [← this, if_neg]
      rw [not_lt]
      apply mul_le_mul_of_nonneg_right _ hd.le
      rw [← sq_le_sq]; nlinarith
  refine ⟨?_, fun h => ⟨key h, ?_, fun h' => ⟨d / eucl s.1 s.2, by positivity, by rw [div_le_one hd]; exact h', rfl⟩⟩⟩
  · by_cases h : d < 0
    · simp [segPointAt, h]
    · simp [key (not_lt.1 h), h]
  · rw [eucl_along_left, abs_of_nonneg (by positivity)]; field_simp

/-- **C20 (partial), splitting at a distance.** Done exactly when the distance is between 0 and the length and both parts are not too short; both parts share the cutting point, that is on the segment,
the first has the length asked for, and the lengths add up. -/
theorem C20_splitAt_partial (t : Thr ℝ) (ht : dblEps < t.nullDistance) (s : Seg) (hL : t.nullDistance ≤ eucl s.1 s.2)
    (hs : GoodSlope t s.1 s.2) (d : ℝ) :
    (segSplitAt t s d = .throw ↔ d < t.nullDistance ∨ eucl s.1 s.2 - d < t.nullDistance) ∧
    (t.nullDistance ≤ d → t.nullDistance ≤ eucl s.1 s.2 - d → ∃ m, segSplitAt t s d = .ok ((s.1, m), (m, s.2)) ∧
      OnSeg s.1 s.2 m ∧ eucl s.1 m = d ∧ eucl m s.2 = eucl s.1 s.2 - d) := by
  have hd : 0 < eucl s.1 s.2 := by linarith [dblEps_pos]
  obtain ⟨-, h1⟩ := C20_pointAt_partial t ht s hL hs d
  have hsec : 0 ≤ d → d ≤ eucl s.1 s.2 → eucl (along s (d / eucl s.1 s.2)) s.2 = eucl s.1 s.2 - d := by
    intro h0 h1
    rw [eucl_comm, eucl_along_right, abs_of_nonneg (by rw [sub_nonneg, div_le_one hd]; exact h1)]; field_simp
  have key : t.nullDistance ≤ d → t.nullDistance ≤ eucl s.1 s.2 - d → segSplitAt t s d = .ok ((s.1, along s (d / eucl s.1 s.2)), (along s (d / eucl s.1 s.2), s.2)) := by
    intro a b
    have := dblEps_pos
    obtain ⟨h2, h3, h4⟩ := h1 (by linarith)
    unfold segSplitAt
    rw [if_neg (by linarith), if_neg (by rw [segLength, ptDist_eucl]; linarith), h2, Res.bind_ok,
      segMake_eq true (by rw [h3]; exact a), Res.bind_ok, segMake_eq true (by rw [hsec (by linarith) (by linarith)]; exact b)]
    rfl
  refine ⟨?_, fun a b => ⟨_, key a b, ?_, ?_, ?_⟩⟩
  · constructor
    · intro h
      by_contra hn
      rw [not_or, not_lt, not_lt] at hn
      rw [key hn.1 hn.2] at h; cases h
    · intro h
      unfold segSplitAt
      split_ifs with a b
      · rfl
      · rfl
      · rw [segLength, ptDist_eucl] at b
        obtain ⟨h2, h3, h4⟩ := h1 (by linarith)
        rw [h2, Res.bind_ok]
        rcases h with h | h
        · rw [(segMake_throw true).2 (by rw [h3]; exact h)]; rfl
        · by_cases h5 : d < t.nullDistance
          · rw [(segMake_throw true).2 (by rw [h3]; exact h5)]; rfl
          · rw [segMake_eq true (by rw [h3]; exact not_lt.1 h5), Res.bind_ok, (segMake_throw true).2 (by rw [hsec (by linarith) (by linarith)]; exact h)]; rfl
  · exact (h1 (by linarith [dblEps_pos])).2.2 (by linarith [dblEps_pos])
  · exact (h1 (by linarith [dblEps_pos])).2.1
  · exact hsec (by linarith [dblEps_pos]) (by linarith [dblEps_pos])

/-- **C20 is false** for nearly horizontal segments, whatever the thresholds: a point at half the length cannot be computed. -/
theorem C20_false (t : Thr ℝ) (h1 : 0 < t.nullDenom) (h2 : 0 < t.nullDistance) :
    ∃ s : Seg, (∃ p q, segMake t true p q = .ok s) ∧ segPointAt t s (eucl s.1 s.2 / 2) = .throw := by
  obtain ⟨M, hM1, hM2, hM3⟩ : ∃ N : ℝ, 1 ≤ N ∧ 1 < N * t.nullDenom ∧ t.nullDistance ≤ N := by
    have : 0 < 1 / t.nullDenom := by positivity
    refine ⟨1 / t.nullDenom + t.nullDistance + 1, by linarith, ?_, by linarith⟩
    have : 1 / t.nullDenom * t.nullDenom = 1 := by field_simp
    nlinarith
  have hsq : Real.sqrt (M ^ 2 + 1) ≤ 2 * M := by
    rw [show 2 * M = Real.sqrt ((2 * M) ^ 2) by rw [Real.sqrt_sq (by linarith)]]; apply Real.sqrt_le_sqrt; nlinarith
  have hsq0 : 0 < Real.sqrt (M ^ 2 + 1) := by positivity
  have hsq2 := Real.sq_sqrt (show 0 ≤ M ^ 2 + 1 by positivity)
  have hlen : eucl (M * (t.nullDistance + 1), 0) (M * (t.nullDistance + 1) + M, 1) = Real.sqrt (M ^ 2 + 1) := by
    rw [eucl]; congr 1; ring
  have hMs : M ≤ Real.sqrt (M ^ 2 + 1) := Real.le_sqrt_of_sq_le (by linarith)
  refine ⟨((M * (t.nullDistance + 1), 0), (M * (t.nullDistance + 1) + M, 1)), ⟨_, _, segMake_eq true (by rw [hlen]; linarith)⟩, ?_⟩
  unfold segPointAt
  rw [if_neg (by rw [hlen]; linarith), segLine_bad hM1 hM2 hM3, Res.bind_ok]
  have : getPoints t ![1 / Real.sqrt (M ^ 2 + 1), M / Real.sqrt (M ^ 2 + 1), M * (t.nullDistance + 1) / Real.sqrt (M ^ 2 + 1)]
      (M * (t.nullDistance + 1), 0) (eucl (M * (t.nullDistance + 1), 0) (M * (t.nullDistance + 1) + M, 1) / 2) = .throw := by
    unfold getPoints
    rw [if_pos]
    rw [lineDist_unit (by
      unfold UnitNormal; simp only [Matrix.cons_val_zero, Matrix.cons_val_one]
      generalize Real.sqrt (M ^ 2 + 1) = S at *
      field_simp; linarith)]
    simp only [Matrix.cons_val_zero, Matrix.cons_val_one, Matrix.cons_val]
    generalize Real.sqrt (M ^ 2 + 1) = S at *
    rw [abs_of_pos (by positivity), gt_iff_lt, mul_zero, add_zero, one_div_mul_eq_div, ← add_div, lt_div_iff₀ hsq0]
    nlinarith
  rw [this]; rfl

/-- The hypotheses of C20 are met. -/
example : segSplitAt stdR ((0, 0), (3, 4)) 2 = .ok (((0, 0), (6/5, 8/5)), ((6/5, 8/5), (3, 4))) := by
  have e : eucl (0, 0) (3, 4) = 5 := by rw [eucl_eq_iff (by norm_num)]; norm_num
  obtain ⟨m, h1, ⟨k, hk0, -, rfl⟩, h3, -⟩ := (C20_splitAt_partial stdR (by norm_num [stdR, dblEps]) ((0, 0), (3, 4)) (by simp only; rw [e]; norm_num [stdR])
    (Or.inr (by simp only; rw [e]; norm_num [stdR])) 2).2 (by norm_num [stdR]) (by simp only; rw [e]; norm_num [stdR])
  rw [h1]
  have h4 := eucl_along_left ((0, 0), (3, 4)) k
  have h5 : k = 2 / 5 := by
    unfold along at h4
    rw [h3, e, abs_of_nonneg hk0] at h4; linarith
  subst h5
  norm_num

end H2d.Props
