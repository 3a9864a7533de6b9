import Verif.Lemmas.RectMore

/-!
# C80 Intersections of a rectangle with a line, a circle, another rectangle
# C81 Circles and diagonals of a rectangle
-/

namespace H2d.Props
open H2d H2d.Spec

/-- **C80, line.** Whatever the line, at most two points are given; they are on the line, and closer than half the null distance to the contour; if the line meets a side
that is not nearly parallel to it, at least one point is given. -/
theorem C80_line (t : Thr ℝ) (ht : RectThr t) (r : FRect ℝ) (hr : LongSides t.nullDistance r) (l : V3 ℝ) (hl : UnitNormal l) :
    ∃ pts, rectLineInter t r l = .ok pts ∧ pts.length ≤ 2 ∧ (∀ p ∈ pts, On l p ∧ ∃ q, OnRect r q ∧ eucl p q < t.nullDistance / 2) ∧
      ∀ e ∈ rectSides r, ∀ q, OnSeg e.1 e.2 q → On l q → t.nullAngleValue ≤ lineSegAngle l e → pts ≠ [] := by
  have hn : 0 < t.nullDistance := dblEps_pos.trans ht.dist
  have hg := RectM.sides_good ht.denom hn hr
  have hpr : r.p1.1 < r.p2.1 ∧ r.p1.2 < r.p2.2 := ⟨by linarith [hr.1], by linarith [hr.2]⟩
  unfold rectLineInter
  rw [Inside.rectSegs_ok (fun e he => (hg e he).1), Res.bind_ok]
  obtain ⟨pts, hp⟩ := RectM.loop_ok (t := t) (l := l) ((rectSides r).map (fun e => fixOrder e.1 e.2)) [] (by
    intro s hs
    obtain ⟨e, he, rfl⟩ := List.mem_map.1 hs
    exact Inside.segLineInter_ok ht.dist ht.ang0 (Inside.goodSeg_fix (hg e he)) hl)
  obtain ⟨a, b, -, d⟩ := RectM.loop_sound _ _ _ (by simp) hp
  refine ⟨pts, hp, a, ?_, ?_⟩
  · intro p hpp
    rcases b p hpp with hb | ⟨s, hs, hi⟩
    · simp at hb
    · obtain ⟨e, he, rfl⟩ := List.mem_map.1 hs
      obtain ⟨p1, p2⟩ := C69_line_partial t ht.dist ht.ang0 _ (Inside.goodSeg_fix (hg e he)) l hl
      have ha : t.nullAngleValue ≤ lineSegAngle l (fixOrder e.1 e.2) := by
        by_contra hc
        rw [p1 (not_le.1 hc)] at hi
        cases hi
      obtain ⟨m1, -, q, m2, m3⟩ := (p2 ha).1 _ hi
      exact ⟨m1, q, (RectM.onRect_iff hpr q).2 ⟨e, he, Pip.onSeg_fix.1 m2⟩, m3⟩
  · intro e he q hq ho ha
    obtain ⟨-, p2⟩ := C69_line_partial t ht.dist ht.ang0 _ (Inside.goodSeg_fix (hg e he)) l hl
    rw [RectM.lineSegAngle_fix] at p2
    exact d _ (List.mem_map_of_mem he) q ((p2 ha).2 q (Pip.onSeg_fix.2 hq) ho)

/-- **C80, line (partial).** The points given (none, or two different ones) are exactly the common points of the line and of the contour, when no corner is closer to the line than the null distance
and no side met is nearly parallel to it. Missing: lines that pass by a corner (`C80_line_false`). -/
theorem C80_line_partial (t : Thr ℝ) (ht : RectThr t) (r : FRect ℝ) (hr : LongSides t.nullDistance r) (l : V3 ℝ) (hl : UnitNormal l)
    (hfar : ∀ c ∈ r.get4Pts, ∀ q, On l q → t.nullDistance ≤ eucl c q)
    (hang : ∀ e ∈ rectSides r, ∀ q, OnSeg e.1 e.2 q → On l q → t.nullAngleValue ≤ lineSegAngle l e) :
    ∃ pts, rectLineInter t r l = .ok pts ∧ (∀ p, p ∈ pts ↔ On l p ∧ OnRect r p) ∧ (pts.length = 0 ∨ pts.length = 2) ∧ pts.Nodup := by
  have hn : 0 < t.nullDistance := dblEps_pos.trans ht.dist
  have hg := RectM.sides_good ht.denom hn hr
  have hpr : r.p1.1 < r.p2.1 ∧ r.p1.2 < r.p2.2 := ⟨by linarith [hr.1], by linarith [hr.2]⟩
  have hex : ∀ e ∈ rectSides r, ∃ i, segLineInter t (fixOrder e.1 e.2) l = .ok i ∧ ∀ q, i = some q ↔ OnSeg e.1 e.2 q ∧ On l q := by
    intro e he
    obtain ⟨m1, m2⟩ := Inside.rectSides_mem he
    have hf : ∀ q, On l q → t.nullDistance ≤ eucl (fixOrder e.1 e.2).1 q ∧ t.nullDistance ≤ eucl (fixOrder e.1 e.2).2 q := by
      intro q hq
      rcases RectM.fix_ends e with ⟨e1, e2⟩ | ⟨e1, e2⟩ <;> rw [e1, e2]
      · exact ⟨hfar _ m1 q hq, hfar _ m2 q hq⟩
      · exact ⟨hfar _ m2 q hq, hfar _ m1 q hq⟩
    obtain ⟨i, i1, i2⟩ := RectM.segLine_exact ht.dist ht.ang0 (Inside.goodSeg_fix (hg e he)) hl
      (fun q hq ho => by rw [RectM.lineSegAngle_fix]; exact hang e he q (Pip.onSeg_fix.1 hq) ho) (fun q hq => (hf q hq).1) (fun q hq => (hf q hq).2)
    exact ⟨i, i1, fun q => by rw [i2, Pip.onSeg_fix]⟩
  have hnot : ∀ c ∈ r.get4Pts, ¬ On l c := by
    intro c hc ho
    have := hfar c hc c ho
    rw [eucl_self] at this
    linarith
  have hsum := RectM.lv_corners l r
  simp only [FRect.get4Pts, List.forall_mem_cons] at hnot
  obtain ⟨k0, k1, k2, k3, -⟩ := hnot
  have hex' := hex
  have hcl : ∀ e ∈ rectSides r, ∀ p i, segLineInter t (fixOrder e.1 e.2) l = .ok (some p) → i ∈ r.get4Pts → ¬ PtEq t p i := by
    intro e he p i hi hc
    obtain ⟨j, j1, j2⟩ := hex e he
    rw [j1] at hi
    simp only [Res.ok.injEq] at hi
    have := hfar i hc p ((j2 p).1 hi).2
    rw [PtEq, ptDist_eucl, eucl_comm]
    exact not_lt.2 this
  unfold rectSides at hex
  simp only [List.forall_mem_cons, List.not_mem_nil, false_imp_iff, implies_true, and_true] at hex
  obtain ⟨⟨i0, a0, b0⟩, ⟨i1, a1, b1⟩, ⟨i2, a2, b2⟩, ⟨i3, a3, b3⟩⟩ := hex
  have some_iff : ∀ {i : Option (Pt ℝ)} {a b : Pt ℝ}, ¬ On l a → ¬ On l b → (∀ q, i = some q ↔ OnSeg a b q ∧ On l q) → (i.isSome ↔ RectM.lv l a * RectM.lv l b < 0) := by
    intro i a b ha hb hi
    rw [Option.isSome_iff_exists]
    constructor
    · rintro ⟨q, hq⟩
      obtain ⟨h1, h2⟩ := (hi q).1 hq
      exact RectM.lv_signs ha hb h1 h2
    · intro h
      obtain ⟨q, hq⟩ := RectM.lv_hit h
      exact ⟨q, (hi q).2 hq⟩
  have hcount := RectM.cyc_count hsum k0 k1 k2 k3 (some_iff k0 k1 b0) (some_iff k1 k2 b1) (some_iff k2 k3 b2) (some_iff k3 k0 b3)
  let hit : Seg → Option (Pt ℝ) := fun s => match segLineInter t s l with | .ok i => i | _ => none
  have hloop := RectM.loop_all (t := t) (l := l) hit ((rectSides r).map (fun e => fixOrder e.1 e.2)) [] (by
    intro s hs
    obtain ⟨e, he, rfl⟩ := List.mem_map.1 hs
    obtain ⟨i, hi, -⟩ := hex' e he
    simp only [hit, hi]) (by
    intro s hs p hp
    obtain ⟨e, he, rfl⟩ := List.mem_map.1 hs
    obtain ⟨i, hi, -⟩ := hex' e he
    simp only [hit, hi] at hp
    subst hp
    obtain ⟨m1, m2⟩ := Inside.rectSides_mem he
    rcases RectM.fix_ends e with ⟨e1, e2⟩ | ⟨e1, e2⟩ <;> rw [e1, e2]
    · exact ⟨hcl e he p _ hi m1, hcl e he p _ hi m2⟩
    · exact ⟨hcl e he p _ hi m2, hcl e he p _ hi m1⟩)
  have hf : ((rectSides r).map (fun e => fixOrder e.1 e.2)).filterMap hit = [i0, i1, i2, i3].filterMap id := by
    unfold rectSides
    simp only [List.map_cons, List.map_nil]
    have h0 : hit (fixOrder (r.p1.1, r.p1.2) (r.p1.1, r.p2.2)) = id i0 := by simp only [hit, a0, id]
    have h1 : hit (fixOrder (r.p1.1, r.p2.2) (r.p2.1, r.p2.2)) = id i1 := by simp only [hit, a1, id]
    have h2 : hit (fixOrder (r.p2.1, r.p2.2) (r.p2.1, r.p1.2)) = id i2 := by simp only [hit, a2, id]
    have h3 : hit (fixOrder (r.p2.1, r.p1.2) (r.p1.1, r.p1.2)) = id i3 := by simp only [hit, a3, id]
    simp only [List.filterMap_cons, h0, h1, h2, h3, List.filterMap_nil]
  rw [hf] at hloop
  have hl2 := hloop (by simp) (by simp only [List.length_nil, zero_add]; omega)
  refine ⟨[] ++ [i0, i1, i2, i3].filterMap id, ?_, ?_, ?_, ?_⟩
  · unfold rectLineInter
    rw [Inside.rectSegs_ok (fun e he => (hg e he).1), Res.bind_ok]
    exact hl2
  · intro p
    rw [RectM.onRect_iff hpr]
    unfold rectSides
    simp only [List.nil_append, List.mem_filterMap, List.mem_cons, List.not_mem_nil, or_false, id, exists_eq_or_imp, exists_eq_left, b0, b1, b2, b3]
    tauto
  · rw [List.nil_append]; exact hcount
  · rw [List.nil_append]
    exact RectM.hits_nodup hpr k0 k1 k2 k3 b0 b1 b2 b3

/-- The hypotheses of C80 (line) are met: the unit square and the diagonal line x + y = 1/2. -/
example : ∃ pts, rectLineInter stdR ⟨(0, 0), (1, 1)⟩ ![3/5, 4/5, -1/2] = .ok pts ∧ (0, 5/8) ∈ pts ∧ pts.length = 2 := by
  have hon : ∀ q : Pt ℝ, On ![3/5, 4/5, -1/2] q ↔ 3/5 * q.1 + 4/5 * q.2 - 1/2 = 0 := by intro q; simp [On, sub_eq_add_neg, neg_div]
  obtain ⟨pts, h1, h2, h3, -⟩ := C80_line_partial stdR Rank.stdR_thr ⟨(0, 0), (1, 1)⟩ (by norm_num [LongSides, stdR]) ![3/5, 4/5, -1/2] (by norm_num [UnitNormal])
    (by
      intro c hc q hq
      rw [hon] at hq
      apply Pip.le_eucl
      simp only [FRect.get4Pts, List.mem_cons, List.not_mem_nil, or_false] at hc
      rcases hc with rfl | rfl | rfl | rfl <;> simp only [stdR] <;> nlinarith [sq_nonneg (4 * q.1 - 3 * q.2), sq_nonneg (4 * (q.1 - 1) - 3 * q.2), sq_nonneg (4 * q.1 - 3 * (q.2 - 1)), sq_nonneg (4 * (q.1 - 1) - 3 * (q.2 - 1)), sq_nonneg (3 * q.1 + 4 * q.2)])
    (by
      intro e he q _ _
      apply RectM.angle_std (c := 4/5) _ (by norm_num)
      have v : eucl (0, 0) (0, 1) = 1 := by rw [eucl_eq_iff (by norm_num)]; norm_num
      have v2 : eucl (0, 1) (1, 1) = 1 := by rw [eucl_eq_iff (by norm_num)]; norm_num
      have v3 : eucl (1, 1) (1, 0) = 1 := by rw [eucl_eq_iff (by norm_num)]; norm_num
      have v4 : eucl (1, 0) (0, 0) = 1 := by rw [eucl_eq_iff (by norm_num)]; norm_num
      unfold rectSides at he
      simp only [List.mem_cons, List.not_mem_nil, or_false] at he
      rcases he with rfl | rfl | rfl | rfl <;> simp only [v, v2, v3, v4, Matrix.cons_val_zero, Matrix.cons_val_one] <;> norm_num [abs_le])
  have hin : ((0, 5/8) : Pt ℝ) ∈ pts := (h2 _).2 ⟨(hon _).2 (by norm_num), Or.inl (by norm_num [OnVert])⟩
  refine ⟨pts, h1, hin, ?_⟩
  rcases h3 with h3 | h3
  · rw [List.length_eq_zero_iff] at h3; rw [h3] at hin; simp at hin
  · exact h3

/-- C80 is false for lines that pass by a corner: with the default thresholds, the line 25x + y = 1 - 10⁻⁹ meets the left and the bottom side of the unit square. The two points that
are given are near the top left corner, the one on the bottom side is missed. -/
theorem C80_line_false : ∃ (r : FRect ℝ) (l : V3 ℝ) (pts : List (Pt ℝ)) (q : Pt ℝ), LongSides 1 r ∧ UnitNormal l ∧ rectLineInter stdR r l = .ok pts ∧ pts.length = 2 ∧
    On l q ∧ OnRect r q ∧ (∃ e ∈ rectSides r, OnSeg e.1 e.2 q ∧ stdR.nullAngleValue ≤ lineSegAngle l e) ∧ ∀ p ∈ pts, 1/2 < eucl p q := by
  obtain ⟨w, hw⟩ : ∃ w : ℝ, w = Real.sqrt 626 := ⟨_, rfl⟩
  have hw0 : 0 < w := by rw [hw]; exact Real.sqrt_pos.2 (by norm_num)
  have hw2 : w * w = 626 := by rw [hw]; exact Real.mul_self_sqrt (by norm_num)
  have hwl : 25.01 < w := by nlinarith
  have hlt := Rank.stdR_thr
  obtain ⟨l, hl⟩ : ∃ l : V3 ℝ, l = ![25 / w, 1 / w, -(1 - 1/10^9) / w] := ⟨_, rfl⟩
  have l0 : l 0 = 25 / w := by rw [hl]; rfl
  have l1 : l 1 = 1 / w := by rw [hl]; rfl
  have l2 : l 2 = -(1 - 1/10^9) / w := by rw [hl]; rfl
  have hu : UnitNormal l := by
    unfold UnitNormal
    rw [l0, l1]; field_simp; nlinarith
  have hon : ∀ q : Pt ℝ, On l q ↔ 25 * q.1 + q.2 = 1 - 1/10^9 := by
    intro q
    unfold On
    rw [l0, l1, l2, show 25 / w * q.1 + 1 / w * q.2 + -(1 - 1/10^9) / w = (25 * q.1 + q.2 - (1 - 1/10^9)) / w by ring, div_eq_zero_iff]
    constructor
    · rintro (h | h)
      · linarith
      · linarith
    · intro h; left; linarith
  have b0 : 25 / w ≤ 2500 / 2501 := by rw [div_le_div_iff₀ hw0 (by norm_num)]; linarith
  have b1 : 1 / w ≤ 1 / 2 := by rw [div_le_div_iff₀ hw0 (by norm_num)]; linarith
  have p0 : 0 ≤ 25 / w := by positivity
  have p1 : 0 ≤ 1 / w := by positivity
  have v1 : eucl (0, 0) (0, 1) = 1 := by rw [eucl_eq_iff (by norm_num)]; norm_num
  have v2 : eucl (0, 1) (1, 1) = 1 := by rw [eucl_eq_iff (by norm_num)]; norm_num
  have v4 : eucl (1, 0) (0, 0) = 1 := by rw [eucl_eq_iff (by norm_num)]; norm_num
  have hlong : LongSides 1 ⟨(0, 0), (1, 1)⟩ := by norm_num [LongSides]
  have hlong' : LongSides stdR.nullDistance ⟨(0, 0), (1, 1)⟩ := by norm_num [LongSides, stdR]
  have hg := RectM.sides_good hlt.denom (dblEps_pos.trans hlt.dist) hlong'
  have hs0 : GoodSeg stdR ((0, 0), (0, 1)) := hg _ (by simp [rectSides])
  have hs1 : GoodSeg stdR ((0, 1), (1, 1)) := hg _ (by simp [rectSides])
  have q0 : segLineInter stdR ((0, 0), (0, 1)) l = .ok (some (along ((0, 0), (0, 1)) (1 - 1/10^9))) := by
    apply RectM.segLine_at hlt.dist hlt.ang0 hs0 hu
    · apply RectM.angle_std (c := 2500/2501) _ (by norm_num)
      simp only; rw [v1, l0, l1]; simp; rw [abs_of_nonneg p0]; exact b0
    · rw [hon]; norm_num [along]
    · simp only; rw [v1]; norm_num [stdR]
    · simp only; rw [v1]; norm_num [stdR]
  have q1 : segLineInter stdR ((0, 1), (1, 1)) l = .ok (some (along ((0, 1), (1, 1)) (- (4/10^11)))) := by
    apply RectM.segLine_at hlt.dist hlt.ang0 hs1 hu
    · apply RectM.angle_std (c := 1/2) _ (by norm_num)
      simp only; rw [v2, l0, l1]; simp; rw [abs_of_pos hw0]; rw [one_div, one_div] at b1; exact b1
    · rw [hon]; norm_num [along]
    · simp only; rw [v2]; norm_num [stdR]
    · simp only; rw [v2]; norm_num [stdR]
  refine ⟨⟨(0, 0), (1, 1)⟩, l, [along ((0, 0), (0, 1)) (1 - 1/10^9), along ((0, 1), (1, 1)) (- (4/10^11))], ((1 - 1/10^9) / 25, 0), hlong, hu, ?_, rfl, ?_, ?_, ?_, ?_⟩
  · unfold rectLineInter
    rw [Inside.rectSegs_ok (fun e he => (hg e he).1), Res.bind_ok]
    unfold rectSides
    simp only [List.map_cons]
    rw [fixOrder_of_lt (p := (0, 0)) (q := (0, 1)) (by norm_num [LexLt]), fixOrder_of_lt (p := (0, 1)) (q := (1, 1)) (by norm_num [LexLt])]
    simp only [rectLineLoop, q0, q1, Res.bind_ok]
    have hne : ¬ PtEq stdR (along ((0, 0), (0, 1)) (1 - 1/10^9)) (along ((0, 1), (1, 1)) (- (4/10^11))) := by
      rw [PtEq, ptDist_eucl, eucl_lt_iff (by norm_num [stdR])]
      norm_num [along, stdR]
    simp only [hne, and_false, if_false, List.nil_append, List.length_cons, List.length_nil]
    rfl
  · rw [hon]; norm_num
  · right; norm_num [OnHoriz]
  · refine ⟨((1, 0), (0, 0)), by simp [rectSides], ⟨1 - (1 - 1/10^9) / 25, by norm_num, by norm_num, by norm_num⟩, ?_⟩
    apply RectM.angle_std (c := 1/2) _ (by norm_num)
    simp only; rw [v4, l0, l1]; simp; rw [abs_of_pos hw0]; rw [one_div, one_div] at b1; exact b1
  · intro p hp
    simp only [List.mem_cons, List.not_mem_nil, or_false] at hp
    rcases hp with rfl | rfl
    · rw [← not_le, eucl_le_iff (by norm_num)]; norm_num [along]
    · rw [← not_le, eucl_le_iff (by norm_num)]; norm_num [along]

/-- **C80, circle (partial).** The points given are exactly the common points of the circle and of the contour, in increasing order and without repetition, when no corner is nearly on the circle.
Missing: corners on the circle (`C80_circle_false`). -/
theorem C80_circle_partial (t : Thr ℝ) (ht : RectThr t) (r : FRect ℝ) (hr : LongSides t.nullDistance r) (c : Pt ℝ) (rad : ℝ) (hrad : 0 ≤ rad)
    (hfar : ∀ p ∈ r.get4Pts, t.nullDistance ≤ |eucl p c - rad|) :
    ∃ pts, rectCircleInter t r c rad = .ok pts ∧ SortedPts pts ∧ ∀ p, p ∈ pts ↔ OnRect r p ∧ eucl p c = rad := by
  have hn : 0 < t.nullDistance := dblEps_pos.trans ht.dist
  have hg := RectM.sides_good ht.denom hn hr
  have hpr : r.p1.1 < r.p2.1 ∧ r.p1.2 < r.p2.2 := ⟨by linarith [hr.1], by linarith [hr.2]⟩
  have hex : ∀ e ∈ rectSides r, ∃ i, segCircle t (fixOrder e.1 e.2) c rad = .ok i ∧ ∀ q, q ∈ i ↔ OnSeg e.1 e.2 q ∧ eucl q c = rad := by
    intro e he
    obtain ⟨m1, m2⟩ := Inside.rectSides_mem he
    have hf : t.nullDistance ≤ |eucl (fixOrder e.1 e.2).1 c - rad| ∧ t.nullDistance ≤ |eucl (fixOrder e.1 e.2).2 c - rad| := by
      rcases RectM.fix_ends e with ⟨e1, e2⟩ | ⟨e1, e2⟩ <;> rw [e1, e2]
      · exact ⟨hfar _ m1, hfar _ m2⟩
      · exact ⟨hfar _ m2, hfar _ m1⟩
    obtain ⟨i, i1, i2⟩ := C66_circle_partial t ht.dist _ (Inside.goodSeg_fix (hg e he)) c rad hrad hf.1 hf.2
    exact ⟨i, i1, fun q => by rw [i2, Pip.onSeg_fix]⟩
  unfold rectCircleInter
  rw [Inside.rectSegs_ok (fun e he => (hg e he).1), Res.bind_ok]
  obtain ⟨pts, h1, h2, h3⟩ := RectM.circLoop (t := t) (c := c) (rad := rad) ((rectSides r).map (fun e => fixOrder e.1 e.2)) [] (by simp [SortedPts]) (by
    intro s hs
    obtain ⟨e, he, rfl⟩ := List.mem_map.1 hs
    obtain ⟨i, i1, -⟩ := hex e he
    exact ⟨i, i1⟩)
  refine ⟨pts, h1, h2, fun p => ?_⟩
  rw [h3, RectM.onRect_iff hpr]
  constructor
  · rintro (h | ⟨s, hs, i, hi, hp⟩)
    · simp at h
    · obtain ⟨e, he, rfl⟩ := List.mem_map.1 hs
      obtain ⟨j, j1, j2⟩ := hex e he
      rw [hi] at j1
      cases j1
      exact ⟨⟨e, he, ((j2 p).1 hp).1⟩, ((j2 p).1 hp).2⟩
  · rintro ⟨⟨e, he, h⟩, hc⟩
    obtain ⟨j, j1, j2⟩ := hex e he
    exact Or.inr ⟨_, List.mem_map_of_mem he, j, j1, (j2 p).2 ⟨h, hc⟩⟩

/-- The hypotheses of C80 (circle) are met. -/
example : ∃ pts, rectCircleInter stdR ⟨(-2, -1), (2, 1)⟩ (0, 0) (5/4) = .ok pts ∧ SortedPts pts ∧ ((3/4, 1) : Pt ℝ) ∈ pts ∧ ∀ y, ((2, y) : Pt ℝ) ∉ pts := by
  obtain ⟨pts, h1, h2, h3⟩ := C80_circle_partial stdR Rank.stdR_thr ⟨(-2, -1), (2, 1)⟩ (by norm_num [LongSides, stdR]) (0, 0) (5/4) (by norm_num) (by
    intro p hp
    have : 2 ≤ eucl p (0, 0) := by
      apply Pip.le_eucl
      simp only [FRect.get4Pts, List.mem_cons, List.not_mem_nil, or_false] at hp
      rcases hp with rfl | rfl | rfl | rfl <;> norm_num
    refine le_trans ?_ (le_abs_self _)
    norm_num [stdR]; linarith)
  refine ⟨pts, h1, h2, (h3 _).2 ⟨Or.inr (by norm_num [OnHoriz]), by rw [eucl_eq_iff (by norm_num)]; norm_num⟩, ?_⟩
  intro y hy
  have := ((h3 _).1 hy).2
  rw [eucl_eq_iff (by norm_num)] at this
  simp only at this
  nlinarith [sq_nonneg y]

/-- C80 is false for a circle through a corner: the other point of the circle on the same side is missed. -/
theorem C80_circle_false (t : Thr ℝ) (ht : RectThr t) (h1 : t.nullDistance ≤ 1) : ∃ (r : FRect ℝ) (c : Pt ℝ) (rad : ℝ) (pts : List (Pt ℝ)) (q : Pt ℝ),
    LongSides 1 r ∧ 1 ≤ rad ∧ rectCircleInter t r c rad = .ok pts ∧ OnRect r q ∧ eucl q c = rad ∧ q ∉ pts := by
  have hn : 0 < t.nullDistance := dblEps_pos.trans ht.dist
  have hr : LongSides 1 ⟨(-2, 0), (1, 3)⟩ := by norm_num [LongSides]
  have hr' : LongSides t.nullDistance ⟨(-2, 0), (1, 3)⟩ := ⟨by linarith [hr.1], by linarith [hr.2]⟩
  have hg := RectM.sides_good ht.denom hn hr'
  have hex : ∀ e ∈ rectSides ⟨(-2, 0), (1, 3)⟩, ∃ i, segCircle t (fixOrder e.1 e.2) (0, 0) 1 = .ok i := by
    intro e he
    exact RectM.segCircle_ok ht.dist (Inside.goodSeg_fix (hg e he)).1 _ _
  obtain ⟨pts, g1, -, g3⟩ := RectM.circLoop (t := t) (c := (0, 0)) (rad := 1) ((rectSides ⟨(-2, 0), (1, 3)⟩).map (fun e => fixOrder e.1 e.2)) [] (by simp [SortedPts]) (by
    intro s hs
    obtain ⟨e, he, rfl⟩ := List.mem_map.1 hs
    exact hex e he)
  have edge : ptLabel t (1, 0) (0, 0) 1 = .onEdge := by
    have : eucl (1, 0) (0, 0) = 1 := by rw [eucl_eq_iff (by norm_num)]; norm_num
    unfold ptLabel; rw [ptDist_eucl, this, if_neg (by norm_num), if_pos (by simpa using hn)]
  refine ⟨⟨(-2, 0), (1, 3)⟩, (0, 0), 1, pts, (-1, 0), hr, le_refl _, ?_, Or.inr (by norm_num [OnHoriz]), by rw [eucl_eq_iff (by norm_num)]; norm_num, ?_⟩
  · unfold rectCircleInter
    rw [Inside.rectSegs_ok (fun e he => (hg e he).1), Res.bind_ok]
    exact g1
  · rw [g3]
    rintro (h | ⟨s, hs, i, hi, hp⟩)
    · simp at h
    obtain ⟨e, he, rfl⟩ := List.mem_map.1 hs
    have he' := he
    unfold rectSides at he
    simp only [List.mem_cons, List.not_mem_nil, or_false] at he
    have far : ∀ p : Pt ℝ, 2 ≤ eucl p (0, 0) → t.nullDistance ≤ |eucl p (0, 0) - 1| := fun p hp => le_trans (by linarith) (le_abs_self _)
    have exact2 : ∀ a b : Pt ℝ, fixOrder e.1 e.2 = (a, b) → 2 ≤ eucl a (0, 0) → 2 ≤ eucl b (0, 0) → OnSeg a b (-1, 0) := by
      intro a b hab ha hb
      obtain ⟨j, j1, j2⟩ := C66_circle_partial t ht.dist _ (Inside.goodSeg_fix (hg e he')) (0, 0) 1 (by norm_num) (by rw [hab]; exact far _ ha) (by rw [hab]; exact far _ hb)
      rw [hi] at j1
      cases j1
      have := ((j2 _).1 hp).1
      rw [hab] at this
      exact this
    rcases he with rfl | rfl | rfl | rfl
    · obtain ⟨k, k0, k1, hk⟩ := exact2 (-2, 0) (-2, 3) (fixOrder_of_lt (by norm_num [LexLt])) (Pip.le_eucl (by norm_num)) (Pip.le_eucl (by norm_num))
      simp only [Prod.mk.injEq] at hk
      linarith [hk.1]
    · obtain ⟨k, k0, k1, hk⟩ := exact2 (-2, 3) (1, 3) (fixOrder_of_lt (by norm_num [LexLt])) (Pip.le_eucl (by norm_num)) (Pip.le_eucl (by norm_num))
      simp only [Prod.mk.injEq] at hk
      linarith [hk.2]
    · rw [fixOrder_comm, fixOrder_of_lt (by norm_num [LexLt])] at hi
      have := RectM.segCircle_edge (s := ((1, 0), (1, 3))) (Or.inl edge) hi _ hp
      norm_num at this
    · rw [fixOrder_comm, fixOrder_of_lt (by norm_num [LexLt])] at hi
      have := RectM.segCircle_edge (s := ((-2, 0), (1, 0))) (Or.inr edge) hi _ hp
      norm_num at this

/-- **C80, rectangle (partial).** For two different rectangles whose coordinates are equal or at least the null distance away, the points given are exactly those where a vertical side of
one of them meets a horizontal side of the other, in increasing order and without repetition; the order of the rectangles does not matter; there is none for two equal rectangles. -/
theorem C80_rect_partial (t : Thr ℝ) (ht : RectThr t) (a b : FRect ℝ) (h : ApartRects t.nullDistance a b) :
    (a = b → rectInter t a b = .ok []) ∧
    (a ≠ b → ∃ pts, rectInter t a b = .ok pts ∧ rectInter t b a = .ok pts ∧ SortedPts pts ∧ ∀ p, p ∈ pts ↔ SidesMeet a b p) := by
  constructor
  · intro he
    subst he
    unfold rectInter
    rw [if_pos]
    simp only [rectEqB, PtEq, ptDist_eucl, eucl_self, Bool.and_eq_true, decide_eq_true_eq]
    exact ⟨dblEps_pos.trans ht.dist, dblEps_pos.trans ht.dist⟩
  · intro hne
    obtain ⟨pts, h1, h2, h3⟩ := RectM.rectInter_meet ht h hne
    obtain ⟨pts', h1', h2', h3'⟩ := RectM.rectInter_meet ht (Rank.apartRects_symm h) (Ne.symm hne)
    have : pts' = pts := by
      apply RectM.sorted_ext h2' h2
      intro p
      rw [h3, h3']
      unfold SidesMeet; tauto
    subst this
    exact ⟨pts', h1, h1', h2, h3⟩

/-- **C80, rectangle in general position.** When no two coordinates are closer than the null distance, the points given are exactly the common points of the two contours. -/
theorem C80_rect_far (t : Thr ℝ) (ht : RectThr t) (a b : FRect ℝ) (h : FarRects t.nullDistance a b) :
    ∃ pts, rectInter t a b = .ok pts ∧ SortedPts pts ∧ ∀ p, p ∈ pts ↔ OnRect a p ∧ OnRect b p := by
  have hn : 0 < t.nullDistance := dblEps_pos.trans ht.dist
  have hx : ∀ u ∈ [a.p1.1, a.p2.1], ∀ v ∈ [b.p1.1, b.p2.1], u ≠ v := by
    intro u hu v hv he
    have := h.x u hu v hv
    rw [he] at this; simp at this; linarith
  have hy : ∀ u ∈ [a.p1.2, a.p2.2], ∀ v ∈ [b.p1.2, b.p2.2], u ≠ v := by
    intro u hu v hv he
    have := h.y u hu v hv
    rw [he] at this; simp at this; linarith
  have hne : a ≠ b := by
    rintro rfl
    exact hx a.p1.1 (by simp) a.p1.1 (by simp) rfl
  have X := h.x
  have Y := h.y
  simp only [List.forall_mem_cons, List.not_mem_nil, false_imp_iff, implies_true, and_true] at X Y hx hy
  obtain ⟨pts, h1, -, h2, h3⟩ := (C80_rect_partial t ht a b ⟨h.sa.1, h.sa.2, h.sb.1, h.sb.2, Or.inr X.1.1, Or.inr X.1.2, Or.inr X.2.1, Or.inr X.2.2, Or.inr Y.1.1, Or.inr Y.1.2,
    Or.inr Y.2.1, Or.inr Y.2.2⟩).2 hne
  refine ⟨pts, h1, h2, fun p => ?_⟩
  rw [h3]
  obtain ⟨⟨x1, x2⟩, x3, x4⟩ := hx
  obtain ⟨⟨y1, y2⟩, y3, y4⟩ := hy
  unfold SidesMeet OnRect
  constructor
  · rintro (⟨h1, h2⟩ | ⟨h1, h2⟩)
    · exact ⟨Or.inl h1, Or.inr h2⟩
    · exact ⟨Or.inr h1, Or.inl h2⟩
  · rintro ⟨h1 | h1, h2 | h2⟩
    · exfalso
      rcases h1.1 with e | e <;> rcases h2.1 with e' | e' <;> rw [e] at e' <;> tauto
    · exact Or.inl ⟨h1, h2⟩
    · exact Or.inr ⟨h1, h2⟩
    · exfalso
      rcases h1.1 with e | e <;> rcases h2.1 with e' | e' <;> rw [e] at e' <;> tauto

/-- The hypotheses of C80 (two rectangles) are met: two squares that overlap at a corner. -/
example : ∃ pts, rectInter stdR ⟨(0, 0), (2, 2)⟩ ⟨(1, 1), (3, 3)⟩ = .ok pts ∧ SortedPts pts ∧ ((1, 2) : Pt ℝ) ∈ pts ∧ ((1, 1) : Pt ℝ) ∉ pts := by
  obtain ⟨pts, h1, h2, h3⟩ := C80_rect_far stdR Rank.stdR_thr ⟨(0, 0), (2, 2)⟩ ⟨(1, 1), (3, 3)⟩
    ⟨by norm_num [LongSides, stdR], by norm_num [LongSides, stdR], by norm_num [stdR], by norm_num [stdR]⟩
  refine ⟨pts, h1, h2, (h3 _).2 ⟨by norm_num [OnRect, OnVert, OnHoriz], by norm_num [OnRect, OnVert, OnHoriz]⟩, ?_⟩
  rw [h3]
  norm_num [OnRect, OnVert, OnHoriz]

/-! ## C81 -/

/-- **C81, bounding circle.** The circle is built exactly when its radius is not below the null distance (or the check is disabled). It passes through the four corners, contains the rectangle, and no
circle that contains the four corners is smaller. Missing: small rectangles, for which there is no circle. -/
theorem C81_bounding_partial (t : Thr ℝ) (flag : Bool) (r : FRect ℝ) :
    (flag = true ∨ 2 * t.nullDistance ≤ eucl r.p1 r.p2 → ∃ c, rectBoundingCircle t flag r = .ok c ∧ (∀ p ∈ r.get4Pts, eucl c.center p = c.radius) ∧
      (∀ p, InClosed p r → eucl c.center p ≤ c.radius) ∧
      ∀ c' rad', (∀ p ∈ r.get4Pts, eucl c' p ≤ rad') → c.radius ≤ rad') ∧
    (¬ (flag = true ∨ 2 * t.nullDistance ≤ eucl r.p1 r.p2) → rectBoundingCircle t flag r = .throw) := by
  have hrad : eucl r.getCenter r.p1 = eucl r.p1 r.p2 / 2 := by
    rw [eucl_eq_iff (div_nonneg (eucl_nonneg _ _) (by norm_num)), div_pow, eucl_sq]
    simp only [FRect.getCenter]; ring
  have hnn := eucl_nonneg r.p1 r.p2
  unfold rectBoundingCircle circleMake
  rw [ptDist_eucl, hrad, abs_of_nonneg (by linarith)]
  constructor
  · intro h
    rw [if_neg (by rintro ⟨h1, h2⟩; rcases h with h | h; exact h2 h; linarith), if_neg (by linarith)]
    refine ⟨_, rfl, ?_, ?_, ?_⟩
    · intro p hp
      simp only
      rw [eucl_eq_iff (by linarith), div_pow, eucl_sq]
      simp only [FRect.get4Pts, List.mem_cons, List.not_mem_nil, or_false] at hp
      rcases hp with rfl | rfl | rfl | rfl <;> simp only [FRect.getCenter] <;> ring
    · rintro p ⟨a, b, c, d⟩
      simp only
      rw [eucl_le_iff (by linarith), div_pow, eucl_sq]
      simp only [FRect.getCenter]
      nlinarith [mul_nonneg (sub_nonneg.2 a) (sub_nonneg.2 b), mul_nonneg (sub_nonneg.2 c) (sub_nonneg.2 d)]
    · intro c' rad' h'
      simp only
      have h1 := h' r.p1 (by simp [FRect.get4Pts])
      have h2 := h' r.p2 (by simp [FRect.get4Pts])
      have := eucl_triangle r.p1 c' r.p2
      rw [eucl_comm r.p1 c'] at this
      linarith
  · intro h
    rw [not_or, not_le] at h
    rw [if_pos ⟨by linarith, h.1⟩]

/-- The hypotheses of C81 (bounding circle) are met. -/
example : ∃ c, rectBoundingCircle stdR false ⟨(0, 0), (6, 8)⟩ = .ok c ∧ c.radius = 5 := by
  have e : eucl (0, 0) (6, 8) = 10 := by rw [eucl_eq_iff (by norm_num)]; norm_num
  obtain ⟨c, h1, h2, -, h4⟩ := (C81_bounding_partial stdR false ⟨(0, 0), (6, 8)⟩).1 (Or.inr (by simp only; rw [e]; norm_num [stdR]))
  refine ⟨c, h1, le_antisymm (h4 (3, 4) 5 ?_) ?_⟩
  · intro p hp
    simp only [FRect.get4Pts, List.mem_cons, List.not_mem_nil, or_false] at hp
    rw [eucl_le_iff (by norm_num)]
    rcases hp with rfl | rfl | rfl | rfl <;> norm_num
  · have a1 := h2 (0, 0) (by simp [FRect.get4Pts])
    have a2 := h2 (6, 8) (by simp [FRect.get4Pts])
    have := eucl_triangle (0, 0) c.center (6, 8)
    rw [eucl_comm (0, 0) c.center, e] at this
    linarith

/-- **C81, inscribed circle.** Its center is that of the rectangle, its disk is inside the rectangle, and no disk inside the rectangle is larger. Missing: rectangles with a side below the null distance (`C81_false`). -/
theorem C81_inscribed_partial (t : Thr ℝ) (h1 : 0 < t.nullDistance) (h1' : t.nullDistance ≤ 1) (flag : Bool) (r : FRect ℝ) (hr : LongSides t.nullDistance r) :
    ∃ c, rectInscribedCircle t flag r = .ok c ∧ c.center = r.getCenter ∧ 0 < c.radius ∧ (∀ p, eucl c.center p ≤ c.radius → InClosed p r) ∧
      ∀ c' rad', 0 ≤ rad' → (∀ p, eucl c' p ≤ rad' → InClosed p r) → rad' ≤ c.radius := by
  have hpr : r.p1.1 < r.p2.1 ∧ r.p1.2 < r.p2.2 := ⟨by linarith [hr.1], by linarith [hr.2]⟩
  obtain ⟨w, v⟩ := hpr
  unfold rectInscribedCircle
  rw [Inside.rectSegs_ok (RectM.sides_long h1 hr), Res.bind_ok]
  unfold rectSides
  simp only [List.map_cons, List.map_nil]
  rw [fixOrder_of_lt (p := (r.p1.1, r.p1.2)) (q := (r.p1.1, r.p2.2)) (Or.inr ⟨rfl, v⟩), fixOrder_of_lt (p := (r.p1.1, r.p2.2)) (q := (r.p2.1, r.p2.2)) (Or.inl w)]
  unfold circleMake
  rw [abs_one, if_neg (by rintro ⟨h, -⟩; linarith), if_neg (by norm_num), Res.bind_ok, RectM.dist_vert v, RectM.dist_horiz w]
  refine ⟨_, rfl, rfl, ?_, ?_, ?_⟩
  · simp only [lt_min_iff]; constructor <;> linarith
  · intro p hp
    simp only at hp
    have d1 := RectM.abs_fst_le r.getCenter p
    have d2 := RectM.abs_snd_le r.getCenter p
    have m1 := min_le_left ((r.p2.1 - r.p1.1) / 2) ((r.p2.2 - r.p1.2) / 2)
    have m2 := min_le_right ((r.p2.1 - r.p1.1) / 2) ((r.p2.2 - r.p1.2) / 2)
    have e1 := abs_le.1 (d1.trans (hp.trans m1))
    have e2 := abs_le.1 (d2.trans (hp.trans m2))
    simp only [FRect.getCenter] at e1 e2
    exact ⟨by linarith [e1.2], by linarith [e1.1], by linarith [e2.2], by linarith [e2.1]⟩
  · intro c' rad' h0 hin
    have e : ∀ x y : ℝ, x ^ 2 + y ^ 2 = rad' ^ 2 → eucl c' (c'.1 + x, c'.2 + y) ≤ rad' := by
      intro x y hxy
      rw [eucl_le_iff h0]; simp only; nlinarith
    have a := hin _ (e rad' 0 (by ring))
    have b := hin _ (e (-rad') 0 (by ring))
    have c := hin _ (e 0 rad' (by ring))
    have d := hin _ (e 0 (-rad') (by ring))
    simp only [le_min_iff]
    exact ⟨by linarith [a.2.1, b.1], by linarith [c.2.2.2, d.2.2.1]⟩

/-- The hypotheses of C81 (inscribed circle) are met, and the radius is half of the smallest side. -/
example : ∃ c, rectInscribedCircle stdR false ⟨(0, 0), (6, 2)⟩ = .ok c ∧ c.radius ≤ 1 := by
  obtain ⟨c, h1, h2, h3, h4, -⟩ := C81_inscribed_partial stdR (by norm_num [stdR]) (by norm_num [stdR]) false ⟨(0, 0), (6, 2)⟩ (by norm_num [LongSides, stdR])
  refine ⟨c, h1, ?_⟩
  have := (h4 (3, 1 + c.radius) (by rw [h2, eucl_le_iff h3.le]; norm_num [FRect.getCenter])).2.2.2
  simp only at this
  linarith

/-- C81 is false for small rectangles: the library accepts to build it, but not its circles. And for sides just above the null distance, the inscribed circle has a radius that the constructor of circles refuses. -/
theorem C81_false : ∃ (a b : FRect ℝ) (c : Circle), FRect.ofPts stdR.nullOrthogDistance a.p1 a.p2 = .ok a ∧ rectBoundingCircle stdR false a = .throw ∧ rectInscribedCircle stdR false a = .throw ∧
    FRect.ofPts stdR.nullOrthogDistance b.p1 b.p2 = .ok b ∧ rectInscribedCircle stdR false b = .ok c ∧ circleMake stdR false c.center c.radius = .throw := by
  have hb : LongSides stdR.nullDistance ⟨(0, 0), (3/(2 * 10^10), 3/(2 * 10^10))⟩ := by norm_num [LongSides, stdR]
  obtain ⟨c, h1, h2, h3, h4, -⟩ := C81_inscribed_partial stdR (by norm_num [stdR]) (by norm_num [stdR]) false _ hb
  have h5 := (h4 (3/(4 * 10^10), 3/(4 * 10^10) + c.radius) (by rw [h2, eucl_le_iff h3.le]; norm_num [FRect.getCenter])).2.2.2
  simp only at h5
  refine ⟨⟨(0, 0), (1/10^11, 1/10^11)⟩, _, c, ?_, ?_, ?_, ?_, h1, ?_⟩
  · simp only [FRect.ofPts, getCorrectPoints, shareCommonCoord, stdR]; norm_num
  · apply (C81_bounding_partial stdR false ⟨(0, 0), (1/10^11, 1/10^11)⟩).2
    rw [not_or, not_le, eucl_lt_iff (by norm_num [stdR])]
    norm_num [stdR]
  · unfold rectInscribedCircle rectSegs
    rw [(segMake_throw false).2 (by rw [eucl_lt_iff (by norm_num [stdR])]; norm_num [stdR])]
    rfl
  · simp only [FRect.ofPts, getCorrectPoints, shareCommonCoord, stdR]; norm_num
  · unfold circleMake
    rw [if_pos ⟨by rw [abs_of_pos h3]; norm_num [stdR] at h5 ⊢; linarith, by simp⟩]

/-- **C81, diagonals.** Each one joins opposite corners, they have the same length, which is twice the radius of the bounding circle, and both have the center of the rectangle as middle. -/
theorem C81_diagonals (t : Thr ℝ) (r : FRect ℝ) (hr : r.p1.1 < r.p2.1 ∧ r.p1.2 < r.p2.2) (hd : t.nullDistance ≤ eucl r.p1 r.p2) :
    ∃ d, rectDiagonals t r = .ok d ∧ d.1 = (r.p1, r.p2) ∧ d.2 = ((r.p1.1, r.p2.2), (r.p2.1, r.p1.2)) ∧ segLength d.1 = segLength d.2 ∧
      segCenter d.1 = r.getCenter ∧ segCenter d.2 = r.getCenter ∧ segLength d.1 = 2 * eucl r.getCenter r.p1 := by
  have e : eucl (r.p1.1, r.p2.2) (r.p2.1, r.p1.2) = eucl r.p1 r.p2 := by
    rw [eucl_eq_iff (eucl_nonneg _ _), eucl_sq]; ring
  have h2 : eucl r.p1 r.p2 = 2 * eucl r.getCenter r.p1 := by
    have := eucl_nonneg r.getCenter r.p1
    rw [eucl_eq_iff (by linarith), mul_pow, eucl_sq]
    simp only [FRect.getCenter]; ring
  unfold rectDiagonals
  rw [segMake_eq false (p := (r.p1.1, r.p1.2)) (q := (r.p2.1, r.p2.2)) hd, segMake_eq false (by rw [e]; exact hd)]
  simp only [Bool.false_eq_true, if_false, Res.bind_ok, Res.pure_eq]
  rw [fixOrder_of_lt (p := r.p1) (Or.inl hr.1), fixOrder_of_lt (p := (r.p1.1, r.p2.2)) (q := (r.p2.1, r.p1.2)) (Or.inl hr.1)]
  refine ⟨_, rfl, rfl, rfl, ?_, ?_, ?_, ?_⟩
  · simp only [segLength, ptDist_eucl]; rw [e]
  · simp only [segCenter, FRect.getCenter]; ext <;> simp <;> ring
  · simp only [segCenter, FRect.getCenter]; ext <;> simp <;> ring
  · simp only [segLength, ptDist_eucl]; exact h2

/-- The hypotheses of C81 (diagonals) are met. -/
example : ∃ d, rectDiagonals stdR ⟨(0, 0), (3, 4)⟩ = .ok d ∧ d.2 = ((0, 4), (3, 0)) := by
  have e : eucl (0, 0) (3, 4) = 5 := by rw [eucl_eq_iff (by norm_num)]; norm_num
  obtain ⟨d, h1, -, h2, -⟩ := C81_diagonals stdR ⟨(0, 0), (3, 4)⟩ (by norm_num) (by simp only; rw [e]; norm_num [stdR])
  exact ⟨d, h1, h2⟩

end H2d.Props
