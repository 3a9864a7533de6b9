import Verif.Lemmas.Construct

/-!
# C82, C83: regular polygons and parallelograms
-/

set_option linter.unusedVariables false

namespace H2d.Props
open H2d H2d.Spec H2d.Build Real

/-- **C82.** `set( rad, n )` builds the regular polygon with `n` vertices on the circle of radius `rad`. The first returned value is the length of all
its edges, the second one the smallest distance from the center to the points of any of its edges (radius of the inscribed circle). All the vertices
are on the left of each edge: the polygon is convex. -/
theorem C82_regular (t : Thr ℝ) (h1 : 4 * dblEps < t.nullDistance) (h2 : 0 < t.nullAngleValue) (h3 : t.nullAngleValue ≤ π / 2) (h4 : t.nullDenom ≤ 1 / 2)
    (rad : ℝ) (hr : 0 < rad) (n : ℕ) (hn : 3 ≤ n) (hd : t.nullDistance ≤ 2 * rad * sin (π / n)) (hs : t.nullDenom ≤ sin (π / n)) :
    ∃ pts s r, regPoly t rad n = .ok (pts, s, r) ∧ IsRegular rad n pts ∧ (∀ p ∈ pts, eucl (0, 0) p = rad) ∧
      (∀ e ∈ polyEdges pts, eucl e.1 e.2 = s ∧ IsLeast {d | ∃ q, OnSeg e.1 e.2 q ∧ eucl (0, 0) q = d} r ∧
        ∀ p ∈ pts, 0 ≤ (e.2.1 - e.1.1) * (p.2 - e.1.2) - (e.2.2 - e.1.2) * (p.1 - e.1.1)) ∧
      s = 2 * rad * sin (π / n) ∧ r = rad * cos (π / n) := by
  have hl := regPoint_last rad (n := n) (by omega)
  refine ⟨_, _, _, regPoly_spec h1 h2 h3 h4 hr hn hd hs, ⟨by simp, ?_, ?_⟩, ?_, ?_, rfl, rfl⟩
  · rw [List.getElem?_map, List.getElem?_range (by omega), Option.map_some, regPoint_zero]
  · intro e he
    obtain ⟨i, hi, rfl⟩ := edges_range _ hl he
    exact regPoint_succ rad n i
  · intro p hp
    obtain ⟨i, hi, rfl⟩ := List.mem_map.1 hp
    exact regPoint_eucl hr.le n i
  · intro e he
    obtain ⟨i, hi, rfl⟩ := edges_range _ hl he
    refine ⟨regPoint_dist hr.le (by omega) i, edge_dist hr hn i, ?_⟩
    intro p hp
    obtain ⟨j, hj, rfl⟩ := List.mem_map.1 hp
    rw [edge_side]
    have := third_sin hn
    have := cos_odd_le hn i j hi (List.mem_range.1 hj)
    have : 0 ≤ cos (π / n) - cos (2 * π / n * j - 2 * π / n * i - π / n) := by linarith
    positivity

/-- **C82, refusals.** The call throws exactly for less than 3 points, a radius that is not positive, or points that would be equal for the library. -/
theorem C82_refused (t : Thr ℝ) (h1 : 4 * dblEps < t.nullDistance) (h2 : 0 < t.nullAngleValue) (h3 : t.nullAngleValue ≤ π / 2) (h4 : t.nullDenom ≤ 1 / 2)
    (rad : ℝ) (n : ℤ) (hs : 3 ≤ n → t.nullDenom ≤ sin (π / n)) :
    regPoly t rad n = .throw ↔ n < 3 ∨ rad ≤ 0 ∨ 2 * rad * sin (π / n) < t.nullDistance := by
  by_cases c1 : n < 3
  · simp [regPoly, c1]
  by_cases c2 : rad ≤ 0
  · simp [regPoly, c1, c2]
  obtain ⟨m, rfl⟩ : ∃ m : ℕ, n = m := ⟨n.toNat, by omega⟩
  have hm : 3 ≤ m := by omega
  have hr := not_le.1 c2
  simp only [c1, c2, false_or]
  rw [Int.cast_natCast] at hs ⊢
  by_cases c3 : 2 * rad * sin (π / m) < t.nullDistance
  · simp only [c3, iff_true]
    unfold regPoly
    rw [if_neg c1, if_neg c2]
    have d01 : eucl (rad, 0) (regPoint rad m 1) = 2 * rad * sin (π / m) := by
      rw [← regPoint_zero rad m]; exact regPoint_dist hr.le (by omega) 0
    simp only [Int.toNat_natCast]
    rw [show segMake t false (rad, 0) (regPoint rad m 1) = .throw by
      unfold segMake; rw [if_pos (by rw [PtEq, ptDist_eucl, d01]; exact c3)]]
    rfl
  · simp only [c3, iff_false]
    rw [regPoly_spec h1 h2 h3 h4 hr hm (not_lt.1 c3) (hs (by omega))]
    simp

/-- Non trivial case: the hexagon of radius 10, with the default thresholds. Its side is 10. -/
example : ∃ pts s r, regPoly stdR 10 (6 : ℕ) = .ok (pts, s, r) ∧ IsRegular 10 6 pts ∧ s = 10 ∧ r = 5 * sqrt 3 := by
  have e : sin (π / (6 : ℕ)) = 1 / 2 := by rw [show ((6 : ℕ) : ℝ) = 6 by norm_num, sin_pi_div_six]
  have e' : cos (π / (6 : ℕ)) = sqrt 3 / 2 := by rw [show ((6 : ℕ) : ℝ) = 6 by norm_num, cos_pi_div_six]
  have hp := two_le_pi
  obtain ⟨pts, s, r, g1, g2, -, -, g5, g6⟩ := C82_regular stdR (by norm_num [stdR, dblEps]) (by norm_num [stdR]) (by norm_num [stdR]; linarith)
    (by norm_num [stdR]) 10 (by norm_num) 6 (by norm_num) (by rw [e]; norm_num [stdR]) (by rw [e]; norm_num [stdR])
  exact ⟨pts, s, r, g1, g2, by rw [g5, e]; norm_num, by rw [g6, e']; ring⟩

/-- **C83 (partial).** `setParallelogram( p1, p2, p3 )` gives the polygon `p1, p2, p3, p1 + p3 - p2`, or throws when two of the points are equal for the
library or when the sides are parallel for it. Missing: sides that are nearly horizontal without being so, see `C83_false`. -/
theorem C83_partial (t : Thr ℝ) (h1 : dblEps < t.nullDistance) (h2 : 0 < t.nullAngleValue) (p1 p2 p3 : Pt ℝ) (g1 : GoodSlope t p1 p2)
    (g2 : GoodSlope t p3 p2) :
    (t.nullDistance ≤ eucl p1 p2 → t.nullDistance ≤ eucl p3 p2 → t.nullAngleValue ≤ segAngle (p1, p2) (p3, p2) →
      parallelogram t p1 p2 p3 = .ok [p1, p2, p3, (p1.1 + p3.1 - p2.1, p1.2 + p3.2 - p2.2)]) ∧
    (parallelogram t p1 p2 p3 = .throw ↔
      eucl p1 p2 < t.nullDistance ∨ eucl p3 p2 < t.nullDistance ∨ segAngle (p1, p2) (p3, p2) < t.nullAngleValue) := by
  have hp := dblEps_pos
  have key : ∀ d1 : t.nullDistance ≤ eucl p1 p2, ∀ d2 : t.nullDistance ≤ eucl p3 p2, ∃ l m, segLine t (p1, p2) = .ok l ∧ segLine t (p3, p2) = .ok m ∧
      NormLine t l ∧ NormLine t m ∧ On l p1 ∧ On l p2 ∧ On m p3 ∧ On m p2 ∧ lineAngle l m = segAngle (p1, p2) (p3, p2) := by
    intro d1 d2
    obtain ⟨l, a1, a2, -, a4⟩ := segLine_spec h1 d1
    obtain ⟨m, b1, b2, -, b4⟩ := segLine_spec h1 d2
    obtain ⟨a5, a6⟩ := a4 g1
    obtain ⟨b5, b6⟩ := b4 g2
    exact ⟨l, m, a1, b1, a2, b2, a5, a6, b5, b6, lineAngle_seg a2.1 b2.1 (s := (p1, p2)) (s' := (p3, p2)) (by linarith) (by linarith) a5 a6 b5 b6⟩
  have hok : t.nullDistance ≤ eucl p1 p2 → t.nullDistance ≤ eucl p3 p2 → t.nullAngleValue ≤ segAngle (p1, p2) (p3, p2) →
      parallelogram t p1 p2 p3 = .ok [p1, p2, p3, (p1.1 + p3.1 - p2.1, p1.2 + p3.2 - p2.2)] := by
    intro d1 d2 ha
    obtain ⟨l, m, a1, a2, a3, a4, a5, a6, a7, a8, a9⟩ := key d1 d2
    unfold On at a5 a6 a7 a8
    refine parallelogram_of h1 h2 d1 d2 a1 a2 a3 a4 (by rw [a9]; exact ha) (by simp only; linarith) (by simp only; linarith) ?_ ?_
    · rw [eucl_comm] at d1
      refine le_trans d1 (le_of_eq ?_)
      unfold eucl; congr 1; simp only; ring
    · rw [eucl_comm] at d2
      refine le_trans d2 (le_of_eq ?_)
      unfold eucl; congr 1; simp only; ring
  refine ⟨hok, ?_, ?_⟩
  · intro h
    by_contra hc
    push Not at hc
    rw [hok hc.1 hc.2.1 hc.2.2] at h
    cases h
  · intro h
    by_cases c : eucl p1 p2 < t.nullDistance ∨ eucl p3 p2 < t.nullDistance
    · exact parallelogram_throw c
    · push Not at c
      have ha : segAngle (p1, p2) (p3, p2) < t.nullAngleValue := by
        rcases h with h | h | h
        · exact absurd h (not_lt.2 c.1)
        · exact absurd h (not_lt.2 c.2)
        · exact h
      obtain ⟨l, m, a1, a2, a3, a4, a5, a6, a7, a8, a9⟩ := key c.1 c.2
      obtain ⟨l', e1, -, -, -, e5, e6⟩ := C05_through t l a3 p3
      obtain ⟨m', f1, -, -, -, f5, f6⟩ := C05_through t m a4 p1
      have hang : lineAngle l' m' = lineAngle l m := by unfold lineAngle angleCos; rw [e5, e6, f5, f6]
      have hl' : lineOfPts t (mkPt p1.1 p1.2) (mkPt p2.1 p2.2) = .ok l := a1
      have hm' : lineOfPts t (mkPt p3.1 p3.2) (mkPt p2.1 p2.2) = .ok m := a2
      unfold parallelogram
      rw [hl', hm']
      simp only [Res.bind_ok]
      rw [e1, f1]
      simp only [Res.bind_ok]
      rw [show lineInter t l' m' = .throw by unfold lineInter; rw [if_pos (by rw [IsParallel, hang, a9]; exact ha)]]
      rfl

/-- Non trivial case, with the default thresholds. -/
example : parallelogram stdR (0, 0) (3, 4) (3, -5) = .ok [(0, 0), (3, 4), (3, -5), (0, -9)] := by
  have d1 : eucl (0, 0) (3, 4) = 5 := by rw [eucl_eq_iff (by norm_num)]; norm_num
  have d2 : eucl (3, -5) (3, 4) = 9 := by rw [eucl_eq_iff (by norm_num)]; norm_num
  have hpi := two_le_pi
  have := (C83_partial stdR (by norm_num [stdR, dblEps]) (by norm_num [stdR]) (0, 0) (3, 4) (3, -5)
    (Or.inr (by rw [d1]; norm_num [stdR])) (Or.inr (by rw [d2]; norm_num [stdR]))).1
    (by rw [d1]; norm_num [stdR]) (by rw [d2]; norm_num [stdR]) (by
      unfold segAngle
      simp only [d1, d2]
      show (1 : ℝ) / 1000 ≤ _
      rw [← arccos_cos (x := 1 / 1000) (by norm_num) (by linarith)]
      apply arccos_le_arccos
      have := one_sub_sq_div_two_le_cos (x := 1 / 1000)
      norm_num [abs_of_pos] at this ⊢
      linarith)
  rw [this]; norm_num

/-- **C83 is false** in general: for a side that is nearly horizontal, the last point is not the expected one. -/
theorem C83_false (t : Thr ℝ) (h1 : dblEps < t.nullDistance) (h2 : 0 < t.nullAngleValue) (h3 : t.nullAngleValue ≤ 1 / 2) (h4 : 0 < t.nullDenom) :
    ∃ p1 p2 p3 p4 : Pt ℝ, parallelogram t p1 p2 p3 = .ok [p1, p2, p3, p4] ∧ eucl p4 (p1.1 + p3.1 - p2.1, p1.2 + p3.2 - p2.2) = 2 := by
  have hp := dblEps_pos
  obtain ⟨N, hN1, hN2, hN3⟩ : ∃ N : ℝ, 2 ≤ N ∧ 1 < N * t.nullDenom ∧ t.nullDistance ≤ N := by
    refine ⟨1 / t.nullDenom + t.nullDistance + 2, ?_, ?_, ?_⟩
    · have : 0 < 1 / t.nullDenom := by positivity
      linarith
    · have : 1 / t.nullDenom * t.nullDenom = 1 := by field_simp
      nlinarith
    · have : 0 < 1 / t.nullDenom := by positivity
      linarith
  set s := sqrt (N ^ 2 + 1) with hs
  have hNs : N < s := lt_sqrt_of_sq_lt (by linarith)
  have hs0 : 0 < s := by linarith
  have hss : s ^ 2 = N ^ 2 + 1 := sq_sqrt (by positivity)
  have d1 : eucl (0, 0) (N, 1) = s := by rw [eucl, hs]; congr 1; ring
  have d2 : eucl (N, 1 + N) (N, 1) = N := by rw [eucl_eq_iff (by linarith)]; simp
  obtain ⟨l, a1, a2, a3, -⟩ := segLine_spec (t := t) h1 (a := (0, 0)) (b := (N, 1)) (by rw [d1]; linarith)
  obtain ⟨m, b1, b2, b3, -⟩ := segLine_spec (t := t) h1 (a := (N, 1 + N)) (b := (N, 1)) (by rw [d2]; linarith)
  rw [d1] at a3
  rw [d2] at b3
  have l0 : l 0 = 1 / s := by rw [a3]; simp
  have m0 : m 0 = 1 := by rw [b3]; simp only; rw [show 1 + N - 1 = N by ring, abs_of_pos (by linarith), div_self (by linarith)]
  have m1 : m 1 = 0 := by
    have := b2.1; unfold UnitNormal at this; rw [m0] at this; nlinarith
  have l1 : l 1 = N / s := by
    have hpos : 0 ≤ l 1 := a2.2.2 (by rw [l0, div_lt_iff₀ hs0]; nlinarith)
    have := a2.1; unfold UnitNormal at this; rw [l0] at this
    have e : l 1 ^ 2 = (N / s) ^ 2 := by
      have : l 1 ^ 2 = 1 - (1 / s) ^ 2 := by linarith
      rw [this]; field_simp; linarith
    have hNs0 : 0 ≤ N / s := by positivity
    nlinarith [sq_nonneg (l 1 + N / s), (pow_left_inj₀ hpos hNs0 (two_ne_zero)).1 e]
  refine ⟨(0, 0), (N, 1), (N, 1 + N), (0, N + 2), parallelogram_of h1 h2 (by rw [d1]; linarith) (by rw [d2]; exact hN3) a1 b1 a2 b2 ?_ ?_ ?_ ?_ ?_, ?_⟩
  · rw [lineAngle_eq, angleCos_unit a2.1 b2.1, l0, l1, m0, m1]
    refine le_trans h3 ?_
    have : (1 / 2 : ℝ) ≤ π / 3 := by linarith [two_le_pi]
    refine le_trans this ?_
    rw [← arccos_cos (x := π / 3) (by positivity) (by linarith [pi_pos]), cos_pi_div_three]
    apply arccos_le_arccos
    rw [mul_one, mul_zero, add_zero, abs_of_pos (by positivity), div_le_div_iff₀ hs0 (by norm_num)]
    linarith
  · rw [l0, l1]; simp only; field_simp; ring
  · rw [m0, m1]; simp
  · refine le_trans hN3 ?_
    have := RectM.abs_fst_le (N, 1 + N) (0, N + 2)
    simp only [sub_zero] at this
    exact le_trans (le_abs_self _) this
  · rw [show eucl (0, 0) (0, N + 2) = N + 2 by rw [eucl_eq_iff (by linarith)]; simp only; ring]
    linarith
  · rw [eucl_eq_iff (by norm_num)]; simp only; ring

end H2d.Props
