import Verif.Lemmas.FloatSegLineDemo

/-!
# C146: intersection of a segment, or of a polyline, and a line

Rounded arithmetic, thresholds are parameters.
-/

namespace H2d.Props
open H2d H2d.Spec H2d.Fl H2d.Inside

variable {F : Arith} {u v w M L S σ : ℝ} {t : Thr ℝ} {ac : ℝ → ℝ} {s : Seg} {li : V3 ℝ}

/-- **C146, a common point is found.** The segment is not too short and the angle not too small for the precision. If a point is on the segment and on the line, then a point is given, within `150 u M² / (L S)` of it. -/
theorem C146_found (h : FlOk F u v) (ha : AcosOk ac w) (hp : SegLn F t u w M L S s li) (hn : 350 * slErr u M L S + 13 * (u + v) * M < t.nullDistance) {P : Pt ℝ} (hs : OnSeg s.1 s.2 P) (hl : sideDist li P = 0) :
    ∃ q, Fl.segLineInter F t ac s li = .ok (some q) ∧ eucl q P ≤ 150 * slErr u M L S := by
  obtain ⟨k, k0, k1, rfl⟩ := hs
  exact ln_found h ha hp hn k0 k1 ((sideDist_on hp.norm).1 hl)

/-- The segment from the origin to (4, 3) and the line `3 x + 4 y = 12` in `double`, with the default thresholds: the point is (2, 3/2), up to 10^-13. -/
example : ∃ q, Fl.segLineInter (binary 53) stdR Real.arccos ((0, 0), (4, 3)) ![3, 4, -12] = .ok (some q) ∧ eucl q (2, 3 / 2) ≤ 1 / 10 ^ 12 := by
  have hn : 350 * slErr u53 4 5 (24 / 25) + 13 * (u53 + u53) * 4 < stdR.nullDistance := by unfold slErr; norm_num [stdR]
  obtain ⟨q, e, k⟩ := C146_found (P := (2, 3 / 2)) (binary_ok (p := 53) (by norm_num)) acosOk_exact demo_segLn hn ⟨1 / 2, by norm_num, by norm_num, by norm_num⟩ (by unfold sideDist; simp [Matrix.cons_val_zero, Matrix.cons_val_one, Matrix.cons_val]; norm_num)
  exact ⟨q, e, k.trans (by unfold slErr; norm_num)⟩

/-- **C146, a point that is given is right.** There is always an answer; a point that is given is close to the segment and to the line. -/
theorem C146_sound (h : FlOk F u v) (ha : AcosOk ac w) (hp : SegLn F t u w M L S s li) : ∃ r, Fl.segLineInter F t ac s li = .ok r ∧
    ∀ q, r = some q → (∃ P, OnSeg s.1 s.2 P ∧ eucl q P ≤ 350 * slErr u M L S + 6 * (u + v) * M + 11 / 20 * t.nullDistance) ∧ |sideDist li q| ≤ 280 * slErr u M L S := by
  obtain ⟨m, q, Q, hq⟩ := ln_point h ha hp
  obtain ⟨r, hr⟩ := hq.total
  refine ⟨r, hr, ?_⟩
  rintro q' rfl
  obtain ⟨rfl, hb⟩ := hq.only q' hr
  obtain ⟨⟨k, k0, k1, hk⟩, d⟩ := hq.sound h hp hb
  refine ⟨⟨_, ⟨k, k0, k1, rfl⟩, hk⟩, ?_⟩
  have l2 := sideDist_lip hp.norm q' Q
  rw [(sideDist_on hp.norm).2 hq.both.1, sub_zero] at l2
  exact l2.trans d

/-- The same segment and line. -/
example : SegLn (binary 53) stdR u53 0 4 5 (24 / 25) ((0, 0), (4, 3)) ![3, 4, -12] := demo_segLn

/-- **C146, a segment on one side of the line.** Both ends are on the same side of the line, farther than `asideMargin`: no point is given, whatever the angle of the segment and the line (they can be parallel, or nearly). -/
theorem C146_aside (h : FlOk F u v) (ha : AcosOk ac w) (hp : SegAside F t u v w M σ s li) : Fl.segLineInter F t ac s li = .ok none := aside_none h ha hp

/-- The same segment and the line `3 x - 4 y = 20`, which is parallel to it. -/
example : Fl.segLineInter (binary 53) stdR Real.arccos ((0, 0), (4, 3)) ![3, -4, -20] = .ok none := C146_aside (binary_ok (p := 53) (by norm_num)) acosOk_exact demo_aside

/-- **C146, polyline.** Each edge of the polyline either crosses the line, at an angle that is not too small, or is on one side of it. Then the intersections are given: one point for each edge that crosses the line, no other one, in the
order of the edges, within `150 u M² / (L S)` of the common point. -/
theorem C146_polyline (h : FlOk F u v) (ha : AcosOk ac w) (h0 : 0 < t.nullDistance) (hn : 350 * slErr u M L S + 13 * (u + v) * M < t.nullDistance) {closed : Bool} {pts : List (Pt ℝ)} (h2 : 2 ≤ pts.length)
    (he : ∀ e ∈ edgesOf closed pts, (SegLn F t u w M L S e li ∧ Crosses li e) ∨ SegAside F t u v w M σ e li) :
    ∃ r, Fl.polyInterLine F t ac closed pts li = .ok r ∧
      List.Forall₂ (fun q e => ∀ P, OnSeg e.1 e.2 P → sideDist li P = 0 → eucl q P ≤ 150 * slErr u M L S) r (crossing (edgesOf closed pts) li) := by
  unfold Fl.polyInterLine
  have hlen : ∀ e ∈ edgesOf closed pts, 2 * t.nullDistance ≤ eucl e.1 e.2 := by
    intro e hm
    rcases he e hm with ⟨k, -⟩ | k
    · have h1 : S * L ≤ L := mul_le_of_le_one_left k.L_pos.le (k.sin.trans (sinLineSeg_le_one li e))
      linarith [k.thr, k.len]
    · exact k.len
  rw [segPairs_edgesOf h2, Fl.polySegs_fix h h0 _ hlen, Res.bind_ok]
  exact line_list h ha hn he

/-- In `double` with the default thresholds: the line `x = -1/2` meets the contour of the L twice, at (-1/2, -1) and at (-1/2, 1). -/
example : ∃ q q', Fl.polyInterLine (binary 53) stdR Real.arccos true lPoly ![1, 0, 1 / 2] = .ok [q, q'] ∧ eucl q (-1 / 2, -1) ≤ 1 / 10 ^ 12 ∧ eucl q' (-1 / 2, 1) ≤ 1 / 10 ^ 12 := by
  have hn : 350 * slErr u53 4 1 1 + 13 * (u53 + u53) * 4 < stdR.nullDistance := by unfold slErr; norm_num [stdR]
  obtain ⟨r, hr, k⟩ := C146_polyline (binary_ok (p := 53) (by norm_num)) acosOk_exact (by norm_num [stdR]) hn (closed := true) (pts := lPoly) (by simp [lPoly]) lPoly_line
  have hsd : ∀ p : Pt ℝ, sideDist ![1, 0, 1 / 2] p = p.1 + 1 / 2 := by
    intro p
    unfold sideDist
    simp only [Matrix.cons_val_zero, Matrix.cons_val_one, Matrix.cons_val, show Real.sqrt ((1 : ℝ) ^ 2 + 0 ^ 2) = 1 by norm_num]
    ring
  have e : crossing (edgesOf true lPoly) ![1, 0, 1 / 2] = [((-1, -1), (1, -1)), ((0, 1), (-1, 1))] := by
    classical
    unfold crossing
    show (polyEdges lPoly).filter _ = _
    rw [lPoly_edges]
    simp only [Crosses, hsd]
    norm_num [List.filter]
  rw [e] at k
  rcases k with _ | ⟨k, k'⟩
  rcases k' with _ | ⟨k', k2⟩
  cases k2
  refine ⟨_, _, hr, (k (-1 / 2, -1) ⟨1 / 4, by norm_num, by norm_num, ?_⟩ (by rw [hsd]; norm_num)).trans (by unfold slErr; norm_num), (k' (-1 / 2, 1) ⟨1 / 2, by norm_num, by norm_num, ?_⟩ (by rw [hsd]; norm_num)).trans (by unfold slErr; norm_num)⟩
  · apply Prod.ext <;> norm_num
  · apply Prod.ext <;> norm_num

/-- **C146, closed polyline.** The number of points is even. -/
theorem C146_even (h : FlOk F u v) (ha : AcosOk ac w) (h0 : 0 < t.nullDistance) (hn : 350 * slErr u M L S + 13 * (u + v) * M < t.nullDistance) {pts : List (Pt ℝ)} (h2 : 2 ≤ pts.length)
    (he : ∀ e ∈ edgesOf true pts, (SegLn F t u w M L S e li ∧ Crosses li e) ∨ SegAside F t u v w M σ e li) :
    ∃ r, Fl.polyInterLine F t ac true pts li = .ok r ∧ Even r.length := by
  obtain ⟨r, hr, k⟩ := C146_polyline h ha h0 hn h2 he
  refine ⟨r, hr, ?_⟩
  rw [k.length_eq]
  refine crossing_even fun p hp => ?_
  obtain ⟨e, hm, rfl⟩ := polyEdges_fst hp
  rcases he e hm with ⟨-, k⟩ | k
  · exact fun z => absurd k (by unfold Crosses; rw [z, zero_mul]; exact lt_irrefl _)
  · intro z
    have hE : 0 < asideMargin t u v M (eucl e.1 e.2) σ := aside_pos h k
    rcases k.aside with ⟨a, -⟩ | ⟨a, -⟩ <;> linarith

/-- The contour of the L and the line `x = -1/2`. -/
example : ∃ r, Fl.polyInterLine (binary 53) stdR Real.arccos true lPoly ![1, 0, 1 / 2] = .ok r ∧ Even r.length :=
  C146_even (binary_ok (p := 53) (by norm_num)) acosOk_exact (M := 4) (L := 1) (S := 1) (by norm_num [stdR]) (by unfold slErr; norm_num [stdR]) (by simp [lPoly]) lPoly_line

/-- **C146, short segments far from the origin.** The conditions on the precision are needed. With `p` bits, a segment of length 3 and a line that is perpendicular to it, with exactly represented coordinates and coefficients, cross at a distance
of at least 1 of the ends: no intersection is given, for all positive thresholds up to 1/2. -/
theorem C146_sharp {p : ℕ} (hp : 6 ≤ p) (ha : AcosOk ac w) (h1 : t.nullDistance ≤ 1 / 2) (h2 : t.nullAngleValue ≤ 1) :
    ∃ (s : Seg) (li : V3 ℝ) (M : ℝ) (P : Pt ℝ), SegRep (binary p) M s ∧ (∀ i, Rep (binary p) (li i)) ∧ s.1.2 = s.2.2 ∧ eucl s.1 s.2 = 3 ∧ offLine li ≤ M ∧ sinLineSeg li s = 1 ∧
      OnSeg s.1 s.2 P ∧ sideDist li P = 0 ∧ 1 ≤ eucl s.1 P ∧ 1 ≤ eucl s.2 P ∧ Fl.segLineInter (binary p) t ac s li = .ok none := by
  obtain ⟨N, hN⟩ : ∃ N : ℝ, (2 : ℝ) ^ (p - 1) = N := ⟨_, rfl⟩
  obtain ⟨h32, r0, r1, r3⟩ := far_reps hp hN
  obtain ⟨s0, s1, -⟩ := far_nums hp hN
  have f : ∀ {a b c d e : ℝ}, 0 ≤ e → (a - c) ^ 2 + (b - d) ^ 2 = e ^ 2 → eucl (a, b) (c, d) = e := fun he hh => (eucl_eq_iff he).2 hh
  have q1 : Real.sqrt ((1 : ℝ) ^ 2 + 0 ^ 2) = 1 := by norm_num
  have l1 : eucl (N, N + 1) (N + 3, N + 1) = 3 := f (by norm_num) (by ring)
  refine ⟨((N, N + 1), (N + 3, N + 1)), ![1, 0, -(N + 1)], N + 3, (N + 1, N + 1), far_rep hp hN, ?_, rfl, l1, ?_, ?_, ⟨1 / 3, by norm_num, by norm_num, ?_⟩, ?_, ?_, ?_, far_line_none hp hN ha h1 h2⟩
  · intro i
    fin_cases i
    · exact s1
    · exact s0
    · show (binary p).rnd (-(N + 1)) = -(N + 1)
      rw [(binary_ok hp).odd, show (binary p).rnd (N + 1) = N + 1 from r1]
  · unfold offLine
    simp only [Matrix.cons_val_zero, Matrix.cons_val_one, Matrix.cons_val, q1]
    rw [abs_neg, abs_of_nonneg (by linarith)]
    linarith
  · unfold sinLineSeg
    simp only [Matrix.cons_val_zero, Matrix.cons_val_one, q1]
    rw [l1]
    norm_num
  · apply Prod.ext <;> simp only <;> ring
  · unfold sideDist
    simp [Matrix.cons_val_zero, Matrix.cons_val_one, Matrix.cons_val]
  · simp only; rw [f (e := 1) (by norm_num) (by ring)]
  · simp only; rw [f (e := 2) (by norm_num) (by ring)]; norm_num

end H2d.Props
