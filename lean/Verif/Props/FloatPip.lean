import Verif.Lemmas.FloatPipComb
import Verif.Lemmas.FloatPipRetry
import Verif.Lemmas.FloatSafe
import Verif.Props.FloatSimple

/-! # C125: point inside a polygon with rounded operations -/

namespace H2d.Props

open H2d.Spec H2d.Fl H2d.Pip

variable {F : Arith} {u v : ℝ} {ac : ℝ → ℝ} {t : Thr ℝ} {w M L S : ℝ} {pts : List (Pt ℝ)} {p lo hi : Pt ℝ}

/-- **C125, answer "inside".** With rounded operations, when `isInside()` answers `true` for a polygon and a point that meet `PipOk`, then the point is inside by the even-odd rule, and it is not closer to the contour than
`19/20` of the null distance. -/
theorem C125_inside_partial (h : FlOk F u v) (ha : AcosOk ac w) (hp : PipOk F t u v w M L S pts p lo hi) (hb : Fl.ptInsidePoly F t ac true pts p = .ok true) :
    EvenOdd pts p ∧ FarFromContour (19 / 20 * t.nullDistance) pts p := by
  obtain ⟨hd, hL, hM, hκ, hu, hv⟩ := pip_facts h hp
  rcases answer_from h hd hp.box (fun q hq => (hp.rep q hq).1) (fun e he => by linarith [(hp.edges e he).2]) hb with ⟨k, -⟩ | ⟨-, ⟨k, -⟩ | ⟨hin, ⟨k, -⟩ | ⟨hn, j, j1, j5, hj, c, hc, e⟩⟩⟩
  · cases k
  · cases k
  · cases k
  · have hn' := nearLine_false h hp hn
    obtain ⟨hf, c', hc', hiff⟩ := last_answer h ha hp hin j1 j5 hn' hj
    rw [hc] at hc'; cases hc'
    exact ⟨hiff.1 (by simpa using e.symm), hf⟩

/-- **C125, right answer.** If the polygon is simple for `isSimple()`, the point is not closer than `11/10` of the null distance to the lines that support the edges, and an answer is given, then it is the one of the even-odd rule. -/
theorem C125_partial (h : FlOk F u v) (ha : AcosOk ac w) (hp : PipOk F t u v w M L S pts p lo hi) (hx : 2000 * (u * M ^ 3 / L ^ 2) ≤ t.nullDistance) (hf : FarFromLines (11 / 10 * t.nullDistance) pts p)
    (hs : simpleF F t ac true pts = .ok true) {b : Bool} (hb : Fl.ptInsidePoly F t ac true pts p = .ok b) : b = true ↔ EvenOdd pts p := by
  obtain ⟨hd, hL, hM, hκ, hu, hv⟩ := pip_facts h hp
  have hno := far_notOn (by positivity) hf
  rcases answer_from h hd hp.box (fun q hq => (hp.rep q hq).1) (fun e he => by linarith [(hp.edges e he).2]) hb with ⟨-, k⟩ | ⟨-, ⟨k, hout⟩ | ⟨hin, ⟨-, hn⟩ | ⟨hn, j, j1, j5, hj, c, hc, e⟩⟩⟩
  · rw [hs] at k; cases k
  · rw [k]
    exact ⟨fun q => (by cases q), fun q => absurd (evenOdd_box hp.box hno.1 hno.2 q) hout⟩
  · exact absurd hn (nearLine_not_far h hp hx hin hf)
  · have hn' := nearLine_false h hp hn
    obtain ⟨-, c', hc', hiff⟩ := last_answer h ha hp hin j1 j5 hn' hj
    rw [hc] at hc'; cases hc'
    rw [← hiff, e, decide_eq_true_eq]

/-- **C125, an answer is given.** Moreover, if the edges without common vertex are farther apart than `reach`, and the vertices are not closer than `11/10` of the null distance to the segment from the point to the middle of the left
side of the extended bounding box, there is an answer, and it is right. -/
theorem C125_answers_partial (h : FlOk F u v) (ha : AcosOk ac w) (hp : PipOk F t u v w M L S pts p lo hi) (hx : 2000 * (u * M ^ 3 / L ^ 2) ≤ t.nullDistance) (hf : FarFromLines (11 / 10 * t.nullDistance) pts p)
    (ho : 0 < t.nullOrthogDistance) (w1 : 2 * max t.nullDistance t.nullOrthogDistance ≤ hi.1 - lo.1) (w2 : 2 * max t.nullDistance t.nullOrthogDistance ≤ hi.2 - lo.2) (h3 : 3 ≤ pts.length)
    {D : ℝ} (hD : reach t u v (3 * M) < D) (hA : EdgesApart D pts) (hv' : ∀ q ∈ pts, ∀ y, OnSeg p (refPt F lo hi 1) y → 11 / 10 * t.nullDistance ≤ eucl q y) :
    ∃ b, Fl.ptInsidePoly F t ac true pts p = .ok b ∧ (b = true ↔ EvenOdd pts p) := by
  have hs := C119_apart_partial h hp.eps ac h3 (pip_edgesOk h hp) hD hA
  have : ∃ b, Fl.ptInsidePoly F t ac true pts p = .ok b := by
    by_cases hin : lo.1 < p.1 ∧ p.1 < hi.1 ∧ lo.2 < p.2 ∧ p.2 < hi.2
    · exact answer_first h ha hp ho w1 w2 hs hin fun q hq => vertex_not_close h hp hin hq (hv' q hq)
    · exact ⟨false, answer_outside h hp ho w1 w2 hs hin⟩
  obtain ⟨b, hb⟩ := this
  exact ⟨b, hb, C125_partial h ha hp hx hf hs hb⟩

/-- **C125, near the line of an edge.** A point closer than `9/10` of the null distance to a line that supports an edge is never inside: the answer is `false`, without exception. -/
theorem C125_near_line (h : FlOk F u v) (ac : ℝ → ℝ) (hp : PipOk F t u v w M L S pts p lo hi) (hx : 2000 * (u * M ^ 3 / L ^ 2) ≤ t.nullDistance) (ho : 0 < t.nullOrthogDistance)
    (w1 : 2 * max t.nullDistance t.nullOrthogDistance ≤ hi.1 - lo.1) (w2 : 2 * max t.nullDistance t.nullOrthogDistance ≤ hi.2 - lo.2) {e : Seg} (he : e ∈ polyEdges pts) {k : ℝ}
    (hk : eucl p (along e k) ≤ 9 / 10 * t.nullDistance) : Fl.ptInsidePoly F t ac true pts p = .ok false := by
  obtain ⟨b, hs, -⟩ := C119_defined h hp.eps ac (pip_edgesOk h hp) true
  cases b with
  | false => exact answer_not_simple hs
  | true =>
    by_cases hin : lo.1 < p.1 ∧ p.1 < hi.1 ∧ lo.2 < p.2 ∧ p.2 < hi.2
    · exact answer_near h hp ho w1 w2 hs hin (nearLine_close h hp hx hin he hk)
    · exact answer_outside h hp ho w1 w2 hs hin

/-- In `double` with the default thresholds: the point (-1/2, -1/2) is inside the L of vertices (-1,-1) (1,-1) (1,0) (0,0) (0,1) (-1,1). -/
example : Fl.ptInsidePoly (binary 53) stdR Real.arccos true lPoly (-1 / 2, -1 / 2) = .ok true := by
  have hF := binary_ok (p := 53) (by norm_num)
  obtain ⟨b, hb, k⟩ := C125_answers_partial hF acosOk_exact (lPoly_ok (Or.inr rfl)) lPoly_hx (fun e he k => le_trans (by norm_num [stdR]) (lPoly_far_lines e he k)) (by norm_num [stdR]) (by norm_num [stdR])
    (by norm_num [stdR]) (by simp [lPoly]) lPoly_reach lPoly_apart fun q hq y hy => le_trans (by norm_num [stdR]) (lPoly_vertices q hq y hy)
  rw [hb, k.2 (lPoly_evenOdd (by norm_num))]

/-- **C125, false in general.** In `double` with the default thresholds, the point (0, -1/2) is inside the simple polygon `lPoly` and at a distance of at least 1/2 of its contour, but `isInside()` answers `false`: it is on the line that supports an
edge (`C125_near_line`). -/
theorem C125_false : simpleF (binary 53) stdR Real.arccos true lPoly = .ok true ∧ EvenOdd lPoly (0, -1 / 2) ∧ FarFromContour (1 / 2) lPoly (0, -1 / 2) ∧
    Fl.ptInsidePoly (binary 53) stdR Real.arccos true lPoly (0, -1 / 2) = .ok false := by
  have hF := binary_ok (p := 53) (by norm_num)
  have hp := lPoly_ok (x := 0) (Or.inl rfl)
  refine ⟨C119_apart_partial hF hp.eps _ (by simp [lPoly]) (pip_edgesOk hF hp) lPoly_reach lPoly_apart, lPoly_evenOdd (by norm_num), lPoly_far_half (Or.inl rfl), ?_⟩
  refine C125_near_line hF Real.arccos hp lPoly_hx (by norm_num [stdR]) (by norm_num [stdR]) (by norm_num [stdR]) (e := ((0, 0), (0, 1))) (by rw [lPoly_edges]; simp) (k := -1 / 2) ?_
  unfold along
  norm_num [eucl, stdR]

/-- **C125, rounds.** The right answer is given as soon as the vertices are not closer than `11/10` of the null distance to *one of the five* reference segments, whichever it is, if the sides of the bounding box are at least 12 times the thresholds. -/
theorem C125_rounds_partial (h : FlOk F u v) (ha : AcosOk ac w) (hp : PipOk F t u v w M L S pts p lo hi) (hx : 2000 * (u * M ^ 3 / L ^ 2) ≤ t.nullDistance) (hf : FarFromLines (11 / 10 * t.nullDistance) pts p)
    (ho : 0 < t.nullOrthogDistance) (w1 : 12 * max t.nullDistance t.nullOrthogDistance ≤ hi.1 - lo.1) (w2 : 12 * max t.nullDistance t.nullOrthogDistance ≤ hi.2 - lo.2) (h3 : 3 ≤ pts.length)
    {D : ℝ} (hD : reach t u v (3 * M) < D) (hA : EdgesApart D pts) {n : ℕ} (n1 : 1 ≤ n) (n5 : n ≤ 5) (hv' : ∀ q ∈ pts, ∀ y, OnSeg p (refPt F lo hi n) y → 11 / 10 * t.nullDistance ≤ eucl q y) :
    ∃ b, Fl.ptInsidePoly F t ac true pts p = .ok b ∧ (b = true ↔ EvenOdd pts p) := by
  have hs := C119_apart_partial h hp.eps ac h3 (pip_edgesOk h hp) hD hA
  have hm : 0 < max t.nullDistance t.nullOrthogDistance := lt_max_of_lt_right ho
  have : ∃ b, Fl.ptInsidePoly F t ac true pts p = .ok b := by
    by_cases hin : lo.1 < p.1 ∧ p.1 < hi.1 ∧ lo.2 < p.2 ∧ p.2 < hi.2
    · exact answer_retry h ha hp ho w1 w2 hs hin n1 n5 fun q hq => vertex_not_close h hp hin hq (hv' q hq)
    · exact ⟨false, answer_outside h hp ho (by linarith) (by linarith) hs hin⟩
  obtain ⟨b, hb⟩ := this
  exact ⟨b, hb, C125_partial h ha hp hx hf hs hb⟩

/-- In `long double` with the default thresholds: the first four reference segments go through vertices of `comb4` (`comb4_on`), the fifth one gives the answer. -/
example : Fl.ptInsidePoly (binary 64) stdR Real.arccos true comb4 (0, 0) = .ok true := by
  obtain ⟨b, hb, k⟩ := C125_rounds_partial (binary_ok (p := 64) (by norm_num)) acosOk_exact comb4_ok comb_hx (fun e he k => le_trans (by norm_num [stdR]) (comb4_far e he k)) (by norm_num [stdR]) (by norm_num [stdR])
    (by norm_num [stdR]) (by simp [comb4]) comb_reach comb4_apart (n := 5) (by norm_num) (by norm_num) fun q hq y hy => le_trans (by norm_num [stdR]) (comb4_vertices q hq y hy)
  rw [hb, k.2 comb4_evenOdd]

/-- **C125, exception.** If each of the five reference segments has a point closer than `9/10` of the null distance to a vertex, and the point is in the bounding box and not close to the lines of the edges, an exception is thrown, for a simple polygon. -/
theorem C125_throw (h : FlOk F u v) (ac : ℝ → ℝ) (hp : PipOk F t u v w M L S pts p lo hi) (hx : 2000 * (u * M ^ 3 / L ^ 2) ≤ t.nullDistance) (hf : FarFromLines (11 / 10 * t.nullDistance) pts p)
    (hs : simpleF F t ac true pts = .ok true) (hin : lo.1 < p.1 ∧ p.1 < hi.1 ∧ lo.2 < p.2 ∧ p.2 < hi.2)
    (hv' : ∀ n, 1 ≤ n → n ≤ 5 → ∃ q ∈ pts, ∃ y, OnSeg p (refPt F lo hi n) y ∧ eucl q y ≤ 9 / 10 * t.nullDistance) : Fl.ptInsidePoly F t ac true pts p = .throw := by
  obtain ⟨hd, hL, hM, hκ, hu, hv⟩ := pip_facts h hp
  rcases hr : Fl.ptInsidePoly F t ac true pts p with b | _ | _
  · exfalso
    rcases answer_from h hd hp.box (fun q hq => (hp.rep q hq).1) (fun e he => by linarith [(hp.edges e he).2]) hr with ⟨-, k⟩ | ⟨-, ⟨-, k⟩ | ⟨-, ⟨-, hn⟩ | ⟨-, j, j1, j5, hj, -⟩⟩⟩
    · rw [hs] at k; cases k
    · exact k hin
    · exact nearLine_not_far h hp hx hin hf hn
    · obtain ⟨q, hq, y, hy, hqy⟩ := hv' j j1 j5
      have := vertex_close h hp hin hq hy hqy
      rw [hj q hq] at this
      cases this
  · rfl
  · exact absurd hr (Fl.ptInsidePoly_safe F t ac true pts p)

/-- **C125, false in general, exception.** In `long double` with the default thresholds, the origin is inside the simple polygon `comb5` and at a distance of at least 2/5 of its contour, but an exception is thrown (`C125_throw`). -/
theorem C125_throw_false : simpleF (binary 64) stdR Real.arccos true comb5 = .ok true ∧ EvenOdd comb5 (0, 0) ∧ FarFromContour (2 / 5) comb5 (0, 0) ∧ Fl.ptInsidePoly (binary 64) stdR Real.arccos true comb5 (0, 0) = .throw := by
  have hF := binary_ok (p := 64) (by norm_num)
  have hs := C119_apart_partial hF comb5_ok.eps Real.arccos (by simp [comb5]) (pip_edgesOk hF comb5_ok) comb_reach comb5_apart
  refine ⟨hs, comb5_evenOdd, ?_, ?_⟩
  · rintro e he q ⟨k, -, -, rfl⟩
    exact comb5_far e he k
  · refine C125_throw hF Real.arccos comb5_ok comb_hx (fun e he k => le_trans (by norm_num [stdR]) (comb5_far e he k)) hs (by norm_num) fun n n1 n5 => ?_
    obtain ⟨q, hq, ho⟩ := comb5_on n n1 n5
    exact ⟨q, hq, q, ho, by rw [eucl_self]; norm_num [stdR]⟩

end H2d.Props
