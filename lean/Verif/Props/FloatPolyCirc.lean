import Verif.Lemmas.FloatPolyCircDemo
import Verif.Lemmas.ExactPolyCirc
import Verif.Lemmas.FloatSafe
import Verif.Props.RectMore

/-! # C152: intersections of a polyline or a rectangle with a circle, with rounded arithmetic -/

namespace H2d.Props
open H2d H2d.Spec H2d.Fl H2d.Inside

variable {F : Arith} {u v M L d : ℝ} {t : Thr ℝ} {c : Pt ℝ} {r : ℝ}

/-- **C152, polyline (partial).** Each edge is inside the disc, or outside, or cuts the circle, by a margin. The points given: as many as the edges cut the circle; all near the circle and near an edge; and one of them near each
intersection point. Missing: edges that touch the circle, or have an end near it (`C145_sharp`, `C145_false`). -/
theorem C152_polyline_partial (h : FlOk F u v) (hthr : 1500 * scErr u M L + 13 * (u + v) * M < t.nullDistance) (hd : scMargin u v M L t.nullDistance ≤ d) {closed : Bool} {pts : List (Pt ℝ)} (h2 : 2 ≤ pts.length)
    (he : ∀ e ∈ edgesOf closed pts, SegCirc F t u M L e c r ∧ ClearOf c r (scMargin u v M L t.nullDistance) d e) :
    ∃ out, Fl.polyInterCircle F t closed pts c r = .ok (some out) ∧ out.length = ((edgesOf closed pts).map (cuts c r)).sum ∧ Meets u M L d c r (edgesOf closed pts) out := by
  unfold Fl.polyInterCircle
  have hnd : 0 < t.nullDistance := by
    obtain ⟨e, he'⟩ := List.exists_mem_of_length_pos (l := edgesOf closed pts) (by
      unfold edgesOf polyEdges
      split_ifs <;> simp <;> omega)
    have := (he e he').1.eps
    have h0 := dblEps_pos
    linarith
  rw [segPairs_edgesOf h2, Fl.polySegs_fix h hnd _ fun e hm => (he e hm).1.thr.trans (he e hm).1.len, Res.bind_ok]
  exact circ_list h hthr hd _ he

/-- In `double` with the default thresholds: the closed polyline (0,0), (0,3), (4,3), (4,0) and the circle around the origin with radius 2. Two points, one of them near (0, 2) and one near (2, 0). -/
example : ∃ out, Fl.polyInterCircle (binary 53) stdR true [(0, 0), (0, 3), (4, 3), (4, 0)] (0, 0) 2 = .ok (some out) ∧ (∃ q ∈ out, eucl q (0, 2) ≤ 1 / 10 ^ 10) ∧ ∃ q ∈ out, eucl q (2, 0) ≤ 1 / 10 ^ 10 := by
  obtain ⟨out, h1, -, h3⟩ := C152_polyline_partial (d := 1) (binary_ok (p := 53) (by norm_num)) demo_circThr (demo_circMargin.trans (by norm_num)) (closed := true) (pts := [(0, 0), (0, 3), (4, 3), (4, 0)]) (by simp)
    (by rw [demo_rectEdges]; exact demo_rectCirc)
  rw [demo_rectEdges] at h3
  have l1 : eucl ((0 : ℝ), (0 : ℝ)) (0, 3) = 3 := by rw [eucl_eq_iff (by norm_num)]; norm_num
  have l4 : eucl ((4 : ℝ), (0 : ℝ)) (0, 0) = 4 := by rw [eucl_eq_iff (by norm_num)]; norm_num
  refine ⟨out, h1, ?_, ?_⟩
  · obtain ⟨q, hq, k⟩ := h3.found ((0, 0), (0, 3)) (by simp [rectSides]) (0, 2) ⟨2 / 3, by norm_num, by norm_num, by norm_num⟩ (by rw [eucl_eq_iff (by norm_num)]; norm_num)
    exact ⟨q, hq, k.trans (by simp only [l1]; norm_num [scErr])⟩
  · obtain ⟨q, hq, k⟩ := h3.found ((4, 0), (0, 0)) (by simp [rectSides]) (2, 0) ⟨1 / 2, by norm_num, by norm_num, by norm_num⟩ (by rw [eucl_eq_iff (by norm_num)]; norm_num)
    exact ⟨q, hq, k.trans (by simp only [l4]; norm_num [scErr])⟩

/-- **C152, closed polyline (partial).** The number of points is even. -/
theorem C152_even_partial (h : FlOk F u v) (hthr : 1500 * scErr u M L + 13 * (u + v) * M < t.nullDistance) (hd : scMargin u v M L t.nullDistance ≤ d) {pts : List (Pt ℝ)} (h2 : 2 ≤ pts.length)
    (he : ∀ e ∈ edgesOf true pts, SegCirc F t u M L e c r ∧ ClearOf c r (scMargin u v M L t.nullDistance) d e) : ∃ out, Fl.polyInterCircle F t true pts c r = .ok (some out) ∧ Even out.length := by
  obtain ⟨out, h1, h2, -⟩ := C152_polyline_partial h hthr hd h2 he
  refine ⟨out, h1, ?_⟩
  rw [h2]
  exact sum_even (fun p => eucl p c < r) (cuts c r) (fun e => cuts_odd) pts

/-- The same polyline and circle. -/
example : ∃ out, Fl.polyInterCircle (binary 53) stdR true [(0, 0), (0, 3), (4, 3), (4, 0)] (0, 0) 2 = .ok (some out) ∧ Even out.length :=
  C152_even_partial (d := 1) (binary_ok (p := 53) (by norm_num)) demo_circThr (demo_circMargin.trans (by norm_num)) (by simp) (by rw [demo_rectEdges]; exact demo_rectCirc)

/-- **C152, rectangle (partial).** Each side is inside the disc, or outside, or cuts the circle, by a margin. The points given are in increasing order, without repetition; all near the circle and near a side; and one of them near each
intersection point. Missing: as for the polyline. -/
theorem C152_rectangle_partial (h : FlOk F u v) (hthr : 1500 * scErr u M L + 13 * (u + v) * M < t.nullDistance) (hd : scMargin u v M L t.nullDistance ≤ d) {a : FRect ℝ}
    (he : ∀ e ∈ rectSides a, SegCirc F t u M L e c r ∧ ClearOf c r (scMargin u v M L t.nullDistance) d e) :
    ∃ out, Fl.rectCircleInter F t a c r = .ok (some out) ∧ SortedPts out ∧ Meets u M L d c r (rectSides a) out := by
  unfold Fl.rectCircleInter
  have hnd : 0 < t.nullDistance := by
    have := (he _ (by simp [rectSides] : ((a.p1.1, a.p1.2), (a.p1.1, a.p2.2)) ∈ rectSides a)).1.eps
    have h0 := dblEps_pos
    linarith
  rw [rectSegs_poly, polySegs_fix h hnd _ fun e hm => (he e hm).1.thr.trans (he e hm).1.len, Res.bind_ok]
  obtain ⟨pts, new, p1, p2, p3, p4⟩ := circ_set h hthr hd (rectSides a) he [] (by simp [SortedPts])
  refine ⟨pts, p1, p2, ⟨fun q hq => p4.circle q ?_, fun q hq => p4.seg q ?_, fun e hm X hX hc => ?_⟩⟩
  · simpa using (p3 q).1 hq
  · simpa using (p3 q).1 hq
  · obtain ⟨q, hq, k⟩ := p4.found e hm X hX hc
    exact ⟨q, (p3 q).2 (Or.inr hq), k⟩

/-- The rectangle from (0, 0) to (4, 3) and the same circle. -/
example : ∃ out, Fl.rectCircleInter (binary 53) stdR ⟨(0, 0), (4, 3)⟩ (0, 0) 2 = .ok (some out) ∧ ∃ q ∈ out, eucl q (0, 2) ≤ 1 / 10 ^ 10 := by
  obtain ⟨out, h1, -, h3⟩ := C152_rectangle_partial (d := 1) (binary_ok (p := 53) (by norm_num)) demo_circThr (demo_circMargin.trans (by norm_num)) demo_rectCirc
  have l1 : eucl ((0 : ℝ), (0 : ℝ)) (0, 3) = 3 := by rw [eucl_eq_iff (by norm_num)]; norm_num
  obtain ⟨q, hq, k⟩ := h3.found ((0, 0), (0, 3)) (by simp [rectSides]) (0, 2) ⟨2 / 3, by norm_num, by norm_num, by norm_num⟩ (by rw [eucl_eq_iff (by norm_num)]; norm_num)
  exact ⟨out, h1, q, hq, k.trans (by simp only [l1]; norm_num [scErr])⟩

/-- **C152 is false** for circles through a corner, even without rounding: another intersection point on the same side is missed. -/
theorem C152_false (t : Thr ℝ) (ht : RectThr t) (h1 : t.nullDistance ≤ 1) : ∃ (a : FRect ℝ) (c : Pt ℝ) (r : ℝ) (pts : List (Pt ℝ)) (q : Pt ℝ),
    LongSides 1 a ∧ 1 ≤ r ∧ Fl.rectCircleInter exactArith t a c r = .ok (some pts) ∧ OnRect a q ∧ eucl q c = r ∧ q ∉ pts := by
  obtain ⟨a, c, r, pts, q, h1, h2, h3, h4⟩ := C80_circle_false t ht h1
  exact ⟨a, c, r, pts, q, h1, h2, by rw [Exact.rectCircleInter_eq t a c (by linarith), h3]; rfl, h4⟩

/-- The default thresholds. -/
example : RectThr stdR ∧ stdR.nullDistance ≤ 1 := ⟨Rank.stdR_thr, by norm_num [stdR]⟩

end H2d.Props
