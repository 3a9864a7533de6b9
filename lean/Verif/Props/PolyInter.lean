import Verif.Lemmas.InsideEx
import Verif.Lemmas.PolyInter
import Verif.Props.SegmentMore

/-!
# C79: intersections of a polyline with a segment, a line, a circle, a polyline

Exact reals, thresholds are parameters.
-/

set_option linter.unusedSimpArgs false

namespace H2d.Props
open H2d H2d.Spec H2d.Inside

/-- **C79, segment (partial).** Any point given is on the supporting lines of the segment and of an edge, and at less than half the null distance from both; any common point of the
segment and an edge is given, unless they are equal (`C22_equal_false`) or nearly parallel.
Missing: nearly horizontal segments (`C22_false`). -/
theorem C79_segment_partial (t : Thr ℝ) (h1 : dblEps < t.nullDistance) (h2 : 0 < t.nullAngleValue) (closed : Bool) (pts : List (Pt ℝ)) (h2p : 2 ≤ pts.length)
    (s : Seg) (he : ∀ e ∈ edgesOf closed pts, GoodSeg t e) (hs : GoodSeg t s) :
    ∃ r, polyInterSeg t closed pts s = .ok r ∧
      (∀ p ∈ r, ∃ e ∈ edgesOf closed pts, (∃ k k', p = along e k ∧ p = along s k') ∧ (∃ q, OnSeg e.1 e.2 q ∧ eucl p q < t.nullDistance / 2) ∧
        ∃ q, OnSeg s.1 s.2 q ∧ eucl p q < t.nullDistance / 2) ∧
      ∀ e ∈ edgesOf closed pts, ∀ q, OnSeg e.1 e.2 q → OnSeg s.1 s.2 q → ¬ SegEq t (fixOrder e.1 e.2) s → t.nullAngleValue ≤ segAngle e s → q ∈ r := by
  obtain ⟨r, hr⟩ := polyInterSeg_ok' h1 h2p (fun e hm => (he e hm).1) hs.1
  refine ⟨r, hr, ?_, ?_⟩
  · intro p hp
    obtain ⟨e, hm, hi⟩ := (mem_polyInterSeg h2p hr p).1 hp
    obtain ⟨⟨k, k', hk, hk'⟩, ⟨q, hq, hlt⟩, h4⟩ := C22_sound_partial t h1 h2 _ s (goodSeg_fix (he e hm)) hs p hi
    refine ⟨e, hm, ?_, ⟨q, Pip.onSeg_fix.1 hq, hlt⟩, h4⟩
    rcases Pip.fixOrder_cases e.1 e.2 with hx | hx <;> rw [hx] at hk
    · exact ⟨k, k', hk, hk'⟩
    · refine ⟨1 - k, k', ?_, hk'⟩
      rw [hk]; unfold along
      apply Prod.ext <;> (simp only [Prod.swap]; ring)
  · intro e hm q hq hq' hne ha
    rw [mem_polyInterSeg h2p hr]
    exact ⟨e, hm, C22_complete_partial t h1 h2 _ s (goodSeg_fix (he e hm)) hs hne (by rw [segAngle_fix_left]; exact ha) q (Pip.onSeg_fix.2 hq) hq'⟩

/-- **C79, line (partial).** Any point given is on the line, and closer to an edge than half the null distance; any common point of the line and an edge is given unless they are nearly parallel. -/
theorem C79_line_partial (t : Thr ℝ) (h1 : dblEps < t.nullDistance) (h2 : 0 < t.nullAngleValue) (closed : Bool) (pts : List (Pt ℝ)) (h2p : 2 ≤ pts.length)
    (l : V3 ℝ) (hl : UnitNormal l) (he : ∀ e ∈ edgesOf closed pts, GoodSeg t e) :
    ∃ r, polyInterLine t closed pts l = .ok r ∧
      (∀ p ∈ r, On l p ∧ ∃ e ∈ edgesOf closed pts, ∃ q, OnSeg e.1 e.2 q ∧ eucl p q < t.nullDistance / 2) ∧
      ∀ e ∈ edgesOf closed pts, ∀ q, OnSeg e.1 e.2 q → On l q → t.nullAngleValue ≤ lineSegAngle l e → q ∈ r := by
  have hfix : ∀ e : Seg, lineSegAngle l (fixOrder e.1 e.2) = lineSegAngle l e := by
    intro e
    rcases Pip.fixOrder_cases e.1 e.2 with hx | hx <;> rw [hx]
    unfold lineSegAngle
    simp only [Prod.swap]
    rw [eucl_comm e.2 e.1, show l 1 * (e.1.1 - e.2.1) - l 0 * (e.1.2 - e.2.2) = -(l 1 * (e.2.1 - e.1.1) - l 0 * (e.2.2 - e.1.2)) by ring, abs_neg]
  have hok : ∀ e ∈ edgesOf closed pts, ∃ i, segLineInter t (fixOrder e.1 e.2) l = .ok i := fun e hm => segLineInter_ok h1 h2 (goodSeg_fix (he e hm)) hl
  obtain ⟨r, hr⟩ := concatRes_spec (f := fun e : Seg => do
      let i ← segLineInter t e l
      pure i.toList) ((edgesOf closed pts).map (fun e => fixOrder e.1 e.2)) (by
    intro a ha
    obtain ⟨e, hm, rfl⟩ := List.mem_map.1 ha
    obtain ⟨i, hi⟩ := hok e hm
    exact ⟨i.toList, by rw [hi]; rfl⟩)
  obtain ⟨m1, m2⟩ := concatRes_ok _ _ hr
  refine ⟨r, ?_, ?_, ?_⟩
  · unfold polyInterLine
    rw [segPairs_edgesOf h2p, Pip.polySegs_ok t _ (fun e hm => (he e hm).1)]
    exact hr
  · intro p hp
    obtain ⟨a, ha, i, hi, hpi⟩ := m2 p hp
    obtain ⟨e, hm, rfl⟩ := List.mem_map.1 ha
    obtain ⟨j, hj⟩ := hok e hm
    rw [hj] at hi
    cases hi
    cases j with
    | none => simp at hpi
    | some j =>
      simp only [Option.toList_some, List.mem_singleton] at hpi
      subst hpi
      obtain ⟨c1, c2⟩ := C69_line_partial t h1 h2 _ (goodSeg_fix (he e hm)) l hl
      by_cases ha : t.nullAngleValue ≤ lineSegAngle l (fixOrder e.1 e.2)
      · obtain ⟨d1, -, q, d2, d3⟩ := (c2 ha).1 p hj
        exact ⟨d1, e, hm, q, Pip.onSeg_fix.1 d2, d3⟩
      · rw [c1 (not_le.1 ha)] at hj; cases hj
  · intro e hm q hq hql ha
    obtain ⟨i, hi, hi'⟩ := m1 _ (List.mem_map_of_mem (f := fun e : Seg => fixOrder e.1 e.2) hm)
    have := ((C69_line_partial t h1 h2 _ (goodSeg_fix (he e hm)) l hl).2 (by rw [hfix]; exact ha)).2 q (Pip.onSeg_fix.2 hq) hql
    rw [this] at hi
    cases hi
    exact hi' q (by simp)

/-- **C79, circle (partial).** The points given are exactly the points of the polyline that are on the circle.
Missing: polylines with a point closer to the circle than the null distance (`C66_false`), nearly horizontal segments. -/
theorem C79_circle_partial (t : Thr ℝ) (h1 : dblEps < t.nullDistance) (closed : Bool) (pts : List (Pt ℝ)) (h2p : 2 ≤ pts.length) (c : Circle) (hc : 0 ≤ c.radius)
    (he : ∀ e ∈ edgesOf closed pts, GoodSeg t e) (hcl : ClearOfCircle t.nullDistance pts c) :
    ∃ r, polyInterCircle t closed pts c = .ok r ∧ ∀ q, q ∈ r ↔ Extent (.poly closed pts) q ∧ eucl q c.center = c.radius := by
  have hcirc : ∀ e ∈ edgesOf closed pts, ∃ r, segCircle t (fixOrder e.1 e.2) c.center c.radius = .ok r ∧
      ∀ q, q ∈ r ↔ OnSeg e.1 e.2 q ∧ eucl q c.center = c.radius := by
    intro e hm
    have hm' := edgesOf_mem hm
    have hends : ∀ p, p = (fixOrder e.1 e.2).1 ∨ p = (fixOrder e.1 e.2).2 → t.nullDistance ≤ |eucl p c.center - c.radius| := by
      intro p hp
      rcases Pip.fixOrder_cases e.1 e.2 with hx | hx <;> rw [hx] at hp <;> rcases hp with rfl | rfl
      · exact hcl _ hm'.1
      · exact hcl _ hm'.2
      · exact hcl _ hm'.2
      · exact hcl _ hm'.1
    obtain ⟨r, hr1, hr2⟩ := C66_circle_partial t h1 _ (goodSeg_fix (he e hm)) c.center c.radius hc (hends _ (Or.inl rfl)) (hends _ (Or.inr rfl))
    exact ⟨r, hr1, fun q => by rw [hr2, Pip.onSeg_fix]⟩
  obtain ⟨r, hr⟩ := concatRes_spec (f := fun e : Seg => segCircle t e c.center c.radius) ((edgesOf closed pts).map (fun e => fixOrder e.1 e.2)) (by
    intro a ha
    obtain ⟨e, hm, rfl⟩ := List.mem_map.1 ha
    obtain ⟨r, hr, -⟩ := hcirc e hm
    exact ⟨r, hr⟩)
  obtain ⟨m1, m2⟩ := concatRes_ok _ _ hr
  refine ⟨r, ?_, fun q => ⟨fun hq => ?_, fun hq => ?_⟩⟩
  · unfold polyInterCircle
    rw [segPairs_edgesOf h2p, Pip.polySegs_ok t _ (fun e hm => (he e hm).1)]
    exact hr
  · obtain ⟨a, ha, i, hi, hqi⟩ := m2 q hq
    obtain ⟨e, hm, rfl⟩ := List.mem_map.1 ha
    obtain ⟨j, hj, hj'⟩ := hcirc e hm
    rw [hj] at hi
    cases hi
    obtain ⟨a1, a2⟩ := (hj' q).1 hqi
    exact ⟨edgesOf_extent hm a1, a2⟩
  · obtain ⟨e, hm, hqe⟩ := extent_poly h2p hq.1
    obtain ⟨i, hi, hi'⟩ := m1 _ (List.mem_map_of_mem (f := fun e : Seg => fixOrder e.1 e.2) hm)
    obtain ⟨j, hj, hj'⟩ := hcirc e hm
    rw [hj] at hi
    cases hi
    exact hi' q ((hj' q).2 ⟨hqe, hq.2⟩)

/-- **C79, polyline (partial).** Same as for a segment: soundness and completeness for each pair of edges. -/
theorem C79_polyline_partial (t : Thr ℝ) (h1 : dblEps < t.nullDistance) (h2 : 0 < t.nullAngleValue) (closed closed' : Bool) (pts pts' : List (Pt ℝ))
    (h2p : 2 ≤ pts.length) (h2p' : 2 ≤ pts'.length) (he : ∀ e ∈ edgesOf closed pts, GoodSeg t e) (he' : ∀ e ∈ edgesOf closed' pts', GoodSeg t e) :
    ∃ r, polyInterPoly t closed pts closed' pts' = .ok r ∧
      (∀ p ∈ r, ∃ e ∈ edgesOf closed pts, ∃ e' ∈ edgesOf closed' pts', (∃ q, OnSeg e.1 e.2 q ∧ eucl p q < t.nullDistance / 2) ∧
        ∃ q, OnSeg e'.1 e'.2 q ∧ eucl p q < t.nullDistance / 2) ∧
      ∀ e ∈ edgesOf closed pts, ∀ e' ∈ edgesOf closed' pts', ∀ q, OnSeg e.1 e.2 q → OnSeg e'.1 e'.2 q →
        ¬ SegEq t (fixOrder e.1 e.2) (fixOrder e'.1 e'.2) → t.nullAngleValue ≤ segAngle e e' → q ∈ r := by
  obtain ⟨r, hr⟩ := polyInterPoly_ok h1 h2p h2p' (fun e hm => (he e hm).1) (fun e hm => (he' e hm).1)
  refine ⟨r, hr, ?_, ?_⟩
  · intro p hp
    obtain ⟨e, hm, e', hm', hi⟩ := (mem_polyInterPoly h2p h2p' hr p).1 hp
    obtain ⟨-, ⟨q, hq, hlt⟩, q', hq', hlt'⟩ := C22_sound_partial t h1 h2 _ _ (goodSeg_fix (he' e' hm')) (goodSeg_fix (he e hm)) p hi
    exact ⟨e, hm, e', hm', ⟨q', Pip.onSeg_fix.1 hq', hlt'⟩, q, Pip.onSeg_fix.1 hq, hlt⟩
  · intro e hm e' hm' q hq hq' hne ha
    rw [mem_polyInterPoly h2p h2p' hr]
    refine ⟨e, hm, e', hm', ?_⟩
    rw [C22_symmetric]
    exact C22_complete_partial t h1 h2 _ _ (goodSeg_fix (he e hm)) (goodSeg_fix (he' e' hm')) hne (by rw [Pip.segAngle_fix]; exact ha) q (Pip.onSeg_fix.2 hq) (Pip.onSeg_fix.2 hq')

/-- **C79, the order of the polylines does not matter**, without any condition: when both calls end normally, the points given are the same (in another order). -/
theorem C79_symmetric (t : Thr ℝ) (closed closed' : Bool) (pts pts' : List (Pt ℝ)) (r r' : List (Pt ℝ))
    (h : polyInterPoly t closed pts closed' pts' = .ok r) (h' : polyInterPoly t closed' pts' closed pts = .ok r') (p : Pt ℝ) : p ∈ r ↔ p ∈ r' := by
  rw [mem_polyInterPoly_pairs h p, mem_polyInterPoly_pairs h' p]
  constructor
  · rintro ⟨e, he, e', he', hh⟩; exact ⟨e', he', e, he, by rw [C22_symmetric]; exact hh⟩
  · rintro ⟨e, he, e', he', hh⟩; exact ⟨e', he', e, he, by rw [C22_symmetric]; exact hh⟩

/-- **C79**: a polyline of less than two points has no intersection. -/
theorem C79_short (t : Thr ℝ) (closed : Bool) (pts : List (Pt ℝ)) (h : pts.length < 2) :
    (∀ s, polyInterSeg t closed pts s = .ok []) ∧ (∀ l, polyInterLine t closed pts l = .ok []) ∧ (∀ c, polyInterCircle t closed pts c = .ok []) ∧
      ∀ closed' pts', polyInterPoly t closed pts closed' pts' = .ok [] := by
  have hs : segPairs closed pts = [] := by unfold segPairs; rw [if_pos h]
  refine ⟨fun s => ?_, fun l => ?_, fun c => ?_, fun closed' pts' => ?_⟩
  · unfold polyInterSeg; rw [hs]; rfl
  · unfold polyInterLine; rw [hs]; rfl
  · unfold polyInterCircle; rw [hs]; rfl
  · unfold polyInterPoly; rw [hs]; rfl

/-- The hypotheses of C79 are met, and the answer is not trivial: the circle of center (0, 2) and radius 1 meets the square of side 4 at (0, 1) and (0, 3), and at no other point. -/
example : ∃ r, polyInterCircle stdR true [((0, 0) : Pt ℝ), (4, 0), (4, 4), (0, 4)] ⟨(0, 2), 1⟩ = .ok r ∧ (0, 1) ∈ r ∧ (0, 3) ∈ r ∧ (0, 4) ∉ r := by
  have hed : edgesOf true sq4 = polyEdges sq4 := rfl
  obtain ⟨r, hr, h⟩ := C79_circle_partial stdR std1 true sq4 (by norm_num) ⟨(0, 2), 1⟩ (by norm_num) (by rw [hed]; exact sq4_good) (by
    have e1 : eucl ((0, 0) : ℝ × ℝ) (0, 2) = 2 := by rw [eucl_eq_iff (by norm_num)]; norm_num
    have e2 : 4 ≤ eucl ((4, 0) : ℝ × ℝ) (0, 2) := Pip.le_eucl (by norm_num)
    have e3 : 4 ≤ eucl ((4, 4) : ℝ × ℝ) (0, 2) := Pip.le_eucl (by norm_num)
    have e4 : eucl ((0, 4) : ℝ × ℝ) (0, 2) = 2 := by rw [eucl_eq_iff (by norm_num)]; norm_num
    unfold ClearOfCircle
    simp only [List.forall_mem_cons, List.not_mem_nil, false_imp_iff, implies_true, and_true]
    refine ⟨?_, ?_, ?_, ?_⟩
    · rw [e1]; norm_num [stdR]
    · rw [abs_of_nonneg (by linarith)]; simp only [stdR]; norm_num; linarith
    · rw [abs_of_nonneg (by linarith)]; simp only [stdR]; norm_num; linarith
    · rw [e4]; norm_num [stdR])
  refine ⟨r, hr, ?_, ?_, ?_⟩
  · rw [h]
    exact ⟨Or.inr ⟨(0, 4), (0, 0), by simp, 3 / 4, by norm_num, by norm_num, by norm_num⟩, by rw [eucl_eq_iff (by norm_num)]; norm_num⟩
  · rw [h]
    exact ⟨Or.inr ⟨(0, 4), (0, 0), by simp, 1 / 4, by norm_num, by norm_num, by norm_num⟩, by rw [eucl_eq_iff (by norm_num)]; norm_num⟩
  · rw [h]
    rintro ⟨-, hh⟩
    rw [eucl_eq_iff (by norm_num)] at hh
    norm_num at hh

/-- The same for segments: the horizontal segment at height 2 meets the square at (0, 2) and (4, 2). -/
example : ∃ r, polyInterSeg stdR true [((0, 0) : Pt ℝ), (4, 0), (4, 4), (0, 4)] ((-1, 2), (5, 2)) = .ok r ∧ (0, 2) ∈ r ∧ (4, 2) ∈ r := by
  have hed : edgesOf true sq4 = polyEdges sq4 := rfl
  have hg : GoodSeg stdR ((-1, 2), (5, 2)) := Pip.goodSeg_of (by norm_num) (by norm_num)
  obtain ⟨r, hr, -, h⟩ := C79_segment_partial stdR std1 (by norm_num [stdR]) true sq4 (by norm_num) ((-1, 2), (5, 2)) (by rw [hed]; exact sq4_good) hg
  have hne : ∀ a b : Pt ℝ, a.2 = 0 ∨ a.2 = 4 → b.2 = 0 ∨ b.2 = 4 → ¬ SegEq stdR (fixOrder a b) ((-1, 2), (5, 2)) := by
    rintro a b ha hb ⟨h1, -⟩
    rw [PtEq, ptDist_eucl, eucl_lt_iff (by norm_num [stdR])] at h1
    rcases Pip.fixOrder_cases a b with hx | hx <;> rw [hx] at h1
    · rcases ha with ha | ha <;> (norm_num [ha, stdR] at h1; nlinarith [sq_nonneg (a.1 + 1)])
    · rcases hb with hb | hb <;> (norm_num [hb, stdR] at h1; nlinarith [sq_nonneg (b.1 + 1)])
  refine ⟨r, hr, ?_, ?_⟩
  · exact h ((0, 4), (0, 0)) (by simp [hed, sq4_edges]) (0, 2) ⟨1 / 2, by norm_num, by norm_num, by norm_num⟩ ⟨1 / 6, by norm_num, by norm_num, by norm_num⟩
      (hne _ _ (Or.inr rfl) (Or.inl rfl)) (Pip.angle_ge rfl (by norm_num) (by norm_num))
  · exact h ((4, 0), (4, 4)) (by simp [hed, sq4_edges]) (4, 2) ⟨1 / 2, by norm_num, by norm_num, by norm_num⟩ ⟨5 / 6, by norm_num, by norm_num, by norm_num⟩
      (hne _ _ (Or.inl rfl) (Or.inr rfl)) (Pip.angle_ge rfl (by norm_num) (by norm_num))

end H2d.Props
