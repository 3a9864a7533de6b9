import Verif.Lemmas.FloatInsideDemo

/-!
# C138: intersections of polylines; C139: segments, polylines, rectangles inside a polygon

Rounded arithmetic, thresholds are parameters.
-/

namespace H2d.Props
open H2d H2d.Spec H2d.Fl H2d.Inside

variable {F : Arith} {u v w M L S : ℝ} {t : Thr ℝ} {ac : ℝ → ℝ}

/-- **C138, polyline and segment.** Each edge of the polyline is either far from the segment (`reach`) or has a common point with it, at an angle that is not too small. Then the intersections are given: one point for each edge that has
a common point with the segment, no other one, in the order of the edges, within `150 u M² / (L S)` of the common points of the edge and the segment. -/
theorem C138_segment (h : FlOk F u v) (ha : AcosOk ac w) (ht : 2 * dblEps ≤ t.nullDistance) (hn : 350 * (u * M ^ 2 / (L * S)) + 13 * (u + v) * M < t.nullDistance) {closed : Bool} {pts : List (Pt ℝ)} {s : Seg}
    (h2 : 2 ≤ pts.length) (hs : SegFine F t M s) (he : ∀ e ∈ edgesOf closed pts, SegFine F t M e ∧ Decided F t u v w M L S e s) :
    ∃ r, Fl.polyInterSeg F t ac closed pts s = .ok r ∧
      List.Forall₂ (fun q e => ∀ P, OnSeg e.1 e.2 P → OnSeg s.1 s.2 P → eucl q P ≤ 150 * (u * M ^ 2 / (L * S))) r (meeting (edgesOf closed pts) s) := by
  have hp0 := dblEps_pos
  unfold Fl.polyInterSeg
  rw [segPairs_edgesOf h2, Fl.polySegs_fix h (by linarith) _ fun e hm => (he e hm).1.2, Res.bind_ok]
  exact inter_list h ha ht hn hs he (Or.inl rfl)

/-- In `double` with the default thresholds: the vertical segment from (-1/2, 1/4) to (-1/2, 2) crosses the contour of the L once, at (-1/2, 1). -/
example : ∃ q, Fl.polyInterSeg (binary 53) stdR Real.arccos true lPoly topSeg = .ok [q] ∧ eucl q (-1 / 2, 1) ≤ 1 / 10 ^ 11 := by
  obtain ⟨r, hr, k⟩ := C138_segment (binary_ok (p := 53) (by norm_num)) acosOk_exact (t := stdR) (M := 4) (L := 1) (S := 1 / 8) (by norm_num [stdR, dblEps]) (by norm_num [stdR]) (closed := true) (pts := lPoly) (by simp [lPoly]) topSeg_fine topSeg_decided
  have e : meeting (edgesOf true lPoly) topSeg = [((0, 1), (-1, 1))] := by
    have no : ∀ e ∈ polyEdges lPoly, (Meet e topSeg ↔ e = ((0, 1), (-1, 1))) := by
      intro e he
      rcases topSeg_meet he with ⟨rfl, h1, h2⟩ | ⟨hne, h⟩
      · exact ⟨fun _ => rfl, fun _ => ⟨_, h1, h2⟩⟩
      · refine ⟨fun ⟨P, a, b⟩ => ?_, fun k => absurd k hne⟩
        have := h P P a b
        rw [eucl_self] at this
        norm_num at this
    classical
    unfold meeting
    show (polyEdges lPoly).filter _ = _
    rw [List.filter_congr (q := fun e => decide (e = ((0, 1), (-1, 1)))) fun e he => decide_eq_decide.2 (no e he), lPoly_edges]
    norm_num [List.filter]
  rw [e] at k
  rcases k with _ | ⟨k, k'⟩
  cases k'
  refine ⟨_, hr, (k (-1 / 2, 1) ⟨1 / 2, by norm_num, by norm_num, ?_⟩ ⟨3 / 7, by norm_num, by norm_num, ?_⟩).trans (by norm_num)⟩
  · apply Prod.ext <;> norm_num
  · unfold topSeg; apply Prod.ext <;> norm_num

/-- **C138, two polylines.** The same, for each pair of edges: one point for each pair of edges that have a common point, no other one, in the order of the edges of the first polyline, then of the second one. -/
theorem C138_polylines (h : FlOk F u v) (ha : AcosOk ac w) (ht : 2 * dblEps ≤ t.nullDistance) (hn : 350 * (u * M ^ 2 / (L * S)) + 13 * (u + v) * M < t.nullDistance) {closed closed' : Bool} {pts pts' : List (Pt ℝ)}
    (h2 : 2 ≤ pts.length) (h2' : 2 ≤ pts'.length) (he : ∀ e ∈ edgesOf closed pts, SegFine F t M e) (he' : ∀ e ∈ edgesOf closed' pts', SegFine F t M e)
    (hd : ∀ e ∈ edgesOf closed pts, ∀ e' ∈ edgesOf closed' pts', Decided F t u v w M L S e' e) :
    ∃ r, Fl.polyInterPoly F t ac closed pts closed' pts' = .ok r ∧
      List.Forall₂ (fun q e => ∀ P, OnSeg e.1.1 e.1.2 P → OnSeg e.2.1 e.2.2 P → eucl q P ≤ 150 * (u * M ^ 2 / (L * S))) r (meetingPairs (edgesOf closed pts) (edgesOf closed' pts')) := by
  have hp0 := dblEps_pos
  unfold Fl.polyInterPoly
  rw [segPairs_edgesOf h2, Fl.polySegs_fix h (by linarith) _ fun e hm => (he e hm).2, Res.bind_ok]
  rcases hes : edgesOf closed pts with _ | ⟨e0, es⟩
  · exact ⟨[], rfl, .nil⟩
  · rw [← hes]
    have : (edgesOf closed pts).map (fun e => fixOrder e.1 e.2) = fixOrder e0.1 e0.2 :: es.map (fun e => fixOrder e.1 e.2) := by rw [hes]; rfl
    rw [this]
    show ∃ r, ((Fl.polySegs F t (segPairs closed' pts')) >>= fun segs' => Fl.segsInterSegs F t ac segs' (fixOrder e0.1 e0.2 :: es.map (fun e => fixOrder e.1 e.2))) = .ok r ∧ _
    rw [← this, segPairs_edgesOf h2', Fl.polySegs_fix h (by linarith) _ fun e hm => (he' e hm).2, Res.bind_ok]
    unfold Fl.segsInterSegs meetingPairs
    refine concat_flatMap _ fun e hm => ?_
    obtain ⟨r, hr, k⟩ := inter_list h ha ht hn (he e hm) (fun e' hm' => ⟨he' e' hm', hd e hm e' hm'⟩) (Or.inr rfl)
    refine ⟨r, hr, ?_⟩
    rw [List.forall₂_map_right_iff]
    exact k.imp fun q e' k P a b => k P b a

/-- Two such polylines: the contour of the L, and `topSeg` as an open polyline. -/
example : ∃ r, Fl.polyInterPoly (binary 53) stdR Real.arccos false [topSeg.1, topSeg.2] true lPoly = .ok r ∧
    List.Forall₂ (fun q e => ∀ P, OnSeg e.1.1 e.1.2 P → OnSeg e.2.1 e.2.2 P → eucl q P ≤ 150 * (u53 * 4 ^ 2 / (1 * (1 / 8)))) r (meetingPairs [topSeg] (polyEdges lPoly)) := by
  refine C138_polylines (binary_ok (p := 53) (by norm_num)) acosOk_exact (by norm_num [stdR, dblEps]) (by norm_num [stdR]) (by simp) (by simp [lPoly]) ?_ (fun e he => (topSeg_decided e he).1) ?_
  · intro e he
    simp only [edgesOf, Bool.false_eq_true, if_false, List.tail_cons, List.zip_cons_cons, List.zip_nil_right, List.mem_singleton] at he
    subst he
    exact topSeg_fine
  · intro e he
    simp only [edgesOf, Bool.false_eq_true, if_false, List.tail_cons, List.zip_cons_cons, List.zip_nil_right, List.mem_singleton] at he
    subst he
    exact fun e' he' => (topSeg_decided e' he').2

/-- **C138, short edges far from the origin.** The conditions on the precision are needed. With `p` bits, an open polyline with one edge of length 3 and a vertical segment of length 3, with exactly represented coordinates, cross at a distance
of at least 1 of their ends: no intersection is given, for all positive thresholds up to 1. -/
theorem C138_sharp {p : ℕ} (hp : 6 ≤ p) (ha : AcosOk ac w) (h0 : 0 < t.nullDistance) (h1 : t.nullDistance ≤ 1) (h2 : t.nullAngleValue ≤ 1) (h3 : t.nullDenom ≤ 1) :
    ∃ (pts : List (Pt ℝ)) (s : Seg) (M : ℝ) (P : Pt ℝ), SegFine (binary p) t M s ∧ (∀ e ∈ edgesOf false pts, SegFine (binary p) t M e ∧ sinSegs e s = 1) ∧ Extent (.poly false pts) P ∧ OnSeg s.1 s.2 P ∧
      (∀ q ∈ s.1 :: s.2 :: pts, 1 ≤ eucl q P) ∧ Fl.polyInterSeg (binary p) t ac false pts s = .ok [] := by
  obtain ⟨N, hN⟩ : ∃ N : ℝ, (2 : ℝ) ^ (p - 1) = N := ⟨_, rfl⟩
  have f : ∀ {a b c d e : ℝ}, 0 ≤ e → (a - c) ^ 2 + (b - d) ^ 2 = e ^ 2 → eucl (a, b) (c, d) = e := fun he hh => (eucl_eq_iff he).2 hh
  have l1 : eucl (N, N + 1) (N + 3, N + 1) = 3 := f (by norm_num) (by ring)
  have l2 : eucl (N + 1, N) (N + 1, N + 3) = 3 := f (by norm_num) (by ring)
  have hed : edgesOf false [((N, N + 1) : Pt ℝ), (N + 3, N + 1)] = [((N, N + 1), (N + 3, N + 1))] := rfl
  have hl : 2 * t.nullDistance ≤ eucl (N, N + 1) (N + 3, N + 1) := by rw [l1]; linarith
  have hfix : fixOrder ((N, N + 1) : Pt ℝ) (N + 3, N + 1) = ((N, N + 1), (N + 3, N + 1)) := by
    simp [fixOrder, ptLt]
  refine ⟨[(N, N + 1), (N + 3, N + 1)], ((N + 1, N), (N + 1, N + 3)), N + 3, (N + 1, N + 1), ⟨far_rep' hp hN, by simp only; rw [l2]; linarith⟩, ?_, Or.inr ⟨(N, N + 1), (N + 3, N + 1), by simp, ⟨1 / 3, by norm_num, by norm_num, ?_⟩⟩, ⟨1 / 3, by norm_num, by norm_num, ?_⟩, ?_, ?_⟩
  · rw [hed]
    intro e he
    rw [List.mem_singleton] at he
    subst he
    refine ⟨⟨far_rep hp hN, hl⟩, ?_⟩
    unfold sinSegs
    simp only
    rw [l1, l2]
    norm_num
  · apply Prod.ext <;> simp only <;> ring
  · apply Prod.ext <;> simp only <;> ring
  · intro q hq
    simp only [List.mem_cons, List.not_mem_nil, or_false] at hq
    rcases hq with rfl | rfl | rfl | rfl
    · rw [f (e := 1) (by norm_num) (by ring)]
    · rw [f (e := 2) (by norm_num) (by ring)]; norm_num
    · rw [f (e := 1) (by norm_num) (by ring)]
    · rw [f (e := 2) (by norm_num) (by ring)]; norm_num
  · unfold Fl.polyInterSeg
    rw [segPairs_edgesOf (by simp), hed, Fl.polySegs_fix (binary_ok hp) h0 _ (by intro e he; rw [List.mem_singleton] at he; subst he; exact hl)]
    simp only [List.map_cons, List.map_nil, hfix, Res.bind_ok, Fl.segsInterSeg, concatRes, far_none hp hN ha h1 h2 h3]
    rfl

/-- **C139, segment.** The ends are such as in C125, and each edge of the polygon is either far from the segment or has a common point with it. Then there is an answer, and it is "inside" if and only if all the points of the segment are inside the
polygon by the even-odd rule, none on the contour. -/
theorem C139_segment_partial (h : FlOk F u v) (ha : AcosOk ac w) {D : ℝ} {outer : List (Pt ℝ)} {lo hi : Pt ℝ} (hc : PolyClear t u v M L D outer lo hi) {s : Seg}
    (h1 : PointClear F t u v w M L S outer s.1 lo hi) (h2 : PointClear F t u v w M L S outer s.2 lo hi) (hs : SegFine F t M s) (hd : ∀ e ∈ polyEdges outer, Decided F t u v w M L S e s) :
    ∃ b, Fl.segInPoly F t ac outer s = .ok b ∧ (b = true ↔ Within (.seg s.1 s.2) (InPolygon outer)) := by
  obtain ⟨hd0, hfine, hn⟩ := outer_fine h h1.ok
  obtain ⟨b, hb, hi⟩ := allRes_spec (P := EvenOdd outer) [s.1, s.2] (by
    intro p hp
    simp only [List.mem_cons, List.not_mem_nil, or_false] at hp
    rcases hp with rfl | rfl
    · exact point_clear h ha hc h1
    · exact point_clear h ha hc h2)
  unfold Fl.segInPoly
  rw [hb, Res.bind_ok]
  cases b
  · refine ⟨false, rfl, ⟨fun k => (by cases k), fun k => ?_⟩⟩
    refine hi.2 fun p hp => ?_
    simp only [List.mem_cons, List.not_mem_nil, or_false] at hp
    rcases hp with rfl | rfl
    · exact (k _ (onSeg_left _ _)).1
    · exact (k _ (onSeg_right _ _)).1
  · have hE := hi.1 rfl s.1 (by simp)
    rw [if_pos rfl, Pip.segPairs_edges hc.three, Fl.polySegs_fix h hd0 _ fun e he => (hfine e he).2, Res.bind_ok]
    obtain ⟨b', hb', hi'⟩ := allRes_spec (f := fun e => do
        let i ← Fl.segInter F t ac e s
        pure i.isNone) (P := fun e => ¬ Meet e s) ((polyEdges outer).map fun e => fixOrder e.1 e.2) (by
      intro e' he'
      obtain ⟨e, he, rfl⟩ := List.mem_map.1 he'
      obtain ⟨o, ho, ho', -⟩ := decided_spec h ha h1.ok.eps hn (segFine_fix (hfine e he)) hs (decided_fix (hd e he))
      refine ⟨o.isNone, by simp only [ho, Res.bind_ok, Res.pure_eq], ?_⟩
      rw [← ho']
      cases o <;> simp)
    refine ⟨b', hb', hi'.trans ?_⟩
    rw [List.forall_mem_map]
    simp only [meet_fix]
    exact edge_inside hE

/-- A segment inside the L, in `double` with the default thresholds. -/
example : ∃ b, Fl.segInPoly (binary 53) stdR Real.arccos lPoly ((-1 / 2, -1 / 2), (-1 / 4, -5 / 8)) = .ok b ∧ (b = true ↔ Within (.seg (-1 / 2, -1 / 2) (-1 / 4, -5 / 8)) (InPolygon lPoly)) :=
  C139_segment_partial (binary_ok (p := 53) (by norm_num)) acosOk_exact lPoly_clear (s := ((-1 / 2, -1 / 2), (-1 / 4, -5 / 8))) (demo1.clear) (demo3.clear) (demo_fine demo1 demo3 (by norm_num [le_abs])) (demo_decided demo1 demo3)

/-- **C139, false in general.** In `double` with the default thresholds, all the points of the segment from (-1/2, -1/2) to (0, -1/2) are inside the simple polygon `lPoly` and at a distance of at least 1/2 of its contour, but the answer is "not inside":
an end is on the line that supports an edge. -/
theorem C139_false : simpleF (binary 53) stdR Real.arccos true lPoly = .ok true ∧ Within (.seg (-1 / 2, -1 / 2) (0, -1 / 2)) (fun q => EvenOdd lPoly q ∧ FarFromContour (1 / 2) lPoly q) ∧
    Fl.segInPoly (binary 53) stdR Real.arccos lPoly ((-1 / 2, -1 / 2), (0, -1 / 2)) = .ok false := by
  obtain ⟨hs, -, -, hno⟩ := C125_false
  refine ⟨hs, ?_, ?_⟩
  · rintro q ⟨k, k0, k1, rfl⟩
    have e : (((-1 / 2 : ℝ) + k * (0 - -1 / 2), (-1 / 2 : ℝ) + k * (-1 / 2 - -1 / 2)) : Pt ℝ) = (-1 / 2 + k * (1 / 2), -1 / 2) := by apply Prod.ext <;> simp only <;> ring
    simp only [e]
    exact ⟨lPoly_evenOdd ⟨by linarith, by linarith⟩, lPoly_far_mid ⟨by linarith, by linarith⟩⟩
  · obtain ⟨b, hb, k⟩ := point_clear (binary_ok (p := 53) (by norm_num)) acosOk_exact lPoly_clear demo1.clear
    unfold Fl.segInPoly allRes
    rw [hb, k.2 (lPoly_evenOdd (by norm_num))]
    simp only [Res.bind_ok, if_true, allRes, hno]
    rfl

/-- **C139, polyline.** The same for all the vertices and edges of a polyline with at least two vertices. -/
theorem C139_polyline_partial (h : FlOk F u v) (ha : AcosOk ac w) {D : ℝ} {outer : List (Pt ℝ)} {lo hi : Pt ℝ} (hc : PolyClear t u v M L D outer lo hi) {closed : Bool} {pts : List (Pt ℝ)} (h2 : 2 ≤ pts.length)
    (hp : ∀ p ∈ pts, PointClear F t u v w M L S outer p lo hi) (hs : ∀ s ∈ edgesOf closed pts, SegFine F t M s) (hd : ∀ s ∈ edgesOf closed pts, ∀ e ∈ polyEdges outer, Decided F t u v w M L S e s) :
    ∃ b, Fl.polyInPoly F t ac closed pts outer = .ok b ∧ (b = true ↔ Within (.poly closed pts) (InPolygon outer)) := by
  obtain ⟨v0, hv0⟩ : ∃ p, p ∈ pts := by
    cases pts with
    | nil => simp at h2
    | cons a l => exact ⟨a, by simp⟩
  obtain ⟨hd0, hfine, hn⟩ := outer_fine h (hp v0 hv0).ok
  obtain ⟨b, hb, hi⟩ := allRes_spec (P := EvenOdd outer) pts (fun p hm => point_clear h ha hc (hp p hm))
  unfold Fl.polyInPoly
  have hne : pts.isEmpty = false := by cases pts <;> simp_all
  rw [hne, hb]
  simp only [Bool.false_eq_true, if_false, Res.bind_ok]
  cases b
  · exact ⟨false, rfl, fun k => (by cases k), fun k => hi.2 fun p hm => (k p (vertex_extent hm)).1⟩
  · have hE := hi.1 rfl
    obtain ⟨r, hr, k⟩ := C138_polylines h ha (hp v0 hv0).ok.eps hn h2 (by have := hc.three; omega) hs (closed' := true) hfine hd
    rw [if_pos rfl, hr]
    refine ⟨r.isEmpty, rfl, (forall₂_isEmpty k).trans (meetingPairs_nil.trans ?_)⟩
    constructor
    · intro H q hq
      obtain ⟨s, hs', ho⟩ := extent_poly h2 hq
      exact (edge_inside (hE s.1 (edgesOf_mem hs').1)).1 (H s hs') q ho
    · intro H s hs'
      exact (edge_inside (hE s.1 (edgesOf_mem hs').1)).2 fun q hq => H q (edge_extent h2 hs' hq)

/-- A triangle inside the L. -/
example : ∃ b, Fl.polyInPoly (binary 53) stdR Real.arccos true [(-1 / 2, -1 / 2), (-1 / 2, -5 / 8), (-1 / 4, -5 / 8)] lPoly = .ok b ∧
    (b = true ↔ Within (.poly true [(-1 / 2, -1 / 2), (-1 / 2, -5 / 8), (-1 / 4, -5 / 8)]) (InPolygon lPoly)) := by
  have key : ∀ s ∈ edgesOf true [((-1 / 2, -1 / 2) : Pt ℝ), (-1 / 2, -5 / 8), (-1 / 4, -5 / 8)], InDemo s.1 ∧ InDemo s.2 ∧ (1 / 8 ≤ |s.1.1 - s.2.1| ∨ 1 / 8 ≤ |s.1.2 - s.2.2|) := by
    intro s hs
    simp [edgesOf, polyEdges] at hs
    rcases hs with rfl | rfl | rfl
    · exact ⟨demo1, demo2, by norm_num [le_abs]⟩
    · exact ⟨demo2, demo3, by norm_num [le_abs]⟩
    · exact ⟨demo3, demo1, by norm_num [le_abs]⟩
  refine C139_polyline_partial (binary_ok (p := 53) (by norm_num)) acosOk_exact (S := 1 / 8) lPoly_clear (by simp) ?_ (fun s hs => ?_) (fun s hs => ?_)
  · intro p hp
    simp only [List.mem_cons, List.not_mem_nil, or_false] at hp
    rcases hp with rfl | rfl | rfl
    · exact demo1.clear
    · exact demo2.clear
    · exact demo3.clear
  · exact demo_fine (key s hs).1 (key s hs).2.1 (key s hs).2.2
  · exact demo_decided (key s hs).1 (key s hs).2.1

/-- **C139, empty polyline.** A polyline without vertices is not inside any polygon, even one that cannot be tested. -/
theorem C139_empty (F : Arith) (t : Thr ℝ) (ac : ℝ → ℝ) (closed : Bool) (outer : List (Pt ℝ)) : Fl.polyInPoly F t ac closed [] outer = .ok false := rfl

/-- **C139, rectangle.** The same for the four corners and sides of a rectangle: "inside" if and only if all the points of the rectangle are inside the polygon. -/
theorem C139_rectangle_partial (h : FlOk F u v) (ha : AcosOk ac w) {D : ℝ} {outer : List (Pt ℝ)} {lo hi : Pt ℝ} (hc : PolyClear t u v M L D outer lo hi) {r : FRect ℝ} (hr : r.p1.1 ≤ r.p2.1 ∧ r.p1.2 ≤ r.p2.2)
    (hs : ∀ s ∈ rectSides r, PointClear F t u v w M L S outer s.1 lo hi ∧ SegFine F t M s ∧ ∀ e ∈ polyEdges outer, Decided F t u v w M L S e s) :
    ∃ b, Fl.rectInPoly F t ac r outer = .ok b ∧ (b = true ↔ Within (.rect r) (InPolygon outer)) := by
  have h1 := (hs ((r.p1.1, r.p1.2), (r.p1.1, r.p2.2)) (by simp [rectSides])).1
  obtain ⟨hd0, hfine, hn⟩ := outer_fine h h1.ok
  have hsegs : Fl.rectSegs F t r = .ok ((rectSides r).map fun e => fixOrder e.1 e.2) := by
    rw [← Fl.polySegs_fix h hd0 _ fun e he => (hs e he).2.1.2]
    exact rectSegs_poly F t r
  unfold Fl.rectInPoly
  rw [hsegs, Res.bind_ok]
  obtain ⟨b, hb, hi⟩ := allRes_spec (f := fun s => do
      let i ← Fl.polyInterSeg F t ac true outer s
      pure i.isEmpty) (P := fun s => ∀ e ∈ polyEdges outer, ¬ Meet e s) ((rectSides r).map fun e => fixOrder e.1 e.2) (by
    intro s' hs'
    obtain ⟨s, hm, rfl⟩ := List.mem_map.1 hs'
    obtain ⟨i, hi, k⟩ := C138_segment h ha h1.ok.eps hn (closed := true) (pts := outer) (s := fixOrder s.1 s.2) (by have := hc.three; omega) (segFine_fix (hs s hm).2.1)
      (fun e he => ⟨hfine e he, decided_comm (decided_fix (decided_comm ((hs s hm).2.2 e he)))⟩)
    refine ⟨i.isEmpty, by simp only [hi, Res.bind_ok, Res.pure_eq], (forall₂_isEmpty k).trans ?_⟩
    exact meeting_nil)
  rw [hb, Res.bind_ok]
  have hi' : b = true ↔ ∀ s ∈ rectSides r, ∀ e ∈ polyEdges outer, ¬ Meet e s := by
    rw [hi, List.forall_mem_map]
    simp only [meet_comm (s' := fixOrder _ _), meet_fix]
    simp only [meet_comm]
  have hside : ∀ s ∈ rectSides r, ∀ q, OnSeg s.1 s.2 q → Extent (.rect r) q := fun s hm q hq => side_extent hr hm hq
  have hcor : ∀ p ∈ r.get4Pts, ∃ s ∈ rectSides r, s.1 = p := corner_side r
  cases b
  · refine ⟨false, rfl, fun k => (by cases k), fun k => hi'.2 fun s hm e he => ?_⟩
    rintro ⟨P, a, c⟩
    exact (k P (hside s hm P c)).2 ⟨e, he, a⟩
  · have hno := hi'.1 rfl
    obtain ⟨b', hb', hj⟩ := allRes_spec (P := EvenOdd outer) r.get4Pts (fun p hm => by
      obtain ⟨s, hs', rfl⟩ := hcor p hm
      exact point_clear h ha hc (hs s hs').1)
    rw [if_pos rfl]
    refine ⟨b', hb', hj.trans ⟨fun k q hq => ?_, fun k p hm => ?_⟩⟩
    · refine rect_inside h1.ok.box hr (fun s hm => (edge_inside (k _ (side_corner hm))).1 (hno s hm)) q hq
    · obtain ⟨s, hs', rfl⟩ := hcor p hm
      exact (k _ (hside s hs' _ (onSeg_left _ _))).1

/-- A rectangle inside the L. -/
example : ∃ b, Fl.rectInPoly (binary 53) stdR Real.arccos ⟨(-1 / 2, -5 / 8), (-1 / 4, -1 / 2)⟩ lPoly = .ok b ∧ (b = true ↔ Within (.rect ⟨(-1 / 2, -5 / 8), (-1 / 4, -1 / 2)⟩) (InPolygon lPoly)) := by
  refine C139_rectangle_partial (binary_ok (p := 53) (by norm_num)) acosOk_exact (S := 1 / 8) lPoly_clear (by norm_num) ?_
  intro s hs
  simp only [rectSides, List.mem_cons, List.not_mem_nil, or_false] at hs
  rcases hs with rfl | rfl | rfl | rfl
  · exact ⟨demo2.clear, demo_fine demo2 demo1 (by norm_num [le_abs]), demo_decided demo2 demo1⟩
  · exact ⟨demo1.clear, demo_fine demo1 demo4 (by norm_num [le_abs]), demo_decided demo1 demo4⟩
  · exact ⟨demo4.clear, demo_fine demo4 demo3 (by norm_num [le_abs]), demo_decided demo4 demo3⟩
  · exact ⟨demo3.clear, demo_fine demo3 demo2 (by norm_num [le_abs]), demo_decided demo3 demo2⟩

end H2d.Props
