import Verif.Lemmas.InsideEx
import Verif.Props.SegmentMore

/-!
# C78: containment of a segment, of a polyline, of a rectangle in a polygon

Exact reals, thresholds are parameters.
-/

set_option linter.unusedSimpArgs false

namespace H2d.Props
open H2d H2d.Spec H2d.Inside

/-- **C78, segment, answer "inside" (partial).** It is given only when all the points of the segment are inside the polygon by the even-odd rule, none on its contour.
Missing: segments that cross the contour at a small angle (`C78_shallow_false`) or nearly horizontal, excluded by `GoodRefs` and `ClearCrossings`. -/
theorem C78_segment_partial (t : Thr ℝ) (h1 : dblEps < t.nullDistance) (h2 : 0 < t.nullAngleValue) (ho : 0 < t.nullOrthogDistance) (outer : List (Pt ℝ)) (s : Seg)
    (hl : t.nullDistance ≤ eucl s.1 s.2) (hg : GoodRefs t outer s.1) (hcl : ClearCrossings t outer s)
    (h : segInPoly t outer s = .ok true) : Within (.seg s.1 s.2) (InPolygon outer) := by
  unfold segInPoly at h
  rcases ha : allRes (ptInsidePoly t true outer) [s.1, s.2] with b | _ | _ <;> rw [ha] at h
  · cases b
    · cases h
    · rw [allRes_true] at ha
      obtain ⟨h3, hge, hE, hF, -⟩ := inside_facts h1 h2 ho hg (ha s.1 (by simp))
      simp only [Res.bind_ok, if_true] at h
      rw [Pip.segPairs_edges h3, Pip.polySegs_ok t _ (fun e he => (hge e he).1), Res.bind_ok, noInter, allRes_true] at h
      intro q hq
      refine seg_within h1 h2 hge hl hcl hE hF ?_ q hq
      intro e he
      have := h _ (List.mem_map_of_mem (f := fun e : Seg => fixOrder e.1 e.2) he)
      rcases hr : segInter t (fixOrder e.1 e.2) s with o | _ | _ <;> rw [hr] at this
      · cases o
        · rfl
        · simp at this
      · cases this
      · cases this
  · cases h
  · cases h

/-- **C78, segment, answer "not inside" (partial).** It is given only when a point of the segment is outside of the polygon, or closer to its contour than the null distance.
Missing: ends of the segment close to the supporting line of an edge (`C78_false`). -/
theorem C78_segment_out_partial (t : Thr ℝ) (h1 : dblEps < t.nullDistance) (h2 : 0 < t.nullAngleValue) (ho : 0 < t.nullOrthogDistance) (outer : List (Pt ℝ)) (s : Seg)
    (hs : isSimple (segInterB t) true outer = true) (hl : t.nullDistance ≤ eucl s.1 s.2) (hsl : GoodSlope t s.1 s.2)
    (hg : ∀ v ∈ [s.1, s.2], GoodRefs t outer v ∧ FarFromLines t.nullDistance outer v)
    (h : segInPoly t outer s = .ok false) : ∃ q, Extent (.seg s.1 s.2) q ∧ OutOrNear t.nullDistance outer q := by
  unfold segInPoly at h
  rcases ha : allRes (ptInsidePoly t true outer) [s.1, s.2] with b | _ | _ <;> rw [ha] at h
  · cases b
    · obtain ⟨v, hv, hf⟩ := allRes_false _ ha
      refine ⟨v, ?_, Or.inl (outside_facts h1 h2 ho hs (hg v hv).1 (hg v hv).2 hf)⟩
      simp only [List.mem_cons, List.not_mem_nil, or_false] at hv
      rcases hv with rfl | rfl
      · exact onSeg_left _ _
      · exact onSeg_right _ _
    · rw [allRes_true] at ha
      obtain ⟨h3, hge, hE, hF, -⟩ := inside_facts h1 h2 ho (hg s.1 (by simp)).1 (ha s.1 (by simp))
      simp only [Res.bind_ok, if_true] at h
      rw [Pip.segPairs_edges h3, Pip.polySegs_ok t _ (fun e he => (hge e he).1), Res.bind_ok, noInter] at h
      obtain ⟨a, ha', hf⟩ := allRes_false _ h
      obtain ⟨e, he, rfl⟩ := List.mem_map.1 ha'
      rcases hr : segInter t (fixOrder e.1 e.2) s with o | _ | _ <;> rw [hr] at hf
      · cases o with
        | none => cases hf
        | some p => exact near_out h1 h2 hge hl hsl he hr
      · cases hf
      · cases hf
  · cases h
  · cases h

/-- **C78, segment: an answer is given** when one is given for both ends. -/
theorem C78_segment_answers (t : Thr ℝ) (h1 : dblEps < t.nullDistance) (ho : 0 < t.nullOrthogDistance) (outer : List (Pt ℝ)) (s : Seg)
    (hl : t.nullDistance ≤ eucl s.1 s.2) (ha : ∀ v ∈ [s.1, s.2], ∃ b, ptInsidePoly t true outer v = .ok b) :
    ∃ b, segInPoly t outer s = .ok b := by
  obtain ⟨b, hb, hP⟩ := allRes_spec (f := ptInsidePoly t true outer) (P := fun v => ptInsidePoly t true outer v = .ok true) [s.1, s.2] (by
    intro v hv
    obtain ⟨b, hb⟩ := ha v hv
    exact ⟨b, hb, by rw [hb]; simp⟩)
  unfold segInPoly
  rw [hb]
  cases b
  · exact ⟨false, rfl⟩
  · have hin := hP.1 rfl s.1 (by simp)
    have hs : isSimple (segInterB t) true outer = true := by
      by_contra hc
      rw [C74_not_simple t true outer s.1 (Or.inr (by simpa using hc))] at hin
      cases hin
    obtain ⟨h3, lo, hi, -, -, -, hcase⟩ := Pip.answer_cases ho hs hin
    rcases hcase with ⟨hb, -⟩ | ⟨-, hlen, -⟩
    · cases hb
    simp only [Res.bind_ok, if_true]
    rw [Pip.segPairs_edges h3, Pip.polySegs_ok t _ hlen, Res.bind_ok, noInter]
    obtain ⟨b, hb, -⟩ := allRes_spec (f := fun e : Seg => do
      let i ← segInter t e s
      pure i.isNone) (P := fun e => segInter t e s = .ok none) ((polyEdges outer).map (fun e => fixOrder e.1 e.2)) (by
      intro a ha
      obtain ⟨e, he, rfl⟩ := List.mem_map.1 ha
      obtain ⟨i, hi⟩ := segInter_ok' h1 (hlen e he) hl
      exact ⟨i.isNone, by rw [hi]; rfl, by rw [hi]; cases i <;> simp⟩)
    exact ⟨b, hb⟩

/-- **C78, rectangle: an answer is given** when one is given for the four corners, and the sides of the rectangle and the edges of the polygon are not too short. -/
theorem C78_rect_answers (t : Thr ℝ) (h1 : dblEps < t.nullDistance) (outer : List (Pt ℝ)) (r : FRect ℝ)
    (h3 : 3 ≤ outer.length) (he : ∀ e ∈ polyEdges outer, t.nullDistance ≤ eucl e.1 e.2) (hl : ∀ e ∈ rectSides r, t.nullDistance ≤ eucl e.1 e.2)
    (ha : ∀ v ∈ r.get4Pts, ∃ b, ptInsidePoly t true outer v = .ok b) : ∃ b, rectInPoly t r outer = .ok b := by
  unfold rectInPoly
  rw [rectSegs_ok hl, Res.bind_ok]
  obtain ⟨b, hb, -⟩ := allRes_spec (f := fun s : Seg => do
      let i ← polyInterSeg t true outer s
      pure i.isEmpty) (P := fun s => polyInterSeg t true outer s = .ok []) ((rectSides r).map (fun e => fixOrder e.1 e.2)) (by
    intro a ha
    obtain ⟨e, hm, rfl⟩ := List.mem_map.1 ha
    obtain ⟨i, hi⟩ := polyInterSeg_ok h1 h3 he (s := fixOrder e.1 e.2) (by rw [Pip.eucl_fix]; exact hl e hm)
    exact ⟨i.isEmpty, by rw [hi]; rfl, by rw [hi]; cases i <;> simp⟩)
  rw [hb, Res.bind_ok]
  cases b
  · exact ⟨false, rfl⟩
  · obtain ⟨b, hb, -⟩ := allRes_spec (f := ptInsidePoly t true outer) (P := fun v => ptInsidePoly t true outer v = .ok true) r.get4Pts (by
      intro v hv
      obtain ⟨b, hb⟩ := ha v hv
      exact ⟨b, hb, by rw [hb]; simp⟩)
    exact ⟨b, hb⟩

/-- **C78, polyline, answer "inside" (partial).** Given only when all the points of all its segments are inside. -/
theorem C78_polyline_partial (t : Thr ℝ) (h1 : dblEps < t.nullDistance) (h2 : 0 < t.nullAngleValue) (ho : 0 < t.nullOrthogDistance) (outer : List (Pt ℝ))
    (closed : Bool) (pts : List (Pt ℝ)) (h2p : 2 ≤ pts.length)
    (hg : ∀ v ∈ pts, GoodRefs t outer v) (hcl : ∀ e ∈ edgesOf closed pts, ClearCrossings t outer e)
    (h : polyInPoly t closed pts outer = .ok true) : Within (.poly closed pts) (InPolygon outer) := by
  unfold polyInPoly at h
  rw [if_neg (by rw [List.isEmpty_iff]; rintro rfl; simp at h2p)] at h
  rcases ha : allRes (ptInsidePoly t true outer) pts with b | _ | _ <;> rw [ha] at h
  · cases b
    · cases h
    · rw [allRes_true] at ha
      simp only [Res.bind_ok, if_true] at h
      rcases hi : polyInterPoly t closed pts true outer with i | _ | _ <;> rw [hi] at h
      · simp only [Res.bind_ok, Res.pure_eq, Res.ok.injEq, List.isEmpty_iff] at h
        subst h
        have hlen : ∀ e ∈ edgesOf closed pts, t.nullDistance ≤ eucl e.1 e.2 := by
          rw [← segPairs_edgesOf h2p]
          unfold polyInterPoly at hi
          rcases hp : polySegs t (segPairs closed pts) with segs | _ | _ <;> rw [hp] at hi
          · exact (Pip.polySegs_spec t _ _ hp).2
          · cases hi
          · cases hi
        obtain ⟨l, hl, rfl⟩ := polyInterPoly_eq hi
        rw [segPairs_edgesOf h2p] at hl
        obtain ⟨m1, -⟩ := concatRes_ok _ _ hl
        intro q hq
        obtain ⟨e, he, hqe⟩ := extent_poly h2p hq
        obtain ⟨r, hr, hr'⟩ := m1 _ (List.mem_map_of_mem (f := fun e : Seg => fixOrder e.1 e.2) he)
        have hnil : r = [] := by
          rw [List.eq_nil_iff_forall_not_mem]; intro x hx; cases hr' x hx
        subst hnil
        have hmem : (fixOrder e.1 e.2).1 ∈ pts := by
          rcases Pip.fixOrder_cases e.1 e.2 with hx | hx <;> rw [hx]
          · exact (edgesOf_mem he).1
          · exact (edgesOf_mem he).2
        obtain ⟨h3, hge, hE, hF, -⟩ := inside_facts h1 h2 ho (hg _ hmem) (ha _ hmem)
        exact seg_within h1 h2 hge (by rw [Pip.eucl_fix]; exact hlen e he) (clear_fix (hcl e he)) hE hF (polyInterSeg_nil h3 hr) q (Pip.onSeg_fix.2 hqe)
      · cases h
      · cases h
  · cases h
  · cases h

/-- **C78, polyline, answer "not inside" (partial).** Given only when some point of the polyline is outside, or closer to the contour than the null distance. -/
theorem C78_polyline_out_partial (t : Thr ℝ) (h1 : dblEps < t.nullDistance) (h2 : 0 < t.nullAngleValue) (ho : 0 < t.nullOrthogDistance) (outer : List (Pt ℝ))
    (closed : Bool) (pts : List (Pt ℝ)) (hs : isSimple (segInterB t) true outer = true) (h2p : 2 ≤ pts.length)
    (hg : ∀ v ∈ pts, GoodRefs t outer v ∧ FarFromLines t.nullDistance outer v) (hsl : ∀ e ∈ edgesOf closed pts, GoodSeg t e)
    (h : polyInPoly t closed pts outer = .ok false) : ∃ q, Extent (.poly closed pts) q ∧ OutOrNear t.nullDistance outer q := by
  unfold polyInPoly at h
  rw [if_neg (by rw [List.isEmpty_iff]; rintro rfl; simp at h2p)] at h
  rcases ha : allRes (ptInsidePoly t true outer) pts with b | _ | _ <;> rw [ha] at h
  · cases b
    · obtain ⟨v, hv, hf⟩ := allRes_false _ ha
      exact ⟨v, Or.inl hv, Or.inl (outside_facts h1 h2 ho hs (hg v hv).1 (hg v hv).2 hf)⟩
    · rw [allRes_true] at ha
      simp only [Res.bind_ok, if_true] at h
      rcases hi : polyInterPoly t closed pts true outer with i | _ | _ <;> rw [hi] at h
      · simp only [Res.bind_ok, Res.pure_eq, Res.ok.injEq, List.isEmpty_eq_false_iff_exists_mem] at h
        obtain ⟨p, hp⟩ := h
        obtain ⟨l, hl, rfl⟩ := polyInterPoly_eq hi
        rw [segPairs_edgesOf h2p] at hl
        obtain ⟨-, m2⟩ := concatRes_ok _ _ hl
        obtain ⟨a, ha', r, hr, hpr⟩ := m2 p hp
        obtain ⟨e, he, rfl⟩ := List.mem_map.1 ha'
        have hmem := (edgesOf_mem he).1
        obtain ⟨h3, hge, -, -, -⟩ := inside_facts h1 h2 ho (hg _ hmem).1 (ha _ hmem)
        obtain ⟨o, ho', hio⟩ := polyInterSeg_mem h3 hr hpr
        obtain ⟨q, hq, hn⟩ := near_out h1 h2 hge (by rw [Pip.eucl_fix]; exact (hsl e he).1) (Pip.goodSlope_fix (hsl e he).2) ho' hio
        exact ⟨q, edgesOf_extent he (Pip.onSeg_fix.1 hq), hn⟩
      · cases h
      · cases h
  · cases h
  · cases h

/-- **C78, empty polyline.** A polyline without points is inside no polygon, whatever the polygon: the answer is "no", without failure. -/
theorem C78_empty (t : Thr ℝ) (closed : Bool) (outer : List (Pt ℝ)) : polyInPoly t closed [] outer = .ok false := rfl

/-- **C78, rectangle, answer "inside" (partial).** Given only when all the points of the (full) rectangle are inside. -/
theorem C78_rect_partial (t : Thr ℝ) (h1 : dblEps < t.nullDistance) (h2 : 0 < t.nullAngleValue) (ho : 0 < t.nullOrthogDistance) (outer : List (Pt ℝ))
    (r : FRect ℝ) (hr : r.p1.1 ≤ r.p2.1 ∧ r.p1.2 ≤ r.p2.2) (hg : ∀ v ∈ r.get4Pts, GoodRefs t outer v) (hcl : ∀ e ∈ rectSides r, ClearCrossings t outer e)
    (h : rectInPoly t r outer = .ok true) : Within (.rect r) (InPolygon outer) := by
  unfold rectInPoly at h
  rcases hrs : rectSegs t r with rs | _ | _ <;> rw [hrs] at h
  · simp only [Res.bind_ok] at h
    obtain ⟨rfl, hlen⟩ := rectSegs_spec hrs
    rcases ha : allRes (fun s => do
      let i ← polyInterSeg t true outer s
      pure i.isEmpty) ((rectSides r).map (fun e => fixOrder e.1 e.2)) with b | _ | _ <;> rw [ha] at h
    · cases b
      · cases h
      · simp only [Res.bind_ok, if_true] at h
        rw [allRes_true] at ha h
        obtain ⟨-, -, -, -, lo, hi, hT⟩ := inside_facts h1 h2 ho (hg r.p1 (by simp [FRect.get4Pts])) (h r.p1 (by simp [FRect.get4Pts]))
        intro q hq
        refine rect_inside hT hr ?_ q hq
        intro e he x hx
        have hmem : (fixOrder e.1 e.2).1 ∈ r.get4Pts := by
          have := rectSides_mem he
          rcases Pip.fixOrder_cases e.1 e.2 with hx | hx <;> rw [hx]
          · exact this.1
          · exact this.2
        obtain ⟨h3, hge, hE, hF, -⟩ := inside_facts h1 h2 ho (hg _ hmem) (h _ hmem)
        have hn := ha _ (List.mem_map_of_mem (f := fun e : Seg => fixOrder e.1 e.2) he)
        rcases hi : polyInterSeg t true outer (fixOrder e.1 e.2) with i | _ | _ <;> rw [hi] at hn
        · simp only [Res.bind_ok, Res.pure_eq, Res.ok.injEq, List.isEmpty_iff] at hn
          subst hn
          exact seg_within h1 h2 hge (by rw [Pip.eucl_fix]; exact hlen e he) (clear_fix (hcl e he)) hE hF (polyInterSeg_nil h3 hi) x (Pip.onSeg_fix.2 hx)
        · cases hn
        · cases hn
    · cases h
    · cases h
  · cases h
  · cases h

/-- **C78, rectangle, answer "not inside" (partial).** Given only when some point of the rectangle is outside, or closer to the contour than the null distance. -/
theorem C78_rect_out_partial (t : Thr ℝ) (h1 : dblEps < t.nullDistance) (h2 : 0 < t.nullAngleValue) (ho : 0 < t.nullOrthogDistance) (hd : t.nullDenom ≤ 1) (outer : List (Pt ℝ))
    (r : FRect ℝ) (hr : r.p1.1 ≤ r.p2.1 ∧ r.p1.2 ≤ r.p2.2) (hs : isSimple (segInterB t) true outer = true) (hge : ∀ e ∈ polyEdges outer, GoodSeg t e)
    (hg : ∀ v ∈ r.get4Pts, GoodRefs t outer v ∧ FarFromLines t.nullDistance outer v)
    (h : rectInPoly t r outer = .ok false) : ∃ q, Extent (.rect r) q ∧ OutOrNear t.nullDistance outer q := by
  have h3 : 3 ≤ outer.length := by
    rw [isSimple_eq] at hs
    simp only [Bool.and_eq_true, decide_eq_true_eq] at hs
    exact hs.1
  unfold rectInPoly at h
  rcases hrs : rectSegs t r with rs | _ | _ <;> rw [hrs] at h
  · simp only [Res.bind_ok] at h
    obtain ⟨rfl, hlen⟩ := rectSegs_spec hrs
    rcases ha : allRes (fun s => do
      let i ← polyInterSeg t true outer s
      pure i.isEmpty) ((rectSides r).map (fun e => fixOrder e.1 e.2)) with b | _ | _ <;> rw [ha] at h
    · cases b
      · obtain ⟨a, ha', hf⟩ := allRes_false _ ha
        obtain ⟨e, he, rfl⟩ := List.mem_map.1 ha'
        rcases hi : polyInterSeg t true outer (fixOrder e.1 e.2) with i | _ | _ <;> rw [hi] at hf
        · simp only [Res.bind_ok, Res.pure_eq, Res.ok.injEq, List.isEmpty_eq_false_iff_exists_mem] at hf
          obtain ⟨p, hp⟩ := hf
          obtain ⟨o, ho', hio⟩ := polyInterSeg_mem h3 hi hp
          obtain ⟨q, hq, hn⟩ := near_out h1 h2 hge (by rw [Pip.eucl_fix]; exact hlen e he) (Pip.goodSlope_fix (rectSides_slope hd he)) ho' hio
          exact ⟨q, rectSides_extent hr he (Pip.onSeg_fix.1 hq), hn⟩
        · cases hf
        · cases hf
      · simp only [Res.bind_ok, if_true] at h
        obtain ⟨v, hv, hf⟩ := allRes_false _ h
        refine ⟨v, ?_, Or.inl (outside_facts h1 h2 ho hs (hg v hv).1 (hg v hv).2 hf)⟩
        simp only [FRect.get4Pts, List.mem_cons, List.not_mem_nil, or_false] at hv
        rcases hv with rfl | rfl | rfl | rfl <;> simp [Extent, hr.1, hr.2]
    · cases h
    · cases h
  · cases h
  · cases h

/-- The hypotheses of C78 are met: a segment, a polyline, a rectangle inside the square of side 4. -/
example : segInPoly stdR [((0, 0) : Pt ℝ), (4, 0), (4, 4), (0, 4)] ((1, 2), (2, 5 / 2)) = .ok true := by
  have hg : GoodSeg stdR ((1, 2), (2, 5 / 2)) := Pip.goodSeg_of (by norm_num) (by norm_num [abs_of_neg])
  obtain ⟨b, hb⟩ := C78_segment_answers stdR std1 (by norm_num [stdR]) sq4 ((1, 2), (2, 5 / 2)) hg.1 (by
    simp only [List.forall_mem_cons, List.not_mem_nil, false_imp_iff, implies_true, and_true]
    exact ⟨⟨true, sq4_in (Or.inl rfl) (Or.inl rfl)⟩, ⟨true, sq4_in (Or.inr rfl) (Or.inr rfl)⟩⟩)
  cases b
  · exfalso
    obtain ⟨q, ⟨k, k0, k1, rfl⟩, hq⟩ := C78_segment_out_partial stdR std1 (by norm_num [stdR]) (by norm_num [stdR]) sq4 ((1, 2), (2, 5 / 2)) sq4_simple hg.1 hg.2 (by
      simp only [List.forall_mem_cons, List.not_mem_nil, false_imp_iff, implies_true, and_true]
      exact ⟨⟨sq4_refs (Or.inl rfl) (Or.inl rfl), sq4_lines (by norm_num)⟩, sq4_refs (Or.inr rfl) (Or.inr rfl), sq4_lines (by norm_num)⟩) hb
    exact sq4_far (x := 1 + k * (2 - 1)) (y := 2 + k * (5 / 2 - 2)) ⟨by linarith, by linarith, by linarith, by linarith⟩ hq
  · exact hb

example : rectInPoly stdR ⟨(1, 2), (2, 5 / 2)⟩ [((0, 0) : Pt ℝ), (4, 0), (4, 4), (0, 4)] = .ok true := by
  have hr : (⟨(1, 2), (2, 5 / 2)⟩ : FRect ℝ).p1.1 ≤ (⟨(1, 2), (2, 5 / 2)⟩ : FRect ℝ).p2.1 ∧ (⟨(1, 2), (2, 5 / 2)⟩ : FRect ℝ).p1.2 ≤ (⟨(1, 2), (2, 5 / 2)⟩ : FRect ℝ).p2.2 := by norm_num
  have hv : ∀ v ∈ (⟨(1, 2), (2, 5 / 2)⟩ : FRect ℝ).get4Pts, GoodRefs stdR sq4 v ∧ FarFromLines stdR.nullDistance sq4 v := by
    simp only [FRect.get4Pts, List.forall_mem_cons, List.not_mem_nil, false_imp_iff, implies_true, and_true]
    exact ⟨⟨sq4_refs (Or.inl rfl) (Or.inl rfl), sq4_lines (by norm_num)⟩, ⟨sq4_refs (Or.inl rfl) (Or.inr rfl), sq4_lines (by norm_num)⟩,
      ⟨sq4_refs (Or.inr rfl) (Or.inr rfl), sq4_lines (by norm_num)⟩, sq4_refs (Or.inr rfl) (Or.inl rfl), sq4_lines (by norm_num)⟩
  have hlen : ∀ e ∈ rectSides ⟨(1, 2), (2, 5 / 2)⟩, stdR.nullDistance ≤ eucl e.1 e.2 := by
    simp only [rectSides, List.forall_mem_cons, List.not_mem_nil, false_imp_iff, implies_true, and_true]
    refine ⟨?_, ?_, ?_, ?_⟩ <;> apply Pip.le_eucl <;> norm_num [stdR]
  obtain ⟨b, hb⟩ := C78_rect_answers stdR std1 sq4 ⟨(1, 2), (2, 5 / 2)⟩ (by norm_num) (fun e he => (sq4_good e he).1) hlen (by
    simp only [FRect.get4Pts, List.forall_mem_cons, List.not_mem_nil, false_imp_iff, implies_true, and_true]
    exact ⟨⟨true, sq4_in (Or.inl rfl) (Or.inl rfl)⟩, ⟨true, sq4_in (Or.inl rfl) (Or.inr rfl)⟩,
      ⟨true, sq4_in (Or.inr rfl) (Or.inr rfl)⟩, ⟨true, sq4_in (Or.inr rfl) (Or.inl rfl)⟩⟩)
  cases b
  · exfalso
    obtain ⟨⟨x, y⟩, ⟨a, b, c, d⟩, hq⟩ := C78_rect_out_partial stdR std1 (by norm_num [stdR]) (by norm_num [stdR]) (by norm_num [stdR]) sq4
      ⟨(1, 2), (2, 5 / 2)⟩ hr sq4_simple sq4_good hv hb
    simp only at a b c d
    exact sq4_far ⟨a, by linarith, by linarith, by linarith⟩ hq
  · exact hb

/-- The hypothesis on crossings is met by segments that stay far from the contour. -/
example : ClearCrossings stdR [((0, 0) : Pt ℝ), (4, 0), (4, 4), (0, 4)] ((1, 2), (2, 5 / 2)) := by
  refine ⟨(Pip.goodSeg_of (by norm_num) (by norm_num [abs_of_neg])).2, ?_⟩
  rintro e he ⟨q, hq, k, k0, k1, rfl⟩
  exact absurd (Or.inr ⟨_, ⟨e, he, hq⟩, by simp only; rw [eucl_self]; norm_num [stdR]⟩)
    (sq4_far (x := 1 + k * (2 - 1)) (y := 2 + k * (5 / 2 - 2)) ⟨by linarith, by linarith, by linarith, by linarith⟩)

/-- **C78 is false** next to the supporting line of an edge: all the points of the segment are inside the polygon and farther than 1/4 from its contour, but
it is said not inside. -/
theorem C78_false : ∃ (outer : List (Pt ℝ)) (s : Seg), isSimple (segInterB stdR) true outer = true ∧ stdR.nullDistance ≤ eucl s.1 s.2 ∧
    Within (.seg s.1 s.2) (fun q => EvenOdd outer q ∧ FarFromContour (1 / 4) outer q) ∧ segInPoly stdR outer s = .ok false := by
  obtain ⟨pts, p, hs, he, hf, hn⟩ := C74_false
  have hlen : eucl p (p.1 + 1 / 4, p.2) = 1 / 4 := by rw [eucl_eq_iff (by norm_num)]; ring
  refine ⟨pts, (p, (p.1 + 1 / 4, p.2)), hs, ?_, ?_, ?_⟩
  · simp only; rw [hlen]; norm_num [stdR]
  · rintro q ⟨k, k0, k1, rfl⟩
    have hq : eucl (p.1 + k * (p.1 + 1 / 4 - p.1), p.2 + k * (p.2 - p.2)) p ≤ 1 / 4 := by
      rw [eucl_le_iff (by norm_num)]
      simp only
      nlinarith
    refine ⟨disk_inside (r := 1 / 4) he (fun e hm x hx => ?_) _ hq, fun e hm x hx => ?_⟩
    · have := hf e hm x hx; rw [eucl_comm] at this; linarith
    · have h3 := hf e hm x hx
      have h4 := eucl_triangle p (p.1 + k * (p.1 + 1 / 4 - p.1), p.2 + k * (p.2 - p.2)) x
      rw [eucl_comm p (p.1 + k * (p.1 + 1 / 4 - p.1), p.2 + k * (p.2 - p.2))] at h4
      simp only
      linarith
  · unfold segInPoly
    simp only [allRes, hn, Res.bind_ok]
    rfl

/-- **C78 is false for small angles**: the segment from (-500, 0.2) to (1000, -0.4) is said inside this polygon, although it crosses a notch: the origin is on
the segment, and outside of the polygon (at a distance 0.09 of the contour). -/
theorem C78_shallow_false : ∃ (outer : List (Pt ℝ)) (s : Seg) (q : Pt ℝ), isSimple (segInterB stdR) true outer = true ∧ segMake stdR false s.1 s.2 = .ok s ∧
    OnSeg s.1 s.2 q ∧ ¬ EvenOdd outer q ∧ FarFromContour (9 / 100) outer q ∧ segInPoly stdR outer s = .ok true := by
  have h1 := std1
  have g0 : GoodSeg stdR ((-3000, -3000), (3000, -3000)) := Pip.goodSeg_of (by norm_num) (by norm_num)
  have g1 : GoodSeg stdR ((3000, -3000), (3000, -2/5)) := Pip.goodSeg_of (by norm_num) (by norm_num)
  have g2 : GoodSeg stdR ((3000, -2/5), (-1000, 0)) := Pip.goodSeg_of (by norm_num) (by norm_num [abs_of_neg])
  have g3 : GoodSeg stdR ((-1000, 0), (3000, 2/5)) := Pip.goodSeg_of (by norm_num) (by norm_num [abs_of_neg])
  have g4 : GoodSeg stdR ((3000, 2/5), (3000, 3000)) := Pip.goodSeg_of (by norm_num) (by norm_num [abs_of_neg])
  have g5 : GoodSeg stdR ((3000, 3000), (-3000, 3000)) := Pip.goodSeg_of (by norm_num) (by norm_num)
  have g6 : GoodSeg stdR ((-3000, 3000), (-3000, -3000)) := Pip.goodSeg_of (by norm_num) (by norm_num)
  have gs : GoodSeg stdR ((-500, 1/5), (1000, -2/5)) := Pip.goodSeg_of (by norm_num) (by norm_num [abs_of_pos])
  have gr : GoodSeg stdR ((-500, 1/5), (-9000, 0)) := Pip.goodSeg_of (by norm_num) (by norm_num [abs_of_pos])
  have gr' : GoodSeg stdR ((1000, -2/5), (-9000, 0)) := Pip.goodSeg_of (by norm_num) (by norm_num [abs_of_neg])
  have hed : polyEdges [((-3000, -3000) : Pt ℝ), (3000, -3000), (3000, -2/5), (-1000, 0), (3000, 2/5), (3000, 3000), (-3000, 3000)] =
    [((-3000, -3000), (3000, -3000)), ((3000, -3000), (3000, -2/5)), ((3000, -2/5), (-1000, 0)), ((-1000, 0), (3000, 2/5)), ((3000, 2/5), (3000, 3000)),
      ((3000, 3000), (-3000, 3000)), ((-3000, 3000), (-3000, -3000))] := rfl
  have hsimple : isSimple (segInterB stdR) true [((-3000, -3000) : Pt ℝ), (3000, -3000), (3000, -2/5), (-1000, 0), (3000, 2/5), (3000, 3000), (-3000, 3000)] = true := by
    have s20 := (Pip.segInterB_sep h1 (by norm_num [stdR]) g2 g0 (Or.inr (Or.inr (Or.inl ⟨-3000, by norm_num [stdR]⟩)))).1
    have s30 := (Pip.segInterB_sep h1 (by norm_num [stdR]) g3 g0 (Or.inr (Or.inr (Or.inl ⟨-3000, by norm_num [stdR]⟩)))).1
    have s40 := (Pip.segInterB_sep h1 (by norm_num [stdR]) g4 g0 (Or.inr (Or.inr (Or.inl ⟨-3000, by norm_num [stdR]⟩)))).1
    have s50 := (Pip.segInterB_sep h1 (by norm_num [stdR]) g5 g0 (Or.inr (Or.inr (Or.inl ⟨-3000, by norm_num [stdR]⟩)))).1
    have s31 := (Pip.segInterB_sep h1 (by norm_num [stdR]) g3 g1 (Or.inr (Or.inr (Or.inl ⟨-2/5, by norm_num [stdR]⟩)))).1
    have s41 := (Pip.segInterB_sep h1 (by norm_num [stdR]) g4 g1 (Or.inr (Or.inr (Or.inl ⟨-2/5, by norm_num [stdR]⟩)))).1
    have s51 := (Pip.segInterB_sep h1 (by norm_num [stdR]) g5 g1 (Or.inr (Or.inr (Or.inl ⟨-2/5, by norm_num [stdR]⟩)))).1
    have s61 := (Pip.segInterB_sep h1 (by norm_num [stdR]) g6 g1 (Or.inr (Or.inl ⟨-3000, by norm_num [stdR]⟩))).1
    have s42 := (Pip.segInterB_sep h1 (by norm_num [stdR]) g4 g2 (Or.inr (Or.inr (Or.inl ⟨0, by norm_num [stdR]⟩)))).1
    have s52 := (Pip.segInterB_sep h1 (by norm_num [stdR]) g5 g2 (Or.inr (Or.inr (Or.inl ⟨0, by norm_num [stdR]⟩)))).1
    have s62 := (Pip.segInterB_sep h1 (by norm_num [stdR]) g6 g2 (Or.inr (Or.inl ⟨-3000, by norm_num [stdR]⟩))).1
    have s53 := (Pip.segInterB_sep h1 (by norm_num [stdR]) g5 g3 (Or.inr (Or.inr (Or.inl ⟨2/5, by norm_num [stdR]⟩)))).1
    have s63 := (Pip.segInterB_sep h1 (by norm_num [stdR]) g6 g3 (Or.inr (Or.inl ⟨-3000, by norm_num [stdR]⟩))).1
    have s64 := (Pip.segInterB_sep h1 (by norm_num [stdR]) g6 g4 (Or.inr (Or.inl ⟨-3000, by norm_num [stdR]⟩))).1
    simp [isSimple, Pip.segPairs_edges, hed, noCross, List.range_succ, List.range', s20, s30, s40, s50, s31, s41, s51, s61, s42, s52, s62, s53, s63, s64]
  have hgood : ∀ e ∈ polyEdges [((-3000, -3000) : Pt ℝ), (3000, -3000), (3000, -2/5), (-1000, 0), (3000, 2/5), (3000, 3000), (-3000, 3000)], GoodSeg stdR e := by
    rw [hed]
    simp only [List.forall_mem_cons, List.not_mem_nil, false_imp_iff, implies_true, and_true]
    exact ⟨g0, g1, g2, g3, g4, g5, g6⟩
  have hbox : IsTightBox (fun q => q ∈ [((-3000, -3000) : Pt ℝ), (3000, -3000), (3000, -2/5), (-1000, 0), (3000, 2/5), (3000, 3000), (-3000, 3000)]) (-3000, -3000) (3000, 3000) := by
    refine ⟨?_, ?_, ?_, ?_, ?_⟩
    · simp only [List.forall_mem_cons, List.not_mem_nil, false_imp_iff, implies_true, and_true]; norm_num
    · exact ⟨(-3000, -3000), by simp⟩
    · exact ⟨(3000, -3000), by simp⟩
    · exact ⟨(-3000, -3000), by simp⟩
    · exact ⟨(3000, 3000), by simp⟩
  have f6 : fixOrder ((-3000, 3000) : Pt ℝ) (-3000, -3000) = ((-3000, -3000), (-3000, 3000)) := by rw [fixOrder_comm]; exact fixOrder_of_lt (by norm_num [LexLt])
  have fr : fixOrder ((-500, 1/5) : Pt ℝ) (-9000, 0) = ((-9000, 0), (-500, 1/5)) := by rw [fixOrder_comm]; exact fixOrder_of_lt (by norm_num [LexLt])
  have fr' : fixOrder ((1000, -2/5) : Pt ℝ) (-9000, 0) = ((-9000, 0), (1000, -2/5)) := by rw [fixOrder_comm]; exact fixOrder_of_lt (by norm_num [LexLt])
  have href : refPoint (-3000, -3000) (3000, 3000) 1 = (-9000, 0) := by unfold refPoint; norm_num
  have hlines : ∀ p : Pt ℝ, p = (-500, 1/5) ∨ p = (1000, -2/5) →
      FarFromLines stdR.nullDistance [((-3000, -3000) : Pt ℝ), (3000, -3000), (3000, -2/5), (-1000, 0), (3000, 2/5), (3000, 3000), (-3000, 3000)] p := by
    intro p hp
    unfold FarFromLines
    rw [hed]
    simp only [List.forall_mem_cons, List.not_mem_nil, false_imp_iff, implies_true, and_true]
    rcases hp with rfl | rfl
    all_goals
      refine ⟨?_, ?_, ?_, ?_, ?_, ?_, ?_⟩
      all_goals
        intro k
        apply Pip.far_of_cross <;> norm_num [stdR]
  have hin1 : ptInsidePoly stdR true [((-3000, -3000) : Pt ℝ), (3000, -3000), (3000, -2/5), (-1000, 0), (3000, 2/5), (3000, 3000), (-3000, 3000)] (-500, 1/5) = .ok true := by
    have i0 := (Pip.segInterB_sep h1 (by norm_num [stdR]) g0 gr (Or.inr (Or.inr (Or.inr ⟨-3000, by norm_num [stdR]⟩)))).2
    have i1 := (Pip.segInterB_sep h1 (by norm_num [stdR]) g1 gr (Or.inl ⟨-500, by norm_num [stdR]⟩)).2
    have i2 := Pip.segInter_par h1 g2 gr (Pip.angle_lt rfl (by norm_num) (by norm_num))
    have i3 := Pip.segInter_par h1 g3 gr (Pip.angle_lt rfl (by norm_num) (by norm_num))
    have i4 := (Pip.segInterB_sep h1 (by norm_num [stdR]) g4 gr (Or.inl ⟨-500, by norm_num [stdR]⟩)).2
    have i5 := (Pip.segInterB_sep h1 (by norm_num [stdR]) g5 gr (Or.inr (Or.inr (Or.inl ⟨1/5, by norm_num [stdR]⟩)))).2
    have i6 := C22_complete_partial stdR h1 (by norm_num [stdR]) _ _ (goodSeg_fix g6) (goodSeg_fix gr) (by
      simp only [f6, fr]
      rintro ⟨hh, -⟩
      rw [PtEq, ptDist_eucl, eucl_lt_iff (by norm_num [stdR])] at hh
      norm_num [stdR] at hh) (by rw [Pip.segAngle_fix]; exact Pip.angle_ge rfl (by norm_num) (by norm_num)) (-3000, 12/85)
      (Pip.onSeg_fix.2 ⟨(3000 - 12/85) / 6000, by norm_num, by norm_num, by norm_num⟩) (Pip.onSeg_fix.2 ⟨5/17, by norm_num, by norm_num, by norm_num⟩)
    have := Pip.answer_first (t := stdR) (p := (-500, 1/5)) (c := 1) h1 (by norm_num [stdR]) hsimple hbox
      (by norm_num [stdR]) (by norm_num [stdR]) (by norm_num [stdR]) (by norm_num [stdR]) (by norm_num) hgood (hlines _ (Or.inl rfl)) ?_ ?_
    · simpa using this
    · intro v hm
      rw [Pip.ref_far (by norm_num) (by norm_num), href]
      rintro q ⟨s, s0, s1, rfl⟩
      apply Pip.le_eucl
      simp only [List.mem_cons, List.not_mem_nil, or_false] at hm
      rcases hm with rfl | rfl | rfl | rfl | rfl | rfl | rfl <;> (simp only [stdR]; nlinarith [sq_nonneg (s - 1/17)])
    · rw [href, hed]
      simp only [List.map_cons, List.map_nil, pipCount, i0, i1, i2, i3, i4, i5, i6, Res.bind_ok, Res.pure_eq]
      rfl
  have hin2 : ptInsidePoly stdR true [((-3000, -3000) : Pt ℝ), (3000, -3000), (3000, -2/5), (-1000, 0), (3000, 2/5), (3000, 3000), (-3000, 3000)] (1000, -2/5) = .ok true := by
    have i0 := (Pip.segInterB_sep h1 (by norm_num [stdR]) g0 gr' (Or.inr (Or.inr (Or.inr ⟨-3000, by norm_num [stdR]⟩)))).2
    have i1 := (Pip.segInterB_sep h1 (by norm_num [stdR]) g1 gr' (Or.inl ⟨1000, by norm_num [stdR]⟩)).2
    have i2 := Pip.segInter_par h1 g2 gr' (Pip.angle_lt rfl (by norm_num) (by norm_num))
    have i3 := Pip.segInter_par h1 g3 gr' (Pip.angle_lt rfl (by norm_num) (by norm_num))
    have i4 := (Pip.segInterB_sep h1 (by norm_num [stdR]) g4 gr' (Or.inl ⟨1000, by norm_num [stdR]⟩)).2
    have i5 := (Pip.segInterB_sep h1 (by norm_num [stdR]) g5 gr' (Or.inr (Or.inr (Or.inl ⟨0, by norm_num [stdR]⟩)))).2
    have i6 := C22_complete_partial stdR h1 (by norm_num [stdR]) _ _ (goodSeg_fix g6) (goodSeg_fix gr') (by
      simp only [f6, fr']
      rintro ⟨hh, -⟩
      rw [PtEq, ptDist_eucl, eucl_lt_iff (by norm_num [stdR])] at hh
      norm_num [stdR] at hh) (by rw [Pip.segAngle_fix]; exact Pip.angle_ge rfl (by norm_num) (by norm_num)) (-3000, -6/25)
      (Pip.onSeg_fix.2 ⟨(3000 + 6/25) / 6000, by norm_num, by norm_num, by norm_num⟩) (Pip.onSeg_fix.2 ⟨2/5, by norm_num, by norm_num, by norm_num⟩)
    have := Pip.answer_first (t := stdR) (p := (1000, -2/5)) (c := 1) h1 (by norm_num [stdR]) hsimple hbox
      (by norm_num [stdR]) (by norm_num [stdR]) (by norm_num [stdR]) (by norm_num [stdR]) (by norm_num) hgood (hlines _ (Or.inr rfl)) ?_ ?_
    · simpa using this
    · intro v hm
      rw [Pip.ref_far (by norm_num) (by norm_num), href]
      rintro q ⟨s, s0, s1, rfl⟩
      apply Pip.le_eucl
      simp only [List.mem_cons, List.not_mem_nil, or_false] at hm
      rcases hm with rfl | rfl | rfl | rfl | rfl | rfl | rfl <;> (simp only [stdR]; nlinarith [sq_nonneg (s - 1/5)])
    · rw [href, hed]
      simp only [List.map_cons, List.map_nil, pipCount, i0, i1, i2, i3, i4, i5, i6, Res.bind_ok, Res.pure_eq]
      rfl
  refine ⟨_, ((-500, 1/5), (1000, -2/5)), (0, 0), hsimple, ?_, ⟨1/3, by norm_num, by norm_num, by norm_num⟩, ?_, ?_, ?_⟩
  · rw [segMake_eq false gs.1]
    simp only [Bool.false_eq_true, if_false]
    rw [fixOrder_of_lt (by norm_num [LexLt])]
  · unfold EvenOdd
    rw [hed]
    norm_num [CrossesRay, List.countP_cons]
  · unfold FarFromContour
    rw [hed]
    simp only [List.forall_mem_cons, List.not_mem_nil, false_imp_iff, implies_true, and_true]
    refine ⟨?_, ?_, ?_, ?_, ?_, ?_, ?_⟩
    all_goals
      rintro q ⟨k, -, -, rfl⟩
      refine Pip.far_of_cross (e := (_, _)) ?_ ?_ k <;> norm_num
  · have hfix : fixOrder ((-500, 1/5) : Pt ℝ) (1000, -2/5) = ((-500, 1/5), (1000, -2/5)) := fixOrder_of_lt (by norm_num [LexLt])
    have i0 := (Pip.segInterB_sep h1 (by norm_num [stdR]) g0 gs (Or.inr (Or.inr (Or.inr ⟨-3000, by norm_num [stdR]⟩)))).2
    have i1 := (Pip.segInterB_sep h1 (by norm_num [stdR]) g1 gs (Or.inl ⟨1000, by norm_num [stdR]⟩)).2
    have i2 := Pip.segInter_par h1 g2 gs (Pip.angle_lt rfl (by norm_num) (by norm_num))
    have i3 := Pip.segInter_par h1 g3 gs (Pip.angle_lt rfl (by norm_num) (by norm_num))
    have i4 := (Pip.segInterB_sep h1 (by norm_num [stdR]) g4 gs (Or.inl ⟨1000, by norm_num [stdR]⟩)).2
    have i5 := (Pip.segInterB_sep h1 (by norm_num [stdR]) g5 gs (Or.inr (Or.inr (Or.inl ⟨1/5, by norm_num [stdR]⟩)))).2
    have i6 := (Pip.segInterB_sep h1 (by norm_num [stdR]) g6 gs (Or.inr (Or.inl ⟨-3000, by norm_num [stdR]⟩))).2
    simp only [hfix] at i0 i1 i2 i3 i4 i5 i6
    unfold segInPoly
    simp only [allRes, hin1, hin2, Res.bind_ok, if_true]
    rw [Pip.segPairs_edges (by norm_num), Pip.polySegs_ok _ _ (fun e he => (hgood e he).1), hed]
    simp only [List.map_cons, List.map_nil, noInter, allRes, i0, i1, i2, i3, i4, i5, i6, Res.bind_ok, Res.pure_eq]
    rfl

end H2d.Props
