import Verif.Lemmas.PipRetry
import Mathlib.Tactic.IntervalCases

/-!
# Point inside a polygon: property C74
-/

set_option linter.unusedSimpArgs false

namespace H2d.Props
open H2d H2d.Spec H2d.Pip

/-- **C74**: for a simple polygon and a point that is not close to a *supporting line* of the polygon, when an answer is given it is
the one of the even-odd rule (`EvenOdd`).

Missing: points close to the supporting line of an edge but not to the contour (`C74_false`); calls that end with an exception
(`C74_throw_false`); edges that cross a reference segment at less than the null angle (`C74_shallow_false`) or nearly horizontal
(`C01_false`), excluded by `GoodRefs`. -/
theorem C74_partial (t : Thr ℝ) (h1 : dblEps < t.nullDistance) (h2 : 0 < t.nullAngleValue) (ho : 0 < t.nullOrthogDistance) (pts : List (Pt ℝ)) (p : Pt ℝ)
    (hs : isSimple (segInterB t) true pts = true) (hg : GoodRefs t pts p) (hf : FarFromLines t.nullDistance pts p) (b : Bool)
    (h : ptInsidePoly t true pts p = .ok b) : b = true ↔ EvenOdd pts p := by
  have h0 := dblEps_pos
  obtain ⟨-, lo, hi, hT, w1, w2, hc⟩ := answer_cases ho hs h
  rcases hc with ⟨rfl, hout⟩ | ⟨hin, hlen, ⟨rfl, hn⟩ | ⟨hn, j, j1, j5, hd, hv, c, hc, hb⟩⟩
  · constructor
    · intro hh; cases hh
    · intro he
      obtain ⟨f1, f2⟩ := far_notOn (by linarith) hf
      exact absurd (evenOdd_box hT f1 f2 he) hout
  · rw [nearLine_eq_false h1 _ (fun e he => ⟨hlen e he, hg.1 e he⟩) hf] at hn
    cases hn
  · exact (last_step h1 h2 hT w1 hg hin hlen hn j1 j5 hd hv hc hb).2

/-- **C74, answer "inside"**: it is given only for points inside by the even-odd rule, and not close to any edge. -/
theorem C74_sound_partial (t : Thr ℝ) (h1 : dblEps < t.nullDistance) (h2 : 0 < t.nullAngleValue) (ho : 0 < t.nullOrthogDistance) (pts : List (Pt ℝ)) (p : Pt ℝ)
    (hg : GoodRefs t pts p) (h : ptInsidePoly t true pts p = .ok true) :
    EvenOdd pts p ∧ FarFromLines t.nullDistance pts p ∧ FarFromContour t.nullDistance pts p := by
  have hs : isSimple (segInterB t) true pts = true := by
    by_contra hc
    unfold ptInsidePoly at h
    rw [Bool.not_eq_true] at hc
    rw [hc] at h
    simp at h
  obtain ⟨-, lo, hi, hT, w1, w2, hc⟩ := answer_cases ho hs h
  rcases hc with ⟨hb, hout⟩ | ⟨hin, hlen, ⟨hb, hn⟩ | ⟨hn, j, j1, j5, hd, hv, c, hc, hb⟩⟩
  · cases hb
  · cases hb
  · obtain ⟨hf, he⟩ := last_step h1 h2 hT w1 hg hin hlen hn j1 j5 hd hv hc hb
    refine ⟨he.1 rfl, hf, ?_⟩
    rintro e hm q ⟨s, -, -, rfl⟩
    exact hf e hm s

/-- A polygon that is not simple, or that is open, has nothing inside. -/
theorem C74_not_simple (t : Thr ℝ) (closed : Bool) (pts : List (Pt ℝ)) (p : Pt ℝ) (h : closed = false ∨ isSimple (segInterB t) closed pts = false) :
    ptInsidePoly t closed pts p = .ok false := by
  have : isSimple (segInterB t) closed pts = false := by
    rcases h with rfl | h
    · unfold isSimple; split_ifs <;> simp_all
    · exact h
  unfold ptInsidePoly
  rw [this]; rfl

/-- **C74, an answer is given** when no vertex is close to the first reference segment; then it is the one of the even-odd rule. -/
theorem C74_answers_partial (t : Thr ℝ) (h1 : dblEps < t.nullDistance) (h2 : 0 < t.nullAngleValue) (ho : 0 < t.nullOrthogDistance) (pts : List (Pt ℝ))
    (p lo hi : Pt ℝ) (hs : isSimple (segInterB t) true pts = true) (hT : IsTightBox (fun q => q ∈ pts) lo hi)
    (w1 : max t.nullDistance t.nullOrthogDistance ≤ hi.1 - lo.1) (w2 : max t.nullDistance t.nullOrthogDistance ≤ hi.2 - lo.2)
    (he : ∀ e ∈ polyEdges pts, t.nullDistance ≤ eucl e.1 e.2) (hg : GoodRefs t pts p) (hf : FarFromLines t.nullDistance pts p)
    (hv : ∀ v ∈ pts, ∀ q, OnSeg p (refPoint lo hi 1) q → t.nullDistance ≤ eucl v q) :
    ∃ b, ptInsidePoly t true pts p = .ok b ∧ (b = true ↔ EvenOdd pts p) := by
  have h0 := dblEps_pos
  have w1' := le_trans (le_max_right _ _) w1
  have w2' := le_trans (le_max_right _ _) w2
  replace w1 := le_trans (le_max_left _ _) w1
  replace w2 := le_trans (le_max_left _ _) w2
  suffices hex : ∃ b, ptInsidePoly t true pts p = .ok b by
    obtain ⟨b, hb⟩ := hex
    exact ⟨b, hb, C74_partial t h1 h2 ho pts p hs hg hf b hb⟩
  by_cases hin : lo.1 < p.1 ∧ p.1 < hi.1 ∧ lo.2 < p.2 ∧ p.2 < hi.2
  · have hd : t.nullDistance ≤ eucl p (refPoint lo hi 1) := by
      apply le_eucl
      unfold refPoint
      simp only
      nlinarith [sq_nonneg (p.2 - (2 * lo.2 - hi.2 + 3 * (hi.2 - lo.2) / 2 ^ 1)), hin.1]
    obtain ⟨c, hc⟩ := pipCount_ok (t := t) h1 (ref := fixOrder p (refPoint lo hi 1)) (by rw [eucl_fix]; exact hd) (polyEdges pts) he
    exact ⟨_, answer_first h1 ho hs hT w1 w2 w1' w2' hin (fun e hm => ⟨he e hm, hg.1 e hm⟩) hf
      (fun v hm => (ref_far hin.1 (by linarith)).2 (hv v hm)) hc⟩
  · have h3 : 3 ≤ pts.length := by
      rw [isSimple_eq] at hs
      simp only [Bool.and_eq_true, decide_eq_true_eq] at hs
      exact hs.1
    refine ⟨false, ?_⟩
    unfold ptInsidePoly
    rw [hs, polyGetBB_eq (by omega) hT (le_eucl (by nlinarith [sq_nonneg (lo.2 - hi.2)])) w1' w2' (by linarith)]
    simp only [Bool.not_true, Bool.false_eq_true, if_false, Res.bind_ok]
    rw [if_pos]
    · rfl
    · rw [Bool.not_eq_true', ← Bool.not_eq_true, insideRect_iff]; exact hin

/-- **C74, the rounds**: the answer of the even-odd rule is given as soon as no vertex is close to *one of the five* reference segments, whichever it is,
if the bounding box is large enough for its sides to be split four times. -/
theorem C74_rounds_partial (t : Thr ℝ) (h1 : dblEps < t.nullDistance) (h2 : 0 < t.nullAngleValue) (ho : 0 < t.nullOrthogDistance) (pts : List (Pt ℝ))
    (p lo hi : Pt ℝ) (hs : isSimple (segInterB t) true pts = true) (hT : IsTightBox (fun q => q ∈ pts) lo hi)
    (w1 : max (6 * t.nullDistance) t.nullOrthogDistance ≤ hi.1 - lo.1) (w2 : max (6 * t.nullDistance) t.nullOrthogDistance ≤ hi.2 - lo.2)
    (he : ∀ e ∈ polyEdges pts, t.nullDistance ≤ eucl e.1 e.2) (hg : GoodRefs t pts p) (hf : FarFromLines t.nullDistance pts p)
    (hin : lo.1 < p.1 ∧ p.1 < hi.1 ∧ lo.2 < p.2 ∧ p.2 < hi.2)
    (n : ℕ) (n1 : 1 ≤ n) (n5 : n ≤ 5) (hv : ∀ v ∈ pts, ∀ q, OnSeg p (refPoint lo hi n) q → t.nullDistance ≤ eucl v q) :
    ∃ b, ptInsidePoly t true pts p = .ok b ∧ (b = true ↔ EvenOdd pts p) := by
  have h0 := dblEps_pos
  obtain ⟨b, hb⟩ := answer_retry h1 hs hT (le_trans (le_max_left _ _) w1) (le_trans (le_max_left _ _) w2) (le_trans (le_max_right _ _) w1) (le_trans (le_max_right _ _) w2) hin
    (fun e hm => ⟨he e hm, hg.1 e hm⟩) hf n1 n5 (fun v hm => (ref_far hin.1 (by linarith [le_max_right (6 * t.nullDistance) t.nullOrthogDistance])).2 (hv v hm))
  exact ⟨b, hb, C74_partial t h1 h2 ho pts p hs hg hf b hb⟩

/-- **C74, exactly which points are refused by the second step**: a point close to the supporting line of an edge is said outside,
wherever the polygon is. -/
theorem C74_near_line (t : Thr ℝ) (h1 : dblEps < t.nullDistance) (ho : 0 < t.nullOrthogDistance) (pts : List (Pt ℝ)) (p lo hi : Pt ℝ)
    (hT : IsTightBox (fun q => q ∈ pts) lo hi)
    (w1 : max t.nullDistance t.nullOrthogDistance ≤ hi.1 - lo.1) (w2 : max t.nullDistance t.nullOrthogDistance ≤ hi.2 - lo.2)
    (he : ∀ e ∈ polyEdges pts, t.nullDistance ≤ eucl e.1 e.2 ∧ GoodSlope t e.1 e.2) (hn : ¬ FarFromLines t.nullDistance pts p) :
    ptInsidePoly t true pts p = .ok false := by
  have h0 := dblEps_pos
  by_cases hs : isSimple (segInterB t) true pts = true
  swap
  · exact C74_not_simple t true pts p (Or.inr (by simpa using hs))
  have h3 : 3 ≤ pts.length := by
    rw [isSimple_eq] at hs
    simp only [Bool.and_eq_true, decide_eq_true_eq] at hs
    exact hs.1
  have w1' := le_trans (le_max_right _ _) w1
  have w2' := le_trans (le_max_right _ _) w2
  replace w1 := le_trans (le_max_left _ _) w1
  unfold ptInsidePoly
  rw [hs, polyGetBB_eq (by omega) hT (le_eucl (by nlinarith [sq_nonneg (lo.2 - hi.2)])) w1' w2' (by linarith)]
  simp only [Bool.not_true, Bool.false_eq_true, if_false, Res.bind_ok]
  split_ifs with hin
  · rfl
  · rw [segPairs_edges h3, polySegs_ok t _ (fun e h => (he e h).1)]
    simp only [Res.bind_ok]
    unfold FarFromLines at hn
    push Not at hn
    rw [nearLine_eq_true h1 _ he hn]
    rfl

/-- **C74, when an exception is thrown**: a point inside the bounding box and far from the edges, such that each of the five reference
segments (`refPoint`) passes close to a vertex. -/
theorem C74_throw (t : Thr ℝ) (h1 : dblEps < t.nullDistance) (ho : 0 < t.nullOrthogDistance) (pts : List (Pt ℝ)) (p lo hi : Pt ℝ)
    (hs : isSimple (segInterB t) true pts = true) (hT : IsTightBox (fun q => q ∈ pts) lo hi)
    (hin : lo.1 < p.1 ∧ p.1 < hi.1 ∧ lo.2 < p.2 ∧ p.2 < hi.2)
    (hg : ∀ e ∈ polyEdges pts, GoodSlope t e.1 e.2) (hf : FarFromLines t.nullDistance pts p)
    (hv : ∀ n, 1 ≤ n → n ≤ 5 → ∃ v ∈ pts, ∃ q, OnSeg p (refPoint lo hi n) q ∧ eucl v q < t.nullDistance) :
    ptInsidePoly t true pts p = .throw := by
  rcases hr : ptInsidePoly t true pts p with b | _ | _
  · exfalso
    obtain ⟨-, lo', hi', hT', w1, w2, hc⟩ := answer_cases ho hs hr
    obtain ⟨rfl, rfl⟩ := hT.unique hT'
    rcases hc with ⟨hb, hout⟩ | ⟨-, hlen, ⟨hb, hn⟩ | ⟨hn, j, j1, j5, hd, hv', c, hc, hb⟩⟩
    · exact hout hin
    · rw [nearLine_eq_false h1 _ (fun e he => ⟨hlen e he, hg e he⟩) hf] at hn
      cases hn
    · obtain ⟨v, hm, q, hq, hlt⟩ := hv j j1 j5
      exact absurd ((ref_far hin.1 w1).1 (hv' v hm) q hq) (not_le.2 hlt)
  · rfl
  · exact absurd hr (ptInsidePoly_ne_ub _ _ _ _)

/-- **C74 is false next to the supporting line of an edge**: the point (1/2, 1) is inside this L-shaped polygon and at a distance 1/2 from its contour,
but it is said outside. -/
theorem C74_false : ∃ (pts : List (Pt ℝ)) (p : Pt ℝ), isSimple (segInterB stdR) true pts = true ∧ EvenOdd pts p ∧ FarFromContour (1 / 2) pts p ∧
    ptInsidePoly stdR true pts p = .ok false := by
  have h1 : dblEps < stdR.nullDistance := by norm_num [stdR, dblEps]
  have g0 : GoodSeg stdR ((0, 0), (2, 0)) := goodSeg_of (by norm_num) (by norm_num)
  have g1 : GoodSeg stdR ((2, 0), (2, 1)) := goodSeg_of (by norm_num) (by norm_num)
  have g2 : GoodSeg stdR ((2, 1), (1, 1)) := goodSeg_of (by norm_num) (by norm_num)
  have g3 : GoodSeg stdR ((1, 1), (1, 2)) := goodSeg_of (by norm_num) (by norm_num)
  have g4 : GoodSeg stdR ((1, 2), (0, 2)) := goodSeg_of (by norm_num) (by norm_num)
  have g5 : GoodSeg stdR ((0, 2), (0, 0)) := goodSeg_of (by norm_num) (by norm_num)
  have hed : polyEdges [((0, 0) : Pt ℝ), (2, 0), (2, 1), (1, 1), (1, 2), (0, 2)] =
    [((0, 0), (2, 0)), ((2, 0), (2, 1)), ((2, 1), (1, 1)), ((1, 1), (1, 2)), ((1, 2), (0, 2)), ((0, 2), (0, 0))] := rfl
  refine ⟨[(0, 0), (2, 0), (2, 1), (1, 1), (1, 2), (0, 2)], (1 / 2, 1), ?_, ?_, ?_, ?_⟩
  · have s20 := (segInterB_sep h1 (by norm_num [stdR]) g2 g0 (Or.inr (Or.inr (Or.inl ⟨0, by norm_num [stdR]⟩)))).1
    have s30 := (segInterB_sep h1 (by norm_num [stdR]) g3 g0 (Or.inr (Or.inr (Or.inl ⟨0, by norm_num [stdR]⟩)))).1
    have s40 := (segInterB_sep h1 (by norm_num [stdR]) g4 g0 (Or.inr (Or.inr (Or.inl ⟨0, by norm_num [stdR]⟩)))).1
    have s31 := (segInterB_sep h1 (by norm_num [stdR]) g3 g1 (Or.inr (Or.inl ⟨1, by norm_num [stdR]⟩))).1
    have s41 := (segInterB_sep h1 (by norm_num [stdR]) g4 g1 (Or.inr (Or.inl ⟨1, by norm_num [stdR]⟩))).1
    have s51 := (segInterB_sep h1 (by norm_num [stdR]) g5 g1 (Or.inr (Or.inl ⟨1, by norm_num [stdR]⟩))).1
    have s42 := (segInterB_sep h1 (by norm_num [stdR]) g4 g2 (Or.inr (Or.inr (Or.inl ⟨1, by norm_num [stdR]⟩)))).1
    have s52 := (segInterB_sep h1 (by norm_num [stdR]) g5 g2 (Or.inr (Or.inl ⟨0, by norm_num [stdR]⟩))).1
    have s53 := (segInterB_sep h1 (by norm_num [stdR]) g5 g3 (Or.inr (Or.inl ⟨0, by norm_num [stdR]⟩))).1
    simp [isSimple, segPairs_edges, hed, noCross, List.range_succ, List.range', s20, s30, s40, s31, s41, s51, s42, s52, s53]
  · unfold EvenOdd
    rw [hed]
    norm_num [CrossesRay, List.countP_cons]
  · unfold FarFromContour
    rw [hed]
    simp only [List.forall_mem_cons, List.not_mem_nil, false_imp_iff, implies_true, and_true]
    refine ⟨?_, ?_, ?_, ?_, ?_, ?_⟩
    all_goals
      rintro q ⟨s, s0, s1, rfl⟩
      apply le_eucl
      simp only
      nlinarith
  · refine C74_near_line stdR h1 (by norm_num [stdR]) _ _ (0, 0) (2, 2) ⟨?_, ?_, ?_, ?_, ?_⟩ (by norm_num [stdR]) (by norm_num [stdR]) ?_ ?_
    · simp only [List.forall_mem_cons, List.not_mem_nil, false_imp_iff, implies_true, and_true]; norm_num
    · exact ⟨(0, 0), by simp⟩
    · exact ⟨(2, 0), by simp⟩
    · exact ⟨(0, 0), by simp⟩
    · exact ⟨(1, 2), by simp⟩
    · rw [hed]
      simp only [List.forall_mem_cons, List.not_mem_nil, false_imp_iff, implies_true, and_true]
      exact ⟨g0, g1, g2, g3, g4, g5⟩
    · intro hf
      have := hf ((2, 1), (1, 1)) (by rw [hed]; simp) (3 / 2)
      unfold along at this
      norm_num [eucl, stdR] at this

/-- **C74 is false, an exception is thrown**: the origin is inside this simple polygon, at a distance more than 2/5 of its contour, but each of the five
reference segments passes through one of the vertices of the left side. The other sides of the extended bounding box would have given the answer,
but a segment on which a vertex was found close disables all the next ones. -/
theorem C74_throw_false : ∃ (pts : List (Pt ℝ)) (p : Pt ℝ), isSimple (segInterB stdR) true pts = true ∧ EvenOdd pts p ∧ FarFromContour (2 / 5) pts p ∧
    ptInsidePoly stdR true pts p = .throw := by
  have h1 : dblEps < stdR.nullDistance := by norm_num [stdR, dblEps]
  have g0 : GoodSeg stdR ((-1, 0), (-1, -1/2)) := goodSeg_of (by norm_num) (by norm_num)
  have g1 : GoodSeg stdR ((-1, -1/2), (-1, -3/4)) := goodSeg_of (by norm_num) (by norm_num)
  have g2 : GoodSeg stdR ((-1, -3/4), (-1, -7/8)) := goodSeg_of (by norm_num) (by norm_num)
  have g3 : GoodSeg stdR ((-1, -7/8), (-1, -15/16)) := goodSeg_of (by norm_num) (by norm_num)
  have g4 : GoodSeg stdR ((-1, -15/16), (1, -1)) := goodSeg_of (by norm_num) (by norm_num)
  have g5 : GoodSeg stdR ((1, -1), (1, 1)) := goodSeg_of (by norm_num) (by norm_num)
  have g6 : GoodSeg stdR ((1, 1), (-1, 0)) := goodSeg_of (by norm_num) (by norm_num)
  have hed : polyEdges [((-1, 0) : Pt ℝ), (-1, -1/2), (-1, -3/4), (-1, -7/8), (-1, -15/16), (1, -1), (1, 1)] =
    [((-1, 0), (-1, -1/2)), ((-1, -1/2), (-1, -3/4)), ((-1, -3/4), (-1, -7/8)), ((-1, -7/8), (-1, -15/16)), ((-1, -15/16), (1, -1)),
      ((1, -1), (1, 1)), ((1, 1), (-1, 0))] := rfl
  have hsimple : isSimple (segInterB stdR) true [((-1, 0) : Pt ℝ), (-1, -1/2), (-1, -3/4), (-1, -7/8), (-1, -15/16), (1, -1), (1, 1)] = true := by
    have s20 := (segInterB_sep h1 (by norm_num [stdR]) g2 g0 (Or.inr (Or.inr (Or.inr ⟨-3/4, by norm_num [stdR]⟩)))).1
    have s30 := (segInterB_sep h1 (by norm_num [stdR]) g3 g0 (Or.inr (Or.inr (Or.inr ⟨-7/8, by norm_num [stdR]⟩)))).1
    have s40 := (segInterB_sep h1 (by norm_num [stdR]) g4 g0 (Or.inr (Or.inr (Or.inr ⟨-15/16, by norm_num [stdR]⟩)))).1
    have s50 := (segInterB_sep h1 (by norm_num [stdR]) g5 g0 (Or.inl ⟨-1, by norm_num [stdR]⟩)).1
    have s31 := (segInterB_sep h1 (by norm_num [stdR]) g3 g1 (Or.inr (Or.inr (Or.inr ⟨-7/8, by norm_num [stdR]⟩)))).1
    have s41 := (segInterB_sep h1 (by norm_num [stdR]) g4 g1 (Or.inr (Or.inr (Or.inr ⟨-15/16, by norm_num [stdR]⟩)))).1
    have s51 := (segInterB_sep h1 (by norm_num [stdR]) g5 g1 (Or.inl ⟨-1, by norm_num [stdR]⟩)).1
    have s61 := (segInterB_sep h1 (by norm_num [stdR]) g6 g1 (Or.inr (Or.inr (Or.inl ⟨-1/2, by norm_num [stdR]⟩)))).1
    have s42 := (segInterB_sep h1 (by norm_num [stdR]) g4 g2 (Or.inr (Or.inr (Or.inr ⟨-15/16, by norm_num [stdR]⟩)))).1
    have s52 := (segInterB_sep h1 (by norm_num [stdR]) g5 g2 (Or.inl ⟨-1, by norm_num [stdR]⟩)).1
    have s62 := (segInterB_sep h1 (by norm_num [stdR]) g6 g2 (Or.inr (Or.inr (Or.inl ⟨-1/2, by norm_num [stdR]⟩)))).1
    have s53 := (segInterB_sep h1 (by norm_num [stdR]) g5 g3 (Or.inl ⟨-1, by norm_num [stdR]⟩)).1
    have s63 := (segInterB_sep h1 (by norm_num [stdR]) g6 g3 (Or.inr (Or.inr (Or.inl ⟨-1/2, by norm_num [stdR]⟩)))).1
    have s64 := (segInterB_sep h1 (by norm_num [stdR]) g6 g4 (Or.inr (Or.inr (Or.inl ⟨-1/2, by norm_num [stdR]⟩)))).1
    simp [isSimple, segPairs_edges, hed, noCross, List.range_succ, List.range', s20, s30, s40, s50, s31, s41, s51, s61, s42, s52, s62, s53, s63, s64]
  have hfar : FarFromLines (2 / 5) [((-1, 0) : Pt ℝ), (-1, -1/2), (-1, -3/4), (-1, -7/8), (-1, -15/16), (1, -1), (1, 1)] (0, 0) := by
    unfold FarFromLines
    rw [hed]
    simp only [List.forall_mem_cons, List.not_mem_nil, false_imp_iff, implies_true, and_true]
    refine ⟨?_, ?_, ?_, ?_, ?_, ?_, ?_⟩
    all_goals
      intro k
      apply far_of_cross <;> norm_num
  refine ⟨_, (0, 0), hsimple, ?_, ?_, ?_⟩
  · unfold EvenOdd
    rw [hed]
    norm_num [CrossesRay, List.countP_cons]
  · rintro e hm q ⟨s, -, -, rfl⟩
    exact hfar e hm s
  · refine C74_throw stdR h1 (by norm_num [stdR]) _ _ (-1, -1) (1, 1) hsimple ⟨?_, ?_, ?_, ?_, ?_⟩ (by norm_num) ?_ ?_ ?_
    · simp only [List.forall_mem_cons, List.not_mem_nil, false_imp_iff, implies_true, and_true]; norm_num
    · exact ⟨(-1, 0), by simp⟩
    · exact ⟨(1, 1), by simp⟩
    · exact ⟨(1, -1), by simp⟩
    · exact ⟨(1, 1), by simp⟩
    · rw [hed]
      simp only [List.forall_mem_cons, List.not_mem_nil, false_imp_iff, implies_true, and_true]
      exact ⟨g0.2, g1.2, g2.2, g3.2, g4.2, g5.2, g6.2⟩
    · intro e he k
      exact le_trans (by norm_num [stdR]) (hfar e he k)
    · intro n n1 n5
      have key : ∀ y : ℝ, (2 * (-1) - 1 + 3 * (1 - (-1)) / 2 ^ n : ℝ) = 3 * y →
          OnSeg ((0, 0) : Pt ℝ) (refPoint (-1, -1) (1, 1) n) (-1, y) ∧ eucl (-1, y) (-1, y) < stdR.nullDistance := by
        intro y hy
        refine ⟨⟨1 / 3, by norm_num, by norm_num, ?_⟩, by rw [eucl_self]; norm_num [stdR]⟩
        unfold refPoint
        simp only
        rw [hy]
        apply Prod.ext <;> (simp only; ring)
      interval_cases n
      · exact ⟨(-1, 0), by simp, _, key 0 (by norm_num)⟩
      · exact ⟨(-1, -1/2), by simp, _, key (-1/2) (by norm_num)⟩
      · exact ⟨(-1, -3/4), by simp, _, key (-3/4) (by norm_num)⟩
      · exact ⟨(-1, -7/8), by simp, _, key (-7/8) (by norm_num)⟩
      · exact ⟨(-1, -15/16), by simp, _, key (-15/16) (by norm_num)⟩

/-- **C74 is false with a shallow crossing**: the point is inside this triangle, and at a distance 0.2 of its contour, but it is said outside:
the reference segment crosses the edges at less than the null angle, these crossings are not counted. -/
theorem C74_shallow_false : ∃ (pts : List (Pt ℝ)) (p : Pt ℝ), isSimple (segInterB stdR) true pts = true ∧ EvenOdd pts p ∧
    FarFromContour (1 / 5) pts p ∧ ptInsidePoly stdR true pts p = .ok false := by
  have h1 : dblEps < stdR.nullDistance := by norm_num [stdR, dblEps]
  have g0 : GoodSeg stdR ((-1000, 0), (1000, 1)) := goodSeg_of (by norm_num) (by norm_num)
  have g1 : GoodSeg stdR ((1000, 1), (1000, -1)) := goodSeg_of (by norm_num) (by norm_num)
  have g2 : GoodSeg stdR ((1000, -1), (-1000, 0)) := goodSeg_of (by norm_num) (by norm_num)
  have gr : GoodSeg stdR ((0, 1/4), (-3000, 0)) := goodSeg_of (by norm_num) (by norm_num)
  have hed : polyEdges [((-1000, 0) : Pt ℝ), (1000, 1), (1000, -1)] = [((-1000, 0), (1000, 1)), ((1000, 1), (1000, -1)), ((1000, -1), (-1000, 0))] := rfl
  have hsimple : isSimple (segInterB stdR) true [((-1000, 0) : Pt ℝ), (1000, 1), (1000, -1)] = true := by
    simp [isSimple, segPairs_edges, hed, noCross, List.range_succ, List.range']
  have hfar : FarFromLines (1 / 5) [((-1000, 0) : Pt ℝ), (1000, 1), (1000, -1)] (0, 1/4) := by
    unfold FarFromLines
    rw [hed]
    simp only [List.forall_mem_cons, List.not_mem_nil, false_imp_iff, implies_true, and_true]
    refine ⟨?_, ?_, ?_⟩
    all_goals
      intro k
      apply far_of_cross <;> norm_num
  have href : refPoint (-1000, -1) (1000, 1) 1 = (-3000, 0) := by unfold refPoint; norm_num
  refine ⟨_, (0, 1/4), hsimple, ?_, ?_, ?_⟩
  · unfold EvenOdd
    rw [hed]
    norm_num [CrossesRay, List.countP_cons]
  · rintro e hm q ⟨s, -, -, rfl⟩
    exact hfar e hm s
  · have i0 := segInter_par h1 g0 gr (angle_lt rfl (by norm_num) (by norm_num))
    have i1 := (segInterB_sep h1 (by norm_num [stdR]) g1 gr (Or.inl ⟨0, by norm_num [stdR]⟩)).2
    have i2 := segInter_par h1 g2 gr (angle_lt rfl (by norm_num) (by norm_num))
    have := answer_first (t := stdR) (pts := [((-1000, 0) : Pt ℝ), (1000, 1), (1000, -1)]) (p := (0, 1/4)) (lo := (-1000, -1)) (hi := (1000, 1)) (c := 0)
      h1 (by norm_num [stdR]) hsimple ⟨?_, ?_, ?_, ?_, ?_⟩ (by norm_num [stdR]) (by norm_num [stdR]) (by norm_num [stdR]) (by norm_num [stdR])
      (by norm_num) ?_ ?_ ?_ ?_
    · simpa using this
    · simp only [List.forall_mem_cons, List.not_mem_nil, false_imp_iff, implies_true, and_true]; norm_num
    · exact ⟨(-1000, 0), by simp⟩
    · exact ⟨(1000, 1), by simp⟩
    · exact ⟨(1000, -1), by simp⟩
    · exact ⟨(1000, 1), by simp⟩
    · rw [hed]
      simp only [List.forall_mem_cons, List.not_mem_nil, false_imp_iff, implies_true, and_true]
      exact ⟨g0, g1, g2⟩
    · intro e he k
      exact le_trans (by norm_num [stdR]) (hfar e he k)
    · intro v hm
      rw [ref_far (by norm_num) (by norm_num), href]
      rintro q ⟨s, s0, s1, rfl⟩
      apply le_eucl
      simp only [List.mem_cons, List.not_mem_nil, or_false] at hm
      rcases hm with rfl | rfl | rfl <;> (simp only [stdR]; nlinarith [sq_nonneg (s - 1/3)])
    · rw [href, hed]
      simp only [List.map_cons, List.map_nil, pipCount, i0, i1, i2, Res.bind_ok, Res.pure_eq]
      rfl

/-- The hypotheses of C74 are met: the point (1, 2) is found inside the square of side 4. -/
example : ptInsidePoly stdR true [((0, 0) : Pt ℝ), (4, 0), (4, 4), (0, 4)] (1, 2) = .ok true := by
  have h1 : dblEps < stdR.nullDistance := by norm_num [stdR, dblEps]
  have g0 : GoodSeg stdR ((0, 0), (4, 0)) := goodSeg_of (by norm_num) (by norm_num)
  have g1 : GoodSeg stdR ((4, 0), (4, 4)) := goodSeg_of (by norm_num) (by norm_num)
  have g2 : GoodSeg stdR ((4, 4), (0, 4)) := goodSeg_of (by norm_num) (by norm_num)
  have g3 : GoodSeg stdR ((0, 4), (0, 0)) := goodSeg_of (by norm_num) (by norm_num)
  have hed : polyEdges [((0, 0) : Pt ℝ), (4, 0), (4, 4), (0, 4)] = [((0, 0), (4, 0)), ((4, 0), (4, 4)), ((4, 4), (0, 4)), ((0, 4), (0, 0))] := rfl
  have hT : IsTightBox (fun q => q ∈ [((0, 0) : Pt ℝ), (4, 0), (4, 4), (0, 4)]) (0, 0) (4, 4) := by
    refine ⟨?_, ?_, ?_, ?_, ?_⟩
    · simp only [List.forall_mem_cons, List.not_mem_nil, false_imp_iff, implies_true, and_true]; norm_num
    · exact ⟨(0, 0), by simp⟩
    · exact ⟨(4, 0), by simp⟩
    · exact ⟨(0, 0), by simp⟩
    · exact ⟨(4, 4), by simp⟩
  have hs : isSimple (segInterB stdR) true [((0, 0) : Pt ℝ), (4, 0), (4, 4), (0, 4)] = true := by
    have s20 := (segInterB_sep h1 (by norm_num [stdR]) g2 g0 (Or.inr (Or.inr (Or.inl ⟨0, by norm_num [stdR]⟩)))).1
    have s31 := (segInterB_sep h1 (by norm_num [stdR]) g3 g1 (Or.inr (Or.inl ⟨0, by norm_num [stdR]⟩))).1
    simp [isSimple, segPairs_edges, hed, noCross, List.range_succ, List.range', s20, s31]
  have hf : FarFromLines stdR.nullDistance [((0, 0) : Pt ℝ), (4, 0), (4, 4), (0, 4)] (1, 2) := by
    unfold FarFromLines
    rw [hed]
    simp only [List.forall_mem_cons, List.not_mem_nil, false_imp_iff, implies_true, and_true]
    refine ⟨?_, ?_, ?_, ?_⟩
    all_goals
      intro k
      apply far_of_cross <;> norm_num [stdR]
  have hg : GoodRefs stdR [((0, 0) : Pt ℝ), (4, 0), (4, 4), (0, 4)] (1, 2) := by
    constructor
    · rw [hed]
      simp only [List.forall_mem_cons, List.not_mem_nil, false_imp_iff, implies_true, and_true]
      exact ⟨g0.2, g1.2, g2.2, g3.2⟩
    · intro lo hi hT' n n1 n5
      obtain ⟨rfl, rfl⟩ := hT.unique hT'
      rw [hed]
      simp only [List.forall_mem_cons, List.not_mem_nil, false_imp_iff, implies_true, and_true]
      interval_cases n
      · rw [show refPoint ((0, 0) : Pt ℝ) (4, 4) 1 = (-4, 2) by unfold refPoint; norm_num]
        refine ⟨(goodSeg_of (by norm_num) (by norm_num)).2, ?_, ?_, ?_, ?_⟩
        · rintro ⟨q, ⟨s, s0, s1, rfl⟩, s', s0', s1', hh⟩
          have := congrArg Prod.snd hh; norm_num at this
        · intro _; exact angle_ge rfl (by norm_num) (by norm_num)
        · rintro ⟨q, ⟨s, s0, s1, rfl⟩, s', s0', s1', hh⟩
          have := congrArg Prod.snd hh; norm_num at this
        · intro _; exact angle_ge rfl (by norm_num) (by norm_num)
      · rw [show refPoint ((0, 0) : Pt ℝ) (4, 4) 2 = (-4, -1) by unfold refPoint; norm_num]
        refine ⟨(goodSeg_of (by norm_num) (by norm_num)).2, ?_, ?_, ?_, ?_⟩ <;> (intro _; exact angle_ge rfl (by norm_num) (by norm_num))
      · rw [show refPoint ((0, 0) : Pt ℝ) (4, 4) 3 = (-4, -5/2) by unfold refPoint; norm_num]
        refine ⟨(goodSeg_of (by norm_num) (by norm_num)).2, ?_, ?_, ?_, ?_⟩ <;> (intro _; exact angle_ge rfl (by norm_num) (by norm_num))
      · rw [show refPoint ((0, 0) : Pt ℝ) (4, 4) 4 = (-4, -13/4) by unfold refPoint; norm_num]
        refine ⟨(goodSeg_of (by norm_num) (by norm_num)).2, ?_, ?_, ?_, ?_⟩ <;> (intro _; exact angle_ge rfl (by norm_num) (by norm_num))
      · rw [show refPoint ((0, 0) : Pt ℝ) (4, 4) 5 = (-4, -29/8) by unfold refPoint; norm_num]
        refine ⟨(goodSeg_of (by norm_num) (by norm_num)).2, ?_, ?_, ?_, ?_⟩ <;> (intro _; exact angle_ge rfl (by norm_num) (by norm_num))
  obtain ⟨b, hb, hiff⟩ := C74_answers_partial stdR h1 (by norm_num [stdR]) (by norm_num [stdR]) _ (1, 2) (0, 0) (4, 4) hs hT (by norm_num [stdR])
    (by norm_num [stdR]) (by
      rw [hed]
      simp only [List.forall_mem_cons, List.not_mem_nil, false_imp_iff, implies_true, and_true]
      exact ⟨g0.1, g1.1, g2.1, g3.1⟩) hg hf (by
      rw [show refPoint ((0, 0) : Pt ℝ) (4, 4) 1 = (-4, 2) by unfold refPoint; norm_num]
      simp only [List.forall_mem_cons, List.not_mem_nil, false_imp_iff, implies_true, and_true]
      refine ⟨?_, ?_, ?_, ?_⟩
      all_goals
        rintro q ⟨s, s0, s1, rfl⟩
        apply le_eucl
        simp only [stdR]
        nlinarith [sq_nonneg (1 - 5 * s)])
  rw [hb, hiff.2]
  unfold EvenOdd
  rw [hed]
  norm_num [CrossesRay, List.countP_cons]

/-- The first four reference segments from the origin go through vertices of this polygon, the fifth one gives the answer. -/
example : ptInsidePoly stdR true [((-1, 0) : Pt ℝ), (-1, -1/2), (-1, -3/4), (-1, -7/8), (1, -1), (1, 1)] (0, 0) = .ok true := by
  have h1 : dblEps < stdR.nullDistance := by norm_num [stdR, dblEps]
  have g0 : GoodSeg stdR ((-1, 0), (-1, -1/2)) := goodSeg_of (by norm_num) (by norm_num)
  have g1 : GoodSeg stdR ((-1, -1/2), (-1, -3/4)) := goodSeg_of (by norm_num) (by norm_num)
  have g2 : GoodSeg stdR ((-1, -3/4), (-1, -7/8)) := goodSeg_of (by norm_num) (by norm_num)
  have g3 : GoodSeg stdR ((-1, -7/8), (1, -1)) := goodSeg_of (by norm_num) (by norm_num)
  have g4 : GoodSeg stdR ((1, -1), (1, 1)) := goodSeg_of (by norm_num) (by norm_num)
  have g5 : GoodSeg stdR ((1, 1), (-1, 0)) := goodSeg_of (by norm_num) (by norm_num)
  have hed : polyEdges [((-1, 0) : Pt ℝ), (-1, -1/2), (-1, -3/4), (-1, -7/8), (1, -1), (1, 1)] =
    [((-1, 0), (-1, -1/2)), ((-1, -1/2), (-1, -3/4)), ((-1, -3/4), (-1, -7/8)), ((-1, -7/8), (1, -1)), ((1, -1), (1, 1)), ((1, 1), (-1, 0))] := rfl
  have hT : IsTightBox (fun q => q ∈ [((-1, 0) : Pt ℝ), (-1, -1/2), (-1, -3/4), (-1, -7/8), (1, -1), (1, 1)]) (-1, -1) (1, 1) := by
    refine ⟨?_, ?_, ?_, ?_, ?_⟩
    · simp only [List.forall_mem_cons, List.not_mem_nil, false_imp_iff, implies_true, and_true]; norm_num
    · exact ⟨(-1, 0), by simp⟩
    · exact ⟨(1, 1), by simp⟩
    · exact ⟨(1, -1), by simp⟩
    · exact ⟨(1, 1), by simp⟩
  have hs : isSimple (segInterB stdR) true [((-1, 0) : Pt ℝ), (-1, -1/2), (-1, -3/4), (-1, -7/8), (1, -1), (1, 1)] = true := by
    have s20 := (segInterB_sep h1 (by norm_num [stdR]) g2 g0 (Or.inr (Or.inr (Or.inr ⟨-3/4, by norm_num [stdR]⟩)))).1
    have s30 := (segInterB_sep h1 (by norm_num [stdR]) g3 g0 (Or.inr (Or.inr (Or.inr ⟨-7/8, by norm_num [stdR]⟩)))).1
    have s40 := (segInterB_sep h1 (by norm_num [stdR]) g4 g0 (Or.inl ⟨-1, by norm_num [stdR]⟩)).1
    have s31 := (segInterB_sep h1 (by norm_num [stdR]) g3 g1 (Or.inr (Or.inr (Or.inr ⟨-7/8, by norm_num [stdR]⟩)))).1
    have s41 := (segInterB_sep h1 (by norm_num [stdR]) g4 g1 (Or.inl ⟨-1, by norm_num [stdR]⟩)).1
    have s51 := (segInterB_sep h1 (by norm_num [stdR]) g5 g1 (Or.inr (Or.inr (Or.inl ⟨-1/2, by norm_num [stdR]⟩)))).1
    have s42 := (segInterB_sep h1 (by norm_num [stdR]) g4 g2 (Or.inl ⟨-1, by norm_num [stdR]⟩)).1
    have s52 := (segInterB_sep h1 (by norm_num [stdR]) g5 g2 (Or.inr (Or.inr (Or.inl ⟨-1/2, by norm_num [stdR]⟩)))).1
    have s53 := (segInterB_sep h1 (by norm_num [stdR]) g5 g3 (Or.inr (Or.inr (Or.inl ⟨-1/2, by norm_num [stdR]⟩)))).1
    simp [isSimple, segPairs_edges, hed, noCross, List.range_succ, List.range', s20, s30, s40, s31, s41, s51, s42, s52, s53]
  have hf : FarFromLines stdR.nullDistance [((-1, 0) : Pt ℝ), (-1, -1/2), (-1, -3/4), (-1, -7/8), (1, -1), (1, 1)] (0, 0) := by
    unfold FarFromLines
    rw [hed]
    simp only [List.forall_mem_cons, List.not_mem_nil, false_imp_iff, implies_true, and_true]
    refine ⟨?_, ?_, ?_, ?_, ?_, ?_⟩
    all_goals
      intro k
      apply far_of_cross <;> norm_num [stdR]
  have hg : GoodRefs stdR [((-1, 0) : Pt ℝ), (-1, -1/2), (-1, -3/4), (-1, -7/8), (1, -1), (1, 1)] (0, 0) := by
    constructor
    · rw [hed]
      simp only [List.forall_mem_cons, List.not_mem_nil, false_imp_iff, implies_true, and_true]
      exact ⟨g0.2, g1.2, g2.2, g3.2, g4.2, g5.2⟩
    · intro lo hi hT' n n1 n5
      obtain ⟨rfl, rfl⟩ := hT.unique hT'
      rw [hed]
      simp only [List.forall_mem_cons, List.not_mem_nil, false_imp_iff, implies_true, and_true]
      interval_cases n
      · rw [show refPoint ((-1, -1) : Pt ℝ) (1, 1) 1 = (-3, 0) by unfold refPoint; norm_num]
        refine ⟨Or.inl rfl, ?_, ?_, ?_, ?_, ?_, ?_⟩ <;> (first
          | (rintro ⟨q, ⟨s, s0, s1, rfl⟩, s', s0', s1', hh⟩
             have a := congrArg Prod.fst hh
             have b := congrArg Prod.snd hh
             simp only at a b
             linarith; done)
          | (intro _; exact angle_ge rfl (by norm_num) (by norm_num)))
      · rw [show refPoint ((-1, -1) : Pt ℝ) (1, 1) 2 = (-3, -3/2) by unfold refPoint; norm_num]
        refine ⟨(goodSeg_of (by norm_num) (by norm_num)).2, ?_, ?_, ?_, ?_, ?_, ?_⟩ <;> (first
          | (rintro ⟨q, ⟨s, s0, s1, rfl⟩, s', s0', s1', hh⟩
             have a := congrArg Prod.fst hh
             have b := congrArg Prod.snd hh
             simp only at a b
             linarith; done)
          | (intro _; exact angle_ge rfl (by norm_num) (by norm_num)))
      · rw [show refPoint ((-1, -1) : Pt ℝ) (1, 1) 3 = (-3, -9/4) by unfold refPoint; norm_num]
        refine ⟨(goodSeg_of (by norm_num) (by norm_num)).2, ?_, ?_, ?_, ?_, ?_, ?_⟩ <;> (first
          | (rintro ⟨q, ⟨s, s0, s1, rfl⟩, s', s0', s1', hh⟩
             have a := congrArg Prod.fst hh
             have b := congrArg Prod.snd hh
             simp only at a b
             linarith; done)
          | (intro _; exact angle_ge rfl (by norm_num) (by norm_num)))
      · rw [show refPoint ((-1, -1) : Pt ℝ) (1, 1) 4 = (-3, -21/8) by unfold refPoint; norm_num]
        refine ⟨(goodSeg_of (by norm_num) (by norm_num)).2, ?_, ?_, ?_, ?_, ?_, ?_⟩ <;> (first
          | (rintro ⟨q, ⟨s, s0, s1, rfl⟩, s', s0', s1', hh⟩
             have a := congrArg Prod.fst hh
             have b := congrArg Prod.snd hh
             simp only at a b
             linarith; done)
          | (intro _; exact angle_ge rfl (by norm_num) (by norm_num)))
      · rw [show refPoint ((-1, -1) : Pt ℝ) (1, 1) 5 = (-3, -45/16) by unfold refPoint; norm_num]
        refine ⟨(goodSeg_of (by norm_num) (by norm_num)).2, ?_, ?_, ?_, ?_, ?_, ?_⟩ <;> (first
          | (rintro ⟨q, ⟨s, s0, s1, rfl⟩, s', s0', s1', hh⟩
             have a := congrArg Prod.fst hh
             have b := congrArg Prod.snd hh
             simp only at a b
             linarith; done)
          | (intro _; exact angle_ge rfl (by norm_num) (by norm_num)))
  obtain ⟨b, hb, hiff⟩ := C74_rounds_partial stdR h1 (by norm_num [stdR]) (by norm_num [stdR]) _ (0, 0) (-1, -1) (1, 1) hs hT (by norm_num [stdR])
    (by norm_num [stdR]) (by
      rw [hed]
      simp only [List.forall_mem_cons, List.not_mem_nil, false_imp_iff, implies_true, and_true]
      exact ⟨g0.1, g1.1, g2.1, g3.1, g4.1, g5.1⟩) hg hf (by norm_num) 5 (by norm_num) (by norm_num) (by
      rw [show refPoint ((-1, -1) : Pt ℝ) (1, 1) 5 = (-3, -45/16) by unfold refPoint; norm_num]
      simp only [List.forall_mem_cons, List.not_mem_nil, false_imp_iff, implies_true, and_true]
      refine ⟨?_, ?_, ?_, ?_, ?_, ?_⟩
      all_goals
        rintro q ⟨s, s0, s1, rfl⟩
        apply le_eucl
        simp only [stdR]
        nlinarith [sq_nonneg (1 - 3 * s)])
  rw [hb, hiff.2]
  unfold EvenOdd
  rw [hed]
  norm_num [CrossesRay, List.countP_cons]

end H2d.Props
