import Verif.Lemmas.Simple
import Verif.Lemmas.RectMore

/-!
# C118: simple polygons
-/

namespace H2d.Props

open H2d.Spec H2d.Simple

/-- **C118, not polygons.** Open polylines and polylines of less than 3 points are not polygons. -/
theorem C118_small (t : Thr ℝ) (closed : Bool) (pts : List (Pt ℝ)) (h : closed = false ∨ pts.length < 3) : simpleR t closed pts = .ok false := by
  unfold simpleR Simple.run
  rcases h with rfl | h
  · split_ifs <;> simp_all
  · rw [if_pos h]

/-- **C118, exceptions.** If no edge is shorter than the null distance, an answer is given; it is "no" unless the polyline is closed and has at least 3 points. -/
theorem C118_defined (t : Thr ℝ) (h1 : dblEps < t.nullDistance) (closed : Bool) (pts : List (Pt ℝ)) (hl : ∀ i e, Edge pts i e → t.nullDistance ≤ eucl e.1 e.2) :
    ∃ b, simpleR t closed pts = .ok b ∧ (b = true → 3 ≤ pts.length ∧ closed = true) := by
  obtain ⟨b, e, hb⟩ := simpleR_eq h1 hl closed
  exact ⟨b, e, fun h => ⟨(hb.1 h).1, (hb.1 h).2.1⟩⟩

/-- **C118, used by the other properties.** The function without exceptions that the theorems on areas, centroids, convexity and inclusion use gives the same answer, when no edge is shorter than the null distance. -/
theorem C118_agrees (t : Thr ℝ) (h1 : dblEps < t.nullDistance) (closed : Bool) (pts : List (Pt ℝ)) (hl : ∀ i e, Edge pts i e → t.nullDistance ≤ eucl e.1 e.2) :
    simpleR t closed pts = .ok (isSimple (segInterB t) closed pts) := simpleR_isSimple h1 hl closed

/-- **C118, centroid.** The centroid of a polyline without edges shorter than the null distance is refused exactly when the polyline is not said to be simple. -/
theorem C118_centroid (t : Thr ℝ) (h1 : dblEps < t.nullDistance) (closed : Bool) (pts : List (Pt ℝ)) (hl : ∀ i e, Edge pts i e → t.nullDistance ≤ eucl e.1 e.2) :
    (centroid (segInterB t) closed pts = .throw ↔ simpleR t closed pts = .ok false) ∧
    ∀ c, centroid (segInterB t) closed pts = .ok c ↔ simpleR t closed pts = .ok true ∧ c = centroidRaw pts := by
  rw [C118_agrees t h1 closed pts hl]
  unfold centroid
  cases isSimple (segInterB t) closed pts <;> simp [eq_comm]

/-- **C118 (partial), crossing edges.** A polygon with two edges without common vertex that have a common point is not said to be simple, if they are at an angle of at least the null angle and not equal for the library.
Missing: edges that overlap (`C118_overlap_false`), edges at a small angle (`C118_shallow_false`), nearly horizontal edges (`C22_false`). -/
theorem C118_crossing_partial (t : Thr ℝ) (h1 : dblEps < t.nullDistance) (h2 : 0 < t.nullAngleValue) (closed : Bool) (pts : List (Pt ℝ)) (hl : ∀ i e, Edge pts i e → t.nullDistance ≤ eucl e.1 e.2)
    {i j : ℕ} {e e' : Seg} (he : Edge pts i e) (he' : Edge pts j e') (hij : NotNeighbours pts.length i j) (g : GoodSlope t e.1 e.2) (g' : GoodSlope t e'.1 e'.2)
    (hne : t.nullDistance ≤ eucl e.1 e'.1 ∨ t.nullDistance ≤ eucl e.2 e'.2) (hne' : t.nullDistance ≤ eucl e.1 e'.2 ∨ t.nullDistance ≤ eucl e.2 e'.1)
    (ha : t.nullAngleValue ≤ segAngle e e') {q : Pt ℝ} (hq : OnSeg e.1 e.2 q) (hq' : OnSeg e'.1 e'.2 q) : simpleR t closed pts = .ok false := by
  obtain ⟨b, hb, hb'⟩ := simpleR_eq h1 hl closed
  rw [hb]
  cases b with
  | false => rfl
  | true =>
    have := (hb'.1 rfl).2.2 i j e e' he he' hij
    rw [answer_some h1 h2 ⟨hl i e he, g⟩ ⟨hl j e' he', g'⟩ hne hne' ha hq hq'] at this
    cases this

/-- **C118 (partial), separated edges.** A closed polyline of at least 3 points is said to be simple if the edges without common vertex are apart by at least the null distance.
Missing: nearly horizontal edges (`C22_false`). -/
theorem C118_apart_partial (t : Thr ℝ) (h1 : dblEps < t.nullDistance) (h2 : 0 < t.nullAngleValue) (pts : List (Pt ℝ)) (h3 : 3 ≤ pts.length) (hl : ∀ i e, Edge pts i e → GoodSeg t e)
    (ha : EdgesApart t.nullDistance pts) : simpleR t true pts = .ok true := by
  obtain ⟨b, hb, hb'⟩ := simpleR_eq h1 (fun i e he => (hl i e he).1) true
  rw [hb, hb'.2 ⟨h3, rfl, fun i j e e' he he' hij => answer_apart h1 h2 (hl i e he) (hl j e' he') (ha i j e e' he he' hij)⟩]

/-- **C118, triangles.** All closed polylines of 3 points are said to be simple. -/
theorem C118_triangle (t : Thr ℝ) (h1 : dblEps < t.nullDistance) (a b c : Pt ℝ) (hab : t.nullDistance ≤ eucl a b) (hbc : t.nullDistance ≤ eucl b c) (hca : t.nullDistance ≤ eucl c a) :
    simpleR t true [a, b, c] = .ok true := by
  have hl : ∀ i e, Edge [a, b, c] i e → t.nullDistance ≤ eucl e.1 e.2 := by
    rintro i ⟨p, q⟩ he
    have hi := edge_lt he
    simp only [List.length_cons, List.length_nil] at hi
    obtain ⟨k1, k2⟩ := he
    interval_cases i <;> simp at k1 k2 <;> rw [← k1, ← k2] <;> assumption
  obtain ⟨r, hr, hr'⟩ := simpleR_eq h1 hl true
  rw [hr, hr'.2 ⟨by simp, rfl, ?_⟩]
  intro i j e e' he he' hij
  have hi := edge_lt he
  have hj := edge_lt he'
  simp only [List.length_cons, List.length_nil] at hi hj hij
  interval_cases i <;> interval_cases j <;> simp [NotNeighbours] at hij

/-- The hypotheses of `C118_triangle`, with the default thresholds. -/
example : simpleR stdR true [(0, 0), (4, 0), (0, 3)] = .ok true :=
  C118_triangle stdR (by norm_num [stdR, dblEps]) _ _ _ (by rw [(eucl_eq_iff (d := 4) (by norm_num)).2 (by norm_num)]; norm_num [stdR])
    (by rw [(eucl_eq_iff (d := 5) (by norm_num)).2 (by norm_num)]; norm_num [stdR]) (by rw [(eucl_eq_iff (d := 3) (by norm_num)).2 (by norm_num)]; norm_num [stdR])

/-- A polygon of four edges with a crossing: (0,0) (4,3) (4,0) (0,3), with the default thresholds. -/
example : simpleR stdR true [(0, 0), (4, 3), (4, 0), (0, 3)] = .ok false := by
  have v0 : eucl (0, 0) (4, 3) = 5 := by rw [eucl_eq_iff (by norm_num)]; norm_num
  have v1 : eucl (4, 3) (4, 0) = 3 := by rw [eucl_eq_iff (by norm_num)]; norm_num
  have v2 : eucl (4, 0) (0, 3) = 5 := by rw [eucl_eq_iff (by norm_num)]; norm_num
  have v3 : eucl (0, 3) (0, 0) = 3 := by rw [eucl_eq_iff (by norm_num)]; norm_num
  have v4 : eucl (0, 0) (4, 0) = 4 := by rw [eucl_eq_iff (by norm_num)]; norm_num
  refine C118_crossing_partial stdR (by norm_num [stdR, dblEps]) (by norm_num [stdR]) true _ ?_ (i := 0) (j := 2) (e := ((0, 0), (4, 3))) (e' := ((4, 0), (0, 3))) ⟨rfl, rfl⟩ ⟨rfl, rfl⟩
    (by simp [NotNeighbours]) (Or.inr (by rw [v0]; norm_num [stdR])) (Or.inr (by rw [v2]; norm_num [stdR])) (Or.inl (by rw [v4]; norm_num [stdR])) (Or.inr (by rw [eucl_comm, ← eucl_comm (4, 3), v1]; norm_num [stdR]))
    ?_ (q := (2, 3 / 2)) ⟨1 / 2, by norm_num, by norm_num, by norm_num⟩ ⟨1 / 2, by norm_num, by norm_num, by norm_num⟩
  · rintro i ⟨p, q⟩ he
    have hi := edge_lt he
    simp only [List.length_cons, List.length_nil] at hi
    obtain ⟨k1, k2⟩ := he
    interval_cases i <;> simp at k1 k2 <;> rw [← k1, ← k2] <;> simp only [v0, v1, v2, v3] <;> norm_num [stdR]
  · exact angle_ge_std (c := 7 / 25) (by simp only [v0, v2]; norm_num [abs_le, abs_div]) (by norm_num)

/-- A rectangle, with the default thresholds. -/
example : simpleR stdR true [(0, 0), (4, 0), (4, 3), (0, 3)] = .ok true := by
  have v0 : eucl (0, 0) (4, 0) = 4 := by rw [eucl_eq_iff (by norm_num)]; norm_num
  have v1 : eucl (4, 0) (4, 3) = 3 := by rw [eucl_eq_iff (by norm_num)]; norm_num
  have v2 : eucl (4, 3) (0, 3) = 4 := by rw [eucl_eq_iff (by norm_num)]; norm_num
  have v3 : eucl (0, 3) (0, 0) = 3 := by rw [eucl_eq_iff (by norm_num)]; norm_num
  refine C118_apart_partial stdR (by norm_num [stdR, dblEps]) (by norm_num [stdR]) _ (by simp) ?_ ?_
  · rintro i ⟨p, q⟩ he
    have hi := edge_lt he
    simp only [List.length_cons, List.length_nil] at hi
    obtain ⟨k1, k2⟩ := he
    interval_cases i <;> simp at k1 k2 <;> rw [← k1, ← k2] <;> unfold GoodSeg GoodSlope <;> simp only [v0, v1, v2, v3] <;> norm_num [stdR]
  · rintro i j ⟨p, q⟩ ⟨p', q'⟩ he he' hij x x' ⟨k, -, -, rfl⟩ ⟨k', -, -, rfl⟩
    have hi := edge_lt he
    have hj := edge_lt he'
    simp only [List.length_cons, List.length_nil] at hi hj hij
    obtain ⟨a1, a2⟩ := he
    obtain ⟨b1, b2⟩ := he'
    refine le_trans (b := 3) (by norm_num [stdR]) ?_
    unfold eucl
    apply Real.le_sqrt_of_sq_le
    interval_cases i <;> interval_cases j <;> simp [NotNeighbours] at hij <;> simp at a1 a2 b1 b2 <;> rw [← a1, ← a2, ← b1, ← b2] <;> simp only <;>
      nlinarith [sq_nonneg (0 + k * (4 - 0) - (4 + k' * (0 - 4))), sq_nonneg (0 + k * (3 - 0) - (3 + k' * (0 - 3))), sq_nonneg (4 + k * (0 - 4) - (0 + k' * (4 - 0))), sq_nonneg (3 + k * (0 - 3) - (0 + k' * (3 - 0)))]

/-- **C118, overlapping edges.** With the default thresholds, a polygon is said to be simple though two edges without common vertex have all points of a segment in common: (0,0) (2,0) (1,0) (3,0) (1,2). -/
theorem C118_overlap_false : ∃ pts : List (Pt ℝ), simpleR stdR true pts = .ok true ∧
    ∃ i j e e', Edge pts i e ∧ Edge pts j e' ∧ NotNeighbours pts.length i j ∧ ∀ k, 0 ≤ k → k ≤ 1 → OnSeg e.1 e.2 (1 + k, 0) ∧ OnSeg e'.1 e'.2 (1 + k, 0) := by
  have v0 : eucl (0, 0) (2, 0) = 2 := by rw [eucl_eq_iff (by norm_num)]; norm_num
  have v1 : eucl (2, 0) (1, 0) = 1 := by rw [eucl_eq_iff (by norm_num)]; norm_num
  have v2 : eucl (1, 0) (3, 0) = 2 := by rw [eucl_eq_iff (by norm_num)]; norm_num
  have v3 : 2 ≤ eucl (3, 0) (1, 2) := Real.le_sqrt_of_sq_le (by norm_num)
  have v3' : eucl (3, 0) (1, 2) ≤ 3 := (Real.sqrt_le_left (by norm_num)).2 (by norm_num)
  have v4 : 2 ≤ eucl (1, 2) (0, 0) := Real.le_sqrt_of_sq_le (by norm_num)
  have v4' : eucl (1, 2) (0, 0) ≤ 3 := (Real.sqrt_le_left (by norm_num)).2 (by norm_num)
  have h1 : dblEps < stdR.nullDistance := by norm_num [stdR, dblEps]
  have h2 : 0 < stdR.nullAngleValue := by norm_num [stdR]
  have g0 : GoodSeg stdR ((0, 0), (2, 0)) := ⟨by simp only [v0]; norm_num [stdR], Or.inl rfl⟩
  have g1 : GoodSeg stdR ((2, 0), (1, 0)) := ⟨by simp only [v1]; norm_num [stdR], Or.inl rfl⟩
  have g2 : GoodSeg stdR ((1, 0), (3, 0)) := ⟨by simp only [v2]; norm_num [stdR], Or.inl rfl⟩
  have g3 : GoodSeg stdR ((3, 0), (1, 2)) := ⟨le_trans (by norm_num [stdR]) v3, Or.inr (by norm_num [stdR]; linarith)⟩
  have g4 : GoodSeg stdR ((1, 2), (0, 0)) := ⟨le_trans (by norm_num [stdR]) v4, Or.inr (by norm_num [stdR]; linarith)⟩
  have far : ∀ {a b : Pt ℝ}, (1 / 2 ≤ |a.1 - b.1| ∨ 1 / 2 ≤ |a.2 - b.2|) → stdR.nullDistance ≤ eucl a b := by
    intro a b h
    refine le_trans (b := 1 / 2) (by norm_num [stdR]) ?_
    rcases h with h | h
    · exact h.trans (RectM.abs_fst_le a b)
    · exact h.trans (RectM.abs_snd_le a b)
  refine ⟨[(0, 0), (2, 0), (1, 0), (3, 0), (1, 2)], simpleR_true h1 (by simp) ?_ ?_, 0, 2, ((0, 0), (2, 0)), ((1, 0), (3, 0)), ⟨rfl, rfl⟩, ⟨rfl, rfl⟩, by simp [NotNeighbours], fun k k0 k1 => ⟨⟨(1 + k) / 2, ?_, ?_, ?_⟩, ⟨k / 2, ?_, ?_, ?_⟩⟩⟩
  · rintro i ⟨p, q⟩ he
    have hi := edge_lt he
    simp only [List.length_cons, List.length_nil] at hi
    obtain ⟨k1, k2⟩ := he
    interval_cases i <;> simp at k1 k2 <;> rw [← k1, ← k2]
    · exact g0.1
    · exact g1.1
    · exact g2.1
    · exact g3.1
    · exact g4.1
  · rintro i j ⟨p, q⟩ ⟨p', q'⟩ he he' hlt hij
    have hi := edge_lt he
    have hj := edge_lt he'
    simp only [List.length_cons, List.length_nil] at hi hj hij
    obtain ⟨a1, a2⟩ := he
    obtain ⟨b1, b2⟩ := he'
    interval_cases i <;> interval_cases j <;> simp [NotNeighbours] at hij <;> first | omega | skip
    all_goals simp at a1 a2 b1 b2; rw [← a1, ← a2, ← b1, ← b2]
    · exact answer_flat h1 g0 g2 (angle_lt_std (c := 1) (by simp only [v0, v2]; norm_num) (by norm_num) le_rfl)
    · refine answer_apart h1 h2 g0 g3 ?_
      rintro x x' ⟨k, k0, k1, rfl⟩ ⟨k', k0', k1', rfl⟩
      apply far
      simp only
      by_cases hk : k' ≤ 1 / 4
      · left; rw [le_abs]; right; linarith
      · right; rw [le_abs]; right; linarith
    · refine answer_apart h1 h2 g1 g3 ?_
      rintro x x' ⟨k, k0, k1, rfl⟩ ⟨k', k0', k1', rfl⟩
      apply far
      simp only
      by_cases hk : k' ≤ 1 / 4
      · left; rw [le_abs]; right; linarith
      · right; rw [le_abs]; right; linarith
    · refine answer_apart h1 h2 g1 g4 ?_
      rintro x x' ⟨k, k0, k1, rfl⟩ ⟨k', k0', k1', rfl⟩
      apply far
      simp only
      by_cases hk : k' ≤ 1 / 2
      · right; rw [le_abs]; right; linarith
      · left; rw [le_abs]; left; linarith
    · refine answer_apart h1 h2 g2 g4 ?_
      rintro x x' ⟨k, k0, k1, rfl⟩ ⟨k', k0', k1', rfl⟩
      apply far
      simp only
      by_cases hk : k' ≤ 1 / 2
      · right; rw [le_abs]; right; linarith
      · left; rw [le_abs]; left; linarith
  all_goals first | linarith | (apply Prod.ext <;> simp only <;> ring)

/-- **C118, edges at a small angle.** With the default thresholds, a polygon of four edges is said to be simple though two opposite edges, of length 4000, cross in their middle: (0,0) (4000,1) (4000,0) (0,1). -/
theorem C118_shallow_false : ∃ pts : List (Pt ℝ), simpleR stdR true pts = .ok true ∧
    ∃ i j e e', Edge pts i e ∧ Edge pts j e' ∧ NotNeighbours pts.length i j ∧ OnSeg e.1 e.2 (2000, 1 / 2) ∧ OnSeg e'.1 e'.2 (2000, 1 / 2) ∧ 4000 ≤ eucl e.1 e.2 ∧ 4000 ≤ eucl e'.1 e'.2 := by
  have v0 : eucl (0, 0) (4000, 1) = Real.sqrt 16000001 := by unfold eucl; norm_num
  have v1 : eucl (4000, 1) (4000, 0) = 1 := by rw [eucl_eq_iff (by norm_num)]; norm_num
  have v2 : eucl (4000, 0) (0, 1) = Real.sqrt 16000001 := by unfold eucl; norm_num
  have v3 : eucl (0, 1) (0, 0) = 1 := by rw [eucl_eq_iff (by norm_num)]; norm_num
  have w1 : 4000 ≤ Real.sqrt 16000001 := Real.le_sqrt_of_sq_le (by norm_num)
  have w2 : Real.sqrt 16000001 ≤ 4001 := (Real.sqrt_le_left (by norm_num)).2 (by norm_num)
  have w3 : Real.sqrt 16000001 * Real.sqrt 16000001 = 16000001 := Real.mul_self_sqrt (by norm_num)
  have h1 : dblEps < stdR.nullDistance := by norm_num [stdR, dblEps]
  have h2 : 0 < stdR.nullAngleValue := by norm_num [stdR]
  have g0 : GoodSeg stdR ((0, 0), (4000, 1)) := ⟨by simp only [v0]; exact le_trans (by norm_num [stdR]) w1, Or.inr (by rw [v0]; norm_num [stdR]; linarith)⟩
  have g1 : GoodSeg stdR ((4000, 1), (4000, 0)) := ⟨by simp only [v1]; norm_num [stdR], Or.inr (by rw [v1]; norm_num [stdR])⟩
  have g2 : GoodSeg stdR ((4000, 0), (0, 1)) := ⟨by simp only [v2]; exact le_trans (by norm_num [stdR]) w1, Or.inr (by rw [v2]; norm_num [stdR]; linarith)⟩
  have g3 : GoodSeg stdR ((0, 1), (0, 0)) := ⟨by simp only [v3]; norm_num [stdR], Or.inr (by rw [v3]; norm_num [stdR])⟩
  refine ⟨[(0, 0), (4000, 1), (4000, 0), (0, 1)], simpleR_true h1 (by simp) ?_ ?_, 0, 2, ((0, 0), (4000, 1)), ((4000, 0), (0, 1)), ⟨rfl, rfl⟩, ⟨rfl, rfl⟩, by simp [NotNeighbours],
    ⟨1 / 2, by norm_num, by norm_num, by norm_num⟩, ⟨1 / 2, by norm_num, by norm_num, by norm_num⟩, by rw [v0]; exact w1, by rw [v2]; exact w1⟩
  · rintro i ⟨p, q⟩ he
    have hi := edge_lt he
    simp only [List.length_cons, List.length_nil] at hi
    obtain ⟨k1, k2⟩ := he
    interval_cases i <;> simp at k1 k2 <;> rw [← k1, ← k2]
    · exact g0.1
    · exact g1.1
    · exact g2.1
    · exact g3.1
  · rintro i j ⟨p, q⟩ ⟨p', q'⟩ he he' hlt hij
    have hi := edge_lt he
    have hj := edge_lt he'
    simp only [List.length_cons, List.length_nil] at hi hj hij
    obtain ⟨a1, a2⟩ := he
    obtain ⟨b1, b2⟩ := he'
    interval_cases i <;> interval_cases j <;> simp [NotNeighbours] at hij <;> first | omega | skip
    all_goals simp at a1 a2 b1 b2; rw [← a1, ← a2, ← b1, ← b2]
    · refine answer_flat h1 g0 g2 (angle_lt_std (c := 15999999 / 16000001) ?_ (by norm_num) (by norm_num))
      simp only [v0, v2]
      rw [w3]; norm_num
    · refine answer_apart h1 h2 g1 g3 ?_
      rintro x x' ⟨k, k0, k1, rfl⟩ ⟨k', k0', k1', rfl⟩
      refine le_trans (b := 4000) (by norm_num [stdR]) (le_trans ?_ (RectM.abs_fst_le _ _))
      simp only
      rw [le_abs]; left; linarith

end H2d.Props
