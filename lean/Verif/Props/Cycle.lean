import Verif.Lemmas.CycleExample
import Verif.Lemmas.CycleFloat
import Verif.Props.FloatSimple
import Mathlib.Tactic.IntervalCases
import Mathlib.Tactic.NormNum

/-!
# C158: the first vertex and the direction of a polygon do not matter
-/

namespace H2d.Props

open H2d H2d.Spec H2d.Cycle H2d.Inside

/-- **C158, intersections** of a closed polyline with a segment, a line, a circle or a polyline (open or closed): the same exception or the same points, the same number of times each. Nothing is asked of
the points: this holds for any closed polyline. -/
theorem C158_intersections (t : Thr ℝ) (pts pts' : List (Pt ℝ)) (h : SameCycle pts pts') :
    (∀ s, UpToOrder (polyInterSeg t true pts s) (polyInterSeg t true pts' s)) ∧
    (∀ li, UpToOrder (polyInterLine t true pts li) (polyInterLine t true pts' li)) ∧
    (∀ c, UpToOrder (polyInterCircle t true pts c) (polyInterCircle t true pts' c)) ∧
    (∀ closed other, UpToOrder (polyInterPoly t true pts closed other) (polyInterPoly t true pts' closed other)) ∧
    (∀ other other', SameCycle other other' → UpToOrder (polyInterPoly t true pts true other) (polyInterPoly t true pts' true other')) :=
  ⟨interSeg_cycle t h, interLine_cycle t h, interCircle_cycle t h, fun _ _ => interPoly_cycle t h _ (upTo_refl _), fun _ _ h' => interPoly_cycle t h true (segs_cycle t h')⟩

/-- **C158, bounding box and simplicity**: they do not change. -/
theorem C158_box (t : Thr ℝ) (pts pts' : List (Pt ℝ)) (h : SameCycle pts pts') :
    polyGetBB t pts = polyGetBB t pts' ∧ isSimple (segInterB t) true pts = isSimple (segInterB t) true pts' :=
  ⟨polyBB_perm t (cycle_perm h), simple_cycle t h⟩

/-- **C158, objects inside the polygon**: point, segment (of two distinct points), rectangle, polyline. The answer is the same, so is the exception if the function gives up. -/
theorem C158_inside (t : Thr ℝ) (ht : dblEps < t.nullDistance) (pts pts' : List (Pt ℝ)) (h : SameCycle pts pts') :
    (∀ p, ptInsidePoly t true pts p = ptInsidePoly t true pts' p) ∧
    (∀ s : Seg, t.nullDistance ≤ eucl s.1 s.2 → segInPoly t pts s = segInPoly t pts' s) ∧
    (∀ r, rectInPoly t r pts = rectInPoly t r pts') ∧
    (∀ closed inner, polyInPoly t closed inner pts = polyInPoly t closed inner pts') :=
  ⟨inside_cycle ht h, fun _ hs => segInPoly_cycle ht h hs, rectInPoly_cycle ht h, fun closed inner => polyInPoly_cycle ht h inner closed⟩

/-- **C158, circle inside the polygon.** The code tests the first vertex only against the circle; the answer is the same with any other one, when the sides give right lines and the test for the center
gives an answer. -/
theorem C158_circle (t : Thr ℝ) (ht : dblEps < t.nullDistance) (pts pts' : List (Pt ℝ)) (h : SameCycle pts pts') (hg : ∀ e ∈ cycPairs pts, GoodSeg t e) (hl : 2 ≤ pts.length) (c : Circle)
    (hok : ptInsidePoly t true pts c.center ≠ .throw) : circInPoly t true pts c = circInPoly t true pts' c := by
  refine circInPoly_cycle ht h hg (by omega) c ?_
  cases hb : ptInsidePoly t true pts c.center with
  | ok b => exact ⟨b, rfl⟩
  | throw => exact absurd hb hok
  | ub => exact absurd hb (Pip.ptInsidePoly_ne_ub t true pts c.center)

/-- **C158, the polygon inside another object**: polygon, or circle, rectangle, ellipse, when no exception is thrown for its vertices. -/
theorem C158_inner (t : Thr ℝ) (pts pts' : List (Pt ℝ)) (h : SameCycle pts pts') :
    (∀ outer, (∀ p ∈ pts, ∃ b, ptInsidePoly t true outer p = .ok b) → polyInPoly t true pts outer = polyInPoly t true pts' outer) ∧
    (∀ sh, (∀ p ∈ pts, ∃ b, ptInShape t sh p = .ok b) → polyInShape t pts sh = polyInShape t pts' sh) :=
  ⟨fun outer hok => inner_cycle t h outer hok, fun sh hok => inShape_cycle t h sh hok⟩

/-- **C158, the condition on the center is needed.** For this polygon and this circle, the answer is "not inside" when the polygon is read from a vertex that is in the circle, but an exception is thrown
when it is read from a vertex that is not. -/
theorem C158_sharp : ∃ (pts pts' : List (Pt ℝ)) (c : Circle), SameCycle pts pts' ∧ circInPoly stdR true pts c = .ok false ∧ circInPoly stdR true pts' c = .throw := by
  have h1 : dblEps < stdR.nullDistance := by norm_num [stdR, dblEps]
  obtain ⟨hs, hi⟩ := seven_throw
  have h : SameCycle [((-1, 0) : Pt ℝ), (-1, -1/2), (-1, -3/4), (-1, -7/8), (-1, -15/16), (1, -1), (1, 1)] [(1, 1), (-1, 0), (-1, -1/2), (-1, -3/4), (-1, -7/8), (-1, -15/16), (1, -1)] := ⟨6, .inl rfl⟩
  refine ⟨_, _, ⟨(0, 0), 6 / 5⟩, h, ?_, ?_⟩
  · rw [circInPoly_eq hs rfl, if_pos]
    show ptDist _ _ < _
    rw [ptDist_eucl]
    norm_num [eucl]
  · rw [(C158_box stdR _ _ h).2] at hs
    rw [(C158_inside stdR h1 _ _ h).1] at hi
    rw [circInPoly_eq hs rfl, if_neg]
    · simp only
      rw [hi]
      rfl
    · show ¬ ptDist _ _ < _
      rw [ptDist_eucl, not_lt, eucl]
      apply Real.le_sqrt_of_sq_le
      norm_num

/-- **C158 with floating-point numbers, intersections.** Whatever the format and the errors of rounding, the computed points are the same ones, bit for bit (only their order may differ), or the same exception
is thrown; nothing is asked of the points, the thresholds and the computed arc cosine. -/
theorem C158_float_intersections {F : Arith} {u v : ℝ} (hF : FlOk F u v) (t : Thr ℝ) (ac : ℝ → ℝ) (pts pts' : List (Pt ℝ)) (h : SameCycle pts pts') :
    (∀ s, UpToOrder (Fl.polyInterSeg F t ac true pts s) (Fl.polyInterSeg F t ac true pts' s)) ∧
    (∀ li, UpToOrder (Fl.polyInterLine F t ac true pts li) (Fl.polyInterLine F t ac true pts' li)) ∧
    (∀ closed other, UpToOrder (Fl.polyInterPoly F t ac true pts closed other) (Fl.polyInterPoly F t ac true pts' closed other)) ∧
    (∀ other other', SameCycle other other' → UpToOrder (Fl.polyInterPoly F t ac true pts true other) (Fl.polyInterPoly F t ac true pts' true other')) ∧
    (∀ c r, UpToOrderNaN (Fl.polyInterCircle F t true pts c r) (Fl.polyInterCircle F t true pts' c r)) ∧
    Fl.polyGetBB F t pts = Fl.polyGetBB F t pts' :=
  ⟨finterSeg_cycle hF t ac h, finterLine_cycle hF t ac h, fun _ _ => finterPoly_cycle t ac (fsegs_cycle hF t h) (upTo_refl _),
    fun _ _ h' => finterPoly_cycle t ac (fsegs_cycle hF t h) (fsegs_cycle hF t h'), finterCircle_cycle hF t h, fBB_perm t (cycle_perm h)⟩

/-- **C158 with floating-point numbers, inside.** For edges longer than twice the null distance: the answer about being simple, and the answers for a point, a segment, a rectangle and a polyline, are the same, also
when they are wrong because of the rounding, or when the function gives up. -/
theorem C158_float_inside {F : Arith} {u v : ℝ} (hF : FlOk F u v) (t : Thr ℝ) (ht : 2 * dblEps ≤ t.nullDistance) (ac : ℝ → ℝ) (Λ : ℝ) (pts pts' : List (Pt ℝ)) (h : SameCycle pts pts') (hp : EdgesOk F t Λ pts) :
    Fl.simpleF F t ac true pts = Fl.simpleF F t ac true pts' ∧
    (∀ p, Fl.ptInsidePoly F t ac true pts p = Fl.ptInsidePoly F t ac true pts' p) ∧
    (∀ s : Seg, (Rep F s.1.1 ∧ Rep F s.1.2) ∧ (Rep F s.2.1 ∧ Rep F s.2.2) ∧ ¬ Fl.PtSame F t s.1 s.2 → Fl.segInPoly F t ac pts s = Fl.segInPoly F t ac pts' s) ∧
    (∀ r, Fl.rectInPoly F t ac r pts = Fl.rectInPoly F t ac r pts') ∧
    (∀ closed inner, Fl.polyInPoly F t ac closed inner pts = Fl.polyInPoly F t ac closed inner pts') :=
  ⟨fsimple_cycle hF ht ac h hp, finside_cycle hF ht ac h hp, fun _ hs => fsegIn_cycle hF ht ac h hp hs, frectIn_cycle hF ht ac h hp, fpolyIn_cycle hF ht ac h hp⟩

/-- The hypotheses are met by a square read from its third vertex in the other direction, the standard thresholds, a circle in it. -/
example : SameCycle sq4 [(4, 4), (4, 0), (0, 0), (0, 4)] ∧ dblEps < stdR.nullDistance ∧ (∀ e ∈ cycPairs sq4, GoodSeg stdR e) ∧ 2 ≤ sq4.length ∧ ptInsidePoly stdR true sq4 (1, 2) ≠ .throw := by
  refine ⟨⟨1, .inr rfl⟩, by norm_num [stdR, dblEps], ?_, by simp [sq4], ?_⟩
  · simp only [sq4, cycPairs, List.zip_cons_cons, List.tail_cons, List.take_succ_cons, List.take_zero, List.cons_append, List.nil_append, List.forall_mem_cons, List.zip_nil_right, List.not_mem_nil, false_imp_iff, implies_true, and_true]
    exact ⟨Pip.goodSeg_of (by norm_num) (by norm_num), Pip.goodSeg_of (by norm_num) (by norm_num), Pip.goodSeg_of (by norm_num) (by norm_num), Pip.goodSeg_of (by norm_num) (by norm_num)⟩
  · rw [sq4_in (.inl rfl) (.inl rfl)]; simp

/-- The hypotheses are met by a rectangle, double precision and the standard thresholds. -/
example : FlOk (Fl.binary 53) (2 ^ (-(53 : ℤ))) (2 ^ (-(53 : ℤ))) ∧ 2 * dblEps ≤ stdR.nullDistance ∧ EdgesOk (Fl.binary 53) stdR 4 [(0, 0), (4, 0), (4, 3), (0, 3)] := by
  have v0 : eucl (0, 0) (4, 0) = 4 := by rw [eucl_eq_iff (by norm_num)]; norm_num
  have v1 : eucl (4, 0) (4, 3) = 3 := by rw [eucl_eq_iff (by norm_num)]; norm_num
  have v2 : eucl (4, 3) (0, 3) = 4 := by rw [eucl_eq_iff (by norm_num)]; norm_num
  have v3 : eucl (0, 3) (0, 0) = 3 := by rw [eucl_eq_iff (by norm_num)]; norm_num
  have r (k : ℤ) (hk : |k| ≤ 4) : Rep (Fl.binary 53) k := Fl.rep_small hk
  refine ⟨Fl.binary_ok (p := 53) (by norm_num), by norm_num [stdR, dblEps], ?_, ?_⟩
  · have r0 := r 0 (by norm_num)
    have r3 := r 3 (by norm_num)
    have r4 := r 4 (by norm_num)
    push_cast at r0 r3 r4
    intro p hp
    simp only [List.mem_cons, List.not_mem_nil, or_false] at hp
    rcases hp with rfl | rfl | rfl | rfl <;> simp [r0, r3, r4]
  · rintro i ⟨p, q⟩ he
    have hi := edge_lt he
    simp only [List.length_cons, List.length_nil] at hi
    obtain ⟨k1, k2⟩ := he
    interval_cases i <;> simp at k1 k2 <;> rw [← k1, ← k2] <;> simp only [v0, v1, v2, v3] <;> constructor <;> norm_num [stdR]

end H2d.Props
