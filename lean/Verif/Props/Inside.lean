import Verif.Lemmas.InsideEx
import Verif.Lemmas.Ellipse
import Verif.Props.Ellipse

/-!
# C76-C79: containment of an object in another one, intersections of polylines

Exact reals, thresholds are parameters.
-/

set_option linter.unusedSimpArgs false

namespace H2d.Props
open H2d H2d.Spec H2d.Inside

/-! ## C76: containment in a convex shape -/

/-- **C76, circles.** A segment, a (non-empty) polyline, a rectangle is said inside a circle exactly when all its points are strictly inside. -/
theorem C76_circle (t : Thr ℝ) (c : Circle) :
    (∀ s : Seg, ∃ b, segInShape t s (.circle c) = .ok b ∧ (b = true ↔ Within (.seg s.1 s.2) (fun q => InDisk q c))) ∧
    (∀ closed pts, pts ≠ [] → ∃ b, polyInShape t pts (.circle c) = .ok b ∧ (b = true ↔ Within (.poly closed pts) (fun q => InDisk q c))) ∧
    (∀ r : FRect ℝ, r.p1.1 ≤ r.p2.1 ∧ r.p1.2 ≤ r.p2.2 →
      ∃ b, rectInShape t r (.circle c) = .ok b ∧ (b = true ↔ Within (.rect r) (fun q => InDisk q c))) := by
  refine inShape_spec (convex_disk c) (fun p => ⟨_, rfl, ?_⟩)
  rw [decide_eq_true_eq, PtInCircle, ptDist_eucl, InDisk]

/-- **C76, rectangles.** Same for containment in a rectangle. -/
theorem C76_rect (t : Thr ℝ) (R : FRect ℝ) :
    (∀ s : Seg, ∃ b, segInShape t s (.rect R) = .ok b ∧ (b = true ↔ Within (.seg s.1 s.2) (InBox R))) ∧
    (∀ closed pts, pts ≠ [] → ∃ b, polyInShape t pts (.rect R) = .ok b ∧ (b = true ↔ Within (.poly closed pts) (InBox R))) ∧
    (∀ r : FRect ℝ, r.p1.1 ≤ r.p2.1 ∧ r.p1.2 ≤ r.p2.2 → ∃ b, rectInShape t r (.rect R) = .ok b ∧ (b = true ↔ Within (.rect r) (InBox R))) :=
  inShape_spec (convex_box R) (fun p => ⟨_, rfl, by rw [Pip.insideRect_iff]; rfl⟩)

/-- **C76, ellipses (partial).** Same for containment in an ellipse, under the conditions of `C56_inside_partial`.
Missing: ellipses whose major axis is nearly vertical, very small ellipses, for which containment of points is wrong (`C56_false`). -/
theorem C76_ellipse_partial (t : Thr ℝ) (x y a b th : ℝ) (ht : 0 < t.nullDenom) (hb : 0 < b) (hab : b ≤ a)
    (hbig : t.nullDenom ≤ 4 * a ^ 2 * b ^ 2) (hok : AngleOk t a b th) :
    (∀ s : Seg, ∃ r, segInShape t s (.ell (Ell.new x y a b th)) = .ok r ∧ (r = true ↔ Within (.seg s.1 s.2) (InsideEll x y a b th))) ∧
    (∀ closed pts, pts ≠ [] → ∃ r, polyInShape t pts (.ell (Ell.new x y a b th)) = .ok r ∧ (r = true ↔ Within (.poly closed pts) (InsideEll x y a b th))) ∧
    (∀ R : FRect ℝ, R.p1.1 ≤ R.p2.1 ∧ R.p1.2 ≤ R.p2.2 →
      ∃ r, rectInShape t R (.ell (Ell.new x y a b th)) = .ok r ∧ (r = true ↔ Within (.rect R) (InsideEll x y a b th))) :=
  inShape_spec (convex_ell x y a b th) (fun p => C56_inside_partial t x y a b th ht hb hab hbig hok p)

/-- **C76**: an empty polyline is not inside anything. -/
theorem C76_empty (t : Thr ℝ) (sh : Shape) : polyInShape t [] sh = .ok false := rfl

/-- The triangle (1,1), (2,1), (1,2) is inside the circle of center (1,1) and radius 2, it is not inside the one of radius 1. -/
example (t : Thr ℝ) : polyInShape t [(1, 1), (2, 1), (1, 2)] (.circle ⟨(1, 1), 2⟩) = .ok true ∧
    polyInShape t [(1, 1), (2, 1), (1, 2)] (.circle ⟨(1, 1), 1⟩) = .ok false := by
  norm_num [polyInShape, ptInShape, allRes, PtInCircle, ptDist]

/-! ## C77: circle inside a polygon -/

/-- **C77 (partial).** For a simple polygon, when an answer is given for the center of the circle, one is given for the circle: "inside" exactly when all the points of the disk
are inside the polygon by the even-odd rule, and none on its contour.
Missing: center close to the supporting line of an edge (`C77_false`), or for which an exception is thrown (`C77_throw_false`); vertices closer to the
circle than the null distance; situations in which intersections are not computed right, excluded by `GoodRefs`. -/
theorem C77_partial (t : Thr ℝ) (h1 : dblEps < t.nullDistance) (h2 : 0 < t.nullAngleValue) (ho : 0 < t.nullOrthogDistance) (pts : List (Pt ℝ)) (c : Circle)
    (hr : 0 ≤ c.radius) (hs : isSimple (segInterB t) true pts = true) (hg : GoodRefs t pts c.center) (hf : FarFromLines t.nullDistance pts c.center)
    (hcl : ClearOfCircle t.nullDistance pts c) (b' : Bool) (h : ptInsidePoly t true pts c.center = .ok b') :
    ∃ b, circInPoly t true pts c = .ok b ∧ (b = true ↔ ∀ q, eucl q c.center ≤ c.radius → EvenOdd pts q ∧ ¬ OnContour pts q) := by
  have h0 := dblEps_pos
  have hE := C74_partial t h1 h2 ho pts c.center hs hg hf b' h
  obtain ⟨h3, lo, hi, hT, w1, w2, hcase⟩ := Pip.answer_cases ho hs h
  obtain ⟨v, l, hp⟩ : ∃ v l, pts = v :: l := by
    cases pts with
    | nil => simp at h3
    | cons v l => exact ⟨v, l, rfl⟩
  have hv : v ∈ pts := by rw [hp]; simp
  obtain ⟨ev, hev, hev1⟩ := Pip.edges_of_mem hv
  have hvc : OnContour pts v := ⟨ev, hev, by rw [← hev1]; exact onSeg_left _ _⟩
  have hcc : eucl c.center c.center ≤ c.radius := by rw [eucl_self]; exact hr
  rw [circInPoly_eq hs hp, h]
  by_cases hin : PtInCircle v c
  · rw [if_pos hin]
    refine ⟨false, rfl, ?_⟩
    rw [PtInCircle, ptDist_eucl] at hin
    simp only [Bool.false_eq_true, false_iff]
    intro hh
    exact (hh v hin.le).2 hvc
  · rw [if_neg hin]
    rw [PtInCircle, ptDist_eucl, not_lt] at hin
    cases b' with
    | false =>
      refine ⟨false, rfl, ?_⟩
      simp only [Bool.false_eq_true, false_iff]
      intro hh
      exact absurd (hE.2 (hh _ hcc).1) (by simp)
    | true =>
      rcases hcase with ⟨hb, -⟩ | ⟨-, hlen, -⟩
      · cases hb
      have hgood : GoodEdges t pts := fun e he => ⟨hlen e he, hg.1 e he⟩
      have hcirc : ∀ e ∈ polyEdges pts, ∃ r, segCircle t (fixOrder e.1 e.2) c.center c.radius = .ok r ∧
          ∀ q, q ∈ r ↔ OnSeg e.1 e.2 q ∧ eucl q c.center = c.radius := by
        intro e he
        have hm := Pip.edges_mem he
        have hends : ∀ p, p = (fixOrder e.1 e.2).1 ∨ p = (fixOrder e.1 e.2).2 → t.nullDistance ≤ |eucl p c.center - c.radius| := by
          intro p hp
          rcases Pip.fixOrder_cases e.1 e.2 with hx | hx <;> rw [hx] at hp <;> rcases hp with rfl | rfl
          · exact hcl _ hm.1
          · exact hcl _ hm.2
          · exact hcl _ hm.2
          · exact hcl _ hm.1
        obtain ⟨r, hr1, hr2⟩ := C66_circle_partial t h1 _ (goodSeg_fix (hgood e he)) c.center c.radius hr (hends _ (Or.inl rfl)) (hends _ (Or.inr rfl))
        exact ⟨r, hr1, fun q => by rw [hr2, Pip.onSeg_fix]⟩
      obtain ⟨r, hres⟩ := concatRes_spec (f := fun e : Seg => segCircle t e c.center c.radius) ((polyEdges pts).map (fun e => fixOrder e.1 e.2)) (by
        intro a ha
        obtain ⟨e, he, rfl⟩ := List.mem_map.1 ha
        obtain ⟨r, hr1, -⟩ := hcirc e he
        exact ⟨r, hr1⟩)
      obtain ⟨m1, m2⟩ := concatRes_ok _ _ hres
      have hall : polyInterCircle t true pts c = .ok r := by
        unfold polyInterCircle
        rw [Pip.segPairs_edges h3, Pip.polySegs_ok t _ hlen]
        exact hres
      refine ⟨r.isEmpty, by rw [Res.bind_ok, hall]; rfl, ?_⟩
      rw [List.isEmpty_iff]
      constructor
      · intro hnil
        have hout := contour_out hp hin (by
          intro e he q hq heq
          obtain ⟨i, hi1, hi2⟩ := m1 _ (List.mem_map_of_mem (f := fun e : Seg => fixOrder e.1 e.2) he)
          obtain ⟨j, hj1, hj2⟩ := hcirc e he
          rw [hj1] at hi1
          cases hi1
          have := hi2 q ((hj2 q).2 ⟨hq, heq⟩)
          rw [hnil] at this
          cases this)
        intro q hq
        refine ⟨disk_inside (hE.1 rfl) hout q hq, ?_⟩
        rintro ⟨e, he, hqe⟩
        have := hout e he q hqe
        linarith
      · intro hh
        rw [List.eq_nil_iff_forall_not_mem]
        intro q hq
        obtain ⟨a, ha, i, hi, hqi⟩ := m2 q hq
        obtain ⟨e, he, rfl⟩ := List.mem_map.1 ha
        obtain ⟨j, hj1, hj2⟩ := hcirc e he
        rw [hj1] at hi
        cases hi
        obtain ⟨k1, k2⟩ := (hj2 q).1 hqi
        exact (hh q k2.le).2 ⟨e, he, k1⟩

/-- **C77**: nothing is inside an open polyline, or a polygon that is not simple. -/
theorem C77_not_simple (t : Thr ℝ) (closed : Bool) (pts : List (Pt ℝ)) (c : Circle) (h : closed = false ∨ isSimple (segInterB t) closed pts = false) :
    circInPoly t closed pts c = .ok false := by
  have : isSimple (segInterB t) closed pts = false := by
    rcases h with rfl | h
    · unfold isSimple; split_ifs <;> simp_all
    · exact h
  unfold circInPoly
  rw [this]; rfl

/-- Value for a polygon of which the first point is outside of the circle, when an answer is given for the center. -/
theorem C77_center (t : Thr ℝ) (pts : List (Pt ℝ)) (c : Circle) (hs : isSimple (segInterB t) true pts = true)
    (hv : ∀ v ∈ pts, c.radius ≤ eucl v c.center) (hc : ptInsidePoly t true pts c.center ≠ .ok true) :
    circInPoly t true pts c = ptInsidePoly t true pts c.center := by
  have h3 : 3 ≤ pts.length := by
    rw [isSimple_eq] at hs
    simp only [Bool.and_eq_true, decide_eq_true_eq] at hs
    exact hs.1
  unfold circInPoly
  rw [hs]
  simp only [Bool.not_true, Bool.false_eq_true, if_false]
  rcases pts with _ | ⟨v, l⟩
  · simp at h3
  · simp only
    rw [if_neg (by rw [PtInCircle, ptDist_eucl, not_lt]; exact hv v (by simp))]
    rcases hr : ptInsidePoly t true (v :: l) c.center with b | _ | _
    · cases b
      · rfl
      · exact absurd hr hc
    · rfl
    · rfl

/-- **C77 is false** for a center on the supporting line of an edge: the disk is inside the polygon, with a margin 1/4, but is said not to be. -/
theorem C77_false : ∃ (pts : List (Pt ℝ)) (c : Circle), 0 < c.radius ∧ isSimple (segInterB stdR) true pts = true ∧
    (∀ q, eucl q c.center ≤ c.radius → EvenOdd pts q ∧ FarFromContour (1 / 4) pts q) ∧ circInPoly stdR true pts c = .ok false := by
  obtain ⟨pts, p, hs, he, hf, hn⟩ := C74_false
  have hfar : ∀ q, eucl q p ≤ 1 / 4 → EvenOdd pts q ∧ FarFromContour (1 / 4) pts q := by
    intro q hq
    refine ⟨disk_inside (r := 1 / 4) he (fun e hm x hx => ?_) q hq, fun e hm x hx => ?_⟩
    · have := hf e hm x hx; rw [eucl_comm] at this; linarith
    · have h3 := hf e hm x hx
      have h4 := eucl_triangle p q x
      rw [eucl_comm p q] at h4
      linarith
  refine ⟨pts, ⟨p, 1 / 4⟩, by norm_num, hs, hfar, ?_⟩
  rw [C77_center stdR pts ⟨p, 1 / 4⟩ hs ?_ (by simp only [hn]; simp), hn]
  intro v hv
  obtain ⟨e, hm, h1⟩ := Pip.edges_of_mem hv
  have := hf e hm v (by rw [← h1]; exact onSeg_left _ _)
  rw [eucl_comm] at this
  simp only; linarith

/-- **C77 is false**: an exception is thrown for a disk that is inside the polygon, with a margin 1/5. -/
theorem C77_throw_false : ∃ (pts : List (Pt ℝ)) (c : Circle), 0 < c.radius ∧ isSimple (segInterB stdR) true pts = true ∧
    (∀ q, eucl q c.center ≤ c.radius → EvenOdd pts q ∧ FarFromContour (1 / 5) pts q) ∧ circInPoly stdR true pts c = .throw := by
  obtain ⟨pts, p, hs, he, hf, hn⟩ := C74_throw_false
  have hfar : ∀ q, eucl q p ≤ 1 / 5 → EvenOdd pts q ∧ FarFromContour (1 / 5) pts q := by
    intro q hq
    refine ⟨disk_inside (r := 1 / 5) he (fun e hm x hx => ?_) q hq, fun e hm x hx => ?_⟩
    · have := hf e hm x hx; rw [eucl_comm] at this; linarith
    · have h3 := hf e hm x hx
      have h4 := eucl_triangle p q x
      rw [eucl_comm p q] at h4
      linarith
  refine ⟨pts, ⟨p, 1 / 5⟩, by norm_num, hs, hfar, ?_⟩
  rw [C77_center stdR pts ⟨p, 1 / 5⟩ hs ?_ (by simp only [hn]; simp), hn]
  intro v hv
  obtain ⟨e, hm, h1⟩ := Pip.edges_of_mem hv
  have := hf e hm v (by rw [← h1]; exact onSeg_left _ _)
  rw [eucl_comm] at this
  simp only; linarith

/-- The hypotheses of C77 are met: the disk of center (1, 2) and radius 1/2 is found inside the square of side 4. -/
example : circInPoly stdR true [((0, 0) : Pt ℝ), (4, 0), (4, 4), (0, 4)] ⟨(1, 2), 1 / 2⟩ = .ok true := by
  have hfar : ∀ v ∈ sq4, 1 ≤ eucl v (1, 2) := by
    simp only [List.forall_mem_cons, List.not_mem_nil, false_imp_iff, implies_true, and_true]
    refine ⟨?_, ?_, ?_, ?_⟩ <;> apply Pip.le_eucl <;> norm_num
  obtain ⟨b, hb, h⟩ := C77_partial stdR std1 (by norm_num [stdR]) (by norm_num [stdR]) sq4 ⟨(1, 2), 1 / 2⟩ (by norm_num) sq4_simple
    (sq4_refs (Or.inl rfl) (Or.inl rfl)) (sq4_lines (by norm_num)) (by
      intro v hv
      have := hfar v hv
      rw [abs_of_nonneg (by simp only; linarith)]
      simp only [stdR]; norm_num; linarith) true (sq4_in (Or.inl rfl) (Or.inl rfl))
  rw [hb, h.2]
  obtain ⟨-, -, hE, hF, -⟩ := inside_facts std1 (by norm_num [stdR]) (by norm_num [stdR]) (sq4_refs (Or.inl rfl) (Or.inl rfl)) (sq4_in (Or.inl rfl) (Or.inl rfl))
  have hout : ∀ e ∈ polyEdges sq4, ∀ x, OnSeg e.1 e.2 x → 1 / 2 < eucl x (1, 2) := by
    rw [sq4_edges]
    simp only [List.forall_mem_cons, List.not_mem_nil, false_imp_iff, implies_true, and_true]
    refine ⟨?_, ?_, ?_, ?_⟩
    all_goals
      rintro q ⟨s, s0, s1, rfl⟩
      refine lt_of_lt_of_le (show (1 / 2 : ℝ) < 1 by norm_num) (Pip.le_eucl ?_)
      simp only
      nlinarith [sq_nonneg (4 * s - 1), sq_nonneg (4 * s - 3), sq_nonneg (4 * s - 2)]
  intro q hq
  refine ⟨disk_inside hE hout q hq, ?_⟩
  rintro ⟨e, he, ho⟩
  have := hout e he q ho
  simp only at hq
  linarith

end H2d.Props
