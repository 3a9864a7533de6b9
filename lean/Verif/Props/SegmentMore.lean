import Verif.Lemmas.Segment
import Verif.Props.Line

/-!
# C66-C71: more operations on segments

Exact reals, thresholds are parameters.
-/

set_option linter.unusedSectionVars false
set_option linter.unusedSimpArgs false

namespace H2d.Props

open H2d.Spec

/-! ## C66 -/

/-- **C66 (partial).** When no end of the segment is closer to the circle than the null distance, the points reported are exactly the common points of the segment and the circle.
Missing: ends close to the circle, for which it is false (`C66_false`); nearly horizontal segments (`C01_false`). -/
theorem C66_circle_partial (t : Thr ℝ) (h1 : dblEps < t.nullDistance) (s : Seg) (hs : GoodSeg t s) (c : Pt ℝ) (r : ℝ) (hr : 0 ≤ r)
    (he1 : t.nullDistance ≤ |eucl s.1 c - r|) (he2 : t.nullDistance ≤ |eucl s.2 c - r|) :
    ∃ pts, segCircle t s c r = .ok pts ∧ ∀ q, q ∈ pts ↔ OnSeg s.1 s.2 q ∧ eucl q c = r := by
  have hp := dblEps_pos
  have hd : 0 < eucl s.1 s.2 := by linarith [hs.1]
  obtain ⟨l, e1, e2, -, e3⟩ := segLine_spec h1 hs.1
  obtain ⟨a1, a2⟩ := e3 hs.2
  obtain ⟨hn, hsm⟩ := C08_circle l e2.1.proper c r hr
  have tag : ∀ p, t.nullDistance ≤ |eucl p c - r| → ptLabel t p c r = if eucl p c < r then .inside else .outside := by
    intro p hp; unfold ptLabel; simp only [ptDist_eucl]
    split_ifs with h3 h4
    · rfl
    · exact absurd h4 (not_lt.2 hp)
    · rfl
  have hq0 : ∀ q, OnSeg s.1 s.2 q ↔ ∃ k, 0 ≤ k ∧ k ≤ 1 ∧ q = along s k := fun q => Iff.rfl
  unfold segCircle
  simp only [tag _ he1, tag _ he2]
  by_cases hin : eucl s.1 c < r ∧ eucl s.2 c < r
  · rw [if_pos (by simp [hin.1, hin.2])]
    refine ⟨[], rfl, fun q => ?_⟩
    constructor
    · intro h; cases h
    · rintro ⟨⟨k, k0, k1, rfl⟩, he⟩
      exfalso
      have h3 := eucl_along_sq s c k
      unfold along at h3
      rw [he] at h3
      have := eucl_nonneg s.1 c
      have := eucl_nonneg s.2 c
      have i1 : eucl s.1 c ^ 2 < r ^ 2 := by nlinarith [hin.1]
      have i2 : eucl s.2 c ^ 2 < r ^ 2 := by nlinarith [hin.2]
      have i3 : 0 ≤ k * (1 - k) * eucl s.1 s.2 ^ 2 := mul_nonneg (mul_nonneg k0 (by linarith)) (sq_nonneg _)
      rcases eq_or_lt_of_le k0 with rfl | k0'
      · linarith
      · nlinarith
  · rw [if_neg (by
      intro h
      apply hin
      constructor
      · by_contra h'; simp [h'] at h
      · by_contra h'; simp [h'] at h), show segLine t s = .ok l from e1, Res.bind_ok]
    rcases hc : lineCircle l c r with _ | ⟨p1, p2⟩
    · refine ⟨[], rfl, fun q => ⟨fun h => absurd h List.not_mem_nil, ?_⟩⟩
      rintro ⟨⟨k, -, -, rfl⟩, he⟩
      exact absurd ⟨_, on_along a1 a2 k, he⟩ (hn.1 hc)
    · obtain ⟨-, -, d1, d2, -, d3⟩ := hsm _ _ hc
      obtain ⟨k1, k2, rfl, rfl, hk⟩ := lineCircle_param e2.1 hd a1 a2 c hc hr
      have f0 := hk 0
      have f1 := hk 1
      rw [along_zero] at f0
      rw [along_one] at f1
      have hL2 : 0 < eucl s.1 s.2 ^ 2 := pow_pos hd 2
      -- the intersection points are not too close to the ends
      have o1 : t.nullDistance ≤ |k1| * eucl s.1 s.2 := by
        rw [← eucl_along_left]
        refine le_trans he1 ?_
        rw [abs_le]
        have t1 := eucl_triangle s.1 (along s k1) c
        have t2 := eucl_triangle (along s k1) s.1 c
        rw [eucl_comm (along s k1) s.1] at t2
        rw [d1] at t1 t2
        constructor <;> linarith
      have o2 : t.nullDistance ≤ |1 - k1| * eucl s.1 s.2 := by
        rw [← eucl_along_right]
        refine le_trans he2 ?_
        rw [abs_le]
        have t1 := eucl_triangle s.2 (along s k1) c
        have t2 := eucl_triangle (along s k1) s.2 c
        rw [eucl_comm (along s k1) s.2] at t2
        rw [d1] at t1 t2
        constructor <;> linarith
      have hmem : ∀ q, (OnSeg s.1 s.2 q ∧ eucl q c = r) ↔ (0 ≤ k1 ∧ k1 ≤ 1 ∧ q = along s k1) ∨ (0 ≤ k2 ∧ k2 ≤ 1 ∧ q = along s k2) := by
        intro q
        constructor
        · rintro ⟨⟨k, h0, h1, rfl⟩, he⟩
          have hz : eucl (along s k) c ^ 2 - r ^ 2 = 0 := by unfold along; rw [he]; ring
          rw [hk] at hz
          rcases mul_eq_zero.1 hz with h | h
          · exact absurd h hL2.ne'
          · rcases mul_eq_zero.1 h with h | h
            · left; have : k = k1 := by linarith
              subst this; exact ⟨h0, h1, rfl⟩
            · right; have : k = k2 := by linarith
              subst this; exact ⟨h0, h1, rfl⟩
        · rintro (⟨h0, h1, rfl⟩ | ⟨h0, h1, rfl⟩)
          · exact ⟨⟨k1, h0, h1, rfl⟩, d1⟩
          · exact ⟨⟨k2, h0, h1, rfl⟩, d2⟩
      have htest : |ptDist s.1 (along s k1) + ptDist s.2 (along s k1) - segLength s| < t.nullDistance ↔ 0 ≤ k1 ∧ k1 ≤ 1 := by
        rw [sum_test hd]
        constructor
        · rintro ⟨-, h3, h4⟩
          constructor
          · by_contra hneg
            rw [abs_of_neg (not_le.1 hneg)] at o1; linarith
          · by_contra hneg
            rw [abs_of_neg (by linarith [not_le.1 hneg])] at o2; linarith
        · rintro ⟨h3, h4⟩
          have := mul_nonneg h3 hd.le
          have : (k1 - 1) * eucl s.1 s.2 ≤ 0 := mul_nonpos_of_nonpos_of_nonneg (by linarith) hd.le
          exact ⟨by linarith, by linarith, by linarith⟩
      have sgn : ∀ p, t.nullDistance ≤ |eucl p c - r| → ¬ eucl p c < r → 0 < eucl p c ^ 2 - r ^ 2 := by
        intro p h3 h4
        rw [abs_of_nonneg (by linarith)] at h3
        nlinarith
      have sgn' : ∀ p, eucl p c < r → eucl p c ^ 2 - r ^ 2 < 0 := by
        intro p h4
        have := eucl_nonneg p c
        nlinarith
      have g0 : 0 < eucl s.1 s.2 ^ 2 * ((0 - k1) * (0 - k2)) → 0 < k1 * k2 := by
        intro h; have := pos_of_mul_pos_right h hL2.le; linarith
      have g0' : eucl s.1 s.2 ^ 2 * ((0 - k1) * (0 - k2)) < 0 → k1 * k2 < 0 := by
        intro h; by_contra hh; have := mul_nonneg hL2.le (not_lt.1 hh); nlinarith
      have g1 : 0 < eucl s.1 s.2 ^ 2 * ((1 - k1) * (1 - k2)) → 0 < (1 - k1) * (1 - k2) := fun h => pos_of_mul_pos_right h hL2.le
      have g1' : eucl s.1 s.2 ^ 2 * ((1 - k1) * (1 - k2)) < 0 → (1 - k1) * (1 - k2) < 0 := by
        intro h; by_contra hh; have := mul_nonneg hL2.le (not_lt.1 hh); linarith
      by_cases i1 : eucl s.1 c < r
      · by_cases i2 : eucl s.2 c < r
        · exact absurd ⟨i1, i2⟩ hin
        · have s0 := sgn' _ i1
          have s1 := sgn _ he2 i2
          rw [f0] at s0; rw [f1] at s1
          have s0 := g0' s0
          have s1 := g1 s1
          simp only [i1, i2, if_true, if_false, reduceCtorEq, and_self, and_true, true_or, htest]
          obtain ⟨w1, w2⟩ := roots_in_out s0 s1
          by_cases hk1 : 0 ≤ k1 ∧ k1 ≤ 1
          · rw [if_pos hk1]
            refine ⟨_, rfl, fun q => ?_⟩
            rw [hmem]
            simp [hk1.1, hk1.2, w1 hk1]
          · rw [if_neg hk1]
            refine ⟨_, rfl, fun q => ?_⟩
            rw [hmem]
            obtain ⟨x1, x2, x3⟩ := w2 hk1
            simp [x1.not_ge, x2, x3]
      · by_cases i2 : eucl s.2 c < r
        · have s0 := sgn _ he1 i1
          have s1 := sgn' _ i2
          rw [f0] at s0; rw [f1] at s1
          have s0 := g0 s0
          have s1 := g1' s1
          simp only [i1, i2, if_true, if_false, reduceCtorEq, and_self, and_true, or_true, htest]
          obtain ⟨w1, w2⟩ := roots_out_in s0 s1
          by_cases hk1 : 0 ≤ k1 ∧ k1 ≤ 1
          · rw [if_pos hk1]
            refine ⟨_, rfl, fun q => ?_⟩
            rw [hmem]
            simp [hk1.1, hk1.2, w1 hk1]
          · rw [if_neg hk1]
            refine ⟨_, rfl, fun q => ?_⟩
            rw [hmem]
            obtain ⟨x1, x2, x3⟩ := w2 hk1
            simp [x1.not_ge, x2, x3]
        · have s0 := sgn _ he1 i1
          have s1 := sgn _ he2 i2
          rw [f0] at s0; rw [f1] at s1
          have s0 := g0 s0
          have s1 := g1 s1
          have htest' : t.nullDistance ≤ |ptDist s.1 (along s k1) + ptDist s.2 (along s k1) - segLength s| ↔ ¬ (0 ≤ k1 ∧ k1 ≤ 1) := by
            rw [← not_lt, htest]
          simp only [i1, i2, if_true, if_false, reduceCtorEq, and_self, and_false, false_and, or_self, htest', ite_not]
          obtain ⟨w1, w2⟩ := roots_out_out s0 s1
          by_cases hk1 : 0 ≤ k1 ∧ k1 ≤ 1
          · rw [if_pos hk1]
            refine ⟨_, rfl, fun q => ?_⟩
            rw [hmem]
            obtain ⟨x1, x2⟩ := w1 hk1
            simp [hk1.1, hk1.2, x1, x2]
          · rw [if_neg hk1]
            refine ⟨_, rfl, fun q => ?_⟩
            rw [hmem]
            have := w2 hk1
            constructor
            · intro h; cases h
            · rintro (⟨a, b, -⟩ | ⟨a, b, -⟩)
              · exact absurd ⟨a, b⟩ hk1
              · exact absurd ⟨a, b⟩ this

/-- **C66 is false** when one end is on the circle: the segment from (-2,0) to (1,0) crosses the unit circle at (-1,0), and only (1,0) is reported. -/
theorem C66_false (t : Thr ℝ) (h1 : dblEps < t.nullDistance) (h1' : t.nullDistance ≤ 1) :
    ∃ s c r q pts, segMake t false s.1 s.2 = .ok s ∧ segCircle t s c r = .ok pts ∧ pts ≠ [] ∧ OnSeg s.1 s.2 q ∧ eucl q c = r ∧ q ∉ pts := by
  have hp := dblEps_pos
  have l1 : eucl (-2, 0) (1, 0) = 3 := by rw [eucl_eq_iff (by norm_num)]; norm_num
  have l2 : eucl (-2, 0) (0, 0) = 2 := by rw [eucl_eq_iff (by norm_num)]; norm_num
  have l3 : eucl (1, 0) (0, 0) = 1 := by rw [eucl_eq_iff (by norm_num)]; norm_num
  obtain ⟨l, e1, e2, -, e3⟩ := segLine_spec h1 (a := (-2, 0)) (b := (1, 0)) (by rw [l1]; linarith)
  obtain ⟨a1, a2⟩ := e3 (Or.inl rfl)
  refine ⟨((-2, 0), (1, 0)), (0, 0), 1, (-1, 0), [(1, 0)], ?_, ?_, by simp, ⟨1 / 3, by norm_num, by norm_num, by norm_num⟩, by rw [eucl_eq_iff (by norm_num)]; norm_num, by norm_num⟩
  · rw [segMake_eq false (by simp only; rw [l1]; linarith)]
    simp only [Bool.false_eq_true, if_false]
    rw [fixOrder_of_lt (Or.inl (by norm_num))]
  · have g1 : ptLabel t (-2, 0) (0, 0) 1 = .outside := by
      unfold ptLabel; rw [ptDist_eucl, l2, if_neg (by norm_num), if_neg]; norm_num; exact h1'
    have g2 : ptLabel t (1, 0) (0, 0) 1 = .onEdge := by
      unfold ptLabel; rw [ptDist_eucl, l3, if_neg (by norm_num), if_pos]; norm_num; linarith
    unfold segCircle
    simp only [g1, g2, reduceCtorEq, and_self, if_false, e1, Res.bind_ok, false_and, and_false, or_self, if_true, List.nil_append, Res.pure_eq]
    rcases hc : lineCircle l (0, 0) 1 with _ | ⟨p1, p2⟩
    · exact absurd ⟨(1, 0), a2, l3⟩ ((C08_circle l e2.1.proper (0, 0) 1 (by norm_num)).1.1 hc)
    · rfl

/-- The hypotheses of C66 are met by a segment that crosses a circle twice. -/
example : GoodSeg stdR ((-2, 0), (2, 0)) ∧ stdR.nullDistance ≤ |eucl (-2, 0) (0, 0) - 1| ∧ stdR.nullDistance ≤ |eucl (2, 0) (0, 0) - 1| := by
  have l1 : eucl (-2, 0) (2, 0) = 4 := by rw [eucl_eq_iff (by norm_num)]; norm_num
  have l2 : eucl (-2, 0) (0, 0) = 2 := by rw [eucl_eq_iff (by norm_num)]; norm_num
  have l3 : eucl (2, 0) (0, 0) = 2 := by rw [eucl_eq_iff (by norm_num)]; norm_num
  refine ⟨⟨?_, Or.inl rfl⟩, ?_, ?_⟩
  · simp only [l1]; norm_num [stdR]
  · rw [l2]; norm_num [stdR]
  · rw [l3]; norm_num [stdR]

/-! ## C67 -/

/-- **C67 (partial).** The extended segment is on the same line, has the same middle, and three times the length.
Missing: segments whose ends are not ordered (possible, see `C17_false`), for which it is false (`C67_false`); nearly horizontal segments (`C01_false`). -/
theorem C67_extended_partial (t : Thr ℝ) (h1 : dblEps < t.nullDistance) (s : Seg) (hs : GoodSeg t s) (ho : LexLt s.1 s.2) :
    ∃ e, segExtended t s = .ok e ∧ e = (along s (-1), along s 2) ∧ eucl e.1 e.2 = 3 * eucl s.1 s.2 ∧ segCenter e = segCenter s := by
  have hd : 0 < eucl s.1 s.2 := by linarith [hs.1, dblEps_pos]
  obtain ⟨l, e1, e2, -, e3⟩ := segLine_spec h1 hs.1
  obtain ⟨a1, a2⟩ := e3 hs.2
  obtain ⟨c1, c2⟩ := lineCircle_ends e2.1 ho a1 a2 (fun c r hr => ⟨(C08_circle l e2.1.proper c r hr).1, fun a b h => ((C08_circle l e2.1.proper c r hr).2 a b h).2.2.2.2.1⟩)
  have hlen : eucl (along s (-1)) (along s 2) = 3 * eucl s.1 s.2 := by
    rw [eucl_along, show |(-1:ℝ) - 2| = 3 by norm_num]
  refine ⟨(along s (-1), along s 2), ?_, rfl, hlen, ?_⟩
  · unfold segExtended
    rw [show segLine t s = .ok l from e1, Res.bind_ok, segLength, ptDist_eucl, c1, c2]
    simp only
    rw [segMake_eq false (by rw [hlen]; linarith [hs.1])]
    simp only [Bool.false_eq_true, if_false]
    rw [fixOrder_of_lt (along_lt ho (by norm_num))]
  · unfold segCenter along; apply Prod.ext <;> (simp only; ring)

/-- **C67 is false** for all the segments whose ends are not ordered: they are not extended at all, only reordered. -/
theorem C67_false (t : Thr ℝ) (h1 : dblEps < t.nullDistance) (h2 : 0 < t.nullDenom) (s : Seg) (hs : GoodSeg t s) (ho : LexLt s.1 s.2) :
    segExtended t (s.2, s.1) = .ok s := by
  have hd : 0 < eucl s.1 s.2 := by linarith [hs.1, dblEps_pos]
  obtain ⟨l, e1, e2, -, e3⟩ := segLine_spec h1 hs.1
  obtain ⟨a1, a2⟩ := e3 hs.2
  obtain ⟨c1, c2⟩ := lineCircle_ends e2.1 ho a1 a2 (fun c r hr => ⟨(C08_circle l e2.1.proper c r hr).1, fun a b h => ((C08_circle l e2.1.proper c r hr).2 a b h).2.2.2.2.1⟩)
  have hl : segLine t (s.2, s.1) = .ok l := by
    rw [← e1]; exact C01_symmetric t h2 _ _
  unfold segExtended
  rw [hl, Res.bind_ok, segLength, ptDist_eucl]
  simp only
  rw [eucl_comm s.2 s.1, c1, c2]
  simp only
  rw [along_zero, along_one, segMake_eq false hs.1]
  simp only [Bool.false_eq_true, if_false]
  rw [fixOrder_of_lt ho]

/-- The hypotheses of C67 are met. -/
example : GoodSeg stdR ((0, 0), (3, 4)) ∧ LexLt ((0:ℝ), (0:ℝ)) (3, 4) := by
  have e : eucl (0, 0) (3, 4) = 5 := by rw [eucl_eq_iff (by norm_num)]; norm_num
  refine ⟨⟨?_, Or.inr ?_⟩, Or.inl ?_⟩
  · simp only [e]; norm_num [stdR]
  · simp only [e]; norm_num [stdR]
  · norm_num

/-! ## C68 -/

/-- **C68 (partial).** Three points are told collinear exactly when two of them are equal for the library, or the height of the triangle on its longest side is below the null distance
(twice the area is below the null distance times the longest side). Missing: nearly horizontal pairs of points (`C01_false`). -/
theorem C68_collinear_partial (t : Thr ℝ) (h1 : dblEps < t.nullDistance) (p1 p2 p3 : Pt ℝ) (g12 : GoodSlope t p1 p2) (g13 : GoodSlope t p1 p3)
    (g23 : GoodSlope t p2 p3) :
    ∃ b, areCollinear t p1 p2 p3 = .ok b ∧ (b = true ↔ (eucl p1 p2 < t.nullDistance ∨ eucl p2 p3 < t.nullDistance ∨ eucl p1 p3 < t.nullDistance) ∨
      |turnAt p1 p2 p3| < t.nullDistance * max (max (eucl p1 p2) (eucl p1 p3)) (eucl p2 p3)) := by
  have hp := dblEps_pos
  unfold areCollinear
  simp only [PtEq, ptDist_eucl]
  by_cases h0 : eucl p1 p2 < t.nullDistance ∨ eucl p2 p3 < t.nullDistance ∨ eucl p1 p3 < t.nullDistance
  · rw [if_pos h0]; exact ⟨true, rfl, by simp [h0]⟩
  · rw [if_neg h0]
    simp only [h0, false_or]
    rw [not_or, not_or, not_lt, not_lt, not_lt] at h0
    obtain ⟨n12, n23, n13⟩ := h0
    have gcomm : ∀ p q, GoodSlope t p q → GoodSlope t q p := by
      intro p q h; unfold GoodSlope at *; rw [eucl_comm, abs_sub_comm]; tauto
    -- the decision for a given base
    have base : ∀ a b c : Pt ℝ, t.nullDistance ≤ eucl a b → GoodSlope t a b →
        ∃ li, lineOfPts t (mkPt a.1 a.2) (mkPt b.1 b.2) = .ok li ∧ (lineDist li c < t.nullDistance ↔ |turnAt a b c| < t.nullDistance * eucl a b) := by
      intro a b c hab hg
      have hd : 0 < eucl a b := by linarith
      obtain ⟨l, e1, e2, -, e3⟩ := segLine_spec h1 hab
      obtain ⟨a1, a2⟩ := e3 hg
      refine ⟨l, e1, ?_⟩
      obtain ⟨e, he, u1, u2⟩ := unit_dir (s := (a, b)) e2.1 a1 a2
      have hee : |e| = eucl a b := by rw [← abs_of_pos hd]; exact (sq_eq_sq_iff_abs_eq_abs _ _).1 he
      have : turnAt a b c = e * (l 0 * c.1 + l 1 * c.2 + l 2) := by
        simp only at u1 u2
        unfold turnAt On at *
        rw [u1, u2]; linear_combination (-e) * a2
      rw [lineDist_unit e2.1, this, abs_mul, hee, mul_comm t.nullDistance, mul_lt_mul_iff_right₀ hd]
    have sq : ∀ p q, sqDist p q = eucl p q ^ 2 := by
      intro p q; rw [eucl_sq]; unfold sqDist; ring
    have cmp : ∀ p q r u : Pt ℝ, sqDist p q > sqDist r u ↔ eucl r u < eucl p q := by
      intro p q r u; rw [sq, sq]
      constructor
      · intro h; exact lt_of_pow_lt_pow_left₀ 2 (eucl_nonneg _ _) h
      · intro h; exact pow_lt_pow_left₀ h (eucl_nonneg _ _) two_ne_zero
    have tn : |turnAt p2 p1 p3| = |turnAt p1 p2 p3| ∧ |turnAt p2 p3 p1| = |turnAt p1 p2 p3| ∧ |turnAt p1 p3 p2| = |turnAt p1 p2 p3| ∧
        |turnAt p3 p1 p2| = |turnAt p1 p2 p3| ∧ |turnAt p3 p2 p1| = |turnAt p1 p2 p3| := by
      refine ⟨?_, ?_, ?_, ?_, ?_⟩
      · rw [← abs_neg]; congr 1; unfold turnAt; ring
      · congr 1; unfold turnAt; ring
      · rw [← abs_neg]; congr 1; unfold turnAt; ring
      · congr 1; unfold turnAt; ring
      · rw [← abs_neg]; congr 1; unfold turnAt; ring
    obtain ⟨tn1, tn2, tn3, tn4, tn5⟩ := tn
    have fin : ∀ a b c : Pt ℝ, t.nullDistance ≤ eucl a b → GoodSlope t a b → |turnAt a b c| = |turnAt p1 p2 p3| →
        eucl a b = max (max (eucl p1 p2) (eucl p1 p3)) (eucl p2 p3) →
        ∃ r, (do let li ← lineOfPts t (mkPt a.1 a.2) (mkPt b.1 b.2); pure (decide (lineDist li c < t.nullDistance))) = Res.ok r ∧
          (r = true ↔ |turnAt p1 p2 p3| < t.nullDistance * max (max (eucl p1 p2) (eucl p1 p3)) (eucl p2 p3)) := by
      intro a b c hab hg ht hm
      obtain ⟨li, e1, e2⟩ := base a b c hab hg
      refine ⟨_, by rw [e1, Res.bind_ok, Res.pure_eq], ?_⟩
      rw [decide_eq_true_iff, e2, ht, hm]
    unfold largestDistancePoints
    simp only [cmp]
    split_ifs with c1 c2 c3 c2 c3
    · exact fin p1 p2 p3 n12 g12 rfl (by rw [max_eq_left c1.le, max_eq_left c2.le])
    · exact fin p2 p1 p3 (by rw [eucl_comm]; exact n12) (gcomm _ _ g12) tn1 (by rw [max_eq_left c1.le, max_eq_left c2.le, eucl_comm])
    · exact fin p2 p3 p1 n23 g23 tn2 (by rw [max_eq_left c1.le, max_eq_right (not_lt.1 c2)])
    · exact fin p1 p3 p2 n13 g13 tn3 (by rw [max_eq_right (not_lt.1 c1), max_eq_left c2.le])
    · exact fin p3 p1 p2 (by rw [eucl_comm]; exact n13) (gcomm _ _ g13) tn4 (by rw [max_eq_right (not_lt.1 c1), max_eq_left c2.le, eucl_comm])
    · exact fin p3 p2 p1 (by rw [eucl_comm]; exact n23) (gcomm _ _ g23) tn5 (by rw [max_eq_right (not_lt.1 c1), max_eq_right (not_lt.1 c2), eucl_comm])

/-- The hypotheses of C68 are met by the ends and the middle of an ordinary segment. -/
example : areCollinear stdR (0, 0) (3, 4) (6, 8) = .ok true := by
  have e1 : eucl (0, 0) (3, 4) = 5 := by rw [eucl_eq_iff (by norm_num)]; norm_num
  have e2 : eucl (0, 0) (6, 8) = 10 := by rw [eucl_eq_iff (by norm_num)]; norm_num
  have e3 : eucl (3, 4) (6, 8) = 5 := by rw [eucl_eq_iff (by norm_num)]; norm_num
  obtain ⟨b, h1, h2⟩ := C68_collinear_partial stdR (by norm_num [stdR, dblEps]) (0, 0) (3, 4) (6, 8) (Or.inr (by rw [e1]; norm_num [stdR]))
    (Or.inr (by rw [e2]; norm_num [stdR])) (Or.inr (by rw [e3]; norm_num [stdR]))
  rw [h1, h2.2 (Or.inr (by rw [e1, e2, e3]; norm_num [stdR, turnAt]))]

/-! ## C69 -/

/-- **C69 (partial).** Intersection of a segment and a line: a reported point is on the line and on the supporting line of the segment, closer than half the null distance to the segment;
a common point is reported, unless the segment is parallel to the line for the library. Missing: nearly horizontal segments (`C01_false`). -/
theorem C69_line_partial (t : Thr ℝ) (h1 : dblEps < t.nullDistance) (h2 : 0 < t.nullAngleValue) (s : Seg) (hs : GoodSeg t s) (l : V3 ℝ) (hl : UnitNormal l) :
    (lineSegAngle l s < t.nullAngleValue → segLineInter t s l = .ok none) ∧
    (t.nullAngleValue ≤ lineSegAngle l s →
      (∀ p, segLineInter t s l = .ok (some p) → On l p ∧ (∃ k, p = along s k) ∧ ∃ q, OnSeg s.1 s.2 q ∧ eucl p q < t.nullDistance / 2) ∧
      ∀ q, OnSeg s.1 s.2 q → On l q → segLineInter t s l = .ok (some q)) := by
  have hp := dblEps_pos
  have hd : 0 < eucl s.1 s.2 := by linarith [hs.1]
  have hn : s.1 ≠ s.2 := by intro h; rw [h, eucl_self] at hd; exact lt_irrefl _ hd
  obtain ⟨m, e1, e2, -, e3⟩ := segLine_spec h1 hs.1
  obtain ⟨a1, a2⟩ := e3 hs.2
  have hpar := lineSegAngle_eq hl e2.1 hd a1 a2
  unfold segLineInter
  rw [show segLine t s = .ok m from e1, Res.bind_ok]
  constructor
  · intro ha; rw [if_pos (by rw [IsParallel, hpar]; exact ha)]; rfl
  · intro ha
    have hnp : ¬ IsParallel t l m := by rw [IsParallel, hpar]; exact not_lt.2 ha
    rw [if_neg hnp]
    obtain ⟨c1, c2, c3, c4⟩ := lineInter_spec h2 hl e2.1 hnp
    obtain ⟨k, hk⟩ := on_line_param e2.1 hn a1 a2 c3
    rw [c1, Res.bind_ok]
    simp only [hk, sum_test hd]
    rw [hk] at c2 c4
    constructor
    · intro p h
      split_ifs at h with hc
      · cases h; exact ⟨c2, ⟨k, rfl⟩, near_of_overshoot hc.1 hc.2.1 hc.2.2⟩
      · cases h
    · rintro q ⟨j, j0, j1, rfl⟩ hq
      have := c4 _ hq (on_along a1 a2 j)
      obtain rfl := along_inj hd this
      have := mul_nonneg j0 hd.le
      have : (j - 1) * eucl s.1 s.2 ≤ 0 := mul_nonpos_of_nonpos_of_nonneg (by linarith) hd.le
      rw [if_pos ⟨by linarith, by linarith, by linarith⟩]; rfl

/-- The hypotheses of C69 are met: a vertical line and an ordinary segment. -/
example : segLineInter stdR ((0, 0), (3, 4)) (lineV 1) = .ok (some (1, 4/3)) := by
  have e : eucl (0, 0) (3, 4) = 5 := by rw [eucl_eq_iff (by norm_num)]; norm_num
  refine ((C69_line_partial stdR (by norm_num [stdR, dblEps]) (by norm_num [stdR]) ((0, 0), (3, 4)) ⟨by simp only; rw [e]; norm_num [stdR], Or.inr (by simp only; rw [e]; norm_num [stdR])⟩
    (lineV 1) (by simp [UnitNormal, lineV])).2 ?_).2 (1, 4/3) ⟨1/3, by norm_num, by norm_num, by norm_num⟩ (by simp [On, lineV])
  unfold lineSegAngle
  simp only
  rw [e, show |lineV (1:ℝ) 1 * (3 - 0) - lineV 1 0 * (4 - 0)| / 5 = 4 / 5 by simp [lineV]]
  have : (1:ℝ) / 2 ≤ Real.arccos (4 / 5) := by
    have hpi := Real.two_le_pi
    rw [← Real.arccos_cos (x := 1 / 2) (by norm_num) (by linarith)]
    apply Real.arccos_le_arccos
    have := Real.one_sub_sq_div_two_le_cos (x := 1 / 2)
    linarith
  refine le_trans ?_ this
  norm_num [stdR]

/-! ## C70 -/

/-- **C70 (partial).** The bisector is the set of points at the same distance from both ends. Missing: nearly horizontal or vertical segments (`C01_false`, `C06_false`). -/
theorem C70_bisector_partial (t : Thr ℝ) (h1 : dblEps < t.nullDistance) (s : Seg) (hs : GoodSeg t s) (hx : GoodSlopeX t s.1 s.2) :
    ∃ b, segBisector t s = .ok b ∧ UnitNormal b ∧ ∀ q, On b q ↔ eucl q s.1 = eucl q s.2 := by
  have hL : 0 < eucl s.1 s.2 := by linarith [hs.1, dblEps_pos]
  obtain ⟨l, e1, e2, -, e3⟩ := segLine_spec h1 hs.1
  obtain ⟨a1, a2⟩ := e3 hs.2
  obtain ⟨e, he, u1, u2⟩ := unit_dir e2.1 a1 a2
  have hee : |e| = eucl s.1 s.2 := by rw [← abs_of_pos hL]; exact (sq_eq_sq_iff_abs_eq_abs _ _).1 he
  have he0 : e ≠ 0 := by rintro rfl; rw [abs_zero] at hee; linarith
  have hb : l 1 = 0 ∨ t.nullDenom ≤ |l 1| := by
    rcases hx with hx | hx
    · left
      have : e * l 1 = 0 := by rw [← u1, hx]; ring
      exact (mul_eq_zero.1 this).resolve_left he0
    · right
      rw [abs_sub_comm, u1, abs_mul, hee, mul_comm] at hx
      exact le_of_mul_le_mul_left hx hL
  obtain ⟨o, o1, o2, o3⟩ := orthogLine_spec (t := t) e2.1 (segCenter s)
  obtain ⟨k, hk0, hk⟩ := o3 hb
  have k0 : o 0 = - (k * l 1) := by rw [hk]; simp
  have k1 : o 1 = k * l 0 := by rw [hk]; simp
  have k2 : o 2 = k * (l 1 * (segCenter s).1 - l 0 * (segCenter s).2) := by rw [hk]; simp
  refine ⟨o, by unfold segBisector; rw [show segLine t s = .ok l from e1]; exact o1, o2.1, fun q => ?_⟩
  have key : eucl q s.1 ^ 2 - eucl q s.2 ^ 2 = (-2 * e / k) * (o 0 * q.1 + o 1 * q.2 + o 2) := by
    rw [eucl_sq, eucl_sq, k0, k1, k2]
    unfold segCenter
    simp only
    field_simp
    linear_combination (2 * q.1 - s.1.1 - s.2.1) * u1 + (2 * q.2 - s.1.2 - s.2.2) * u2
  have hc : -2 * e / k ≠ 0 := div_ne_zero (mul_ne_zero (by norm_num) he0) hk0
  unfold On
  constructor
  · intro h
    rw [h, mul_zero] at key
    exact (pow_left_inj₀ (eucl_nonneg _ _) (eucl_nonneg _ _) two_ne_zero).1 (by linarith)
  · intro h
    rw [h, sub_self] at key
    exact (mul_eq_zero.1 key.symm).resolve_left hc

/-- The hypotheses of C70 are met. -/
example : GoodSeg stdR ((0, 0), (3, 4)) ∧ GoodSlopeX stdR (0, 0) (3, 4) := by
  have e : eucl (0, 0) (3, 4) = 5 := by rw [eucl_eq_iff (by norm_num)]; norm_num
  refine ⟨⟨?_, Or.inr ?_⟩, Or.inr ?_⟩
  · simp only [e]; norm_num [stdR]
  · simp only [e]; norm_num [stdR]
  · simp only [e]; norm_num [stdR]

/-! ## C71 -/

/-- **C71.** The four points form, with the ends of the segment, two squares, one on each side: the first two are at the first end, the two others at the second end; they are at the length of the segment from
their end, in a perpendicular direction, on opposite sides; the first and the last (resp. the second and the third) are on the same side. -/
theorem C71_orthog (s : Seg) :
    ∃ v : ℝ × ℝ, segOrthogPts s = ((s.1.1 + v.1, s.1.2 + v.2), (s.1.1 - v.1, s.1.2 - v.2), (s.2.1 - v.1, s.2.2 - v.2), (s.2.1 + v.1, s.2.2 + v.2)) ∧
      v.1 ^ 2 + v.2 ^ 2 = eucl s.1 s.2 ^ 2 ∧ v.1 * (s.2.1 - s.1.1) + v.2 * (s.2.2 - s.1.2) = 0 := by
  refine ⟨(-(s.1.2 - s.2.2), s.1.1 - s.2.1), ?_, ?_, ?_⟩
  · unfold segOrthogPts; simp only [Prod.mk.injEq]; refine ⟨⟨?_, ?_⟩, ⟨?_, ?_⟩, ⟨?_, ?_⟩, ?_, ?_⟩ <;> first | trivial | ring
  · rw [eucl_sq]; simp only; ring
  · simp only; ring

/-- On a literal segment. -/
example : segOrthogPts ((0, 0), (3, 4)) = ((4, -3), (-4, 3), (-1, 7), (7, 1)) := by
  norm_num [segOrthogPts]

end H2d.Props
