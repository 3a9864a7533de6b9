import Verif.Lemmas.Tangent

/-! # C87: segments tangent to two circles -/

set_option linter.unusedVariables false
set_option linter.unusedSimpArgs false

namespace H2d.Props
open H2d H2d.Spec H2d.Bis H2d.Tan Real

/-- **C87 (partial), different radii.** When no circle is inside the other one, the results join the contact points of the two outer tangents, one on
each side of the centers. Missing: tangents or line of the centers nearly horizontal or nearly vertical without being so (see `C01_false`, `C06_false`),
contact points closer than the null distance. -/
theorem C87_partial (t : Thr ℝ) (h1 : dblEps < t.nullDistance) (h2 : t.nullAngleValue ≤ π / 2) (ht : 0 < t.nullDenom) (ht1 : t.nullDenom ≤ 1)
    (hd : 0 < t.nullDeter) (hd1 : t.nullDeter ≤ 1) (c1 c2 : Circle) (hr1 : t.nullDistance ≤ c1.radius) (hr2 : t.nullDistance ≤ c2.radius)
    (hr : t.nullDistance ≤ |c1.radius - c2.radius|)
    (hk : t.nullDistance ^ 2 ≤ eucl c1.center c2.center ^ 2 - (c1.radius - c2.radius) ^ 2)
    (hs : GoodSlope t c1.center c2.center)
    (hg : ∀ a, |sin a| = |c1.radius - c2.radius| / eucl c1.center c2.center → 0 ≤ cos a → GoodDir t (rotOrigin a (unitTo c1.center c2.center))) :
    ∃ s1 s2, tanSegs t c1 c2 = .ok (some (s1, s2)) ∧ OuterTangent c1.center c1.radius c2.center c2.radius s1 ∧
      OuterTangent c1.center c1.radius c2.center c2.radius s2 ∧ OtherSides c1.center c2.center s1 s2 := by
  have hp := dblEps_pos
  have hn0 : 0 < t.nullDistance := by linarith
  -- the result for the larger circle first
  have key : ∀ cA cB : Circle, t.nullDistance ≤ cA.radius → t.nullDistance ≤ cB.radius → t.nullDistance ≤ cA.radius - cB.radius →
      t.nullDistance ^ 2 ≤ eucl cB.center cA.center ^ 2 - (cA.radius - cB.radius) ^ 2 → GoodSlope t cA.center cB.center →
      (∀ a, |sin a| = |cA.radius - cB.radius| / eucl cB.center cA.center → 0 ≤ cos a → GoodDir t (rotOrigin a (unitTo cB.center cA.center))) →
      ∃ s1 s2, (do
          let l0 ← lineOfPts t (mkPt cA.center.1 cA.center.2) (mkPt cB.center.1 cB.center.2)
          if 1 < (cA.radius - cB.radius) / ptDist cA.center cB.center then pure none
          else do
            let theta := Real.arcsin ((cA.radius - cB.radius) / ptDist cA.center cB.center)
            let hcost := ptDist cA.center cB.center * Real.cos theta
            let pp1 ← tanSide t cA.center cB l0 theta hcost
            let pp2 ← tanSide t cA.center cB l0 (- theta) hcost
            pure (some (if (segDistTo pp1.1 cA.center).1 < (segDistTo pp1.2 cA.center).1 then pp1.2 else pp1.1,
              if (segDistTo pp2.2 cA.center).1 < (segDistTo pp2.1 cA.center).1 then pp2.1 else pp2.2)) : Res (Option (Seg × Seg))) = .ok (some (s1, s2)) ∧
        OuterTangent cA.center cA.radius cB.center cB.radius s1 ∧
        OuterTangent cA.center cA.radius cB.center cB.radius s2 ∧ OtherSides cA.center cB.center s1 s2 := by
    intro cA cB ra rb hD hk hs hg
    have hh : 0 < eucl cB.center cA.center := by
      rcases (eucl_nonneg cB.center cA.center).lt_or_eq with g | g
      · exact g
      · rw [← g] at hk; nlinarith
    have hne : cB.center ≠ cA.center := by rintro g; rw [g, eucl_self] at hh; exact lt_irrefl _ hh
    have hlt : cA.radius - cB.radius < eucl cB.center cA.center := by nlinarith
    set q := (cA.radius - cB.radius) / eucl cB.center cA.center with hq
    have hq0 : 0 < q := by rw [hq]; apply div_pos _ hh; linarith
    have hq1 : q < 1 := by rw [hq, div_lt_one hh]; exact hlt
    have hsin : sin (arcsin q) = q := sin_arcsin (by linarith) hq1.le
    have hcos : cos (arcsin q) = sqrt (1 - q ^ 2) := cos_arcsin q
    have hcos0 : 0 < cos (arcsin q) := by rw [hcos]; apply sqrt_pos.2; nlinarith
    have hhk : t.nullDistance ≤ eucl cB.center cA.center * cos (arcsin q) := by
      have : (eucl cB.center cA.center * cos (arcsin q)) ^ 2 = eucl cB.center cA.center ^ 2 - (cA.radius - cB.radius) ^ 2 := by
        rw [mul_pow, hcos, sq_sqrt (by nlinarith), hq]; field_simp
      rw [← this] at hk
      exact (sq_le_sq₀ hn0.le (by positivity)).1 hk
    have hge : t.nullDistance ≤ eucl cA.center cB.center := by
      rw [eucl_comm]
      have : cos (arcsin q) ≤ 1 := cos_le_one _
      nlinarith
    obtain ⟨l0, f1, f2, -, f3⟩ := segLine_spec (t := t) h1 (a := cA.center) (b := cB.center) hge
    obtain ⟨o2, o1⟩ := f3 hs
    have hrA : cA.radius = |eucl cB.center cA.center * sin (arcsin q)| + cB.radius := by
      rw [hsin, hq, mul_div_cancel₀ _ hh.ne', abs_of_pos (by linarith)]; ring
    have hsq : |cA.radius - cB.radius| / eucl cB.center cA.center = q := by rw [abs_of_pos (by linarith)]
    obtain ⟨p1, p2, s1, a1, a2, a3, a4⟩ := side_spec h1 h2 ht ht1 hd hd1 hne f2.1 o1 o2 (arcsin q) hcos0 (by rw [hsin]; exact hq0.ne') hhk rb
      (hg _ (by rw [hsq, hsin, abs_of_pos hq0]) hcos0.le) hrA
    obtain ⟨p3, p4, s2, b1, b2, b3, b4⟩ := side_spec h1 h2 ht ht1 hd hd1 hne f2.1 o1 o2 (- arcsin q) (by rw [cos_neg]; exact hcos0)
      (by rw [sin_neg, hsin]; simp [hq0.ne']) (by rw [cos_neg]; exact hhk) rb
      (hg _ (by rw [hsq, sin_neg, hsin, abs_neg, abs_of_pos hq0]) (by rw [cos_neg]; exact hcos0.le)) (rA := cA.radius) (by rw [sin_neg, mul_neg, abs_neg]; exact hrA)
    rw [cos_neg] at b1
    refine ⟨s1, s2, ?_, a3, b3, ?_⟩
    · have hl0 : lineOfPts t (mkPt cA.center.1 cA.center.2) (mkPt cB.center.1 cB.center.2) = .ok l0 := f1
      rw [hl0, Res.bind_ok, ptDist_eucl, eucl_comm cA.center cB.center, ← hq, if_neg (not_lt.2 hq1.le)]
      simp only
      rw [a1, Res.bind_ok, b1, Res.bind_ok]
      simp only [Res.pure_eq]
      congr 3
      · rcases a2 with ⟨g, rfl⟩ | ⟨g, rfl⟩
        · rw [if_pos g]
        · rw [if_neg (not_lt.2 g.le)]
      · rcases b2 with ⟨g, rfl⟩ | ⟨g, rfl⟩
        · rw [if_neg (not_lt.2 g.le)]
        · rw [if_pos g]
    · intro e e' he he'
      have x1 := a4 e he
      have x2 := b4 e' he'
      rw [sin_neg, hsin] at x2
      rw [hsin] at x1
      have y1 : turnAt cA.center cB.center e < 0 := by nlinarith
      have y2 : 0 < turnAt cA.center cB.center e' := by nlinarith
      nlinarith
  unfold tanSegs
  rw [if_neg (by rintro ⟨e, -⟩; rw [e, sub_self, abs_zero] at hr; linarith), if_neg (not_lt.2 hr)]
  by_cases hc : c1.radius < c2.radius
  · simp only [if_pos hc]
    obtain ⟨s1, s2, e1, e2, e3, e4⟩ := key c2 c1 hr2 hr1 (by rw [abs_of_neg (by linarith)] at hr; linarith)
      (by rw [show (c2.radius - c1.radius) ^ 2 = (c1.radius - c2.radius) ^ 2 by ring]; exact hk)
      (by
        rcases hs with g | g
        · exact Or.inl g.symm
        · right; rw [eucl_comm, abs_sub_comm]; exact g) (by rw [abs_sub_comm]; exact hg)
    exact ⟨s1, s2, e1, outer_symm e2, outer_symm e3, sides_symm e4⟩
  · simp only [if_neg hc]
    refine key c1 c2 hr1 hr2 ?_ (by rw [eucl_comm]; exact hk) hs ?_
    · have : 0 ≤ c1.radius - c2.radius := by linarith
      rwa [abs_of_nonneg this] at hr
    · intro a ha hca
      rw [eucl_comm] at ha
      have g := hg a ha hca
      have e : rotOrigin a (unitTo c2.center c1.center) = (-(rotOrigin a (unitTo c1.center c2.center)).1, -(rotOrigin a (unitTo c1.center c2.center)).2) := by
        unfold rotOrigin unitTo
        rw [eucl_comm c2.center c1.center]
        apply Prod.ext <;> (simp only; ring)
      rw [e]
      unfold GoodDir at *
      simpa using g

/-- Non trivial case: radii 5 and 2, centers at distance 5. -/
example : ∃ s1 s2, tanSegs stdR ⟨(0, 0), 5⟩ ⟨(5, 0), 2⟩ = .ok (some (s1, s2)) ∧ OuterTangent (0, 0) 5 (5, 0) 2 s1 ∧ OuterTangent (0, 0) 5 (5, 0) 2 s2 := by
  have e : eucl (0, 0) (5, 0) = 5 := by rw [eucl_eq_iff (by norm_num)]; norm_num
  have hpi := Real.two_le_pi
  obtain ⟨s1, s2, h1, h2, h3, -⟩ := C87_partial stdR (by norm_num [stdR, dblEps]) (by norm_num [stdR]; linarith) (by norm_num [stdR]) (by norm_num [stdR])
    (by norm_num [stdR]) (by norm_num [stdR]) ⟨(0, 0), 5⟩ ⟨(5, 0), 2⟩ (by norm_num [stdR]) (by norm_num [stdR]) (by norm_num [stdR])
    (by simp only [e]; norm_num [stdR]) (Or.inl rfl) (by
      intro a ha hc
      simp only [e] at ha
      norm_num at ha
      have hs : sin a ^ 2 = (3 / 5) ^ 2 := by rw [← sq_abs, ha]
      have hca : cos a = 4 / 5 := by nlinarith [sin_sq_add_cos_sq a]
      unfold GoodDir rotOrigin unitTo
      simp only [e, hca]
      refine ⟨Or.inr (by norm_num [stdR]), Or.inr ?_⟩
      norm_num
      rw [ha]; norm_num [stdR])
  exact ⟨s1, s2, h1, h2, h3⟩

/-- **C87 is false** in general: if one circle is inside the other one, no tangent exists; the call is not refused, the results have NaN coordinates. -/
theorem C87_false (t : Thr ℝ) (h1 : dblEps < t.nullDistance) (c1 c2 : Circle) (hh : t.nullDistance ≤ eucl c1.center c2.center)
    (hi : eucl c1.center c2.center < |c1.radius - c2.radius|) : tanSegs t c1 c2 = .ok none := by
  have hp := dblEps_pos
  have key : ∀ cA cB : Circle, t.nullDistance ≤ eucl cA.center cB.center → eucl cA.center cB.center < cA.radius - cB.radius →
      (∃ l0, lineOfPts t (mkPt cA.center.1 cA.center.2) (mkPt cB.center.1 cB.center.2) = .ok l0) ∧
      1 < (cA.radius - cB.radius) / ptDist cA.center cB.center := by
    intro cA cB g1 g2
    obtain ⟨l0, f1, -⟩ := segLine_spec (t := t) h1 (a := cA.center) (b := cB.center) g1
    refine ⟨⟨l0, f1⟩, ?_⟩
    rw [ptDist_eucl, one_lt_div (by linarith)]; exact g2
  unfold tanSegs
  rw [if_neg (by rintro ⟨e, -⟩; rw [e, sub_self, abs_zero] at hi; linarith), if_neg (not_lt.2 (by linarith))]
  by_cases hc : c1.radius < c2.radius
  · simp only [if_pos hc]
    rw [abs_of_neg (by linarith)] at hi
    obtain ⟨⟨l0, f1⟩, f2⟩ := key c2 c1 (by rw [eucl_comm]; exact hh) (by rw [eucl_comm]; linarith)
    rw [f1, Res.bind_ok, if_pos f2]; rfl
  · simp only [if_neg hc]
    rw [abs_of_nonneg (by linarith)] at hi
    obtain ⟨⟨l0, f1⟩, f2⟩ := key c1 c2 hh hi
    rw [f1, Res.bind_ok, if_pos f2]; rfl

example : dblEps < stdR.nullDistance ∧ stdR.nullDistance ≤ eucl (0, 0) (1, 0) ∧ eucl (0, 0) (1, 0) < |(5 : ℝ) - 2| := by
  have e : eucl (0, 0) (1, 0) = 1 := by rw [eucl_eq_iff (by norm_num)]; norm_num
  rw [e]; norm_num [stdR, dblEps]

/-- **C87, same center.** Then the call throws. -/
theorem C87_concentric (t : Thr ℝ) (c1 c2 : Circle) (hh : eucl c1.center c2.center < t.nullDistance) : tanSegs t c1 c2 = .throw := by
  have h' : eucl c2.center c1.center < t.nullDistance := by rw [eucl_comm]; exact hh
  have key : ∀ a b : Pt ℝ, eucl a b < t.nullDistance → lineOfPts t (mkPt a.1 a.2) (mkPt b.1 b.2) = .throw := by
    intro a b h
    unfold lineOfPts
    rw [if_pos]
    simpa [getXY_mkPt, PtEq, ptDist_eucl] using h
  unfold tanSegs
  split_ifs with g1 g2 g3
  · rfl
  · rw [(segMake_throw false).2 hh]; rfl
  · simp only; rw [key _ _ h']; rfl
  · simp only; rw [key _ _ hh]; rfl

/-- **C87 (partial), same radius.** Two circles whose radii are the same for the library: the results are the two sides of the rectangle of half width
the radius of the first one, hence the outer tangents when both radii are equal. -/
theorem C87_same_partial (t : Thr ℝ) (h1 : dblEps < t.nullDistance) (h2 : t.nullAngleValue ≤ π / 2) (c1 c2 : Circle) (hr1 : t.nullDistance ≤ c1.radius)
    (hr : |c1.radius - c2.radius| < t.nullDistance) (hk : t.nullDistance ≤ eucl c1.center c2.center) (hs : GoodDir t (unitTo c1.center c2.center)) :
    ∃ s1 s2, tanSegs t c1 c2 = .ok (some (s1, s2)) ∧ OuterTangent c1.center c1.radius c2.center c1.radius s1 ∧
      OuterTangent c1.center c1.radius c2.center c1.radius s2 ∧ OtherSides c1.center c2.center s1 s2 := by
  have hp := dblEps_pos
  have hk0 : 0 < eucl c1.center c2.center := by linarith
  have hne : c1.center ≠ c2.center := by intro g; rw [g, eucl_self] at hk0; exact lt_irrefl _ hk0
  have hu := unitTo_norm hne
  have e2 := unitTo_mul hne
  obtain ⟨s, w, k1, k2, k3, k4⟩ := parallel_dir h1 h2 (p := c1.center) hu hs hk hr1
  rw [← e2] at k1 k2
  have k1' : segMake t false c1.center c2.center = .ok s := by
    rw [segMake_eq false (by rw [eucl_comm]; exact hk)] at k1
    rw [segMake_eq false hk, ← k1]
    simp only [Bool.false_eq_true, if_false]
    rw [fixOrder_comm]
  have hr0 : 0 < c1.radius := by linarith
  have hw0 : w ≠ 0 := by rcases k3 with rfl | rfl <;> simp [hr0.ne']
  have hwa : |w| = c1.radius := by rcases k3 with rfl | rfl <;> simp [abs_of_pos hr0]
  -- a segment moved along the normal
  have out : ∀ x, |x| = c1.radius → x ≠ 0 → OuterTangent c1.center c1.radius c2.center c1.radius
        (shift (x * (unitTo c1.center c2.center).2, - (x * (unitTo c1.center c2.center).1)) s) ∧
      ∀ e, (e = (shift (x * (unitTo c1.center c2.center).2, - (x * (unitTo c1.center c2.center).1)) s).1 ∨
        e = (shift (x * (unitTo c1.center c2.center).2, - (x * (unitTo c1.center c2.center).1)) s).2) → turnAt c1.center c2.center e * x < 0 := by
    intro x hx hx0
    set u := unitTo c1.center c2.center with hud
    set h := eucl c1.center c2.center with hhd
    have hx2 : 0 < x ^ 2 := sq_pos_of_ne_zero hx0
    set TA : Pt ℝ := (c1.center.1 + x * u.2, c1.center.2 + - (x * u.1)) with hTA
    set TB : Pt ℝ := (c2.center.1 + x * u.2, c2.center.2 + - (x * u.1)) with hTB
    have hcase : shift (x * u.2, - (x * u.1)) s = (TA, TB) ∨ shift (x * u.2, - (x * u.1)) s = (TB, TA) := by
      rcases k2 with g | g <;> rw [g]
      · right; rfl
      · left; rfl
    have d1 : c2.center.1 = c1.center.1 + h * u.1 := congrArg Prod.fst e2
    have d2 : c2.center.2 = c1.center.2 + h * u.2 := congrArg Prod.snd e2
    constructor
    · refine ⟨TA, TB, hcase, ⟨?_, ?_⟩, ⟨?_, ?_⟩, ?_⟩
      · rw [eucl_eq_iff hr0.le, ← hx, sq_abs, hTA]; simp only; linear_combination x ^ 2 * hu
      · rw [hTA, hTB]; simp only; rw [d1, d2]; ring
      · rw [eucl_eq_iff hr0.le, ← hx, sq_abs, hTB]; simp only; linear_combination x ^ 2 * hu
      · rw [hTA, hTB]; simp only; rw [d1, d2]; ring
      · have f1 : turnAt TA TB c1.center = h * x := by
          rw [hTA, hTB]; unfold turnAt; simp only; rw [d1, d2]; linear_combination (h * x) * hu
        have f2 : turnAt TA TB c2.center = h * x := by
          rw [hTA, hTB]; unfold turnAt; simp only; rw [d1, d2]; linear_combination (h * x) * hu
        rw [f1, f2]
        have : 0 < h ^ 2 * x ^ 2 := by positivity
        nlinarith
    · intro e he
      have : e = TA ∨ e = TB := by
        rcases hcase with g | g <;> rw [g] at he
        · exact he
        · exact he.symm
      have f : turnAt c1.center c2.center e = - (h * x) := by
        rcases this with rfl | rfl
        · rw [hTA]; unfold turnAt; simp only; rw [d1, d2]; linear_combination (-(h * x)) * hu
        · rw [hTB]; unfold turnAt; simp only; rw [d1, d2]; linear_combination (-(h * x)) * hu
      rw [f]
      have := mul_pos hk0 hx2
      nlinarith
  have e3 : ∀ v : ℝ × ℝ, (-(w * v.2), w * v.1) = (-w * v.2, -(-w * v.1)) := by intro v; apply Prod.ext <;> (simp only; ring)
  rw [e3] at k4
  obtain ⟨a1, a2⟩ := out w hwa hw0
  obtain ⟨b1, b2⟩ := out (-w) (by rw [abs_neg]; exact hwa) (by simpa using hw0)
  refine ⟨_, _, ?_, a1, b1, ?_⟩
  · unfold tanSegs
    rw [if_neg (by rintro ⟨-, e⟩; rw [PtEq, ptDist_eucl] at e; linarith), if_pos hr, k1', Res.bind_ok, k4]
    rfl
  · intro e e' he he'
    have x1 := a2 e he
    have x2 := b2 e' he'
    rcases lt_or_gt_of_ne hw0 with g | g
    · have : 0 < turnAt c1.center c2.center e := by nlinarith
      have : turnAt c1.center c2.center e' < 0 := by nlinarith
      nlinarith
    · have : turnAt c1.center c2.center e < 0 := by nlinarith
      have : 0 < turnAt c1.center c2.center e' := by nlinarith
      nlinarith

example : stdR.nullDistance ≤ eucl (0, 0) (3, 4) ∧ GoodDir stdR (unitTo (0, 0) (3, 4)) := by
  have e : eucl (0, 0) (3, 4) = 5 := by rw [eucl_eq_iff (by norm_num)]; norm_num
  unfold GoodDir unitTo
  simp only [e]
  norm_num [stdR]

end H2d.Props
