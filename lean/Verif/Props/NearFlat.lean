import Verif.Props.SegmentMore
import Verif.Props.SegmentInter
import Verif.Props.PolyInter
import Verif.Props.Inside
import Verif.Props.Derived
import Verif.Props.Pip

/-!
# C68-C70, C76, C79, C91: cases in which these claims are false
-/

namespace H2d.Props

open H2d.Spec

/-- **C68 is false** in general: three points exactly on a line, the third one in the middle of the two others, are told not collinear, whatever the (positive) thresholds. -/
theorem C68_false (t : Thr ℝ) (h1 : 0 < t.nullDenom) (h2 : t.nullDistance ≤ 1 / 2) :
    ∃ p1 p2, areCollinear t p1 p2 ((p1.1 + p2.1) / 2, (p1.2 + p2.2) / 2) = .ok false := by
  obtain ⟨M, hM1, hM2⟩ : ∃ N : ℝ, 2 ≤ N ∧ 1 < N * t.nullDenom := by
    have : 0 < 1 / t.nullDenom := by positivity
    refine ⟨1 / t.nullDenom + 2, by linarith, ?_⟩
    have : 1 / t.nullDenom * t.nullDenom = 1 := by field_simp
    nlinarith
  have hbad := segLine_bad (t := t) (N := 0) (M := M) (by linarith) hM2 (by linarith)
  have hsym : lineOfPts t (mkPt (0 + M) 1) (mkPt 0 0) = segLine t ((0, 0), (0 + M, 1)) := C01_symmetric t h1 _ _
  have hS : Real.sqrt (M ^ 2 + 1) < 2 * M := by rw [Real.sqrt_lt' (by linarith)]; nlinarith
  have hS0 : 0 < Real.sqrt (M ^ 2 + 1) := by positivity
  have hS2 := Real.sq_sqrt (show 0 ≤ M ^ 2 + 1 by positivity)
  have d12 : M ≤ eucl (0, 0) (0 + M, 1) := Pip.le_eucl (by simp only; nlinarith)
  have d13 : M / 2 ≤ eucl (0, 0) ((0 + (0 + M)) / 2, (0 + 1) / 2) := Pip.le_eucl (by simp only; nlinarith)
  have d23 : M / 2 ≤ eucl (0 + M, 1) ((0 + (0 + M)) / 2, (0 + 1) / 2) := Pip.le_eucl (by simp only; nlinarith)
  refine ⟨(0, 0), (0 + M, 1), ?_⟩
  have hl : largestDistancePoints ((0:ℝ), 0) (0 + M, 1) ((0 + (0 + M)) / 2, (0 + 1) / 2) = ((0 + M, 1), (0, 0), ((0 + (0 + M)) / 2, (0 + 1) / 2)) := by
    unfold largestDistancePoints sqDist
    simp only
    rw [if_pos (by nlinarith), if_pos (by nlinarith), if_neg (by nlinarith)]
  unfold areCollinear
  simp only [PtEq, ptDist_eucl]
  rw [if_neg (by rw [not_or, not_or, not_lt, not_lt, not_lt]; exact ⟨by linarith, by linarith, by linarith⟩), hl]
  simp only
  rw [hsym, hbad, Res.bind_ok, Res.pure_eq, Res.ok.injEq, decide_eq_false_iff_not, not_lt]
  unfold lineDist
  simp only [Matrix.cons_val_zero, Matrix.cons_val_one, Matrix.cons_val]
  generalize Real.sqrt (M ^ 2 + 1) = S at *
  have e1 : 1 / S * (1 / S) + M / S * (M / S) = 1 := by field_simp; linarith
  have e2 : 1 / S * ((0 + (0 + M)) / 2) + M / S * ((0 + 1) / 2) + 0 / S = M / S := by field_simp; ring
  rw [e1, e2, Real.sqrt_one, div_one, abs_of_pos (by positivity)]
  refine h2.trans ?_
  rw [le_div_iff₀ hS0]; linarith

/-- **C69 is false** in general: the middle of the segment is on the line, the directions differ by more than one radian, and the point reported, if any, is not this point, and is not on the segment. -/
theorem C69_false (t : Thr ℝ) (h1 : 0 < t.nullDenom) (h2 : t.nullDistance ≤ 1) (h3 : t.nullAngleValue ≤ 1) :
    ∃ s l q r, segMake t false s.1 s.2 = .ok s ∧ UnitNormal l ∧ OnSeg s.1 s.2 q ∧ On l q ∧ 1 ≤ lineSegAngle l s ∧ segLineInter t s l = .ok r ∧
      ∀ p ∈ r, p ≠ q ∧ ¬ OnSeg s.1 s.2 p := by
  obtain ⟨M, hM1, hM2⟩ : ∃ N : ℝ, 2 ≤ N ∧ 1 < N * t.nullDenom := by
    have : 0 < 1 / t.nullDenom := by positivity
    refine ⟨1 / t.nullDenom + 2, by linarith, ?_⟩
    have : 1 / t.nullDenom * t.nullDenom = 1 := by field_simp
    nlinarith
  have hsq0 : 0 < Real.sqrt (M ^ 2 + 1) := by positivity
  have hsq2 := Real.sq_sqrt (show 0 ≤ M ^ 2 + 1 by positivity)
  have hMs : M ≤ Real.sqrt (M ^ 2 + 1) := Real.le_sqrt_of_sq_le (by linarith)
  have hlen : eucl (0, 0) (0 + M, 1) = Real.sqrt (M ^ 2 + 1) := by rw [eucl]; congr 1; ring
  have hbad := segLine_bad (t := t) (N := 0) (M := M) (by linarith) hM2 (by linarith)
  have hcos : 1 / Real.sqrt (M ^ 2 + 1) ≤ Real.cos 1 := by
    have := Real.one_sub_sq_div_two_le_cos (x := 1)
    rw [div_le_iff₀ hsq0]; nlinarith
  have hpi := Real.two_le_pi
  have hacos : ∀ x : ℝ, x = 1 / Real.sqrt (M ^ 2 + 1) → 1 ≤ Real.arccos x := by
    intro x hx
    rw [← Real.arccos_cos (x := 1) (by norm_num) (by linarith), hx]
    exact Real.arccos_le_arccos hcos
  have hul : UnitNormal ![1 / Real.sqrt (M ^ 2 + 1), M / Real.sqrt (M ^ 2 + 1), 0 / Real.sqrt (M ^ 2 + 1)] := by
    unfold UnitNormal; simp only [Matrix.cons_val_zero, Matrix.cons_val_one]
    generalize Real.sqrt (M ^ 2 + 1) = S at *
    field_simp; linarith
  have huv : UnitNormal (lineV (M / 2)) := by simp [UnitNormal, lineV]
  have hpar : ¬ IsParallel t (lineV (M / 2)) ![1 / Real.sqrt (M ^ 2 + 1), M / Real.sqrt (M ^ 2 + 1), 0 / Real.sqrt (M ^ 2 + 1)] := by
    rw [IsParallel, lineAngle_eq, angleCos_unit huv hul, not_lt]
    refine le_trans h3 (hacos _ ?_)
    simp only [lineV, Matrix.cons_val_zero, Matrix.cons_val_one, zero_mul, add_zero, one_mul]
    exact abs_of_pos (by positivity)
  have hx : getXY (crossProd (lineV (M / 2)) ![1 / Real.sqrt (M ^ 2 + 1), M / Real.sqrt (M ^ 2 + 1), 0 / Real.sqrt (M ^ 2 + 1)]) = (M / 2, - (1 / 2)) := by
    unfold getXY lineV
    simp only [crossProd, Matrix.cons_val_zero, Matrix.cons_val_one, Matrix.cons_val]
    generalize Real.sqrt (M ^ 2 + 1) = S at *
    have : M ≠ 0 := by linarith
    apply Prod.ext
    · simp only; field_simp; ring
    · simp only; field_simp; ring
  have hr : ∃ r, segLineInter t ((0, 0), (0 + M, 1)) (lineV (M / 2)) = .ok r ∧ ∀ p ∈ r, p = (M / 2, - (1 / 2)) := by
    unfold segLineInter
    rw [hbad, Res.bind_ok, if_neg hpar]
    unfold lineInter
    rw [if_neg hpar, Res.bind_ok]
    simp only [hx]
    split_ifs
    · exact ⟨_, rfl, by simp⟩
    · exact ⟨_, rfl, by simp⟩
  obtain ⟨r, hr1, hr2⟩ := hr
  refine ⟨((0, 0), (0 + M, 1)), lineV (M / 2), (M / 2, 1 / 2), r, ?_, huv, ?_, ?_, ?_, hr1, ?_⟩
  · rw [segMake_eq false (by simp only; rw [hlen]; linarith)]
    simp only [Bool.false_eq_true, if_false]
    rw [fixOrder_of_lt (Or.inl (by simp only; linarith))]
  · exact ⟨1 / 2, by norm_num, by norm_num, by simp only; apply Prod.ext <;> (simp only; ring)⟩
  · simp [On, lineV]
  · unfold lineSegAngle
    simp only
    rw [hlen]
    apply hacos
    simp [lineV]
  · intro p hp
    rw [hr2 p hp]
    refine ⟨fun h => ?_, ?_⟩
    · have := congrArg Prod.snd h; norm_num at this
    · rintro ⟨k, k0, k1, hk⟩
      have := congrArg Prod.snd hk
      simp only at this
      linarith

/-- **C70 is false** in general: for a nearly horizontal segment, the line returned has points that are not at the same distance from both ends. -/
theorem C70_false (t : Thr ℝ) (h1 : 0 < t.nullDenom) (h1' : t.nullDenom ≤ 1 / 2) (h2 : t.nullDistance ≤ 1) :
    ∃ s b q, segMake t false s.1 s.2 = .ok s ∧ segBisector t s = .ok b ∧ On b q ∧ eucl q s.1 ≠ eucl q s.2 := by
  obtain ⟨M, hM1, hM2⟩ : ∃ N : ℝ, 2 ≤ N ∧ 1 < N * t.nullDenom := by
    have : 0 < 1 / t.nullDenom := by positivity
    refine ⟨1 / t.nullDenom + 2, by linarith, ?_⟩
    have : 1 / t.nullDenom * t.nullDenom = 1 := by field_simp
    nlinarith
  have hsq0 : 0 < Real.sqrt (M ^ 2 + 1) := by positivity
  have hsq2 := Real.sq_sqrt (show 0 ≤ M ^ 2 + 1 by positivity)
  have hMs : M ≤ Real.sqrt (M ^ 2 + 1) := Real.le_sqrt_of_sq_le (by linarith)
  have hS : Real.sqrt (M ^ 2 + 1) < 2 * M := by rw [Real.sqrt_lt' (by linarith)]; nlinarith
  have hlen : eucl (0, 0) (0 + M, 1) = Real.sqrt (M ^ 2 + 1) := by rw [eucl]; congr 1; ring
  have hbad := segLine_bad (t := t) (N := 0) (M := M) (by linarith) hM2 (by linarith)
  have hul : UnitNormal ![1 / Real.sqrt (M ^ 2 + 1), M / Real.sqrt (M ^ 2 + 1), 0 / Real.sqrt (M ^ 2 + 1)] := by
    unfold UnitNormal; simp only [Matrix.cons_val_zero, Matrix.cons_val_one]
    generalize Real.sqrt (M ^ 2 + 1) = S at *
    field_simp; linarith
  obtain ⟨o, o1, -, o3⟩ := orthogLine_spec (t := t) hul (segCenter ((0, 0), (0 + M, 1)))
  obtain ⟨k, hk0, hk⟩ := o3 (Or.inr (by
    simp only [Matrix.cons_val_one, Matrix.cons_val_zero]
    rw [abs_of_pos (by positivity), le_div_iff₀ hsq0]
    nlinarith))
  refine ⟨((0, 0), (0 + M, 1)), o, (M / 2 + 1, 1 / 2 + M), ?_, ?_, ?_, ?_⟩
  · rw [segMake_eq false (by simp only; rw [hlen]; linarith)]
    simp only [Bool.false_eq_true, if_false]
    rw [fixOrder_of_lt (Or.inl (by simp only; linarith))]
  · unfold segBisector; rw [hbad]; exact o1
  · have k0 : o 0 = - (k * (M / Real.sqrt (M ^ 2 + 1))) := by rw [hk]; simp
    have k1 : o 1 = k * (1 / Real.sqrt (M ^ 2 + 1)) := by rw [hk]; simp
    have k2 : o 2 = k * (M / Real.sqrt (M ^ 2 + 1) * ((0 + (0 + M)) / 2) - 1 / Real.sqrt (M ^ 2 + 1) * ((0 + 1) / 2)) := by rw [hk]; simp [segCenter]
    unfold On
    rw [k0, k1, k2]
    generalize Real.sqrt (M ^ 2 + 1) = S at *
    simp only
    field_simp; ring
  · intro h
    have h' := congrArg (· ^ 2) h
    simp only [eucl_sq] at h'
    nlinarith

/-- **C76 is false** for ellipses whose major axis is vertical: a segment that is within the ellipse is said not to be inside. -/
theorem C76_false (t : Thr ℝ) (x y a b : ℝ) (ht : 0 < t.nullDenom) (hb : 0 < b) (hd : t.nullDistance ≤ b) (hab : b < a) (hbig : t.nullDenom ≤ 4 * a ^ 2 * b ^ 2) :
    ∃ s, segMake t true s.1 s.2 = .ok s ∧ Within (.seg s.1 s.2) (InsideEll x y a b (Real.pi / 2)) ∧
      segInShape t s (.ell (Ell.new x y a b (Real.pi / 2))) = .ok false := by
  obtain ⟨p, hp1, hp2, hp3⟩ := C56_false t x y a b ht hb hab hbig
  have hc : InsideEll x y a b (Real.pi / 2) (x, y) := by unfold InsideEll ellVal; simp
  refine ⟨(p, (x, y)), ?_, ?_, ?_⟩
  · rw [segMake_eq true (by simp only; rw [eucl_comm]; linarith)]; rfl
  · intro q hq
    exact Inside.convex_ell x y a b (Real.pi / 2) _ _ _ hp1 hc hq
  · unfold segInShape
    show allRes _ [p, (x, y)] = _
    unfold allRes ptInShape
    simp only [hp3, Res.bind_ok]
    rfl

/-- **C91 is false** for ellipses whose major axis is vertical (points inside are left out), and for polygons, next to the line of an edge: a point in the middle of the polygon is left out. -/
theorem C91_false (t : Thr ℝ) (ht : 0 < t.nullDenom) :
    (∀ x y a b : ℝ, 0 < b → b < a → t.nullDenom ≤ 4 * a ^ 2 * b ^ 2 →
      ∃ p, InsideEll x y a b (Real.pi / 2) p ∧ ptsInShape t (.ell (Ell.new x y a b (Real.pi / 2))) [p] = .ok []) ∧
    ∃ poly p, isSimple (segInterB stdR) true poly = true ∧ EvenOdd poly p ∧ FarFromContour (1 / 2) poly p ∧ ptsInPoly stdR poly [p] = .ok [] := by
  constructor
  · intro x y a b hb hab hbig
    obtain ⟨p, hp1, -, hp3⟩ := C56_false t x y a b ht hb hab hbig
    refine ⟨p, hp1, ?_⟩
    unfold ptsInShape keepRes ptInShape
    simp only [hp3, Res.bind_ok]
    rfl
  · obtain ⟨pts, p, h1, h2, h3, h4⟩ := C74_false
    refine ⟨pts, p, h1, h2, h3, ?_⟩
    unfold ptsInPoly keepRes
    rw [h4, Res.bind_ok]
    rfl

/-- **C79 is false** in general. With a segment and with a polyline: a common point, where the directions differ by more than one radian, is not reported. With a line: same, and the points reported are not on the polyline.
With a circle: a common point is not reported, as an end of the segment is on the circle. -/
theorem C79_false (t : Thr ℝ) (h0 : dblEps < t.nullDistance) (h0' : t.nullDistance ≤ 1) (h1 : 0 < t.nullDenom) (h1' : t.nullDenom ≤ 1) (h2' : t.nullAngleValue ≤ 1) :
    (∃ pts s q, 2 ≤ pts.length ∧ segMake t false s.1 s.2 = .ok s ∧ Extent (.poly false pts) q ∧ OnSeg s.1 s.2 q ∧
      (∀ e ∈ edgesOf false pts, ¬ SegEq t (fixOrder e.1 e.2) s ∧ 1 ≤ segAngle e s) ∧ polyInterSeg t false pts s = .ok []) ∧
    (∃ pts pts' q, 2 ≤ pts.length ∧ 2 ≤ pts'.length ∧ Extent (.poly false pts) q ∧ Extent (.poly false pts') q ∧ polyInterPoly t false pts false pts' = .ok []) ∧
    (∃ pts l q r, 2 ≤ pts.length ∧ UnitNormal l ∧ Extent (.poly false pts) q ∧ On l q ∧ polyInterLine t false pts l = .ok r ∧ ∀ p ∈ r, ¬ Extent (.poly false pts) p) ∧
    ∃ pts c q r, 2 ≤ pts.length ∧ Extent (.poly false pts) q ∧ eucl q c.center = c.radius ∧ polyInterCircle t false pts c = .ok r ∧ q ∉ r := by
  have hseg : ∀ s : Seg, segMake t false s.1 s.2 = .ok s → polySegs t (segPairs false [s.1, s.2]) = .ok [s] := by
    intro s hs
    show polySegs t [(s.1, s.2)] = _
    unfold polySegs
    simp only [hs, Res.bind_ok]
    rfl
  have hfix : ∀ s : Seg, segMake t false s.1 s.2 = .ok s → fixOrder s.1 s.2 = s := by
    intro s hs
    unfold segMake at hs
    by_cases h : PtEq t s.1 s.2
    · rw [if_pos h] at hs; cases hs
    · rw [if_neg h] at hs; exact Res.ok.inj hs
  have hex : ∀ (s : Seg) q, OnSeg s.1 s.2 q → Extent (.poly false [s.1, s.2]) q := fun s q h => Or.inr ⟨s.1, s.2, by simp, h⟩
  have hex' : ∀ (s : Seg) q, Extent (.poly false [s.1, s.2]) q → OnSeg s.1 s.2 q := by
    intro s q h
    rcases h with h | ⟨a, b, h, hq⟩
    · simp only [List.mem_cons, List.not_mem_nil, or_false] at h
      rcases h with rfl | rfl
      · exact ⟨0, le_rfl, zero_le_one, by simp⟩
      · exact ⟨1, zero_le_one, le_rfl, by simp⟩
    · simp at h
      rw [← h]
      exact hq
  refine ⟨?_, ?_, ?_, ?_⟩
  · obtain ⟨s, s', q, a1, a2, a3, a4, a5, a6, a7⟩ := C22_false t h0 h0' h1 h1' h2'
    refine ⟨[s.1, s.2], s', q, by simp, a2, ?_, a4, ?_, ?_⟩
    · exact hex s q a3
    · intro e he
      have : e = s := by simpa [edgesOf] using he
      rw [this, hfix s a1]
      exact ⟨a5, a6⟩
    · unfold polyInterSeg segsInterSeg concatRes
      rw [hseg s a1, Res.bind_ok]
      simp only [a7, Res.bind_ok]
      rfl
  · obtain ⟨s, s', q, a1, a2, a3, a4, a5, a6, a7⟩ := C22_false t h0 h0' h1 h1' h2'
    refine ⟨[s.1, s.2], [s'.1, s'.2], q, by simp, by simp, hex s q a3, hex s' q a4, ?_⟩
    unfold polyInterPoly
    rw [hseg s a1, Res.bind_ok, hseg s' a2]
    simp only [Res.bind_ok]
    unfold segsInterSegs concatRes segsInterSeg concatRes
    rw [C22_symmetric, a7]
    rfl
  · obtain ⟨s, l, q, r, a1, a2, a3, a4, a5, a6, a7⟩ := C69_false t h1 h0' h2'
    refine ⟨[s.1, s.2], l, q, r.toList, by simp, a2, hex s q a3, a4, ?_, ?_⟩
    · unfold polyInterLine segsInterLine concatRes
      rw [hseg s a1, Res.bind_ok]
      simp only [a6, Res.bind_ok]
      simp [concatRes]
    · intro p hp hq
      exact (a7 p (by simpa using hp)).2 (hex' s p hq)
  · obtain ⟨s, c, r, q, pts, a1, a2, a3, a4, a5, a6⟩ := C66_false t h0 h0'
    refine ⟨[s.1, s.2], ⟨c, r⟩, q, pts, by simp, hex s q a4, a5, ?_, a6⟩
    unfold polyInterCircle segsInterCircle concatRes
    rw [hseg s a1, Res.bind_ok]
    simp only [a2, Res.bind_ok]
    simp [concatRes]

/-- The thresholds of the library meet the hypotheses. -/
example : 0 < stdR.nullDenom ∧ stdR.nullDenom ≤ 1 / 2 ∧ dblEps < stdR.nullDistance ∧ stdR.nullDistance ≤ 1 / 2 ∧ stdR.nullAngleValue ≤ 1 := by
  norm_num [stdR, dblEps]

end H2d.Props
