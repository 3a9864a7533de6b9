import Verif.Lemmas.Exchange
import Verif.Props.Homogr

/-! # C130, C131: data exchanged with OpenCV and Boost Geometry -/

namespace H2d.Props

open H2d.Spec

variable {K : Type} [Field K] [LinearOrder K]

/-- **C130, matrices.** Whatever the content of the `cv::Mat`, `copyTo()` with one of the two types gives a 3 x 3 matrix with one channel that holds the coefficients of the homography (rounded to `float` for `CV_32F`); assigned to
any homography, or given to the constructor, it gives a homography with these coefficients. Hence with `CV_64F` nothing is lost. -/
theorem C130_matrix (r32 : K → K) (h : Hom K) (m0 : CvMat K) (ty : CvType) (ht : ty = .f64 ∨ ty = .f32) :
    ∃ m, h.copyTo r32 m0 ty = (.ok (), m) ∧ CvMat.Holds m ∧ m.type = ty ∧ CvMat.Ok m ∧ (∀ i j : Fin 3, CvMat.at m i j = some (if ty = .f32 then r32 (h.m i j) else h.m i j)) ∧
      (∀ h' : Hom K, (h'.assignCv m).1 = .ok () ∧ ∀ i j, (h'.assignCv m).2.m i j = if ty = .f32 then r32 (h.m i j) else h.m i j) ∧
      ∃ h', Hom.ofCv m = .ok h' ∧ ∀ i j, h'.m i j = if ty = .f32 then r32 (h.m i j) else h.m i j := by
  obtain ⟨m, h1, h2, h3, h4, h5⟩ := copyTo_ok r32 h m0 ht
  have e : ∀ x, ty.store r32 x = if ty = .f32 then r32 x else x := by rcases ht with e | e <;> simp [e, CvType.store]
  simp only [e] at h5
  have k : ∀ (h' : Hom K) i j, (h'.assignCv m).2.m i j = if ty = .f32 then r32 (h.m i j) else h.m i j := fun h' i j => by
    have := assignCv_at h' h2 h4 i j
    rw [h5] at this
    exact (Option.some.inj this).symm
  refine ⟨m, h1, h2, h3, h4, h5, fun h' => ⟨by rw [assignCv_ok h' h2], k h'⟩, ?_⟩
  refine ⟨(Hom.blank.assignCv m).2, ?_, k _⟩
  unfold Hom.ofCv
  rw [assignCv_ok _ h2]

/-- **C130, errors.** The assignment of a `cv::Mat` throws exactly when the matrix is not a 3 x 3 matrix of `double` or `float` with one channel, and then the homography is unchanged; the same for the constructor. `copyTo()` throws
exactly when another type is requested, and then the `cv::Mat` is unchanged. -/
theorem C130_errors (r32 : K → K) (h : Hom K) (m : CvMat K) (ty : CvType) :
    ((h.assignCv m).1 = .throw ↔ ¬ CvMat.Holds m) ∧ (¬ CvMat.Holds m → (h.assignCv m).2 = h ∧ Hom.ofCv m = .throw) ∧ (h.assignCv m).1 ≠ .ub ∧
    ((h.copyTo r32 m ty).1 = .throw ↔ ty = .other) ∧ (ty = .other → (h.copyTo r32 m ty).2 = m) := by
  refine ⟨?_, fun hm => ⟨by rw [assignCv_throw h hm], by unfold Hom.ofCv; rw [assignCv_throw _ hm]⟩, ?_, ?_, ?_⟩
  · by_cases hm : CvMat.Holds m
    · rw [assignCv_ok h hm]; simp [hm]
    · rw [assignCv_throw h hm]; simp [hm]
  · by_cases hm : CvMat.Holds m
    · rw [assignCv_ok h hm]; simp
    · rw [assignCv_throw h hm]; simp
  · cases ty <;> simp [Hom.copyTo]
  · rintro rfl; simp [Hom.copyTo]

/-- **C130, lines.** A homography built from a `cv::Mat` (whatever its scale), after any history without `init()`, `transpose()` or element write: if the product with a line returns a line, then it contains the image of a point exactly
when the line contains the point. -/
theorem C130_lines_partial (t : Thr ℝ) (ht : 0 < t.nullDenom) (hd : 0 < t.nullDeter) (m : CvMat ℝ) (h0 : Hom ℝ) (hm : Hom.ofCv m = .ok h0) (ops : List (HOp ℝ)) (hs : ∀ op ∈ ops, HOp.silent op = false) (l v r : V3 ℝ)
    (hv : ((homRun t h0 ops).appLineRaw t l).1 = .ok v) (hr : normalizeLine t v = .ok r) (hb : r 0 = 0 ∨ t.nullDenom ≤ r 0) (p : V3 ℝ) :
    OnLine l p ↔ OnLine r ((homRun t h0 ops).appPt p) := by
  refine C13_incidence_partial t ht hd h0 ?_ ops hs l v r hv hr hb p
  by_cases hh : CvMat.Holds m
  · unfold Hom.ofCv at hm
    rw [assignCv_ok _ hh] at hm
    simp only [Res.ok.injEq] at hm
    subst hm
    exact ⟨rfl, rfl⟩
  · unfold Hom.ofCv at hm
    rw [assignCv_throw _ hh] at hm
    cases hm

/-- **C130 is false for the assignment.** After a product with a line, a `cv::Mat` (here the unit matrix) assigned to a homography is used for points, but lines still follow the old homography: a point of the line is no more mapped
on the image of the line. -/
theorem C130_false (t : Thr ℚ) (h1 : t.nullDenom = 1/1000) (h2 : t.nullDeter = 1/1000) :
    ∃ (m : CvMat ℚ) (l p v : V3 ℚ), CvMat.Holds m ∧ CvMat.Ok m ∧ OnLine l p ∧ (((homRun t Hom.default [.setTranslation 1 0, .appLine l]).assignCv m).2.appLineRaw t l).1 = .ok v ∧
      v 0 * v 0 + v 1 * v 1 = 1 ∧ ((homRun t Hom.default [.setTranslation 1 0, .appLine l]).assignCv m).2.appPt p = p ∧ ¬ OnLine v p := by
  obtain ⟨a, b, c, d, e⟩ := t
  simp only at h1 h2
  subst h1 h2
  refine ⟨⟨3, 3, 1, .f64, [1, 0, 0, 0, 1, 0, 0, 0, 1]⟩, ![1, 0, 0], ![0, 0, 1], ![1, 0, -1], ⟨rfl, rfl, rfl, Or.inl rfl⟩, rfl, by simp [OnLine], ?_, by decide +kernel, ?_, by simp [OnLine]⟩
  · have : (((homRun ⟨a, b, c, 1/1000, 1/1000⟩ Hom.default [.setTranslation 1 0, .appLine ![1, 0, 0]]).assignCv ⟨3, 3, 1, .f64, [1, 0, 0, 0, 1, 0, 0, 0, 1]⟩).2.appLineRaw ⟨a, b, c, 1/1000, 1/1000⟩ ![1, 0, 0]).1 =
      (((homRun ⟨0, 0, 0, 1/1000, 1/1000⟩ Hom.default [.setTranslation 1 0, .appLine ![1, 0, 0]]).assignCv ⟨3, 3, 1, .f64, [1, 0, 0, 0, 1, 0, 0, 0, 1]⟩).2.appLineRaw ⟨0, 0, 0, 1/1000, 1/1000⟩ ![1, 0, 0]).1 := rfl
    rw [this]; exact resProj_ok (by decide +kernel)
  · have : ((homRun ⟨a, b, c, 1/1000, 1/1000⟩ Hom.default [.setTranslation 1 0, .appLine ![1, 0, 0]]).assignCv ⟨3, 3, 1, .f64, [1, 0, 0, 0, 1, 0, 0, 0, 1]⟩).2.m =
      ((homRun ⟨0, 0, 0, 1/1000, 1/1000⟩ Hom.default [.setTranslation 1 0, .appLine ![1, 0, 0]]).assignCv ⟨3, 3, 1, .f64, [1, 0, 0, 0, 1, 0, 0, 0, 1]⟩).2.m := rfl
    rw [Hom.appPt, this]
    decide +kernel

/-- **C130, integer points.** `getCvPti()` drops the fractional part of each coordinate: the result is between 0 and the coordinate, less than 1 away. Points with integer coordinates in the range of `int` are exactly
converted by `getCvPti()` and `getCvPtd()`, and by `getCvPtf()` when `float` holds the coordinates. -/
theorem C130_points (p : Pt ℝ) :
    (∀ q, cvPti p = .ok q → |(q.1 : ℝ)| ≤ |p.1| ∧ |(q.1 : ℝ) - p.1| < 1 ∧ 0 ≤ q.1 * p.1 ∧ |(q.2 : ℝ)| ≤ |p.2| ∧ |(q.2 : ℝ) - p.2| < 1 ∧ 0 ≤ q.2 * p.2) ∧
    (∀ n k : ℤ, p = ((n : ℝ), (k : ℝ)) → -2 ^ 31 ≤ n → n < 2 ^ 31 → -2 ^ 31 ≤ k → k < 2 ^ 31 → cvPti p = .ok (n, k) ∧
      ∀ cvRound, RoundsHalf cvRound → cvPtd cvRound p = (n, k) ∧ ∀ r32 : ℝ → ℝ, r32 n = n → r32 k = k → cvPtf r32 cvRound p = (n, k)) := by
  constructor
  · intro q hq
    unfold cvPti at hq
    rcases hx : toInt p.1 with x | _ | _ <;> rw [hx] at hq <;> try cases hq
    rcases hy : toInt p.2 with y | _ | _ <;> rw [hy] at hq <;> try cases hq
    obtain ⟨x1, x2, x3⟩ := toInt_ok hx
    obtain ⟨y1, y2, y3⟩ := toInt_ok hy
    exact ⟨x1, x2, x3, y1, y2, y3⟩
  · rintro n k rfl h1 h2 h3 h4
    refine ⟨?_, fun f hf => ⟨?_, fun r e1 e2 => ?_⟩⟩
    · unfold cvPti
      rw [toInt_int h1 h2, toInt_int h3 h4]; rfl
    · simp only [cvPtd, roundsHalf_int hf]
    · simp only [cvPtf, e1, e2, roundsHalf_int hf]

/-- **C130, other point types.** `getPts<RT>()` gives one point for each point, in the same order, and when the type `RT` keeps the coordinates, converting back gives the same points. -/
theorem C130_roundtrip {RT : Type} (mk : ℝ → ℝ → RT) (x y : RT → ℝ) (h : ∀ a b, x (mk a b) = a ∧ y (mk a b) = b) (pts : List (Pt ℝ)) :
    (getPtsAs mk pts).length = pts.length ∧ (getPtsAs mk pts).map (ofCvPt x y) = pts := by
  refine ⟨by simp [getPtsAs], ?_⟩
  simp only [getPtsAs, List.map_map]
  conv_rhs => rw [← List.map_id pts]
  exact List.map_congr_left fun p _ => by simp [ofCvPt, h]

/-- **C130 is false for points with `getCvPtd()`.** The name is the one of a conversion to a point with `double` coordinates, but whatever the rounding of OpenCV the abscissa 1/2 is lost. The same for `getCvPtf()`. -/
theorem C130_ptd_false (cvRound : ℝ → ℤ) (r32 : ℝ → ℝ) :
    ofCvPt (fun q : ℤ × ℤ => (q.1 : ℝ)) (fun q => (q.2 : ℝ)) (cvPtd cvRound (1 / 2, 0)) ≠ (1 / 2, 0) ∧ ofCvPt (fun q : ℤ × ℤ => (q.1 : ℝ)) (fun q => (q.2 : ℝ)) (cvPtf r32 cvRound (1 / 2, 0)) ≠ (1 / 2, 0) := by
  have k : ∀ n : ℤ, (n : ℝ) ≠ 1 / 2 := by
    intro n hn
    have : (2 * n : ℝ) = 1 := by rw [hn]; norm_num
    have : 2 * n = 1 := by exact_mod_cast this
    omega
  constructor <;> intro h <;> exact k _ (congrArg Prod.fst h)

/-- The hypotheses of C130 are met: a translation copied to a `cv::Mat` and back; a point with fractional coordinates. -/
example : (∃ m h', (Hom.default.setTranslation (3 : ℚ) 5).copyTo id ⟨0, 0, 1, .other, []⟩ .f64 = (.ok (), m) ∧ Hom.ofCv m = .ok h' ∧ h'.m 0 2 = 3 ∧ h'.m 1 2 = 5) ∧ (∃ q, cvPti (5 / 2, -5 / 2) = .ok q ∧ q = (2, -2)) ∧
    RoundsHalf (fun x => ⌊x + 1 / 2⌋) := by
  refine ⟨?_, ⟨_, ?_, rfl⟩, fun x => ?_⟩
  · obtain ⟨m, h1, -, -, -, -, -, h', h2, h3⟩ := C130_matrix id (Hom.default.setTranslation (3 : ℚ) 5) ⟨0, 0, 1, .other, []⟩ .f64 (Or.inl rfl)
    exact ⟨m, h', h1, h2, by rw [h3]; decide +kernel, by rw [h3]; decide +kernel⟩
  · have e1 : ⌊(5 / 2 : ℝ)⌋ = 2 := by rw [Int.floor_eq_iff]; norm_num
    have e2 : ⌈(-5 / 2 : ℝ)⌉ = -2 := by rw [Int.ceil_eq_iff]; norm_num
    have a : toInt (5 / 2) = .ok 2 := by
      simp only [toInt, e1]; norm_num
    have b : toInt (-5 / 2) = .ok (-2) := by
      simp only [toInt, e2]; norm_num
    unfold cvPti
    simp only [a, b]; rfl
  · have h1 := Int.floor_le (x + 1 / 2)
    have h2 := Int.lt_floor_add_one (x + 1 / 2)
    rw [abs_le]; constructor <;> linarith

/-- **C131.** Let `pts` be the points of a valid polyline (accepted by the constructor from a container). The ring of Boost that ends with its first point gives back `pts` as a closed polyline, and is refused for an open
polyline. The ring without the repeated point gives back `pts` for both. -/
theorem C131_ring_partial {P : Type} (same : P → P → Bool) (hr : ∀ p, same p p = true) (a b : P) (l : List P) (hv : polySet same (a :: b :: l) = .ok (a :: b :: l)) :
    ofBoost same true (a :: b :: l ++ [a]) = .ok (a :: b :: l) ∧ ofBoost same false (a :: b :: l ++ [a]) = .throw ∧ ∀ closed, ofBoost same closed (a :: b :: l) = .ok (a :: b :: l) := by
  have hc : checkInput same (a :: b :: l) = true := by
    unfold polySet at hv
    by_contra hc
    rw [if_neg hc] at hv
    cases hv
  have hl : same a ((b :: l).getLastD a) = false := by
    simp only [checkInput, Bool.and_eq_true, Bool.not_eq_true'] at hc
    exact hc.2
  have h1 : same a ((b :: l ++ [a]).getLastD a) = true := by
    rw [List.getLastD_eq_getLast?, List.getLast?_append]; simp [hr]
  refine ⟨?_, ?_, fun closed => ?_⟩
  · show (if (same a ((b :: l ++ [a]).getLastD a) && !true) = true then Res.throw else .ok (if same a ((b :: l ++ [a]).getLastD a) = true then (a :: (b :: l ++ [a])).dropLast else _)) = _
    rw [h1]
    simp [List.dropLast_concat]
    exact List.dropLast_concat (l₁ := b :: l)
  · show (if (same a ((b :: l ++ [a]).getLastD a) && !false) = true then Res.throw else _) = _
    rw [h1]; rfl
  · show (if (same a ((b :: l).getLastD a) && !closed) = true then Res.throw else .ok (if same a ((b :: l).getLastD a) = true then _ else a :: b :: l)) = _
    rw [hl]; rfl

/-- The hypotheses of C131 are met. -/
example : polySet (fun p q : ℕ => decide (p = q)) [0, 1, 2] = .ok [0, 1, 2] ∧ ofBoost (fun p q : ℕ => decide (p = q)) true [0, 1, 2, 0] = .ok [0, 1, 2] := by decide

/-- **C131 is false for other rings.** Points that follow each other and are the same, which the constructor from a container refuses, are imported; a ring with one point gives an empty polyline; an empty ring is undefined behaviour. -/
theorem C131_false {P : Type} (same : P → P → Bool) (hr : ∀ p, same p p = true) (a b : P) (h : same a b = false) :
    ofBoost same true [a, a, b] = .ok [a, a, b] ∧ polySet same [a, a, b] = .throw ∧ ofBoost same true [a] = .ok [] ∧ ofBoost same true [] = .ub := by
  refine ⟨by simp [ofBoost, h], by simp [polySet, checkInput, openPairs, hr], by simp [ofBoost, hr], rfl⟩

end H2d.Props
