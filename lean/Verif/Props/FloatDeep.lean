import Verif.Lemmas.FloatDeepRect
import Verif.Props.FloatPip
import Verif.Props.FloatRect

/-!
# C135: limits of the exponents, composed operations
-/

namespace H2d.Props

open H2d.Spec H2d.Fl

/-- For `double`: multiples of 2^-60 up to 2^60, also for points inside polygons, and multiples of 2^-24 up to 2^24 for images of lines. For `float`: integers up to 64. -/
example : FitsDeep Format.double (-60) 60 ∧ FitsDeep Format.double (-60 - 5) (60 + 2) ∧ FitsImage Format.double (-24) 24 ∧ FitsDeep Format.float 0 6 := by
  refine ⟨?_, ?_, ?_, ?_⟩ <;> simp only [FitsImage, FitsDeep, Format.double, Format.float] <;> norm_num

/-- **C135, intersections.** Far from the limits of the format, intersections of segments, and of lines through points, are as with unlimited exponents, exceptions included, whatever an overflow would give. -/
theorem C135_intersections (f : Format) (e n : ℤ) (hf : FitsDeep f e n) (over : ℝ → ℝ) (t : Thr ℝ) (ac : ℝ → ℝ) (s s' : Seg) (hs : GridSeg e n s) (hs' : GridSeg e n s') :
    Fl.segInter (f.arith over) t ac s s' = Fl.segInter (binary f.p) t ac s s' ∧
    ∀ l m, Fl.lineOfPts (f.arith over) t s.1 s.2 = .ok l → Fl.lineOfPts (f.arith over) t s'.1 s'.2 = .ok m →
      Fl.isParallel (f.arith over) t ac l m = Fl.isParallel (binary f.p) t ac l m ∧ Fl.lineInter (f.arith over) t ac l m = Fl.lineInter (binary f.p) t ac l m := by
  refine ⟨(agree_segInter hf over t ac hs hs').1, fun l m hl hm => ?_⟩
  rw [agree_lineOfPts (deep_fits hf) over t hs.1 hs.2] at hl
  rw [agree_lineOfPts (deep_fits hf) over t hs'.1 hs'.2] at hm
  have gl := grid_lineOfPts (deep_fits hf) t hs.1 hs.2 hl
  have gm := grid_lineOfPts (deep_fits hf) t hs'.1 hs'.2 hm
  have e1 := agree_isParallel hf over t ac gl gm
  refine ⟨e1, ?_⟩
  unfold Fl.lineInter
  rw [e1, (agree_crossXY hf over gl gm).1]

/-- **C135, distances.** Same for the distance of a point to a segment, and to a line through two points. -/
theorem C135_distances (f : Format) (e n : ℤ) (hf : FitsDeep f e n) (over : ℝ → ℝ) (t : Thr ℝ) (s : Seg) (p : Pt ℝ) (hs : GridSeg e n s) (hp : GridPt e n p) :
    Fl.segDistTo (f.arith over) s.1 s.2 p = Fl.segDistTo (binary f.p) s.1 s.2 p ∧
    ∀ l, Fl.lineOfPts (f.arith over) t s.1 s.2 = .ok l → Fl.lineDist (f.arith over) l p = Fl.lineDist (binary f.p) l p := by
  refine ⟨agree_segDistTo hf over hs.1 hs.2 hp, fun l hl => ?_⟩
  rw [agree_lineOfPts (deep_fits hf) over t hs.1 hs.2] at hl
  exact agree_lineDist hf over (grid_lineOfPts (deep_fits hf) t hs.1 hs.2 hl) hp

/-- **C135, searches.** Same for the nearest and the farthest points of a set, and the closest points of two polylines. -/
theorem C135_searches (f : Format) (e n : ℤ) (hf : Fits f e n) (over : ℝ → ℝ) (t : Thr ℝ) (q : Pt ℝ) (hq : GridPt e n q) (a b : List (Pt ℝ)) (ha : ∀ p ∈ a, GridPt e n p) (hb : ∀ p ∈ b, GridPt e n p) :
    Fl.nearest (f.arith over) t q a = Fl.nearest (binary f.p) t q a ∧ Fl.farthest (f.arith over) t q a = Fl.farthest (binary f.p) t q a ∧
    Fl.nearestFarthest (f.arith over) t q a = Fl.nearestFarthest (binary f.p) t q a ∧ Fl.closest (f.arith over) a b = Fl.closest (binary f.p) a b := by
  have h : ∀ y ∈ a, Fl.sqDist (f.arith over) q y = Fl.sqDist (binary f.p) q y ∧ sameB (f.arith over) t q y = sameB (binary f.p) t q y ∧ sameB (f.arith over) t y q = sameB (binary f.p) t y q := fun y hy =>
    ⟨agree_sqDist hf over hq (ha y hy), agree_sameB hf over t hq (ha y hy), agree_sameB hf over t (ha y hy) hq⟩
  exact ⟨findPoint_congr _ h, findPoint_congr _ h, nearestFarthest_congr fun y hy => ⟨(h y hy).1, (h y hy).2.1⟩, closest_congr fun x hx y hy => (agree_dist hf over (ha x hx) (hb y hy)).1⟩

/-- **C135, polygons.** Same for `isSimple()`, `area()` and `centroid()`, exceptions included. The number of points is at most `2^(p-1)`. -/
theorem C135_polygons (f : Format) (e n : ℤ) (hf : FitsDeep f e n) (over : ℝ → ℝ) (t : Thr ℝ) (ac : ℝ → ℝ) (closed : Bool) (pts : List (Pt ℝ)) (h : ∀ p ∈ pts, GridPt e n p) :
    simpleF (f.arith over) t ac closed pts = simpleF (binary f.p) t ac closed pts ∧
    (2 * pts.length ≤ 2 ^ f.p → Fl.polyArea (f.arith over) t ac closed pts = Fl.polyArea (binary f.p) t ac closed pts ∧ Fl.centroid (f.arith over) t ac closed pts = Fl.centroid (binary f.p) t ac closed pts) := by
  have hc : (cycPairs pts).length = pts.length := by unfold cycPairs; cases pts <;> simp
  refine ⟨agree_simple hf over t ac closed h, fun hl => ?_⟩
  rw [← hc] at hl
  exact ⟨agree_polyArea hf over t ac closed h hl, agree_centroid hf over t ac closed h hl⟩

/-- **C135, points inside polygons.** Same for the test that a point is inside a polygon: the exponents have to be a little farther from the limits, because of the reference points outside of the polygon. -/
theorem C135_inside (f : Format) (e n : ℤ) (he : e ≤ 0) (hn : 0 ≤ n) (hf : FitsDeep f (e - 5) (n + 2)) (over : ℝ → ℝ) (t : Thr ℝ) (ac : ℝ → ℝ) (closed : Bool) (pts : List (Pt ℝ)) (p : Pt ℝ) (h : ∀ q ∈ pts, GridPt e n q)
    (hp : GridPt e n p) : Fl.ptInsidePoly (f.arith over) t ac closed pts p = Fl.ptInsidePoly (binary f.p) t ac closed pts p := agree_ptInsidePoly hf he hn over t ac closed h hp

/-- **C135, rectangles.** Same for the intersections of a rectangle with a segment or a rectangle, and the intersection area. -/
theorem C135_rectangles (f : Format) (e n : ℤ) (hf : FitsDeep f e n) (over : ℝ → ℝ) (t : Thr ℝ) (ac : ℝ → ℝ) (a b : FRect ℝ) (s : Seg) (ha : GridRect e n a) (hb : GridRect e n b) (hs : GridSeg e n s) :
    Fl.rectSegInter (f.arith over) t ac a s = Fl.rectSegInter (binary f.p) t ac a s ∧ Fl.rectInter (f.arith over) t ac a b = Fl.rectInter (binary f.p) t ac a b ∧
    Fl.intersectArea (f.arith over) t ac a b = Fl.intersectArea (binary f.p) t ac a b :=
  ⟨(agree_rectSegInter hf over t ac ha hs).1, (agree_rectInter hf over t ac ha hb).1, agree_intersectArea hf over t ac ha hb⟩

/-- **C135, homographies.** Same for the determinant and the inverse of a homography, and the image of a line through two points. -/
theorem C135_homographies (f : Format) (e n : ℤ) (hf : FitsDeep f e n) (over : ℝ → ℝ) (t : Thr ℝ) (ht : 0 < t.nullDeter) (ht' : 0 < t.nullDenom) (m : Mat ℝ) (hm : ∀ i j, Grid e n (m i j)) :
    Fl.determ (f.arith over) m = Fl.determ (binary f.p) m ∧ Fl.inverse (f.arith over) t m = Fl.inverse (binary f.p) t m ∧ Fl.homInverse (f.arith over) t m = Fl.homInverse (binary f.p) t m ∧
    (FitsImage f e n → ∀ p q l, GridPt e n p → GridPt e n q → Fl.lineOfPts (f.arith over) t p q = .ok l → Fl.lineImage (f.arith over) t m l = Fl.lineImage (binary f.p) t m l) := by
  refine ⟨(agree_determ hf over hm).1, (agree_inverse hf over t ht hm).1, (agree_homInverse hf over t ht ht' hm).1, fun hi p q l hp hq hl => ?_⟩
  rw [agree_lineOfPts (deep_fits hf) over t hp hq] at hl
  exact agree_lineImage hi over t ht ht' hm (grid_lineOfPts (deep_fits hf) t hp hq hl)

/-- **C135, `double`, points inside polygons.** With the format of `double`, limits of the exponents included, and coordinates that are multiples of `2^-60` up to `2^60`: the answer of `isInside()` is right under the conditions of C125. -/
theorem C135_double_inside {ac : ℝ → ℝ} {w : ℝ} (ha : AcosOk ac w) {t : Thr ℝ} {M L S : ℝ} {pts : List (Pt ℝ)} {p lo hi : Pt ℝ} (over : ℝ → ℝ) (hg : ∀ q ∈ pts, GridPt (-60) 60 q) (hgp : GridPt (-60) 60 p)
    (hp : PipOk (binary 53) t ((2 : ℝ) ^ (-((53 : ℕ) : ℤ))) ((2 : ℝ) ^ (-((53 : ℕ) : ℤ))) w M L S pts p lo hi) (hx : 2000 * ((2 : ℝ) ^ (-((53 : ℕ) : ℤ)) * M ^ 3 / L ^ 2) ≤ t.nullDistance)
    (hf : FarFromLines (11 / 10 * t.nullDistance) pts p) (hs : simpleF (Format.double.arith over) t ac true pts = .ok true) {b : Bool} (hb : Fl.ptInsidePoly (Format.double.arith over) t ac true pts p = .ok b) :
    b = true ↔ EvenOdd pts p := by
  have f1 : FitsDeep Format.double (-60) 60 := by simp only [FitsDeep, Format.double]; norm_num
  have f2 : FitsDeep Format.double (-60 - 5) (60 + 2) := by simp only [FitsDeep, Format.double]; norm_num
  rw [(C135_polygons _ _ _ f1 over t ac true pts hg).1] at hs
  rw [C135_inside _ _ _ (by norm_num) (by norm_num) f2 over t ac true pts p hg hgp] at hb
  exact C125_partial (binary_ok (p := 53) (by norm_num)) ha hp hx hf hs hb

/-- **C135, `double`, rectangles.** Same for the intersection of rectangles. -/
theorem C135_double_rectangles {ac : ℝ → ℝ} {w : ℝ} (ha : AcosOk ac w) {a b : FRect ℝ} (over : ℝ → ℝ) (ga : GridRect (-60) 60 a) (gb : GridRect (-60) 60 b) (ra : RectRep (binary 53) 100 a) (rb : RectRep (binary 53) 100 b)
    (la : LongSides 1 a) (lb : LongSides 1 b) (hf : FarRects (3 / 10 ^ 10) a b) :
    (Overlap a b → ∃ r, Fl.intersectArea (Format.double.arith over) stdR ac a b = .ok (some r) ∧ NearRect (1 / 10 ^ 11) r (commonRect a b)) ∧
    (¬ Overlap a b → Fl.intersectArea (Format.double.arith over) stdR ac a b = .ok none) := by
  have f1 : FitsDeep Format.double (-60) 60 := by simp only [FitsDeep, Format.double]; norm_num
  have e1 : Fl.intersectArea (Format.double.arith over) stdR ac a b = Fl.intersectArea (binary 53) stdR ac a b := agree_intersectArea f1 over stdR ac ga gb
  rw [e1]
  exact C127_double_partial ha ra rb la lb hf

/-- With `double` and the default thresholds, limits of the exponents included: the point (-1/2, -1/2) is inside the L of vertices (-1,-1) (1,-1) (1,0) (0,0) (0,1) (-1,1), and the conditions of the theorem are met. -/
example (over : ℝ → ℝ) : (∀ q ∈ lPoly, GridPt (-60) 60 q) ∧ GridPt (-60) 60 ((-1 / 2, -1 / 2) : Pt ℝ) ∧ simpleF (Format.double.arith over) stdR Real.arccos true lPoly = .ok true ∧
    PipOk (binary 53) stdR ((2 : ℝ) ^ (-((53 : ℕ) : ℤ))) ((2 : ℝ) ^ (-((53 : ℕ) : ℤ))) 0 4 1 (1 / 8) lPoly (-1 / 2, -1 / 2) (-1, -1) (1, 1) ∧
    Fl.ptInsidePoly (Format.double.arith over) stdR Real.arccos true lPoly (-1 / 2, -1 / 2) = .ok true := by
  have k : ∀ m : ℤ, |m| ≤ 4 → Grid (-60) 60 ((m : ℝ) / 2) := fun m hm => by
    have : |(m : ℝ)| ≤ 4 := by exact_mod_cast hm
    refine ⟨⟨m * 2 ^ 59, by push_cast; norm_num; ring⟩, ?_⟩
    rw [abs_div, abs_two]
    exact le_trans (by linarith) (show (2 : ℝ) ≤ _ by norm_num)
  have k0 : Grid (-60) 60 (0 : ℝ) := by have := k 0 (by norm_num); norm_num at this; exact this
  have k1 : Grid (-60) 60 (1 : ℝ) := by have := k 2 (by norm_num); norm_num at this; exact this
  have k2 : Grid (-60) 60 (-1 : ℝ) := by have := k (-2) (by norm_num); norm_num at this; exact this
  have k3 : Grid (-60) 60 (-1 / 2 : ℝ) := by have := k (-1) (by norm_num); push_cast at this; exact this
  have hg : ∀ q ∈ lPoly, GridPt (-60) 60 q := by simp [lPoly, GridPt, k0, k1, k2]
  have hgp : GridPt (-60) 60 ((-1 / 2, -1 / 2) : Pt ℝ) := ⟨k3, k3⟩
  have hF := binary_ok (p := 53) (by norm_num)
  have hp := lPoly_ok (x := -1 / 2) (Or.inr rfl)
  have f1 : FitsDeep Format.double (-60) 60 := by simp only [FitsDeep, Format.double]; norm_num
  have f2 : FitsDeep Format.double (-60 - 5) (60 + 2) := by simp only [FitsDeep, Format.double]; norm_num
  have hs := (C135_polygons _ _ _ f1 over stdR Real.arccos true lPoly hg).1
  have hs' : simpleF (binary 53) stdR Real.arccos true lPoly = .ok true := C119_apart_partial hF hp.eps _ (by simp [lPoly]) (pip_edgesOk hF hp) lPoly_reach lPoly_apart
  refine ⟨hg, hgp, hs.trans hs', hp, ?_⟩
  rw [C135_inside _ _ _ (by norm_num) (by norm_num) f2 over stdR Real.arccos true lPoly _ hg hgp]
  obtain ⟨b, hb, k⟩ := C125_answers_partial hF acosOk_exact (lPoly_ok (Or.inr rfl)) lPoly_hx (fun e he k => le_trans (by norm_num [stdR]) (lPoly_far_lines e he k)) (by norm_num [stdR]) (by norm_num [stdR])
    (by norm_num [stdR]) (by simp [lPoly]) lPoly_reach lPoly_apart fun q hq y hy => le_trans (by norm_num [stdR]) (lPoly_vertices q hq y hy)
  show Fl.ptInsidePoly (binary 53) stdR Real.arccos true lPoly (-1 / 2, -1 / 2) = .ok true
  rw [hb, k.2 (lPoly_evenOdd (by norm_num))]

end H2d.Props
