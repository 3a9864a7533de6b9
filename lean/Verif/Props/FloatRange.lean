import Verif.Lemmas.FloatAgree
import Verif.Props.Float

/-!
# C123: limits of the exponents
-/

namespace H2d.Props

open H2d.Spec H2d.Fl

/-- For `double`: multiples of 2^-240 up to 2^240. For `float`: multiples of 2^-24 up to 2^24. -/
example : Fits Format.double (-240) 240 ∧ Fits Format.float (-24) 24 := by
  constructor <;> (unfold Fits; simp only [Format.double, Format.float]; norm_num)

/-- **C123, which numbers.** A number of the format that is null, or of absolute value between `2^(e+p-1)` and `2^n`, is a multiple of `2^e` and at most `2^n`; so is any integer up to `2^n`. -/
theorem C123_numbers (p : ℕ) (e n : ℤ) (x : ℝ) (hn : |x| ≤ (2 : ℝ) ^ n) :
    (Rep (binary p) x → x = 0 ∨ (2 : ℝ) ^ (e + p - 1) ≤ |x| → Grid e n x) ∧ (e ≤ 0 → (∃ m : ℤ, x = m) → Grid e n x) := by
  constructor
  · intro hr h
    obtain ⟨m, hm⟩ := roundTo_multiple (p := p) h
    have hr' : roundTo p x = x := hr
    rw [hr', show e + (p : ℤ) - 1 - p + 1 = e by ring] at hm
    exact ⟨⟨m, hm⟩, hn⟩
  · rintro he ⟨m, rfl⟩
    refine ⟨?_, hn⟩
    refine ⟨m * 2 ^ (-e).toNat, ?_⟩
    push_cast
    rw [mul_assoc, ← zpow_natCast, ← zpow_add₀ (by norm_num), Int.toNat_of_nonneg (by omega)]
    simp

/-- With `double`: 0.1, rounded. -/
example : Grid (-240) 240 ((binary 53).rnd (1 / 10)) := by
  have h := binary_ok (p := 53) (by norm_num)
  have e := abs_le.1 (h.err (1 / 10))
  have h1 : |(1 / 10 : ℝ)| = 1 / 10 := by norm_num
  have h2 : (2 : ℝ) ^ (-((53 : ℕ) : ℤ)) ≤ 1 / 2 := by norm_num
  rw [h1] at e
  have h3 : (2 : ℝ) ^ (-188 : ℤ) ≤ 1 / 20 := by norm_num
  have h4 : (1 : ℝ) ≤ (2 : ℝ) ^ (240 : ℤ) := by norm_num
  have k1 : 1 / 20 ≤ (binary 53).rnd (1 / 10) := by linarith [e.1]
  have k2 : (binary 53).rnd (1 / 10) ≤ 1 := by linarith [e.2]
  have k3 : |(binary 53).rnd (1 / 10)| = (binary 53).rnd (1 / 10) := abs_of_nonneg (by linarith)
  refine (C123_numbers 53 (-240) 240 _ (by rw [k3]; linarith)).1 (h.idem _) (Or.inr ?_)
  rw [k3, show (-240 : ℤ) + (53 : ℕ) - 1 = -188 by norm_num]
  linarith

/-- **C123, points.** Far from the limits of the format, no operation overflows or underflows in a way that matters: distance, squared distance, equality of points and points inside circles are as with unlimited exponents,
whatever an overflow would give. -/
theorem C123_points (f : Format) (e n : ℤ) (hf : Fits f e n) (over : ℝ → ℝ) (t : Thr ℝ) (p q : Pt ℝ) (r : ℝ) (hp : GridPt e n p) (hq : GridPt e n q) :
    distPt (f.arith over) p q = distPt (binary f.p) p q ∧ Fl.sqDist (f.arith over) p q = Fl.sqDist (binary f.p) p q ∧
    (Fl.PtSame (f.arith over) t p q ↔ Fl.PtSame (binary f.p) t p q) ∧ (Fl.PtInCirc (f.arith over) p q r ↔ Fl.PtInCirc (binary f.p) p q r) := by
  have e := (agree_dist hf over hp hq).1
  exact ⟨e, agree_sqDist hf over hp hq, by unfold Fl.PtSame; rw [e], by unfold Fl.PtInCirc; rw [e]⟩

/-- **C123, polygons.** Same for the signed area, the length and the convexity of polygons. The number of points is at most `2^(p-1)`. -/
theorem C123_polygons (f : Format) (e n : ℤ) (hf : Fits f e n) (over : ℝ → ℝ) (closed simple : Bool) (pts : List (Pt ℝ)) (h : ∀ p ∈ pts, GridPt e n p) (hl : 2 * pts.length ≤ 2 ^ f.p) :
    Fl.signedArea (f.arith over) pts = Fl.signedArea (binary f.p) pts ∧ polyLen (f.arith over) closed pts = polyLen (binary f.p) closed pts ∧
    Fl.isConvex (f.arith over) simple pts = Fl.isConvex (binary f.p) simple pts := by
  have hc : (cycPairs pts).length = pts.length := by unfold cycPairs; cases pts <;> simp
  refine ⟨agree_area hf over h (by omega), agree_len hf over closed h ?_, agree_convex hf over simple h⟩
  unfold segPairs openPairs
  split_ifs
  · simp
  · omega
  · rw [List.length_zip]; omega

/-- **C123, turns.** Same for turns, the orientation of the convex hull, and sides of a segment. -/
theorem C123_turns (f : Format) (e n : ℤ) (hf : Fits f e n) (over : ℝ → ℝ) (thr : ℝ) (p q r : Pt ℝ) (hp : GridPt e n p) (hq : GridPt e n q) (hr : GridPt e n r) :
    Fl.crossAt (f.arith over) p q r = Fl.crossAt (binary f.p) p q r ∧ Fl.chOrientation (f.arith over) thr p q r = Fl.chOrientation (binary f.p) thr p q r ∧
    sideCross (f.arith over) p q r = sideCross (binary f.p) p q r :=
  ⟨agree_cross hf over hp hq hr, agree_orientation hf over thr hp hq hr, agree_side hf over hp hq hr⟩

/-- **C123, boxes.** Same for the centre, the size, the area and the translation of a rectangle, and the bounding box of a circle. -/
theorem C123_boxes (f : Format) (e n : ℤ) (hf : Fits f e n) (over : ℝ → ℝ) (t : Thr ℝ) (r : FRect ℝ) (d dx dy : ℝ) (hp : GridPt e n r.p1) (hq : GridPt e n r.p2) (hd : Grid e n d) (hx : Grid e n dx) (hy : Grid e n dy) :
    center (f.arith over) r.p1 r.p2 = center (binary f.p) r.p1 r.p2 ∧
    rectWidth (f.arith over) r = rectWidth (binary f.p) r ∧ rectHeight (f.arith over) r = rectHeight (binary f.p) r ∧
    rectArea (f.arith over) r = rectArea (binary f.p) r ∧ rectLength (f.arith over) r = rectLength (binary f.p) r ∧
    rectTranslate (f.arith over) r dx dy = rectTranslate (binary f.p) r dx dy ∧
    Fl.rectOfPts (f.arith over) t r.p1 r.p2 = Fl.rectOfPts (binary f.p) t r.p1 r.p2 ∧
    Fl.circBB (f.arith over) t r.p1 d = Fl.circBB (binary f.p) t r.p1 d := by
  obtain ⟨a, b, c, k⟩ := agree_rect hf over hp hq
  refine ⟨agree_center hf over hp hq, a, b, c, k, ?_, ?_, agree_circBB hf over t hp hd⟩
  · unfold rectTranslate
    rw [agree_translate hf over hp hx hy, agree_translate hf over hq hx hy]
  · exact agree_rectOfPts hf over t ⟨hp.1.mono le_rfl (by omega), hp.2.mono le_rfl (by omega)⟩ ⟨hq.1.mono le_rfl (by omega), hq.2.mono le_rfl (by omega)⟩

/-- **C123, lines.** Same for the line through two points. -/
theorem C123_lines (f : Format) (e n : ℤ) (hf : Fits f e n) (over : ℝ → ℝ) (t : Thr ℝ) (p q : Pt ℝ) (hp : GridPt e n p) (hq : GridPt e n q) :
    Fl.lineOfPts (f.arith over) t p q = Fl.lineOfPts (binary f.p) t p q := agree_lineOfPts hf over t hp hq

/-- **C123, homographies.** Same for the image of a point by a homography that does not send it to infinity, and for the product of homographies. -/
theorem C123_homographies (f : Format) (e n : ℤ) (hf : Fits f e n) (over : ℝ → ℝ) (a b : Mat ℝ) (v : V3 ℝ) (ha : ∀ i j, Grid e n (a i j)) (hb : ∀ i j, Grid e n (b i j)) (hv : ∀ i, Grid e n (v i)) :
    Fl.app (f.arith over) a v = Fl.app (binary f.p) a v ∧ Fl.mul (f.arith over) a b = Fl.mul (binary f.p) a b ∧
    (Fl.app (binary f.p) a v 2 ≠ 0 → Fl.getXY (f.arith over) (Fl.app (f.arith over) a v) = Fl.getXY (binary f.p) (Fl.app (binary f.p) a v)) :=
  ⟨(agree_app hf over ha hv).1, agree_mul hf over ha hb, agree_image hf over ha hv⟩

/-- **C123, convex hull.** Same for the convex hull. -/
theorem C123_hull (f : Format) (e n : ℤ) (hf : Fits f e n) (over : ℝ → ℝ) (srt : (Nat → Nat → Bool) → List Nat → List Nat) (t : Thr ℝ) (thr : ℝ) (pts : List (Pt ℝ)) (h : ∀ p ∈ pts, GridPt e n p) :
    Fl.convexHull (f.arith over) srt t thr pts = Fl.convexHull (binary f.p) srt t thr pts := agree_hull hf over srt t thr h

/-- **C123, `double`.** With the format of `double`, limits of the exponents included, the area of a polygon of `n` points whose coordinates are multiples of `2^-240` up to `2^240` has the error of C103, with `u = 2^-53`. -/
theorem C123_double_area (over : ℝ → ℝ) (pts : List (Pt ℝ)) (h : ∀ p ∈ pts, GridPt (-240) 240 p) (hl : 2 * pts.length ≤ 2 ^ 53) :
    |Fl.signedArea (Format.double.arith over) pts - H2d.signedArea pts| ≤
      ((1 + (2 : ℝ) ^ (-53 : ℤ)) ^ (2 * pts.length + 2) - 1) * (((cycPairs pts).map fun e => |e.1.1 * e.2.2| + |e.1.2 * e.2.1|).sum / 2) := by
  have hf : Fits Format.double (-240) 240 := by unfold Fits; simp only [Format.double]; norm_num
  rw [(C123_polygons Format.double _ _ hf over true true pts h hl).1]
  exact C103_area _ _ _ (binary_ok (p := 53) (by norm_num)) pts

/-- A triangle. -/
example : ∀ p ∈ ([(0, 0), (3, 0), (0, 4)] : List (Pt ℝ)), GridPt (-240) 240 p := by
  have k : ∀ m : ℤ, |m| ≤ 4 → Grid (-240) 240 (m : ℝ) := fun m hm => by
    refine (C123_numbers 53 _ _ _ ?_).2 (by norm_num) ⟨m, rfl⟩
    have : |(m : ℝ)| ≤ 4 := by exact_mod_cast hm
    exact le_trans this (by norm_num)
  have k0 := k 0 (by norm_num)
  have k3 := k 3 (by norm_num)
  have k4 := k 4 (by norm_num)
  push_cast at k0 k3 k4
  simp [GridPt, k0, k3, k4]

/-- **C123, overflow.** With `double`, the area of a triangle may be a number of the format, and yet depend on the result of operations that overflow: exact area `2^987`, but the value computed is 0 or 1/2 according to
these results (not a number, with those of IEEE 754). -/
theorem C123_overflow_sharp : ∃ pts : List (Pt ℝ), (∀ q ∈ pts, Rep (binary 53) q.1 ∧ Rep (binary 53) q.2) ∧ H2d.signedArea pts = (2 : ℝ) ^ (987 : ℤ) ∧
    (∃ over, Fl.signedArea (Format.double.arith over) pts = 0) ∧ ∃ over, Fl.signedArea (Format.double.arith over) pts = 1 / 2 := by
  have hz : ∀ over, (Format.double.arith over).rnd 0 = 0 := fun over => by
    have := (Grid.zero 0 0).step (f := Format.double) (by norm_num [Format.double]) over (by norm_num [Format.double]) (by norm_num [Format.double])
    rw [this.1]; exact roundTo_zero
  have ho : ∀ over, (Format.double.arith over).rnd 1 = 1 ∧ (Format.double.arith over).rnd (1 / 2) = 1 / 2 := fun over => by
    have h1 : Grid (-1) 0 1 := Grid.one (by norm_num) le_rfl
    have a := (h1.step (f := Format.double) (by norm_num [Format.double]) over (by norm_num [Format.double]) (by norm_num [Format.double])).1
    have h2 : Grid (-1) 0 (1 / 2) := (Grid.one (e := 0) le_rfl le_rfl).half
    have b := (h2.step (f := Format.double) (by norm_num [Format.double]) over (by norm_num [Format.double]) (by norm_num [Format.double])).1
    rw [a, b]
    have := roundTo_exact (p := 53) (by norm_num) (m := 1) (k := 0) (by norm_num)
    have k2 := roundTo_exact (p := 53) (by norm_num) (m := 1) (k := -1) (by norm_num)
    norm_num at this k2
    constructor
    · exact this
    · show roundTo 53 (1 / 2) = 1 / 2
      norm_num
      exact k2
  have ov1 : ∀ over, (Format.double.arith over).rnd ((2 : ℝ) ^ (1040 : ℤ)) = over ((2 : ℝ) ^ (1040 : ℤ)) := fun over => by
    have := rnd_over (f := Format.double) (by norm_num [Format.double]) over (m := 1) (k := 1040) (by norm_num [Format.double]) (by norm_num [Format.double]) (by
      rw [Int.cast_one, one_mul, abs_of_pos (two_zpow_pos _)]; exact zpow_le (by norm_num [Format.double]))
    rwa [Int.cast_one, one_mul] at this
  have ov2 : ∀ over, (Format.double.arith over).rnd (4503599627370497 * (2 : ℝ) ^ (988 : ℤ)) = over (4503599627370497 * (2 : ℝ) ^ (988 : ℤ)) := fun over => by
    have := rnd_over (f := Format.double) (by norm_num [Format.double]) over (m := 4503599627370497) (k := 988) (by norm_num [Format.double]) (by norm_num [Format.double]) (by
      rw [abs_of_pos (mul_pos (by norm_num) (two_zpow_pos _))]
      have e : (2 : ℝ) ^ Format.double.emax = 2 ^ 36 * (2 : ℝ) ^ (988 : ℤ) := by
        rw [show Format.double.emax = 36 + 988 from rfl, zpow_add₀ (by norm_num)]; norm_num
      rw [e]
      have := two_zpow_pos 988
      push_cast
      exact mul_le_mul_of_nonneg_right (by norm_num) this.le)
    push_cast at this
    exact this
  have e1 : (4503599627370497 : ℝ) * (2 : ℝ) ^ (548 : ℤ) * (2 : ℝ) ^ (440 : ℤ) = 4503599627370497 * (2 : ℝ) ^ (988 : ℤ) := by
    rw [mul_assoc, ← zpow_add₀ (by norm_num)]; norm_num
  have e2 : (2 : ℝ) ^ (440 : ℤ) * (2 : ℝ) ^ (600 : ℤ) = (2 : ℝ) ^ (1040 : ℤ) := by
    rw [← zpow_add₀ (by norm_num)]; norm_num
  have e3 : (2 : ℝ) ^ (1040 : ℤ) = 2 ^ 52 * (2 : ℝ) ^ (988 : ℤ) := by
    rw [show (1040 : ℤ) = 52 + 988 by norm_num, zpow_add₀ (by norm_num)]; norm_num
  have e4 : (2 : ℝ) ^ (988 : ℤ) = 2 * (2 : ℝ) ^ (987 : ℤ) := by
    rw [show (988 : ℤ) = 1 + 987 by norm_num, zpow_add₀ (by norm_num)]; norm_num
  have form : ∀ over, Fl.signedArea (Format.double.arith over) [((2 : ℝ) ^ (600 : ℤ), 0), (4503599627370497 * (2 : ℝ) ^ (548 : ℤ), 0), ((2 : ℝ) ^ (600 : ℤ), (2 : ℝ) ^ (440 : ℤ))] =
      (Format.double.arith over).rnd ((Format.double.arith over).rnd ((Format.double.arith over).rnd ((Format.double.arith over).rnd ((Format.double.arith over).rnd (over (4503599627370497 * (2 : ℝ) ^ (988 : ℤ))))) - over ((2 : ℝ) ^ (1040 : ℤ))) / 2) := by
    intro over
    simp only [Fl.signedArea, cycPairs, List.tail_cons, List.take_succ_cons, List.take_zero, List.cons_append, List.nil_append, List.zip_cons_cons, List.zip_nil_right, List.foldl_cons, List.foldl_nil,
      mul_zero, zero_mul, hz, add_zero, sub_zero, zero_add, e1, e2, ov1, ov2]
  refine ⟨[((2 : ℝ) ^ (600 : ℤ), 0), (4503599627370497 * (2 : ℝ) ^ (548 : ℤ), 0), ((2 : ℝ) ^ (600 : ℤ), (2 : ℝ) ^ (440 : ℤ))], ?_, ?_, ⟨fun _ => 0, ?_⟩, ⟨fun x => if x = (2 : ℝ) ^ (1040 : ℤ) then 0 else 1, ?_⟩⟩
  · have r : ∀ k : ℤ, roundTo 53 ((2 : ℝ) ^ k) = (2 : ℝ) ^ k := fun k => by
      have := roundTo_exact (p := 53) (by norm_num) (m := 1) (k := k) (by norm_num)
      rwa [Int.cast_one, one_mul] at this
    have r2 := roundTo_exact (p := 53) (by norm_num) (m := 4503599627370497) (k := 548) (by norm_num)
    push_cast at r2
    intro q hq
    simp only [List.mem_cons, List.not_mem_nil, or_false] at hq
    rcases hq with rfl | rfl | rfl
    · exact ⟨r _, roundTo_zero⟩
    · exact ⟨r2, roundTo_zero⟩
    · exact ⟨r _, r _⟩
  · simp only [H2d.signedArea, cycPairs, List.map_cons, List.map_nil, List.sum_cons, List.sum_nil, List.tail_cons, List.take_succ_cons, List.take_zero, List.cons_append, List.nil_append, List.zip_cons_cons, List.zip_nil_right, List.foldl_cons, List.foldl_nil,
      mul_zero, zero_mul, add_zero, sub_zero, zero_add, e1, e2, e3, e4]
    generalize (2 : ℝ) ^ (987 : ℤ) = z
    ring
  · rw [form]
    simp only [hz, sub_zero, zero_div]
  · rw [form]
    have ne : (4503599627370497 : ℝ) * (2 : ℝ) ^ (988 : ℤ) ≠ (2 : ℝ) ^ (1040 : ℤ) := by
      rw [e3]
      intro hc
      have := mul_right_cancel₀ (two_zpow_pos 988).ne' hc
      norm_num at this
    simp only [if_neg ne, if_true, (ho _).1, sub_zero, (ho _).2]

/-- **C123, underflow.** With `double`, the area of a triangle with sides of length `2^-600` is computed as 0; so is the squared distance of two of its points, used to compare distances,
though their distance itself is not null. -/
theorem C123_underflow_sharp (over : ℝ → ℝ) : ∃ a b c : Pt ℝ, (∀ q ∈ [a, b, c], Rep (binary 53) q.1 ∧ Rep (binary 53) q.2) ∧ 0 < H2d.signedArea [a, b, c] ∧
    Fl.signedArea (Format.double.arith over) [a, b, c] = 0 ∧ Fl.sqDist (Format.double.arith over) b a = 0 ∧ 0 < distPt (Format.double.arith over) b a := by
  have hz : (Format.double.arith over).rnd 0 = 0 := by
    have := (Grid.zero 0 0).step (f := Format.double) (by norm_num [Format.double]) over (by norm_num [Format.double]) (by norm_num [Format.double])
    rw [this.1]; exact roundTo_zero
  have r : roundTo 53 ((2 : ℝ) ^ (-600 : ℤ)) = (2 : ℝ) ^ (-600 : ℤ) := by
    have := roundTo_exact (p := 53) (by norm_num) (m := 1) (k := -600) (by norm_num)
    rwa [Int.cast_one, one_mul] at this
  have e : (2 : ℝ) ^ (-600 : ℤ) * (2 : ℝ) ^ (-600 : ℤ) = (2 : ℝ) ^ (-1200 : ℤ) := by
    rw [← zpow_add₀ (by norm_num)]; norm_num
  have un : (Format.double.arith over).rnd ((2 : ℝ) ^ (-1200 : ℤ)) = 0 := rnd_under (by norm_num [Format.double]) over (by norm_num [Format.double])
  have hg : Grid (-600) (-600) ((2 : ℝ) ^ (-600 : ℤ)) := ⟨⟨1, by simp⟩, by rw [abs_of_pos (two_zpow_pos _)]⟩
  have hr : (Format.double.arith over).rnd ((2 : ℝ) ^ (-600 : ℤ)) = (2 : ℝ) ^ (-600 : ℤ) := by
    rw [(hg.step (f := Format.double) (by norm_num [Format.double]) over (by norm_num [Format.double]) (by norm_num [Format.double])).1]
    exact r
  have pos := two_zpow_pos (-600)
  refine ⟨(0, 0), ((2 : ℝ) ^ (-600 : ℤ), 0), (0, (2 : ℝ) ^ (-600 : ℤ)), ?_, ?_, ?_, ?_, ?_⟩
  · intro q hq
    simp only [List.mem_cons, List.not_mem_nil, or_false] at hq
    rcases hq with rfl | rfl | rfl
    exacts [⟨roundTo_zero, roundTo_zero⟩, ⟨r, roundTo_zero⟩, ⟨roundTo_zero, r⟩]
  · simp only [H2d.signedArea, cycPairs, List.map_cons, List.map_nil, List.sum_cons, List.sum_nil, List.tail_cons, List.take_succ_cons, List.take_zero, List.cons_append, List.nil_append, List.zip_cons_cons, List.zip_nil_right, List.foldl_cons, List.foldl_nil,
      mul_zero, zero_mul, add_zero, sub_zero, zero_add, e]
    have := two_zpow_pos (-1200)
    positivity
  · simp only [Fl.signedArea, cycPairs, List.tail_cons, List.take_succ_cons, List.take_zero, List.cons_append, List.nil_append, List.zip_cons_cons, List.zip_nil_right, List.foldl_cons, List.foldl_nil,
      mul_zero, zero_mul, hz, add_zero, sub_zero, e, un, zero_div]
  · simp only [Fl.sqDist, sub_zero, hr, hz, mul_zero, e, un, add_zero]
  · unfold distPt
    simp only [sub_zero, hr, hz]
    obtain ⟨h1, -, h2⟩ := hyp_step (f := Format.double) (by norm_num [Format.double]) over (hg.mono le_rfl (show (-600 : ℤ) ≤ 0 by norm_num)) (Grid.zero (-600) 0) (by norm_num [Format.double]) (by norm_num [Format.double])
    rw [h1]
    exact lt_of_lt_of_le pos (h2 (Or.inl pos.ne'))

end H2d.Props
