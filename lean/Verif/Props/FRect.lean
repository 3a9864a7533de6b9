import Verif.Spec.Objects
import Verif.Lemmas.FRect
import Verif.Model.Polyline
import Mathlib.Tactic.NormNum

/-!
# C25, C26, C27 (rectangle part): flat rectangles
-/

set_option linter.unusedSectionVars false

namespace H2d.Props

open H2d.Spec

variable {K : Type} [Field K] [LinearOrder K] [IsStrictOrderedRing K]

/-- **C25, outcome.** Building a rectangle from two points throws exactly when they share a coordinate within the threshold `t`;
otherwise the rectangle is spanned by the minimal and maximal coordinates. -/
theorem C25_ctor (t : K) (pa pb : Pt K) :
    (FRect.ofPts t pa pb = .throw ↔ |pa.1 - pb.1| < t ∨ |pa.2 - pb.2| < t) ∧
    FRect.ofPts t pa pb ≠ .ub ∧
    ∀ r, FRect.ofPts t pa pb = .ok r → IsTightBox (fun p => p = pa ∨ p = pb) r.p1 r.p2 := by
  rcases ofPts_cases t pa pb with ⟨h, hc⟩ | ⟨h, h1, h2⟩
  · simp [h, hc]
  · refine ⟨?_, by simp [h], ?_⟩
    · rw [h]
      simp [not_lt.2 h1, not_lt.2 h2]
    · intro r hr
      rw [h] at hr
      simp at hr
      subst hr
      refine ⟨by rintro p (rfl | rfl) <;> simp, ?_, ?_, ?_, ?_⟩
      · rcases le_total pa.1 pb.1 with h | h
        · exact ⟨pa, Or.inl rfl, by simp [h]⟩
        · exact ⟨pb, Or.inr rfl, by simp [h]⟩
      · rcases le_total pa.1 pb.1 with h | h
        · exact ⟨pb, Or.inr rfl, by simp [h]⟩
        · exact ⟨pa, Or.inl rfl, by simp [h]⟩
      · rcases le_total pa.2 pb.2 with h | h
        · exact ⟨pa, Or.inl rfl, by simp [h]⟩
        · exact ⟨pb, Or.inr rfl, by simp [h]⟩
      · rcases le_total pa.2 pb.2 with h | h
        · exact ⟨pb, Or.inr rfl, by simp [h]⟩
        · exact ⟨pa, Or.inl rfl, by simp [h]⟩

/-- **C25, canonical form.** The four ways of giving two opposite corners have the same outcome, in particular build the same rectangle. -/
theorem C25_canonical (t x1 y1 x2 y2 : K) :
    FRect.ofPts t (x1, y1) (x2, y2) = FRect.ofPts t (x2, y2) (x1, y1) ∧
    FRect.ofPts t (x1, y1) (x2, y2) = FRect.ofPts t (x1, y2) (x2, y1) ∧
    FRect.ofPts t (x1, y1) (x2, y2) = FRect.ofPts t (x2, y1) (x1, y2) := by
  have key : ∀ pa pb : Pt K, |pa.1 - pb.1| = |x1 - x2| → |pa.2 - pb.2| = |y1 - y2| →
      shareCommonCoord t pa pb = shareCommonCoord t (x1, y1) (x2, y2) := by
    intro pa pb h1 h2
    rw [Bool.eq_iff_iff, share_iff, share_iff, h1, h2]
  simp only [FRect.ofPts, getCorrectPoints]
  rw [key (x2, y2) (x1, y1) (abs_sub_comm _ _) (abs_sub_comm _ _), key (x1, y2) (x2, y1) rfl (abs_sub_comm _ _),
    key (x2, y1) (x1, y2) (abs_sub_comm _ _) rfl]
  simp only [min_comm x2 x1, min_comm y2 y1, max_comm x2 x1, max_comm y2 y1, and_self]

/-- **C25, size.** With a positive threshold a rectangle that could be built has positive width and height (not smaller than the threshold). -/
theorem C25_positive (t : K) (pa pb : Pt K) (r : FRect K) (h : FRect.ofPts t pa pb = .ok r) :
    t ≤ r.width ∧ t ≤ r.height ∧ r.width = |pa.1 - pb.1| ∧ r.height = |pa.2 - pb.2| := by
  rcases ofPts_cases t pa pb with ⟨h', _⟩ | ⟨h', h1, h2⟩
  · rw [h'] at h; cases h
  · rw [h'] at h
    simp at h
    subst h
    have e : ∀ u v : K, max u v - min u v = |u - v| := fun u v => by rw [max_sub_min_eq_abs, abs_sub_comm]
    simp only [FRect.width, FRect.height, e]
    exact ⟨h1, h2, trivial, trivial⟩

example : FRect.ofPts (1/10^14) ((3, 1) : Pt ℚ) (1, 5) = .ok ⟨(1, 1), (3, 5)⟩ ∧
    FRect.ofPts (1/10^14) ((3, 1) : Pt ℚ) (3, 5) = .throw := by decide +kernel

/-- **C25, center and size.** A rectangle built from its center and its size has this center, and the absolute values of the sizes; the construction
fails exactly if one of them is below the threshold. -/
theorem C25_center (t : K) (c : Pt K) (w h : K) :
    (FRect.ofCenter t c w h = .throw ↔ |w| < t ∨ |h| < t) ∧ FRect.ofCenter t c w h ≠ .ub ∧
    ∀ r, FRect.ofCenter t c w h = .ok r → r.getCenter = c ∧ r.width = |w| ∧ r.height = |h| := by
  unfold FRect.ofCenter
  have e1 : |(c.1 - (1/2) * w) - (c.1 + (1/2) * w)| = |w| := by rw [← abs_neg]; congr 1; ring
  have e2 : |(c.2 - (1/2) * h) - (c.2 + (1/2) * h)| = |h| := by rw [← abs_neg]; congr 1; ring
  have e : ∀ u v : K, max u v - min u v = |u - v| := fun u v => by rw [max_sub_min_eq_abs, abs_sub_comm]
  rcases ofPts_cases t (c.1 - (1/2) * w, c.2 - (1/2) * h) (c.1 + (1/2) * w, c.2 + (1/2) * h) with ⟨h', hc⟩ | ⟨h', h1, h2⟩
  · simp only at hc
    rw [e1, e2] at hc
    rw [h']
    exact ⟨by simpa using hc, by simp, by simp⟩
  · simp only at h1 h2
    rw [e1] at h1
    rw [e2] at h2
    rw [h']
    refine ⟨by simp; exact ⟨h1, h2⟩, by simp, ?_⟩
    intro r hr
    simp at hr
    subst hr
    refine ⟨?_, ?_, ?_⟩
    · simp only [FRect.getCenter]
      have a := min_add_max (c.1 - (1/2) * w) (c.1 + (1/2) * w)
      have b := min_add_max (c.2 - (1/2) * h) (c.2 + (1/2) * h)
      apply Prod.ext
      · simp only; norm_num at a ⊢; linarith
      · simp only; norm_num at b ⊢; linarith
    · simp only [FRect.width, e]; norm_num at e1 ⊢; exact e1
    · simp only [FRect.height, e]; norm_num at e2 ⊢; exact e2

example : FRect.ofCenter (1/10^14) ((3, 1) : Pt ℚ) 4 (-2) = .ok ⟨(1, 0), (5, 2)⟩ := by decide +kernel

/-- **C25, comparison.** Rectangles compare equal exactly when both corners are at less than the null distance of the ones of the other. -/
theorem C25_equal (t : K) (r s : FRect K) :
    r.beq t s = true ↔ ((r.p1.1 - s.p1.1) ^ 2 + (r.p1.2 - s.p1.2) ^ 2 < t ^ 2 ∧ (r.p2.1 - s.p2.1) ^ 2 + (r.p2.2 - s.p2.2) ^ 2 < t ^ 2) := by
  unfold FRect.beq
  rw [Bool.and_eq_true, samePt_iff, samePt_iff, sqDist, sqDist]
  simp only [pow_two]

example : (⟨(1, 0), (5, 2)⟩ : FRect ℚ).beq (1/10) ⟨(1, 1/20), (5, 2)⟩ = true ∧ (⟨(1, 0), (5, 2)⟩ : FRect ℚ).beq (1/10) ⟨(1, 0), (6, 2)⟩ = false := by
  decide +kernel

/-- **C26, sizes.** Length and area of a rectangle are those of the closed polyline of its four corners, for any distance that gives the lengths of horizontal and vertical segments;
both are positive. A rectangle built without arguments is the unit square. -/
theorem C26_sizes (d : Pt K → Pt K → K) (dh : ∀ a b y : K, d (a, y) (b, y) = |a - b|) (dv : ∀ a b x : K, d (x, a) (x, b) = |a - b|) (r : FRect K) (hr : ProperRect r) :
    r.length = polyLength d true r.get4Pts ∧ 0 < r.length ∧ r.area = |signedArea r.get4Pts| ∧ 0 < r.area ∧
    ProperRect (FRect.default : FRect K) ∧ ∀ p : Pt K, p ∈ (FRect.default : FRect K).get4Pts ↔ (p.1 = 0 ∨ p.1 = 1) ∧ (p.2 = 0 ∨ p.2 = 1) := by
  obtain ⟨⟨x1, y1⟩, ⟨x2, y2⟩⟩ := r
  obtain ⟨hx, hy⟩ := hr
  simp only at hx hy
  have ha : (0 : K) < (y2 - y1) * (x2 - x1) := mul_pos (sub_pos.2 hy) (sub_pos.2 hx)
  refine ⟨?_, ?_, ?_, ha, ⟨?_, ?_⟩, ?_⟩
  · simp [polyLength, segPairs, cycPairs, FRect.length, FRect.height, FRect.width, FRect.get4Pts, dh, dv]
    rw [abs_of_neg (sub_neg.2 hx), abs_of_neg (sub_neg.2 hy), abs_of_pos (sub_pos.2 hx), abs_of_pos (sub_pos.2 hy)]
    ring
  · simp only [FRect.length, FRect.height, FRect.width]; linarith
  · rw [show signedArea (FRect.get4Pts ⟨(x1, y1), (x2, y2)⟩) = -((y2 - y1) * (x2 - x1)) by
      simp [signedArea, cycPairs, FRect.get4Pts]; ring]
    rw [abs_neg, abs_of_pos ha]
    rfl
  · simp [FRect.default]
  · simp [FRect.default]
  · rintro ⟨a, b⟩
    simp only [FRect.default, FRect.get4Pts, List.mem_cons, Prod.mk.injEq, List.not_mem_nil, or_false]
    tauto

/-- A distance as asked for, and a rectangle of sizes 4 and 2. -/
example : (∀ a b y : ℚ, (fun p q : Pt ℚ => |p.1 - q.1| + |p.2 - q.2|) (a, y) (b, y) = |a - b|) ∧ ProperRect (⟨(1, 0), (5, 2)⟩ : FRect ℚ) ∧
    (⟨(1, 0), (5, 2)⟩ : FRect ℚ).length = 12 ∧ (⟨(1, 0), (5, 2)⟩ : FRect ℚ).area = 8 := by
  refine ⟨fun a b y => by simp, ⟨by norm_num, by norm_num⟩, by decide +kernel, by decide +kernel⟩

/-- **C26, invariant.** Whatever the history of operations (including operations that throw), a proper rectangle stays proper. -/
theorem C26_invariant (th : Thr K) (ht : 0 < th.nullOrthogDistance) (ops : List (RectOp K)) :
    ∀ r : FRect K, ProperRect r → ProperRect (rectRun th r ops) := by
  have hof : ∀ (r : FRect K) (pa pb : Pt K), ProperRect r → ProperRect (keepIfThrow r (FRect.ofPts th.nullOrthogDistance pa pb)) := by
    intro r pa pb hr
    rcases ofPts_cases th.nullOrthogDistance pa pb with ⟨h, _⟩ | ⟨h, h1, h2⟩
    · rw [h]; exact hr
    · rw [h]
      have e : ∀ u v : K, th.nullOrthogDistance ≤ |u - v| → min u v < max u v := by
        intro u v huv
        rw [min_lt_max]
        rintro rfl
        simp at huv
        exact absurd ht (not_lt.2 huv)
      exact ⟨e _ _ h1, e _ _ h2⟩
  have htr : ∀ (r : FRect K) (dx dy : K), ProperRect r → ProperRect (r.translate dx dy) := by
    rintro r dx dy ⟨h1, h2⟩
    exact ⟨by simpa [FRect.translate] using h1, by simpa [FRect.translate] using h2⟩
  have hrot : ∀ (r r' : FRect K) (rot : Rotate), ProperRect r → r.rotate th rot = .ok r' → ProperRect r' := by
    rintro r r' rot ⟨h1, h2⟩ h
    rw [rotate_eq th rot r h1.le h2.le] at h
    split_ifs at h
    simp at h
    subst h
    cases rot <;> simp [ProperRect, rotLo, rotHi, h1, h2]
  induction ops with
  | nil => intro r h; exact h
  | cons op ops ih =>
    intro r h
    apply ih
    cases op with
    | set pa pb => exact hof r pa pb h
    | setCenter p w hh => exact hof r _ _ h
    | translate dx dy => exact htr r dx dy h
    | rotate rot =>
      simp only [RectOp.exec]
      cases hr : r.rotate th rot with
      | ok r' => exact hrot r r' rot h hr
      | throw => exact h
      | ub => exact h
    | rotateRef rot ref =>
      simp only [RectOp.exec]
      cases hr : (r.translate (-ref.1) (-ref.2)).rotate th rot with
      | ok r' => exact htr _ _ _ (hrot _ r' rot (htr _ _ _ h) hr)
      | throw => exact htr _ _ _ h
      | ub => exact htr _ _ _ h
    | extend => exact hof r _ _ h

/-- Non-vacuity: the default rectangle is proper, and a history with a failing `set` leads to a non-trivial rectangle. -/
example : ProperRect (FRect.default : FRect ℚ) ∧
    rectRun stdThr (FRect.default : FRect ℚ) [.set (0, 0) (4, 2), .set (1, 1) (1, 5), .rotateRef .ccw (4, 2), .extend]
      = ⟨(2, -6), (8, 6)⟩ := by
  refine ⟨by simp [ProperRect, FRect.default], by decide +kernel⟩

/-- **C26, translation.** Width, height and area are kept, and the center is translated. -/
theorem C26_translate (r : FRect K) (dx dy : K) :
    (r.translate dx dy).width = r.width ∧ (r.translate dx dy).height = r.height ∧ (r.translate dx dy).area = r.area ∧
    (r.translate dx dy).getCenter = (r.getCenter.1 + dx, r.getCenter.2 + dy) := by
  refine ⟨?_, ?_, ?_, ?_⟩
  · simp [FRect.translate, FRect.width]
  · simp [FRect.translate, FRect.height]
  · simp [FRect.translate, FRect.width, FRect.height, FRect.area]
  · simp only [FRect.translate, FRect.getCenter, Prod.mk.injEq]
    constructor <;> ring

/-- **C26, extension.** A rectangle that is not smaller than a third of the threshold is extended by its own size on each side: same center, three times the width and the height. -/
theorem C26_extend (t : K) (r : FRect K) (hr : ProperRect r) (h1 : t ≤ 3 * r.width) (h2 : t ≤ 3 * r.height) :
    ∃ r', r.getExtended t = .ok r' ∧ r'.getCenter = r.getCenter ∧ r'.width = 3 * r.width ∧ r'.height = 3 * r.height := by
  obtain ⟨hx, hy⟩ := hr
  simp only [FRect.width, FRect.height] at h1 h2
  have e1 : r.p1.1 * 2 - r.p2.1 < r.p2.1 * 2 - r.p1.1 := by linarith
  have e2 : r.p1.2 * 2 - r.p2.2 < r.p2.2 * 2 - r.p1.2 := by linarith
  rcases ofPts_cases t (r.p1.1 * 2 - r.p2.1, r.p1.2 * 2 - r.p2.2) (r.p2.1 * 2 - r.p1.1, r.p2.2 * 2 - r.p1.2) with ⟨_, hc⟩ | ⟨h, _, _⟩
  · exfalso
    simp only at hc
    rw [abs_sub_comm, abs_of_pos (by linarith), abs_sub_comm, abs_of_pos (by linarith)] at hc
    rcases hc with hc | hc <;> linarith
  · refine ⟨_, h, ?_, ?_, ?_⟩
    · simp only [FRect.getCenter, min_eq_left e1.le, min_eq_left e2.le, max_eq_right e1.le, max_eq_right e2.le, Prod.mk.injEq]
      constructor <;> ring
    · simp only [FRect.width, min_eq_left e1.le, max_eq_right e1.le]; ring
    · simp only [FRect.height, min_eq_left e2.le, max_eq_right e2.le]; ring

example : ProperRect (⟨(1, 1), (3, 5)⟩ : FRect ℚ) ∧ (⟨(1, 1), (3, 5)⟩ : FRect ℚ).getExtended (1/10^14) = .ok ⟨(-1, -3), (5, 9)⟩ := by
  refine ⟨by simp [ProperRect], by decide +kernel⟩

/-- **C26, rotation.** If the rotation of a proper rectangle returns, the result covers exactly the rotated points; its
width and height are swapped by quarter turns and kept by the other ones, and the area is kept. -/
theorem C26_rotate (th : Thr K) (rot : Rotate) (r r' : FRect K) (hr : ProperRect r) (h : r.rotate th rot = .ok r') :
    (∀ p, Extent (.rect r) p ↔ Extent (.rect r') (rotPt rot p)) ∧
    (r'.width, r'.height) = (if rot = .ccw ∨ rot = .cw then (r.height, r.width) else (r.width, r.height)) ∧
    r'.area = r.area := by
  rw [rotate_eq th rot r hr.1.le hr.2.le] at h
  split_ifs at h
  simp at h
  subst h
  refine ⟨?_, ?_, ?_⟩
  · intro p
    cases rot <;> simp only [Extent, rotLo, rotHi, rotPt, neg_le_neg_iff] <;> tauto
  · cases rot <;> simp [FRect.width, FRect.height, rotLo, rotHi] <;> (try constructor) <;> ring
  · cases rot <;> simp only [FRect.area, FRect.width, FRect.height, rotLo, rotHi] <;> ring

/-- **C26, rotation outcome.** The rotation of a rectangle accepted by the constructor fails exactly if its diagonal is
shorter than the null distance. -/
theorem C26_rotate_throws (th : Thr K) (ht : 0 < th.nullOrthogDistance) (rot : Rotate) (r : FRect K)
    (hw : th.nullOrthogDistance ≤ r.width) (hh : th.nullOrthogDistance ≤ r.height) :
    (r.rotate th rot = .throw ↔ r.width * r.width + r.height * r.height < th.nullDistance * th.nullDistance) ∧
      r.rotate th rot ≠ .ub := by
  simp only [FRect.width, FRect.height] at *
  have hx : r.p1.1 ≤ r.p2.1 := by linarith
  have hy : r.p1.2 ≤ r.p2.2 := by linarith
  rw [rotate_eq th rot r hx hy]
  have hns : ¬ shareCommonCoord th.nullOrthogDistance r.p1 r.p2 = true := by
    rw [share_iff, abs_sub_comm, abs_sub_comm r.p1.2, abs_of_nonneg (by linarith), abs_of_nonneg (by linarith)]
    push Not; exact ⟨hw, hh⟩
  have hs : samePt th.nullDistance r.p1 r.p2 = true ↔
      (r.p2.1 - r.p1.1) * (r.p2.1 - r.p1.1) + (r.p2.2 - r.p1.2) * (r.p2.2 - r.p1.2) < th.nullDistance * th.nullDistance := by
    rw [samePt_iff, sqDist]
    constructor <;> intro h <;> linarith
  rw [← hs]
  by_cases h : samePt th.nullDistance r.p1 r.p2 = true <;> simp [h, hns]

/-- **C26, rotation about a point.** A rectangle whose size is not below the thresholds becomes the one that covers exactly the points rotated
about the reference point. -/
theorem C26_rotateRef (th : Thr K) (ht : 0 < th.nullOrthogDistance) (rot : Rotate) (ref : Pt K) (r : FRect K)
    (hw : th.nullOrthogDistance ≤ r.width) (hh : th.nullOrthogDistance ≤ r.height)
    (hd : th.nullDistance * th.nullDistance ≤ r.width * r.width + r.height * r.height) (p : Pt K) :
    Extent (.rect r) p ↔
      Extent (.rect (RectOp.exec th r (.rotateRef rot ref)))
        (ref.1 + (rotPt rot (p.1 - ref.1, p.2 - ref.2)).1, ref.2 + (rotPt rot (p.1 - ref.1, p.2 - ref.2)).2) := by
  obtain ⟨t1, t2, -, -⟩ := C26_translate r (-ref.1) (-ref.2)
  have hth := C26_rotate_throws th ht rot (r.translate (-ref.1) (-ref.2)) (by rw [t1]; exact hw) (by rw [t2]; exact hh)
  have hpr : ProperRect (r.translate (-ref.1) (-ref.2)) := by
    simp only [FRect.width, FRect.height] at hw hh
    constructor <;> (simp only [FRect.translate]; linarith)
  simp only [RectOp.exec]
  rcases hr : (r.translate (-ref.1) (-ref.2)).rotate th rot with r' | _ | _
  · have := (C26_rotate th rot _ r' hpr hr).1 (p.1 - ref.1, p.2 - ref.2)
    simp only [Extent, FRect.translate] at this ⊢
    constructor
    · intro hp
      have := this.1 ⟨by linarith [hp.1], by linarith [hp.2.1], by linarith [hp.2.2.1], by linarith [hp.2.2.2]⟩
      exact ⟨by linarith [this.1], by linarith [this.2.1], by linarith [this.2.2.1], by linarith [this.2.2.2]⟩
    · intro hp
      have := this.2 ⟨by linarith [hp.1], by linarith [hp.2.1], by linarith [hp.2.2.1], by linarith [hp.2.2.2]⟩
      exact ⟨by linarith [this.1], by linarith [this.2.1], by linarith [this.2.2.1], by linarith [this.2.2.2]⟩
  · exact absurd (hth.1.1 hr) (by rw [t1, t2]; exact not_lt.2 hd)
  · exact absurd hr hth.2

example : RectOp.exec stdThr (⟨(1, 1), (3, 5)⟩ : FRect ℚ) (.rotateRef .ccw (3, 1)) = ⟨(-1, -1), (3, 1)⟩ := by decide +kernel

/-- **C26 is false: a failing rotation about a point moves the rectangle.** The call throws for a rectangle that is too small, but the first translation
was done. -/
theorem C26_rotateRef_false : ∃ (r : FRect ℚ) (ref : Pt ℚ), FRect.ofPts stdThr.nullOrthogDistance r.p1 r.p2 = .ok r ∧
    (r.translate (-ref.1) (-ref.2)).rotate stdThr .ccw = .throw ∧ RectOp.exec stdThr r (.rotateRef .ccw ref) = ⟨(-7, -7), (-7 + 1/10^11, -7 + 1/10^11)⟩ ∧
    r = ⟨(0, 0), (1/10^11, 1/10^11)⟩ :=
  ⟨⟨(0, 0), (1/10^11, 1/10^11)⟩, (7, 7), by decide +kernel, by decide +kernel, by decide +kernel, rfl⟩

/-- With the default thresholds there are rectangles that can be built but not rotated. -/
example : ∃ r : FRect ℚ, FRect.ofPts stdThr.nullOrthogDistance (0, 0) (1/10^11, 1/10^11) = .ok r ∧ r.rotate stdThr .ccw = .throw :=
  ⟨⟨(0, 0), (1/10^11, 1/10^11)⟩, by decide +kernel, by decide +kernel⟩

example : ∃ r : FRect ℚ, (⟨(1, 2), (4, 9)⟩ : FRect ℚ).rotate stdThr .ccw = .ok r ∧ r = ⟨(-9, 1), (-2, 4)⟩ :=
  ⟨_, by decide +kernel, rfl⟩

omit [IsStrictOrderedRing K] in
/-- **C27, rectangles: containment is compatible with points.** -/
theorem C27_rect_points (r s : FRect K) (h : r.isInsideRect s = true) (p : Pt K) (hp : Pt.isInsideRect p r = true) :
    Pt.isInsideRect p s = true := by
  simp [FRect.isInsideRect, FRect.get4Pts, Pt.isInsideRect, ptIsInside] at *
  obtain ⟨⟨⟨a1, a2⟩, a3, a4⟩, -, ⟨⟨b1, b2⟩, b3, b4⟩, -⟩ := h
  obtain ⟨⟨c1, c2⟩, c3, c4⟩ := hp
  exact ⟨⟨a1.trans c1, c2.trans b2⟩, a3.trans c3, c4.trans b4⟩

omit [IsStrictOrderedRing K] in
/-- **C27, rectangles: `isInside` means that the closed rectangle is in the interior of the other one.** -/
theorem C27_rect_spec (r s : FRect K) (hr : ProperRect r) :
    r.isInsideRect s = true ↔
      ∀ p : Pt K, Extent (.rect r) p → s.p1.1 < p.1 ∧ p.1 < s.p2.1 ∧ s.p1.2 < p.2 ∧ p.2 < s.p2.2 := by
  obtain ⟨h1, h2⟩ := hr
  constructor
  · intro h p hp
    simp [FRect.isInsideRect, FRect.get4Pts, Pt.isInsideRect, ptIsInside] at h
    obtain ⟨⟨⟨a1, a2⟩, a3, a4⟩, -, ⟨⟨b1, b2⟩, b3, b4⟩, -⟩ := h
    obtain ⟨c1, c2, c3, c4⟩ := hp
    exact ⟨lt_of_lt_of_le a1 c1, lt_of_le_of_lt c2 b2, lt_of_lt_of_le a3 c3, lt_of_le_of_lt c4 b4⟩
  · intro h
    have a := h r.p1 ⟨le_refl _, h1.le, le_refl _, h2.le⟩
    have b := h r.p2 ⟨h1.le, le_refl _, h2.le, le_refl _⟩
    simp [FRect.isInsideRect, FRect.get4Pts, Pt.isInsideRect, ptIsInside]
    tauto

omit [IsStrictOrderedRing K] in
/-- **C27, rectangles: strict order.** -/
theorem C27_rect_strict_order :
    (∀ r : FRect K, r.isInsideRect r = false) ∧
    (∀ r s u : FRect K, r.isInsideRect s = true → s.isInsideRect u = true → r.isInsideRect u = true) := by
  constructor
  · intro r
    simp [FRect.isInsideRect, FRect.get4Pts, Pt.isInsideRect, ptIsInside]
  · intro r s u h1 h2
    have hp : ∀ p ∈ r.get4Pts, Pt.isInsideRect p u = true := by
      intro p hp
      apply C27_rect_points s u h2
      exact List.all_eq_true.1 h1 p hp
    exact List.all_eq_true.2 hp

example : (⟨(1, 1), (2, 2)⟩ : FRect ℚ).isInsideRect ⟨(0, 0), (3, 3)⟩ = true := by decide +kernel

end H2d.Props
