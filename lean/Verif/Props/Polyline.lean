import Verif.Lemmas.PolyConvex
import Verif.Lemmas.FRect
import Mathlib.Tactic.NormNum
import Mathlib.Algebra.Order.Field.Rat

/-!
# C40 - C46: polylines
-/

set_option linter.unusedSectionVars false

namespace H2d.Props

open H2d.Spec

variable {K : Type} [Field K] [LinearOrder K] [IsStrictOrderedRing K]

/-! ## C42: area -/

/-- **C42, starting vertex.** -/
theorem C42_area_start (inter : Pt K × Pt K → Pt K × Pt K → Bool) (hi : InterSymm inter) (pts : List (Pt K)) (k : Nat) :
    polyArea inter true (pts.rotate k) = polyArea inter true pts := by
  rw [polyArea, polyArea, isSimple_rotate inter hi, signedArea_rotate]

/-- **C42, direction.** -/
theorem C42_area_reverse (inter : Pt K × Pt K → Pt K × Pt K → Bool) (hi : InterSymm inter) (pts : List (Pt K)) :
    polyArea inter true pts.reverse = polyArea inter true pts := by
  rw [polyArea, polyArea, isSimple_reverse inter hi, signedArea_reverse, abs_neg]

/-- **C42, translation.** -/
theorem C42_area_translate (inter : Pt K × Pt K → Pt K × Pt K → Bool) (hi : InterSymm inter) (dx dy : K)
    (ht : InterInvariant inter (fun p => (p.1 + dx, p.2 + dy))) (pts : List (Pt K)) :
    polyArea inter true (polyTranslate dx dy pts) = polyArea inter true pts := by
  rw [polyArea, polyArea, signedArea_translate]
  have := isSimple_map inter _ hi.comm ht true pts
  rw [polyTranslate, this]

/-- **C42, linear maps** (scaling by `k`: `a = d = k`, `b = c = 0`; quarter turns and mirrors are next): area is multiplied by the
absolute value of the determinant. -/
theorem C42_area_linear (inter : Pt K × Pt K → Pt K × Pt K → Bool) (hi : InterSymm inter) (a b c d : K)
    (ht : InterInvariant inter (fun p => (a * p.1 + b * p.2, c * p.1 + d * p.2))) (pts : List (Pt K)) :
    polyArea inter true (pts.map (fun p => (a * p.1 + b * p.2, c * p.1 + d * p.2))) = |a * d - b * c| * polyArea inter true pts := by
  rw [polyArea, polyArea, signedArea_linear, isSimple_map inter _ hi.comm ht]
  split_ifs
  · rw [abs_mul]
  · simp

/-- **C42, quarter turns and mirrors.** -/
theorem C42_area_rotate (inter : Pt K × Pt K → Pt K × Pt K → Bool) (hi : InterSymm inter) (rot : Rotate)
    (ht : InterInvariant inter (rotPt rot)) (pts : List (Pt K)) :
    polyArea inter true (polyRotate rot pts) = polyArea inter true pts := by
  have key : ∃ a b c d : K, |a * d - b * c| = 1 ∧ rotPt rot = (fun p : Pt K => (a * p.1 + b * p.2, c * p.1 + d * p.2)) := by
    cases rot
    · exact ⟨0, -1, 1, 0, by simp, by funext p; simp [rotPt]⟩
    · exact ⟨0, 1, -1, 0, by simp, by funext p; simp [rotPt]⟩
    · exact ⟨-1, 0, 0, -1, by simp, by funext p; simp [rotPt]⟩
    · exact ⟨-1, 0, 0, 1, by simp, by funext p; simp [rotPt]⟩
    · exact ⟨1, 0, 0, -1, by simp, by funext p; simp [rotPt]⟩
  obtain ⟨a, b, c, d, h1, h2⟩ := key
  rw [h2] at ht
  rw [polyRotate, h2, C42_area_linear inter hi a b c d ht, h1, one_mul]

/-- **C42, cut.** A simple polygon cut along the diagonal `p`-`q` in two simple polygons that are run in the same direction
(which is what "interior diagonal" means here): areas add up. -/
theorem C42_area_cut (inter : Pt K × Pt K → Pt K × Pt K → Bool) (p q : Pt K) (l m : List (Pt K))
    (h0 : isSimple inter true (p :: l ++ q :: m) = true)
    (h1 : isSimple inter true (p :: l ++ [q]) = true) (h2 : isSimple inter true (q :: m ++ [p]) = true)
    (hs : 0 ≤ signedArea (p :: l ++ [q]) * signedArea (q :: m ++ [p])) :
    polyArea inter true (p :: l ++ q :: m) = polyArea inter true (p :: l ++ [q]) + polyArea inter true (q :: m ++ [p]) := by
  rw [polyArea, polyArea, polyArea, if_pos h0, if_pos h1, if_pos h2, signedArea_cut]
  rcases mul_nonneg_iff.1 hs with ⟨ha, hb⟩ | ⟨ha, hb⟩
  · rw [abs_of_nonneg ha, abs_of_nonneg hb, abs_of_nonneg (add_nonneg ha hb)]
  · rw [abs_of_nonpos ha, abs_of_nonpos hb, abs_of_nonpos (add_nonpos ha hb)]; ring

/-- **C42, unit.** A rectangle seen as a polygon has area width times height. -/
theorem C42_area_rect (inter : Pt K × Pt K → Pt K × Pt K → Bool) (r : FRect K) (hx : r.p1.1 ≤ r.p2.1) (hy : r.p1.2 ≤ r.p2.2)
    (hs : isSimple inter true r.get4Pts = true) :
    polyArea inter true r.get4Pts = (r.p2.1 - r.p1.1) * (r.p2.2 - r.p1.2) := by
  rw [polyArea, if_pos hs]
  have : signedArea r.get4Pts = -((r.p2.1 - r.p1.1) * (r.p2.2 - r.p1.2)) ∨
      signedArea r.get4Pts = (r.p2.1 - r.p1.1) * (r.p2.2 - r.p1.2) := by
    left; simp [signedArea, FRect.get4Pts, cycPairs]; ring
  have hn := mul_nonneg (sub_nonneg.2 hx) (sub_nonneg.2 hy)
  rcases this with h | h
  · rw [h, abs_neg, abs_of_nonneg hn]
  · rw [h, abs_of_nonneg hn]

/- The hypotheses are met by the predicate that never finds an intersection, on a non convex quadrilateral cut along its only inner diagonal. -/
example : InterSymm (fun _ _ : Pt ℚ × Pt ℚ => false) ∧ InterInvariant (fun _ _ : Pt ℚ × Pt ℚ => false) (rotPt .ccw) ∧
    isSimple (fun _ _ => false) true ([(0,0), (4,0), (1,1), (0,4)] : List (Pt ℚ)) = true ∧
    0 ≤ signedArea ([(0,0), (4,0), (1,1)] : List (Pt ℚ)) * signedArea [(1,1), (0,4), (0,0)] ∧
    polyArea (fun _ _ => false) true ([(0,0), (4,0), (1,1), (0,4)] : List (Pt ℚ)) = 4 := by
  refine ⟨⟨fun _ _ => rfl, fun _ _ => rfl⟩, fun _ _ => rfl, ?_, ?_, ?_⟩ <;> decide +kernel

/-! ## C43: segments -/

/-- **C43, count.** The number of segments, the value of `nbSegs()`. -/
theorem C43_count {P : Type} (same : P → P → Bool) (closed : Bool) (pts : List P) (segs : List (P × P))
    (h : getOSegs same closed pts = .ok segs) :
    segs.length = nbSegs closed pts ∧
    segs.length = if pts.length < 2 then 0 else if closed then pts.length else pts.length - 1 := by
  have : segs = segPairs closed pts := by
    rw [getOSegs] at h
    split_ifs at h
    exact (Res.ok.inj h).symm
  subst this
  have h2 : (segPairs closed pts).length = nbSegs closed pts := by
    simp only [segPairs, nbSegs]
    split_ifs <;> simp [openPairs, cycPairs_length]
  exact ⟨h2, h2⟩

/-- **C43, chain.** Segment `i` goes from point `i` to the next one, cyclically. -/
theorem C43_chain {P : Type} (same : P → P → Bool) (closed : Bool) (pts : List P) (segs : List (P × P))
    (h : getOSegs same closed pts = .ok segs) (i : Nat) (s : P × P) (hs : segs[i]? = some s) :
    pts[i]? = some s.1 ∧ pts[(i + 1) % pts.length]? = some s.2 := by
  have : segs = segPairs closed pts := by
    rw [getOSegs] at h
    split_ifs at h
    exact (Res.ok.inj h).symm
  subst this
  have hlt := (List.getElem?_eq_some_iff.1 hs).1
  simp only [segPairs] at hs hlt
  split_ifs at hs hlt with h1 h2
  · simp at hs
  · rw [cycPairs_length] at hlt
    rw [cycPairs_eq] at hs
    have := List.getElem?_zip_eq_some.1 hs
    rw [List.getElem?_rotate hlt] at this
    exact this
  · rw [openPairs] at hs hlt
    have := List.getElem?_zip_eq_some.1 hs
    simp at hlt
    rw [List.getElem?_tail] at this
    rw [Nat.mod_eq_of_lt (by omega)]
    exact this

/-- **C43, access by index.** `getOSegment(i)` is the element `i` of `getOSegs()`; an index that is out of range throws. No call has undefined behaviour. -/
theorem C43_getSegment {P : Type} (same : P → P → Bool) (closed : Bool) (pts : List P) (segs : List (P × P))
    (h : getOSegs same closed pts = .ok segs) (i : Nat) :
    getOSegment same closed pts i = match segs[i]? with
      | some s => .ok s
      | none => .throw := by
  have hcount := C43_count same closed pts segs h
  cases hs : segs[i]? with
  | none =>
    have := List.getElem?_eq_none_iff.1 hs
    rw [getOSegment, if_pos (by omega)]
  | some s =>
    have hlt := (List.getElem?_eq_some_iff.1 hs).1
    obtain ⟨h1, h2⟩ := C43_chain same closed pts segs h i s hs
    have hsame : same s.1 s.2 = false := by
      have hm : s ∈ segs := List.mem_of_getElem? hs
      rw [getOSegs] at h
      split_ifs at h with hany
      rw [← Res.ok.inj h] at hm
      rw [Bool.not_eq_true, List.any_eq_false] at hany
      simpa using hany s hm
    have hlen : ¬ pts.length < 2 := by
      intro hc
      rw [if_pos hc] at hcount; omega
    rw [if_neg hlen] at hcount
    rw [getOSegment, if_neg (by omega), if_neg hlen]
    have hidx : (if closed && i + 1 == nbSegs closed pts then 0 else i + 1) = (i + 1) % pts.length := by
      cases closed
      · simp at hcount ⊢
        rw [Nat.mod_eq_of_lt (by omega)]
      · simp at hcount ⊢
        split_ifs with hc
        · rw [hc, ← hcount.1, hcount.2, Nat.mod_self]
        · rw [Nat.mod_eq_of_lt (by omega)]
    rw [hidx, h1, h2]
    simp [hsame]

/-- **C43, failure.** `getOSegs()` throws exactly when two consecutive points are equal (as decided by point equality);
`getPoint(i)` throws exactly for an index out of range. -/
theorem C43_throws {P : Type} (same : P → P → Bool) (closed : Bool) (pts : List P) :
    (getOSegs same closed pts = .throw ↔
      ∃ (i : Nat) (a b : P), (closed = true ∨ i + 1 < pts.length) ∧ 2 ≤ pts.length ∧ pts[i]? = some a ∧ pts[(i + 1) % pts.length]? = some b ∧ same a b = true) ∧
    (∀ i, getPoint pts i = .throw ↔ pts.length ≤ i) ∧
    ∀ i p, getPoint pts i = .ok p ↔ pts[i]? = some p := by
  refine ⟨?_, ?_, ?_⟩
  · have : getOSegs same closed pts = .throw ↔ ∃ s ∈ segPairs closed pts, same s.1 s.2 = true := by
      rw [getOSegs]
      by_cases hc : (segPairs closed pts).any (fun s => same s.1 s.2) = true
      · rw [if_pos hc]; simpa using hc
      · rw [if_neg hc]
        rw [List.any_eq_true] at hc
        simpa using hc
    rw [this]
    by_cases h2 : pts.length < 2
    · constructor
      · rintro ⟨s, hs, -⟩; simp [segPairs, h2] at hs
      · rintro ⟨i, a, b, -, h, -⟩; omega
    · cases closed
      · simp only [segPairs, h2, if_false, Bool.false_eq_true, false_or]
        constructor
        · rintro ⟨s, hs, hsame⟩
          obtain ⟨i, hi⟩ := List.mem_iff_getElem?.1 hs
          have hlt := (List.getElem?_eq_some_iff.1 hi).1
          rw [openPairs] at hi hlt
          have := List.getElem?_zip_eq_some.1 hi
          simp at hlt
          rw [List.getElem?_tail] at this
          exact ⟨i, s.1, s.2, by omega, by omega, this.1, by rw [Nat.mod_eq_of_lt (by omega)]; exact this.2, hsame⟩
        · rintro ⟨i, a, b, hi, -, ha, hb, hsame⟩
          refine ⟨(a, b), ?_, hsame⟩
          rw [Nat.mod_eq_of_lt hi] at hb
          rw [openPairs]
          exact List.mem_iff_getElem?.2 ⟨i, List.getElem?_zip_eq_some.2 ⟨ha, by rw [List.getElem?_tail]; exact hb⟩⟩
      · simp only [segPairs, h2, if_false, if_true, true_or, true_and]
        rw [cycPairs_eq]
        constructor
        · rintro ⟨s, hs, hsame⟩
          obtain ⟨i, hi⟩ := List.mem_iff_getElem?.1 hs
          have := List.getElem?_zip_eq_some.1 hi
          have hlt := (List.getElem?_eq_some_iff.1 this.1).1
          rw [List.getElem?_rotate hlt] at this
          exact ⟨i, s.1, s.2, by omega, this.1, this.2, hsame⟩
        · rintro ⟨i, a, b, -, ha, hb, hsame⟩
          refine ⟨(a, b), ?_, hsame⟩
          have hlt := (List.getElem?_eq_some_iff.1 ha).1
          exact List.mem_iff_getElem?.2 ⟨i, List.getElem?_zip_eq_some.2 ⟨ha, by rw [List.getElem?_rotate hlt]; exact hb⟩⟩
  · intro i
    rw [← List.getElem?_eq_none_iff, getPoint]
    cases pts[i]? <;> simp
  · intro i p
    rw [getPoint]
    cases pts[i]? <;> simp

example : getOSegs (fun a b : Nat => a == b) true [1, 2, 3] = .ok [(1,2), (2,3), (3,1)] ∧
    getOSegs (fun a b : Nat => a == b) false [1, 2, 3] = .ok [(1,2), (2,3)] ∧
    getOSegs (fun a b : Nat => a == b) true [1, 2, 1] = .throw ∧
    getOSegment (fun a b : Nat => a == b) true [1, 2, 3] 2 = .ok (3, 1) ∧
    getOSegment (fun a b : Nat => a == b) false [1, 2, 3] 2 = .throw := by decide +kernel

/-! ## C44: minimize -/

/-- **C44, general part.** Whatever the test `mid` on three consecutive vertices: if `minimize()` returns, then the remaining vertices are,
in the same order, exactly those that are not redundant. It has no undefined behaviour. -/
theorem C44_minimize {P : Type} (same : P → P → Bool) (mid : P → P → P → Bool) (closed : Bool) (pts : List P) (h3 : 3 ≤ pts.length) :
    minimize same mid closed pts ≠ .ub ∧
    ∀ r, minimize same mid closed pts = .ok r →
      ∃ keep : List Nat, keep.Pairwise (· < ·) ∧ (∀ i, i ∈ keep ↔ i < pts.length ∧ ¬ Redundant mid closed pts i) ∧
        r.map some = keep.map (fun i => pts[i]?) := by
  have hlen : ¬ pts.length < 3 := by omega
  set marks := if closed then minimizeMark mid pts 0 pts.length else minimizeMark mid pts 1 (pts.length - 1) with hmarks
  have hsorted : marks.Pairwise (· < ·) := by
    rw [hmarks]; split_ifs <;> exact minimizeMark_sorted _ _ _ _
  have hmem : ∀ i, i < pts.length → (i ∈ marks ↔ Redundant mid closed pts i) := by
    intro i hi
    rw [hmarks]
    cases closed
    · simp only [Bool.false_eq_true, if_false, Redundant, false_or]
      rw [mem_minimizeMark _ _ _ _ _ (by omega)]
      constructor
      · rintro ⟨h1, h2, h⟩; exact ⟨⟨by omega, by omega⟩, h⟩
      · rintro ⟨⟨h1, h2⟩, h⟩; exact ⟨by omega, by omega, h⟩
    · simp only [if_true, Redundant, true_or, true_and]
      rw [mem_minimizeMark _ _ _ _ _ le_rfl]
      simp [hi]
  have hall : (dropMarked 0 marks pts).map some = ((List.range pts.length).filter (fun j => j ∉ marks)).map (fun j => pts[j]?) := by
    have := dropMarked_eq pts 0 marks hsorted (by simp)
    rw [List.range_eq_range']
    simpa using this
  have hunf : minimize same mid closed pts = if marks.isEmpty then .ok pts else addPoints same [] (dropMarked 0 marks pts) := by
    rw [minimize, if_neg hlen]
  rw [hunf]
  constructor
  · split_ifs
    · simp
    · exact addPoints_not_ub _ _ _
  · intro r hr
    refine ⟨(List.range pts.length).filter (fun j => j ∉ marks), (List.pairwise_lt_range).filter _, ?_, ?_⟩
    · intro i
      rw [List.mem_filter, List.mem_range]
      constructor
      · rintro ⟨h1, h2⟩; exact ⟨h1, fun h => by simp at h2; exact h2 ((hmem i h1).2 h)⟩
      · rintro ⟨h1, h2⟩; exact ⟨h1, by simpa using fun h => h2 ((hmem i h1).1 h)⟩
    · rw [← hall]
      split_ifs at hr with he
      · have : marks = [] := by simpa using he
        rw [← Res.ok.inj hr]
        rw [this] at hall ⊢
        rw [hall]
        apply List.ext_getElem?
        intro i
        by_cases hi : i < pts.length
        · simp [hi]
        · simp [hi]
      · have := addPoints_ok _ _ _ _ hr
        simp at this
        rw [this]

/-- **C44, end points.** The first and last points of an open polyline are kept. -/
theorem C44_ends {P : Type} (same : P → P → Bool) (mid : P → P → P → Bool) (pts r : List P) (h3 : 3 ≤ pts.length)
    (h : minimize same mid false pts = .ok r) : r.head? = pts.head? ∧ r.getLast? = pts.getLast? := by
  obtain ⟨keep, hk1, hk2, hk3⟩ := (C44_minimize same mid false pts h3).2 r h
  have m0 : 0 ∈ keep := (hk2 0).2 ⟨by omega, fun hr => by rcases hr.1 with h | h; cases h; omega⟩
  have m1 : pts.length - 1 ∈ keep := (hk2 _).2 ⟨by omega, fun hr => by rcases hr.1 with h | h; cases h; omega⟩
  have hh : keep.head? = some 0 := by
    cases keep with
    | nil => simp at m0
    | cons x xs =>
      rcases List.mem_cons.1 m0 with h | h
      · simp [← h]
      · have := List.rel_of_pairwise_cons hk1 h; omega
  have hl : keep.getLast? = some (pts.length - 1) := by
    rcases List.eq_nil_or_concat keep with h | ⟨xs, x, rfl⟩
    · simp [h] at m0
    · rw [List.concat_eq_append] at *
      rw [List.getLast?_concat]
      rcases List.mem_append.1 m1 with h | h
      · have h1 := (List.pairwise_append.1 hk1).2.2 _ h x (by simp)
        have h2 := ((hk2 x).1 (by simp)).1
        omega
      · simp at h; rw [h]
  constructor
  · have := congrArg List.head? hk3
    rw [List.head?_map, List.head?_map, hh] at this
    cases hr : r.head? with
    | none => rw [hr] at this; simp at this
    | some x => rw [hr] at this; simp at this; rw [List.head?_eq_getElem?, ← this]
  · have := congrArg List.getLast? hk3
    rw [List.getLast?_map, List.getLast?_map, hl] at this
    cases hr : r.getLast? with
    | none => rw [hr] at this; simp at this
    | some x => rw [hr] at this; simp at this; rw [List.getLast?_eq_getElem?, ← this]

/-- **C44, the part that holds of the code's own angle test** (real arithmetic): a vertex where direction does not change never remains,
unless it is an end of an open polyline. "And no other" is false, see `C44_false`. -/
theorem C44_angle_partial (same : Pt ℝ → Pt ℝ → Bool) (thr : ℝ) (hthr : 0 < thr) (closed : Bool) (pts r : List (Pt ℝ)) (h3 : 3 ≤ pts.length)
    (h : minimize same (sameAngle thr) closed pts = .ok r) :
    ∃ keep : List Nat, keep.Pairwise (· < ·) ∧ r.map some = keep.map (fun i => pts[i]?) ∧
      ∀ i ∈ keep, ∀ a b c, Neighbours pts i a b c → SameDirection a b c → closed = false ∧ (i = 0 ∨ i + 1 = pts.length) := by
  obtain ⟨keep, hk1, hk2, hk3⟩ := (C44_minimize same (sameAngle thr) closed pts h3).2 r h
  refine ⟨keep, hk1, hk3, ?_⟩
  intro i hi a b c hn hd
  obtain ⟨hlt, hnr⟩ := (hk2 i).1 hi
  by_contra hcon
  apply hnr
  refine ⟨?_, a, b, c, hn, sameAngle_of_sameDirection thr hthr a b c hd⟩
  cases closed
  · right; simp at hcon; omega
  · left; rfl

/-- **C44, negation.** Whatever the positive angle threshold, there is an open polyline with a vertex where direction does change
that is removed by `minimize()`. -/
theorem C44_false (t thr : ℝ) (ht : 0 < t) (ht1 : t ≤ 1) (hthr : 0 < thr) :
    ∃ a b c : Pt ℝ, ¬ Collinear3 a b c ∧ minimize (samePt t) (sameAngle thr) false [a, b, c] = .ok [a, c] := by
  obtain ⟨y, hy, hy2⟩ : ∃ y : ℝ, 0 < y ∧ 1 / y < thr :=
    ⟨1 / thr + 1, by positivity, by rw [div_lt_iff₀ (by positivity)]; field_simp; linarith⟩
  refine ⟨(0, 0), (0, y), (1, 2*y), ?_, ?_⟩
  · simp only [Collinear3]
    intro h
    simp at h
    linarith
  · have hs : samePt t (1, 2*y) (0, 0) = false := by
      rw [← Bool.not_eq_true, samePt_iff]
      simp only [sqDist, sub_zero, not_lt]
      nlinarith
    have hang : sameAngle thr (0, 0) (0, y) (1, 2 * y) = true := by
      have h1 := atan2_lt y 1 hy one_pos
      have e : 2 * y - y = y := by ring
      simp only [sameAngle, sub_zero, e, sub_self, decide_eq_true_eq]
      rw [atan2_zero _ hy.le, sub_zero, abs_of_pos h1.1]
      exact h1.2.trans hy2
    have hm : minimizeMark (sameAngle thr) [(0, 0), (0, y), (1, 2*y)] 1 2 = [1] := by
      simp [minimizeMark, hang]
    rw [minimize, if_neg (by simp)]
    simp [hm, dropMarked, addPoints, hs]

/- The part on the angle test is met by a polyline with an aligned vertex. -/
example : ∃ r, minimize (fun _ _ : Pt ℝ => false) (sameAngle 1) false [(0,0), (1,1), (2,2)] = .ok r ∧
    Neighbours ([(0,0), (1,1), (2,2)] : List (Pt ℝ)) 1 (0,0) (1,1) (2,2) ∧ SameDirection ((0,0) : Pt ℝ) (1,1) (2,2) := by
  have hd : SameDirection ((0,0) : Pt ℝ) (1,1) (2,2) := ⟨1, one_pos, by norm_num, by norm_num⟩
  refine ⟨[(0,0), (2,2)], ?_, ⟨rfl, rfl, rfl⟩, hd⟩
  simp [minimize, minimizeMark, sameAngle_of_sameDirection 1 one_pos _ _ _ hd, dropMarked, addPoints]

/-! ## C45: convexity -/

/-- **C45, meaning.** `isConvex()` is true exactly for the simple polygons that are triangles, or that always turn left, or that never turn left. -/
theorem C45_spec (simple : Bool) (pts : List (Pt K)) :
    isConvex simple pts = true ↔ simple = true ∧ (pts.length = 3 ∨
      (∀ i a b c, Neighbours pts i a b c → 0 < turnAt a b c) ∨ (∀ i a b c, Neighbours pts i a b c → turnAt a b c ≤ 0)) :=
  isConvex_iff simple pts

/-- **C45, triangles.** -/
theorem C45_triangle (pts : List (Pt K)) (h : pts.length = 3) (inter : Pt K × Pt K → Pt K × Pt K → Bool) :
    isConvex (isSimple inter true pts) pts = true := by
  rw [isConvex_iff]
  refine ⟨?_, Or.inl h⟩
  match pts, h with
  | [a, b, c], _ => rfl

/-- **C45, starting vertex.** -/
theorem C45_start (inter : Pt K × Pt K → Pt K × Pt K → Bool) (hi : InterSymm inter) (pts : List (Pt K)) (k : Nat) :
    isConvex (isSimple inter true (pts.rotate k)) (pts.rotate k) = isConvex (isSimple inter true pts) pts := by
  have fwd : ∀ (l : List (Pt K)) (k : Nat), isConvex (isSimple inter true l) l = true →
      isConvex (isSimple inter true (l.rotate k)) (l.rotate k) = true := by
    intro l k h
    rw [isConvex_iff] at h ⊢
    rw [isSimple_rotate inter hi, List.length_rotate]
    refine ⟨h.1, ?_⟩
    rcases h.2 with h | h | h
    · exact Or.inl h
    · exact Or.inr (Or.inl fun i a b c hn => h _ a b c (Neighbours.rotate hn))
    · exact Or.inr (Or.inr fun i a b c hn => h _ a b c (Neighbours.rotate hn))
  rw [Bool.eq_iff_iff]
  refine ⟨fun h => ?_, fwd pts k⟩
  have := fwd _ (pts.length * k - k) h
  rw [List.rotate_rotate] at this
  by_cases h0 : pts.length = 0
  · have : pts = [] := List.length_eq_zero_iff.1 h0
    subst this; simpa using h
  · rw [show k + (pts.length * k - k) = pts.length * k by
      have : k ≤ pts.length * k := Nat.le_mul_of_pos_left k (by omega)
      omega, List.rotate_length_mul] at this
    exact this

/-- **C45, direction, for polygons without a flat vertex.** With flat vertices it is false, see `C45_false`. -/
theorem C45_reverse_partial (inter : Pt K × Pt K → Pt K × Pt K → Bool) (hi : InterSymm inter) (pts : List (Pt K))
    (hflat : ∀ i a b c, Neighbours pts i a b c → turnAt a b c ≠ 0) :
    isConvex (isSimple inter true pts.reverse) pts.reverse = isConvex (isSimple inter true pts) pts := by
  have hrev : ∀ a b c : Pt K, turnAt c b a = - turnAt a b c := by intro a b c; simp only [turnAt]; ring
  have hrn : ∀ {i a b c}, Neighbours pts i a b c → ∃ j, Neighbours pts.reverse j c b a := by
    intro i a b c h
    refine ⟨_, Neighbours.reverse (l := pts.reverse) (i := i) (by simpa using h)⟩
  rw [Bool.eq_iff_iff, isConvex_iff, isConvex_iff, isSimple_reverse inter hi, List.length_reverse]
  refine and_congr Iff.rfl (or_congr Iff.rfl ?_)
  constructor
  · rintro (h | h)
    · right
      intro i a b c hn
      obtain ⟨j, hj⟩ := hrn hn
      have := h j _ _ _ hj
      rw [hrev] at this; linarith
    · left
      intro i a b c hn
      obtain ⟨j, hj⟩ := hrn hn
      have := h j _ _ _ hj
      rw [hrev] at this
      exact lt_of_le_of_ne (by linarith) (Ne.symm (hflat i a b c hn))
  · rintro (h | h)
    · right
      intro i a b c hn
      have := h _ _ _ _ (Neighbours.reverse hn)
      rw [hrev] at this; linarith
    · left
      intro i a b c hn
      have h1 := h _ _ _ _ (Neighbours.reverse hn)
      have h2 := hflat _ _ _ _ (Neighbours.reverse hn)
      rw [hrev] at h1 h2
      exact lt_of_le_of_ne (by linarith) (fun h => h2 (by rw [← h]; simp))

/-- **C45, negation.** A square with an additional vertex in the middle of a side is reported convex or not, depending on the direction. -/
theorem C45_false : ∃ pts : List (Pt ℚ), isSimple (fun _ _ => false) true pts = true ∧
    isConvex true pts = false ∧ isConvex true pts.reverse = true :=
  ⟨[(0,0), (1,0), (2,0), (2,2), (0,2)], by decide +kernel⟩

example : ∀ i a b c, Neighbours ([(0,0), (2,0), (2,2), (0,2)] : List (Pt ℚ)) i a b c → turnAt a b c ≠ 0 := by
  intro i a b c h
  have hm := (mem_cycTriples _ a b c).2 ⟨i, h⟩
  have : ∀ t ∈ cycTriples ([(0,0), (2,0), (2,2), (0,2)] : List (Pt ℚ)), turnAt t.1 t.2.1 t.2.2 ≠ 0 := by decide +kernel
  exact this _ hm

/-! ## C46: quarter turns -/

/-- **C46, group laws.** They hold exactly for floating point too: only sign changes and swaps are involved. -/
theorem C46_group {F : Type} [InvolutiveNeg F] (pts : List (Pt F)) :
    polyRotate .ccw (polyRotate .ccw (polyRotate .ccw (polyRotate .ccw pts))) = pts ∧
    polyRotate .cw (polyRotate .ccw pts) = pts ∧ polyRotate .ccw (polyRotate .cw pts) = pts ∧
    polyRotate .full (polyRotate .full pts) = pts ∧
    polyRotate .vmirror (polyRotate .vmirror pts) = pts ∧
    polyRotate .hmirror (polyRotate .hmirror pts) = pts ∧
    polyRotate .ccw (polyRotate .ccw pts) = polyRotate .full pts ∧
    polyRotate .vmirror (polyRotate .hmirror pts) = polyRotate .full pts := by
  refine ⟨?_, ?_, ?_, ?_, ?_, ?_, ?_, ?_⟩ <;> simp [polyRotate, rotPt, Function.comp_def]

/-- **C46, isometry.** Distances between vertices do not change, with or without a reference point. -/
theorem C46_isometry (rot : Rotate) (ref : Pt K) (pts : List (Pt K)) (i j : Nat) (p q p' q' : Pt K)
    (hp : pts[i]? = some p) (hq : pts[j]? = some q)
    (hp' : (polyRotateRef rot ref pts)[i]? = some p') (hq' : (polyRotateRef rot ref pts)[j]? = some q') :
    (p'.1 - q'.1)^2 + (p'.2 - q'.2)^2 = (p.1 - q.1)^2 + (p.2 - q.2)^2 ∧
    sqDist (rotPt rot p) (rotPt rot q) = sqDist p q := by
  simp only [polyRotateRef, polyTranslate, polyRotate, List.getElem?_map, hp, hq, Option.map_some, Option.some_inj] at hp' hq'
  subst hp' hq'
  cases rot <;> simp only [rotPt, sqDist] <;> constructor <;> ring

/-- **C46, reference point.** It is fixed: a vertex located on the reference point does not move. -/
theorem C46_fixpoint (rot : Rotate) (ref : Pt K) (pts : List (Pt K)) (i : Nat) (h : pts[i]? = some ref) :
    (polyRotateRef rot ref pts)[i]? = some ref := by
  simp only [polyRotateRef, polyTranslate, polyRotate, List.getElem?_map, h, Option.map_some]
  cases rot <;> simp [rotPt]

/-- **C46, direction of the turn.** `CCW` sends the direction of the x axis to the direction of the y axis, `CW` is the opposite. -/
theorem C46_direction (ref : Pt K) : polyRotateRef .ccw ref [(ref.1 + 1, ref.2)] = [(ref.1, ref.2 + 1)] ∧
    polyRotateRef .cw ref [(ref.1 + 1, ref.2)] = [(ref.1, ref.2 - 1)] ∧
    polyRotateRef .full ref [(ref.1 + 1, ref.2)] = [(ref.1 - 1, ref.2)] := by
  refine ⟨?_, ?_, ?_⟩ <;> simp [polyRotateRef, polyTranslate, polyRotate, rotPt] <;> ring

/-- **C46 for rectangles.** Rotating back restores the rectangle. -/
theorem C46_rect (th : Thr K) (r r1 : FRect K) (hx : r.p1.1 ≤ r.p2.1) (hy : r.p1.2 ≤ r.p2.2) :
    (r.rotate th .ccw = .ok r1 → r1.rotate th .cw = .ok r) ∧
    (r.rotate th .cw = .ok r1 → r1.rotate th .ccw = .ok r) ∧
    (r.rotate th .full = .ok r1 → r1.rotate th .full = .ok r) ∧
    (r.rotate th .vmirror = .ok r1 → r1.rotate th .vmirror = .ok r) ∧
    (r.rotate th .hmirror = .ok r1 → r1.rotate th .hmirror = .ok r) := by
  have key : ∀ rot rot', r.rotate th rot = .ok r1 → rotLo rot' ⟨rotLo rot r, rotHi rot r⟩ = r.p1 → rotHi rot' ⟨rotLo rot r, rotHi rot r⟩ = r.p2 →
      r1.rotate th rot' = .ok r := by
    intro rot rot' h e1 e2
    rw [rotate_eq th rot r hx hy] at h
    split_ifs at h with hc
    have h := Res.ok.inj h
    have hs : sqDist (rotLo rot r) (rotHi rot r) = sqDist r.p1 r.p2 := by
      cases rot <;> simp only [sqDist, rotLo, rotHi] <;> ring
    have a1 : ∀ u v : K, |-v - -u| = |u - v| := fun u v => by congr 1; ring
    have hb : (samePt th.nullDistance r1.p1 r1.p2 || shareCommonCoord th.nullOrthogDistance r1.p1 r1.p2) =
        (samePt th.nullDistance r.p1 r.p2 || shareCommonCoord th.nullOrthogDistance r.p1 r.p2) := by
      rw [← h, Bool.eq_iff_iff, Bool.or_eq_true, Bool.or_eq_true, samePt_iff, samePt_iff, share_iff, share_iff, hs]
      cases rot <;> simp only [rotLo, rotHi, a1] <;> tauto
    have hx1 : r1.p1.1 ≤ r1.p2.1 ∧ r1.p1.2 ≤ r1.p2.2 := by
      rw [← h]
      cases rot <;> simp only [rotLo, rotHi] <;> exact ⟨by linarith, by linarith⟩
    rw [rotate_eq th rot' r1 hx1.1 hx1.2, hb, if_neg hc, ← h]
    congr 1
    cases r
    simp only at e1 e2
    rw [e1, e2]
  refine ⟨fun h => key _ _ h ?_ ?_, fun h => key _ _ h ?_ ?_, fun h => key _ _ h ?_ ?_, fun h => key _ _ h ?_ ?_, fun h => key _ _ h ?_ ?_⟩ <;>
    simp [rotLo, rotHi]

example : ∃ r1, FRect.rotate stdThr .ccw (⟨(1,2), (4,3)⟩ : FRect ℚ) = .ok r1 ∧ FRect.rotate stdThr .cw r1 = .ok ⟨(1,2), (4,3)⟩ :=
  ⟨⟨(-3,1), (-2,4)⟩, by decide +kernel⟩

/-! ## C40: equality -/

/-- **C40, closed polylines, starting vertex.** All vertices different. -/
theorem C40_closed_start (t : K) (ht : 0 < t) (pts : List (Pt K)) (hd : pts.Nodup) (h2 : 2 ≤ pts.length) (k : Nat) :
    polyEq t true pts (pts.rotate k) = .ok true := by
  obtain ⟨b, a, rest, -, e2⟩ := normalizePoly_closed pts h2
  have hself : ∀ l : List (Pt K), samePts t l l = true := by
    intro l
    induction l with
    | nil => rfl
    | cons x xs ih =>
      simp only [samePts] at ih
      simp only [samePts, List.zip_cons_cons, List.all_cons, Bool.and_eq_true]
      refine ⟨(samePt_iff _ _ _).2 ?_, ih⟩
      simp only [sqDist, sub_self, mul_zero, add_zero]
      exact mul_pos ht ht
  simp only [polyEq, List.length_rotate, ne_eq, not_true, if_false, normalizePoly_rotate pts hd h2, e2]
  exact congrArg Res.ok (hself _)

/-- **C40, closed polylines, direction.** All vertices different, and no vertex where the polyline turns back on itself
(for instance: any simple polygon). If not, it may fail, see `C40_false`. -/
theorem C40_closed_reverse_partial (t : K) (ht : 0 < t) (pts : List (Pt K)) (hd : pts.Nodup) (h2 : 2 ≤ pts.length)
    (hs : 3 ≤ pts.length → ∀ i a b c, Neighbours pts i a b c → ¬ TurnsBack a b c) (k : Nat) :
    polyEq t true pts (pts.reverse.rotate k) = .ok true := by
  have hc : 3 ≤ pts.length → ∀ i a b c, Neighbours pts i a b c → (∀ q ∈ pts, ¬ LexLt q b) → ¬ Collinear3 a b c :=
    fun h3 i a b c hn hm hcol => hs h3 i a b c hn (turnsBack_of_min pts hd h3 i a b c hn hm hcol)
  have h := C40_closed_start t ht pts hd h2 0
  have e : normalizePoly true (pts.reverse.rotate k) = normalizePoly true (pts.rotate 0) := by
    rw [normalizePoly_rotate pts.reverse (List.nodup_reverse.2 hd) (by simpa using h2), normalizePoly_reverse pts hd h2 hc, List.rotate_zero]
  simp only [polyEq, List.length_rotate, List.length_reverse] at h ⊢
  rw [e]; exact h

/-- **C40, open polylines.** Equal to itself and to its reverse, when the two end points are different. -/
theorem C40_open (t : K) (ht : 0 < t) (pts : List (Pt K)) (hends : pts.head? ≠ pts.getLast?) :
    polyEq t false pts pts = .ok true ∧ polyEq t false pts pts.reverse = .ok true := by
  have hself : ∀ l : List (Pt K), samePts t l l = true := by
    intro l
    induction l with
    | nil => rfl
    | cons x xs ih =>
      simp only [samePts] at ih
      simp only [samePts, List.zip_cons_cons, List.all_cons, Bool.and_eq_true]
      refine ⟨(samePt_iff _ _ _).2 ?_, ih⟩
      simp only [sqDist, sub_self, mul_zero, add_zero]
      exact mul_pos ht ht
  match pts with
  | [] => simp at hends
  | p :: ps =>
    have hlast : (p :: ps).getLast? = some (ps.getLastD p) := by
      simp [List.getLast?_cons]
    rw [hlast] at hends
    simp at hends
    obtain ⟨qs, hqs⟩ : ∃ qs, (p :: ps).reverse = ps.getLastD p :: qs := by
      have h1 : (p :: ps).reverse.head? = some (ps.getLastD p) := by rw [List.head?_reverse, hlast]
      cases hr : (p :: ps).reverse with
      | nil => simp at hr
      | cons x xs => rw [hr] at h1; exact ⟨xs, by rw [Option.some_inj.1 h1]⟩
    have hqlast : qs.getLastD (ps.getLastD p) = p := by
      have h1 : (ps.getLastD p :: qs).getLast? = some p := by rw [← hqs, List.getLast?_reverse]; rfl
      simpa [List.getLast?_cons] using h1
    have n1 : normalizePoly false (p :: ps) = if ptLt (ps.getLastD p) p then .ok (p :: ps).reverse else .ok (p :: ps) := rfl
    have n2 : normalizePoly false (p :: ps).reverse =
        if ptLt p (ps.getLastD p) then .ok (p :: ps) else .ok (p :: ps).reverse := by
      rw [hqs, normalizePoly, if_neg (by simp), hqlast, ← hqs, List.reverse_reverse]
    have hx : ptLt p (ps.getLastD p) = !(ptLt (ps.getLastD p) p) := by
      cases h : ptLt (ps.getLastD p) p
      · cases h' : ptLt p (ps.getLastD p)
        · exact absurd (ptLt_total h' h) (by simpa using hends)
        · rfl
      · rw [(ptLt_swo).asymm h]; rfl
    have hsame : normalizePoly false (p :: ps).reverse = normalizePoly false (p :: ps) := by
      rw [n1, n2, hx]
      cases ptLt (ps.getLastD p) p <;> simp
    have hok : ∃ v, normalizePoly false (p :: ps) = .ok v := by
      rw [n1]; split_ifs <;> exact ⟨_, rfl⟩
    obtain ⟨v, hv⟩ := hok
    constructor
    · simp only [polyEq, ne_eq, not_true, if_false, hv]
      exact congrArg Res.ok (hself _)
    · simp only [polyEq, List.length_reverse, ne_eq, not_true, if_false, hsame, hv]
      exact congrArg Res.ok (hself _)

/-- **C40, soundness.** Closed polylines that compare equal have the same cycles of vertices, within the tolerance. -/
theorem C40_closed_sound (t : K) (a b : List (Pt K)) (h : polyEq t true a b = .ok true) :
    ∃ a' b', SameCycle a a' ∧ SameCycle b b' ∧ CloseLists t a' b' := by
  rw [polyEq] at h
  by_cases hlen : a.length = b.length
  swap
  · rw [if_pos hlen] at h; cases h
  · rw [if_neg (by simpa using hlen)] at h
    cases ha : normalizePoly true a with
    | ok a' =>
      cases hb : normalizePoly true b with
      | ok b' =>
        rw [ha, hb] at h
        have h : samePts t a' b' = true := Res.ok.inj h
        have ca := normalizePoly_cycle a a' ha
        have cb := normalizePoly_cycle b b' hb
        refine ⟨a', b', ca, cb, ?_, ?_⟩
        · obtain ⟨k, hk | hk⟩ := ca <;> obtain ⟨j, hj | hj⟩ := cb <;> rw [hk, hj] <;> simpa using hlen
        · intro i p q hp hq
          have hm : (p, q) ∈ a'.zip b' := List.mem_iff_getElem?.2 ⟨i, List.getElem?_zip_eq_some.2 ⟨hp, hq⟩⟩
          rw [samePts, List.all_eq_true] at h
          have := (samePt_iff _ _ _).1 (h _ hm)
          simp only [sqDist] at this
          rw [pow_two, pow_two, pow_two]; exact this
      | throw => rw [ha, hb] at h; cases h
      | ub => rw [ha, hb] at h; cases h
    | throw => rw [ha] at h; cases h
    | ub => rw [ha] at h; cases h

/-- **C40, negation.** Distinct vertices, accepted by the constructor: the closed polyline and its reverse compare different, because it turns
back at the vertex with the smallest coordinates. -/
theorem C40_false : ∃ pts : List (Pt ℚ), pts.Nodup ∧ checkInput (samePt stdThr.nullDistance) pts = true ∧
    polyEq stdThr.nullDistance true pts pts.reverse = .ok false :=
  ⟨[(0,0), (1,0), (2,0)], by decide +kernel⟩

example : ([(1,0), (2,0), (2,3), (0,1)] : List (Pt ℚ)).Nodup ∧
    polyEq stdThr.nullDistance true ([(1,0), (2,0), (2,3), (0,1)] : List (Pt ℚ)) [(2,3), (2,0), (1,0), (0,1)] = .ok true := by decide +kernel

example : ∀ i a b c, Neighbours ([(1,0), (2,0), (2,3), (0,1)] : List (Pt ℚ)) i a b c → ¬ TurnsBack a b c := by
  rintro i a b c h ⟨k, hk, h1, h2⟩
  have hm := (mem_cycTriples _ a b c).2 ⟨i, h⟩
  have : ∀ t ∈ cycTriples ([(1,0), (2,0), (2,3), (0,1)] : List (Pt ℚ)), turnAt t.1 t.2.1 t.2.2 ≠ 0 := by decide +kernel
  have := this _ hm
  simp only [turnAt] at this
  apply this
  rw [h1, h2]; ring

/-! ## C41: comparison as a query -/

/-- **C41, negation.** Comparing a square (with an additional vertex on a side) to itself reorders its points, and changes the answer of `isConvex()`. -/
theorem C41_false : ∃ pts pts' : List (Pt ℚ), normalizePoly true pts = .ok pts' ∧
    getPoint pts 0 ≠ getPoint pts' 0 ∧
    isSimple (fun _ _ => false) true pts = true ∧ isConvex true pts ≠ isConvex true pts' :=
  ⟨[(2,0), (2,2), (0,2), (0,0), (1,0)], [(0,0), (0,2), (2,2), (2,0), (1,0)], by decide +kernel⟩

/-- **C41, what holds.** A comparison replaces the points of a closed polyline by the same cycle (other starting point, other direction), hence does
not change: the set of points, their number, simplicity, area, signed area up to sign, and length. -/
theorem C41_partial (inter : Pt K × Pt K → Pt K × Pt K → Bool) (hi : InterSymm inter) (segLen : Pt K → Pt K → K)
    (hl : ∀ p q, segLen p q = segLen q p) (pts pts' : List (Pt K)) (h : normalizePoly true pts = .ok pts') :
    SameCycle pts pts' ∧ pts'.Perm pts ∧ isSimple inter true pts' = isSimple inter true pts ∧
    polyArea inter true pts' = polyArea inter true pts ∧ |signedArea pts'| = |signedArea pts| ∧
    polyLength segLen true pts' = polyLength segLen true pts := by
  have hc := normalizePoly_cycle pts pts' h
  have hlen : ∀ l : List (Pt K), ∀ k, polyLength segLen true (l.rotate k) = polyLength segLen true l := by
    intro l k
    simp only [polyLength, segPairs, List.length_rotate]
    split_ifs
    · rfl
    · rw [cycPairs_rotate, sum_map_rotate]
  have hrev : polyLength segLen true pts.reverse = polyLength segLen true pts := by
    simp only [polyLength, segPairs, List.length_reverse]
    split_ifs
    · rfl
    · rw [((cycPairs_reverse_perm pts).map _).sum_eq, List.map_map]
      congr 1
      apply List.map_congr_left
      intro s _
      simp [hl s.2 s.1]
  refine ⟨hc, ?_⟩
  obtain ⟨k, rfl | rfl⟩ := hc
  · exact ⟨List.rotate_perm _ _, isSimple_rotate inter hi _ _ _, C42_area_start inter hi _ _, by rw [signedArea_rotate], hlen _ _⟩
  · refine ⟨(List.rotate_perm _ _).trans (List.reverse_perm _), ?_, ?_, ?_, ?_⟩
    · rw [isSimple_rotate inter hi, isSimple_reverse inter hi]
    · rw [C42_area_start inter hi, C42_area_reverse inter hi]
    · rw [signedArea_rotate, signedArea_reverse, abs_neg]
    · rw [hlen, hrev]

example : normalizePoly true ([(2,0), (2,2), (0,2), (0,0)] : List (Pt ℚ)) = .ok [(0,0), (0,2), (2,2), (2,0)] := by decide +kernel

end H2d.Props
