import Verif.Lemmas.BB
import Verif.Lemmas.FRect
import Mathlib.Data.Rat.Defs
import Mathlib.Algebra.Order.Ring.Rat
import Mathlib.Algebra.Order.Field.Rat
import Mathlib.Tactic.Ring
import Mathlib.Tactic.NormNum
import Mathlib.Tactic.Linarith
import Mathlib.Tactic.FinCases

/-!
# C31 - C34, C73: bounding boxes and extreme points
-/

namespace H2d.Props

open H2d.Spec

/-- **C34.** The extreme point functions throw exactly on an empty container, and otherwise return an element of the container
that precedes all the others in the requested direction, with the index of its first occurrence. -/
theorem C34_extreme {K : Type} [LinearOrder K] (dir : CardDir) (cont : List (Pt K)) :
    (getExtremePoint dir cont = .throw ↔ cont = []) ∧
    (cont ≠ [] → ∃ p i, getExtremePoint dir cont = .ok (p, i) ∧ IsFirstFor (Precedes dir) cont p i) := by
  match cont with
  | [] => simp [getExtremePoint]
  | x :: xs =>
    refine ⟨by simp [getExtremePoint], fun _ => ?_⟩
    obtain ⟨p, k, h1, h2, h3, h4⟩ := minElemLoop_cons (extremeComp_swo (K := K) dir) x xs
    refine ⟨p, k, by simp [getExtremePoint, h1], h2, ?_, ?_⟩
    · intro q hq
      have h3 := h3 q hq
      rw [← Bool.not_eq_true, extremeComp_iff] at h3
      by_cases he : q = p
      · exact Or.inl he
      · right
        have : q.1 ≠ p.1 ∨ q.2 ≠ p.2 := by
          by_contra hc; push Not at hc; exact he (Prod.ext hc.1 hc.2)
        cases dir <;> simp only [Precedes, Above, Below, LeftOf, RightOf] at * <;> grind
    · intro j q hj hq he
      have := h4 j q hj hq
      subst he
      simp [(extremeComp_swo dir).irrefl] at this

/-- **C34, storage order.** The point found does not depend on the order of the elements in the container. -/
theorem C34_perm {K : Type} [LinearOrder K] (dir : CardDir) (c₁ c₂ : List (Pt K)) (hp : c₁.Perm c₂)
    (p q : Pt K) (i j : Nat) (h₁ : getExtremePoint dir c₁ = .ok (p, i)) (h₂ : getExtremePoint dir c₂ = .ok (q, j)) : p = q := by
  have n1 : c₁ ≠ [] := by rintro rfl; simp [getExtremePoint] at h₁
  have n2 : c₂ ≠ [] := by rintro rfl; simp [getExtremePoint] at h₂
  obtain ⟨p', i', e1, s1⟩ := (C34_extreme dir c₁).2 n1
  obtain ⟨q', j', e2, s2⟩ := (C34_extreme dir c₂).2 n2
  rw [h₁] at e1; rw [h₂] at e2
  simp at e1 e2
  obtain ⟨rfl, rfl⟩ := e1
  obtain ⟨rfl, rfl⟩ := e2
  have hpm : p ∈ c₂ := hp.mem_iff.1 (List.mem_iff_getElem?.2 ⟨_, s1.found⟩)
  have hqm : q ∈ c₁ := hp.mem_iff.2 (List.mem_iff_getElem?.2 ⟨_, s2.found⟩)
  rcases s1.best q hqm with h | h
  · exact h.symm
  · rcases s2.best p hpm with h' | h'
    · exact h'
    · exfalso
      cases dir <;> simp only [Precedes, Above, Below, LeftOf, RightOf] at * <;> grind

example : getExtremePoint .top [((3, 1) : Pt ℚ), (5, 4), (2, 4), (2, 4)] = .ok ((2, 4), 2) := by decide +kernel
example : getExtremePoint .right [((3, 1) : Pt ℚ), (5, 4), (2, 4), (5, 2)] = .ok ((5, 2), 3) := by decide +kernel

variable {K : Type} [Field K] [LinearOrder K] [IsStrictOrderedRing K]

/-- **C31.** The bounding box of a container of points is the smallest rectangle containing them; it fails
exactly for containers of less than two points or whose extent is under the thresholds. -/
theorem C31_bb_points (th : Thr K) (pts : List (Pt K)) :
    (getBB_cont th pts = .throw ↔ pts.length < 2 ∨ TooFlat th (· ∈ pts)) ∧
    getBB_cont th pts ≠ .ub ∧
    ∀ r, getBB_cont th pts = .ok r → IsTightBox (· ∈ pts) r.p1 r.p2 := by
  match pts with
  | [] => simp [getBB_cont]
  | [a] => simp [getBB_cont]
  | a :: b :: l =>
    obtain ⟨lo, hi, hT, he⟩ := getBB_Points_rect th (a :: b :: l) (by simp)
    have he' : getBB_cont th (a :: b :: l) = (do
        let (x, y) ← getBB_Points th (a :: b :: l)
        FRect.ofPts th.nullOrthogDistance x y) := by simp [getBB_cont]
    rw [he', he]
    have hlen : ¬ (a :: b :: l).length < 2 := by simp
    simp only [hlen, false_or]
    rw [tooFlat_iff th hT]
    by_cases hc : (samePt th.nullDistance lo hi || shareCommonCoord th.nullOrthogDistance lo hi) = true
    · simp [hc]
    · simp only [hc]
      refine ⟨by simp, by simp, ?_⟩
      intro r hr
      simp at hr
      rw [← hr]; exact hT

/-- **C31, storage order.** The result does not depend on the order of the points. -/
theorem C31_perm (th : Thr K) (c₁ c₂ : List (Pt K)) (hp : c₁.Perm c₂) : getBB_cont th c₁ = getBB_cont th c₂ := by
  have hmem : (fun x => x ∈ c₁) = (fun x => x ∈ c₂) := by
    funext x; exact propext hp.mem_iff
  obtain ⟨t1, u1, s1⟩ := C31_bb_points th c₁
  obtain ⟨t2, u2, s2⟩ := C31_bb_points th c₂
  rw [hmem, hp.length_eq, ← t2] at t1
  cases h1 : getBB_cont th c₁ with
  | ub => exact absurd h1 u1
  | throw => rw [t1.1 h1]
  | ok r =>
    cases h2 : getBB_cont th c₂ with
    | ub => exact absurd h2 u2
    | throw => rw [t1.2 h2] at h1; cases h1
    | ok s =>
      have a := s1 r h1
      have b := s2 s h2
      rw [hmem] at a
      obtain ⟨e1, e2⟩ := IsTightBox.unique a b
      cases r; cases s; simp_all

example : getBB_cont stdThr [(3, 1), (-2, 5), (0, 0), (1, 2)] = .ok ⟨(-2, 0), (3, 5)⟩ := by decide +kernel
example : getBB_cont stdThr [(3, 1), (3, 5), (3, 7)] = .throw := by decide +kernel

/-- **C33 (partial).** If every element of the container has a computable pair of points (no line, no empty or degenerate polyline,
no circle under the threshold), `getBB` of the container is the smallest rectangle enclosing all of them, or throws because the extent is
too flat.

Missing: containers with such elements, see `C33_line_false` and `C33_polyline_false`. -/
theorem C33_common_bb_partial (th : Thr K) (v : List (Obj K)) (hne : v ≠ [])
    (hval : ∀ e ∈ v, Valid e) (hok : ∀ e ∈ v, ∃ q, getPointPair th e = .ok q) :
    (getBB_CommonType th v = .throw ↔ TooFlat th (fun p => ∃ e ∈ v, Extent e p)) ∧
    getBB_CommonType th v ≠ .ub ∧
    ∀ r, getBB_CommonType th v = .ok r → IsTightBox (fun p => ∃ e ∈ v, Extent e p) r.p1 r.p2 := by
  have hl : commonTypeLoop th v ((0, 0), (0, 0)) ≠ [] := by
    cases v with
    | nil => exact absurd rfl hne
    | cons e es => simp [commonTypeLoop]
  obtain ⟨lo, hi, hT, he⟩ := getBB_Points_rect th _ hl
  have he' : getBB_CommonType th v = (do
      let (x, y) ← getBB_Points th (commonTypeLoop th v ((0, 0), (0, 0)))
      FRect.ofPts th.nullOrthogDistance x y) := by
    have : v.isEmpty = false := by cases v <;> simp_all
    simp [getBB_CommonType, this]
  have hT' : IsTightBox (fun p => ∃ e ∈ v, Extent e p) lo hi := by
    have hmem := commonTypeLoop_eq th v ((0,0),(0,0)) hok
    have lift : ∀ p, p ∈ commonTypeLoop th v ((0, 0), (0, 0)) →
        (∃ p', (∃ e ∈ v, Extent e p') ∧ p'.1 = p.1) ∧ (∃ p', (∃ e ∈ v, Extent e p') ∧ p'.2 = p.2) := by
      intro p hp
      obtain ⟨e, hev, ⟨a, b⟩, hq, hpq⟩ := (hmem p).1 hp
      have hs := pointPair_spec th e (hval e hev) a b hq
      obtain ⟨l, hl, hl'⟩ := hs.left
      obtain ⟨r, hr, hr'⟩ := hs.right
      obtain ⟨d, hd, hd'⟩ := hs.bottom
      obtain ⟨u, hu, hu'⟩ := hs.top
      simp only at hl' hr' hd' hu'
      constructor
      · rcases le_total a.1 b.1 with h | h <;> rcases hpq with rfl | rfl
        · exact ⟨l, ⟨e, hev, hl⟩, by simpa [h] using hl'⟩
        · exact ⟨r, ⟨e, hev, hr⟩, by simpa [h] using hr'⟩
        · exact ⟨r, ⟨e, hev, hr⟩, by simpa [h] using hr'⟩
        · exact ⟨l, ⟨e, hev, hl⟩, by simpa [h] using hl'⟩
      · rcases le_total a.2 b.2 with h | h <;> rcases hpq with rfl | rfl
        · exact ⟨d, ⟨e, hev, hd⟩, by simpa [h] using hd'⟩
        · exact ⟨u, ⟨e, hev, hu⟩, by simpa [h] using hu'⟩
        · exact ⟨u, ⟨e, hev, hu⟩, by simpa [h] using hu'⟩
        · exact ⟨d, ⟨e, hev, hd⟩, by simpa [h] using hd'⟩
    refine ⟨?_, ?_, ?_, ?_, ?_⟩
    · rintro p ⟨e, hev, hp⟩
      obtain ⟨⟨a, b⟩, hq⟩ := hok e hev
      have ha := hT.contains a ((hmem a).2 ⟨e, hev, _, hq, Or.inl rfl⟩)
      have hb := hT.contains b ((hmem b).2 ⟨e, hev, _, hq, Or.inr rfl⟩)
      have hc := (pointPair_spec th e (hval e hev) a b hq).contains p hp
      exact ⟨(le_min ha.1 hb.1).trans hc.1, hc.2.1.trans (max_le ha.2.1 hb.2.1), (le_min ha.2.2.1 hb.2.2.1).trans hc.2.2.1,
        hc.2.2.2.trans (max_le ha.2.2.2 hb.2.2.2)⟩
    · obtain ⟨p, hp, e⟩ := hT.left; rw [← e]; exact (lift p hp).1
    · obtain ⟨p, hp, e⟩ := hT.right; rw [← e]; exact (lift p hp).1
    · obtain ⟨p, hp, e⟩ := hT.bottom; rw [← e]; exact (lift p hp).2
    · obtain ⟨p, hp, e⟩ := hT.top; rw [← e]; exact (lift p hp).2
  rw [he', he, tooFlat_iff th hT']
  by_cases hc : (samePt th.nullDistance lo hi || shareCommonCoord th.nullOrthogDistance lo hi) = true
  · simp [hc]
  · simp only [hc]
    refine ⟨by simp, by simp, ?_⟩
    intro r hr
    simp at hr
    rw [← hr]; exact hT'

/-- Non-vacuity of `C33_common_bb_partial`. -/
example : (∀ e ∈ [Obj.circle ((5, 5) : Pt ℚ) 2, .seg (0, 1) (1, 0), .poly true [(1, 1), (2, 2), (9, 3)], .point (-1, 2)], Valid e) ∧
    (∀ e ∈ [Obj.circle ((5, 5) : Pt ℚ) 2, .seg (0, 1) (1, 0), .poly true [(1, 1), (2, 2), (9, 3)], .point (-1, 2)],
      ∃ q, getPointPair stdThr e = .ok q) ∧
    getBB_CommonType stdThr [.circle (5, 5) 2, .seg (0, 1) (1, 0), .poly true [(1, 1), (2, 2), (9, 3)], .point (-1, 2)]
      = .ok ⟨(-1, 0), (9, 7)⟩ := by
  refine ⟨?_, ?_, by decide +kernel⟩
  · intro e he; fin_cases he <;> simp [Valid]
  · intro e he
    fin_cases he
    · exact ⟨((3, 3), (7, 7)), by decide +kernel⟩
    · exact ⟨((0, 1), (1, 0)), by decide +kernel⟩
    · exact ⟨((1, 1), (9, 3)), by decide +kernel⟩
    · exact ⟨((-1, 2), (-1, 2)), by decide +kernel⟩

/-- **C33 is false with lines.** A line at the beginning of the container is not ignored: the point (0,0) is added, so that the
box is not the smallest one. -/
theorem C33_line_false :
    ∃ v : List (Obj ℚ), ∃ r s, getBB_CommonType stdThr (.line :: v) = .ok r ∧ getBB_CommonType stdThr v = .ok s ∧ r ≠ s ∧
      IsTightBox (fun p => ∃ e ∈ (.line :: v), Extent e p) s.p1 s.p2 := by
  refine ⟨[.rect ⟨(5, 5), (6, 6)⟩], ⟨(0, 0), (6, 6)⟩, ⟨(5, 5), (6, 6)⟩, by decide +kernel, by decide +kernel, by decide, ?_⟩
  have hS : (fun p => ∃ e ∈ ([.line, .rect ⟨(5, 5), (6, 6)⟩] : List (Obj ℚ)), Extent e p) = Extent (.rect ⟨(5, 5), (6, 6)⟩) := by
    funext p; simp [Extent]
  rw [hS]
  refine ⟨fun p hp => hp, ⟨(5,5), ?_, rfl⟩, ⟨(6,6), ?_, rfl⟩, ⟨(5,5), ?_, rfl⟩, ⟨(6,6), ?_, rfl⟩⟩ <;>
    norm_num [Extent]

/-- **C33 is false with flat polylines.** An open polyline of three horizontal points has an extent but is ignored: the
returned box does not contain it. -/
theorem C33_polyline_false :
    ∃ v : List (Obj ℚ), ∃ r, getBB_CommonType stdThr v = .ok r ∧
      ∃ e ∈ v, ∃ p, Extent e p ∧ ¬ (p.2 ≤ r.p2.2) := by
  refine ⟨[.rect ⟨(0, 0), (1, 1)⟩, .poly false [(0, 5), (1, 5), (2, 5)]], ⟨(0, 0), (1, 1)⟩, by decide +kernel,
    .poly false [(0, 5), (1, 5), (2, 5)], by simp, (0, 5), ?_, by norm_num⟩
  left; simp

omit [IsStrictOrderedRing K] in
/-- **C32 (partial).** `getBB(a,b)` and `getBB(b,a)` have the same outcome when both or none of the two objects is an empty polyline.

Missing: exactly one empty polyline, for which the property is false, see `C32_false`. -/
theorem C32_symmetric_partial (th : Thr K) (e1 e2 : Obj K) (h : e1.size = 0 ↔ e2.size = 0) :
    getBB_two th e1 e2 = getBB_two th e2 e1 := by
  have empty : ∀ e : Obj K, e.size = 0 → ∃ c, e = .poly c [] := by
    intro e he
    cases e <;> simp [Obj.size] at he
    exact ⟨_, by rw [he]⟩
  by_cases h1 : e1.size = 0
  · obtain ⟨c1, rfl⟩ := empty _ h1
    obtain ⟨c2, rfl⟩ := empty _ (h.1 h1)
    simp [getBB_two, Obj.size, Obj.isPoly, getPointPair]
  · have h2 : e2.size ≠ 0 := fun hc => h1 (h.2 hc)
    simp only [getBB_two, Bool.and_false, Bool.false_and, Bool.false_eq_true, if_false]
    simp only [beq_eq_false_iff_ne.2 h1, beq_eq_false_iff_ne.2 h2, Bool.and_false, Bool.false_eq_true, if_false]
    cases hp1 : getPointPair th e1 <;> cases hp2 : getPointPair th e2 <;>
      simp [getBB_pairs_comm]
    -- undefined behaviour is never reached
    all_goals
      exfalso
      have noub : ∀ e : Obj K, getPointPair th e ≠ .ub := by
        intro e he
        cases e with
        | poly c pts =>
          have gen : pts ≠ [] → getBB_Points th pts ≠ .ub := by
            intro hne hg
            obtain ⟨lo, hi, -, he⟩ := getBB_Points_eq th pts hne
            rw [he] at hg; split_ifs at hg
          match pts, he with
          | [], h => simp [getPointPair] at h
          | [u], h => exact gen (by simp) h
          | [u, v], h => simp [getPointPair] at h
          | u :: v :: w :: l, h => exact gen (by simp) h
        | circle c rad =>
          simp only [getPointPair, circleGetBB, FRect.ofPts, getCorrectPoints] at he
          split_ifs at he <;> simp at he
        | _ => simp [getPointPair] at he
      first | exact noub _ hp1 | exact noub _ hp2

/-- Non-vacuity: two objects with an extent. -/
example : getBB_two stdThr (.circle (5, 5) 2) (.point (0, 0)) = .ok ⟨(0, 0), (7, 7)⟩ := by decide +kernel

/-- **C32 is false with an empty polyline.** With a rectangle first, the box of the rectangle is returned; with the empty polyline
first, the call throws. -/
theorem C32_false : ∃ (e1 e2 : Obj ℚ) (r : FRect ℚ), getBB_two stdThr e1 e2 = .ok r ∧ getBB_two stdThr e2 e1 = .throw :=
  ⟨.rect ⟨(0, 0), (1, 1)⟩, .poly true [], ⟨(0, 0), (1, 1)⟩, by decide +kernel, by decide +kernel⟩

/-- **C75, segments**: the box of a container of segments is the smallest rectangle that holds all of them, it fails exactly for an empty
container or if the extent is under the thresholds. -/
theorem C75_segments {K : Type} [Field K] [LinearOrder K] [IsStrictOrderedRing K] (th : Thr K) (segs : List (Pt K × Pt K)) :
    (getBB_segs th segs = .throw ↔ segs = [] ∨ TooFlat th (fun p => ∃ s ∈ segs, OnSeg s.1 s.2 p)) ∧
    getBB_segs th segs ≠ .ub ∧
    ∀ r, getBB_segs th segs = .ok r → IsTightBox (fun p => ∃ s ∈ segs, OnSeg s.1 s.2 p) r.p1 r.p2 := by
  cases segs with
  | nil => simp [getBB_segs]
  | cons s l =>
    simp only [reduceCtorEq, false_or]
    refine bb_outcome th (pts := (s :: l).flatMap (fun s => [s.1, s.2])) (by simp) ?_
      (by unfold getBB_segs; simp only [List.isEmpty_cons, Bool.false_eq_true, if_false])
    intro lo hi hT
    refine tight_union (f := fun s => s) (S := fun s p => OnSeg s.1 s.2 p) ?_ ?_ hT
    · intro e _
      exact pointPair_spec th (.seg e.1 e.2) trivial e.1 e.2 rfl
    · intro p; simp only [List.mem_flatMap, List.mem_cons, List.not_mem_nil, or_false]

/-- **C75, other objects (partial)**: if all the elements of a container of rectangles, of circles or of polylines have a bounding box, then the
one of the container is the smallest rectangle that holds all the elements; otherwise the call throws.

Missing: a container that has one flat element (an horizontal polyline for example) has no box, even if the whole is not flat: `C75_flat_false`. -/
theorem C75_boxes_partial {K : Type} [Field K] [LinearOrder K] [IsStrictOrderedRing K] (th : Thr K) (v : List (Obj K)) (hval : ∀ e ∈ v, Valid e) :
    (getBB_boxes th v = .throw ↔ v = [] ∨ (∃ e ∈ v, objGetBB th e = .throw) ∨ TooFlat th (fun p => ∃ e ∈ v, Extent e p)) ∧
    getBB_boxes th v ≠ .ub ∧
    ∀ r, getBB_boxes th v = .ok r → IsTightBox (fun p => ∃ e ∈ v, Extent e p) r.p1 r.p2 := by
  cases v with
  | nil => simp [getBB_boxes]
  | cons e0 l =>
    simp only [reduceCtorEq, false_or]
    generalize hv : e0 :: l = v at *
    have hne : v ≠ [] := by rw [← hv]; simp
    have hemp : v.isEmpty = false := by rw [← hv]; rfl
    unfold getBB_boxes
    rw [hemp]
    simp only [Bool.false_eq_true, if_false]
    rcases mapRes_cases (f := objGetBB th) (l := v) (fun a _ => objGetBB_ne_ub th a) with ⟨bbs, hb⟩ | ⟨hb, hex⟩
    · rw [hb]
      simp only [Res.bind_ok]
      have hm := mapRes_ok hb
      have hno : ¬ ∃ e ∈ v, objGetBB th e = .throw := by
        rintro ⟨e, he, h⟩
        have : (Res.throw : Res (FRect K)) ∈ bbs.map Res.ok := by rw [← hm, ← h]; exact List.mem_map_of_mem he
        simp at this
      have hbne : bbs ≠ [] := by
        rintro rfl
        simp at hm
        exact hne hm
      rw [or_iff_right hno]
      have hbe : bbs.isEmpty = false := by cases bbs <;> simp_all
      refine bb_outcome th (pts := bbs.flatMap (fun r => [r.p1, r.p2])) ?_ ?_ ?_
      · cases bbs <;> simp_all
      · intro lo hi hT
        refine tight_union (I := v) (f := fun e => match objGetBB th e with | .ok r => (r.p1, r.p2) | _ => ((0, 0), (0, 0))) (S := Extent) ?_ ?_ hT
        · intro e he
          have : objGetBB th e ∈ bbs.map Res.ok := by rw [← hm]; exact List.mem_map_of_mem he
          obtain ⟨r, -, hr⟩ := List.mem_map.1 this
          rw [← hr]
          simp only
          have hs := objGetBB_spec th e (hval e he) r hr.symm
          have hle := IsTightBox.le hs
          rwa [min_eq_left hle.1, min_eq_left hle.2, max_eq_right hle.1, max_eq_right hle.2]
        · intro p
          simp only [List.mem_flatMap, List.mem_cons, List.not_mem_nil, or_false]
          constructor
          · rintro ⟨r, hr, hp⟩
            have : (Res.ok r) ∈ v.map (objGetBB th) := by rw [hm]; exact List.mem_map_of_mem hr
            obtain ⟨e, he, hre⟩ := List.mem_map.1 this
            exact ⟨e, he, by rw [hre]; exact hp⟩
          · rintro ⟨e, he, hp⟩
            have : objGetBB th e ∈ bbs.map Res.ok := by rw [← hm]; exact List.mem_map_of_mem he
            obtain ⟨r, hrb, hr⟩ := List.mem_map.1 this
            rw [← hr] at hp
            exact ⟨r, hrb, hp⟩
      · unfold getBB_rects
        rw [hbe]; rfl
    · rw [hb]
      simp [hex]

example : getBB_boxes stdThr [.poly true [(0, 0), (1, 1), (2, 0)], .poly true [(5, 5), (6, 7), (7, 4)]] = .ok ⟨(0, 0), (7, 7)⟩ := by decide +kernel
example : getBB_segs stdThr [((0, 0), (1, 0)), ((3, 5), (1, 4))] = .ok ⟨(0, 0), (3, 5)⟩ := by decide +kernel

/-- **C75 is false with a flat element**: two horizontal open polylines one above the other have no common box in a container of polylines, though
they have one as a set of points, or in a container of segments. -/
theorem C75_flat_false : getBB_boxes (K := ℚ) stdThr [.poly false [(0, 0), (1, 0)], .poly false [(0, 5), (1, 5)]] = .throw ∧
    getBB_cont (K := ℚ) stdThr [(0, 0), (1, 0), (0, 5), (1, 5)] = .ok ⟨(0, 0), (1, 5)⟩ ∧
    getBB_segs (K := ℚ) stdThr [((0, 0), (1, 0)), ((0, 5), (1, 5))] = .ok ⟨(0, 0), (1, 5)⟩ := by decide +kernel

/-- **C73**: the bounding box of a circle, when it is not refused, has all the points of the disc in it and each of its sides holds a
point of the circle. It is refused only for a diameter below the null distance. -/
theorem C73_circle {K : Type} [Field K] [LinearOrder K] [IsStrictOrderedRing K] (t : K) (c : Pt K) (rad : K) (hr : 0 < rad) :
    (circleGetBB t c rad = .throw ∧ 2 * rad < t) ∨
    ∃ r, circleGetBB t c rad = .ok r ∧ t ≤ 2 * rad ∧
      (∀ p : Pt K, (p.1 - c.1) ^ 2 + (p.2 - c.2) ^ 2 ≤ rad ^ 2 → r.p1.1 ≤ p.1 ∧ p.1 ≤ r.p2.1 ∧ r.p1.2 ≤ p.2 ∧ p.2 ≤ r.p2.2) ∧
      (∃ p : Pt K, (p.1 - c.1) ^ 2 + (p.2 - c.2) ^ 2 = rad ^ 2 ∧ p.1 = r.p1.1) ∧
      (∃ p : Pt K, (p.1 - c.1) ^ 2 + (p.2 - c.2) ^ 2 = rad ^ 2 ∧ p.1 = r.p2.1) ∧
      (∃ p : Pt K, (p.1 - c.1) ^ 2 + (p.2 - c.2) ^ 2 = rad ^ 2 ∧ p.2 = r.p1.2) ∧
      (∃ p : Pt K, (p.1 - c.1) ^ 2 + (p.2 - c.2) ^ 2 = rad ^ 2 ∧ p.2 = r.p2.2) := by
  have e1 : |c.1 - rad - (c.1 + rad)| = 2 * rad := by
    rw [show c.1 - rad - (c.1 + rad) = -(2 * rad) by ring, abs_neg, abs_of_pos (by linarith)]
  have e2 : |c.2 - rad - (c.2 + rad)| = 2 * rad := by
    rw [show c.2 - rad - (c.2 + rad) = -(2 * rad) by ring, abs_neg, abs_of_pos (by linarith)]
  rcases ofPts_cases t (c.1 - rad, c.2 - rad) (c.1 + rad, c.2 + rad) with ⟨h, h'⟩ | ⟨h, h', -⟩
  · left
    simp only [e1, e2, or_self] at h'
    exact ⟨h, h'⟩
  · right
    simp only [e1] at h'
    refine ⟨_, h, h', ?_⟩
    simp only
    rw [min_eq_left (by linarith : c.1 - rad ≤ c.1 + rad), min_eq_left (by linarith : c.2 - rad ≤ c.2 + rad),
      max_eq_right (by linarith : c.1 - rad ≤ c.1 + rad), max_eq_right (by linarith : c.2 - rad ≤ c.2 + rad)]
    refine ⟨fun p hp => ?_, ⟨(c.1 - rad, c.2), by simp only; ring, rfl⟩, ⟨(c.1 + rad, c.2), by simp only; ring, rfl⟩,
      ⟨(c.1, c.2 - rad), by simp only; ring, rfl⟩, ⟨(c.1, c.2 + rad), by simp only; ring, rfl⟩⟩
    have h1 : |p.1 - c.1| ≤ rad := abs_le_of_sq_le_sq (by nlinarith [sq_nonneg (p.2 - c.2)]) hr.le
    have h2 : |p.2 - c.2| ≤ rad := abs_le_of_sq_le_sq (by nlinarith [sq_nonneg (p.1 - c.1)]) hr.le
    obtain ⟨l1, u1⟩ := abs_le.1 h1
    obtain ⟨l2, u2⟩ := abs_le.1 h2
    exact ⟨by linarith, by linarith, by linarith, by linarith⟩

example : ∃ r, circleGetBB (K := ℚ) (1/10^14) (3, 4) 2 = .ok r := ⟨⟨(1, 2), (5, 6)⟩, by decide +kernel⟩

end H2d.Props
