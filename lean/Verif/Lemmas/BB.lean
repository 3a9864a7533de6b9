import Verif.Model.BB
import Verif.Spec.Objects
import Mathlib.Tactic.Ring
import Mathlib.Tactic.Order
import Mathlib.Tactic.Linarith

set_option linter.unusedSectionVars false

namespace H2d

open H2d.Spec

/-- Strict weak order, as boolean comparison. -/
structure IsSWO {P : Type} (comp : P → P → Bool) : Prop where
  irrefl : ∀ a, comp a a = false
  trans  : ∀ a b c, comp a b = true → comp b c = true → comp a c = true
  neg    : ∀ a b c, comp a c = true → comp b c = false → comp a b = true

theorem IsSWO.asymm {P : Type} {comp : P → P → Bool} (h : IsSWO comp) {a b : P} (hab : comp a b = true) : comp b a = false := by
  by_contra hc
  have := h.trans a b a hab (by simpa using hc)
  simp [h.irrefl] at this

theorem minElemLoop_spec {P : Type} {comp : P → P → Bool} (h : IsSWO comp) :
    ∀ (xs : List P) (i : Nat) (best : P) (bi : Nat),
      ((minElemLoop comp i xs best bi = (best, bi)) ∧ ∀ q ∈ xs, comp q best = false) ∨
      ∃ j p, minElemLoop comp i xs best bi = (p, i + j) ∧ xs[j]? = some p ∧ comp p best = true ∧
        (∀ q ∈ xs, comp q p = false) ∧ ∀ (j' : Nat) q, j' < j → xs[j']? = some q → comp p q = true := by
  intro xs
  induction xs with
  | nil => intro i best bi; left; simp [minElemLoop]
  | cons x xs ih =>
    intro i best bi
    by_cases hx : comp x best = true
    · right
      simp only [minElemLoop, hx, if_true]
      rcases ih (i+1) x i with ⟨h1, h2⟩ | ⟨j, p, h1, h2, h3, h4, h5⟩
      · refine ⟨0, x, by simpa using h1, rfl, hx, ?_, by intro j' q hj; omega⟩
        intro q hq
        rcases List.mem_cons.1 hq with rfl | hq
        · exact h.irrefl _
        · exact h2 q hq
      · refine ⟨j+1, p, by rw [h1]; congr 1; omega, by simpa using h2, h.trans _ _ _ h3 hx, ?_, ?_⟩
        · intro q hq
          rcases List.mem_cons.1 hq with rfl | hq
          · exact h.asymm h3
          · exact h4 q hq
        · intro j' q hj hq
          match j' with
          | 0 => simp at hq; subst hq; exact h3
          | j'+1 => exact h5 j' q (by omega) (by simpa using hq)
    · have hx' : comp x best = false := by simpa using hx
      have hm : minElemLoop comp i (x :: xs) best bi = minElemLoop comp (i+1) xs best bi := by
        simp [minElemLoop, hx']
      rw [hm]
      rcases ih (i+1) best bi with ⟨h1, h2⟩ | ⟨j, p, h1, h2, h3, h4, h5⟩
      · left
        refine ⟨h1, ?_⟩
        intro q hq
        rcases List.mem_cons.1 hq with rfl | hq
        · exact hx'
        · exact h2 q hq
      · right
        refine ⟨j+1, p, by rw [h1]; congr 1; omega, by simpa using h2, h3, ?_, ?_⟩
        · intro q hq
          rcases List.mem_cons.1 hq with rfl | hq
          · by_contra hc
            have := h.trans _ _ _ (by simpa using hc) h3
            simp [hx'] at this
          · exact h4 q hq
        · intro j' q hj hq
          match j' with
          | 0 => simp at hq; subst hq; exact h.neg _ _ _ h3 hx'
          | j'+1 => exact h5 j' q (by omega) (by simpa using hq)

/-- Summary: the result is in the range, nothing precedes it, and it strictly precedes what is stored before it. -/
theorem minElemLoop_cons {P : Type} {comp : P → P → Bool} (h : IsSWO comp) (x : P) (xs : List P) :
    ∃ p k, minElemLoop comp 1 xs x 0 = (p, k) ∧ (x :: xs)[k]? = some p ∧ (∀ q ∈ x :: xs, comp q p = false) ∧
      ∀ (j : Nat) q, j < k → (x :: xs)[j]? = some q → comp p q = true := by
  rcases minElemLoop_spec h xs 1 x 0 with ⟨h1, h2⟩ | ⟨j, p, h1, h2, h3, h4, h5⟩
  · refine ⟨x, 0, h1, rfl, ?_, by intro j q hj; omega⟩
    intro q hq
    rcases List.mem_cons.1 hq with rfl | hq
    · exact h.irrefl _
    · exact h2 q hq
  · refine ⟨p, 1 + j, h1, by rw [Nat.add_comm]; simpa using h2, ?_, ?_⟩
    · intro q hq
      rcases List.mem_cons.1 hq with rfl | hq
      · exact h.asymm h3
      · exact h4 q hq
    · intro j' q hj hq
      match j' with
      | 0 => simp at hq; subst hq; exact h3
      | j'+1 => exact h5 j' q (by omega) (by simpa using hq)

theorem maxElemLoop_spec {P : Type} {comp : P → P → Bool} (h : IsSWO comp) :
    ∀ (xs : List P) (best : P), maxElemLoop comp xs best ∈ best :: xs ∧
      ∀ q ∈ best :: xs, comp (maxElemLoop comp xs best) q = false := by
  intro xs
  induction xs with
  | nil => intro best; simp [maxElemLoop, h.irrefl]
  | cons x xs ih =>
    intro best
    by_cases hx : comp x best = true
    · have hm : maxElemLoop comp (x :: xs) best = maxElemLoop comp xs best := by simp [maxElemLoop, hx]
      rw [hm]
      obtain ⟨h1, h2⟩ := ih best
      refine ⟨by rcases List.mem_cons.1 h1 with h | h <;> simp [h], ?_⟩
      intro q hq
      simp only [List.mem_cons] at hq
      rcases hq with rfl | rfl | hq
      · exact h2 _ (by simp)
      · by_contra hc
        have := h.trans _ _ _ (by simpa using hc) hx
        simp [h2 best (by simp)] at this
      · exact h2 q (by simp [hq])
    · have hx' : comp x best = false := by simpa using hx
      have hm : maxElemLoop comp (x :: xs) best = maxElemLoop comp xs x := by simp [maxElemLoop, hx']
      rw [hm]
      obtain ⟨h1, h2⟩ := ih x
      refine ⟨List.mem_cons_of_mem _ h1, ?_⟩
      intro q hq
      rcases List.mem_cons.1 hq with rfl | hq
      · by_contra hc
        have := h.neg _ _ _ (by simpa using hc) hx'
        simp [h2 x (by simp)] at this
      · exact h2 q hq

theorem extremeComp_iff {K : Type} [LinearOrder K] (dir : CardDir) (a b : Pt K) :
    extremeComp dir a b = true ↔ (match dir with
      | .top => Above a b | .bottom => Below a b | .left => LeftOf a b | .right => RightOf a b) := by
  cases dir <;> simp only [extremeComp, Above, Below, LeftOf, RightOf] <;> split_ifs <;> simp <;> grind

theorem extremeComp_swo {K : Type} [LinearOrder K] (dir : CardDir) : IsSWO (extremeComp (K := K) dir) := by
  refine ⟨?_, ?_, ?_⟩
  · intro a; cases dir <;> simp [extremeComp]
  · intro a b c h1 h2
    rw [extremeComp_iff] at h1 h2 ⊢
    cases dir <;> simp only [Above, Below, LeftOf, RightOf] at * <;> grind
  · intro a b c h1 h2
    rw [extremeComp_iff] at h1 ⊢
    rw [← Bool.not_eq_true, extremeComp_iff] at h2
    cases dir <;> simp only [Above, Below, LeftOf, RightOf] at * <;> grind

theorem coordComp_swo {P K : Type} [LinearOrder K] (f : P → K) : IsSWO (fun a b : P => decide (f a < f b)) := by
  refine ⟨by simp, ?_, ?_⟩
  · intro a b c h1 h2; simp at *; exact h1.trans h2
  · intro a b c h1 h2; simp at *; exact lt_of_lt_of_le h1 h2

variable {K : Type} [Field K] [LinearOrder K]

/-- The two corners computed by `getBB_Points`. -/
theorem getBB_Points_eq (th : Thr K) (pts : List (Pt K)) (hne : pts ≠ []) :
    ∃ lo hi : Pt K, IsTightBox (· ∈ pts) lo hi ∧
      getBB_Points th pts = (if samePt th.nullDistance lo hi then .throw
        else if shareCommonCoord th.nullOrthogDistance lo hi then .throw else .ok (lo, hi)) := by
  match pts, hne with
  | x :: xs, _ =>
    obtain ⟨px, kx, hpx, hpx1, hpx2, -⟩ := minElemLoop_cons (coordComp_swo (fun p : Pt K => p.1)) x xs
    obtain ⟨py, ky, hpy, hpy1, hpy2, -⟩ := minElemLoop_cons (coordComp_swo (fun p : Pt K => p.2)) x xs
    obtain ⟨hmx1, hmx2⟩ := maxElemLoop_spec (coordComp_swo (fun p : Pt K => p.1)) xs x
    obtain ⟨hmy1, hmy2⟩ := maxElemLoop_spec (coordComp_swo (fun p : Pt K => p.2)) xs x
    refine ⟨(px.1, py.2), ((maxElemLoop (fun a b : Pt K => decide (a.1 < b.1)) xs x).1,
      (maxElemLoop (fun a b : Pt K => decide (a.2 < b.2)) xs x).2), ?_, ?_⟩
    · refine ⟨?_, ⟨px, List.mem_iff_getElem?.2 ⟨_, hpx1⟩, rfl⟩, ⟨_, hmx1, rfl⟩, ⟨py, List.mem_iff_getElem?.2 ⟨_, hpy1⟩, rfl⟩, ⟨_, hmy1, rfl⟩⟩
      intro p hp
      refine ⟨?_, ?_, ?_, ?_⟩
      · simpa using hpx2 p hp
      · simpa using hmx2 p hp
      · simpa using hpy2 p hp
      · simpa using hmy2 p hp
    · simp only [getBB_Points, hpx, hpy]

end H2d

namespace H2d

open H2d.Spec

variable {K : Type} [Field K] [LinearOrder K]

theorem ofPts_of_le (t : K) (lo hi : Pt K) (h1 : lo.1 ≤ hi.1) (h2 : lo.2 ≤ hi.2) (hs : shareCommonCoord t lo hi = false) :
    FRect.ofPts t lo hi = .ok ⟨lo, hi⟩ := by
  simp [FRect.ofPts, getCorrectPoints, hs, h1, h2]

omit [Field K] in
theorem IsTightBox.le {S : Pt K → Prop} {lo hi : Pt K} (h : IsTightBox S lo hi) : lo.1 ≤ hi.1 ∧ lo.2 ≤ hi.2 := by
  obtain ⟨p, hp, -⟩ := h.left
  obtain ⟨h1, h2, h3, h4⟩ := h.contains p hp
  exact ⟨h1.trans h2, h3.trans h4⟩

/-- `getBB_Points` followed by the construction of the rectangle. -/
theorem getBB_Points_rect (th : Thr K) (pts : List (Pt K)) (hne : pts ≠ []) :
    ∃ lo hi : Pt K, IsTightBox (· ∈ pts) lo hi ∧
      (do let (a, b) ← getBB_Points th pts
          FRect.ofPts th.nullOrthogDistance a b) =
      (if samePt th.nullDistance lo hi || shareCommonCoord th.nullOrthogDistance lo hi then .throw else .ok ⟨lo, hi⟩) := by
  obtain ⟨lo, hi, hT, he⟩ := getBB_Points_eq th pts hne
  refine ⟨lo, hi, hT, ?_⟩
  rw [he]
  by_cases h1 : samePt th.nullDistance lo hi = true
  · simp [h1]
  · by_cases h2 : shareCommonCoord th.nullOrthogDistance lo hi = true
    · simp [h1, h2]
    · have h2' : shareCommonCoord th.nullOrthogDistance lo hi = false := by simpa using h2
      simp [h1, h2', ofPts_of_le _ _ _ (IsTightBox.le hT).1 (IsTightBox.le hT).2 h2']

end H2d

namespace H2d

open H2d.Spec

variable {K : Type} [Field K] [LinearOrder K]

theorem samePt_iff (t : K) (p q : Pt K) : samePt t p q = true ↔ sqDist p q < t * t := by simp [samePt]

theorem share_iff (t : K) (p q : Pt K) : shareCommonCoord t p q = true ↔ |p.1 - q.1| < t ∨ |p.2 - q.2| < t := by
  simp [shareCommonCoord]

/-- `getBB` of two pairs does not depend on their order. -/
theorem getBB_pairs_comm (th : Thr K) (a b : Pt K × Pt K) : getBB_pairs th a b = getBB_pairs th b a := by
  obtain ⟨lo, hi, hT, he⟩ := getBB_Points_rect th [a.1, b.1, a.2, b.2] (by simp)
  obtain ⟨lo', hi', hT', he'⟩ := getBB_Points_rect th [b.1, a.1, b.2, a.2] (by simp)
  have hS : (fun x => x ∈ [a.1, b.1, a.2, b.2]) = (fun x => x ∈ [b.1, a.1, b.2, a.2]) := by
    funext x; simp only [List.mem_cons, List.not_mem_nil, or_false, eq_iff_iff]; tauto
  rw [hS] at hT
  obtain ⟨rfl, rfl⟩ := IsTightBox.unique hT hT'
  simp only [getBB_pairs]
  rw [he, he']

theorem commonTypeLoop_eq (th : Thr K) : ∀ (v : List (Obj K)) (pp : Pt K × Pt K), (∀ e ∈ v, ∃ q, getPointPair th e = .ok q) →
    ∀ p, p ∈ commonTypeLoop th v pp ↔ ∃ e ∈ v, ∃ q, getPointPair th e = .ok q ∧ (p = q.1 ∨ p = q.2) := by
  intro v
  induction v with
  | nil => intro pp _ p; simp [commonTypeLoop]
  | cons e es ih =>
    intro pp h p
    obtain ⟨q, hq⟩ := h e (by simp)
    have ih := ih q (fun e he => h e (by simp [he])) p
    simp only [commonTypeLoop, hq, List.mem_cons, ih]
    constructor
    · rintro (h | h | ⟨e', he', h⟩)
      · exact ⟨e, Or.inl rfl, q, hq, Or.inl h⟩
      · exact ⟨e, Or.inl rfl, q, hq, Or.inr h⟩
      · exact ⟨e', Or.inr he', h⟩
    · rintro ⟨e', rfl | he', q', hq', h⟩
      · rw [hq] at hq'; simp at hq'; subst hq'
        rcases h with h | h <;> simp [h]
      · exact Or.inr (Or.inr ⟨e', he', q', hq', h⟩)

variable [IsStrictOrderedRing K]

theorem tooFlat_iff (th : Thr K) {S : Pt K → Prop} {lo hi : Pt K} (h : IsTightBox S lo hi) :
    TooFlat th S ↔ (samePt th.nullDistance lo hi || shareCommonCoord th.nullOrthogDistance lo hi) = true := by
  obtain ⟨a, ha, ha'⟩ := h.left
  obtain ⟨b, hb, hb'⟩ := h.right
  obtain ⟨c, hc, hc'⟩ := h.bottom
  obtain ⟨d, hd, hd'⟩ := h.top
  have hx : ∀ p q, S p → S q → |p.1 - q.1| ≤ |lo.1 - hi.1| := by
    intro p q hp hq
    have := h.contains p hp; have := h.contains q hq
    rw [abs_sub_comm lo.1, abs_of_nonneg (by linarith : 0 ≤ hi.1 - lo.1), abs_le]
    constructor <;> linarith
  have hy : ∀ p q, S p → S q → |p.2 - q.2| ≤ |lo.2 - hi.2| := by
    intro p q hp hq
    have := h.contains p hp; have := h.contains q hq
    rw [abs_sub_comm lo.2, abs_of_nonneg (by linarith : 0 ≤ hi.2 - lo.2), abs_le]
    constructor <;> linarith
  simp only [samePt_iff, share_iff, sqDist, Bool.or_eq_true]
  constructor
  · rintro (h1 | h1 | h1)
    · right; left; rw [← ha', ← hb']; exact h1 a b ha hb
    · right; right; rw [← hc', ← hd']; exact h1 c d hc hd
    · left; rw [← ha', ← hb', ← hc', ← hd']; exact h1 a b c d ha hb hc hd
  · rintro (h1 | h1 | h1)
    · right; right; intro p q r s hp hq hr hs
      have e1 : (p.1 - q.1) * (p.1 - q.1) ≤ (lo.1 - hi.1) * (lo.1 - hi.1) := by
        rw [← abs_mul_abs_self (p.1 - q.1), ← abs_mul_abs_self (lo.1 - hi.1)]
        exact mul_self_le_mul_self (abs_nonneg _) (hx p q hp hq)
      have e2 : (r.2 - s.2) * (r.2 - s.2) ≤ (lo.2 - hi.2) * (lo.2 - hi.2) := by
        rw [← abs_mul_abs_self (r.2 - s.2), ← abs_mul_abs_self (lo.2 - hi.2)]
        exact mul_self_le_mul_self (abs_nonneg _) (hy r s hr hs)
      linarith
    · left; intro p q hp hq; exact lt_of_le_of_lt (hx p q hp hq) h1
    · right; left; intro p q hp hq; exact lt_of_le_of_lt (hy p q hp hq) h1

theorem onSeg_between {a b p : Pt K} (h : OnSeg a b p) :
    min a.1 b.1 ≤ p.1 ∧ p.1 ≤ max a.1 b.1 ∧ min a.2 b.2 ≤ p.2 ∧ p.2 ≤ max a.2 b.2 := by
  obtain ⟨s, h0, h1, rfl⟩ := h
  have key : ∀ u v : K, min u v ≤ u + s * (v - u) ∧ u + s * (v - u) ≤ max u v := by
    intro u v
    rcases le_total u v with h | h
    · simp only [min_eq_left h, max_eq_right h]
      constructor <;> nlinarith
    · simp only [min_eq_right h, max_eq_left h]
      constructor <;> nlinarith
  exact ⟨(key _ _).1, (key _ _).2, (key _ _).1, (key _ _).2⟩

theorem onSeg_left (a b : Pt K) : OnSeg a b a := ⟨0, le_refl _, zero_le_one, by simp⟩
theorem onSeg_right (a b : Pt K) : OnSeg a b b := ⟨1, zero_le_one, le_refl _, by simp⟩

/-- The pair of points of an object is a pair of opposite corners of the tight box of its extent. -/
theorem pointPair_spec (th : Thr K) (e : Obj K) (hv : Valid e) (a b : Pt K) (h : getPointPair th e = .ok (a, b)) :
    IsTightBox (Extent e) (min a.1 b.1, min a.2 b.2) (max a.1 b.1, max a.2 b.2) := by
  have mk : ∀ S : Pt K → Prop, S a → S b →
      (∀ p, S p → min a.1 b.1 ≤ p.1 ∧ p.1 ≤ max a.1 b.1 ∧ min a.2 b.2 ≤ p.2 ∧ p.2 ≤ max a.2 b.2) →
      IsTightBox S (min a.1 b.1, min a.2 b.2) (max a.1 b.1, max a.2 b.2) := by
    intro S ha hb hc
    refine ⟨hc, ?_, ?_, ?_, ?_⟩
    · rcases le_total a.1 b.1 with h | h
      · exact ⟨a, ha, by simp [h]⟩
      · exact ⟨b, hb, by simp [h]⟩
    · rcases le_total a.1 b.1 with h | h
      · exact ⟨b, hb, by simp [h]⟩
      · exact ⟨a, ha, by simp [h]⟩
    · rcases le_total a.2 b.2 with h | h
      · exact ⟨a, ha, by simp [h]⟩
      · exact ⟨b, hb, by simp [h]⟩
    · rcases le_total a.2 b.2 with h | h
      · exact ⟨b, hb, by simp [h]⟩
      · exact ⟨a, ha, by simp [h]⟩
  have tight : ∀ S : Pt K → Prop, IsTightBox S a b →
      IsTightBox S (min a.1 b.1, min a.2 b.2) (max a.1 b.1, max a.2 b.2) := by
    intro S hT
    have := IsTightBox.le hT
    simpa [this.1, this.2] using hT
  cases e with
  | rect r =>
    simp [getPointPair] at h
    obtain ⟨rfl, rfl⟩ := h
    obtain ⟨v1, v2⟩ := hv
    apply mk
    · exact ⟨le_refl _, v1, le_refl _, v2⟩
    · exact ⟨v1, le_refl _, v2, le_refl _⟩
    · intro p hp
      simpa [v1, v2, Extent] using hp
  | circle c rad =>
    simp only [Valid] at hv
    have hr : (c.1 - rad) ≤ c.1 + rad := by linarith
    have hr2 : (c.2 - rad) ≤ c.2 + rad := by linarith
    simp only [getPointPair, circleGetBB, FRect.ofPts, getCorrectPoints] at h
    split_ifs at h
    · simp at h
    · simp [hr, hr2] at h
      obtain ⟨rfl, rfl⟩ := h
      apply tight
      have bnd : ∀ p : Pt K, Extent (.circle c rad) p → |p.1 - c.1| ≤ rad ∧ |p.2 - c.2| ≤ rad := by
        intro p hp
        simp only [Extent] at hp
        constructor
        · exact abs_le_of_sq_le_sq (by nlinarith [sq_nonneg (p.2 - c.2)]) hv
        · exact abs_le_of_sq_le_sq (by nlinarith [sq_nonneg (p.1 - c.1)]) hv
      refine ⟨?_, ⟨(c.1 - rad, c.2), ?_, rfl⟩, ⟨(c.1 + rad, c.2), ?_, rfl⟩, ⟨(c.1, c.2 - rad), ?_, rfl⟩, ⟨(c.1, c.2 + rad), ?_, rfl⟩⟩
      · intro p hp
        obtain ⟨b1, b2⟩ := bnd p hp
        rw [abs_le] at b1 b2
        refine ⟨?_, ?_, ?_, ?_⟩ <;> simp only <;> linarith [b1.1, b1.2, b2.1, b2.2]
      all_goals simp [Extent]
  | point q =>
    simp [getPointPair] at h
    obtain ⟨rfl, rfl⟩ := h
    apply mk <;> simp [Extent]
  | seg u v =>
    simp [getPointPair] at h
    obtain ⟨rfl, rfl⟩ := h
    exact mk _ (onSeg_left _ _) (onSeg_right _ _) (fun p hp => onSeg_between hp)
  | poly closed pts =>
    have lift : ∀ lo hi : Pt K, IsTightBox (· ∈ pts) lo hi → IsTightBox (Extent (.poly closed pts)) lo hi := by
      intro lo hi hT
      refine ⟨?_, ?_, ?_, ?_, ?_⟩
      · rintro p (hp | ⟨u, v, huv, hp⟩)
        · exact hT.contains p hp
        · have hu : u ∈ pts := (List.of_mem_zip huv).1
          have hv' : v ∈ pts := by
            have := (List.of_mem_zip huv).2
            rcases List.mem_append.1 this with h | h
            · exact List.mem_of_mem_tail h
            · cases closed <;> simp at h
              exact List.mem_of_head? h
          have a1 := hT.contains u hu
          have a2 := hT.contains v hv'
          have a3 := onSeg_between hp
          refine ⟨(le_min a1.1 a2.1).trans a3.1, a3.2.1.trans (max_le a1.2.1 a2.2.1), (le_min a1.2.2.1 a2.2.2.1).trans a3.2.2.1,
            a3.2.2.2.trans (max_le a1.2.2.2 a2.2.2.2)⟩
      · obtain ⟨p, hp, e⟩ := hT.left; exact ⟨p, Or.inl hp, e⟩
      · obtain ⟨p, hp, e⟩ := hT.right; exact ⟨p, Or.inl hp, e⟩
      · obtain ⟨p, hp, e⟩ := hT.bottom; exact ⟨p, Or.inl hp, e⟩
      · obtain ⟨p, hp, e⟩ := hT.top; exact ⟨p, Or.inl hp, e⟩
    apply lift
    have gen : pts ≠ [] → getBB_Points th pts = .ok (a, b) →
        IsTightBox (· ∈ pts) (min a.1 b.1, min a.2 b.2) (max a.1 b.1, max a.2 b.2) := by
      intro hne hg
      obtain ⟨lo, hi, hT, he⟩ := getBB_Points_eq th pts hne
      rw [he] at hg
      split_ifs at hg
      simp at hg
      obtain ⟨rfl, rfl⟩ := hg
      exact tight _ hT
    match pts, h with
    | [], h => simp [getPointPair] at h
    | [u], h => exact gen (by simp) h
    | [u, v], h =>
      simp [getPointPair] at h
      obtain ⟨rfl, rfl⟩ := h
      apply mk <;> simp
    | u :: v :: w :: l, h => exact gen (by simp) h
  | line => simp [getPointPair] at h

/-- The tight box of the corners of the tight boxes of some sets is the tight box of their union. -/
theorem tight_union {α : Type} {I : List α} {f : α → Pt K × Pt K} {S : α → Pt K → Prop} {pts : List (Pt K)} {lo hi : Pt K}
    (hS : ∀ i ∈ I, IsTightBox (S i) (min (f i).1.1 (f i).2.1, min (f i).1.2 (f i).2.2) (max (f i).1.1 (f i).2.1, max (f i).1.2 (f i).2.2))
    (hp : ∀ p, p ∈ pts ↔ ∃ i ∈ I, p = (f i).1 ∨ p = (f i).2) (hT : IsTightBox (· ∈ pts) lo hi) :
    IsTightBox (fun p => ∃ i ∈ I, S i p) lo hi := by
  have lift : ∀ p, p ∈ pts → (∃ p', (∃ e ∈ I, S e p') ∧ p'.1 = p.1) ∧ (∃ p', (∃ e ∈ I, S e p') ∧ p'.2 = p.2) := by
    intro p hp'
    obtain ⟨e, hev, hpq⟩ := (hp p).1 hp'
    have hs := hS e hev
    obtain ⟨l, hl, hl'⟩ := hs.left
    obtain ⟨r, hr, hr'⟩ := hs.right
    obtain ⟨d, hd, hd'⟩ := hs.bottom
    obtain ⟨u, hu, hu'⟩ := hs.top
    simp only at hl' hr' hd' hu'
    constructor
    · rcases le_total (f e).1.1 (f e).2.1 with h | h <;> rcases hpq with rfl | rfl
      · exact ⟨l, ⟨e, hev, hl⟩, by simpa [h] using hl'⟩
      · exact ⟨r, ⟨e, hev, hr⟩, by simpa [h] using hr'⟩
      · exact ⟨r, ⟨e, hev, hr⟩, by simpa [h] using hr'⟩
      · exact ⟨l, ⟨e, hev, hl⟩, by simpa [h] using hl'⟩
    · rcases le_total (f e).1.2 (f e).2.2 with h | h <;> rcases hpq with rfl | rfl
      · exact ⟨d, ⟨e, hev, hd⟩, by simpa [h] using hd'⟩
      · exact ⟨u, ⟨e, hev, hu⟩, by simpa [h] using hu'⟩
      · exact ⟨u, ⟨e, hev, hu⟩, by simpa [h] using hu'⟩
      · exact ⟨d, ⟨e, hev, hd⟩, by simpa [h] using hd'⟩
  refine ⟨?_, ?_, ?_, ?_, ?_⟩
  · rintro p ⟨e, hev, hpe⟩
    have ha := hT.contains _ ((hp _).2 ⟨e, hev, Or.inl rfl⟩)
    have hb := hT.contains _ ((hp _).2 ⟨e, hev, Or.inr rfl⟩)
    have hc := (hS e hev).contains p hpe
    exact ⟨(le_min ha.1 hb.1).trans hc.1, hc.2.1.trans (max_le ha.2.1 hb.2.1), (le_min ha.2.2.1 hb.2.2.1).trans hc.2.2.1,
      hc.2.2.2.trans (max_le ha.2.2.2 hb.2.2.2)⟩
  · obtain ⟨p, hp, e⟩ := hT.left; rw [← e]; exact (lift p hp).1
  · obtain ⟨p, hp, e⟩ := hT.right; rw [← e]; exact (lift p hp).1
  · obtain ⟨p, hp, e⟩ := hT.bottom; rw [← e]; exact (lift p hp).2
  · obtain ⟨p, hp, e⟩ := hT.top; rw [← e]; exact (lift p hp).2

/-- Outcome of the box of a list of points that come from pairs. -/
theorem bb_outcome (th : Thr K) {S : Pt K → Prop} {pts : List (Pt K)} (hne : pts ≠ [])
    (hS : ∀ lo hi, IsTightBox (· ∈ pts) lo hi → IsTightBox S lo hi) {x : Res (FRect K)}
    (hx : x = (do
      let (a, b) ← getBB_Points th pts
      FRect.ofPts th.nullOrthogDistance a b)) :
    (x = .throw ↔ TooFlat th S) ∧ x ≠ .ub ∧ ∀ r, x = .ok r → IsTightBox S r.p1 r.p2 := by
  obtain ⟨lo, hi, hT, he⟩ := getBB_Points_rect th pts hne
  rw [hx, he, tooFlat_iff th (hS lo hi hT)]
  by_cases hc : (samePt th.nullDistance lo hi || shareCommonCoord th.nullOrthogDistance lo hi) = true
  · simp [hc]
  · simp only [hc]
    refine ⟨by simp, by simp, ?_⟩
    intro r hr
    simp at hr
    rw [← hr]; exact hS lo hi hT

/-- A bounding box that could be computed is the tight box of the extent. -/
theorem objGetBB_spec (th : Thr K) (e : Obj K) (hv : Valid e) (r : FRect K) (h : objGetBB th e = .ok r) : IsTightBox (Extent e) r.p1 r.p2 := by
  have key : ∀ a b : Pt K, a.1 ≤ b.1 → a.2 ≤ b.2 → getPointPair th e = .ok (a, b) → IsTightBox (Extent e) a b := by
    intro a b h1 h2 hq
    have := pointPair_spec th e hv a b hq
    rwa [min_eq_left h1, min_eq_left h2, max_eq_right h1, max_eq_right h2] at this
  cases e with
  | rect r' =>
    simp only [objGetBB, Res.ok.injEq] at h
    subst h
    exact key _ _ hv.1 hv.2 rfl
  | circle c rad =>
    simp only [objGetBB] at h
    have hq : getPointPair th (.circle c rad) = .ok (r.p1, r.p2) := by simp [getPointPair, h]
    have hle : r.p1.1 ≤ r.p2.1 ∧ r.p1.2 ≤ r.p2.2 := by
      simp only [circleGetBB, FRect.ofPts, getCorrectPoints] at h
      split_ifs at h
      · simp at h
      · simp at h
        rw [← h]
        exact ⟨min_le_max, min_le_max⟩
    exact key _ _ hle.1 hle.2 hq
  | poly closed pts =>
    simp only [objGetBB, polyGetBB] at h
    split_ifs at h with hl
    have hne : pts ≠ [] := by rintro rfl; simp at hl
    obtain ⟨lo, hi, hT, he⟩ := getBB_Points_eq th pts hne
    rw [he] at h
    by_cases h1 : samePt th.nullDistance lo hi = true
    · simp [h1] at h
    · by_cases h2 : shareCommonCoord th.nullOrthogDistance lo hi = true
      · simp [h1, h2] at h
      · have h2' : shareCommonCoord th.nullOrthogDistance lo hi = false := by simpa using h2
        have hle := IsTightBox.le hT
        simp [h1, h2', ofPts_of_le _ _ _ hle.1 hle.2 h2'] at h
        subst h
        match pts, hl, he, hT with
        | [], hl, _, _ => simp at hl
        | [_], hl, _, _ => simp at hl
        | [u, v], _, _, hT =>
          have := pointPair_spec th (.poly closed [u, v]) trivial u v rfl
          have hT2 : IsTightBox (· ∈ [u, v]) (min u.1 v.1, min u.2 v.2) (max u.1 v.1, max u.2 v.2) := by
            refine ⟨?_, ?_, ?_, ?_, ?_⟩
            · intro p hp
              simp only [List.mem_cons, List.not_mem_nil, or_false] at hp
              rcases hp with rfl | rfl <;> simp
            · rcases le_total u.1 v.1 with h | h
              · exact ⟨u, by simp, by simp [h]⟩
              · exact ⟨v, by simp, by simp [h]⟩
            · rcases le_total u.1 v.1 with h | h
              · exact ⟨v, by simp, by simp [h]⟩
              · exact ⟨u, by simp, by simp [h]⟩
            · rcases le_total u.2 v.2 with h | h
              · exact ⟨u, by simp, by simp [h]⟩
              · exact ⟨v, by simp, by simp [h]⟩
            · rcases le_total u.2 v.2 with h | h
              · exact ⟨v, by simp, by simp [h]⟩
              · exact ⟨u, by simp, by simp [h]⟩
          obtain ⟨rfl, rfl⟩ := IsTightBox.unique hT hT2
          exact this
        | u :: v :: w :: l, _, he, _ =>
          refine key _ _ hle.1 hle.2 ?_
          rw [show getPointPair th (.poly closed (u :: v :: w :: l)) = getBB_Points th (u :: v :: w :: l) from rfl, he]
          simp [h1, h2']
  | point q => simp [objGetBB] at h
  | seg a b => simp [objGetBB] at h
  | line => simp [objGetBB] at h

theorem mapRes_ok {α β : Type} {f : α → Res β} : ∀ {l : List α} {l' : List β}, mapRes f l = .ok l' →
    l.map f = l'.map Res.ok
  | [], l', h => by simp [mapRes] at h; subst h; rfl
  | a :: l, l', h => by
    unfold mapRes at h
    rcases ha : f a with b | _ | _
    · rw [ha] at h
      rcases hl : mapRes f l with m | _ | _
      · rw [hl] at h; simp at h; subst h
        rw [List.map_cons, List.map_cons, ha, mapRes_ok hl]
      · rw [hl] at h; cases h
      · rw [hl] at h; cases h
    · rw [ha] at h; cases h
    · rw [ha] at h; cases h

theorem mapRes_cases {α β : Type} {f : α → Res β} : ∀ {l : List α}, (∀ a ∈ l, f a ≠ .ub) →
    (∃ l', mapRes f l = .ok l') ∨ (mapRes f l = .throw ∧ ∃ a ∈ l, f a = .throw)
  | [], _ => Or.inl ⟨[], rfl⟩
  | a :: l, h => by
    unfold mapRes
    rcases ha : f a with b | _ | _
    · rcases mapRes_cases (fun a' h' => h a' (List.mem_cons_of_mem _ h')) with ⟨l', hl⟩ | ⟨hl, x, hx, hx'⟩
      · rw [hl]; exact Or.inl ⟨_, rfl⟩
      · rw [hl]; exact Or.inr ⟨rfl, x, List.mem_cons_of_mem _ hx, hx'⟩
    · exact Or.inr ⟨rfl, a, List.mem_cons_self, ha⟩
    · exact absurd ha (h a List.mem_cons_self)

theorem objGetBB_ne_ub (th : Thr K) (e : Obj K) : objGetBB th e ≠ .ub := by
  cases e with
  | rect r => simp [objGetBB]
  | circle c rad => simp only [objGetBB, circleGetBB, FRect.ofPts, getCorrectPoints]; split_ifs <;> simp
  | poly closed pts =>
    simp only [objGetBB, polyGetBB]
    split_ifs with hl
    · simp
    · have hne : pts ≠ [] := by rintro rfl; simp at hl
      obtain ⟨lo, hi, hT, he⟩ := getBB_Points_eq th pts hne
      rw [he]
      by_cases h1 : samePt th.nullDistance lo hi = true
      · simp [h1]
      · by_cases h2 : shareCommonCoord th.nullOrthogDistance lo hi = true
        · simp [h1, h2]
        · have h2' : shareCommonCoord th.nullOrthogDistance lo hi = false := by simpa using h2
          have hle := IsTightBox.le hT
          simp [h1, h2', ofPts_of_le _ _ _ hle.1 hle.2 h2']
  | point q => simp [objGetBB]
  | seg a b => simp [objGetBB]
  | line => simp [objGetBB]

end H2d
