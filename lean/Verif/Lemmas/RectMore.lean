import Verif.Spec.RectMore
import Verif.Lemmas.PolyInter
import Verif.Lemmas.RectArea
import Verif.Props.SegmentMore
import Verif.Props.Segment

/-! # Lemmas on rectangles and lines, circles -/

set_option linter.unusedSimpArgs false
set_option linter.unusedVariables false

namespace H2d.RectM
open H2d H2d.Spec H2d.Props

theorem sides_long {n : ℝ} {r : FRect ℝ} (hn : 0 < n) (h : LongSides n r) : ∀ e ∈ rectSides r, n ≤ eucl e.1 e.2 := by
  obtain ⟨h1, h2⟩ := h
  have v : ∀ x a b : ℝ, eucl (x, a) (x, b) = |a - b| := by
    intro x a b; rw [eucl_eq_iff (abs_nonneg _), sq_abs]; simp
  have w : ∀ y a b : ℝ, eucl (a, y) (b, y) = |a - b| := by
    intro x a b; rw [eucl_eq_iff (abs_nonneg _), sq_abs]; simp
  intro e he
  unfold rectSides at he
  simp only [List.mem_cons, List.not_mem_nil, or_false] at he
  rcases he with rfl | rfl | rfl | rfl
  · simp only [v]; rw [abs_sub_comm]; exact le_trans (by linarith) (le_abs_self _)
  · simp only [w]; rw [abs_sub_comm]; exact le_trans (by linarith) (le_abs_self _)
  · simp only [v]; exact le_trans (by linarith) (le_abs_self _)
  · simp only [w]; exact le_trans (by linarith) (le_abs_self _)

theorem sides_good {t : Thr ℝ} (hd : t.nullDenom ≤ 1) {r : FRect ℝ} (hn : 0 < t.nullDistance) (h : LongSides t.nullDistance r) : ∀ e ∈ rectSides r, GoodSeg t e :=
  fun e he => ⟨sides_long hn h e he, Inside.rectSides_slope hd he⟩

theorem onRect_iff {r : FRect ℝ} (h : r.p1.1 < r.p2.1 ∧ r.p1.2 < r.p2.2) (q : Pt ℝ) : OnRect r q ↔ ∃ e ∈ rectSides r, OnSeg e.1 e.2 q := by
  obtain ⟨h1, h2⟩ := h
  have vert : ∀ x a b : ℝ, a < b → (OnSeg (x, a) (x, b) q ↔ q.1 = x ∧ a ≤ q.2 ∧ q.2 ≤ b) := by
    intro x a b hab
    constructor
    · rintro ⟨k, k0, k1, rfl⟩
      refine ⟨by simp, by simp only; nlinarith, by simp only; nlinarith⟩
    · rintro ⟨e1, e2, e3⟩
      refine ⟨(q.2 - a) / (b - a), div_nonneg (by linarith) (by linarith), by rw [div_le_one (by linarith)]; linarith, ?_⟩
      apply Prod.ext
      · simp [e1]
      · simp only; rw [div_mul_cancel₀ _ (by linarith)]; ring
  have horiz : ∀ y a b : ℝ, a < b → (OnSeg (a, y) (b, y) q ↔ q.2 = y ∧ a ≤ q.1 ∧ q.1 ≤ b) := by
    intro y a b hab
    constructor
    · rintro ⟨k, k0, k1, rfl⟩
      refine ⟨by simp, by simp only; nlinarith, by simp only; nlinarith⟩
    · rintro ⟨e1, e2, e3⟩
      refine ⟨(q.1 - a) / (b - a), div_nonneg (by linarith) (by linarith), by rw [div_le_one (by linarith)]; linarith, ?_⟩
      apply Prod.ext
      · simp only; rw [div_mul_cancel₀ _ (by linarith)]; ring
      · simp [e1]
  have c1 : OnSeg (r.p2.1, r.p2.2) (r.p2.1, r.p1.2) q ↔ OnSeg (r.p2.1, r.p1.2) (r.p2.1, r.p2.2) q := ⟨Inside.onSeg_comm, Inside.onSeg_comm⟩
  have c2 : OnSeg (r.p2.1, r.p1.2) (r.p1.1, r.p1.2) q ↔ OnSeg (r.p1.1, r.p1.2) (r.p2.1, r.p1.2) q := ⟨Inside.onSeg_comm, Inside.onSeg_comm⟩
  unfold rectSides OnRect OnVert OnHoriz
  simp only [List.mem_cons, List.not_mem_nil, or_false, exists_eq_or_imp, exists_eq_left]
  rw [c1, c2, vert _ _ _ h2, vert _ _ _ h2, horiz _ _ _ h1, horiz _ _ _ h1]
  tauto

theorem lineSegAngle_fix (l : V3 ℝ) (e : Seg) : lineSegAngle l (fixOrder e.1 e.2) = lineSegAngle l e := by
  rcases Pip.fixOrder_cases e.1 e.2 with hx | hx <;> rw [hx]
  unfold lineSegAngle
  simp only [Prod.swap]
  rw [eucl_comm e.2 e.1, show l 1 * (e.1.1 - e.2.1) - l 0 * (e.1.2 - e.2.2) = -(l 1 * (e.2.1 - e.1.1) - l 0 * (e.2.2 - e.1.2)) by ring, abs_neg]

theorem fix_ends (e : Seg) : ((fixOrder e.1 e.2).1 = e.1 ∧ (fixOrder e.1 e.2).2 = e.2) ∨ ((fixOrder e.1 e.2).1 = e.2 ∧ (fixOrder e.1 e.2).2 = e.1) := by
  rcases Pip.fixOrder_cases e.1 e.2 with hx | hx <;> rw [hx]
  · left; exact ⟨rfl, rfl⟩
  · right; exact ⟨rfl, rfl⟩

/-- Answer for a point of the supporting line of a segment. -/
theorem segLine_at {t : Thr ℝ} (h1 : dblEps < t.nullDistance) (h2 : 0 < t.nullAngleValue) {s : Seg} (hs : GoodSeg t s) {l : V3 ℝ} (hl : UnitNormal l)
    (ha : t.nullAngleValue ≤ lineSegAngle l s) {k : ℝ} (hk : On l (along s k)) (hk1 : - t.nullDistance < 2 * (k * eucl s.1 s.2))
    (hk2 : 2 * ((k - 1) * eucl s.1 s.2) < t.nullDistance) : segLineInter t s l = .ok (some (along s k)) := by
  have hp := dblEps_pos
  have hd : 0 < eucl s.1 s.2 := by linarith [hs.1]
  have hn : s.1 ≠ s.2 := by intro h; rw [h, eucl_self] at hd; exact lt_irrefl _ hd
  obtain ⟨m, e1, e2, -, e3⟩ := segLine_spec h1 hs.1
  obtain ⟨a1, a2⟩ := e3 hs.2
  have hpar := lineSegAngle_eq hl e2.1 hd a1 a2
  unfold segLineInter
  rw [show segLine t s = .ok m from e1, Res.bind_ok]
  have hnp : ¬ IsParallel t l m := by rw [IsParallel, hpar]; exact not_lt.2 ha
  rw [if_neg hnp]
  obtain ⟨c1, c2, c3, c4⟩ := lineInter_spec h2 hl e2.1 hnp
  have hq := c4 _ hk (on_along a1 a2 k)
  rw [c1, Res.bind_ok]
  simp only [← hq, sum_test hd]
  rw [if_pos ⟨by linarith, hk1, hk2⟩]; rfl

/-- A point reported for a segment and a line is on the segment when the ends are far from the line. -/
theorem segLine_exact {t : Thr ℝ} (h1 : dblEps < t.nullDistance) (h2 : 0 < t.nullAngleValue) {s : Seg} (hs : GoodSeg t s) {l : V3 ℝ} (hl : UnitNormal l)
    (hang : ∀ q, OnSeg s.1 s.2 q → On l q → t.nullAngleValue ≤ lineSegAngle l s)
    (hf1 : ∀ q, On l q → t.nullDistance ≤ eucl s.1 q) (hf2 : ∀ q, On l q → t.nullDistance ≤ eucl s.2 q) :
    ∃ i, segLineInter t s l = .ok i ∧ ∀ q, i = some q ↔ OnSeg s.1 s.2 q ∧ On l q := by
  have hp := dblEps_pos
  have hd : 0 < eucl s.1 s.2 := by linarith [hs.1]
  obtain ⟨i, hi⟩ := Inside.segLineInter_ok h1 h2 hs hl
  obtain ⟨p1, p2⟩ := C69_line_partial t h1 h2 s hs l hl
  refine ⟨i, hi, fun q => ⟨?_, ?_⟩⟩
  · rintro rfl
    have ha : t.nullAngleValue ≤ lineSegAngle l s := by
      by_contra hc
      rw [p1 (not_le.1 hc)] at hi
      cases hi
    obtain ⟨m1, ⟨k, rfl⟩, q', ⟨j, j0, j1, rfl⟩, m3⟩ := (p2 ha).1 _ hi
    refine ⟨?_, m1⟩
    have e1 := hf1 _ m1
    have e2 := hf2 _ m1
    have m3' : |k - j| * eucl s.1 s.2 < t.nullDistance / 2 := by rw [← eucl_along]; exact m3
    rw [eucl_along_left] at e1
    rw [eucl_along_right] at e2
    refine ⟨k, ?_, ?_, rfl⟩
    · by_contra hc
      rw [not_le] at hc
      rw [abs_of_neg hc] at e1
      rw [abs_of_nonpos (by linarith)] at m3'
      nlinarith
    · by_contra hc
      rw [not_le] at hc
      rw [abs_of_neg (by linarith : 1 - k < 0)] at e2
      rw [abs_of_nonneg (by linarith)] at m3'
      nlinarith
  · rintro ⟨a, b⟩
    have := (p2 (hang q a b)).2 q a b
    rw [this] at hi
    cases hi
    rfl

/-- The loop when nothing is dropped and there are at most two points. -/
theorem loop_all {t : Thr ℝ} {l : V3 ℝ} (hit : Seg → Option (Pt ℝ)) : ∀ (L : List Seg) (out : List (Pt ℝ)),
    (∀ s ∈ L, segLineInter t s l = .ok (hit s)) → (∀ s ∈ L, ∀ p, hit s = some p → ¬ PtEq t p s.1 ∧ ¬ PtEq t p s.2) →
    out.length < 2 → out.length + (L.filterMap hit).length ≤ 2 → rectLineLoop t l L out = .ok (out ++ L.filterMap hit) := by
  intro L
  induction L with
  | nil => intro out _ _ _ _; simp [rectLineLoop]
  | cons s L ih =>
    intro out h1 h2 h0 h3
    unfold rectLineLoop
    rw [h1 s List.mem_cons_self, Res.bind_ok]
    cases hh : hit s with
    | none =>
      simp only
      rw [List.filterMap_cons_none hh] at h3 ⊢
      exact ih out (fun s' hs' => h1 s' (List.mem_cons_of_mem _ hs')) (fun s' hs' => h2 s' (List.mem_cons_of_mem _ hs')) h0 h3
    | some p =>
      obtain ⟨n1, n2⟩ := h2 s List.mem_cons_self p hh
      rw [List.filterMap_cons_some hh] at h3 ⊢
      rw [List.length_cons] at h3
      have fin : (if (out ++ [p]).length = 2 then (pure (out ++ [p]) : Res (List (Pt ℝ))) else rectLineLoop t l L (out ++ [p])) = .ok (out ++ p :: L.filterMap hit) := by
        rw [List.length_append, List.length_singleton]
        split_ifs with hc
        · have : (L.filterMap hit) = [] := List.eq_nil_of_length_eq_zero (by omega)
          rw [this]; rfl
        · rw [ih (out ++ [p]) (fun s' hs' => h1 s' (List.mem_cons_of_mem _ hs')) (fun s' hs' => h2 s' (List.mem_cons_of_mem _ hs'))
            (by rw [List.length_append, List.length_singleton]; omega) (by rw [List.length_append, List.length_singleton]; omega)]
          simp
      match out, h0, fin with
      | [], _, fin => exact fin
      | [q], _, fin =>
        simp only
        rw [if_neg (show ¬ ((PtEq t p s.1 ∨ PtEq t p s.2) ∧ PtEq t q p) by tauto)]
        exact fin
      | _ :: _ :: _, h0, _ => simp at h0

/-- Value of the equation of the line at a point. -/
def lv (l : V3 ℝ) (p : Pt ℝ) : ℝ := l 0 * p.1 + l 1 * p.2 + l 2

theorem on_iff_lv (l : V3 ℝ) (p : Pt ℝ) : On l p ↔ lv l p = 0 := Iff.rfl

theorem lv_signs {l : V3 ℝ} {a b q : Pt ℝ} (ha : ¬ On l a) (hb : ¬ On l b) (hq : OnSeg a b q) (ho : On l q) : lv l a * lv l b < 0 := by
  obtain ⟨k, k0, k1, rfl⟩ := hq
  rw [on_iff_lv] at ha hb ho
  have e : (1 - k) * lv l a + k * lv l b = 0 := by rw [← ho]; unfold lv; simp only; ring
  rcases lt_or_gt_of_ne ha with h | h <;> rcases lt_or_gt_of_ne hb with h' | h'
  · exfalso; nlinarith [mul_nonneg (sub_nonneg.2 k1) (neg_nonneg.2 h.le), mul_nonneg k0 (neg_nonneg.2 h'.le), mul_nonneg (sub_nonneg.2 k1) k0]
  · exact mul_neg_of_neg_of_pos h h'
  · exact mul_neg_of_pos_of_neg h h'
  · exfalso; nlinarith [mul_nonneg (sub_nonneg.2 k1) h.le, mul_nonneg k0 h'.le, mul_nonneg (sub_nonneg.2 k1) k0]

theorem lv_hit {l : V3 ℝ} {a b : Pt ℝ} (h : lv l a * lv l b < 0) : ∃ q, OnSeg a b q ∧ On l q := by
  have hne : lv l a - lv l b ≠ 0 := by
    intro hc
    have : lv l a = lv l b := by linarith
    rw [this] at h
    nlinarith [mul_self_nonneg (lv l b)]
  have h0 : 0 ≤ lv l a / (lv l a - lv l b) ∧ lv l a / (lv l a - lv l b) ≤ 1 := by
    rcases lt_or_gt_of_ne hne with hc | hc
    · have ha : lv l a < 0 := by by_contra hx; nlinarith
      have hb : 0 < lv l b := by by_contra hx; nlinarith
      exact ⟨div_nonneg_of_nonpos ha.le hc.le, by rw [div_le_one_of_neg hc]; linarith⟩
    · have ha : 0 < lv l a := by by_contra hx; nlinarith
      have hb : lv l b < 0 := by by_contra hx; nlinarith
      exact ⟨div_nonneg ha.le hc.le, by rw [div_le_one hc]; linarith⟩
  refine ⟨_, ⟨lv l a / (lv l a - lv l b), h0.1, h0.2, rfl⟩, ?_⟩
  rw [on_iff_lv]
  have : ∀ k : ℝ, lv l (a.1 + k * (b.1 - a.1), a.2 + k * (b.2 - a.2)) = lv l a - k * (lv l a - lv l b) := by
    intro k; unfold lv; simp only; ring
  rw [this, div_mul_cancel₀ _ hne, sub_self]

/-- Signs around a cycle of four numbers with equal sums of opposite ones. -/
theorem cyc_count {f0 f1 f2 f3 : ℝ} (h : f0 + f2 = f1 + f3) (n0 : f0 ≠ 0) (n1 : f1 ≠ 0) (n2 : f2 ≠ 0) (n3 : f3 ≠ 0) {α : Type} {i0 i1 i2 i3 : Option α}
    (e0 : i0.isSome ↔ f0 * f1 < 0) (e1 : i1.isSome ↔ f1 * f2 < 0) (e2 : i2.isSome ↔ f2 * f3 < 0) (e3 : i3.isSome ↔ f3 * f0 < 0) :
    ([i0, i1, i2, i3].filterMap id).length = 0 ∨ ([i0, i1, i2, i3].filterMap id).length = 2 := by
  rcases lt_or_gt_of_ne n0 with h0 | h0 <;> rcases lt_or_gt_of_ne n1 with h1 | h1 <;> rcases lt_or_gt_of_ne n2 with h2 | h2 <;> rcases lt_or_gt_of_ne n3 with h3 | h3
  all_goals first | (exfalso; linarith) | skip
  all_goals
    simp only [mul_neg_of_neg_of_pos, mul_neg_of_pos_of_neg, not_lt.2 (mul_pos_of_neg_of_neg _ _).le, not_lt.2 (mul_pos _ _).le, h0, h1, h2, h3, iff_true] at e0 e1 e2 e3
  all_goals
    cases i0 <;> cases i1 <;> cases i2 <;> cases i3 <;> simp at e0 e1 e2 e3 ⊢

theorem lv_corners (l : V3 ℝ) (r : FRect ℝ) : lv l (r.p1.1, r.p1.2) + lv l (r.p2.1, r.p2.2) = lv l (r.p1.1, r.p2.2) + lv l (r.p2.1, r.p1.2) := by
  unfold lv; simp only; ring

/-- The points found on the sides are different when the line goes through no corner. -/
theorem hits_nodup {l : V3 ℝ} {r : FRect ℝ} (hpr : r.p1.1 < r.p2.1 ∧ r.p1.2 < r.p2.2) (k0 : ¬ On l (r.p1.1, r.p1.2)) (k1 : ¬ On l (r.p1.1, r.p2.2))
    (k2 : ¬ On l (r.p2.1, r.p2.2)) (k3 : ¬ On l (r.p2.1, r.p1.2)) {i0 i1 i2 i3 : Option (Pt ℝ)}
    (b0 : ∀ q, i0 = some q ↔ OnSeg (r.p1.1, r.p1.2) (r.p1.1, r.p2.2) q ∧ On l q) (b1 : ∀ q, i1 = some q ↔ OnSeg (r.p1.1, r.p2.2) (r.p2.1, r.p2.2) q ∧ On l q)
    (b2 : ∀ q, i2 = some q ↔ OnSeg (r.p2.1, r.p2.2) (r.p2.1, r.p1.2) q ∧ On l q) (b3 : ∀ q, i3 = some q ↔ OnSeg (r.p2.1, r.p1.2) (r.p1.1, r.p1.2) q ∧ On l q) :
    ([i0, i1, i2, i3].filterMap id).Nodup := by
  have c0 : ∀ q, i0 = some q → q.1 = r.p1.1 ∧ On l q := by
    intro q h; obtain ⟨⟨k, -, -, rfl⟩, h2⟩ := (b0 q).1 h; exact ⟨by simp only; ring, h2⟩
  have c1 : ∀ q, i1 = some q → q.2 = r.p2.2 ∧ On l q := by
    intro q h; obtain ⟨⟨k, -, -, rfl⟩, h2⟩ := (b1 q).1 h; exact ⟨by simp only; ring, h2⟩
  have c2 : ∀ q, i2 = some q → q.1 = r.p2.1 ∧ On l q := by
    intro q h; obtain ⟨⟨k, -, -, rfl⟩, h2⟩ := (b2 q).1 h; exact ⟨by simp only; ring, h2⟩
  have c3 : ∀ q, i3 = some q → q.2 = r.p1.2 ∧ On l q := by
    intro q h; obtain ⟨⟨k, -, -, rfl⟩, h2⟩ := (b3 q).1 h; exact ⟨by simp only; ring, h2⟩
  have m : ∀ (q : Pt ℝ) (x y : ℝ), q.1 = x → q.2 = y → On l q → On l (x, y) := by
    rintro q x y rfl rfl h; exact h
  have d01 : ∀ q, i0 = some q → i1 ≠ some q := fun q h h' => k1 (m q _ _ (c0 q h).1 (c1 q h').1 (c0 q h).2)
  have d02 : ∀ q, i0 = some q → i2 ≠ some q := fun q h h' => by have := (c0 q h).1; have := (c2 q h').1; linarith [hpr.1]
  have d03 : ∀ q, i0 = some q → i3 ≠ some q := fun q h h' => k0 (m q _ _ (c0 q h).1 (c3 q h').1 (c0 q h).2)
  have d12 : ∀ q, i1 = some q → i2 ≠ some q := fun q h h' => k2 (m q _ _ (c2 q h').1 (c1 q h).1 (c1 q h).2)
  have d13 : ∀ q, i1 = some q → i3 ≠ some q := fun q h h' => by have := (c1 q h).1; have := (c3 q h').1; linarith [hpr.2]
  have d23 : ∀ q, i2 = some q → i3 ≠ some q := fun q h h' => k3 (m q _ _ (c2 q h).1 (c3 q h').1 (c2 q h).2)
  clear b0 b1 b2 b3 c0 c1 c2 c3
  rcases i0 with _ | q0 <;> rcases i1 with _ | q1 <;> rcases i2 with _ | q2 <;> rcases i3 with _ | q3 <;> simp_all [eq_comm]

/-- General facts on the loop: whatever happens, at most two points, all of them reported for a side. -/
theorem loop_sound {t : Thr ℝ} {l : V3 ℝ} : ∀ (L : List Seg) (out r : List (Pt ℝ)), out.length < 2 → rectLineLoop t l L out = .ok r →
    r.length ≤ 2 ∧ (∀ p ∈ r, p ∈ out ∨ ∃ s ∈ L, segLineInter t s l = .ok (some p)) ∧ (∀ p ∈ out, p ∈ r) ∧
    ∀ s ∈ L, ∀ p, segLineInter t s l = .ok (some p) → r ≠ [] := by
  intro L
  induction L with
  | nil =>
    intro out r h0 h
    simp only [rectLineLoop] at h
    cases h
    exact ⟨h0.le, fun p hp => Or.inl hp, fun p hp => hp, fun s hs => absurd hs (by simp)⟩
  | cons s L ih =>
    intro out r h0 h
    unfold rectLineLoop at h
    rcases hi : segLineInter t s l with i | _ | _ <;> rw [hi] at h
    · rw [Res.bind_ok] at h
      cases i with
      | none =>
        simp only at h
        obtain ⟨a, b, c, d⟩ := ih out r h0 h
        refine ⟨a, fun p hp => (b p hp).imp_right (fun ⟨s', m, e⟩ => ⟨s', List.mem_cons_of_mem _ m, e⟩), c, ?_⟩
        intro s' hs' p hp
        rcases List.mem_cons.1 hs' with rfl | hm
        · rw [hi] at hp; cases hp
        · exact d s' hm p hp
      | some pt =>
        simp only at h
        have key : ∀ out' : List (Pt ℝ), (out' = out ∧ out ≠ [] ∨ out' = out ++ [pt]) →
            (if out'.length = 2 then (pure out' : Res (List (Pt ℝ))) else rectLineLoop t l L out') = .ok r →
            r.length ≤ 2 ∧ (∀ p ∈ r, p ∈ out ∨ ∃ s' ∈ s :: L, segLineInter t s' l = .ok (some p)) ∧ (∀ p ∈ out, p ∈ r) ∧
            ∀ s' ∈ s :: L, ∀ p, segLineInter t s' l = .ok (some p) → r ≠ [] := by
          intro out' ho hr
          have hsub : ∀ p ∈ out, p ∈ out' := by
            intro p hp; rcases ho with ⟨rfl, _⟩ | rfl
            · exact hp
            · exact List.mem_append_left _ hp
          have hne : out' ≠ [] := by
            rcases ho with ⟨rfl, h⟩ | rfl
            · exact h
            · simp
          have hmem : ∀ p ∈ out', p ∈ out ∨ ∃ s' ∈ s :: L, segLineInter t s' l = .ok (some p) := by
            intro p hp
            rcases ho with ⟨rfl, _⟩ | rfl
            · exact Or.inl hp
            · rcases List.mem_append.1 hp with hp | hp
              · exact Or.inl hp
              · rw [List.mem_singleton] at hp
                subst hp
                exact Or.inr ⟨s, List.mem_cons_self, hi⟩
          have hlen : out'.length ≤ 2 := by
            rcases ho with ⟨rfl, _⟩ | rfl
            · omega
            · rw [List.length_append, List.length_singleton]; omega
          split_ifs at hr with hc
          · cases hr
            exact ⟨hlen, hmem, hsub, fun _ _ _ _ => hne⟩
          · obtain ⟨a, b, c, d⟩ := ih out' r (by omega) hr
            refine ⟨a, ?_, fun p hp => c p (hsub p hp), ?_⟩
            · intro p hp
              rcases b p hp with hb | ⟨s', m, e⟩
              · exact hmem p hb
              · exact Or.inr ⟨s', List.mem_cons_of_mem _ m, e⟩
            · intro s' _ p _ he
              obtain ⟨x, hx⟩ := List.exists_mem_of_ne_nil _ hne
              have := c x hx
              rw [he] at this
              simp at this
        match out, h with
        | [], h => exact key [pt] (Or.inr rfl) h
        | [q], h =>
          simp only at h
          by_cases hq : (PtEq t pt s.1 ∨ PtEq t pt s.2) ∧ PtEq t q pt
          · rw [if_pos hq] at h; exact key [q] (Or.inl ⟨rfl, by simp⟩) h
          · rw [if_neg hq] at h; exact key ([q] ++ [pt]) (Or.inr rfl) h
        | q :: q' :: l', h => simp at h0
    · cases h
    · cases h

theorem loop_ok {t : Thr ℝ} {l : V3 ℝ} : ∀ (L : List Seg) (out : List (Pt ℝ)), (∀ s ∈ L, ∃ i, segLineInter t s l = .ok i) → ∃ r, rectLineLoop t l L out = .ok r := by
  intro L
  induction L with
  | nil => intro out _; exact ⟨out, rfl⟩
  | cons s L ih =>
    intro out h
    obtain ⟨i, hi⟩ := h s List.mem_cons_self
    have ih' := fun out => ih out (fun s' hs' => h s' (List.mem_cons_of_mem _ hs'))
    unfold rectLineLoop
    rw [hi, Res.bind_ok]
    cases i with
    | none => exact ih' out
    | some p =>
      simp only
      split_ifs
      · exact ⟨_, rfl⟩
      · exact ih' _

/-! ### Circles -/

theorem lexLt_trans {a b c : Pt ℝ} (h : LexLt a b) (h' : LexLt b c) : LexLt a c := by
  unfold LexLt at *; grind

theorem setInsert_spec (p : Pt ℝ) : ∀ l : List (Pt ℝ), SortedPts l → SortedPts (setInsert p l) ∧ ∀ q, q ∈ setInsert p l ↔ q = p ∨ q ∈ l := by
  intro l
  induction l with
  | nil => intro _; simp [setInsert, SortedPts]
  | cons a l ih =>
    intro h
    unfold SortedPts at h ih ⊢
    rw [List.pairwise_cons] at h
    obtain ⟨h1, h2⟩ := h
    unfold setInsert
    split_ifs with c1 c2
    · rw [ptLt_iff] at c1
      refine ⟨List.pairwise_cons.2 ⟨?_, List.pairwise_cons.2 ⟨h1, h2⟩⟩, by simp⟩
      intro q hq
      rcases List.mem_cons.1 hq with rfl | hq
      · exact c1
      · exact lexLt_trans c1 (h1 q hq)
    · rw [ptLt_iff] at c2
      obtain ⟨i1, i2⟩ := ih h2
      refine ⟨List.pairwise_cons.2 ⟨?_, i1⟩, ?_⟩
      · intro q hq
        rcases (i2 q).1 hq with rfl | hq
        · exact c2
        · exact h1 q hq
      · intro q
        rw [List.mem_cons, i2, List.mem_cons]; tauto
    · rw [ptLt_iff] at c1 c2
      have : p = a := by
        unfold LexLt at c1 c2
        apply Prod.ext <;> grind
      subst this
      refine ⟨List.pairwise_cons.2 ⟨h1, h2⟩, ?_⟩
      intro q; simp

theorem segCircle_len {t : Thr ℝ} {s : Seg} {c : Pt ℝ} {rad : ℝ} {r : List (Pt ℝ)} (h : segCircle t s c rad = .ok r) : r.length ≤ 2 := by
  unfold segCircle at h
  simp only at h
  by_cases h0 : ptLabel t s.1 c rad = PtTag.inside ∧ ptLabel t s.2 c rad = PtTag.inside
  · rw [if_pos h0] at h; cases h; simp
  · rw [if_neg h0] at h
    rcases hl : segLine t s with li | _ | _ <;> rw [hl] at h
    · rw [Res.bind_ok] at h
      cases hc : lineCircle li c rad with
      | none => rw [hc] at h; cases h; simp
      | some pp =>
        rw [hc] at h
        obtain ⟨p1, p2⟩ := pp
        simp only at h
        have key : ∀ a b : Prop, ∀ _ : Decidable a, ∀ _ : Decidable b, ((if a then [s.1] else []) ++ (if b then [s.2] else [])).length ≤ 2 := by
          intro a b _ _; split_ifs <;> simp
        repeat' split at h
        all_goals simp only [Res.pure_eq, Res.ok.injEq] at h; subst h
        all_goals first | exact key _ _ _ _ | simp
    · cases h
    · cases h

/-- When an end of the segment is on the circle for the library, only ends of the segment are given. -/
theorem segCircle_edge {t : Thr ℝ} {s : Seg} {c : Pt ℝ} {rad : ℝ} (ht : ptLabel t s.1 c rad = .onEdge ∨ ptLabel t s.2 c rad = .onEdge) {r : List (Pt ℝ)}
    (h : segCircle t s c rad = .ok r) : ∀ p ∈ r, p = s.1 ∨ p = s.2 := by
  unfold segCircle at h
  simp only at h
  rw [if_neg (by rintro ⟨a, b⟩; rw [a, b] at ht; simp at ht)] at h
  rcases hl : segLine t s with li | _ | _ <;> rw [hl] at h
  · rw [Res.bind_ok] at h
    cases hc : lineCircle li c rad with
    | none => rw [hc] at h; cases h; simp
    | some pp =>
      rw [hc] at h
      obtain ⟨p1, p2⟩ := pp
      simp only at h
      rw [if_neg (by rintro (⟨a, b⟩ | ⟨a, b⟩) <;> rw [a, b] at ht <;> simp at ht), if_neg (by rintro ⟨a, b⟩; rw [a, b] at ht; simp at ht)] at h
      simp only [Res.pure_eq, Res.ok.injEq] at h
      subst h
      intro p hp
      rw [List.mem_append] at hp
      rcases hp with hp | hp <;> split_ifs at hp <;> simp at hp <;> tauto
  · cases h
  · cases h

theorem segCircle_ok {t : Thr ℝ} (h1 : dblEps < t.nullDistance) {s : Seg} (hs : t.nullDistance ≤ eucl s.1 s.2) (c : Pt ℝ) (rad : ℝ) : ∃ r, segCircle t s c rad = .ok r := by
  obtain ⟨m, e1, -, -, -⟩ := segLine_spec h1 hs
  unfold segCircle
  simp only
  split_ifs
  · exact ⟨_, rfl⟩
  all_goals
    rw [show segLine t s = .ok m from e1, Res.bind_ok]
    cases lineCircle m c rad with
    | none => exact ⟨_, rfl⟩
    | some pp =>
      simp only
      try split_ifs
      all_goals exact ⟨_, rfl⟩

theorem angle_std {l : V3 ℝ} {s : Seg} {c : ℝ} (h : |l 1 * (s.2.1 - s.1.1) - l 0 * (s.2.2 - s.1.2)| / eucl s.1 s.2 ≤ c) (hc : c ≤ 999999 / 1000000) : stdR.nullAngleValue ≤ lineSegAngle l s := by
  unfold lineSegAngle
  have hpi := Real.two_le_pi
  have : (1 : ℝ) / 1000 ≤ Real.arccos c := by
    rw [← Real.arccos_cos (x := 1 / 1000) (by norm_num) (by linarith)]
    apply Real.arccos_le_arccos
    have := Real.one_sub_sq_div_two_le_cos (x := 1 / 1000)
    linarith
  show (1 : ℝ) / 1000 ≤ _
  exact this.trans (Real.arccos_le_arccos h)

theorem circLoop {t : Thr ℝ} {c : Pt ℝ} {rad : ℝ} : ∀ (L : List Seg) (out : List (Pt ℝ)), SortedPts out → (∀ s ∈ L, ∃ r, segCircle t s c rad = .ok r) →
    ∃ r, rectCircleLoop t c rad L out = .ok r ∧ SortedPts r ∧ ∀ p, p ∈ r ↔ p ∈ out ∨ ∃ s ∈ L, ∃ r, segCircle t s c rad = .ok r ∧ p ∈ r := by
  intro L
  induction L with
  | nil => intro out h _; exact ⟨out, rfl, h, by simp⟩
  | cons s L ih =>
    intro out h hL
    obtain ⟨i, hi⟩ := hL s List.mem_cons_self
    have hlen := segCircle_len hi
    have ih' := fun out h => ih out h (fun s' hs' => hL s' (List.mem_cons_of_mem _ hs'))
    unfold rectCircleLoop
    rw [hi, Res.bind_ok]
    have fin : ∀ out', SortedPts out' → (∀ p, p ∈ out' ↔ p ∈ out ∨ p ∈ i) → ∃ r, rectCircleLoop t c rad L out' = .ok r ∧ SortedPts r ∧
        ∀ p, p ∈ r ↔ p ∈ out ∨ ∃ s' ∈ s :: L, ∃ r, segCircle t s' c rad = .ok r ∧ p ∈ r := by
      intro out' h1 h2
      obtain ⟨r, r1, r2, r3⟩ := ih' out' h1
      refine ⟨r, r1, r2, fun p => ?_⟩
      rw [r3, h2]
      simp only [List.mem_cons, exists_eq_or_imp, hi, Res.ok.injEq, exists_eq_left']
      tauto
    match i, hlen, fin with
    | [], _, fin => exact fin out h (by simp)
    | [a], _, fin => 
      obtain ⟨s1, s2⟩ := setInsert_spec a out h
      exact fin _ s1 (fun p => by rw [s2]; simp; tauto)
    | [a, b], _, fin =>
      obtain ⟨s1, s2⟩ := setInsert_spec a out h
      obtain ⟨s3, s4⟩ := setInsert_spec b _ s1
      exact fin _ s3 (fun p => by rw [s4, s2]; simp; tauto)
    | _ :: _ :: _ :: _, hl, _ => simp at hl

/-! ### Two rectangles -/

/-- On ranks: the crossing points. -/
def meetN (a b : FRect ℕ) (p : ℕ × ℕ) : Bool :=
  let v (r : FRect ℕ) := (p.1 == r.p1.1 || p.1 == r.p2.1) && decide (r.p1.2 ≤ p.2) && decide (p.2 ≤ r.p2.2)
  let h (r : FRect ℕ) := (p.2 == r.p1.2 || p.2 == r.p2.2) && decide (r.p1.1 ≤ p.1) && decide (p.1 ≤ r.p2.1)
  (v a && h b) || (h a && v b)

/-- Strictly increasing for the order of points. -/
def sortedN : List (ℕ × ℕ) → Bool
  | a :: b :: l => ptLt a b && sortedN (b :: l)
  | _ => true

theorem inter_ranks : ∀ x ∈ Rank.allen, ∀ y ∈ Rank.allen, Rank.rectA x y ≠ Rank.rectB x y →
    ∃ res ∈ (Rank.inter (Rank.rectA x y) (Rank.rectB x y)), sortedN res = true ∧
      (∀ i ∈ List.range 4, ∀ j ∈ List.range 4, decide ((i, j) ∈ res) = meetN (Rank.rectA x y) (Rank.rectB x y) (i, j)) ∧
      ∀ p ∈ res, p.1 < 4 ∧ p.2 < 4 := by
  decide +kernel

theorem mem_mp {t : Thr ℝ} {f g : ℕ → ℝ} (hf : Rank.Emb t.nullDistance f) (hg : Rank.Emb t.nullDistance g) {p : ℕ × ℕ} {l : List (ℕ × ℕ)} :
    Rank.mp f g p ∈ l.map (Rank.mp f g) ↔ p ∈ l := by
  rw [List.mem_map]
  constructor
  · rintro ⟨q, hq, he⟩
    have h1 := hf.inj.1 (congrArg Prod.fst he)
    have h2 := hg.inj.1 (congrArg Prod.snd he)
    have : q = p := Prod.ext h1 h2
    rwa [← this]
  · intro h; exact ⟨p, h, rfl⟩

theorem sortedN_map {t : Thr ℝ} {f g : ℕ → ℝ} (hf : Rank.Emb t.nullDistance f) (hg : Rank.Emb t.nullDistance g) : ∀ l : List (ℕ × ℕ), sortedN l = true → SortedPts (l.map (Rank.mp f g)) := by
  intro l
  induction l with
  | nil => intro _; simp [SortedPts]
  | cons a l ih =>
    intro h
    cases l with
    | nil => simp [SortedPts]
    | cons b l =>
      simp only [sortedN, Bool.and_eq_true] at h
      have ih' := ih h.2
      unfold SortedPts at ih' ⊢
      rw [List.map_cons, List.pairwise_cons]
      refine ⟨?_, ih'⟩
      have hab : LexLt (Rank.mp f g a) (Rank.mp f g b) := by
        rw [← ptLt_iff, Rank.ptLt_mp hf hg]; exact h.1
      intro q hq
      rw [List.map_cons] at hq ih'
      rcases List.mem_cons.1 hq with rfl | hq
      · exact hab
      · exact lexLt_trans hab ((List.pairwise_cons.1 ih').1 q hq)

theorem meet_mp {t : Thr ℝ} {f g : ℕ → ℝ} (hf : Rank.Emb t.nullDistance f) (hg : Rank.Emb t.nullDistance g) (a b : FRect ℕ) (p : ℕ × ℕ) :
    SidesMeet (Rank.mpR f g a) (Rank.mpR f g b) (Rank.mp f g p) ↔ meetN a b p = true := by
  unfold SidesMeet OnVert OnHoriz meetN
  simp only [Rank.mpR, Rank.mp, hf.inj, hg.inj, hf.le_iff, hg.le_iff, Bool.or_eq_true, Bool.and_eq_true, beq_iff_eq, decide_eq_true_eq]
  tauto

theorem meet_coord {a b : FRect ℝ} {p : Pt ℝ} (h : SidesMeet a b p) : (p.1 = a.p1.1 ∨ p.1 = a.p2.1 ∨ p.1 = b.p1.1 ∨ p.1 = b.p2.1) ∧ (p.2 = a.p1.2 ∨ p.2 = a.p2.2 ∨ p.2 = b.p1.2 ∨ p.2 = b.p2.2) := by
  unfold SidesMeet OnVert OnHoriz at h
  tauto

theorem rectInter_meet {t : Thr ℝ} (ht : RectThr t) {a b : FRect ℝ} (h : ApartRects t.nullDistance a b) (hne : a ≠ b) :
    ∃ pts, rectInter t a b = .ok pts ∧ SortedPts pts ∧ ∀ p, p ∈ pts ↔ SidesMeet a b p := by
  obtain ⟨f, g, hf, hg, x, hx, y, hy, rfl, rfl⟩ := Rank.exists_rank ht h
  obtain ⟨pA, pB⟩ := Rank.proper_AB hx hy
  have hx4 := Rank.allen_small x hx
  have hy4 := Rank.allen_small y hy
  obtain ⟨res, r1, r2, r3, r4⟩ := inter_ranks x hx y hy (fun he => hne (by rw [he]))
  refine ⟨_, Rank.rectInter_mp ht hf hg pA pB r1, sortedN_map hf hg res r2, fun p => ?_⟩
  have key : ∀ n : ℕ × ℕ, n.1 < 4 → n.2 < 4 → (Rank.mp f g n ∈ res.map (Rank.mp f g) ↔ SidesMeet (Rank.mpR f g (Rank.rectA x y)) (Rank.mpR f g (Rank.rectB x y)) (Rank.mp f g n)) := by
    intro n h1 h2
    rw [mem_mp hf hg, meet_mp hf hg, ← r3 n.1 (by simpa using h1) n.2 (by simpa using h2)]
    simp
  constructor
  · intro hp
    obtain ⟨n, hn, rfl⟩ := List.mem_map.1 hp
    exact (key n (r4 n hn).1 (r4 n hn).2).1 hp
  · intro hp
    obtain ⟨c1, c2⟩ := meet_coord hp
    have e1 : ∃ i < 4, p.1 = f i := by
      rcases c1 with e | e | e | e
      · exact ⟨x.1, by omega, e⟩
      · exact ⟨x.2.1, by omega, e⟩
      · exact ⟨x.2.2.1, by omega, e⟩
      · exact ⟨x.2.2.2, by omega, e⟩
    have e2 : ∃ j < 4, p.2 = g j := by
      rcases c2 with e | e | e | e
      · exact ⟨y.1, by omega, e⟩
      · exact ⟨y.2.1, by omega, e⟩
      · exact ⟨y.2.2.1, by omega, e⟩
      · exact ⟨y.2.2.2, by omega, e⟩
    obtain ⟨i, hi, e1⟩ := e1
    obtain ⟨j, hj, e2⟩ := e2
    have : p = Rank.mp f g (i, j) := Prod.ext e1 e2
    rw [this] at hp ⊢
    exact (key (i, j) hi hj).2 hp

theorem sorted_ext {l l' : List (Pt ℝ)} (h : SortedPts l) (h' : SortedPts l') (hm : ∀ p, p ∈ l ↔ p ∈ l') : l = l' := by
  have irr : ∀ a : Pt ℝ, ¬ LexLt a a := by intro a ha; unfold LexLt at ha; grind
  have nd : ∀ {l : List (Pt ℝ)}, SortedPts l → l.Nodup := by
    intro l h
    unfold List.Nodup
    refine List.Pairwise.imp ?_ h
    rintro a b hab rfl
    exact irr a hab
  have hp : l.Perm l' := (List.perm_ext_iff_of_nodup (nd h) (nd h')).2 hm
  exact hp.eq_of_pairwise (fun a b _ _ hab hba => absurd (lexLt_trans hab hba) (irr a)) h h'

/-! ### Distances -/

theorem abs_fst_le (p q : Pt ℝ) : |p.1 - q.1| ≤ eucl p q := by
  apply Pip.le_eucl; rw [sq_abs]; nlinarith [sq_nonneg (p.2 - q.2)]

theorem abs_snd_le (p q : Pt ℝ) : |p.2 - q.2| ≤ eucl p q := by
  apply Pip.le_eucl; rw [sq_abs]; nlinarith [sq_nonneg (p.1 - q.1)]

theorem dist_vert {r : FRect ℝ} (h : r.p1.2 < r.p2.2) (w : r.p1.1 < r.p2.1 := by assumption) : (segDistTo ((r.p1.1, r.p1.2), (r.p1.1, r.p2.2)) r.getCenter).1 = (r.p2.1 - r.p1.1) / 2 := by
  refine (C19_shortest ((r.p1.1, r.p1.2), (r.p1.1, r.p2.2)) (fun he => by have := congrArg Prod.snd he; exact h.ne this) r.getCenter).unique ⟨⟨(r.p1.1, (r.p1.2 + r.p2.2) * (1/2)), ⟨1/2, by norm_num, by norm_num, by ext <;> simp; ring⟩, ?_⟩, ?_⟩
  · symm
    rw [eucl_eq_iff (by linarith)]; simp only [FRect.getCenter]; ring
  · rintro d ⟨q, ⟨k, k0, k1, rfl⟩, rfl⟩
    refine le_trans (le_of_eq ?_) (abs_fst_le _ _)
    simp only [FRect.getCenter]
    rw [abs_of_nonneg (by linarith)]; ring

theorem dist_horiz {r : FRect ℝ} (w : r.p1.1 < r.p2.1) (h : r.p1.2 < r.p2.2 := by assumption) : (segDistTo ((r.p1.1, r.p2.2), (r.p2.1, r.p2.2)) r.getCenter).1 = (r.p2.2 - r.p1.2) / 2 := by
  refine (C19_shortest ((r.p1.1, r.p2.2), (r.p2.1, r.p2.2)) (fun he => by have := congrArg Prod.fst he; exact w.ne this) r.getCenter).unique ⟨⟨((r.p1.1 + r.p2.1) * (1/2), r.p2.2), ⟨1/2, by norm_num, by norm_num, by ext <;> simp; ring⟩, ?_⟩, ?_⟩
  · symm
    rw [eucl_eq_iff (by linarith)]; simp only [FRect.getCenter]; ring
  · rintro d ⟨q, ⟨k, k0, k1, rfl⟩, rfl⟩
    refine le_trans (le_of_eq ?_) (abs_snd_le _ _)
    simp only [FRect.getCenter]
    rw [abs_of_nonpos (by linarith)]; ring

end H2d.RectM
