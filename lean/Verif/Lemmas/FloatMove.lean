import Verif.Spec.FloatMove
import Verif.Lemmas.FloatErr
import Verif.Lemmas.FloatExact

/-! # Moves of polylines and rectangles with rounded operations -/

namespace H2d.Fl
open H2d.Spec

variable {F : Arith} {u v : ℝ}

/-- Both coordinates are at most `e` apart. -/
def CoordNear (e : ℝ) (p q : ℝ × ℝ) : Prop := |p.1 - q.1| ≤ e ∧ |p.2 - q.2| ≤ e

theorem rotPt_eq (r : Rotate) (p : Pt ℝ) : rotPt r p = turned r p := by cases r <;> rfl

theorem CoordNear.turned {e : ℝ} {p q : ℝ × ℝ} (h : CoordNear e p q) (r : Rotate) : CoordNear e (turned r p) (turned r q) := by
  have n : ∀ a b : ℝ, |-a - -b| = |a - b| := fun a b => by rw [show -a - -b = -(a - b) by ring, abs_neg]
  obtain ⟨h1, h2⟩ := h
  cases r <;> simp only [CoordNear, Spec.turned, n] <;> first | exact ⟨h1, h2⟩ | exact ⟨h2, h1⟩

theorem movedAll_map {op : PolyMove} (h : ∀ o, op ≠ .moveTo o) (pts : List (ℝ × ℝ)) : movedAll pts op = pts.map (moved (0, 0) op) := by
  cases pts with
  | nil => rfl
  | cons o l => cases op with
    | moveTo a => exact absurd rfl (h a)
    | translate dx dy => rfl
    | rotate r => rfl
    | rotateRef r c => rfl

/-- One more rounding. -/
theorem pow_step {e : ℕ} {M x y d : ℝ} (h : FlOk F u v) (hxy : |x - y| ≤ ((1 + u) ^ e - 1) * M) (hy : |y + d| ≤ M) :
    |F.rnd (x + d) - (y + d)| ≤ ((1 + u) ^ (e + 1) - 1) * M := by
  have := rnd_near h (x := x + d) (y := y + d) (a := M) (e := (1 + u) ^ e - 1) (by rwa [add_sub_add_right_eq_sub]) hy
  rwa [show (1 + ((1 + u) ^ e - 1)) * (1 + u) - 1 = (1 + u) ^ (e + 1) - 1 by ring] at this

theorem forall2_map {α β γ δ : Type} {R : α → β → Prop} {S : γ → δ → Prop} {f : α → γ} {g : β → δ} {l : List α} {m : List β} (h : List.Forall₂ R l m)
    (hs : ∀ a b, R a b → b ∈ m → S (f a) (g b)) : List.Forall₂ S (l.map f) (m.map g) := by
  induction h with
  | nil => exact .nil
  | @cons a b l m hab _ ih => exact .cons (hs a b hab (by simp)) (ih fun a b hr hm => hs a b hr (by simp [hm]))

theorem history_err (h : FlOk F u v) {M : ℝ} (ops : List PolyMove) (hm : ∀ op ∈ ops, ∀ o, op ≠ .moveTo o) :
    ∀ (k : ℕ) (ps qs : List (ℝ × ℝ)), List.Forall₂ (CoordNear (((1 + u) ^ k - 1) * M)) ps qs → Along (SizeLe M) qs ops →
      List.Forall₂ (CoordNear (((1 + u) ^ (k + roundings ops) - 1) * M)) (moveRun F ps ops) (movedBy qs ops) := by
  induction ops with
  | nil => intro k ps qs hn _; simpa [moveRun, movedBy, roundings] using hn
  | cons op ops ih =>
    intro k ps qs hn ha
    obtain ⟨a1, a2, a3⟩ := ha
    have ih' := ih (fun o ho => hm o (by simp [ho]))
    have hop := hm op (by simp)
    change List.Forall₂ _ (moveRun F (moveExec F ps op) ops) (movedBy (movedAll qs op) ops)
    cases op with
    | moveTo o => exact absurd rfl (hop o)
    | translate dx dy =>
      rw [show k + roundings (.translate dx dy :: ops) = (k + 1) + roundings ops by simp only [roundings]; omega]
      apply ih' (k + 1) _ _ _ a3
      rw [movedAll_map hop]
      change List.Forall₂ _ (ps.map fun p => ptTranslate F p dx dy) _
      refine forall2_map hn fun p q hpq hq => ?_
      have hw : SizeLe M (moved (0, 0) (.translate dx dy) q) := a2 _ (by
        cases qs with
        | nil => simp at hq
        | cons b l => exact List.mem_map_of_mem (f := moved b (.translate dx dy)) hq)
      exact ⟨pow_step h hpq.1 hw.1, pow_step h hpq.2 hw.2⟩
    | rotate r =>
      apply ih' k _ _ _ a3
      rw [movedAll_map hop]
      change List.Forall₂ _ (ps.map (rotPt r)) _
      refine forall2_map hn fun p q hpq _ => ?_
      rw [rotPt_eq]
      exact hpq.turned r
    | rotateRef r c =>
      rw [show k + roundings (.rotateRef r c :: ops) = (k + 2) + roundings ops by simp only [roundings]; omega]
      apply ih' (k + 2) _ _ _ a3
      rw [movedAll_map hop]
      change List.Forall₂ _ (((ps.map fun p => ptTranslate F p (-c.1) (-c.2)).map (rotPt r)).map fun p => ptTranslate F p c.1 c.2) _
      rw [List.map_map, List.map_map]
      refine forall2_map hn fun p q hpq hq => ?_
      have w1 : SizeLe M (q.1 - c.1, q.2 - c.2) := a2 _ (by
        have : (q.1 - c.1, q.2 - c.2) ∈ qs.map fun p => (p.1 - c.1, p.2 - c.2) := List.mem_map_of_mem (f := fun p : ℝ × ℝ => (p.1 - c.1, p.2 - c.2)) hq
        cases qs with
        | nil => simp at hq
        | cons b l => exact List.mem_append_left _ this)
      have w2 : SizeLe M (moved (0, 0) (.rotateRef r c) q) := a2 _ (by
        have : moved (0, 0) (.rotateRef r c) q ∈ movedAll qs (.rotateRef r c) := by rw [movedAll_map hop]; exact List.mem_map_of_mem hq
        cases qs with
        | nil => simp at hq
        | cons b l => exact List.mem_append_right _ this)
      have n1 : CoordNear (((1 + u) ^ (k + 1) - 1) * M) (ptTranslate F p (-c.1) (-c.2)) (q.1 - c.1, q.2 - c.2) :=
        ⟨pow_step h hpq.1 (by rw [← sub_eq_add_neg]; exact w1.1), pow_step h hpq.2 (by rw [← sub_eq_add_neg]; exact w1.2)⟩
      have n2 := n1.turned r
      rw [← rotPt_eq] at n2
      have e1 : moved (0, 0) (.rotateRef r c) q = ((turned r (q.1 - c.1, q.2 - c.2)).1 + c.1, (turned r (q.1 - c.1, q.2 - c.2)).2 + c.2) := by
        simp only [moved, add_comm]
      rw [e1] at w2 ⊢
      exact ⟨pow_step h n2.1 w2.1, pow_step h n2.2 w2.2⟩

/-- Both coordinates are kept by the rounding. -/
theorem exact_step {pts : List (ℝ × ℝ)} {op : PolyMove} (ha : ∀ p ∈ onWay pts op, Rep F p.1 ∧ Rep F p.2) : moveExec F pts op = movedAll pts op := by
  have key : ∀ x : ℝ, Rep F x → F.rnd x = x := fun x hx => hx
  cases op with
  | translate dx dy =>
    rw [movedAll_map (by simp)]
    change pts.map (fun p => ptTranslate F p dx dy) = _
    refine List.map_congr_left fun q hq => ?_
    have hw := ha (moved (0, 0) (.translate dx dy) q) (by
      cases pts with
      | nil => simp at hq
      | cons b l => exact List.mem_map_of_mem (f := moved b (.translate dx dy)) hq)
    exact Prod.ext hw.1 hw.2
  | rotate r =>
    rw [movedAll_map (by simp)]
    exact List.map_congr_left fun q _ => rotPt_eq r q
  | moveTo o =>
    cases pts with
    | nil => rfl
    | cons b l =>
      have hd := ha (o.1 - b.1, o.2 - b.2) (by simp [onWay])
      have e1 : F.rnd (o.1 - b.1) = o.1 - b.1 := hd.1
      have e2 : F.rnd (o.2 - b.2) = o.2 - b.2 := hd.2
      change (b :: l).map (fun p => ptTranslate F p (F.rnd (o.1 - b.1)) (F.rnd (o.2 - b.2))) = (b :: l).map (moved b (.moveTo o))
      refine List.map_congr_left fun q hq => ?_
      have hw := ha (moved b (.moveTo o) q) (by
        have : moved b (.moveTo o) q ∈ movedAll (b :: l) (.moveTo o) := List.mem_map_of_mem hq
        exact List.mem_cons_of_mem _ this)
      rw [e1, e2]
      have i1 : q.1 + (o.1 - b.1) = o.1 + (q.1 - b.1) := by ring
      have i2 : q.2 + (o.2 - b.2) = o.2 + (q.2 - b.2) := by ring
      unfold ptTranslate
      rw [i1, i2]
      exact Prod.ext hw.1 hw.2
  | rotateRef r c =>
    rw [movedAll_map (by simp)]
    change ((pts.map fun p => ptTranslate F p (-c.1) (-c.2)).map (rotPt r)).map (fun p => ptTranslate F p c.1 c.2) = _
    rw [List.map_map, List.map_map]
    refine List.map_congr_left fun q hq => ?_
    have w1 := ha (q.1 - c.1, q.2 - c.2) (by
      have : (q.1 - c.1, q.2 - c.2) ∈ pts.map fun p => (p.1 - c.1, p.2 - c.2) := List.mem_map_of_mem (f := fun p : ℝ × ℝ => (p.1 - c.1, p.2 - c.2)) hq
      cases pts with
      | nil => simp at hq
      | cons b l => exact List.mem_append_left _ this)
    have w2 := ha (moved (0, 0) (.rotateRef r c) q) (by
      have : moved (0, 0) (.rotateRef r c) q ∈ movedAll pts (.rotateRef r c) := by rw [movedAll_map (by simp)]; exact List.mem_map_of_mem hq
      cases pts with
      | nil => simp at hq
      | cons b l => exact List.mem_append_right _ this)
    have e0 : ptTranslate F q (-c.1) (-c.2) = (q.1 - c.1, q.2 - c.2) := by
      unfold ptTranslate
      rw [← sub_eq_add_neg, ← sub_eq_add_neg]
      exact Prod.ext w1.1 w1.2
    simp only [Function.comp]
    rw [e0, rotPt_eq]
    unfold ptTranslate
    rw [add_comm _ c.1, add_comm _ c.2]
    exact Prod.ext w2.1 w2.2

theorem exact_run (ops : List PolyMove) : ∀ pts : List (ℝ × ℝ), Along (fun p => Rep F p.1 ∧ Rep F p.2) pts ops → moveRun F pts ops = movedBy pts ops := by
  induction ops with
  | nil => intro pts _; rfl
  | cons op ops ih =>
    intro pts ha
    obtain ⟨-, a2, a3⟩ := ha
    change moveRun F (moveExec F pts op) ops = movedBy (movedAll pts op) ops
    rw [exact_step a2]
    exact ih _ a3

theorem moveTo_err (h : FlOk F u v) (q o b : ℝ) : |F.rnd (q + F.rnd (o - b)) - (o + (q - b))| ≤ u * |o + (q - b)| + u * (1 + u) * |o - b| := by
  have hu := h.u_nonneg
  have h1 := h.err (o - b)
  have h2 := h.err (q + F.rnd (o - b))
  have e1 : q + F.rnd (o - b) - (o + (q - b)) = F.rnd (o - b) - (o - b) := by ring
  have h3 : |q + F.rnd (o - b)| ≤ |o + (q - b)| + u * |o - b| := by
    have := abs_add_le (q + F.rnd (o - b) - (o + (q - b))) (o + (q - b))
    rw [sub_add_cancel, e1] at this
    linarith
  have h4 := abs_add_le (F.rnd (q + F.rnd (o - b)) - (q + F.rnd (o - b))) (q + F.rnd (o - b) - (o + (q - b)))
  rw [sub_add_sub_cancel, e1] at h4
  nlinarith

theorem rectOfPts_ordered {t : Thr ℝ} {p q : Pt ℝ} {r : FRect ℝ} (h : rectOfPts F t p q = .ok r) : r.p1.1 ≤ r.p2.1 ∧ r.p1.2 ≤ r.p2.2 := by
  unfold rectOfPts at h
  split_ifs at h
  injection h with h
  rw [← h]
  exact ⟨min_le_max, min_le_max⟩

theorem polyGetBB_ordered {t : Thr ℝ} {pts : List (Pt ℝ)} {r : FRect ℝ} (h : polyGetBB F t pts = .ok r) : r.p1.1 ≤ r.p2.1 ∧ r.p1.2 ≤ r.p2.2 := by
  unfold polyGetBB at h
  split_ifs at h
  cases pts with
  | nil => cases h
  | cons x xs =>
    simp only [] at h
    split_ifs at h
    exact rectOfPts_ordered h

theorem keep_ordered {r : FRect ℝ} {x : Res (FRect ℝ)} (hr : r.p1.1 ≤ r.p2.1 ∧ r.p1.2 ≤ r.p2.2) (hx : ∀ s, x = .ok s → s.p1.1 ≤ s.p2.1 ∧ s.p1.2 ≤ s.p2.2) :
    (keepIfThrow r x).p1.1 ≤ (keepIfThrow r x).p2.1 ∧ (keepIfThrow r x).p1.2 ≤ (keepIfThrow r x).p2.2 := by
  cases x with
  | ok s => exact hx s rfl
  | throw => exact hr
  | ub => exact hr

theorem rectExec_ordered (h : FlOk F u v) (t : Thr ℝ) {r : FRect ℝ} (hr : r.p1.1 ≤ r.p2.1 ∧ r.p1.2 ≤ r.p2.2) (op : RectOp ℝ) :
    (rectExec F t r op).p1.1 ≤ (rectExec F t r op).p2.1 ∧ (rectExec F t r op).p1.2 ≤ (rectExec F t r op).p2.2 := by
  have tr : ∀ (s : FRect ℝ) (dx dy : ℝ), s.p1.1 ≤ s.p2.1 ∧ s.p1.2 ≤ s.p2.2 → (rectTranslate F s dx dy).p1.1 ≤ (rectTranslate F s dx dy).p2.1 ∧ (rectTranslate F s dx dy).p1.2 ≤ (rectTranslate F s dx dy).p2.2 :=
    fun s dx dy hs => ⟨h.mono (add_le_add_left hs.1 dx), h.mono (add_le_add_left hs.2 dy)⟩
  cases op with
  | set pa pb => exact keep_ordered hr fun s hs => rectOfPts_ordered hs
  | setCenter p w k => exact keep_ordered hr fun s hs => rectOfPts_ordered hs
  | translate dx dy => exact tr _ _ _ hr
  | rotate rot => exact keep_ordered hr fun s hs => polyGetBB_ordered hs
  | extend => exact keep_ordered hr fun s hs => rectOfPts_ordered hs
  | rotateRef rot ref =>
    have h1 := tr r (-ref.1) (-ref.2) hr
    simp only [rectExec]
    rcases e : rectRotate F t rot (rectTranslate F r (-ref.1) (-ref.2)) with s | _ | _
    · exact tr _ _ _ (polyGetBB_ordered e)
    · exact h1
    · exact h1

/-- Coordinates of the two ends of a side given by its middle and its length. -/
theorem halfSide_err (h : FlOk F u v) (c : ℝ) {a : ℝ} (ha : 0 ≤ a) : |F.rnd (c - F.rnd (1 / 2 * a)) - (c - a / 2)| ≤ u * (|c| + 9 / 8 * a) ∧ |F.rnd (c + F.rnd (1 / 2 * a)) - (c + a / 2)| ≤ u * (|c| + 9 / 8 * a) ∧
    F.rnd (c - F.rnd (1 / 2 * a)) ≤ F.rnd (c + F.rnd (1 / 2 * a)) := by
  have hu := h.u_nonneg
  have hu1 := h.u_small
  have e := h.err (1 / 2 * a)
  have hz := rnd_nonneg h (show 0 ≤ 1 / 2 * a by positivity)
  rw [abs_of_nonneg (show 0 ≤ 1 / 2 * a by positivity)] at e
  generalize F.rnd (1 / 2 * a) = z at *
  have hua : u * a ≤ 1 / 64 * a := mul_le_mul_of_nonneg_right hu1 ha
  obtain ⟨e1, e2⟩ := abs_le.1 e
  have hz1 : |z| ≤ 65 / 128 * a := by rw [abs_of_nonneg hz]; linarith
  have fin : ∀ y w : ℝ, |y - w| ≤ u * |w| → |w| ≤ |c| + |z| → ∀ w', |w - w'| ≤ u * (1 / 2 * a) → |y - w'| ≤ u * (|c| + 9 / 8 * a) := by
    intro y w k1 k2 w' k3
    have t1 := abs_sub_le y w w'
    have t2 : u * |w| ≤ u * (|c| + 65 / 128 * a) := mul_le_mul_of_nonneg_left (by linarith) hu
    have t3 : 0 ≤ u * a := mul_nonneg hu ha
    linarith
  refine ⟨fin _ _ (h.err _) (abs_sub _ _) _ ?_, fin _ _ (h.err _) (abs_add_le _ _) _ ?_, h.mono (by linarith)⟩
  · rw [show c - z - (c - a / 2) = -(z - 1 / 2 * a) by ring, abs_neg]; exact e
  · rw [show c + z - (c + a / 2) = z - 1 / 2 * a by ring]; exact e

/-- The two ends are not within the threshold if the length exceeds it by a margin. -/
theorem halfSide_far (h : FlOk F u v) (c : ℝ) {a d : ℝ} (ha : 0 ≤ a) (hd : d + 4 * u * (|c| + 2 * a) ≤ a) : d ≤ |F.rnd (F.rnd (c - F.rnd (1 / 2 * a)) - F.rnd (c + F.rnd (1 / 2 * a)))| := by
  have hu := h.u_nonneg
  obtain ⟨e1, e2, e3⟩ := halfSide_err h c ha
  generalize F.rnd (c - F.rnd (1 / 2 * a)) = x at *
  generalize F.rnd (c + F.rnd (1 / 2 * a)) = y at *
  have e4 := h.err (x - y)
  have hu1 := h.u_small
  have e1' := abs_le.1 e1
  have e2' := abs_le.1 e2
  rw [abs_of_nonpos (show x - y ≤ 0 by linarith)] at e4
  have t1 := neg_abs_le (F.rnd (x - y))
  have e4' := abs_le.1 e4
  have uc : 0 ≤ u * |c| := mul_nonneg hu (abs_nonneg c)
  have ua : 0 ≤ u * a := mul_nonneg hu ha
  have t2 : u * (y - x) ≤ u * (a + 2 * (u * (|c| + 9 / 8 * a))) := mul_le_mul_of_nonneg_left (by linarith) hu
  have t3 : u * (u * |c|) ≤ 1 / 64 * (u * |c|) := mul_le_mul_of_nonneg_right hu1 uc
  have t4 : u * (u * a) ≤ 1 / 64 * (u * a) := mul_le_mul_of_nonneg_right hu1 ua
  linarith

theorem rectExec_center (F : Arith) (t : Thr ℝ) (r : FRect ℝ) (p : Pt ℝ) (a b : ℝ) : rectExec F t r (.setCenter p a b) =
    keepIfThrow r (rectOfPts F t (F.rnd (p.1 - F.rnd (1 / 2 * a)), F.rnd (p.2 - F.rnd (1 / 2 * b))) (F.rnd (p.1 + F.rnd (1 / 2 * a)), F.rnd (p.2 + F.rnd (1 / 2 * b)))) := rfl

end H2d.Fl
