import Verif.Lemmas.Axes
import Verif.Lemmas.FRect
import Verif.Lemmas.PipModel

/-! # Lemmas for orthogonal segments, arrows, points inside, lines drawn -/

set_option linter.unusedVariables false
set_option linter.unusedSimpArgs false

namespace H2d.Axes
open H2d H2d.Spec H2d.Props Real

theorem keepRes_filter {α : Type} (f : α → Res Bool) (P : α → Prop) [DecidablePred P] : ∀ l : List α, (∀ a ∈ l, ∃ b, f a = .ok b ∧ (b = true ↔ P a)) →
    keepRes f l = .ok (l.filter (fun a => decide (P a))) := by
  intro l
  induction l with
  | nil => intro _; rfl
  | cons a l ih =>
    intro h
    obtain ⟨b, hb, hp⟩ := h a (by simp)
    rw [keepRes, hb, Res.bind_ok, ih (fun x hx => h x (by simp [hx])), Res.bind_ok, Res.pure_eq]
    by_cases hc : P a
    · rw [hp.2 hc]; simp [hc]
    · have : b = false := by rw [← Bool.not_eq_true, hp]; exact hc
      rw [this]; simp [hc]

theorem around_neg {p n m : ℝ × ℝ} {d w : ℝ} (hw : w = 1 ∨ w = -1) (h : m = (w * n.1, w * n.2)) {pp : Pt ℝ × Pt ℝ} : Around p m d pp ↔ Around p n d pp := by
  subst h
  unfold Around
  rcases hw with rfl | rfl
  · simp only [one_mul]
  · simp only [neg_mul, one_mul, mul_neg, sub_neg_eq_add, ← sub_eq_add_neg]
    exact or_comm

/-- The line of a segment, with its direction. -/
theorem seg_dir {t : Thr ℝ} (h1 : dblEps < t.nullDistance) {s : Seg} (hg : GoodSeg t s) (hx : GoodSlopeX t s.1 s.2) :
    ∃ l w, segLine t s = .ok l ∧ UnitNormal l ∧ On l s.1 ∧ On l s.2 ∧ (w = 1 ∨ w = -1) ∧ l 0 = w * (unitDir s).2 ∧ l 1 = - w * (unitDir s).1 ∧
      (l 1 = 0 ∨ t.nullDenom ≤ |l 1|) ∧ (unitDir s).1 ^ 2 + (unitDir s).2 ^ 2 = 1 ∧
      s.2 = (s.1.1 + eucl s.1 s.2 * (unitDir s).1, s.1.2 + eucl s.1 s.2 * (unitDir s).2) := by
  have hp := dblEps_pos
  obtain ⟨hg1, hg2⟩ := hg
  have hd : 0 < eucl s.1 s.2 := by linarith
  have e := eucl_sq s.1 s.2
  unfold unitDir
  generalize hL : eucl s.1 s.2 = L at *
  have hu : ((s.2.1 - s.1.1) / L) ^ 2 + ((s.2.2 - s.1.2) / L) ^ 2 = 1 := by
    field_simp; linarith
  have q1 : s.2.1 + L * -((s.2.1 - s.1.1) / L) = s.1.1 := by field_simp; ring
  have q2 : s.2.2 + L * -((s.2.2 - s.1.2) / L) = s.1.2 := by field_simp; ring
  obtain ⟨l, w, a1, a2, a3, a4, a5, a6, a7, a8⟩ := dir_line (t := t) h1 (p := s.2) (u := (-((s.2.1 - s.1.1) / L), -((s.2.2 - s.1.2) / L)))
    (by simp only [neg_sq]; exact hu) (by
      constructor
      · rcases hx with h | h
        · left; simp [h]
        · right; simp only; rw [abs_neg, abs_div, abs_of_pos hd, le_div_iff₀ hd, abs_sub_comm]; rwa [hL] at h
      · rcases hg2 with h | h
        · left; simp [h]
        · right; simp only; rw [abs_neg, abs_div, abs_of_pos hd, le_div_iff₀ hd, abs_sub_comm]; rwa [hL] at h) (k := L) hg1
  simp only [q1, q2] at a1 a4
  refine ⟨l, w, a1, a2, a4, a3, a5, by rw [a6]; simp, by rw [a7]; simp, a8, hu, ?_⟩
  refine Prod.ext ?_ ?_ <;> simp only <;> field_simp <;> ring

/-- The point of a line between two others. -/
theorem onSeg_of_line {l : V3 ℝ} {p q x : Pt ℝ} (hpq : p ≠ q) (hl : UnitNormal l) (hp : On l p) (hq : On l q) (hx : On l x) :
    ∃ k : ℝ, x = (p.1 + k * (q.1 - p.1), p.2 + k * (q.2 - p.2)) := by
  have e := eucl_sq p q
  have h0 : 0 < eucl p q := lt_of_le_of_ne (eucl_nonneg _ _) (fun h => hpq (eucl_eq_zero.1 h.symm))
  have hD : 0 < (p.1 - q.1) ^ 2 + (p.2 - q.2) ^ 2 := by rw [← e]; positivity
  unfold On at hp hq hx; unfold UnitNormal at hl
  have hc : (x.1 - p.1) * (q.2 - p.2) - (x.2 - p.2) * (q.1 - p.1) = 0 := by
    have a1 : l 0 * (x.1 - p.1) + l 1 * (x.2 - p.2) = 0 := by linarith
    have a2 : l 0 * (q.1 - p.1) + l 1 * (q.2 - p.2) = 0 := by linarith
    linear_combination ((x.1 - p.1) * (q.2 - p.2) - (x.2 - p.2) * (q.1 - p.1)) * (-hl) + (l 0 * (q.2 - p.2) - l 1 * (q.1 - p.1)) * a1 + (- l 0 * (x.2 - p.2) + l 1 * (x.1 - p.1)) * a2
  refine ⟨((x.1 - p.1) * (q.1 - p.1) + (x.2 - p.2) * (q.2 - p.2)) / ((p.1 - q.1) ^ 2 + (p.2 - q.2) ^ 2), Prod.ext ?_ ?_⟩
  · simp only; field_simp; linear_combination (q.2 - p.2) * hc
  · simp only; field_simp; linear_combination (p.1 - q.1) * hc

theorem mix_pos {a b k : ℝ} (ha : 0 < a) (hb : 0 < b) (h0 : 0 ≤ k) (h1 : k ≤ 1) : 0 < a + k * (b - a) := by
  rcases h0.eq_or_lt with rfl | h
  · linarith
  · have := mul_pos h hb
    have := mul_nonneg (sub_nonneg.2 h1) ha.le
    linarith

/-- An affine function that is positive at the corners is positive in the rectangle. -/
theorem rect_pos {l : V3 ℝ} {r : FRect ℝ} (hr : r.p1.1 < r.p2.1 ∧ r.p1.2 < r.p2.2) {x : Pt ℝ} (hx : r.p1.1 ≤ x.1 ∧ x.1 ≤ r.p2.1 ∧ r.p1.2 ≤ x.2 ∧ x.2 ≤ r.p2.2)
    (e : ℝ) (h00 : 0 < e * RectM.lv l (r.p1.1, r.p1.2)) (h01 : 0 < e * RectM.lv l (r.p1.1, r.p2.2)) (h11 : 0 < e * RectM.lv l (r.p2.1, r.p2.2))
    (h10 : 0 < e * RectM.lv l (r.p2.1, r.p1.2)) : RectM.lv l x ≠ 0 := by
  obtain ⟨r1, r2⟩ := hr
  obtain ⟨x1, x2, x3, x4⟩ := hx
  have w : 0 < r.p2.1 - r.p1.1 := by linarith
  have h : 0 < r.p2.2 - r.p1.2 := by linarith
  have k1 : 0 ≤ (x.1 - r.p1.1) / (r.p2.1 - r.p1.1) := div_nonneg (by linarith) w.le
  have k2 : (x.1 - r.p1.1) / (r.p2.1 - r.p1.1) ≤ 1 := by rw [div_le_one w]; linarith
  have k3 : 0 ≤ (x.2 - r.p1.2) / (r.p2.2 - r.p1.2) := div_nonneg (by linarith) h.le
  have k4 : (x.2 - r.p1.2) / (r.p2.2 - r.p1.2) ≤ 1 := by rw [div_le_one h]; linarith
  have m := mix_pos (mix_pos h00 h10 k1 k2) (mix_pos h01 h11 k1 k2) k3 k4
  intro hc
  have : e * RectM.lv l x = 0 := by rw [hc]; ring
  refine m.ne' ?_
  rw [← this]
  unfold RectM.lv
  simp only
  field_simp
  ring

/-- Points of the contour on a line that goes by no corner. -/
theorem contour_apart {n : ℝ} (hn : 0 < n) {l : V3 ℝ} (hl : UnitNormal l) {r : FRect ℝ} (hr : LongSides n r) (hfar : ∀ c ∈ r.get4Pts, ∀ q, On l q → n ≤ eucl c q)
    {p q : Pt ℝ} (hne : p ≠ q) (hp : On l p) (hq : On l q) (cp : OnRect r p) (cq : OnRect r q) : n ≤ eucl p q := by
  have v : ∀ x a b : ℝ, eucl (x, a) (x, b) = |a - b| := by
    intro x a b; rw [eucl_eq_iff (abs_nonneg _), sq_abs]; simp
  have w : ∀ y a b : ℝ, eucl (a, y) (b, y) = |a - b| := by
    intro x a b; rw [eucl_eq_iff (abs_nonneg _), sq_abs]; simp
  have hxx : |p.1 - q.1| ≤ eucl p q := RectM.abs_fst_le p q
  have hyy : |p.2 - q.2| ≤ eucl p q := RectM.abs_snd_le p q
  have hvert : ∀ a b b' : Pt ℝ, On l a → a.1 = b.1 → On l b → a ≠ b → b'.1 = a.1 → On l b' := by
    intro a b b' ha e hb hab e'
    unfold On at *; unfold UnitNormal at hl
    have h1 : l 1 * (a.2 - b.2) = 0 := by rw [e] at ha; linarith
    rcases mul_eq_zero.1 h1 with h | h
    · rw [h] at ha ⊢; rw [e']; linarith
    · exact absurd (Prod.ext e (by linarith)) hab
  have hhor : ∀ a b b' : Pt ℝ, On l a → a.2 = b.2 → On l b → a ≠ b → b'.2 = a.2 → On l b' := by
    intro a b b' ha e hb hab e'
    unfold On at *; unfold UnitNormal at hl
    have h1 : l 0 * (a.1 - b.1) = 0 := by rw [e] at ha; linarith
    rcases mul_eq_zero.1 h1 with h | h
    · rw [h] at ha ⊢; rw [e']; linarith
    · exact absurd (Prod.ext (by linarith) e) hab
  obtain ⟨r1, r2⟩ := hr
  have c00 := hfar (r.p1.1, r.p1.2) (by simp [FRect.get4Pts])
  have c01 := hfar (r.p1.1, r.p2.2) (by simp [FRect.get4Pts])
  have c11 := hfar (r.p2.1, r.p2.2) (by simp [FRect.get4Pts])
  have c10 := hfar (r.p2.1, r.p1.2) (by simp [FRect.get4Pts])
  have bad : ∀ c : Pt ℝ, (∀ q, On l q → n ≤ eucl c q) → ¬ On l c := by
    intro c h ho; have := h c ho; rw [eucl_self] at this; linarith
  -- one on a vertical side, the other on a horizontal side
  have adj : ∀ a b : Pt ℝ, On l a → On l b → OnVert r a → OnHoriz r b → n ≤ |a.2 - b.2| := by
    rintro ⟨a1, a2⟩ ⟨b1, b2⟩ ha hb ⟨ea | ea, -, -⟩ ⟨eb | eb, -, -⟩ <;> simp only at ea eb <;> subst ea <;> subst eb <;> simp only
    · have := c00 _ ha; rwa [v, abs_sub_comm] at this
    · have := c01 _ ha; rwa [v, abs_sub_comm] at this
    · have := c10 _ ha; rwa [v, abs_sub_comm] at this
    · have := c11 _ ha; rwa [v, abs_sub_comm] at this
  rcases cp with cp | cp <;> rcases cq with cq | cq
  · rcases cp.1 with e | e <;> rcases cq.1 with e' | e'
    · exact absurd (hvert p q _ hp (e.trans e'.symm) hq hne e.symm) (bad _ c00)
    · refine le_trans ?_ hxx; rw [e, e', abs_sub_comm]; exact le_trans (by linarith) (le_abs_self _)
    · refine le_trans ?_ hxx; rw [e, e']; exact le_trans (by linarith) (le_abs_self _)
    · exact absurd (hvert p q _ hp (e.trans e'.symm) hq hne e.symm) (bad _ c11)
  · exact (adj p q hp hq cp cq).trans hyy
  · have := adj q p hq hp cq cp; rw [abs_sub_comm] at this; exact this.trans hyy
  · rcases cp.1 with e | e <;> rcases cq.1 with e' | e'
    · exact absurd (hhor p q _ hp (e.trans e'.symm) hq hne e.symm) (bad _ c00)
    · refine le_trans ?_ hyy; rw [e, e', abs_sub_comm]; exact le_trans (by linarith) (le_abs_self _)
    · refine le_trans ?_ hyy; rw [e, e']; exact le_trans (by linarith) (le_abs_self _)
    · exact absurd (hhor p q _ hp (e.trans e'.symm) hq hne e.symm) (bad _ c11)

/-- A contour point is not strictly between two points of the rectangle, unless the line holds a side. -/
theorem contour_end {l : V3 ℝ} {r : FRect ℝ} (hfar : ∀ c ∈ r.get4Pts, ¬ On l c) {p q : Pt ℝ} (hne : p ≠ q) (hp : On l p) (hq : On l q) (cp : OnRect r p)
    (hr : ∀ {z : Pt ℝ}, OnRect r z → r.p1.1 ≤ z.1 ∧ z.1 ≤ r.p2.1 ∧ r.p1.2 ≤ z.2 ∧ z.2 ≤ r.p2.2) (cq : OnRect r q) {k : ℝ} (hk : k < 0)
    (hx : r.p1.1 ≤ p.1 + k * (q.1 - p.1) ∧ p.1 + k * (q.1 - p.1) ≤ r.p2.1 ∧ r.p1.2 ≤ p.2 + k * (q.2 - p.2) ∧ p.2 + k * (q.2 - p.2) ≤ r.p2.2) : False := by
  have z : ∀ d : ℝ, 0 ≤ d → 0 ≤ k * d → d = 0 := fun d h1 h2 => by nlinarith
  have z' : ∀ d : ℝ, d ≤ 0 → k * d ≤ 0 → d = 0 := fun d h1 h2 => by nlinarith
  obtain ⟨q1, q2, q3, q4⟩ := hr cq
  have hvert : p.1 = q.1 → ∀ b' : Pt ℝ, b'.1 = p.1 → On l b' := by
    intro e b' e'
    unfold On at *
    have h1 : l 1 * (p.2 - q.2) = 0 := by rw [e] at hp; linarith
    rcases mul_eq_zero.1 h1 with h | h
    · rw [h] at hp ⊢; rw [e']; linarith
    · exact absurd (Prod.ext e (by linarith)) hne
  have hhor : p.2 = q.2 → ∀ b' : Pt ℝ, b'.2 = p.2 → On l b' := by
    intro e b' e'
    unfold On at *
    have h1 : l 0 * (p.1 - q.1) = 0 := by rw [e] at hp; linarith
    rcases mul_eq_zero.1 h1 with h | h
    · rw [h] at hp ⊢; rw [e']; linarith
    · exact absurd (Prod.ext (by linarith) e) hne
  rcases cp with ⟨e | e, -, -⟩ | ⟨e | e, -, -⟩
  · have := z (q.1 - p.1) (by linarith) (by linarith [hx.1])
    exact hfar (r.p1.1, r.p1.2) (by simp [FRect.get4Pts]) (hvert (by linarith) _ e.symm)
  · have := z' (q.1 - p.1) (by linarith) (by linarith [hx.2.1])
    exact hfar (r.p2.1, r.p2.2) (by simp [FRect.get4Pts]) (hvert (by linarith) _ e.symm)
  · have := z (q.2 - p.2) (by linarith) (by linarith [hx.2.2.1])
    exact hfar (r.p1.1, r.p1.2) (by simp [FRect.get4Pts]) (hhor (by linarith) _ e.symm)
  · have := z' (q.2 - p.2) (by linarith) (by linarith [hx.2.2.2])
    exact hfar (r.p2.1, r.p2.2) (by simp [FRect.get4Pts]) (hhor (by linarith) _ e.symm)

theorem onRect_in {r : FRect ℝ} (hr : r.p1.1 < r.p2.1 ∧ r.p1.2 < r.p2.2) {z : Pt ℝ} (h : OnRect r z) : r.p1.1 ≤ z.1 ∧ z.1 ≤ r.p2.1 ∧ r.p1.2 ≤ z.2 ∧ z.2 ≤ r.p2.2 := by
  obtain ⟨r1, r2⟩ := hr
  rcases h with ⟨e | e, a, b⟩ | ⟨e | e, a, b⟩
  · exact ⟨e.ge, by linarith, a, b⟩
  · exact ⟨by linarith, e.le, a, b⟩
  · exact ⟨a, b, e.ge, by linarith⟩
  · exact ⟨a, b, by linarith, e.le⟩

/-- The part of a line in a rectangle, from its two contour points. -/
theorem chord {n : ℝ} (hn : 0 < n) {l : V3 ℝ} (hl : UnitNormal l) {r : FRect ℝ} (hr : LongSides n r) (hfar : ∀ c ∈ r.get4Pts, ¬ On l c)
    {p q : Pt ℝ} (hne : p ≠ q) (hp : On l p) (hq : On l q) (cp : OnRect r p) (cq : OnRect r q) (x : Pt ℝ) :
    OnSeg p q x ↔ On l x ∧ r.p1.1 ≤ x.1 ∧ x.1 ≤ r.p2.1 ∧ r.p1.2 ≤ x.2 ∧ x.2 ≤ r.p2.2 := by
  have hpr : r.p1.1 < r.p2.1 ∧ r.p1.2 < r.p2.2 := ⟨by linarith [hr.1], by linarith [hr.2]⟩
  constructor
  · rintro ⟨k, k0, k1, rfl⟩
    refine ⟨?_, ?_⟩
    · unfold On at *; simp only; linear_combination (1 - k) * hp + k * hq
    · obtain ⟨a1, a2, a3, a4⟩ := onRect_in hpr cp
      obtain ⟨b1, b2, b3, b4⟩ := onRect_in hpr cq
      have c1 : 0 ≤ 1 - k := by linarith
      refine ⟨?_, ?_, ?_, ?_⟩ <;> simp only <;>
        nlinarith [mul_nonneg c1 (sub_nonneg.2 a1), mul_nonneg c1 (sub_nonneg.2 a2), mul_nonneg c1 (sub_nonneg.2 a3), mul_nonneg c1 (sub_nonneg.2 a4),
          mul_nonneg k0 (sub_nonneg.2 b1), mul_nonneg k0 (sub_nonneg.2 b2), mul_nonneg k0 (sub_nonneg.2 b3), mul_nonneg k0 (sub_nonneg.2 b4)]
  · rintro ⟨ho, hin⟩
    obtain ⟨k, rfl⟩ := onSeg_of_line hne hl hp hq ho
    refine ⟨k, ?_, ?_, rfl⟩
    · by_contra hc
      exact contour_end hfar hne hp hq cp (onRect_in hpr) cq (not_le.1 hc) hin
    · by_contra hc
      refine contour_end hfar hne.symm hq hp cq (onRect_in hpr) cp (k := 1 - k) (by linarith) ?_
      obtain ⟨a, b, c, d⟩ := hin
      simp only at a b c d
      refine ⟨?_, ?_, ?_, ?_⟩ <;> linarith

theorem ofPts_ne_ub (t : ℝ) (p q : Pt ℝ) : FRect.ofPts t p q ≠ .ub := by
  unfold FRect.ofPts getCorrectPoints
  split_ifs <;> simp

theorem segLineInter_ne_ub (t : Thr ℝ) (s : Seg) (l : V3 ℝ) : segLineInter t s l ≠ .ub := by
  unfold segLineInter
  refine Pip.bind_ne_ub (Pip.segLine_ne_ub t s) fun m => ?_
  split_ifs
  · simp
  · refine Pip.bind_ne_ub ?_ fun p => ?_
    · unfold lineInter; split_ifs; simp
    · simp only; split_ifs <;> simp

theorem rectLineLoop_ne_ub (t : Thr ℝ) (l : V3 ℝ) : ∀ (segs : List Seg) (pts : List (Pt ℝ)), rectLineLoop t l segs pts ≠ .ub
  | [], pts => by simp [rectLineLoop]
  | s :: rest, pts => by
    unfold rectLineLoop
    refine Pip.bind_ne_ub (segLineInter_ne_ub t s l) fun o => ?_
    cases o with
    | none => exact rectLineLoop_ne_ub t l rest pts
    | some p =>
      have : ∀ q : List (Pt ℝ), (if q.length = 2 then pure q else rectLineLoop t l rest q : Res (List (Pt ℝ))) ≠ .ub := by
        intro q
        split_ifs
        · simp
        · exact rectLineLoop_ne_ub t l rest _
      exact this _

theorem rectLineInter_ne_ub (t : Thr ℝ) (r : FRect ℝ) (l : V3 ℝ) : rectLineInter t r l ≠ .ub := by
  unfold rectLineInter rectSegs
  exact Pip.bind_ne_ub (Pip.bind_ne_ub (Pip.segMake_ne_ub _ _ _ _) fun _ => Pip.bind_ne_ub (Pip.segMake_ne_ub _ _ _ _) fun _ => Pip.bind_ne_ub (Pip.segMake_ne_ub _ _ _ _) fun _ =>
    Pip.bind_ne_ub (Pip.segMake_ne_ub _ _ _ _) fun _ => by simp) fun _ => rectLineLoop_ne_ub _ _ _ _

end H2d.Axes
