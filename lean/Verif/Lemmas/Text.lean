import Verif.Spec.Text
import Mathlib.Tactic.NormNum
import Mathlib.Data.List.Forall2
import Mathlib.Tactic.FinCases
import Mathlib.Data.Fintype.Basic

/-!
# Texts can be cut again
-/

namespace H2d.Text
open H2d H2d.Spec

variable {K : Type} [Field K] [LinearOrder K] {num : K → List Char} {t : Thr K}

theorem cut : ∀ {a b : List Char} {c d : Char} {r r' : List Char}, (∀ x ∈ a, x ∈ numChars) → (∀ x ∈ b, x ∈ numChars) → c ∉ numChars → d ∉ numChars →
    a ++ c :: r = b ++ d :: r' → a = b ∧ c = d ∧ r = r'
  | [], [], c, d, r, r', _, _, _, _, h => by simpa using h
  | [], y :: b, c, d, r, r', _, hb, hc, _, h => by
      simp only [List.nil_append, List.cons_append, List.cons.injEq] at h
      exact absurd (h.1 ▸ hb y (by simp)) hc
  | x :: a, [], c, d, r, r', ha, _, _, hd, h => by
      simp only [List.nil_append, List.cons_append, List.cons.injEq] at h
      exact absurd (h.1 ▸ ha x (by simp)) hd
  | x :: a, y :: b, c, d, r, r', ha, hb, hc, hd, h => by
      simp only [List.cons_append, List.cons.injEq] at h
      obtain ⟨e1, e2, e3⟩ := cut (fun z hz => ha z (by simp [hz])) (fun z hz => hb z (by simp [hz])) hc hd h.2
      exact ⟨by rw [h.1, e1], e2, e3⟩

/-- What follows an element: nothing, or the end of a line. -/
def Ends (r : List Char) : Prop := r = [] ∨ ∃ r', r = '\n' :: r'

theorem cutEnd {a b r r' : List Char} (ha : ∀ x ∈ a, x ∈ numChars) (hb : ∀ x ∈ b, x ∈ numChars) (hr : Ends r) (hr' : Ends r') (h : a ++ r = b ++ r') : a = b ∧ r = r' := by
  have hn : '\n' ∉ numChars := by decide
  rcases hr with rfl | ⟨r, rfl⟩ <;> rcases hr' with rfl | ⟨r', rfl⟩
  · exact ⟨by simpa using h, rfl⟩
  · rw [List.append_nil] at h
    exact absurd (ha '\n' (by rw [h]; simp)) hn
  · rw [List.append_nil] at h
    exact absurd (hb '\n' (by rw [← h]; simp)) hn
  · obtain ⟨e1, _, e3⟩ := cut ha hb hn hn h
    exact ⟨e1, by rw [e3]⟩

theorem triple_cut (hw : Writes num) {v w : V3 K} {r r' : List Char} (h : tripleText num v ++ r = tripleText num w ++ r') : v = w ∧ r = r' := by
  simp only [tripleText, List.cons_append, List.append_assoc, List.cons.injEq, true_and, List.nil_append] at h
  obtain ⟨e0, _, h⟩ := cut (hw.chars _) (hw.chars _) (by decide) (by decide) h
  obtain ⟨e1, _, h⟩ := cut (hw.chars _) (hw.chars _) (by decide) (by decide) h
  obtain ⟨e2, _, h⟩ := cut (hw.chars _) (hw.chars _) (by decide) (by decide) h
  refine ⟨?_, h⟩
  funext i
  fin_cases i
  · exact hw.inj _ _ e0
  · exact hw.inj _ _ e1
  · exact hw.inj _ _ e2

theorem pt_triple (hw : Writes num) {p w : V3 K} {r r' : List Char} (h : ptText num t p ++ r = tripleText num w ++ r') : |p 2| < t.nullDenom ∧ p = w ∧ r = r' := by
  unfold ptText at h
  by_cases k : isInf t p = true
  · rw [if_pos k] at h
    exact ⟨by simpa [isInf] using k, triple_cut hw h⟩
  · rw [if_neg k] at h
    simp only [tripleText, List.cons_append, List.append_assoc, List.cons.injEq, true_and, List.nil_append] at h
    obtain ⟨_, _, h⟩ := cut (hw.chars _) (hw.chars _) (by decide) (by decide) h
    obtain ⟨_, e, _⟩ := cut (hw.chars _) (hw.chars _) (by decide) (by decide) h
    exact absurd e (by decide)

theorem pt_cut (hw : Writes num) {p q : V3 K} {r r' : List Char} (h : ptText num t p ++ r = ptText num t q ++ r') : SamePt t p q ∧ r = r' := by
  by_cases k : isInf t q = true
  · have e : ptText num t q = tripleText num q := by unfold ptText; rw [if_pos k]
    rw [e] at h
    obtain ⟨a, b, c⟩ := pt_triple hw h
    exact ⟨Or.inl ⟨a, by simpa [isInf] using k, b⟩, c⟩
  by_cases k' : isInf t p = true
  · have e : ptText num t p = tripleText num p := by unfold ptText; rw [if_pos k']
    rw [e] at h
    obtain ⟨a, b, c⟩ := pt_triple hw h.symm
    exact ⟨Or.inl ⟨by simpa [isInf] using k', a, b.symm⟩, c.symm⟩
  unfold ptText at h
  rw [if_neg k, if_neg k'] at h
  simp only [List.cons_append, List.append_assoc, List.cons.injEq, true_and, List.nil_append] at h
  obtain ⟨e0, _, h⟩ := cut (hw.chars _) (hw.chars _) (by decide) (by decide) h
  obtain ⟨e1, _, h⟩ := cut (hw.chars _) (hw.chars _) (by decide) (by decide) h
  exact ⟨Or.inr ⟨by simpa [isInf] using k', by simpa [isInf] using k, hw.inj _ _ e0, hw.inj _ _ e1⟩, h⟩

theorem pt_cons (num : K → List Char) (t : Thr K) (p : V3 K) : ∃ s, ptText num t p = '[' :: s := by
  unfold ptText tripleText
  by_cases k : isInf t p = true
  · rw [if_pos k]; exact ⟨_, rfl⟩
  · rw [if_neg k]; exact ⟨_, rfl⟩

theorem pts_cut (hw : Writes num) : ∀ {l m : List (V3 K)} {r r' : List Char}, Ends r → Ends r' → ptsText num t l ++ r = ptsText num t m ++ r' →
    List.Forall₂ (SamePt t) l m ∧ r = r'
  | [], [], r, r', _, _, h => ⟨.nil, by simpa [ptsText] using h⟩
  | [], q :: m, r, r', hr, _, h => by
      obtain ⟨s, e⟩ := pt_cons num t q
      rcases hr with rfl | ⟨r, rfl⟩ <;> simp [ptsText, e] at h
  | p :: l, [], r, r', _, hr, h => by
      obtain ⟨s, e⟩ := pt_cons num t p
      rcases hr with rfl | ⟨r, rfl⟩ <;> simp [ptsText, e] at h
  | p :: l, q :: m, r, r', hr, hr', h => by
      simp only [ptsText, List.append_assoc, List.cons_append] at h
      obtain ⟨a, h⟩ := pt_cut hw h
      simp only [List.cons.injEq, true_and] at h
      obtain ⟨b, h⟩ := pts_cut hw hr hr' h
      exact ⟨.cons a b, h⟩

theorem poly_cut (hw : Writes num) {l m : List (V3 K)} {r r' : List Char} (hr : Ends r) (hr' : Ends r') (h : polyText num t l ++ r = polyText num t m ++ r') :
    List.Forall₂ (SamePt t) l m ∧ r = r' := by
  unfold polyText at h
  rw [List.append_assoc, List.append_assoc] at h
  have h := List.append_cancel_left h
  cases l with
  | nil =>
    cases m with
    | nil => exact ⟨.nil, List.append_cancel_left h⟩
    | cons q m =>
      obtain ⟨s, e⟩ := pt_cons num t q
      simp [ptsText, e] at h
  | cons p l =>
    cases m with
    | nil =>
      obtain ⟨s, e⟩ := pt_cons num t p
      simp [ptsText, e] at h
    | cons q m => exact pts_cut hw hr hr' h

theorem ends_no {r : List Char} {c : Char} {s : List Char} (hr : Ends r) (hc : c ≠ '\n') (h : r = c :: s) : False := by
  rcases hr with rfl | ⟨r, rfl⟩
  · cases h
  · simp only [List.cons.injEq] at h
    exact hc h.1.symm

theorem point_cut (hw : Writes num) (p : V3 K) {s' : Shape K} {r r' : List Char} (hr : Ends r) (hr' : Ends r') (h : shapeText num t (.point p) ++ r = shapeText num t s' ++ r') :
    (SamePrim t (.point p) s' ∨ LineAndInf t (.point p) s') ∧ r = r' := by
  have go : ∀ {a b : V3 K} {x y : List Char}, ptText num t a ++ x = ptText num t b ++ y → SamePt t a b ∧ x = y := fun h => pt_cut hw h
  cases s' with
  | point q => obtain ⟨a, b⟩ := go h; exact ⟨Or.inl a, b⟩
  | line l => obtain ⟨a, b, c⟩ := pt_triple hw h; exact ⟨Or.inr ⟨a, b⟩, c⟩
  | segment c d =>
    simp only [shapeText, List.append_assoc, List.cons_append] at h
    exact (ends_no hr (by decide) (go h).2).elim
  | osegment c d =>
    simp only [shapeText, List.append_assoc, List.cons_append] at h
    exact (ends_no hr (by decide) (go h).2).elim
  | _ => obtain ⟨u, e⟩ := pt_cons num t p; simp [shapeText, rectText, circleText, ellipseText, e] at h

theorem line_cut (hw : Writes num) (l : V3 K) {s' : Shape K} {r r' : List Char} (hr : Ends r) (hr' : Ends r') (h : shapeText num t (.line l) ++ r = shapeText num t s' ++ r') :
    (SamePrim t (.line l) s' ∨ LineAndInf t (.line l) s') ∧ r = r' := by
  have go : ∀ {a b : V3 K} {x y : List Char}, ptText num t a ++ x = ptText num t b ++ y → SamePt t a b ∧ x = y := fun h => pt_cut hw h
  cases s' with
  | point q => obtain ⟨a, b, c⟩ := pt_triple hw h.symm; exact ⟨Or.inr ⟨a, b⟩, c.symm⟩
  | line m => obtain ⟨a, b⟩ := triple_cut hw h; exact ⟨Or.inl a, b⟩
  | segment c d =>
    simp only [shapeText, List.append_assoc, List.cons_append] at h
    obtain ⟨_, _, c⟩ := pt_triple hw h.symm
    exact (ends_no hr (by decide) c.symm).elim
  | osegment c d =>
    simp only [shapeText, List.append_assoc, List.cons_append] at h
    obtain ⟨_, _, c⟩ := pt_triple hw h.symm
    exact (ends_no hr (by decide) c.symm).elim
  | _ => simp [shapeText, rectText, circleText, ellipseText, tripleText] at h

theorem segment_cut (hw : Writes num) (a b : V3 K) {s' : Shape K} {r r' : List Char} (hr : Ends r) (hr' : Ends r') (h : shapeText num t (.segment a b) ++ r = shapeText num t s' ++ r') :
    (SamePrim t (.segment a b) s' ∨ LineAndInf t (.segment a b) s') ∧ r = r' := by
  have go : ∀ {a b : V3 K} {x y : List Char}, ptText num t a ++ x = ptText num t b ++ y → SamePt t a b ∧ x = y := fun h => pt_cut hw h
  cases s' with
  | point q =>
    simp only [shapeText, List.append_assoc, List.cons_append] at h
    exact (ends_no hr' (by decide) (go h).2.symm).elim
  | line l =>
    simp only [shapeText, List.append_assoc, List.cons_append] at h
    obtain ⟨_, _, c⟩ := pt_triple hw h
    exact (ends_no hr' (by decide) c.symm).elim
  | segment c d =>
    simp only [shapeText, List.append_assoc, List.cons_append] at h
    obtain ⟨e1, h⟩ := go h
    simp only [List.cons.injEq, true_and] at h
    obtain ⟨e2, h⟩ := go h
    exact ⟨Or.inl ⟨e1, e2⟩, h⟩
  | osegment c d =>
    simp only [shapeText, List.append_assoc, List.cons_append] at h
    have h := (go h).2
    simp at h
  | _ => obtain ⟨u, e⟩ := pt_cons num t a; simp [shapeText, rectText, circleText, ellipseText, e] at h

theorem osegment_cut (hw : Writes num) (a b : V3 K) {s' : Shape K} {r r' : List Char} (hr : Ends r) (hr' : Ends r') (h : shapeText num t (.osegment a b) ++ r = shapeText num t s' ++ r') :
    (SamePrim t (.osegment a b) s' ∨ LineAndInf t (.osegment a b) s') ∧ r = r' := by
  have go : ∀ {a b : V3 K} {x y : List Char}, ptText num t a ++ x = ptText num t b ++ y → SamePt t a b ∧ x = y := fun h => pt_cut hw h
  cases s' with
  | point q =>
    simp only [shapeText, List.append_assoc, List.cons_append] at h
    exact (ends_no hr' (by decide) (go h).2.symm).elim
  | line l =>
    simp only [shapeText, List.append_assoc, List.cons_append] at h
    obtain ⟨_, _, c⟩ := pt_triple hw h
    exact (ends_no hr' (by decide) c.symm).elim
  | segment c d =>
    simp only [shapeText, List.append_assoc, List.cons_append] at h
    have h := (go h).2
    simp at h
  | osegment c d =>
    simp only [shapeText, List.append_assoc, List.cons_append] at h
    obtain ⟨e1, h⟩ := go h
    simp only [List.cons.injEq, true_and] at h
    obtain ⟨e2, h⟩ := go h
    exact ⟨Or.inl ⟨e1, e2⟩, h⟩
  | _ => obtain ⟨u, e⟩ := pt_cons num t a; simp [shapeText, rectText, circleText, ellipseText, e] at h

theorem rect_cut (hw : Writes num) (a b : V3 K) {s' : Shape K} {r r' : List Char} (hr : Ends r) (hr' : Ends r') (h : shapeText num t (.rect a b) ++ r = shapeText num t s' ++ r') :
    (SamePrim t (.rect a b) s' ∨ LineAndInf t (.rect a b) s') ∧ r = r' := by
  have go : ∀ {a b : V3 K} {x y : List Char}, ptText num t a ++ x = ptText num t b ++ y → SamePt t a b ∧ x = y := fun h => pt_cut hw h
  cases s' with
  | rect c d =>
    simp only [shapeText, rectText, circleText, ellipseText, List.append_assoc, List.cons_append, List.nil_append, List.cons.injEq, true_and] at h
    obtain ⟨e1, h⟩ := go h
    simp only [List.cons.injEq, true_and] at h
    obtain ⟨e2, h⟩ := go h
    exact ⟨Or.inl ⟨e1, e2⟩, h⟩
  | point q => obtain ⟨u, e⟩ := pt_cons num t q; simp [shapeText, rectText, circleText, ellipseText, e] at h
  | segment q _ => obtain ⟨u, e⟩ := pt_cons num t q; simp [shapeText, rectText, circleText, ellipseText, e] at h
  | osegment q _ => obtain ⟨u, e⟩ := pt_cons num t q; simp [shapeText, rectText, circleText, ellipseText, e] at h
  | _ => simp [shapeText, rectText, circleText, ellipseText, tripleText] at h

theorem circle_cut (hw : Writes num) (c : V3 K) (x : K) {s' : Shape K} {r r' : List Char} (hr : Ends r) (hr' : Ends r') (h : shapeText num t (.circle c x) ++ r = shapeText num t s' ++ r') :
    (SamePrim t (.circle c x) s' ∨ LineAndInf t (.circle c x) s') ∧ r = r' := by
  have go : ∀ {a b : V3 K} {x y : List Char}, ptText num t a ++ x = ptText num t b ++ y → SamePt t a b ∧ x = y := fun h => pt_cut hw h
  cases s' with
  | circle d y =>
    simp only [shapeText, rectText, circleText, ellipseText, List.append_assoc, List.cons_append, List.nil_append, List.cons.injEq, true_and] at h
    obtain ⟨e1, h⟩ := go h
    simp only [List.cons.injEq, true_and] at h
    obtain ⟨e2, h⟩ := cutEnd (hw.chars _) (hw.chars _) hr hr' h
    exact ⟨Or.inl ⟨e1, hw.inj _ _ e2⟩, h⟩
  | point q => obtain ⟨u, e⟩ := pt_cons num t q; simp [shapeText, rectText, circleText, ellipseText, e] at h
  | segment q _ => obtain ⟨u, e⟩ := pt_cons num t q; simp [shapeText, rectText, circleText, ellipseText, e] at h
  | osegment q _ => obtain ⟨u, e⟩ := pt_cons num t q; simp [shapeText, rectText, circleText, ellipseText, e] at h
  | _ => simp [shapeText, rectText, circleText, ellipseText, tripleText] at h

theorem ellipse_cut (hw : Writes num) (a b c d e : K) {s' : Shape K} {r r' : List Char} (hr : Ends r) (hr' : Ends r') (h : shapeText num t (.ellipse a b c d e) ++ r = shapeText num t s' ++ r') :
    (SamePrim t (.ellipse a b c d e) s' ∨ LineAndInf t (.ellipse a b c d e) s') ∧ r = r' := by
  have go : ∀ {a b : V3 K} {x y : List Char}, ptText num t a ++ x = ptText num t b ++ y → SamePt t a b ∧ x = y := fun h => pt_cut hw h
  cases s' with
  | ellipse a' b' c' d' e' =>
    simp only [shapeText, rectText, circleText, ellipseText, List.append_assoc, List.cons_append, List.nil_append, List.cons.injEq, true_and] at h
    obtain ⟨e1, _, h⟩ := cut (hw.chars _) (hw.chars _) (by decide) (by decide) h
    obtain ⟨e2, _, h⟩ := cut (hw.chars _) (hw.chars _) (by decide) (by decide) h
    simp only [List.cons.injEq, true_and] at h
    obtain ⟨e3, _, h⟩ := cut (hw.chars _) (hw.chars _) (by decide) (by decide) h
    simp only [List.cons.injEq, true_and] at h
    obtain ⟨e4, _, h⟩ := cut (hw.chars _) (hw.chars _) (by decide) (by decide) h
    simp only [List.cons.injEq, true_and] at h
    obtain ⟨e5, _, h⟩ := cut (hw.chars _) (hw.chars _) (by decide) (by decide) h
    exact ⟨Or.inl ⟨hw.inj _ _ e1, hw.inj _ _ e2, hw.inj _ _ e3, hw.inj _ _ e4, hw.inj _ _ e5⟩, h⟩
  | point q => obtain ⟨u, e⟩ := pt_cons num t q; simp [shapeText, rectText, circleText, ellipseText, e] at h
  | segment q _ => obtain ⟨u, e⟩ := pt_cons num t q; simp [shapeText, rectText, circleText, ellipseText, e] at h
  | osegment q _ => obtain ⟨u, e⟩ := pt_cons num t q; simp [shapeText, rectText, circleText, ellipseText, e] at h
  | _ => simp [shapeText, rectText, circleText, ellipseText, tripleText] at h

theorem opoly_cut (hw : Writes num) (l : List (V3 K)) {s' : Shape K} {r r' : List Char} (hr : Ends r) (hr' : Ends r') (h : shapeText num t (.opoly l) ++ r = shapeText num t s' ++ r') :
    (SamePrim t (.opoly l) s' ∨ LineAndInf t (.opoly l) s') ∧ r = r' := by
  have go : ∀ {a b : V3 K} {x y : List Char}, ptText num t a ++ x = ptText num t b ++ y → SamePt t a b ∧ x = y := fun h => pt_cut hw h
  cases s' with
  | opoly m =>
    simp only [shapeText, List.cons_append, List.cons.injEq, true_and] at h
    obtain ⟨a, b⟩ := poly_cut hw hr hr' h
    exact ⟨Or.inl a, b⟩
  | point q => obtain ⟨u, e⟩ := pt_cons num t q; simp [shapeText, rectText, circleText, ellipseText, e] at h
  | segment q _ => obtain ⟨u, e⟩ := pt_cons num t q; simp [shapeText, rectText, circleText, ellipseText, e] at h
  | osegment q _ => obtain ⟨u, e⟩ := pt_cons num t q; simp [shapeText, rectText, circleText, ellipseText, e] at h
  | _ => simp [shapeText, rectText, circleText, ellipseText, tripleText] at h

theorem cpoly_cut (hw : Writes num) (l : List (V3 K)) {s' : Shape K} {r r' : List Char} (hr : Ends r) (hr' : Ends r') (h : shapeText num t (.cpoly l) ++ r = shapeText num t s' ++ r') :
    (SamePrim t (.cpoly l) s' ∨ LineAndInf t (.cpoly l) s') ∧ r = r' := by
  have go : ∀ {a b : V3 K} {x y : List Char}, ptText num t a ++ x = ptText num t b ++ y → SamePt t a b ∧ x = y := fun h => pt_cut hw h
  cases s' with
  | cpoly m =>
    simp only [shapeText, List.cons_append, List.cons.injEq, true_and] at h
    obtain ⟨a, b⟩ := poly_cut hw hr hr' h
    exact ⟨Or.inl a, b⟩
  | point q => obtain ⟨u, e⟩ := pt_cons num t q; simp [shapeText, rectText, circleText, ellipseText, e] at h
  | segment q _ => obtain ⟨u, e⟩ := pt_cons num t q; simp [shapeText, rectText, circleText, ellipseText, e] at h
  | osegment q _ => obtain ⟨u, e⟩ := pt_cons num t q; simp [shapeText, rectText, circleText, ellipseText, e] at h
  | _ => simp [shapeText, rectText, circleText, ellipseText, tripleText] at h

theorem shape_cut (hw : Writes num) {s s' : Shape K} {r r' : List Char} (hr : Ends r) (hr' : Ends r') (h : shapeText num t s ++ r = shapeText num t s' ++ r') :
    (SamePrim t s s' ∨ LineAndInf t s s') ∧ r = r' := by
  cases s with
  | point p => exact point_cut hw p hr hr' h
  | line l => exact line_cut hw l hr hr' h
  | segment a b => exact segment_cut hw a b hr hr' h
  | osegment a b => exact osegment_cut hw a b hr hr' h
  | rect a b => exact rect_cut hw a b hr hr' h
  | circle c x => exact circle_cut hw c x hr hr' h
  | ellipse a b c d e => exact ellipse_cut hw a b c d e hr hr' h
  | opoly l => exact opoly_cut hw l hr hr' h
  | cpoly l => exact cpoly_cut hw l hr hr' h

theorem elems_cut (hw : Writes num) : ∀ {l m : List (Shape K)}, elemsText num t l = elemsText num t m → List.Forall₂ (fun s s' => SamePrim t s s' ∨ LineAndInf t s s') l m
  | [], [], _ => .nil
  | [], s :: m, h => by simp [elemsText] at h
  | s :: l, [], h => by simp [elemsText] at h
  | s :: l, s' :: m, h => by
      simp only [elemsText] at h
      obtain ⟨a, h⟩ := shape_cut hw (Or.inr ⟨_, rfl⟩) (Or.inr ⟨_, rfl⟩) h
      simp only [List.cons.injEq, true_and] at h
      exact .cons a (elems_cut hw h)

theorem repr_no_newline (n : ℕ) : '\n' ∉ (Nat.repr n).toList := by
  intro h
  have := Nat.isDigit_of_mem_toDigits (b := 10) (by norm_num) (by norm_num) (by simpa [Nat.repr] using h)
  exact absurd this (by decide)

theorem repr_inj {m n : ℕ} (h : (Nat.repr m).toList = (Nat.repr n).toList) : m = n := by
  rw [Nat.toList_repr, Nat.toList_repr] at h
  have := congrArg (fun l => Nat.ofDigitChars 10 l 0) h
  simpa [Nat.ofDigitChars_ten_toDigits] using this

theorem cutChar {c : Char} : ∀ {a b r r' : List Char}, c ∉ a → c ∉ b → a ++ c :: r = b ++ c :: r' → a = b ∧ r = r'
  | [], [], r, r', _, _, h => by simpa using h
  | [], y :: b, r, r', _, hb, h => by
      simp only [List.nil_append, List.cons_append, List.cons.injEq] at h
      exact absurd (by simp [h.1]) hb
  | x :: a, [], r, r', ha, _, h => by
      simp only [List.nil_append, List.cons_append, List.cons.injEq] at h
      exact absurd (by simp [h.1]) ha
  | x :: a, y :: b, r, r', ha, hb, h => by
      simp only [List.cons_append, List.cons.injEq] at h
      obtain ⟨e1, e2⟩ := cutChar (fun z => ha (by simp [z])) (fun z => hb (by simp [z])) h.2
      exact ⟨by rw [h.1, e1], e2⟩

theorem pad_cut : ∀ {m n : ℕ} {a b r r' : List Char}, (∀ x ∈ a, x ∈ numChars) → (∀ x ∈ b, x ∈ numChars) → a ≠ [] → b ≠ [] →
    List.replicate m ' ' ++ a ++ ' ' :: r = List.replicate n ' ' ++ b ++ ' ' :: r' → a = b ∧ r = r'
  | 0, 0, a, b, r, r', ha, hb, _, _, h => by
      simp only [List.replicate_zero, List.nil_append] at h
      obtain ⟨e, _, e'⟩ := cut ha hb (by decide) (by decide) h
      exact ⟨e, e'⟩
  | 0, n + 1, a, b, r, r', ha, hb, hna, _, h => by
      cases a with
      | nil => exact absurd rfl hna
      | cons x a =>
        simp only [List.replicate_zero, List.nil_append, List.replicate_succ, List.cons_append, List.cons.injEq] at h
        exact absurd (h.1 ▸ ha x (by simp)) (by decide)
  | m + 1, 0, a, b, r, r', ha, hb, _, hnb, h => by
      cases b with
      | nil => exact absurd rfl hnb
      | cons x b =>
        simp only [List.replicate_zero, List.nil_append, List.replicate_succ, List.cons_append, List.cons.injEq] at h
        exact absurd (h.1.symm ▸ hb x (by simp)) (by decide)
  | m + 1, n + 1, a, b, r, r', ha, hb, hna, hnb, h => by
      simp only [List.replicate_succ, List.cons_append, List.cons.injEq, true_and] at h
      exact pad_cut ha hb hna hnb h

theorem row_cut (hw : Writes num) {v w : Fin 3 → K} {r r' : List Char} (h : rowText num v ++ r = rowText num w ++ r') : v = w ∧ r = r' := by
  simp only [rowText, padded, List.cons_append, List.append_assoc, List.cons.injEq, true_and] at h
  obtain ⟨e0, h⟩ := pad_cut (hw.chars _) (hw.chars _) (hw.some _) (hw.some _) (by simpa only [List.append_assoc] using h)
  obtain ⟨e1, h⟩ := pad_cut (hw.chars _) (hw.chars _) (hw.some _) (hw.some _) (by simpa only [List.append_assoc] using h)
  obtain ⟨e2, h⟩ := pad_cut (hw.chars _) (hw.chars _) (hw.some _) (hw.some _) (by simpa only [List.append_assoc] using h)
  simp only [List.cons.injEq, true_and, List.nil_append] at h
  refine ⟨?_, h⟩
  funext i
  fin_cases i
  · exact hw.inj _ _ e0
  · exact hw.inj _ _ e1
  · exact hw.inj _ _ e2

end H2d.Text
