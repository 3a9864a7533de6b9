import Verif.Lemmas.FloatPip
import Verif.Lemmas.BB

/-! # Lemmas on the steps of the point in polygon algorithm with rounded operations -/

namespace H2d.Fl
open H2d.Spec H2d.Pip

variable {F : Arith} {u v : ℝ}

theorem polySegs_fix (h : FlOk F u v) {t : Thr ℝ} (ht : 0 < t.nullDistance) : ∀ l : List (Pt ℝ × Pt ℝ), (∀ e ∈ l, 2 * t.nullDistance ≤ eucl e.1 e.2) →
    Fl.polySegs F t l = .ok (l.map fun e => fixOrder e.1 e.2)
  | [], _ => rfl
  | e :: l, H => by
    unfold Fl.polySegs
    rw [segMake_ok h ht (H e List.mem_cons_self), Res.bind_ok, polySegs_fix h ht l fun e' he' => H e' (List.mem_cons_of_mem _ he')]
    rfl

theorem nearLine_cases {t : Thr ℝ} {p : Pt ℝ} : ∀ {l : List Seg}, (∀ s ∈ l, ∃ li, lineOfPts F t s.1 s.2 = .ok li) →
    (Fl.nearLine F t p l = .ok false ∧ ∀ s ∈ l, ∀ li, lineOfPts F t s.1 s.2 = .ok li → t.nullDistance ≤ lineDist F li p) ∨
    (Fl.nearLine F t p l = .ok true ∧ ∃ s ∈ l, ∃ li, lineOfPts F t s.1 s.2 = .ok li ∧ lineDist F li p < t.nullDistance)
  | [], _ => Or.inl ⟨rfl, by simp⟩
  | s :: l, H => by
    obtain ⟨li, e⟩ := H s List.mem_cons_self
    unfold Fl.nearLine
    rw [e, Res.bind_ok]
    by_cases hd : lineDist F li p < t.nullDistance
    · rw [if_pos hd]
      exact Or.inr ⟨rfl, s, List.mem_cons_self, li, e, hd⟩
    · rw [if_neg hd]
      rcases nearLine_cases (p := p) fun s' hs' => H s' (List.mem_cons_of_mem _ hs') with ⟨h1, h2⟩ | ⟨h1, s', m, h2⟩
      · refine Or.inl ⟨h1, fun s' hs' li' e' => ?_⟩
        rcases List.mem_cons.1 hs' with rfl | hs'
        · rw [e] at e'; cases e'; exact not_lt.1 hd
        · exact h2 s' hs' li' e'
      · exact Or.inr ⟨h1, s', List.mem_cons_of_mem _ m, h2⟩

open Classical in
theorem pipCount_eq {t : Thr ℝ} {ac : ℝ → ℝ} {ref : Seg} (P : Seg → Prop) : ∀ l : List Seg, (∀ s ∈ l, ∃ i, Fl.segInter F t ac s ref = .ok i ∧ (i.isSome = true ↔ P s)) →
    Fl.pipCount F t ac ref l = .ok (l.countP fun s => decide (P s))
  | [], _ => rfl
  | s :: l, H => by
    obtain ⟨i, e, hi⟩ := H s List.mem_cons_self
    unfold Fl.pipCount
    rw [e, Res.bind_ok, pipCount_eq P l fun s' hs' => H s' (List.mem_cons_of_mem _ hs'), Res.bind_ok, List.countP_cons]
    show Res.ok _ = _
    congr 2
    by_cases hp : P s
    · rw [if_pos (hi.2 hp), if_pos (by simpa using hp)]
    · rw [if_neg fun hh => hp (hi.1 hh), if_neg (by simpa using hp)]

theorem bind_some {α β : Type} {x : Res α} {f : α → Res β} {b : β} (h : (x >>= f) = .ok b) : ∃ a, x = .ok a ∧ f a = .ok b := by
  rcases x with a | _ | _
  · exact ⟨a, rfl, h⟩
  · cases h
  · cases h

theorem pipTry_close {t : Thr ℝ} {ac : ℝ → ℝ} {pts : List (Pt ℝ)} {segs : List Seg} {p : Pt ℝ} : ∀ (l : List Seg) (b : Bool), Fl.pipTry F t ac pts segs p l true ≠ .ok (some b)
  | [], b, h => by cases h
  | s :: l, b, h => by
    unfold Fl.pipTry at h
    obtain ⟨ref, -, h⟩ := bind_some h
    simp only [Bool.true_or, if_true] at h
    exact pipTry_close l b h

theorem segMake_inv {t : Thr ℝ} {p q : Pt ℝ} {s : Seg} (h : segMake F t p q = .ok s) : ¬ PtSame F t p q ∧ s = fixOrder p q := by
  unfold segMake at h
  split_ifs at h with h1
  cases h
  exact ⟨h1, rfl⟩

/-- Only the first segment of the list can give the answer. -/
theorem pipTry_answer {t : Thr ℝ} {ac : ℝ → ℝ} {pts : List (Pt ℝ)} {segs : List Seg} {p : Pt ℝ} {s : Seg} {l : List Seg} {b : Bool} (h : Fl.pipTry F t ac pts segs p (s :: l) false = .ok (some b)) :
    (∀ x ∈ pts, vertexClose F t (fixOrder p (center F s.1 s.2)) x = false) ∧ ∃ c, Fl.pipCount F t ac (fixOrder p (center F s.1 s.2)) segs = .ok c ∧ b = decide (c % 2 = 1) := by
  unfold Fl.pipTry at h
  obtain ⟨ref, hr, h⟩ := bind_some h
  obtain ⟨-, rfl⟩ := segMake_inv hr
  simp only [Bool.false_or] at h
  split_ifs at h with h2
  · rw [h2] at h
    exact absurd h (pipTry_close l b)
  · obtain ⟨c, hc, h⟩ := bind_some h
    refine ⟨fun x hx => ?_, c, hc, ?_⟩
    · by_contra hh
      exact h2 (List.any_eq_true.2 ⟨x, hx, by simpa using hh⟩)
    · simp only [Res.pure_eq, Res.ok.injEq, Option.some.injEq] at h
      exact h.symm

theorem pipTry_first (h : FlOk F u v) {t : Thr ℝ} (ht : 0 < t.nullDistance) {ac : ℝ → ℝ} {pts : List (Pt ℝ)} {segs : List Seg} {p : Pt ℝ} {s : Seg} {l : List Seg} {c : ℕ}
    (h1 : 2 * t.nullDistance ≤ eucl p (center F s.1 s.2)) (h2 : ∀ x ∈ pts, vertexClose F t (fixOrder p (center F s.1 s.2)) x = false) (h3 : Fl.pipCount F t ac (fixOrder p (center F s.1 s.2)) segs = .ok c) :
    Fl.pipTry F t ac pts segs p (s :: l) false = .ok (some (decide (c % 2 = 1))) := by
  unfold Fl.pipTry
  rw [segMake_ok h ht h1, Res.bind_ok]
  have : pts.any (vertexClose F t (fixOrder p (center F s.1 s.2))) = false := by
    rw [List.any_eq_false]
    intro x hx
    rw [h2 x hx]; simp
  simp only [this, Bool.false_or, Bool.false_eq_true, if_false, h3]
  rfl

theorem fixOrder_self_le {X Y Z : ℝ} (h : Y ≤ Z) : fixOrder (X, Y) (X, Z) = ((X, Y), (X, Z)) := by
  rcases h.lt_or_eq with h | rfl
  · exact fixOrder_vert h
  · rcases fixOrder_cases (X, Y) (X, Y) with e | e <;> rw [e]
    rfl

section ref
variable (h : FlOk F u v) (lo hi : Pt ℝ)
include h

theorem refY_rep (n : ℕ) : Rep F (refY F lo hi n) := by
  cases n with
  | zero => exact h.idem _
  | succ n => show F.rnd (F.rnd _ / 2) = _; rw [h.half, h.idem]; rfl

theorem refY_low (hle : lo.2 ≤ hi.2) : ∀ n, F.rnd (2 * lo.2 - hi.2) ≤ refY F lo hi n
  | 0 => h.mono (by linarith)
  | n + 1 => by
    have ih := refY_low hle n
    show _ ≤ F.rnd (F.rnd (2 * lo.2 - hi.2) + refY F lo hi n) / 2
    have := h.mono (show 2 * F.rnd (2 * lo.2 - hi.2) ≤ F.rnd (2 * lo.2 - hi.2) + refY F lo hi n by linarith)
    rw [rnd_two h, h.idem] at this
    linarith

theorem refY_high (hle : lo.2 ≤ hi.2) : ∀ n, refY F lo hi n ≤ F.rnd (2 * hi.2 - lo.2)
  | 0 => le_refl _
  | n + 1 => by
    have ih := refY_high hle n
    show F.rnd (F.rnd (2 * lo.2 - hi.2) + refY F lo hi n) / 2 ≤ _
    have := h.mono (show F.rnd (2 * lo.2 - hi.2) + refY F lo hi n ≤ 2 * F.rnd (2 * hi.2 - lo.2) by linarith [h.mono (show 2 * lo.2 - hi.2 ≤ 2 * hi.2 - lo.2 by linarith)])
    rw [rnd_two h, h.idem] at this
    linarith

theorem center_ref (n : ℕ) : center F (F.rnd (2 * lo.1 - hi.1), F.rnd (2 * lo.2 - hi.2)) (F.rnd (2 * lo.1 - hi.1), refY F lo hi n) = refPt F lo hi (n + 1) := by
  unfold center refPt
  refine Prod.ext ?_ ?_
  · show F.rnd (F.rnd (F.rnd (2 * lo.1 - hi.1) + F.rnd (2 * lo.1 - hi.1)) / 2) = F.rnd (2 * lo.1 - hi.1)
    rw [← two_mul, rnd_two h, h.idem, mul_div_cancel_left₀ _ (by norm_num : (2 : ℝ) ≠ 0), h.idem]
  · show F.rnd (F.rnd (F.rnd (2 * lo.2 - hi.2) + refY F lo hi n) / 2) = F.rnd (F.rnd (2 * lo.2 - hi.2) + refY F lo hi n) / 2
    rw [h.half, h.idem]

theorem pipLoop_answer (hle : lo.2 ≤ hi.2) {t : Thr ℝ} {ac : ℝ → ℝ} {pts : List (Pt ℝ)} {segs : List Seg} {p : Pt ℝ} {b : Bool} : ∀ (n m : ℕ) (l : List Seg),
    Fl.pipLoop F t ac pts segs p n (((F.rnd (2 * lo.1 - hi.1), F.rnd (2 * lo.2 - hi.2)), (F.rnd (2 * lo.1 - hi.1), refY F lo hi m)) :: l) = .ok b →
    ∃ j, m + 1 ≤ j ∧ j ≤ m + n ∧ (∀ x ∈ pts, vertexClose F t (fixOrder p (refPt F lo hi j)) x = false) ∧ ∃ c, Fl.pipCount F t ac (fixOrder p (refPt F lo hi j)) segs = .ok c ∧ b = decide (c % 2 = 1)
  | 0, m, l, e => by cases e
  | n + 1, m, l, e => by
    unfold Fl.pipLoop at e
    obtain ⟨o, ho, e⟩ := bind_some e
    cases o with
    | some b' =>
      simp only [Res.pure_eq, Res.ok.injEq] at e
      subst e
      have := pipTry_answer ho
      rw [center_ref h] at this
      exact ⟨m + 1, le_refl _, by omega, this⟩
    | none =>
      simp only at e
      split_ifs at e with hn
      obtain ⟨bb, hb, e⟩ := bind_some e
      unfold Fl.splitAll at hb
      obtain ⟨a, ha, hb⟩ := bind_some hb
      obtain ⟨c, -, hb⟩ := bind_some hb
      obtain ⟨r, -, hb⟩ := bind_some hb
      obtain ⟨-, rfl⟩ := segMake_inv ha
      rw [center_ref h] at hb
      cases hb
      unfold refPt at e
      rw [fixOrder_self_le (refY_low h lo hi hle _)] at e
      obtain ⟨j, j1, j2, hj⟩ := pipLoop_answer hle n (m + 1) _ e
      exact ⟨j, by omega, by omega, hj⟩

theorem pipLoop_first {t : Thr ℝ} (ht : 0 < t.nullDistance) {ac : ℝ → ℝ} {pts : List (Pt ℝ)} {segs : List Seg} {p : Pt ℝ} {n c : ℕ} {l : List Seg}
    (h1 : 2 * t.nullDistance ≤ eucl p (refPt F lo hi 1)) (h2 : ∀ x ∈ pts, vertexClose F t (fixOrder p (refPt F lo hi 1)) x = false) (h3 : Fl.pipCount F t ac (fixOrder p (refPt F lo hi 1)) segs = .ok c) :
    Fl.pipLoop F t ac pts segs p (n + 1) (((F.rnd (2 * lo.1 - hi.1), F.rnd (2 * lo.2 - hi.2)), (F.rnd (2 * lo.1 - hi.1), refY F lo hi 0)) :: l) = .ok (decide (c % 2 = 1)) := by
  have hc := center_ref h lo hi 0
  unfold Fl.pipLoop
  rw [pipTry_first h ht (by rw [hc]; exact h1) (by rw [hc]; exact h2) (by rw [hc]; exact h3)]
  rfl

end ref

theorem polyGetBB_form (t : Thr ℝ) {pts : List (Pt ℝ)} (hl : 2 ≤ pts.length) {lo hi : Pt ℝ} (hT : IsTightBox (fun q => q ∈ pts) lo hi) :
    Fl.polyGetBB F t pts = (open Classical in if PtSame F t lo hi then .throw else if ShareCoord F t lo hi then .throw else .ok ⟨lo, hi⟩) := by
  classical
  match pts, hl, hT with
  | x :: xs, hl, hT =>
    unfold Fl.polyGetBB
    rw [if_neg (by omega)]
    simp only
    obtain ⟨a, k, ea, ma, la, -⟩ := minElemLoop_cons (coordComp_swo (fun p : Pt ℝ => p.1)) x xs
    obtain ⟨b, k', eb, mb, lb, -⟩ := minElemLoop_cons (coordComp_swo (fun p : Pt ℝ => p.2)) x xs
    obtain ⟨mc, lc⟩ := maxElemLoop_spec (coordComp_swo (fun p : Pt ℝ => p.1)) xs x
    obtain ⟨md, ld⟩ := maxElemLoop_spec (coordComp_swo (fun p : Pt ℝ => p.2)) xs x
    have ma := List.mem_of_getElem? ma
    have mb := List.mem_of_getElem? mb
    simp only [decide_eq_false_iff_not, not_lt] at la lb lc ld
    have hT' : IsTightBox (fun q => q ∈ x :: xs) (a.1, b.2) ((maxElemLoop (fun a b : Pt ℝ => decide (a.1 < b.1)) xs x).1, (maxElemLoop (fun a b : Pt ℝ => decide (a.2 < b.2)) xs x).2) := by
      refine ⟨fun q hq => ⟨la q hq, lc q hq, lb q hq, ld q hq⟩, ⟨_, ma, rfl⟩, ⟨_, mc, rfl⟩, ⟨_, mb, rfl⟩, ⟨_, md, rfl⟩⟩
    obtain ⟨e1, e2⟩ := hT.unique hT'
    rw [ea, eb]
    simp only
    rw [← e1, ← e2]
    have hle := IsTightBox.le hT
    by_cases c1 : PtSame F t lo hi
    · rw [if_pos c1, if_pos c1]
    · rw [if_neg c1, if_neg c1]
      by_cases c2 : ShareCoord F t lo hi
      · rw [if_pos c2, if_pos c2]
      · rw [if_neg c2, if_neg c2]
        unfold rectOfPts
        rw [if_neg c2, min_eq_left hle.1, min_eq_left hle.2, max_eq_right hle.1, max_eq_right hle.2]

/-- The sides of the extended bounding box. -/
theorem ext_first (h : FlOk F u v) {t : Thr ℝ} {lo hi : Pt ℝ} (r1 : Rep F lo.1 ∧ Rep F lo.2) (r2 : Rep F hi.1 ∧ Rep F hi.2) (hx : lo.1 ≤ hi.1) (hy : lo.2 ≤ hi.2) {ext : FRect ℝ} {bb : List Seg}
    (h1 : Fl.getExtended F t ⟨lo, hi⟩ = .ok ext) (h2 : Fl.rectSegs F t ext = .ok bb) :
    ∃ l, bb = ((F.rnd (2 * lo.1 - hi.1), F.rnd (2 * lo.2 - hi.2)), (F.rnd (2 * lo.1 - hi.1), refY F lo hi 0)) :: l := by
  have dbl : ∀ x, Rep F x → F.rnd (x * 2) = 2 * x := fun x hx => by rw [mul_comm, rnd_two h, show F.rnd x = x from hx]
  unfold Fl.getExtended rectOfPts at h1
  simp only [dbl _ r1.1, dbl _ r1.2, dbl _ r2.1, dbl _ r2.2] at h1
  split_ifs at h1 with hs
  cases h1
  have m1 : F.rnd (2 * lo.1 - hi.1) ≤ F.rnd (2 * hi.1 - lo.1) := h.mono (by linarith)
  have m2 : F.rnd (2 * lo.2 - hi.2) ≤ F.rnd (2 * hi.2 - lo.2) := h.mono (by linarith)
  rw [min_eq_left m1, min_eq_left m2, max_eq_right m1, max_eq_right m2] at h2
  unfold Fl.rectSegs at h2
  obtain ⟨s0, e0, h2⟩ := bind_some h2
  obtain ⟨s1, e1, h2⟩ := bind_some h2
  obtain ⟨s2, e2, h2⟩ := bind_some h2
  obtain ⟨s3, e3, h2⟩ := bind_some h2
  cases h2
  obtain ⟨-, rfl⟩ := segMake_inv e0
  exact ⟨_, by rw [fixOrder_self_le m2]; rfl⟩

theorem simple_length {t : Thr ℝ} {ac : ℝ → ℝ} {closed : Bool} {pts : List (Pt ℝ)} (h : simpleF F t ac closed pts = .ok true) : 3 ≤ pts.length ∧ closed = true := by
  unfold simpleF Simple.run at h
  split_ifs at h with h1 h2
  · cases h
  · cases h
  · exact ⟨by omega, by simpa using h2⟩

/-- What an answer of the algorithm comes from. -/
theorem answer_from (h : FlOk F u v) {t : Thr ℝ} (ht : 0 < t.nullDistance) {ac : ℝ → ℝ} {pts : List (Pt ℝ)} {p lo hi : Pt ℝ} {b : Bool} (hT : IsTightBox (fun q => q ∈ pts) lo hi)
    (hr : ∀ q ∈ pts, Rep F q.1 ∧ Rep F q.2) (hlen : ∀ e ∈ polyEdges pts, 2 * t.nullDistance ≤ eucl e.1 e.2) (hb : Fl.ptInsidePoly F t ac true pts p = .ok b) :
    (b = false ∧ simpleF F t ac true pts = .ok false) ∨ (simpleF F t ac true pts = .ok true ∧
      ((b = false ∧ ¬ (lo.1 < p.1 ∧ p.1 < hi.1 ∧ lo.2 < p.2 ∧ p.2 < hi.2)) ∨ ((lo.1 < p.1 ∧ p.1 < hi.1 ∧ lo.2 < p.2 ∧ p.2 < hi.2) ∧
        ((b = false ∧ Fl.nearLine F t p ((polyEdges pts).map fun e => fixOrder e.1 e.2) = .ok true) ∨
         (Fl.nearLine F t p ((polyEdges pts).map fun e => fixOrder e.1 e.2) = .ok false ∧ ∃ j, 1 ≤ j ∧ j ≤ 5 ∧ (∀ x ∈ pts, vertexClose F t (fixOrder p (refPt F lo hi j)) x = false) ∧
           ∃ c, Fl.pipCount F t ac (fixOrder p (refPt F lo hi j)) ((polyEdges pts).map fun e => fixOrder e.1 e.2) = .ok c ∧ b = decide (c % 2 = 1)))))) := by
  classical
  unfold Fl.ptInsidePoly at hb
  obtain ⟨s, hs, hb⟩ := bind_some hb
  cases s with
  | false => left; cases hb; exact ⟨rfl, hs⟩
  | true =>
    right
    refine ⟨hs, ?_⟩
    obtain ⟨h3, -⟩ := simple_length hs
    simp only [Bool.not_true, Bool.false_eq_true, if_false] at hb
    obtain ⟨r, e, hb⟩ := bind_some hb
    rw [polyGetBB_form t (by omega) hT] at e
    split_ifs at e
    cases e
    by_cases hin : Pt.isInsideRect p ⟨lo, hi⟩ = true
    · right
      refine ⟨(insideRect_iff p ⟨lo, hi⟩).1 hin, ?_⟩
      rw [hin, segPairs_edges h3, polySegs_fix h ht _ hlen] at hb
      simp only [Bool.not_true, Bool.false_eq_true, if_false, Res.bind_ok] at hb
      obtain ⟨nb, hn, hb⟩ := bind_some hb
      cases nb with
      | true => left; cases hb; exact ⟨rfl, hn⟩
      | false =>
        right
        refine ⟨hn, ?_⟩
        simp only [Bool.false_eq_true, if_false] at hb
        obtain ⟨ext, e1, hb⟩ := bind_some hb
        obtain ⟨bb, e2, hb⟩ := bind_some hb
        have hle := IsTightBox.le hT
        obtain ⟨_, m1, x1⟩ := hT.left
        obtain ⟨_, m2, x2⟩ := hT.right
        obtain ⟨_, m3, x3⟩ := hT.bottom
        obtain ⟨_, m4, x4⟩ := hT.top
        obtain ⟨l, rfl⟩ := ext_first h ⟨x1 ▸ (hr _ m1).1, x3 ▸ (hr _ m3).2⟩ ⟨x2 ▸ (hr _ m2).1, x4 ▸ (hr _ m4).2⟩ hle.1 hle.2 e1 e2
        obtain ⟨j, j1, j2, hj⟩ := pipLoop_answer h lo hi hle.2 5 0 l hb
        exact ⟨j, by omega, by omega, hj⟩
    · left
      rw [Bool.not_eq_true] at hin
      rw [hin] at hb
      cases hb
      refine ⟨rfl, fun hh => ?_⟩
      rw [(insideRect_iff p ⟨lo, hi⟩).2 hh] at hin
      cases hin

end H2d.Fl
