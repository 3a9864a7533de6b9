import Verif.Model.FloatRectLine
import Verif.Spec.FloatRectLine
import Verif.Lemmas.FloatSegLine
import Verif.Lemmas.FloatInside
import Verif.Lemmas.FloatSafe

/-! # Intersection of a rectangle and a line with rounded operations -/

namespace H2d.Fl
open H2d.Spec H2d.Inside

variable {F : Arith} {u v : ℝ}

/-- What the loop needs to know of a side: no point if it does not cross the line, else a point that is not one of its ends. -/
def SideDone (F : Arith) (t : Thr ℝ) (ac : ℝ → ℝ) (li : V3 ℝ) (ε : ℝ) (e : Seg) : Prop :=
  (¬ Crosses li e ∧ segLineInter F t ac (fixOrder e.1 e.2) li = .ok none) ∨
  (Crosses li e ∧ ∃ q, segLineInter F t ac (fixOrder e.1 e.2) li = .ok (some q) ∧ ¬ PtSame F t q (fixOrder e.1 e.2).1 ∧ ¬ PtSame F t q (fixOrder e.1 e.2).2 ∧
    ∀ P, OnSeg e.1 e.2 P → sideDist li P = 0 → eucl q P ≤ ε)

theorem crossing_cons_pos {li : V3 ℝ} {e : Seg} {es : List Seg} (h : Crosses li e) : crossing (e :: es) li = e :: crossing es li := by
  unfold crossing; rw [List.filter_cons_of_pos (by simpa using h)]

theorem crossing_cons_neg {li : V3 ℝ} {e : Seg} {es : List Seg} (h : ¬ Crosses li e) : crossing (e :: es) li = crossing es li := by
  unfold crossing; rw [List.filter_cons_of_neg (by simpa using h)]

theorem rectLine_step {t : Thr ℝ} {ac : ℝ → ℝ} {li : V3 ℝ} {s : Seg} {q : Pt ℝ} {es : List Seg} {pti : List (Pt ℝ)} (hq : segLineInter F t ac s li = .ok (some q)) (n1 : ¬ PtSame F t q s.1) (n2 : ¬ PtSame F t q s.2) :
    rectLineLoop F t ac li (s :: es) pti = if (pti ++ [q]).length = 2 then .ok (pti ++ [q]) else rectLineLoop F t ac li es (pti ++ [q]) := by
  rw [rectLineLoop, hq, Res.bind_ok]
  rcases pti with _ | ⟨a, _ | ⟨b, l⟩⟩
  · rfl
  · simp only [n1, n2, or_self, false_and, if_false]
    rfl
  · rfl

theorem rectLine_loop {t : Thr ℝ} {ac : ℝ → ℝ} {li : V3 ℝ} {ε : ℝ} : ∀ (es : List Seg) (pti : List (Pt ℝ)), (∀ e ∈ es, SideDone F t ac li ε e) → pti.length + (crossing es li).length ≤ 2 → pti.length < 2 →
    ∃ r, rectLineLoop F t ac li (es.map fun e => fixOrder e.1 e.2) pti = .ok (pti ++ r) ∧
      List.Forall₂ (fun q e => ∀ P, OnSeg e.1 e.2 P → sideDist li P = 0 → eucl q P ≤ ε) r (crossing es li)
  | [], pti, _, _, _ => ⟨[], by rw [List.map_nil, rectLineLoop, List.append_nil], .nil⟩
  | e :: es, pti, H, hc, hl => by
    rcases H e (by simp) with ⟨nc, hn⟩ | ⟨c, q, hq, n1, n2, hd⟩
    · rw [List.map_cons, rectLineLoop, hn, Res.bind_ok]
      rw [crossing_cons_neg nc] at hc ⊢
      exact rectLine_loop es pti (fun e' he' => H e' (by simp [he'])) hc hl
    · rw [List.map_cons, rectLine_step hq n1 n2]
      rw [crossing_cons_pos c] at hc ⊢
      rw [List.length_cons] at hc
      by_cases l2 : (pti ++ [q]).length = 2
      · rw [if_pos l2]
        have : crossing es li = [] := by
          rw [List.length_append, List.length_singleton] at l2
          rw [← List.length_eq_zero_iff]
          omega
        rw [this]
        exact ⟨[q], rfl, .cons hd .nil⟩
      · rw [if_neg l2]
        rw [List.length_append, List.length_singleton] at l2
        obtain ⟨r, hr, hf⟩ := rectLine_loop es (pti ++ [q]) (fun e' he' => H e' (by simp [he'])) (by rw [List.length_append, List.length_singleton]; omega) (by rw [List.length_append, List.length_singleton]; omega)
        exact ⟨q :: r, by rw [hr, List.append_assoc]; rfl, .cons hd hf⟩

/-- The signed distances of the corners: the sum is the same on both diagonals. -/
theorem corners_sum (li : V3 ℝ) (r : FRect ℝ) : sideDist li (r.p1.1, r.p1.2) + sideDist li (r.p2.1, r.p2.2) = sideDist li (r.p1.1, r.p2.2) + sideDist li (r.p2.1, r.p1.2) := by
  unfold sideDist; ring

open Classical in
/-- Number of changes of sign of four numbers whose sums are the same on both diagonals. -/
theorem four_signs {a b c d : ℝ} (ha : a ≠ 0) (hb : b ≠ 0) (hc : c ≠ 0) (hd : d ≠ 0) (hs : a + c = b + d) (es : Seg × Seg × Seg × Seg) (p : Seg → Prop) (h1 : p es.1 ↔ a * b < 0) (h2 : p es.2.1 ↔ b * c < 0)
    (h3 : p es.2.2.1 ↔ c * d < 0) (h4 : p es.2.2.2 ↔ d * a < 0) :
    (([es.1, es.2.1, es.2.2.1, es.2.2.2].filter fun e => p e).length = 0 ∧ ((0 < a ∧ 0 < b ∧ 0 < c ∧ 0 < d) ∨ (a < 0 ∧ b < 0 ∧ c < 0 ∧ d < 0))) ∨
    (([es.1, es.2.1, es.2.2.1, es.2.2.2].filter fun e => p e).length = 2 ∧ ¬ ((0 < a ∧ 0 < b ∧ 0 < c ∧ 0 < d) ∨ (a < 0 ∧ b < 0 ∧ c < 0 ∧ d < 0))) := by
  have s : ∀ {x y : ℝ}, x ≠ 0 → y ≠ 0 → (x * y < 0 ↔ ¬ (0 < x ↔ 0 < y)) := by
    intro x y hx hy
    rw [mul_neg_iff]
    rcases lt_or_gt_of_ne hx with h | h <;> rcases lt_or_gt_of_ne hy with h' | h' <;> simp [h, h', h.le, h'.le, not_lt.2 h.le, not_lt.2 h'.le]
  rw [s ha hb] at h1; rw [s hb hc] at h2; rw [s hc hd] at h3; rw [s hd ha] at h4
  simp only [List.filter_cons, List.filter_nil, h1, h2, h3, h4, decide_eq_true_eq]
  rcases lt_or_gt_of_ne ha with h | h <;> rcases lt_or_gt_of_ne hb with h' | h' <;> rcases lt_or_gt_of_ne hc with h'' | h'' <;> rcases lt_or_gt_of_ne hd with h''' | h''' <;>
    first
    | (exfalso; linarith)
    | simp [h, h', h'', h''', not_lt.2 h.le, not_lt.2 h'.le, not_lt.2 h''.le, not_lt.2 h'''.le]

/-- A line that avoids the corners crosses no side, or two; none if and only if all corners are on the same side. -/
theorem rect_crossing {li : V3 ℝ} {r : FRect ℝ} (hc : ∀ c ∈ r.get4Pts, sideDist li c ≠ 0) :
    ((crossing (rectSides r) li).length = 0 ∧ ((∀ c ∈ r.get4Pts, 0 < sideDist li c) ∨ ∀ c ∈ r.get4Pts, sideDist li c < 0)) ∨
    ((crossing (rectSides r) li).length = 2 ∧ ¬ ((∀ c ∈ r.get4Pts, 0 < sideDist li c) ∨ ∀ c ∈ r.get4Pts, sideDist li c < 0)) := by
  simp only [FRect.get4Pts, List.mem_cons, List.not_mem_nil, or_false, forall_eq_or_imp, forall_eq] at hc ⊢
  obtain ⟨h1, h2, h3, h4⟩ := hc
  have := four_signs h1 h2 h3 h4 (corners_sum li r) (((r.p1.1, r.p1.2), (r.p1.1, r.p2.2)), ((r.p1.1, r.p2.2), (r.p2.1, r.p2.2)), ((r.p2.1, r.p2.2), (r.p2.1, r.p1.2)), ((r.p2.1, r.p1.2), (r.p1.1, r.p1.2)))
    (Crosses li) Iff.rfl Iff.rfl Iff.rfl Iff.rfl
  exact this

/-- The loop stops at two points. -/
theorem rectLine_le_two {t : Thr ℝ} {ac : ℝ → ℝ} {li : V3 ℝ} : ∀ (es : List Seg) (pti : List (Pt ℝ)), pti.length < 2 → ∀ r, rectLineLoop F t ac li es pti = .ok r → r.length ≤ 2
  | [], pti, hl, r, h => by
    rw [rectLineLoop] at h; cases h; omega
  | e :: es, pti, hl, r, h => by
    rw [rectLineLoop] at h
    rcases hs : segLineInter F t ac e li with o | _ | _ <;> rw [hs] at h <;> try cases h
    rcases o with _ | q
    · exact rectLine_le_two es pti hl r h
    · simp only [Res.bind_ok] at h
      split_ifs at h with k
      · cases h; exact k.le
      · refine rectLine_le_two es _ ?_ r h
        clear h
        revert k
        split
        · split_ifs <;> simp
        · intro k
          simp only [List.length_append, List.length_singleton] at k ⊢
          omega

theorem sides_rep {M : ℝ} {r : FRect ℝ} (h : SegRep F M (r.p1, r.p2)) : ∀ e ∈ rectSides r, SegRep F M e := by
  obtain ⟨⟨a, b⟩, ⟨c, d⟩, e, f, g, i⟩ := h
  simp only [rectSides, List.mem_cons, List.not_mem_nil, or_false, forall_eq_or_imp, forall_eq]
  exact ⟨⟨⟨a, b⟩, ⟨a, d⟩, e, f, e, i⟩, ⟨⟨a, d⟩, ⟨c, d⟩, e, i, g, i⟩, ⟨⟨c, d⟩, ⟨c, b⟩, g, i, g, f⟩, ⟨c, b⟩, ⟨a, b⟩, g, f, e, f⟩

theorem sides_slope {t : Thr ℝ} (ht : t.nullDenom ≤ 9 / 10) {r : FRect ℝ} : ∀ e ∈ rectSides r, 0 < eucl e.1 e.2 → SlopeOk t e := by
  have vert : ∀ x a b : ℝ, 0 < eucl (x, a) (x, b) → SlopeOk t ((x, a), (x, b)) := by
    intro x a b hp
    right
    have : eucl (x, a) (x, b) = |a - b| := by
      unfold eucl
      rw [sub_self, zero_pow two_ne_zero, zero_add, Real.sqrt_sq_eq_abs]
    rw [this] at hp ⊢
    change t.nullDenom ≤ 9 / 10 * (|a - b| / |a - b|)
    rw [div_self hp.ne', mul_one]
    exact ht
  simp only [rectSides, List.mem_cons, List.not_mem_nil, or_false, forall_eq_or_imp, forall_eq]
  exact ⟨vert _ _ _, fun _ => Or.inl rfl, vert _ _ _, fun _ => Or.inl rfl⟩

/-- With a longer side the margin is smaller. -/
theorem asideMargin_le (h : FlOk F u v) (t : Thr ℝ) {M L L' σ : ℝ} (hL : 0 < L) (hl : L ≤ L') : asideMargin t u v M L' σ ≤ asideMargin t u v M L σ := by
  unfold asideMargin
  have : u * M ^ 2 / L' ≤ u * M ^ 2 / L := div_le_div_of_nonneg_left (mul_nonneg h.u_nonneg (sq_nonneg M)) hL hl
  linarith

/-- Each side crosses the line, or is on one side of it. -/
theorem rectLn_sides (h : FlOk F u v) {t : Thr ℝ} {w M L S σ : ℝ} {r : FRect ℝ} {li : V3 ℝ} (hr : RectLn F t u v w M L S σ r li) :
    ∀ e ∈ rectSides r, (SegLn F t u w M L S e li ∧ Crosses li e) ∨ SegAside F t u v w M σ e li := by
  intro e he
  have hlen := hr.len e he
  have hpos : 0 < eucl e.1 e.2 := hr.L_pos.trans_le hlen
  have hs := sides_slope hr.denom e he hpos
  have hrep := sides_rep hr.rep e he
  have hnd : 0 < t.nullDistance := by
    have : 0 < dblEps := by norm_num [dblEps]
    linarith [hr.eps]
  by_cases c : Crosses li e
  · exact Or.inl ⟨⟨hrep, hs, hr.L_pos, hlen, hr.norm, hr.off, hr.S_pos, hr.sin e he c, hr.small, hr.thr, hr.eps, hr.angle⟩, c⟩
  · right
    have SL : S * L ≤ L := mul_le_of_le_one_left hr.L_pos.le hr.S_le
    have SL2 : S * L ^ 2 ≤ L ^ 2 := mul_le_of_le_one_left (sq_nonneg L) hr.S_le
    have L2 : L ^ 2 ≤ eucl e.1 e.2 ^ 2 := pow_le_pow_left₀ hr.L_pos.le hlen 2
    refine ⟨hrep, hs, by linarith [hr.thr], hr.norm, hr.off, by linarith [hr.small], hr.eps, hr.σ_pos, hr.prec, hr.flat, ?_⟩
    obtain ⟨m1, m2⟩ := rectSides_mem he
    have k1 := (hr.corner _ m1).2
    have k2 := (hr.corner _ m2).2
    have hm := asideMargin_le (σ := σ) (M := M) h t hr.L_pos hlen
    have z1 : sideDist li e.1 ≠ 0 := by
      intro z; have := (hr.corner _ m1).1; rw [z, abs_zero] at this; linarith
    have z2 : sideDist li e.2 ≠ 0 := by
      intro z; have := (hr.corner _ m2).1; rw [z, abs_zero] at this; linarith
    unfold Crosses at c
    rcases lt_or_gt_of_ne z1 with p1 | p1 <;> rcases lt_or_gt_of_ne z2 with p2 | p2
    · rw [abs_of_neg p1] at k1; rw [abs_of_neg p2] at k2
      exact Or.inr ⟨by linarith, by linarith⟩
    · exact absurd (mul_neg_of_neg_of_pos p1 p2) c
    · exact absurd (mul_neg_of_pos_of_neg p1 p2) c
    · rw [abs_of_pos p1] at k1; rw [abs_of_pos p2] at k2
      exact Or.inl ⟨by linarith, by linarith⟩

/-- Each side gives its point, or none. -/
theorem rectLn_done (h : FlOk F u v) {ac : ℝ → ℝ} {t : Thr ℝ} {w M L S σ : ℝ} (ha : AcosOk ac w) (hn : 350 * (u * M ^ 2 / (L * S)) + 13 * (u + v) * M < t.nullDistance) {r : FRect ℝ} {li : V3 ℝ}
    (hr : RectLn F t u v w M L S σ r li) : ∀ e ∈ rectSides r, SideDone F t ac li (150 * (u * M ^ 2 / (L * S))) e := by
  intro e he
  rcases rectLn_sides h hr e he with ⟨hl, hc⟩ | hs
  · right
    refine ⟨hc, ?_⟩
    have hl' := segLn_fix hl
    have M0 : 0 ≤ M := (abs_nonneg _).trans hr.rep.2.2.1
    have e0 : 0 ≤ u * M ^ 2 / (L * S) := div_nonneg (mul_nonneg h.u_nonneg (sq_nonneg M)) (mul_nonneg hr.L_pos.le hr.S_pos.le)
    have e1 : 0 ≤ 13 * (u + v) * M := mul_nonneg (mul_nonneg (by norm_num) (add_nonneg h.u_nonneg h.v_nonneg)) M0
    obtain ⟨k, k0, k1, hk⟩ := crosses_point (crosses_fix.2 hc)
    obtain ⟨q, eq, hq⟩ := ln_found h ha hl' hn k0 k1 ((sideDist_on hl.norm).1 hk)
    have far : ∀ c ∈ r.get4Pts, ¬ PtSame F t q c := by
      intro c hcm
      refine far_not_same h t ?_ (by linarith)
      have b1 := sideDist_lip hr.norm c (Spec.along (fixOrder e.1 e.2) k)
      rw [hk, sub_zero] at b1
      have b2 := (hr.corner c hcm).1
      have b3 := eucl_triangle c q (Spec.along (fixOrder e.1 e.2) k)
      rw [eucl_comm c q] at b3
      linarith
    obtain ⟨m1, m2⟩ := rectSides_mem he
    refine ⟨q, eq, ?_, ?_, fun P hP h0 => ?_⟩
    · unfold fixOrder; split_ifs
      · exact far _ m2
      · exact far _ m1
    · unfold fixOrder; split_ifs
      · exact far _ m1
      · exact far _ m2
    obtain ⟨j, j0, j1, rfl⟩ := Pip.onSeg_fix.2 hP
    obtain ⟨q', eq', hq'⟩ := ln_found h ha hl' hn j0 j1 ((sideDist_on hl.norm).1 h0)
    rw [eq] at eq'
    injection eq' with eq'
    injection eq' with eq'
    rw [eq']
    exact hq'
  · exact Or.inl ⟨aside_not_crosses h hs, aside_none h ha (segAside_fix hs)⟩

end H2d.Fl
