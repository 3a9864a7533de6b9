import Verif.Lemmas.SvgRound

/-!
# Symbols of points, attributes of the user
-/

set_option linter.unusedVariables false
set_option linter.unusedTactic false
set_option linter.unreachableTactic false

namespace H2d.SvgD
open H2d H2d.Spec H2d.Svg

/-! ### Symbols -/

theorem seg_step {t : Thr ℝ} (ht : t.nullDistance ≤ 1) {p q : Pt ℝ} (h : 1 ≤ |p.1 - q.1| ∨ 1 ≤ |p.2 - q.2|) : segMake t false p q = .ok (fixOrder p q) := by
  rw [segMake_eq false]
  · rfl
  · refine le_trans ht ?_
    rcases h with h | h
    · exact le_trans h (by
        unfold eucl
        apply Real.abs_le_sqrt
        nlinarith [sq_nonneg (p.2 - q.2)])
    · exact le_trans h (by
        unfold eucl
        apply Real.abs_le_sqrt
        nlinarith [sq_nonneg (p.1 - q.1)])

/-- Ordered pair. -/
theorem seg_lt {t : Thr ℝ} (ht : t.nullDistance ≤ 1) {x y x' y' : ℝ} (h : x + 1 ≤ x' ∨ x = x' ∧ y + 1 ≤ y') : segMake t false (x, y) (x', y') = .ok ((x, y), (x', y')) := by
  rw [seg_step ht, fixOrder_of_lt]
  · rcases h with h | ⟨h, h'⟩
    · left; simp only; linarith
    · right; exact ⟨h, by simp only; linarith⟩
  · rcases h with h | ⟨h, h'⟩
    · left; simp only; rw [abs_sub_comm]; exact le_trans (by linarith) (le_abs_self _)
    · right; simp only; rw [abs_sub_comm]; exact le_trans (by linarith) (le_abs_self _)

/-- Reversed pair. -/
theorem seg_gt {t : Thr ℝ} (ht : t.nullDistance ≤ 1) {x y x' y' : ℝ} (h : x' + 1 ≤ x ∨ x' = x ∧ y' + 1 ≤ y) : segMake t false (x, y) (x', y') = .ok ((x', y'), (x, y)) := by
  rw [seg_step ht, fixOrder_comm, fixOrder_of_lt]
  · rcases h with h | ⟨h, h'⟩
    · left; simp only; linarith
    · right; exact ⟨h, by simp only; linarith⟩
  · rcases h with h | ⟨h, h'⟩
    · left; simp only; exact le_trans (by linarith) (le_abs_self _)
    · right; simp only; exact le_trans (by linarith) (le_abs_self _)

/-- Half of the side of the square. -/
theorem side_half {n : Nat} (h : 1 ≤ n) : (1 : ℝ) ≤ ((7 * n + 5) / 10 : Nat) ∧ (((7 * n + 5) / 10 : Nat) : ℝ) ≤ n ∧ |(((7 * n + 5) / 10 : Nat) : ℝ) - 7 / 10 * n| ≤ 1 / 2 := by
  have e := Nat.div_add_mod (7 * n + 5) 10
  have l := Nat.mod_lt (7 * n + 5) (show 0 < 10 by norm_num)
  obtain ⟨k, hk⟩ : ∃ k, (7 * n + 5) / 10 = k := ⟨_, rfl⟩
  obtain ⟨m, hm⟩ : ∃ m, (7 * n + 5) % 10 = m := ⟨_, rfl⟩
  rw [hk, hm] at e
  rw [hm] at l
  rw [hk]
  have eR : (10 : ℝ) * k + m = 7 * n + 5 := by exact_mod_cast e
  have lR : (m : ℝ) ≤ 9 := by exact_mod_cast Nat.lt_succ_iff.1 l
  have mR : (0 : ℝ) ≤ m := by positivity
  refine ⟨?_, ?_, ?_⟩
  · have : 1 ≤ k := by omega
    exact_mod_cast this
  · have : k ≤ n := by omega
    exact_mod_cast this
  · rw [abs_le]; constructor <;> linarith

theorem plus_segs {t : Thr ℝ} (ht : t.nullDistance ≤ 1) {n : Nat} (hn : 1 ≤ n) (x y : ℝ) :
    makeSegs t (strokePairs n (x, y) false false) = .ok [((x - n, y), (x + n, y)), ((x, y - n), (x, y + n))] := by
  have h1 : (1 : ℝ) ≤ n := by exact_mod_cast hn
  simp only [strokePairs, Bool.false_eq_true, if_false, makeSegs]
  rw [seg_lt ht (by left; linarith), seg_lt ht (by right; exact ⟨rfl, by linarith⟩)]
  rfl

theorem times_segs {t : Thr ℝ} (ht : t.nullDistance ≤ 1) {n : Nat} (hn : 1 ≤ n) (x y : ℝ) :
    let d : ℝ := ((7 * n + 5) / 10 : Nat)
    makeSegs t (strokePairs n (x, y) true false) = .ok [((x - d, y + d), (x + d, y - d)), ((x - d, y - d), (x + d, y + d))] := by
  have h1 := (side_half hn).1
  simp only [strokePairs, Bool.false_eq_true, if_false, if_true, makeSegs]
  rw [seg_lt ht (by left; linarith), seg_gt ht (by left; linarith)]
  rfl

theorem diam_segs {t : Thr ℝ} (ht : t.nullDistance ≤ 1) {n : Nat} (hn : 1 ≤ n) (x y : ℝ) :
    makeSegs t (strokePairs n (x, y) false true) = .ok [((x - n, y), (x, y - n)), ((x, y - n), (x + n, y)), ((x, y + n), (x + n, y)), ((x - n, y), (x, y + n))] := by
  have h1 : (1 : ℝ) ≤ n := by exact_mod_cast hn
  simp only [strokePairs, Bool.false_eq_true, if_false, if_true, makeSegs]
  rw [seg_lt ht (by left; linarith), seg_lt ht (by left; linarith), seg_gt ht (by left; linarith), seg_lt ht (by left; linarith)]
  rfl

theorem squ_segs {t : Thr ℝ} (ht : t.nullDistance ≤ 1) {n : Nat} (hn : 1 ≤ n) (x y : ℝ) :
    let d : ℝ := ((7 * n + 5) / 10 : Nat)
    makeSegs t (strokePairs n (x, y) true true) =
      .ok [((x - d, y + d), (x + d, y + d)), ((x + d, y - d), (x + d, y + d)), ((x - d, y - d), (x + d, y - d)), ((x - d, y - d), (x - d, y + d))] := by
  have h1 := (side_half hn).1
  simp only [strokePairs, if_true, makeSegs]
  rw [seg_lt ht (by left; linarith), seg_gt ht (by right; exact ⟨rfl, by linarith⟩), seg_gt ht (by left; linarith), seg_gt ht (by right; exact ⟨rfl, by linarith⟩)]
  rfl

theorem plus_symbol {n d : ℝ} (hn : 1 ≤ n) (hd : 1 ≤ d) (hdn : d ≤ n) (h7 : |d - 7 / 10 * n| ≤ 1 / 2) (r x y : ℝ) : IsSymbol 0 n r (x, y)
    (.strokes [((x - n, y), (x + n, y)), ((x, y - n), (x, y + n))]) := by
  unfold IsSymbol
  refine ⟨by simp, ?_, ?_, ?_, ?_, ?_⟩
  · intro e he
    simp only [List.map_cons, List.map_nil, List.cons_append, List.nil_append, List.mem_cons, List.not_mem_nil, or_false] at he
    rcases he with rfl | rfl | rfl | rfl <;> refine ⟨by rw [abs_le]; constructor <;> simp only <;> linarith, by rw [abs_le]; constructor <;> simp only <;> linarith, fun h => ?_⟩ <;>
      (rw [Prod.mk.injEq] at h; first | linarith [h.1] | linarith [h.2])
  · intro s hs
    simp only [List.mem_cons, List.not_mem_nil, or_false] at hs
    rcases hs with rfl | rfl
    · exact ⟨((x - n, y), (x + n, y)), by simp, Or.inr (by simp only [halfTurn, Prod.mk.injEq]; refine ⟨⟨?_, ?_⟩, ?_, ?_⟩ <;> ring)⟩
    · exact ⟨((x, y - n), (x, y + n)), by simp, Or.inr (by simp only [halfTurn, Prod.mk.injEq]; refine ⟨⟨?_, ?_⟩, ?_, ?_⟩ <;> ring)⟩
  · refine Or.inl ⟨by norm_num, ?_⟩
    intro s hs
    simp only [List.mem_cons, List.not_mem_nil, or_false] at hs
    rcases hs with rfl | rfl <;> (simp only [middle, Prod.mk.injEq]; constructor <;> ring)
  · intro _ e he
    rcases he with rfl | rfl | rfl | rfl <;> simp
  · intro h; exact absurd h (by norm_num)

theorem times_symbol {n d : ℝ} (hn : 1 ≤ n) (hd : 1 ≤ d) (hdn : d ≤ n) (h7 : |d - 7 / 10 * n| ≤ 1 / 2) (r x y : ℝ) : IsSymbol 1 n r (x, y)
    (.strokes [((x - d, y + d), (x + d, y - d)), ((x - d, y - d), (x + d, y + d))]) := by
  unfold IsSymbol
  refine ⟨by simp, ?_, ?_, ?_, ?_, ?_⟩
  · intro e he
    simp only [List.map_cons, List.map_nil, List.cons_append, List.nil_append, List.mem_cons, List.not_mem_nil, or_false] at he
    rcases he with rfl | rfl | rfl | rfl <;> refine ⟨by rw [abs_le]; constructor <;> simp only <;> linarith, by rw [abs_le]; constructor <;> simp only <;> linarith, fun h => ?_⟩ <;>
      (rw [Prod.mk.injEq] at h; first | linarith [h.1] | linarith [h.2])
  · intro s hs
    simp only [List.mem_cons, List.not_mem_nil, or_false] at hs
    rcases hs with rfl | rfl
    · exact ⟨((x - d, y + d), (x + d, y - d)), by simp, Or.inr (by simp only [halfTurn, Prod.mk.injEq]; refine ⟨⟨?_, ?_⟩, ?_, ?_⟩ <;> ring)⟩
    · exact ⟨((x - d, y - d), (x + d, y + d)), by simp, Or.inr (by simp only [halfTurn, Prod.mk.injEq]; refine ⟨⟨?_, ?_⟩, ?_, ?_⟩ <;> ring)⟩
  · refine Or.inl ⟨by norm_num, ?_⟩
    intro s hs
    simp only [List.mem_cons, List.not_mem_nil, or_false] at hs
    rcases hs with rfl | rfl <;> (simp only [middle, Prod.mk.injEq]; constructor <;> ring)
  · intro h; exact absurd h (by norm_num)
  · intro _
    refine ⟨d, by linarith, h7, ?_⟩
    intro e he
    rcases he with rfl | rfl | rfl | rfl <;> simp

theorem star_symbol {n d : ℝ} (hn : 1 ≤ n) (hd : 1 ≤ d) (hdn : d ≤ n) (h7 : |d - 7 / 10 * n| ≤ 1 / 2) (r x y : ℝ) : IsSymbol 2 n r (x, y)
    (.strokes [((x - n, y), (x + n, y)), ((x, y - n), (x, y + n)), ((x - d, y + d), (x + d, y - d)), ((x - d, y - d), (x + d, y + d))]) := by
  unfold IsSymbol
  refine ⟨by simp, ?_, ?_, ?_, ?_, ?_⟩
  · intro e he
    simp only [List.map_cons, List.map_nil, List.cons_append, List.nil_append, List.mem_cons, List.not_mem_nil, or_false] at he
    rcases he with rfl | rfl | rfl | rfl | rfl | rfl | rfl | rfl <;> refine ⟨by rw [abs_le]; constructor <;> simp only <;> linarith, by rw [abs_le]; constructor <;> simp only <;> linarith, fun h => ?_⟩ <;>
      (rw [Prod.mk.injEq] at h; first | linarith [h.1] | linarith [h.2])
  · intro s hs
    simp only [List.mem_cons, List.not_mem_nil, or_false] at hs
    rcases hs with rfl | rfl | rfl | rfl
    · exact ⟨((x - n, y), (x + n, y)), by simp, Or.inr (by simp only [halfTurn, Prod.mk.injEq]; refine ⟨⟨?_, ?_⟩, ?_, ?_⟩ <;> ring)⟩
    · exact ⟨((x, y - n), (x, y + n)), by simp, Or.inr (by simp only [halfTurn, Prod.mk.injEq]; refine ⟨⟨?_, ?_⟩, ?_, ?_⟩ <;> ring)⟩
    · exact ⟨((x - d, y + d), (x + d, y - d)), by simp, Or.inr (by simp only [halfTurn, Prod.mk.injEq]; refine ⟨⟨?_, ?_⟩, ?_, ?_⟩ <;> ring)⟩
    · exact ⟨((x - d, y - d), (x + d, y + d)), by simp, Or.inr (by simp only [halfTurn, Prod.mk.injEq]; refine ⟨⟨?_, ?_⟩, ?_, ?_⟩ <;> ring)⟩
  · refine Or.inl ⟨by norm_num, ?_⟩
    intro s hs
    simp only [List.mem_cons, List.not_mem_nil, or_false] at hs
    rcases hs with rfl | rfl | rfl | rfl <;> (simp only [middle, Prod.mk.injEq]; constructor <;> ring)
  · intro _ e he
    rcases he with rfl | rfl | rfl | rfl <;> simp
  · intro _
    refine ⟨d, by linarith, h7, ?_⟩
    intro e he
    rcases he with rfl | rfl | rfl | rfl <;> simp

theorem diam_symbol {n d : ℝ} (hn : 1 ≤ n) (hd : 1 ≤ d) (hdn : d ≤ n) (h7 : |d - 7 / 10 * n| ≤ 1 / 2) (r x y : ℝ) : IsSymbol 3 n r (x, y)
    (.strokes [((x - n, y), (x, y - n)), ((x, y - n), (x + n, y)), ((x, y + n), (x + n, y)), ((x - n, y), (x, y + n))]) := by
  unfold IsSymbol
  refine ⟨by simp, ?_, ?_, ?_, ?_, ?_⟩
  · intro e he
    simp only [List.map_cons, List.map_nil, List.cons_append, List.nil_append, List.mem_cons, List.not_mem_nil, or_false] at he
    rcases he with rfl | rfl | rfl | rfl | rfl | rfl | rfl | rfl <;> refine ⟨by rw [abs_le]; constructor <;> simp only <;> linarith, by rw [abs_le]; constructor <;> simp only <;> linarith, fun h => ?_⟩ <;>
      (rw [Prod.mk.injEq] at h; first | linarith [h.1] | linarith [h.2])
  · intro s hs
    simp only [List.mem_cons, List.not_mem_nil, or_false] at hs
    rcases hs with rfl | rfl | rfl | rfl
    · exact ⟨((x, y + n), (x + n, y)), by simp, Or.inr (by simp only [halfTurn, Prod.mk.injEq]; refine ⟨⟨?_, ?_⟩, ?_, ?_⟩ <;> ring)⟩
    · exact ⟨((x - n, y), (x, y + n)), by simp, Or.inr (by simp only [halfTurn, Prod.mk.injEq]; refine ⟨⟨?_, ?_⟩, ?_, ?_⟩ <;> ring)⟩
    · exact ⟨((x - n, y), (x, y - n)), by simp, Or.inr (by simp only [halfTurn, Prod.mk.injEq]; refine ⟨⟨?_, ?_⟩, ?_, ?_⟩ <;> ring)⟩
    · exact ⟨((x, y - n), (x + n, y)), by simp, Or.inr (by simp only [halfTurn, Prod.mk.injEq]; refine ⟨⟨?_, ?_⟩, ?_, ?_⟩ <;> ring)⟩
  · refine Or.inr ⟨by norm_num, ?_⟩
    intro e he
    simp only [List.map_cons, List.map_nil, List.cons_append, List.nil_append, List.mem_cons, List.not_mem_nil, or_false] at he
    rcases he with rfl | rfl | rfl | rfl | rfl | rfl | rfl | rfl
    · exact ⟨((x - n, y), (x, y - n)), by simp, ((x - n, y), (x, y + n)), by simp, fun h => by simp only [Prod.mk.injEq] at h; obtain ⟨⟨h1, h2⟩, h3, h4⟩ := h; first | linarith [h1] | linarith [h2] | linarith [h3] | linarith [h4], Or.inl rfl, Or.inl rfl⟩
    · exact ⟨((x - n, y), (x, y - n)), by simp, ((x, y - n), (x + n, y)), by simp, fun h => by simp only [Prod.mk.injEq] at h; obtain ⟨⟨h1, h2⟩, h3, h4⟩ := h; first | linarith [h1] | linarith [h2] | linarith [h3] | linarith [h4], Or.inr rfl, Or.inl rfl⟩
    · exact ⟨((x, y + n), (x + n, y)), by simp, ((x - n, y), (x, y + n)), by simp, fun h => by simp only [Prod.mk.injEq] at h; obtain ⟨⟨h1, h2⟩, h3, h4⟩ := h; first | linarith [h1] | linarith [h2] | linarith [h3] | linarith [h4], Or.inl rfl, Or.inr rfl⟩
    · exact ⟨((x - n, y), (x, y - n)), by simp, ((x - n, y), (x, y + n)), by simp, fun h => by simp only [Prod.mk.injEq] at h; obtain ⟨⟨h1, h2⟩, h3, h4⟩ := h; first | linarith [h1] | linarith [h2] | linarith [h3] | linarith [h4], Or.inl rfl, Or.inl rfl⟩
    · exact ⟨((x - n, y), (x, y - n)), by simp, ((x, y - n), (x + n, y)), by simp, fun h => by simp only [Prod.mk.injEq] at h; obtain ⟨⟨h1, h2⟩, h3, h4⟩ := h; first | linarith [h1] | linarith [h2] | linarith [h3] | linarith [h4], Or.inr rfl, Or.inl rfl⟩
    · exact ⟨((x, y - n), (x + n, y)), by simp, ((x, y + n), (x + n, y)), by simp, fun h => by simp only [Prod.mk.injEq] at h; obtain ⟨⟨h1, h2⟩, h3, h4⟩ := h; first | linarith [h1] | linarith [h2] | linarith [h3] | linarith [h4], Or.inr rfl, Or.inr rfl⟩
    · exact ⟨((x, y - n), (x + n, y)), by simp, ((x, y + n), (x + n, y)), by simp, fun h => by simp only [Prod.mk.injEq] at h; obtain ⟨⟨h1, h2⟩, h3, h4⟩ := h; first | linarith [h1] | linarith [h2] | linarith [h3] | linarith [h4], Or.inr rfl, Or.inr rfl⟩
    · exact ⟨((x, y + n), (x + n, y)), by simp, ((x - n, y), (x, y + n)), by simp, fun h => by simp only [Prod.mk.injEq] at h; obtain ⟨⟨h1, h2⟩, h3, h4⟩ := h; first | linarith [h1] | linarith [h2] | linarith [h3] | linarith [h4], Or.inl rfl, Or.inr rfl⟩
  · intro _ e he
    rcases he with rfl | rfl | rfl | rfl <;> simp
  · intro h; exact absurd h (by norm_num)

theorem squ_symbol {n d : ℝ} (hn : 1 ≤ n) (hd : 1 ≤ d) (hdn : d ≤ n) (h7 : |d - 7 / 10 * n| ≤ 1 / 2) (r x y : ℝ) : IsSymbol 4 n r (x, y)
    (.strokes [((x - d, y + d), (x + d, y + d)), ((x + d, y - d), (x + d, y + d)), ((x - d, y - d), (x + d, y - d)), ((x - d, y - d), (x - d, y + d))]) := by
  unfold IsSymbol
  refine ⟨by simp, ?_, ?_, ?_, ?_, ?_⟩
  · intro e he
    simp only [List.map_cons, List.map_nil, List.cons_append, List.nil_append, List.mem_cons, List.not_mem_nil, or_false] at he
    rcases he with rfl | rfl | rfl | rfl | rfl | rfl | rfl | rfl <;> refine ⟨by rw [abs_le]; constructor <;> simp only <;> linarith, by rw [abs_le]; constructor <;> simp only <;> linarith, fun h => ?_⟩ <;>
      (rw [Prod.mk.injEq] at h; first | linarith [h.1] | linarith [h.2])
  · intro s hs
    simp only [List.mem_cons, List.not_mem_nil, or_false] at hs
    rcases hs with rfl | rfl | rfl | rfl
    · exact ⟨((x - d, y - d), (x + d, y - d)), by simp, Or.inr (by simp only [halfTurn, Prod.mk.injEq]; refine ⟨⟨?_, ?_⟩, ?_, ?_⟩ <;> ring)⟩
    · exact ⟨((x - d, y - d), (x - d, y + d)), by simp, Or.inr (by simp only [halfTurn, Prod.mk.injEq]; refine ⟨⟨?_, ?_⟩, ?_, ?_⟩ <;> ring)⟩
    · exact ⟨((x - d, y + d), (x + d, y + d)), by simp, Or.inr (by simp only [halfTurn, Prod.mk.injEq]; refine ⟨⟨?_, ?_⟩, ?_, ?_⟩ <;> ring)⟩
    · exact ⟨((x + d, y - d), (x + d, y + d)), by simp, Or.inr (by simp only [halfTurn, Prod.mk.injEq]; refine ⟨⟨?_, ?_⟩, ?_, ?_⟩ <;> ring)⟩
  · refine Or.inr ⟨by norm_num, ?_⟩
    intro e he
    simp only [List.map_cons, List.map_nil, List.cons_append, List.nil_append, List.mem_cons, List.not_mem_nil, or_false] at he
    rcases he with rfl | rfl | rfl | rfl | rfl | rfl | rfl | rfl
    · exact ⟨((x - d, y + d), (x + d, y + d)), by simp, ((x - d, y - d), (x - d, y + d)), by simp, fun h => by simp only [Prod.mk.injEq] at h; obtain ⟨⟨h1, h2⟩, h3, h4⟩ := h; first | linarith [h1] | linarith [h2] | linarith [h3] | linarith [h4], Or.inl rfl, Or.inr rfl⟩
    · exact ⟨((x + d, y - d), (x + d, y + d)), by simp, ((x - d, y - d), (x + d, y - d)), by simp, fun h => by simp only [Prod.mk.injEq] at h; obtain ⟨⟨h1, h2⟩, h3, h4⟩ := h; first | linarith [h1] | linarith [h2] | linarith [h3] | linarith [h4], Or.inl rfl, Or.inr rfl⟩
    · exact ⟨((x - d, y - d), (x + d, y - d)), by simp, ((x - d, y - d), (x - d, y + d)), by simp, fun h => by simp only [Prod.mk.injEq] at h; obtain ⟨⟨h1, h2⟩, h3, h4⟩ := h; first | linarith [h1] | linarith [h2] | linarith [h3] | linarith [h4], Or.inl rfl, Or.inl rfl⟩
    · exact ⟨((x - d, y - d), (x + d, y - d)), by simp, ((x - d, y - d), (x - d, y + d)), by simp, fun h => by simp only [Prod.mk.injEq] at h; obtain ⟨⟨h1, h2⟩, h3, h4⟩ := h; first | linarith [h1] | linarith [h2] | linarith [h3] | linarith [h4], Or.inl rfl, Or.inl rfl⟩
    · exact ⟨((x - d, y + d), (x + d, y + d)), by simp, ((x + d, y - d), (x + d, y + d)), by simp, fun h => by simp only [Prod.mk.injEq] at h; obtain ⟨⟨h1, h2⟩, h3, h4⟩ := h; first | linarith [h1] | linarith [h2] | linarith [h3] | linarith [h4], Or.inr rfl, Or.inr rfl⟩
    · exact ⟨((x - d, y + d), (x + d, y + d)), by simp, ((x + d, y - d), (x + d, y + d)), by simp, fun h => by simp only [Prod.mk.injEq] at h; obtain ⟨⟨h1, h2⟩, h3, h4⟩ := h; first | linarith [h1] | linarith [h2] | linarith [h3] | linarith [h4], Or.inr rfl, Or.inr rfl⟩
    · exact ⟨((x + d, y - d), (x + d, y + d)), by simp, ((x - d, y - d), (x + d, y - d)), by simp, fun h => by simp only [Prod.mk.injEq] at h; obtain ⟨⟨h1, h2⟩, h3, h4⟩ := h; first | linarith [h1] | linarith [h2] | linarith [h3] | linarith [h4], Or.inl rfl, Or.inr rfl⟩
    · exact ⟨((x - d, y + d), (x + d, y + d)), by simp, ((x - d, y - d), (x - d, y + d)), by simp, fun h => by simp only [Prod.mk.injEq] at h; obtain ⟨⟨h1, h2⟩, h3, h4⟩ := h; first | linarith [h1] | linarith [h2] | linarith [h3] | linarith [h4], Or.inl rfl, Or.inr rfl⟩
  · intro h; exact absurd h (by norm_num)
  · intro _
    refine ⟨d, by linarith, h7, ?_⟩
    intro e he
    rcases he with rfl | rfl | rfl | rfl <;> simp

/-- Drawing of a point. -/
theorem mark_ok {t : Thr ℝ} (ht : t.nullDistance ≤ 1) (flag : Bool) (cols rows : Nat) {dp : Draw.Vals} (hs : dp.style.val ≤ 5) (hn : 1 ≤ dp.ptDelta) (hr : 1 ≤ dp.pointSize) (p : Pt ℝ) :
    ∃ m, pointMark t flag cols rows dp p = .ok m ∧ (¬ InImg cols rows p → m = .nothing) ∧ (InImg cols rows p → IsSymbol dp.style.val dp.ptDelta dp.pointSize p m) := by
  obtain ⟨x, y⟩ := p
  by_cases h1 : x < 0 ∨ (cols : ℝ) ≤ x
  · refine ⟨.nothing, by simp only [pointMark, h1, if_true], fun _ => rfl, fun h => ?_⟩
    obtain ⟨a, b, -⟩ := h
    rcases h1 with h1 | h1 <;> simp only at a b <;> linarith
  by_cases h2 : y < 0 ∨ (rows : ℝ) ≤ y
  · refine ⟨.nothing, by simp only [pointMark, h1, h2, if_true, if_false], fun _ => rfl, fun h => ?_⟩
    obtain ⟨-, -, a, b⟩ := h
    rcases h2 with h2 | h2 <;> simp only at a b <;> linarith
  have hin : InImg cols rows (x, y) := by
    push Not at h1 h2
    exact ⟨h1.1, h1.2, h2.1, h2.2⟩
  obtain ⟨d1, d2, d3⟩ := side_half hn
  have n1 : (1 : ℝ) ≤ dp.ptDelta := by exact_mod_cast hn
  have r1 : (1 : ℝ) ≤ dp.pointSize := by exact_mod_cast hr
  obtain ⟨v, hv⟩ : ∃ v, dp.style.val = v := ⟨_, rfl⟩
  rw [hv] at hs ⊢
  have hcase : v = 0 ∨ v = 1 ∨ v = 2 ∨ v = 3 ∨ v = 4 ∨ v = 5 := by omega
  unfold pointMark
  rw [if_neg h1, if_neg h2, hv]
  rcases hcase with rfl | rfl | rfl | rfl | rfl | rfl
  · simp only
    rw [plus_segs ht hn]
    exact ⟨_, rfl, fun h => absurd hin h, fun _ => plus_symbol n1 d1 d2 d3 _ x y⟩
  · simp only
    rw [times_segs ht hn]
    exact ⟨_, rfl, fun h => absurd hin h, fun _ => times_symbol n1 d1 d2 d3 _ x y⟩
  · simp only
    rw [plus_segs ht hn, times_segs ht hn]
    exact ⟨_, rfl, fun h => absurd hin h, fun _ => star_symbol n1 d1 d2 d3 _ x y⟩
  · simp only
    rw [diam_segs ht hn]
    exact ⟨_, rfl, fun h => absurd hin h, fun _ => diam_symbol n1 d1 d2 d3 _ x y⟩
  · simp only
    rw [squ_segs ht hn]
    exact ⟨_, rfl, fun h => absurd hin h, fun _ => squ_symbol n1 d1 d2 d3 _ x y⟩
  · simp only
    rw [circle_ok (by linarith) (Or.inr (by linarith))]
    exact ⟨_, rfl, fun h => absurd hin h, fun _ => ⟨rfl, rfl⟩⟩

end H2d.SvgD
