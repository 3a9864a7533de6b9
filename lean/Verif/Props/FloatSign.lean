import Verif.Lemmas.FloatExact
import Verif.Lemmas.PolyConvex
import Verif.Model.Segment
import Mathlib.Tactic.NormNum.BigOperators

/-!
# C104–C105: orientation and convexity, boxes, with rounded operations
-/

namespace H2d.Props

open H2d.Spec H2d.Fl

/-! ## C104 -/

/-- **C104, turns.** Where three points turn, the sign computed with rounding is right unless the two products nearly cancel. -/
theorem C104_turn (F : Arith) (u v : ℝ) (h : FlOk F u v) (a b c : ℝ × ℝ)
    (hb : ((1 + u) ^ 4 - 1) * (|(b.1 - a.1) * (c.2 - b.2)| + |(b.2 - a.2) * (c.1 - b.1)|) < |turnAt a b c|) :
    (0 < Fl.crossAt F a b c ↔ 0 < turnAt a b c) ∧ (Fl.crossAt F a b c < 0 ↔ turnAt a b c < 0) :=
  sign_of_err (cross_err h _ _ _ _) hb

/-- **C104, convexity.** If no turn of the polygon nearly vanishes, `isConvex` gives with rounding the same result as without. -/
theorem C104_convex (F : Arith) (u v : ℝ) (h : FlOk F u v) (simple : Bool) (pts : List (ℝ × ℝ))
    (hb : ∀ i a b c, Neighbours pts i a b c → ((1 + u) ^ 4 - 1) * (|(b.1 - a.1) * (c.2 - b.2)| + |(b.2 - a.2) * (c.1 - b.1)|) < |turnAt a b c|) :
    Fl.isConvex F simple pts = H2d.isConvex simple pts := by
  have hmem : ∀ t ∈ cycTriples pts, (0 < Fl.crossAt F t.1 t.2.1 t.2.2 ↔ 0 < H2d.crossAt t.1 t.2.1 t.2.2) := by
    rintro ⟨a, b, c⟩ ht
    obtain ⟨i, hn⟩ := (mem_cycTriples _ _ _ _).1 ht
    exact (C104_turn F u v h a b c (hb i a b c hn)).1
  unfold Fl.isConvex H2d.isConvex
  congr 2
  exact convexLoop_congr _ _ _ hmem 0

/-- A square with `double`. -/
example : ∀ i a b c, Neighbours ([(0, 0), (1, 0), (1, 1), (0, 1)] : List (ℝ × ℝ)) i a b c →
    ((1 + (2 : ℝ) ^ (-53 : ℤ)) ^ 4 - 1) * (|(b.1 - a.1) * (c.2 - b.2)| + |(b.2 - a.2) * (c.1 - b.1)|) < |turnAt a b c| := by
  intro i a b c hn
  have := (mem_cycTriples _ _ _ _).2 ⟨i, hn⟩
  simp only [cycTriples, List.length_cons, List.length_nil, List.drop_succ_cons, List.drop_zero, List.dropLast_cons_cons, List.dropLast_singleton, List.cons_append, List.nil_append,
    List.tail_cons, List.take_succ_cons, List.take_zero, List.zip_cons_cons, List.zip_nil_right, List.mem_cons, Prod.mk.injEq, List.not_mem_nil, or_false] at this
  rcases this with ⟨rfl, rfl, rfl⟩ | ⟨rfl, rfl, rfl⟩ | ⟨rfl, rfl, rfl⟩ | ⟨rfl, rfl, rfl⟩ <;> (simp [turnAt]; norm_num)

/-- **C104, integers.** With `p`-bit numbers, turns, sides, hull orientation and convexity are exact for integer coordinates of absolute value at most `B` with `8 B² ≤ 2^p`. -/
theorem C104_integers (p : ℕ) (hp : 6 ≤ p) (B : ℤ) (hB : 8 * B ^ 2 ≤ 2 ^ p) :
    (∀ (a b c : ℝ × ℝ), (∀ q ∈ [a, b, c], IntUpTo B q.1 ∧ IntUpTo B q.2) →
      Fl.crossAt (binary p) a b c = turnAt a b c ∧ (∀ thr, Fl.chOrientation (binary p) thr a b c = H2d.chOrientation thr a b c) ∧
      Fl.sideCross (binary p) a b c = (c.1 - a.1) * (b.2 - a.2) - (c.2 - a.2) * (b.1 - a.1)) ∧
    ∀ (simple : Bool) (pts : List (ℝ × ℝ)), (∀ q ∈ pts, IntUpTo B q.1 ∧ IntUpTo B q.2) → Fl.isConvex (binary p) simple pts = H2d.isConvex simple pts := by
  have k : ∀ (a b c : ℝ × ℝ), (∀ q ∈ [a, b, c], IntUpTo B q.1 ∧ IntUpTo B q.2) →
      Fl.crossAt (binary p) a b c = turnAt a b c ∧ (∀ thr, Fl.chOrientation (binary p) thr a b c = H2d.chOrientation thr a b c) ∧
      Fl.sideCross (binary p) a b c = (c.1 - a.1) * (b.2 - a.2) - (c.2 - a.2) * (b.1 - a.1) := by
    intro a b c hi
    obtain ⟨a1, a2⟩ := hi a (by simp)
    obtain ⟨b1, b2⟩ := hi b (by simp)
    obtain ⟨c1, c2⟩ := hi c (by simp)
    refine ⟨cross_exact (by omega) hB b1 a1 c2 b2 b2 a2 c1 b1, fun thr => ?_, cross_exact (by omega) hB c1 a1 b2 a2 c2 a2 b1 a1⟩
    unfold Fl.chOrientation H2d.chOrientation
    rw [cross_exact (by omega) hB b2 a2 c1 b1 b1 a1 c2 b2]
  refine ⟨k, fun simple pts hi => ?_⟩
  unfold Fl.isConvex H2d.isConvex
  congr 2
  refine convexLoop_congr _ _ _ ?_ 0
  rintro ⟨a, b, c⟩ ht
  obtain ⟨m1, m2, m3⟩ := mem_of_cycTriples ht
  have := (k a b c (by
    intro q hq
    simp only [List.mem_cons, List.not_mem_nil, or_false] at hq
    rcases hq with rfl | rfl | rfl
    exacts [hi _ m1, hi _ m2, hi _ m3])).1
  show 0 < Fl.crossAt (binary p) a b c ↔ 0 < H2d.crossAt a b c
  rw [this]; rfl

/-- Coordinates up to 3·10⁷ with `double`. -/
example : 8 * (30000000 : ℤ) ^ 2 ≤ 2 ^ 53 := by norm_num

/-- **C104, hull orientation.** The orientation of three points used by `convexHull` is right when the exact value is further from the threshold than the error. -/
theorem C104_orientation (F : Arith) (u v : ℝ) (h : FlOk F u v) (thr : ℝ) (ht : 0 < thr) (a b c : ℝ × ℝ)
    (hb : thr + ((1 + u) ^ 4 - 1) * (|(b.1 - a.1) * (c.2 - b.2)| + |(b.2 - a.2) * (c.1 - b.1)|) < |turnAt a b c|) :
    (Fl.chOrientation F thr a b c = 1 ↔ turnAt a b c < 0) ∧ (Fl.chOrientation F thr a b c = -1 ↔ 0 < turnAt a b c) := by
  have he := cross_err h (b.2 - a.2) (c.1 - b.1) (b.1 - a.1) (c.2 - b.2)
  have e : turnAt a b c = - ((b.2 - a.2) * (c.1 - b.1) - (b.1 - a.1) * (c.2 - b.2)) := by unfold turnAt; ring
  rw [e, abs_neg, add_comm |(b.1 - a.1) * (c.2 - b.2)|] at hb
  rw [e]
  simp only [Fl.chOrientation]
  generalize F.rnd _ = x at *
  generalize (b.2 - a.2) * (c.1 - b.1) - (b.1 - a.1) * (c.2 - b.2) = y at *
  generalize |(b.2 - a.2) * (c.1 - b.1)| + |(b.1 - a.1) * (c.2 - b.2)| = s at *
  obtain ⟨s1, s2⟩ := sign_of_err he (by linarith)
  have hx : ¬ |x| < thr := by
    have := abs_sub_abs_le_abs_sub y x
    rw [abs_sub_comm] at this
    linarith
  rw [if_neg hx]
  rcases lt_trichotomy y 0 with h0 | h0 | h0
  · have := s2.2 h0
    rw [if_neg (by linarith)]
    exact ⟨by constructor <;> intro <;> linarith, by simp; linarith⟩
  · rw [h0, abs_zero] at hb
    have : 0 ≤ ((1 + u) ^ 4 - 1) * s := (abs_nonneg _).trans he
    linarith
  · have := s1.2 h0
    rw [if_pos this]
    exact ⟨by simp; linarith, by constructor <;> intro <;> linarith⟩

/-- With `double` and the standard threshold, the turn (0,0) (1,0) (1,1). -/
example : (1 / 10 ^ 10 : ℝ) + ((1 + (2 : ℝ) ^ (-53 : ℤ)) ^ 4 - 1) * (|((1 : ℝ) - 0) * (1 - 0)| + |((0 : ℝ) - 0) * (1 - 1)|) < |turnAt ((0 : ℝ), (0 : ℝ)) (1, 0) (1, 1)| := by
  simp [turnAt]; norm_num

/-- **C104, side.** The side of a segment on which a point lies is right unless the two products nearly cancel. -/
theorem C104_side (F : Arith) (u v : ℝ) (h : FlOk F u v) (p1 p2 pt : ℝ × ℝ)
    (hb : ((1 + u) ^ 4 - 1) * (|(pt.1 - p1.1) * (p2.2 - p1.2)| + |(pt.2 - p1.2) * (p2.1 - p1.1)|) < |(pt.1 - p1.1) * (p2.2 - p1.2) - (pt.2 - p1.2) * (p2.1 - p1.1)|) :
    (0 < Fl.sideCross F p1 p2 pt ↔ 0 < (pt.1 - p1.1) * (p2.2 - p1.2) - (pt.2 - p1.2) * (p2.1 - p1.1)) ∧
    (Fl.sideCross F p1 p2 pt < 0 ↔ (pt.1 - p1.1) * (p2.2 - p1.2) - (pt.2 - p1.2) * (p2.1 - p1.1) < 0) :=
  sign_of_err (cross_err h _ _ _ _) hb

/-- **C104, the bound is needed.** Whatever the number of bits, there is a strictly convex quadrilateral with exactly represented integer coordinates which is declared not convex;
one of its vertices lies strictly on one side of an edge, but is declared to lie on it. -/
theorem C104_sharp (p : ℕ) (hp : 6 ≤ p) : ∃ pts : List (ℝ × ℝ), (∀ q ∈ pts, Rep (binary p) q.1 ∧ Rep (binary p) q.2) ∧ pts.length = 4 ∧
    (∀ i a b c, Neighbours pts i a b c → 0 < turnAt a b c) ∧ H2d.isConvex true pts = true ∧ Fl.isConvex (binary p) true pts = false ∧
    ∃ a b c, Neighbours pts 1 a b c ∧ Fl.crossAt (binary p) a b c = 0 := by
  have h4 := four_le_int (p := p) (by omega)
  have h4' := four_le (p := p) (by omega)
  have hpp := pow_pred_int (p := p) (by omega)
  have hsq := rnd_pred_sq (p := p) (by omega)
  have hok := binary_ok hp
  have i0 : (binary p).rnd 0 = 0 := roundTo_zero
  have hi : ∀ m : ℤ, |m| ≤ 2 ^ p → (binary p).rnd m = m := fun m hm => roundTo_int (by omega) hm
  have i1 := hi (2 ^ (p - 1)) (by rw [abs_of_pos (by positivity)]; omega)
  have i2 := hi (2 ^ (p - 1) + 1) (by rw [abs_of_pos (by positivity)]; omega)
  have i3 := hi (2 ^ (p - 1) - 1) (by rw [abs_of_pos (by omega)]; omega)
  have i4 := hi 1 (by rw [abs_one]; omega)
  have k0 := rnd_multiple (p := p) (by omega) (2 ^ (p - 1)) (by rw [abs_of_pos (by positivity)]; omega)
  push_cast at i1 i2 i3 i4 k0
  generalize (2 : ℝ) ^ (p - 1) = N at *
  have c0 : Fl.crossAt (binary p) (-N, -N) (0, 1) (N - 1, N + 1) = 0 := by
    simp only [Fl.crossAt]
    rw [show (0 : ℝ) - -N = N by ring, show N + 1 - 1 = N by ring, show (1 : ℝ) - -N = N + 1 by ring, sub_zero, i1, i2, i3, k0, hsq, sub_self, i0]
  have c1 : 0 < Fl.crossAt (binary p) (0, 1) (N - 1, N + 1) (-N, N + 1) := by
    simp only [Fl.crossAt, sub_self, i0, mul_zero]
    rw [zero_sub, hok.odd]
    have a1 : 0 < (binary p).rnd (N + 1 - 1) := by rw [show N + 1 - 1 = N by ring, i1]; linarith
    have a2 : (binary p).rnd (-N - (N - 1)) < 0 := by
      rw [show -N - (N - 1) = - (2 * N - 1) by ring, hok.odd]
      have : (binary p).rnd 1 ≤ (binary p).rnd (2 * N - 1) := hok.mono (by linarith)
      rw [i4] at this; linarith
    have a3 : (binary p).rnd ((binary p).rnd (N + 1 - 1) * (binary p).rnd (-N - (N - 1))) < 0 := by
      have h1 : (binary p).rnd (N + 1 - 1) * (binary p).rnd (-N - (N - 1)) < 0 := mul_neg_of_pos_of_neg a1 a2
      refine lt_of_le_of_ne ?_ fun e => h1.ne ((rnd_eq_zero hok).1 e)
      have := hok.mono h1.le
      rwa [i0] at this
    rw [hok.idem]
    linarith
  have turns : ∀ i a b c, Neighbours ([(-N, -N), (0, 1), (N - 1, N + 1), (-N, N + 1)] : List (ℝ × ℝ)) i a b c → 0 < turnAt a b c := by
    intro i a b c hn
    have := (mem_cycTriples _ _ _ _).2 ⟨i, hn⟩
    simp only [cycTriples, List.length_cons, List.length_nil, List.drop_succ_cons, List.drop_zero, List.dropLast_cons_cons, List.dropLast_singleton, List.cons_append, List.nil_append,
      List.tail_cons, List.take_succ_cons, List.take_zero, List.zip_cons_cons, List.zip_nil_right, List.mem_cons, Prod.mk.injEq, List.not_mem_nil, or_false] at this
    rcases this with ⟨rfl, rfl, rfl⟩ | ⟨rfl, rfl, rfl⟩ | ⟨rfl, rfl, rfl⟩ | ⟨rfl, rfl, rfl⟩ <;> (simp only [turnAt]; nlinarith)
  refine ⟨[(-N, -N), (0, 1), (N - 1, N + 1), (-N, N + 1)], ?_, rfl, turns, ?_, ?_, (-N, -N), (0, 1), (N - 1, N + 1), ?_, c0⟩
  · simp [Rep, hok.odd, i1, i2, i3, i0, i4]
  · exact (isConvex_iff true _).2 ⟨rfl, Or.inr (Or.inl turns)⟩
  · rw [Bool.eq_false_iff]
    intro hc
    unfold Fl.isConvex at hc
    simp only [Bool.not_true, Bool.false_eq_true, if_false, List.length_cons, List.length_nil, Nat.reduceAdd, Nat.reduceEqDiff, convexLoop_zero] at hc
    have m0 : Fl.crossAt (binary p) (-N, -N) (0, 1) (N - 1, N + 1) ∈
        (cycTriples ([(-N, -N), (0, 1), (N - 1, N + 1), (-N, N + 1)] : List (ℝ × ℝ))).map fun t => Fl.crossAt (binary p) t.1 t.2.1 t.2.2 := by simp [cycTriples]
    have m1 : Fl.crossAt (binary p) (0, 1) (N - 1, N + 1) (-N, N + 1) ∈
        (cycTriples ([(-N, -N), (0, 1), (N - 1, N + 1), (-N, N + 1)] : List (ℝ × ℝ))).map fun t => Fl.crossAt (binary p) t.1 t.2.1 t.2.2 := by simp [cycTriples]
    rcases hc with hc | hc
    · have := hc _ m0; linarith
    · have := hc _ m1; linarith
  · simp [Neighbours]

/-! ## C105 -/

/-- **C105, centre.** With rounding, the centre of a segment (or rectangle) does not depend on the order of the points, is never outside of their bounding box,
and its error is at most the rounding of the exact centre. -/
theorem C105_center (F : Arith) (u v : ℝ) (h : FlOk F u v) (p q : ℝ × ℝ) (hp : Rep F p.1 ∧ Rep F p.2) (hq : Rep F q.1 ∧ Rep F q.2) :
    Fl.center F p q = Fl.center F q p ∧
    min p.1 q.1 ≤ (Fl.center F p q).1 ∧ (Fl.center F p q).1 ≤ max p.1 q.1 ∧ min p.2 q.2 ≤ (Fl.center F p q).2 ∧ (Fl.center F p q).2 ≤ max p.2 q.2 ∧
    |(Fl.center F p q).1 - (p.1 + q.1) / 2| ≤ u * |(p.1 + q.1) / 2| ∧ |(Fl.center F p q).2 - (p.2 + q.2) / 2| ≤ u * |(p.2 + q.2) / 2| := by
  have k : ∀ a b, Rep F a → Rep F b → min a b ≤ F.rnd (F.rnd (a + b) / 2) ∧ F.rnd (F.rnd (a + b) / 2) ≤ max a b := by
    intro a b ha hb
    rcases le_total a b with hab | hab
    · rw [min_eq_left hab, max_eq_right hab]; exact mid_between h ha hb hab
    · rw [min_eq_right hab, max_eq_left hab, add_comm]; exact mid_between h hb ha hab
  have e : ∀ x, |F.rnd (F.rnd x / 2) - x / 2| ≤ u * |x / 2| := by
    intro x
    rw [rnd_half_half h, ← h.half]; exact h.err _
  refine ⟨?_, (k _ _ hp.1 hq.1).1, (k _ _ hp.1 hq.1).2, (k _ _ hp.2 hq.2).1, (k _ _ hp.2 hq.2).2, e _, e _⟩
  unfold Fl.center
  rw [add_comm p.1, add_comm p.2]

/-- **C105, sizes.** Width, height, area and perimeter of a rectangle have small relative errors; the width is null only if the corners have the same abscissa. -/
theorem C105_sizes (F : Arith) (u v : ℝ) (h : FlOk F u v) (r : FRect ℝ) (hx : r.p1.1 ≤ r.p2.1) (hy : r.p1.2 ≤ r.p2.2) :
    0 ≤ Fl.rectWidth F r ∧ (Fl.rectWidth F r = 0 ↔ r.p1.1 = r.p2.1) ∧ |Fl.rectWidth F r - (r.p2.1 - r.p1.1)| ≤ u * (r.p2.1 - r.p1.1) ∧
    0 ≤ Fl.rectHeight F r ∧ (Fl.rectHeight F r = 0 ↔ r.p1.2 = r.p2.2) ∧ |Fl.rectHeight F r - (r.p2.2 - r.p1.2)| ≤ u * (r.p2.2 - r.p1.2) ∧
    0 ≤ Fl.rectArea F r ∧ |Fl.rectArea F r - (r.p2.1 - r.p1.1) * (r.p2.2 - r.p1.2)| ≤ ((1 + u) ^ 3 - 1) * ((r.p2.1 - r.p1.1) * (r.p2.2 - r.p1.2)) ∧
    |Fl.rectLength F r - 2 * ((r.p2.1 - r.p1.1) + (r.p2.2 - r.p1.2))| ≤ ((1 + u) ^ 2 - 1) * (2 * ((r.p2.1 - r.p1.1) + (r.p2.2 - r.p1.2))) := by
  have hw : 0 ≤ r.p2.1 - r.p1.1 := by linarith
  have hh : 0 ≤ r.p2.2 - r.p1.2 := by linarith
  have e1 := h.err (r.p2.1 - r.p1.1)
  have e2 := h.err (r.p2.2 - r.p1.2)
  have n1 := rnd_nonneg h hw
  have n2 := rnd_nonneg h hh
  have z : ∀ a b : ℝ, F.rnd (b - a) = 0 ↔ a = b := fun a b => by rw [rnd_eq_zero h, sub_eq_zero, eq_comm]
  have ea := rnd_near h (mul_near e1 e2) le_rfl
  rw [abs_of_nonneg (mul_nonneg hw hh)] at ea
  rw [abs_of_nonneg hw] at e1
  rw [abs_of_nonneg hh] at e2
  refine ⟨n1, z _ _, e1, n2, z _ _, e2, rnd_nonneg h (mul_nonneg n2 n1), ?_, ?_⟩
  · unfold Fl.rectArea Fl.rectHeight Fl.rectWidth
    rw [mul_comm (F.rnd (r.p2.2 - r.p1.2))]
    refine ea.trans (le_of_eq ?_); ring
  · unfold Fl.rectLength Fl.rectHeight Fl.rectWidth
    rw [rnd_two h, rnd_two h, h.idem, h.idem]
    have e3 : |2 * F.rnd (r.p2.2 - r.p1.2) + 2 * F.rnd (r.p2.1 - r.p1.1) - 2 * ((r.p2.1 - r.p1.1) + (r.p2.2 - r.p1.2))| ≤ u * (2 * ((r.p2.1 - r.p1.1) + (r.p2.2 - r.p1.2))) := by
      rw [abs_le] at e1 e2 ⊢
      constructor <;> linarith [e1.1, e1.2, e2.1, e2.2]
    refine (rnd_near h e3 (le_of_eq (abs_of_nonneg (by linarith)))).trans (le_of_eq ?_); ring

/-- **C105, translations.** With rounding, translations keep the order of the coordinates: a point of the (closed) rectangle is still in it when both are translated;
the error on each coordinate is at most that of one rounding. -/
theorem C105_translate (F : Arith) (u v : ℝ) (h : FlOk F u v) (r : FRect ℝ) (q : ℝ × ℝ) (dx dy : ℝ)
    (hx : r.p1.1 ≤ q.1 ∧ q.1 ≤ r.p2.1) (hy : r.p1.2 ≤ q.2 ∧ q.2 ≤ r.p2.2) :
    let r' := Fl.rectTranslate F r dx dy
    let q' := Fl.ptTranslate F q dx dy
    r'.p1.1 ≤ q'.1 ∧ q'.1 ≤ r'.p2.1 ∧ r'.p1.2 ≤ q'.2 ∧ q'.2 ≤ r'.p2.2 ∧ |q'.1 - (q.1 + dx)| ≤ u * |q.1 + dx| ∧ |q'.2 - (q.2 + dy)| ≤ u * |q.2 + dy| :=
  ⟨h.mono (by linarith [hx.1]), h.mono (by linarith [hx.2]), h.mono (by linarith [hy.1]), h.mono (by linarith [hy.2]), h.err _, h.err _⟩

/-- **C105, circles.** The bounding box of a circle contains its centre, and is the exact one up to the rounding of its coordinates;
it is defined if the radius is large enough compared with the position. -/
theorem C105_circle_box (F : Arith) (u v : ℝ) (h : FlOk F u v) (t : Thr ℝ) (c : ℝ × ℝ) (r : ℝ) (hr : 0 ≤ r) (hc : Rep F c.1 ∧ Rep F c.2) :
    (∀ b, Fl.circBB F t c r = .ok b → b.p1.1 ≤ c.1 ∧ c.1 ≤ b.p2.1 ∧ b.p1.2 ≤ c.2 ∧ c.2 ≤ b.p2.2 ∧
      |b.p1.1 - (c.1 - r)| ≤ u * |c.1 - r| ∧ |b.p2.1 - (c.1 + r)| ≤ u * |c.1 + r| ∧ |b.p1.2 - (c.2 - r)| ≤ u * |c.2 - r| ∧ |b.p2.2 - (c.2 + r)| ≤ u * |c.2 + r|) ∧
    (t.nullOrthogDistance ≤ (1 - u) * (2 * r - 2 * u * (|c.1| + r)) → t.nullOrthogDistance ≤ (1 - u) * (2 * r - 2 * u * (|c.2| + r)) → ∃ b, Fl.circBB F t c r = .ok b) := by
  have m1 : F.rnd (c.1 - r) ≤ c.1 := by have := h.mono (show c.1 - r ≤ c.1 by linarith); rwa [hc.1] at this
  have m2 : c.1 ≤ F.rnd (c.1 + r) := by have := h.mono (show c.1 ≤ c.1 + r by linarith); rwa [hc.1] at this
  have m3 : F.rnd (c.2 - r) ≤ c.2 := by have := h.mono (show c.2 - r ≤ c.2 by linarith); rwa [hc.2] at this
  have m4 : c.2 ≤ F.rnd (c.2 + r) := by have := h.mono (show c.2 ≤ c.2 + r by linarith); rwa [hc.2] at this
  constructor
  · intro b hb
    unfold Fl.circBB Fl.rectOfPts at hb
    split_ifs at hb
    injection hb with hb
    subst hb
    simp only [min_eq_left (m1.trans m2), max_eq_right (m1.trans m2), min_eq_left (m3.trans m4), max_eq_right (m3.trans m4)]
    exact ⟨m1, m2, m3, m4, h.err _, h.err _, h.err _, h.err _⟩
  · intro h1 h2
    have key : ∀ x : ℝ, t.nullOrthogDistance ≤ (1 - u) * (2 * r - 2 * u * (|x| + r)) → ¬ |F.rnd (F.rnd (x - r) - F.rnd (x + r))| < t.nullOrthogDistance := by
      intro x hx
      have a := abs_le.1 (h.err (x - r))
      have b := abs_le.1 (h.err (x + r))
      have a' : |x - r| ≤ |x| + r := by have := abs_sub x r; rwa [abs_of_nonneg hr] at this
      have b' : |x + r| ≤ |x| + r := by have := abs_add_le x r; rwa [abs_of_nonneg hr] at this
      have a'' := mul_le_mul_of_nonneg_left a' h.u_nonneg
      have b'' := mul_le_mul_of_nonneg_left b' h.u_nonneg
      have d : 2 * r - 2 * u * (|x| + r) ≤ |F.rnd (x - r) - F.rnd (x + r)| := by
        rw [abs_sub_comm]
        refine le_trans ?_ (le_abs_self _)
        linarith [a.2, b.1]
      have hu := h.u_small
      have := le_rnd_abs h (F.rnd (x - r) - F.rnd (x + r))
      have := mul_le_mul_of_nonneg_left d (show 0 ≤ 1 - u by linarith)
      linarith
    refine ⟨_, if_neg ?_⟩
    rintro (h | h)
    · exact key c.1 h1 h
    · exact key c.2 h2 h

/-- The circle of radius 2 around (3,-1), with `double`. -/
example : stdR.nullOrthogDistance ≤ (1 - (2 : ℝ) ^ (-53 : ℤ)) * (2 * 2 - 2 * (2 : ℝ) ^ (-53 : ℤ) * (|3| + 2)) := by simp only [stdR, abs_of_pos (show (0:ℝ) < 3 by norm_num)]; norm_num

/-- **C105, far away.** Whatever the number of bits: a translation can collapse the unit square to a point, and the bounding box of a circle of radius 1 throws for a centre
with large coordinates (2^55 for `double`), although the centre and the radius are exactly represented. -/
theorem C105_sharp (p : ℕ) (hp : 6 ≤ p) : ∃ d : ℝ, Rep (binary p) d ∧
    Fl.rectWidth (binary p) (Fl.rectTranslate (binary p) ⟨(0, 0), (1, 1)⟩ d d) = 0 ∧ ∀ t : Thr ℝ, 0 < t.nullOrthogDistance → Fl.circBB (binary p) t (d, d) 1 = .throw := by
  obtain ⟨h1, h2, h3⟩ := rnd_far (p := p) (by omega)
  refine ⟨2 ^ (p + 2), h3, ?_, ?_⟩
  · have i0 : (binary p).rnd 0 = 0 := roundTo_zero
    simp only [Fl.rectWidth, Fl.rectTranslate, Fl.ptTranslate, zero_add, add_comm (1 : ℝ), h1, h3, sub_self, i0]
  · intro t ht
    unfold Fl.circBB Fl.rectOfPts
    rw [if_pos]
    left
    simp only [h1, h2, sub_self]
    rw [show (binary p).rnd 0 = 0 from roundTo_zero, abs_zero]
    exact ht

end H2d.Props
