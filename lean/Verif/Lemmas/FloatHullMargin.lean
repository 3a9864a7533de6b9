import Verif.Lemmas.FloatHull

/-! # Convex hull of points in general position, with rounded operations; a stack that becomes empty -/

namespace H2d.Fl

open H2d.Spec

variable {F : Arith} {u v M thr : ℝ}

/-- Error of the computed cross product of two differences. -/
theorem cross_diff_err (h : FlOk F u v) {a b c d : ℝ} (ha : |a| ≤ 2 * M) (hb : |b| ≤ 2 * M) (hc : |c| ≤ 2 * M) (hd : |d| ≤ 2 * M) :
    |F.rnd (F.rnd (F.rnd a * F.rnd b) - F.rnd (F.rnd c * F.rnd d)) - (a * b - c * d)| ≤ 40 * u * M ^ 2 := by
  have hu := h.u_nonneg
  have us := h.u_small
  have he := cross_err h a b c d
  have hM : 0 ≤ 2 * M := (abs_nonneg a).trans ha
  have p1 : |a * b| ≤ 2 * M * (2 * M) := by rw [abs_mul]; exact mul_le_mul ha hb (abs_nonneg _) hM
  have p2 : |c * d| ≤ 2 * M * (2 * M) := by rw [abs_mul]; exact mul_le_mul hc hd (abs_nonneg _) hM
  have pw : (1 + u) ^ 4 - 1 ≤ 5 * u := by
    have e : (1 + u) ^ 4 - 1 = u * (4 + 6 * u + 4 * u ^ 2 + u ^ 3) := by ring
    have u2 : u ^ 2 ≤ 1 / 64 := by nlinarith
    have u3 : u ^ 3 ≤ 1 / 64 := by
      have := mul_le_mul_of_nonneg_left u2 hu
      nlinarith
    rw [e, mul_comm]
    exact mul_le_mul_of_nonneg_right (by linarith) hu
  refine he.trans ?_
  have := mul_le_mul pw (add_le_add p1 p2) (by positivity) (by positivity)
  linarith

theorem sub_abs_le {x y : ℝ} (hx : |x| ≤ M) (hy : |y| ≤ M) : |x - y| ≤ 2 * M := by
  have := abs_sub x y
  linarith

/-- A value and its rounded version have the same position with respect to 0 when the error is small. -/
theorem pos_iff_of_close {x y e : ℝ} (h : |x - y| ≤ e) (hy : e < |y|) : 0 < x ↔ 0 < y := by
  have h' := abs_le.1 h
  constructor
  · intro hx
    by_contra hn
    rw [abs_of_nonpos (not_lt.1 hn)] at hy
    linarith
  · intro k
    rw [abs_of_pos k] at hy
    linarith

theorem hullComp_margin (h : FlOk F u v) {input : List (Pt ℝ)} (hM : ∀ q ∈ input, |q.1| ≤ M ∧ |q.2| ≤ M)
    (hm : ∀ a ∈ input, ∀ b ∈ input, ∀ c ∈ input, a ≠ b → a ≠ c → b ≠ c → 40 * u * M ^ 2 < |turn a b c|) (piv : Nat) :
    Fl.hullComp F input piv = H2d.hullComp input piv := by
  funext i j
  unfold Fl.hullComp H2d.hullComp
  match h0 : input[piv]?, h1 : input[i]?, h2 : input[j]? with
  | some a, some b, some c =>
    have ha := List.mem_of_getElem? h0
    have hb := List.mem_of_getElem? h1
    have hc := List.mem_of_getElem? h2
    simp only
    have r0 := rnd_zero h
    by_cases hab : a = b
    · subst hab; simp [r0]
    by_cases hac : a = c
    · subst hac; simp [r0]
    by_cases hbc : b = c
    · subst hbc; simp [r0, mul_comm]
    refine decide_eq_decide.2 ?_
    refine pos_iff_of_close (cross_diff_err h (sub_abs_le (hM b hb).1 (hM a ha).1) (sub_abs_le (hM c hc).2 (hM a ha).2) (sub_abs_le (hM c hc).1 (hM a ha).1) (sub_abs_le (hM b hb).2 (hM a ha).2)) ?_
    have e : (b.1 - a.1) * (c.2 - a.2) - (c.1 - a.1) * (b.2 - a.2) = turn a b c := by unfold turn; ring
    rw [e]
    exact hm a ha b hb c hc hab hac hbc
  | none, _, _ => rfl
  | some _, none, _ => rfl
  | some _, some _, none => rfl

theorem chOrientation_margin (h : FlOk F u v) (ht : 0 < thr) {input : List (Pt ℝ)} (hM : ∀ q ∈ input, |q.1| ≤ M ∧ |q.2| ≤ M)
    (hm : ∀ a ∈ input, ∀ b ∈ input, ∀ c ∈ input, a ≠ b → a ≠ c → b ≠ c → thr + 40 * u * M ^ 2 < |turn a b c|) {a b c : Pt ℝ} (ha : a ∈ input) (hb : b ∈ input) (hc : c ∈ input) :
    Fl.chOrientation F thr a b c = H2d.chOrientation thr a b c := by
  have r0 := rnd_zero h
  unfold Fl.chOrientation H2d.chOrientation
  by_cases hab : a = b
  · subst hab; simp [r0]
  by_cases hbc : b = c
  · subst hbc; simp [r0]
  by_cases hac : a = c
  · subst hac
    have e : F.rnd (F.rnd (F.rnd (b.2 - a.2) * F.rnd (a.1 - b.1)) - F.rnd (F.rnd (b.1 - a.1) * F.rnd (a.2 - b.2))) = 0 := by
      rw [← neg_sub b.1 a.1, ← neg_sub b.2 a.2, h.odd, h.odd, mul_neg, mul_neg, mul_comm (F.rnd (b.1 - a.1)), sub_self, r0]
    have e' : (b.2 - a.2) * (a.1 - b.1) - (b.1 - a.1) * (a.2 - b.2) = 0 := by ring
    simp only [e, e']
  have he := cross_diff_err h (sub_abs_le (hM b hb).2 (hM a ha).2) (sub_abs_le (hM c hc).1 (hM b hb).1) (sub_abs_le (hM b hb).1 (hM a ha).1) (sub_abs_le (hM c hc).2 (hM b hb).2)
  have hy := hm a ha b hb c hc hab hac hbc
  have e : (b.2 - a.2) * (c.1 - b.1) - (b.1 - a.1) * (c.2 - b.2) = - turn a b c := by unfold turn; ring
  rw [← abs_neg, ← e] at hy
  have hp := pos_iff_of_close he (by linarith)
  simp only
  have hx : ¬ |F.rnd (F.rnd (F.rnd (b.2 - a.2) * F.rnd (c.1 - b.1)) - F.rnd (F.rnd (b.1 - a.1) * F.rnd (c.2 - b.2)))| < thr := by
    intro k
    have := abs_sub_abs_le_abs_sub ((b.2 - a.2) * (c.1 - b.1) - (b.1 - a.1) * (c.2 - b.2)) (F.rnd (F.rnd (F.rnd (b.2 - a.2) * F.rnd (c.1 - b.1)) - F.rnd (F.rnd (b.1 - a.1) * F.rnd (c.2 - b.2))))
    have he' := he
    rw [abs_sub_comm] at he'
    linarith
  have hx' : ¬ |(b.2 - a.2) * (c.1 - b.1) - (b.1 - a.1) * (c.2 - b.2)| < thr := by
    have := (abs_nonneg _).trans he
    intro k
    linarith
  rw [if_neg hx, if_neg hx']
  exact if_congr hp rfl rfl

theorem hullLoop_margin {F : Arith} {thr : ℝ} {input : List (Pt ℝ)} (ho : ∀ a ∈ input, ∀ b ∈ input, ∀ c ∈ input, Fl.chOrientation F thr a b c = H2d.chOrientation thr a b c) (v2 : List Nat) (fuel : Nat) :
    ∀ i1 i2 i3 hull fp, Fl.hullLoop F thr input v2 fuel i1 i2 i3 hull fp = H2d.hullLoop thr input v2 fuel i1 i2 i3 hull fp := by
  induction fuel with
  | zero => intros; rfl
  | succ fuel ih =>
    intro i1 i2 i3 hull fp
    unfold Fl.hullLoop H2d.hullLoop
    rcases h0 : hullPt input v2 i1 with a | _ | _ <;> rcases h1 : hullPt input v2 i2 with b | _ | _ <;> rcases h2 : hullPt input v2 i3 with c | _ | _ <;>
      rcases v2[i3]? with _ | k <;> try rfl
    simp only
    rw [ho _ (hullPt_mem h0) _ (hullPt_mem h1) _ (hullPt_mem h2)]
    simp only [ih]
    rfl

/-- If the comparisons have the exact results, so has the hull. -/
theorem convexHull_margin {F : Arith} (srt : (Nat → Nat → Bool) → List Nat → List Nat) {t : Thr ℝ} {thr : ℝ} {input : List (Pt ℝ)} (h4 : 4 ≤ input.length)
    (hc : Fl.hullComp F input (getPivot input) = H2d.hullComp input (getPivot input))
    (ho : ∀ a ∈ input, ∀ b ∈ input, ∀ c ∈ input, Fl.chOrientation F thr a b c = H2d.chOrientation thr a b c) :
    Fl.convexHull F srt t thr input = H2d.convexHull srt thr (fun a b => open Classical in decide (PtSame F t a b)) input := by
  have hv : Fl.sortPoints F srt input (getPivot input) = H2d.sortPoints srt input (getPivot input) := by
    unfold Fl.sortPoints H2d.sortPoints
    rw [hc]
    rfl
  unfold Fl.convexHull H2d.convexHull
  simp only [hv]
  rw [if_neg (by omega), if_neg (by omega)]
  generalize H2d.sortPoints srt input (getPivot input) = v2
  rcases v2[0]? with _ | a <;> rcases v2[1]? with _ | b <;> rcases v2[2]? with _ | c <;> try rfl
  simp only
  rw [hullLoop_margin ho]
  rcases H2d.hullLoop thr input v2 (2 * input.length) 1 2 3 [c, b, a] [1, 0] with _ | hull | _ | _ <;> rfl

/-- Products of the coordinates of three points that are not on a line through the origin but for which the computed products are the same two by two. -/
theorem ties {p : ℕ} (hp : 6 ≤ p) {Q : ℝ} (hQ : (2 : ℝ) ^ (p - 3) = Q) :
    (binary p).rnd ((8 * Q - 8) * (5 * Q + 1)) = (5 * Q - 4) * (8 * Q) ∧ (binary p).rnd ((8 * Q - 6) * (5 * Q)) = (5 * Q - 4) * (8 * Q) ∧ (binary p).rnd ((8 * Q - 7) * (5 * Q)) = (5 * Q - 4) * (8 * Q) ∧
    (binary p).rnd ((8 * Q - 7) * (5 * Q + 1)) = (5 * Q - 3) * (8 * Q) ∧ (binary p).rnd ((8 * Q - 6) * (5 * Q + 1)) = (5 * Q - 3) * (8 * Q) := by
  have hN : (2 : ℝ) ^ (p - 1) = 4 * Q := by rw [← hQ, show p - 1 = 2 + (p - 3) by omega, pow_add]; norm_num
  have hK : (2 : ℝ) ^ ((p : ℕ) : ℤ) = 8 * Q := by rw [zpow_natCast, ← hQ, show p = 3 + (p - 3) by omega, pow_add, Nat.add_sub_cancel_left]; norm_num
  have h8 : 8 ≤ Q := by
    rw [← hQ]
    calc (8 : ℝ) = 2 ^ 3 := by norm_num
      _ ≤ 2 ^ (p - 3) := pow_le_pow_right₀ (by norm_num) (by omega)
  have c4 : (((5 * 2 ^ (p - 3) - 4 : ℤ)) : ℝ) = 5 * Q - 4 := by push_cast; rw [hQ]
  have c3 : (((5 * 2 ^ (p - 3) - 3 : ℤ)) : ℝ) = 5 * Q - 3 := by push_cast; rw [hQ]
  refine ⟨?_, ?_, ?_, ?_, ?_⟩
  · rw [rnd_at (by omega) hN hK (m := 5 * 2 ^ (p - 3) - 4) (by nlinarith) (by nlinarith) (by rw [c4, abs_lt]; constructor <;> nlinarith), c4]
  · rw [rnd_at (by omega) hN hK (m := 5 * 2 ^ (p - 3) - 4) (by nlinarith) (by nlinarith) (by rw [c4, abs_lt]; constructor <;> nlinarith), c4]
  · rw [rnd_at (by omega) hN hK (m := 5 * 2 ^ (p - 3) - 4) (by nlinarith) (by nlinarith) (by rw [c4, abs_lt]; constructor <;> nlinarith), c4]
  · rw [rnd_at (by omega) hN hK (m := 5 * 2 ^ (p - 3) - 3) (by nlinarith) (by nlinarith) (by rw [c3, abs_lt]; constructor <;> nlinarith), c3]
  · rw [rnd_at (by omega) hN hK (m := 5 * 2 ^ (p - 3) - 3) (by nlinarith) (by nlinarith) (by rw [c3, abs_lt]; constructor <;> nlinarith), c3]

/-- Four points for which all the points are tied for the comparison given to `std::sort`, and both stacks lose more elements than they have. -/
theorem underflow {p : ℕ} (hp : 6 ≤ p) {t : Thr ℝ} {thr : ℝ} (hthr : thr ≤ 1) : ∃ input : List (Pt ℝ), input.length = 4 ∧ input.Nodup ∧ (∀ q ∈ input, IntUpTo (2 ^ p) q.1 ∧ IntUpTo (2 ^ p) q.2) ∧
    (∀ i ∈ (hullIota input.length (getPivot input)).tail, ∀ j ∈ (hullIota input.length (getPivot input)).tail, Fl.hullComp (binary p) input (getPivot input) i j = false) ∧
    Fl.convexHull (binary p) insSort t thr input = .ub := by
  obtain ⟨Q, hQ⟩ : ∃ Q : ℝ, (2 : ℝ) ^ (p - 3) = Q := ⟨_, rfl⟩
  obtain ⟨n, hn⟩ : ∃ n : ℤ, (2 : ℤ) ^ (p - 3) = n := ⟨_, rfl⟩
  have hnr : Q = (n : ℝ) := by rw [← hQ, ← hn]; push_cast; rfl
  have h8 : 8 ≤ n := by
    rw [← hn]
    calc (8 : ℤ) = 2 ^ 3 := by norm_num
      _ ≤ 2 ^ (p - 3) := pow_le_pow_right₀ (by norm_num) (by omega)
  have hp2 : (2 : ℤ) ^ p = 8 * n := by rw [← hn, show p = 3 + (p - 3) by omega, pow_add, Nat.add_sub_cancel_left]; norm_num
  have h8r : 8 ≤ Q := by rw [hnr]; exact_mod_cast h8
  obtain ⟨e1, e2, e3, e4, e5⟩ := ties hp hQ
  have int : ∀ m : ℤ, |m| ≤ 8 * n → IntUpTo (2 ^ p) (m : ℝ) := fun m hm => ⟨m, by rw [hp2]; exact hm, rfl⟩
  have hp1 : 1 ≤ p := by omega
  have rint : ∀ (m : ℤ) (x : ℝ), x = (m : ℝ) → |m| ≤ 8 * n → IntUpTo (2 ^ p) x ∧ (binary p).rnd x = x := by
    rintro m x rfl hm
    exact ⟨int m hm, (int m hm).rnd hp1 le_rfl⟩
  obtain ⟨i8, r8⟩ := rint (8 * n - 8) (8 * Q - 8) (by rw [hnr]; push_cast; ring) (by rw [abs_le]; omega)
  obtain ⟨i7, r7⟩ := rint (8 * n - 7) (8 * Q - 7) (by rw [hnr]; push_cast; ring) (by rw [abs_le]; omega)
  obtain ⟨i6, r6⟩ := rint (8 * n - 6) (8 * Q - 6) (by rw [hnr]; push_cast; ring) (by rw [abs_le]; omega)
  obtain ⟨i5, r5⟩ := rint (5 * n) (5 * Q) (by rw [hnr]; push_cast; ring) (by rw [abs_le]; omega)
  obtain ⟨i51, r51⟩ := rint (5 * n + 1) (5 * Q + 1) (by rw [hnr]; push_cast; ring) (by rw [abs_le]; omega)
  obtain ⟨i0, r0⟩ := rint 0 0 (by simp) (by rw [abs_le]; omega)
  obtain ⟨-, r1⟩ := rint 1 1 (by simp) (by rw [abs_le]; omega)
  obtain ⟨-, r2⟩ := rint 2 2 (by simp) (by rw [abs_le]; omega)
  obtain ⟨-, r10⟩ := rint (10 * n - 8 * n + 8) (5 * Q * 2 - (8 * Q - 8)) (by rw [hnr]; push_cast; ring) (by rw [abs_le]; omega)
  have r25 : (binary p).rnd (5 * Q * 2) = 5 * Q * 2 := by
    have := roundTo_exact (p := p) hp1 (m := 5 * n) (k := 1) (by rw [hp2, abs_le]; omega)
    rw [binary_rnd, show 5 * Q * 2 = ((5 * n : ℤ) : ℝ) * 2 ^ (1 : ℤ) by rw [hnr]; push_cast; norm_num]
    exact this
  have hpiv : getPivot ([(0, 0), (8 * Q - 8, 5 * Q), (8 * Q - 7, 5 * Q + 1), (8 * Q - 6, 5 * Q + 1)] : List (Pt ℝ)) = 0 := by
    obtain ⟨q, hq, hq2⟩ := Hull.pivot_spec (input := ([(0, 0), (8 * Q - 8, 5 * Q), (8 * Q - 7, 5 * Q + 1), (8 * Q - 6, 5 * Q + 1)] : List (Pt ℝ))) (by simp)
    generalize getPivot ([(0, 0), (8 * Q - 8, 5 * Q), (8 * Q - 7, 5 * Q + 1), (8 * Q - 6, 5 * Q + 1)] : List (Pt ℝ)) = k at hq ⊢
    have hl := (List.getElem?_eq_some_iff.1 hq).1
    simp only [List.length_cons, List.length_nil] at hl
    have hle : q.2 ≤ 0 := by
      rcases hq2.2 (0, 0) (by simp) with h | h
      · exact h.le
      · exact h.1.le
    interval_cases k
    · rfl
    · simp at hq; subst hq; simp only at hle; linarith
    · simp at hq; subst hq; simp only at hle; linarith
    · simp at hq; subst hq; simp only at hle; linarith
  have hcomp : ∀ i j : ℕ, 1 ≤ i → i ≤ 3 → 1 ≤ j → j ≤ 3 → Fl.hullComp (binary p) [(0, 0), (8 * Q - 8, 5 * Q), (8 * Q - 7, 5 * Q + 1), (8 * Q - 6, 5 * Q + 1)] 0 i j = false := by
    intro i j hi1 hi3 hj1 hj3
    have c : ∀ x y : ℝ, (binary p).rnd x = (binary p).rnd y → ¬ (binary p).rnd ((binary p).rnd x - (binary p).rnd y) > 0 := by
      intro x y hxy
      rw [hxy, sub_self, r0]
      exact lt_irrefl _
    interval_cases i <;> interval_cases j <;>
      simp only [Fl.hullComp, List.getElem?_cons_zero, List.getElem?_cons_succ, sub_zero, r5, r51, r6, r7, r8, decide_eq_false_iff_not] <;> apply c <;> first | rfl | simp only [e1, e2, e3, e4, e5]
  refine ⟨[(0, 0), (8 * Q - 8, 5 * Q), (8 * Q - 7, 5 * Q + 1), (8 * Q - 6, 5 * Q + 1)], rfl, ?_, ?_, ?_, ?_⟩
  · simp only [List.nodup_cons, List.mem_cons, List.not_mem_nil, or_false, not_or, Prod.mk.injEq, not_and, List.nodup_nil, and_true]
    refine ⟨⟨fun h => ?_, fun h => ?_, fun h => ?_⟩, ⟨fun h => ?_, fun h => ?_⟩, ?_⟩
    all_goals first | (exfalso; linarith) | (simp; done) | (simp; intro h; linarith)
  · intro q hq
    simp only [List.mem_cons, List.not_mem_nil, or_false] at hq
    rcases hq with rfl | rfl | rfl | rfl
    exacts [⟨i0, i0⟩, ⟨i8, i5⟩, ⟨i7, i51⟩, ⟨i6, i51⟩]
  · rw [hpiv]
    have key : ∀ k ∈ (hullIota 4 0).tail, 1 ≤ k ∧ k ≤ 3 := by decide
    intro i hi j hj
    exact hcomp i j (key i hi).1 (key i hi).2 (key j hj).1 (key j hj).2
  · have hv : Fl.sortPoints (binary p) insSort [(0, 0), (8 * Q - 8, 5 * Q), (8 * Q - 7, 5 * Q + 1), (8 * Q - 6, 5 * Q + 1)] 0 = [0, 1, 2, 3] := by
      show 0 :: insSort (Fl.hullComp (binary p) [(0, 0), (8 * Q - 8, 5 * Q), (8 * Q - 7, 5 * Q + 1), (8 * Q - 6, 5 * Q + 1)] 0) [1, 2, 3] = _
      simp [insSort, insOne, hcomp 3 2 (by norm_num) (by norm_num) (by norm_num) (by norm_num),
        hcomp 2 1 (by norm_num) (by norm_num) (by norm_num) (by norm_num)]
    have o1 : Fl.chOrientation (binary p) thr (8 * Q - 8, 5 * Q) (8 * Q - 7, 5 * Q + 1) (8 * Q - 6, 5 * Q + 1) = 1 := by
      unfold Fl.chOrientation
      simp only
      rw [show 5 * Q + 1 - 5 * Q = 1 by ring, show 8 * Q - 6 - (8 * Q - 7) = 1 by ring, show 8 * Q - 7 - (8 * Q - 8) = 1 by ring, sub_self, r0, r1, mul_zero, mul_one, r0, r1, sub_zero, r1]
      rw [if_neg (by rw [abs_one]; exact not_lt.2 hthr), if_pos (by norm_num)]
    have o2 : Fl.chOrientation (binary p) thr (0, 0) (8 * Q - 8, 5 * Q) (8 * Q - 6, 5 * Q + 1) = 1 := by
      unfold Fl.chOrientation
      simp only
      rw [sub_zero, sub_zero, show 5 * Q + 1 - 5 * Q = 1 by ring, show 8 * Q - 6 - (8 * Q - 8) = 2 by ring, r5, r2, r8, r1, mul_one, r8, r25, r10]
      have hpos : 1 ≤ 5 * Q * 2 - (8 * Q - 8) := by linarith
      rw [if_neg (by rw [abs_of_nonneg (by linarith)]; linarith), if_pos (by linarith)]
    unfold Fl.convexHull
    simp only [hpiv, hv]
    simp [Fl.hullLoop, hullPt, o1, o2]

end H2d.Fl
