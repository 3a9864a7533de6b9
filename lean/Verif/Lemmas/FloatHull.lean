import Verif.Model.FloatInter
import Verif.Lemmas.FloatExact
import Verif.Lemmas.FloatErr
import Verif.Lemmas.Hull
import Mathlib.Tactic.IntervalCases

/-! # Convex hull of integer points -/

namespace H2d.Fl

open H2d.Spec

variable {p : ℕ} {B : ℤ}

theorem hullComp_exact (hp : 1 ≤ p) (hB : 8 * B ^ 2 ≤ 2 ^ p) {input : List (Pt ℝ)} (hi : ∀ q ∈ input, IntUpTo B q.1 ∧ IntUpTo B q.2) (piv : Nat) :
    Fl.hullComp (binary p) input piv = H2d.hullComp input piv := by
  funext i j
  unfold Fl.hullComp H2d.hullComp
  match h0 : input[piv]?, h1 : input[i]?, h2 : input[j]? with
  | some a, some b, some c =>
    have ha := hi a (List.mem_of_getElem? h0)
    have hb := hi b (List.mem_of_getElem? h1)
    have hc := hi c (List.mem_of_getElem? h2)
    simp only
    rw [cross_exact hp hB hb.1 ha.1 hc.2 ha.2 hc.1 ha.1 hb.2 ha.2]
  | none, _, _ => rfl
  | some _, none, _ => rfl
  | some _, some _, none => rfl

theorem chOrientation_exact (hp : 1 ≤ p) (hB : 8 * B ^ 2 ≤ 2 ^ p) (thr : ℝ) {a b c : Pt ℝ} (ha : IntUpTo B a.1 ∧ IntUpTo B a.2) (hb : IntUpTo B b.1 ∧ IntUpTo B b.2)
    (hc : IntUpTo B c.1 ∧ IntUpTo B c.2) : Fl.chOrientation (binary p) thr a b c = H2d.chOrientation thr a b c := by
  unfold Fl.chOrientation H2d.chOrientation
  rw [cross_exact hp hB hb.2 ha.2 hc.1 hb.1 hb.1 ha.1 hc.2 hb.2]

theorem hullPt_mem {input : List (Pt ℝ)} {v2 : List Nat} {i : Nat} {q : Pt ℝ} (h : hullPt input v2 i = .ok q) : q ∈ input := by
  unfold hullPt at h
  split at h
  · simp at h
  · split at h
    · simp at h
    · obtain rfl := Res.ok.inj h
      rename_i h2
      exact List.mem_of_getElem? h2

theorem hullLoop_exact (hp : 1 ≤ p) (hB : 8 * B ^ 2 ≤ 2 ^ p) (thr : ℝ) {input : List (Pt ℝ)} (hi : ∀ q ∈ input, IntUpTo B q.1 ∧ IntUpTo B q.2) (v2 : List Nat) (fuel : Nat) :
    ∀ i1 i2 i3 hull fp, Fl.hullLoop (binary p) thr input v2 fuel i1 i2 i3 hull fp = H2d.hullLoop thr input v2 fuel i1 i2 i3 hull fp := by
  induction fuel with
  | zero => intros; rfl
  | succ fuel ih =>
    intro i1 i2 i3 hull fp
    unfold Fl.hullLoop H2d.hullLoop
    rcases h0 : hullPt input v2 i1 with a | _ | _ <;> rcases h1 : hullPt input v2 i2 with b | _ | _ <;> rcases h2 : hullPt input v2 i3 with c | _ | _ <;>
      rcases v2[i3]? with _ | k <;> try rfl
    simp only
    rw [chOrientation_exact hp hB thr (hi _ (hullPt_mem h0)) (hi _ (hullPt_mem h1)) (hi _ (hullPt_mem h2))]
    simp only [ih]
    rfl

/-- Integer points are the same only if equal. -/
theorem same_int (hp : 6 ≤ p) {B : ℤ} {t : Thr ℝ} (ht : 0 < t.nullDistance) (ht1 : t.nullDistance ≤ 1 / 2) {a b : Pt ℝ}
    (ha : IntUpTo B a.1 ∧ IntUpTo B a.2) (hb : IntUpTo B b.1 ∧ IntUpTo B b.2) : PtSame (binary p) t a b ↔ a = b := by
  have h := binary_ok hp
  constructor
  · intro hs
    by_contra hne
    have h1 : 1 ≤ eucl a b := by
      obtain ⟨⟨m1, -, e1⟩, m2, -, e2⟩ := ha
      obtain ⟨⟨n1, -, f1⟩, n2, -, f2⟩ := hb
      rw [← Real.sqrt_one]
      apply Real.sqrt_le_sqrt
      rw [e1, e2, f1, f2]
      have : (1 : ℤ) ≤ (m1 - n1) ^ 2 + (m2 - n2) ^ 2 := by
        by_contra hc
        have z : (m1 - n1) ^ 2 + (m2 - n2) ^ 2 = 0 := by
          have := sq_nonneg (m1 - n1); have := sq_nonneg (m2 - n2); omega
        have z1 : m1 - n1 = 0 := by
          have := sq_nonneg (m1 - n1); have := sq_nonneg (m2 - n2)
          exact pow_eq_zero_iff (two_ne_zero) |>.1 (by omega)
        have z2 : m2 - n2 = 0 := by
          have := sq_nonneg (m1 - n1); have := sq_nonneg (m2 - n2)
          exact pow_eq_zero_iff (two_ne_zero) |>.1 (by omega)
        apply hne
        apply Prod.ext
        · rw [e1, f1, show m1 = n1 by omega]
        · rw [e2, f2, show m2 = n2 by omega]
      exact_mod_cast this
    have h2 := abs_le.1 (distPt_err h a b)
    have h3 := err_small h
    have : distPt (binary p) a b < 1 / 2 := lt_of_lt_of_le hs ht1
    nlinarith [h2.1]
  · rintro rfl
    show distPt _ a a < _
    unfold distPt
    rw [sub_self, sub_self, rnd_zero h, hyp_zero h]
    exact ht

theorem mem_openPairs {P : Type} {l : List P} {e : P × P} (h : e ∈ openPairs l) : e.1 ∈ l ∧ e.2 ∈ l := by
  have := List.of_mem_zip (a := e.1) (b := e.2) h
  exact ⟨this.1, List.mem_of_mem_tail this.2⟩

theorem polySet_congr {P : Type} {s1 s2 : P → P → Bool} {l : List P} (h : ∀ a ∈ l, ∀ b ∈ l, s1 a b = s2 a b) : polySet s1 l = polySet s2 l := by
  have : checkInput s1 l = checkInput s2 l := by
    match l, h with
    | [], _ => rfl
    | [_], _ => rfl
    | a :: b :: l, h =>
      unfold checkInput
      simp only
      congr 1
      · refine Bool.eq_iff_iff.2 ?_
        rw [List.all_eq_true, List.all_eq_true]
        refine forall₂_congr fun e he => ?_
        have := mem_openPairs he
        rw [h _ this.1 _ this.2]
      · rw [h a (by simp) _ ?_]
        rw [List.getLastD_eq_getLast?, List.getLast?_eq_some_getLast (by simp), Option.getD_some]
        exact List.mem_cons_of_mem _ (List.getLast_mem _)
  unfold polySet
  rw [this]

end H2d.Fl

namespace H2d.Fl

open H2d.Spec

theorem hullCopy_mem {input : List (Pt ℝ)} {l : List Nat} {vout : List (Pt ℝ)} (h : hullCopy input l = .ok vout) : ∀ q ∈ vout, q ∈ input := by
  induction l generalizing vout with
  | nil => obtain rfl := Res.ok.inj h; simp
  | cons k l ih =>
    unfold hullCopy at h
    split at h
    · simp at h
    · rename_i q hq
      rcases e : hullCopy input l with r | _ | _
      · rw [e] at h
        obtain rfl := Res.ok.inj h
        intro x hx
        rcases List.mem_cons.1 hx with rfl | hx
        · exact List.mem_of_getElem? hq
        · exact ih e x hx
      · rw [e] at h; cases h
      · rw [e] at h; cases h

/-- On integers of moderate size the rounded hull is the exact one. -/
theorem convexHull_exact {p : ℕ} (hp : 6 ≤ p) {B : ℤ} (hB : 8 * B ^ 2 ≤ 2 ^ p) (srt : (Nat → Nat → Bool) → List Nat → List Nat) {t : Thr ℝ}
    (ht : 0 < t.nullDistance) (ht1 : t.nullDistance ≤ 1 / 2) (thr : ℝ) {input : List (Pt ℝ)} (hi : ∀ q ∈ input, IntUpTo B q.1 ∧ IntUpTo B q.2)
    (same : Pt ℝ → Pt ℝ → Bool) (hsame : ∀ a b, same a b = true ↔ a = b) :
    Fl.convexHull (binary p) srt t thr input = H2d.convexHull srt thr same input := by
  classical
  have hp1 : 1 ≤ p := by omega
  have hs : ∀ l : List (Pt ℝ), (∀ q ∈ l, q ∈ input) → polySet (fun a b => decide (PtSame (binary p) t a b)) l = polySet same l := by
    intro l hl
    apply polySet_congr
    intro a ha b hb
    rw [Bool.eq_iff_iff, hsame, decide_eq_true_iff]
    exact same_int hp ht ht1 (hi a (hl a ha)) (hi b (hl b hb))
  have hv : Fl.sortPoints (binary p) srt input (getPivot input) = H2d.sortPoints srt input (getPivot input) := by
    unfold Fl.sortPoints H2d.sortPoints
    rw [hullComp_exact hp1 hB hi]
    rfl
  unfold Fl.convexHull H2d.convexHull
  simp only [hv]
  split
  · convert hs input (fun _ h => h)
  · generalize H2d.sortPoints srt input (getPivot input) = v2
    rcases v2[0]? with _ | a <;> rcases v2[1]? with _ | b <;> rcases v2[2]? with _ | c <;> try rfl
    simp only
    rw [hullLoop_exact hp1 hB thr hi]
    rcases H2d.hullLoop thr input v2 (2 * input.length) 1 2 3 [c, b, a] [1, 0] with _ | hull | _ | _ <;> try rfl
    simp only
    rcases e : hullCopy input hull.reverse with r | _ | _ <;> try rfl
    exact (by convert hs r (hullCopy_mem e) : polySet _ r = polySet same r)

theorem clearTurns_int {B : ℤ} {thr : ℝ} (h : thr ≤ 1) {input : List (Pt ℝ)} (hi : ∀ q ∈ input, IntUpTo B q.1 ∧ IntUpTo B q.2) : ClearTurns thr input := by
  intro a ha b hb c hc
  obtain ⟨⟨a1, -, e1⟩, a2, -, e2⟩ := hi a ha
  obtain ⟨⟨b1, -, f1⟩, b2, -, f2⟩ := hi b hb
  obtain ⟨⟨c1, -, g1⟩, c2, -, g2⟩ := hi c hc
  have e : turn a b c = (((b1 - a1) * (c2 - a2) - (b2 - a2) * (c1 - a1) : ℤ) : ℝ) := by
    unfold turn; rw [e1, e2, f1, f2, g1, g2]; push_cast; ring
  rw [e]
  generalize (b1 - a1) * (c2 - a2) - (b2 - a2) * (c1 - a1) = m
  by_cases hm : m = 0
  · left; rw [hm]; simp
  · right
    have := Int.one_le_abs hm
    exact h.trans (by exact_mod_cast this)

/-- Rounding in the binade of `N K`, where `N = 2^(p-1)` and `K` is a power of two. -/
theorem rnd_at {p : ℕ} (hp : 1 ≤ p) {x K N : ℝ} {k m : ℤ} (hN : (2 : ℝ) ^ (p - 1) = N) (hK : (2 : ℝ) ^ k = K) (h1 : N * K ≤ x) (h2 : x < 2 * N * K) (h : |x - m * K| < K / 2) :
    (binary p).rnd x = m * K := by
  have hK0 : 0 < K := by rw [← hK]; exact two_zpow_pos k
  have z : (2 : ℝ) ^ ((p : ℤ) - 1) = N := by rw [show (p : ℤ) - 1 = ((p - 1 : ℕ) : ℤ) by omega, zpow_natCast, hN]
  have z2 : (2 : ℝ) ^ (p : ℤ) = 2 * N := by rw [zpow_natCast, pow_pred hp, hN]
  rw [binary_rnd, roundTo_of (p := p) hp (x := x) (m := m) (k := k), hK]
  · rw [zpow_add₀ (by norm_num), z, hK]; exact h1
  · rw [zpow_add₀ (by norm_num), z2, hK]; exact h2
  · rw [zpow_neg, hK, show x * K⁻¹ - m = (x - m * K) / K by field_simp, abs_div, abs_of_pos hK0, div_lt_iff₀ hK0]; linarith

/-- Three vectors such that the computed cross products of the first with the second and of the second with the third are 0, but not that of the first with the third. -/
theorem cross_not_trans {p : ℕ} (hp : 8 ≤ p) {N : ℝ} (hN : (2 : ℝ) ^ (p - 1) = N) :
    (binary p).rnd (N * (5 * N / 4 - 1)) = N * (5 * N / 4 - 1) ∧ (binary p).rnd (5 * N / 4 * (N - 1)) = N * (5 * N / 4 - 1) ∧
    (binary p).rnd (5 * N / 4 * (13 * N / 8 - 1)) = (65 * N / 64 - 1) * (2 * N) ∧ (binary p).rnd (13 * N / 8 * (5 * N / 4 - 1)) = (65 * N / 64 - 1) * (2 * N) ∧
    (binary p).rnd (N * (13 * N / 8 - 1)) = N * (13 * N / 8 - 1) ∧ (binary p).rnd (13 * N / 8 * (N - 1)) = N * (13 * N / 8 - 2) := by
  have hn : N = 64 * 2 ^ (p - 7) := by rw [← hN, show p - 1 = 6 + (p - 7) by omega, pow_add]; norm_num
  have h2 : (2 : ℝ) ≤ 2 ^ (p - 7) := by
    calc (2 : ℝ) = 2 ^ 1 := by norm_num
      _ ≤ 2 ^ (p - 7) := pow_le_pow_right₀ (by norm_num) (by omega)
  have kN : (2 : ℝ) ^ ((p - 1 : ℕ) : ℤ) = N := by rw [zpow_natCast, hN]
  have k2 : (2 : ℝ) ^ ((p : ℕ) : ℤ) = 2 * N := by rw [zpow_natCast, pow_pred (by omega), hN]
  have c1 : (((80 * 2 ^ (p - 7) - 1 : ℤ)) : ℝ) = 5 * N / 4 - 1 := by rw [hn]; push_cast; ring
  have c2 : (((65 * 2 ^ (p - 7) - 1 : ℤ)) : ℝ) = 65 * N / 64 - 1 := by rw [hn]; push_cast; ring
  have c3 : (((104 * 2 ^ (p - 7) - 1 : ℤ)) : ℝ) = 13 * N / 8 - 1 := by rw [hn]; push_cast; ring
  have c4 : (((104 * 2 ^ (p - 7) - 2 : ℤ)) : ℝ) = 13 * N / 8 - 2 := by rw [hn]; push_cast; ring
  have h128 : 128 ≤ N := by rw [hn]; linarith
  refine ⟨?_, ?_, ?_, ?_, ?_, ?_⟩
  · rw [rnd_at (by omega) hN kN (m := 80 * 2 ^ (p - 7) - 1) (by nlinarith) (by nlinarith) (by rw [c1, abs_lt]; constructor <;> nlinarith), c1]; ring
  · rw [rnd_at (by omega) hN kN (m := 80 * 2 ^ (p - 7) - 1) (by nlinarith) (by nlinarith) (by rw [c1, abs_lt]; constructor <;> nlinarith), c1]; ring
  · rw [rnd_at (by omega) hN k2 (m := 65 * 2 ^ (p - 7) - 1) (by nlinarith) (by nlinarith) (by rw [c2, abs_lt]; constructor <;> nlinarith), c2]
  · rw [rnd_at (by omega) hN k2 (m := 65 * 2 ^ (p - 7) - 1) (by nlinarith) (by nlinarith) (by rw [c2, abs_lt]; constructor <;> nlinarith), c2]
  · rw [rnd_at (by omega) hN kN (m := 104 * 2 ^ (p - 7) - 1) (by nlinarith) (by nlinarith) (by rw [c3, abs_lt]; constructor <;> nlinarith), c3]; ring
  · rw [rnd_at (by omega) hN kN (m := 104 * 2 ^ (p - 7) - 2) (by nlinarith) (by nlinarith) (by rw [c4, abs_lt]; constructor <;> nlinarith), c4]; ring

theorem bad_order {p : ℕ} (hp : 8 ≤ p) : ∃ input : List (Pt ℝ), input.Nodup ∧ (∀ q ∈ input, IntUpTo (2 ^ p) q.1 ∧ IntUpTo (2 ^ p) q.2) ∧
    (getPivot input = 0 ∧ input.length = 4) ∧
    Fl.hullComp (binary p) input 0 1 2 = false ∧ Fl.hullComp (binary p) input 0 2 1 = false ∧ Fl.hullComp (binary p) input 0 2 3 = false ∧
    Fl.hullComp (binary p) input 0 3 2 = false ∧ Fl.hullComp (binary p) input 0 1 3 = true := by
  obtain ⟨N, hN⟩ : ∃ N : ℝ, (2 : ℝ) ^ (p - 1) = N := ⟨_, rfl⟩
  obtain ⟨n, hn⟩ : ∃ n : ℤ, (2 : ℤ) ^ (p - 7) = n := ⟨_, rfl⟩
  have hnr : N = 64 * (n : ℝ) := by rw [← hN, ← hn, show p - 1 = 6 + (p - 7) by omega, pow_add]; push_cast; norm_num
  have h2 : 2 ≤ n := by
    rw [← hn]
    calc (2 : ℤ) = 2 ^ 1 := by norm_num
      _ ≤ 2 ^ (p - 7) := pow_le_pow_right₀ (by norm_num) (by omega)
  have hp2 : (2 : ℤ) ^ p = 128 * n := by rw [← hn, show p = 7 + (p - 7) by omega, pow_add]; norm_num
  have h128 : 128 ≤ N := by rw [hnr]; have : (2 : ℝ) ≤ n := by exact_mod_cast h2
                            linarith
  obtain ⟨e1, e2, e3, e4, e5, e6⟩ := cross_not_trans hp hN
  have iN : IntUpTo (2 ^ p) N := ⟨64 * n, by rw [hp2, abs_of_nonneg (by omega)]; omega, by rw [hnr]; push_cast; ring⟩
  have iN1 : IntUpTo (2 ^ p) (N - 1) := ⟨64 * n - 1, by rw [hp2, abs_of_nonneg (by omega)]; omega, by rw [hnr]; push_cast; ring⟩
  have ib : IntUpTo (2 ^ p) (5 * N / 4) := ⟨80 * n, by rw [hp2, abs_of_nonneg (by omega)]; omega, by rw [hnr]; push_cast; ring⟩
  have ib1 : IntUpTo (2 ^ p) (5 * N / 4 - 1) := ⟨80 * n - 1, by rw [hp2, abs_of_nonneg (by omega)]; omega, by rw [hnr]; push_cast; ring⟩
  have ic : IntUpTo (2 ^ p) (13 * N / 8) := ⟨104 * n, by rw [hp2, abs_of_nonneg (by omega)]; omega, by rw [hnr]; push_cast; ring⟩
  have ic1 : IntUpTo (2 ^ p) (13 * N / 8 - 1) := ⟨104 * n - 1, by rw [hp2, abs_of_nonneg (by omega)]; omega, by rw [hnr]; push_cast; ring⟩
  have i0 : IntUpTo (2 ^ p) (0 : ℝ) := ⟨0, by rw [hp2, abs_zero]; omega, by simp⟩
  have hp1 : 1 ≤ p := by omega
  have rN := iN.rnd hp1 le_rfl
  have rN1 := iN1.rnd hp1 le_rfl
  have rb := ib.rnd hp1 le_rfl
  have rb1 := ib1.rnd hp1 le_rfl
  have rc := ic.rnd hp1 le_rfl
  have rc1 := ic1.rnd hp1 le_rfl
  have r0 := i0.rnd hp1 le_rfl
  have hpiv : getPivot ([(0, 0), (N, N - 1), (5 * N / 4, 5 * N / 4 - 1), (13 * N / 8, 13 * N / 8 - 1)] : List (Pt ℝ)) = 0 := by
    obtain ⟨q, hq, hq2⟩ := Hull.pivot_spec (input := ([(0, 0), (N, N - 1), (5 * N / 4, 5 * N / 4 - 1), (13 * N / 8, 13 * N / 8 - 1)] : List (Pt ℝ))) (by simp)
    generalize getPivot ([(0, 0), (N, N - 1), (5 * N / 4, 5 * N / 4 - 1), (13 * N / 8, 13 * N / 8 - 1)] : List (Pt ℝ)) = k at hq ⊢
    have hl := (List.getElem?_eq_some_iff.1 hq).1
    simp only [List.length_cons, List.length_nil] at hl
    have hle : q.2 ≤ 0 := by
      rcases hq2.2 (0, 0) (by simp) with h | h
      · exact h.le
      · exact h.1.le
    interval_cases k
    · rfl
    · simp at hq; subst hq; simp only at hle; linarith
    · simp at hq; subst hq; simp only at hle; linarith
    · simp at hq; subst hq; simp only at hle; linarith
  refine ⟨[(0, 0), (N, N - 1), (5 * N / 4, 5 * N / 4 - 1), (13 * N / 8, 13 * N / 8 - 1)], ?_, ?_, ⟨hpiv, rfl⟩, ?_, ?_, ?_, ?_, ?_⟩
  · simp only [List.nodup_cons, List.mem_cons, List.not_mem_nil, or_false, not_or, Prod.mk.injEq, not_and, List.nodup_nil, and_true]
    refine ⟨⟨fun h => ?_, fun h => ?_, fun h => ?_⟩, ⟨fun h => ?_, fun h => ?_⟩, ?_⟩
    all_goals first | (exfalso; linarith) | (simp; intro h; linarith)
  · intro q hq
    simp only [List.mem_cons, List.not_mem_nil, or_false] at hq
    rcases hq with rfl | rfl | rfl | rfl
    exacts [⟨i0, i0⟩, ⟨iN, iN1⟩, ⟨ib, ib1⟩, ⟨ic, ic1⟩]
  · simp [Fl.hullComp, rN, rN1, rb, rb1, e1, e2, r0]
  · simp [Fl.hullComp, rN, rN1, rb, rb1, e1, e2, r0]
  · simp [Fl.hullComp, rc, rc1, rb, rb1, e3, e4, r0]
  · simp [Fl.hullComp, rc, rc1, rb, rb1, e3, e4, r0]
  · have : N * (13 * N / 8 - 1) - N * (13 * N / 8 - 2) = N := by ring
    simp only [Fl.hullComp, List.getElem?_cons_zero, List.getElem?_cons_succ, sub_zero, rc, rc1, rN, rN1, e5, e6, this]
    simp; linarith

end H2d.Fl
