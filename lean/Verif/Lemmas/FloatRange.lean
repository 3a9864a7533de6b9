import Verif.Spec.FloatRange
import Verif.Lemmas.Float
import Verif.Model.FloatInter

/-! # Lemmas on the limits of the format -/

namespace H2d.Fl
open H2d H2d.Spec

theorem zpow_le {a b : ℤ} (h : a ≤ b) : (2 : ℝ) ^ a ≤ (2 : ℝ) ^ b := zpow_le_zpow_right₀ (by norm_num) h

/-- The number is rounded as with unlimited exponents. -/
def Plain (f : Format) (x : ℝ) : Prop := ((∃ m : ℤ, x = m * (2 : ℝ) ^ f.emin) ∨ (2 : ℝ) ^ (f.emin + f.p - 1) ≤ |x|) ∧ |x| ≤ (2 : ℝ) ^ (f.emax - 1)

theorem plain_pos {f : Format} {x : ℝ} (hx : 0 < x) (h : (∃ m : ℤ, x = m * (2 : ℝ) ^ f.emin) ∨ (2 : ℝ) ^ (f.emin + f.p - 1) ≤ x) : f.roundPos x = roundPos f.p x := by
  by_cases hl : f.emin ≤ Int.log 2 x - ((f.p : ℤ) - 1)
  · unfold Format.roundPos roundPos Format.last
    rw [max_eq_left hl, show - (Int.log 2 x - ((f.p : ℤ) - 1)) = (f.p : ℤ) - 1 - Int.log 2 x by ring]
  · have hlt := not_le.1 hl
    have hx2 : x < (2 : ℝ) ^ (f.emin + f.p - 1) := lt_of_lt_of_le lt_log (zpow_le (by omega))
    rcases h with ⟨m, rfl⟩ | h
    · have h2 : f.last ((m : ℝ) * (2 : ℝ) ^ f.emin) = f.emin := max_eq_right hlt.le
      have e1 : f.roundPos ((m : ℝ) * (2 : ℝ) ^ f.emin) = m * (2 : ℝ) ^ f.emin := by
        unfold Format.roundPos
        rw [h2, mul_assoc, ← zpow_add₀ (by norm_num), add_neg_cancel, zpow_zero, mul_one, nearestEven_int]
      have hm : 0 < m := by
        by_contra hc
        have : (m : ℝ) ≤ 0 := by exact_mod_cast not_lt.1 hc
        nlinarith [two_zpow_pos f.emin]
      have hm2 : m < 2 ^ f.p := by
        have : (m : ℝ) * (2 : ℝ) ^ f.emin < (2 : ℝ) ^ (f.p : ℤ) * (2 : ℝ) ^ f.emin := by
          rw [← zpow_add₀ (by norm_num)]
          exact lt_of_lt_of_le hx2 (zpow_le (by omega))
        have := lt_of_mul_lt_mul_right this (two_zpow_pos _).le
        rw [zpow_natCast] at this
        exact_mod_cast this
      rw [e1, roundPos_exact hm hm2]
    · exact absurd hx2 (not_lt.2 h)

theorem roundTo_abs_le {p : ℕ} (hp : 1 ≤ p) {x : ℝ} {n : ℤ} (h : |x| ≤ (2 : ℝ) ^ n) : |roundTo p x| ≤ (2 : ℝ) ^ n := by
  have e : roundTo p ((2 : ℝ) ^ n) = (2 : ℝ) ^ n := by
    have := roundTo_exact (p := p) hp (m := 1) (k := n) (by
      rw [abs_one]; exact one_le_pow₀ (by norm_num))
    simpa using this
  rw [abs_le] at h ⊢
  have m := roundTo_mono (p := p) hp
  constructor
  · have := m h.1
    rw [roundTo_neg, e] at this
    exact this
  · have := m h.2
    rwa [e] at this

theorem format_roundTo_eq {f : Format} {x : ℝ} (h : (∃ m : ℤ, x = m * (2 : ℝ) ^ f.emin) ∨ (2 : ℝ) ^ (f.emin + f.p - 1) ≤ |x|) : f.roundTo x = roundTo f.p x := by
  unfold Format.roundTo roundTo
  split_ifs with h1 h2
  · apply plain_pos h1
    rcases h with hm | hm
    · exact Or.inl hm
    · rw [abs_of_pos h1] at hm; exact Or.inr hm
  · have h3 : 0 < -x := by linarith
    rw [plain_pos h3]
    rcases h with ⟨m, hm⟩ | hm
    · exact Or.inl ⟨-m, by rw [hm]; push_cast; ring⟩
    · rw [abs_of_neg h2] at hm; exact Or.inr hm
  · rfl

theorem plain_rnd {f : Format} (hp : 1 ≤ f.p) (over : ℝ → ℝ) {x : ℝ} (h : Plain f x) : f.rnd over x = roundTo f.p x := by
  have e := format_roundTo_eq h.1
  unfold Format.rnd
  rw [e, if_pos]
  exact lt_of_le_of_lt (roundTo_abs_le hp h.2) (zpow_lt_zpow_right₀ (by norm_num) (by omega))

/-- Overflow. -/
theorem rnd_over {f : Format} (hp : 1 ≤ f.p) (over : ℝ → ℝ) {m k : ℤ} (hm : |m| ≤ 2 ^ f.p) (hk : f.emin ≤ k) (h : (2 : ℝ) ^ f.emax ≤ |(m : ℝ) * (2 : ℝ) ^ k|) :
    f.rnd over (m * (2 : ℝ) ^ k) = over (m * (2 : ℝ) ^ k) := by
  unfold Format.rnd
  rw [format_roundTo_eq, roundTo_exact hp hm, if_neg (not_lt.2 h)]
  left
  refine ⟨m * 2 ^ (k - f.emin).toNat, ?_⟩
  push_cast
  rw [mul_assoc, ← zpow_natCast, ← zpow_add₀ (by norm_num), Int.toNat_of_nonneg (by omega)]
  congr 2
  omega

/-- Underflow. -/
theorem rnd_under {f : Format} (hp : 1 ≤ f.p) (over : ℝ → ℝ) {k : ℤ} (hk : k + 1 < f.emin) : f.rnd over ((2 : ℝ) ^ k) = 0 := by
  have hpos := two_zpow_pos k
  have e : f.roundTo ((2 : ℝ) ^ k) = 0 := by
    unfold Format.roundTo
    rw [if_pos hpos]
    have hl : Int.log 2 ((2 : ℝ) ^ k) = k := by
      have := Int.log_zpow (R := ℝ) (b := 2) (by norm_num) k
      exact_mod_cast this
    have h2 : f.last ((2 : ℝ) ^ k) = f.emin := by
      unfold Format.last
      rw [hl]
      exact max_eq_right (by omega)
    unfold Format.roundPos
    rw [h2, ← zpow_add₀ (by norm_num)]
    have h3 : nearestEven ((2 : ℝ) ^ (k + -f.emin)) = 0 := by
      have h4 : (2 : ℝ) ^ (k + -f.emin) ≤ (2 : ℝ) ^ (-2 : ℤ) := zpow_le (by omega)
      have h5 := two_zpow_pos (k + -f.emin)
      have h6 : (2 : ℝ) ^ (-2 : ℤ) = 1 / 4 := by norm_num
      have h7 := abs_le.1 (nearestEven_err ((2 : ℝ) ^ (k + -f.emin)))
      rw [h6] at h4
      generalize (2 : ℝ) ^ (k + -f.emin) = z at *
      have h8 : (nearestEven z : ℝ) < 1 := by linarith [h7.2]
      have h9 : (-1 : ℝ) < nearestEven z := by linarith [h7.1]
      have h10 : nearestEven z < 1 := by exact_mod_cast h8
      have h11 : -1 < nearestEven z := by exact_mod_cast h9
      omega
    rw [h3]; simp
  unfold Format.rnd
  rw [e, abs_zero, if_pos (two_zpow_pos _)]

/-! ### Multiples of a power of two -/

theorem _root_.H2d.Spec.Grid.mono {e e' n n' : ℤ} {x : ℝ} (h : Grid e n x) (he : e' ≤ e) (hn : n ≤ n') : Grid e' n' x := by
  obtain ⟨⟨m, rfl⟩, h2⟩ := h
  refine ⟨⟨m * 2 ^ (e - e').toNat, ?_⟩, le_trans h2 (zpow_le hn)⟩
  push_cast
  rw [mul_assoc, ← zpow_natCast, ← zpow_add₀ (by norm_num), Int.toNat_of_nonneg (by omega)]
  congr 2
  omega

theorem _root_.H2d.Spec.Grid.zero (e n : ℤ) : Grid e n 0 := ⟨⟨0, by simp⟩, by rw [abs_zero]; exact (two_zpow_pos _).le⟩

theorem _root_.H2d.Spec.Grid.one {e n : ℤ} (he : e ≤ 0) (hn : 0 ≤ n) : Grid e n 1 := by
  have : Grid 0 0 1 := ⟨⟨1, by simp⟩, by simp⟩
  exact this.mono he hn

theorem _root_.H2d.Spec.Grid.neg {e n : ℤ} {x : ℝ} (h : Grid e n x) : Grid e n (-x) := by
  obtain ⟨⟨m, rfl⟩, h2⟩ := h
  exact ⟨⟨-m, by push_cast; ring⟩, by rwa [abs_neg]⟩

theorem _root_.H2d.Spec.Grid.abs {e n : ℤ} {x : ℝ} (h : Grid e n x) : Grid e n |x| := by
  rcases abs_choice x with e | e <;> rw [e]
  · exact h
  · exact h.neg

theorem _root_.H2d.Spec.Grid.add {e n : ℤ} {x y : ℝ} (hx : Grid e n x) (hy : Grid e n y) : Grid e (n + 1) (x + y) := by
  obtain ⟨⟨m, rfl⟩, h2⟩ := hx
  obtain ⟨⟨k, rfl⟩, h3⟩ := hy
  refine ⟨⟨m + k, by push_cast; ring⟩, ?_⟩
  rw [zpow_add_one₀ (by norm_num)]
  exact le_trans (abs_add_le _ _) (by linarith)

theorem _root_.H2d.Spec.Grid.sub {e n : ℤ} {x y : ℝ} (hx : Grid e n x) (hy : Grid e n y) : Grid e (n + 1) (x - y) := by
  rw [sub_eq_add_neg]
  exact hx.add hy.neg

theorem _root_.H2d.Spec.Grid.mul {e n e' n' : ℤ} {x y : ℝ} (hx : Grid e n x) (hy : Grid e' n' y) : Grid (e + e') (n + n') (x * y) := by
  obtain ⟨⟨m, rfl⟩, h2⟩ := hx
  obtain ⟨⟨k, rfl⟩, h3⟩ := hy
  refine ⟨⟨m * k, by rw [zpow_add₀ (by norm_num)]; push_cast; ring⟩, ?_⟩
  rw [abs_mul, zpow_add₀ (by norm_num)]
  exact mul_le_mul h2 h3 (abs_nonneg _) (two_zpow_pos _).le

theorem _root_.H2d.Spec.Grid.half {e n : ℤ} {x : ℝ} (hx : Grid e n x) : Grid (e - 1) n (x / 2) := by
  obtain ⟨⟨m, rfl⟩, h2⟩ := hx
  refine ⟨⟨m, by rw [zpow_sub_one₀ (by norm_num)]; ring⟩, ?_⟩
  rw [abs_div, abs_two]
  linarith [abs_nonneg ((m : ℝ) * 2 ^ e)]

theorem _root_.H2d.Spec.Grid.ge {e n : ℤ} {x : ℝ} (hx : Grid e n x) (h0 : x ≠ 0) : (2 : ℝ) ^ e ≤ |x| := by
  obtain ⟨⟨m, rfl⟩, -⟩ := hx
  have hm : m ≠ 0 := by rintro rfl; simp at h0
  rw [abs_mul, abs_of_pos (two_zpow_pos e)]
  have : (1 : ℝ) ≤ |(m : ℝ)| := by exact_mod_cast Int.one_le_abs hm
  nlinarith [two_zpow_pos e]

/-- A rounded number of absolute value at least `2^e` is a multiple of `2^(e-p+1)`. -/
theorem roundTo_multiple {p : ℕ} {x : ℝ} {e : ℤ} (h : x = 0 ∨ (2 : ℝ) ^ e ≤ |x|) : ∃ m : ℤ, roundTo p x = m * (2 : ℝ) ^ (e - p + 1) := by
  have key : ∀ y : ℝ, 0 < y → (2 : ℝ) ^ e ≤ y → ∃ m : ℤ, roundPos p y = m * (2 : ℝ) ^ (e - p + 1) := by
    intro y hy h
    have hl : e ≤ Int.log 2 y := by
      by_contra hc
      have : y < (2 : ℝ) ^ e := lt_of_lt_of_le lt_log (zpow_le (by omega))
      linarith
    refine ⟨nearestEven (y * (2 : ℝ) ^ ((p : ℤ) - 1 - Int.log 2 y)) * 2 ^ (Int.log 2 y - e).toNat, ?_⟩
    unfold roundPos
    push_cast
    rw [mul_assoc, ← zpow_natCast (2 : ℝ), ← zpow_add₀ (by norm_num), Int.toNat_of_nonneg (by omega)]
    congr 2
    ring
  rcases lt_trichotomy x 0 with hx | rfl | hx
  · rcases h with h | h
    · exact absurd h hx.ne
    · rw [abs_of_neg hx] at h
      obtain ⟨m, hm⟩ := key (-x) (by linarith) h
      refine ⟨-m, ?_⟩
      rw [show x = -(-x) by ring, roundTo_neg, roundTo_pos (by linarith), hm]
      push_cast; ring
  · exact ⟨0, by rw [roundTo_zero]; simp⟩
  · rcases h with h | h
    · exact absurd h hx.ne'
    · rw [abs_of_pos hx] at h
      obtain ⟨m, hm⟩ := key x hx h
      exact ⟨m, by rw [roundTo_pos hx, hm]⟩

theorem _root_.H2d.Spec.Grid.rnd {p : ℕ} (hp : 1 ≤ p) {e n : ℤ} {x : ℝ} (hx : Grid e n x) : Grid e n (roundTo p x) := by
  refine ⟨?_, roundTo_abs_le hp hx.2⟩
  by_cases h : |x| ≤ (2 : ℝ) ^ (e + p)
  · obtain ⟨⟨m, rfl⟩, -⟩ := hx
    refine ⟨m, roundTo_exact hp ?_⟩
    rw [abs_mul, abs_of_pos (two_zpow_pos e), add_comm, zpow_add₀ (by norm_num)] at h
    have := le_of_mul_le_mul_right h (two_zpow_pos e)
    rw [zpow_natCast] at this
    exact_mod_cast this
  · obtain ⟨m, hm⟩ := roundTo_multiple (p := p) (x := x) (e := e + p) (Or.inr (not_le.1 h).le)
    exact ⟨m * 2, by rw [hm, show e + (p : ℤ) - p + 1 = e + 1 by ring, zpow_add_one₀ (by norm_num)]; push_cast; ring⟩

/-- Bound that is a multiple of a power of two. -/
theorem roundTo_le_mul {p : ℕ} (hp : 1 ≤ p) {x : ℝ} {k : ℕ} {n : ℤ} (hk : k ≤ 2 ^ p) (h : |x| ≤ k * (2 : ℝ) ^ n) : |roundTo p x| ≤ k * (2 : ℝ) ^ n := by
  have e : roundTo p ((k : ℝ) * (2 : ℝ) ^ n) = k * (2 : ℝ) ^ n := by
    have := roundTo_exact (p := p) hp (m := (k : ℤ)) (k := n) (by rw [abs_of_nonneg (by positivity)]; exact_mod_cast hk)
    simpa using this
  rw [abs_le] at h ⊢
  have m := roundTo_mono (p := p) hp
  constructor
  · have := m h.1
    rw [roundTo_neg, e] at this
    exact this
  · have := m h.2
    rwa [e] at this

variable {f : Format} {over : ℝ → ℝ} {e n : ℤ}

/-- One operation: same result, and still a multiple. -/
theorem _root_.H2d.Spec.Grid.step (hp : 1 ≤ f.p) (over : ℝ → ℝ) {x : ℝ} (hx : Grid e n x) (he : f.emin ≤ e) (hn : n ≤ f.emax - 1) :
    (f.arith over).rnd x = (binary f.p).rnd x ∧ Grid e n ((binary f.p).rnd x) := by
  refine ⟨plain_rnd hp over ⟨Or.inl (hx.mono he hn).1, (hx.mono he hn).2⟩, hx.rnd hp⟩

/-- A result that is not a multiple: a quotient, a square root. -/
theorem far_step (hp : 1 ≤ f.p) (over : ℝ → ℝ) {x : ℝ} (h0 : x = 0 ∨ (2 : ℝ) ^ e ≤ |x|) (hx : |x| ≤ (2 : ℝ) ^ n) (he : f.emin + f.p - 1 ≤ e) (hn : n ≤ f.emax - 1) :
    (f.arith over).rnd x = (binary f.p).rnd x ∧ Grid (e - f.p + 1) n ((binary f.p).rnd x) := by
  refine ⟨plain_rnd hp over ⟨?_, le_trans hx (zpow_le hn)⟩, roundTo_multiple h0, roundTo_abs_le hp hx⟩
  rcases h0 with rfl | h0
  · exact Or.inl ⟨0, by simp⟩
  · exact Or.inr (le_trans (zpow_le he) h0)

theorem hyp_step (hp : 1 ≤ f.p) (over : ℝ → ℝ) {a b : ℝ} (ha : Grid e n a) (hb : Grid e n b) (he : f.emin + f.p - 1 ≤ e) (hn : n + 1 ≤ f.emax - 1) :
    (f.arith over).hyp a b = (binary f.p).hyp a b ∧ Grid (e - f.p + 1) (n + 1) ((binary f.p).hyp a b) ∧ ((a ≠ 0 ∨ b ≠ 0) → (2 : ℝ) ^ e ≤ (binary f.p).hyp a b) := by
  have hs : Real.sqrt (a ^ 2 + b ^ 2) = 0 ∨ (2 : ℝ) ^ e ≤ |Real.sqrt (a ^ 2 + b ^ 2)| := by
    by_cases h : a = 0 ∧ b = 0
    · left; rw [h.1, h.2]; simp
    · right
      rw [abs_of_nonneg (Real.sqrt_nonneg _)]
      apply Real.le_sqrt_of_sq_le
      by_cases h1 : a = 0
      · have := hb.ge (fun h2 => h ⟨h1, h2⟩)
        nlinarith [abs_nonneg b, sq_abs b, sq_nonneg a, two_zpow_pos e]
      · have := ha.ge h1
        nlinarith [abs_nonneg a, sq_abs a, sq_nonneg b, two_zpow_pos e]
  have hb' : |Real.sqrt (a ^ 2 + b ^ 2)| ≤ (2 : ℝ) ^ (n + 1) := by
    rw [abs_of_nonneg (Real.sqrt_nonneg _), Real.sqrt_le_left (two_zpow_pos _).le, zpow_add_one₀ (by norm_num)]
    have h1 := ha.2
    have h2 := hb.2
    nlinarith [abs_nonneg a, sq_abs a, abs_nonneg b, sq_abs b, two_zpow_pos n]
  obtain ⟨k1, k2⟩ := far_step hp over hs hb' he hn
  refine ⟨k1, k2, fun hne => ?_⟩
  rcases hs with hs | hs
  · exfalso
    rw [Real.sqrt_eq_zero (by positivity)] at hs
    rcases hne with h | h
    · have := sq_pos_of_ne_zero h; nlinarith [sq_nonneg b]
    · have := sq_pos_of_ne_zero h; nlinarith [sq_nonneg a]
  · show (2 : ℝ) ^ e ≤ roundTo f.p (Real.sqrt (a ^ 2 + b ^ 2))
    rw [abs_of_nonneg (Real.sqrt_nonneg _)] at hs
    have := roundTo_mono (p := f.p) hp hs
    have e1 : roundTo f.p ((2 : ℝ) ^ e) = (2 : ℝ) ^ e := by
      have := roundTo_exact (p := f.p) hp (m := 1) (k := e) (by rw [abs_one]; exact one_le_pow₀ (by norm_num))
      simpa using this
    rwa [e1] at this

end H2d.Fl
