import Verif.Spec.Float

/-! # The binary floating-point numbers meet the hypotheses -/

namespace H2d.Fl

open H2d.Spec

theorem nearestEven_err (x : ℝ) : |(nearestEven x : ℝ) - x| ≤ 1 / 2 := by
  have h := Int.floor_add_fract x
  have h0 := Int.fract_nonneg x
  have h1 := Int.fract_lt_one x
  unfold nearestEven
  split_ifs with a b c <;> push_cast <;> rw [abs_le] <;> constructor <;> linarith

theorem nearestEven_int (n : ℤ) : nearestEven n = n := by
  unfold nearestEven; simp

theorem nearestEven_mono : Monotone nearestEven := by
  intro x y hxy
  rcases (Int.floor_le_floor hxy).lt_or_eq with h | h
  · have k1 : nearestEven x ≤ ⌊x⌋ + 1 := by unfold nearestEven; split_ifs <;> omega
    have k2 : ⌊y⌋ ≤ nearestEven y := by unfold nearestEven; split_ifs <;> omega
    omega
  · have hf : Int.fract x ≤ Int.fract y := by unfold Int.fract; rw [h]; linarith
    unfold nearestEven
    rw [h]
    split_ifs <;> first | omega | linarith

theorem two_zpow_pos (k : ℤ) : (0 : ℝ) < (2 : ℝ) ^ k := zpow_pos (by norm_num) k

theorem log_le {x : ℝ} (hx : 0 < x) : (2 : ℝ) ^ Int.log 2 x ≤ x := by
  have := Int.zpow_log_le_self (b := 2) (r := x) (by norm_num) hx
  exact_mod_cast this

theorem lt_log {x : ℝ} : x < (2 : ℝ) ^ (Int.log 2 x + 1) := by
  have := Int.lt_zpow_succ_log_self (b := 2) (by norm_num) x
  exact_mod_cast this

theorem log_unique {x : ℝ} {e : ℤ} (h1 : (2 : ℝ) ^ e ≤ x) (h2 : x < (2 : ℝ) ^ (e + 1)) : Int.log 2 x = e := by
  have hx : 0 < x := lt_of_lt_of_le (two_zpow_pos e) h1
  have a1 : (2 : ℝ) ^ e < (2 : ℝ) ^ (Int.log 2 x + 1) := lt_of_le_of_lt h1 lt_log
  have a2 : (2 : ℝ) ^ Int.log 2 x < (2 : ℝ) ^ (e + 1) := lt_of_le_of_lt (log_le hx) h2
  rw [zpow_lt_zpow_iff_right₀ (by norm_num)] at a1 a2
  omega

theorem roundPos_bounds {p : ℕ} (hp : 1 ≤ p) {x : ℝ} (hx : 0 < x) : (2 : ℝ) ^ Int.log 2 x ≤ roundPos p x ∧ roundPos p x ≤ (2 : ℝ) ^ (Int.log 2 x + 1) := by
  unfold roundPos
  set e := Int.log 2 x
  have h2 : (2 : ℝ) ≠ 0 := by norm_num
  have a1 : (((2 ^ (p - 1) : ℕ) : ℤ) : ℝ) ≤ x * (2 : ℝ) ^ ((p : ℤ) - 1 - e) := by
    have : (((2 ^ (p - 1) : ℕ) : ℤ) : ℝ) = (2 : ℝ) ^ e * (2 : ℝ) ^ ((p : ℤ) - 1 - e) := by
      rw [← zpow_add₀ h2]
      push_cast
      rw [← zpow_natCast]; congr 1; omega
    rw [this]
    exact mul_le_mul_of_nonneg_right (log_le hx) (two_zpow_pos _).le
  have a2 : x * (2 : ℝ) ^ ((p : ℤ) - 1 - e) ≤ (((2 ^ p : ℕ) : ℤ) : ℝ) := by
    have : (((2 ^ p : ℕ) : ℤ) : ℝ) = (2 : ℝ) ^ (e + 1) * (2 : ℝ) ^ ((p : ℤ) - 1 - e) := by
      rw [← zpow_add₀ h2]
      push_cast
      rw [← zpow_natCast]; congr 1; omega
    rw [this]
    exact mul_le_mul_of_nonneg_right lt_log.le (two_zpow_pos _).le
  have b1 := nearestEven_mono a1
  have b2 := nearestEven_mono a2
  rw [nearestEven_int] at b1 b2
  have c1 : (((2 ^ (p - 1) : ℕ) : ℤ) : ℝ) ≤ nearestEven (x * (2 : ℝ) ^ ((p : ℤ) - 1 - e)) := by exact_mod_cast b1
  have c2 : (nearestEven (x * (2 : ℝ) ^ ((p : ℤ) - 1 - e)) : ℝ) ≤ (((2 ^ p : ℕ) : ℤ) : ℝ) := by exact_mod_cast b2
  constructor
  · have : (2 : ℝ) ^ e = (((2 ^ (p - 1) : ℕ) : ℤ) : ℝ) * (2 : ℝ) ^ (e - ((p : ℤ) - 1)) := by
      push_cast
      rw [← zpow_natCast, ← zpow_add₀ h2]; congr 1; omega
    rw [this]
    exact mul_le_mul_of_nonneg_right c1 (two_zpow_pos _).le
  · have : (2 : ℝ) ^ (e + 1) = (((2 ^ p : ℕ) : ℤ) : ℝ) * (2 : ℝ) ^ (e - ((p : ℤ) - 1)) := by
      push_cast
      rw [← zpow_natCast, ← zpow_add₀ h2]; congr 1; omega
    rw [this]
    exact mul_le_mul_of_nonneg_right c2 (two_zpow_pos _).le

theorem roundPos_pos {p : ℕ} (hp : 1 ≤ p) {x : ℝ} (hx : 0 < x) : 0 < roundPos p x := lt_of_lt_of_le (two_zpow_pos _) (roundPos_bounds hp hx).1

theorem roundPos_mono {p : ℕ} (hp : 1 ≤ p) {x y : ℝ} (hx : 0 < x) (hxy : x ≤ y) : roundPos p x ≤ roundPos p y := by
  have hy := lt_of_lt_of_le hx hxy
  rcases lt_trichotomy (Int.log 2 x) (Int.log 2 y) with h | h | h
  · calc roundPos p x ≤ (2 : ℝ) ^ (Int.log 2 x + 1) := (roundPos_bounds hp hx).2
      _ ≤ (2 : ℝ) ^ Int.log 2 y := zpow_le_zpow_right₀ (by norm_num) (by omega)
      _ ≤ roundPos p y := (roundPos_bounds hp hy).1
  · unfold roundPos
    rw [h]
    refine mul_le_mul_of_nonneg_right ?_ (two_zpow_pos _).le
    exact_mod_cast nearestEven_mono (mul_le_mul_of_nonneg_right hxy (two_zpow_pos _).le)
  · have a1 : (2 : ℝ) ^ Int.log 2 x ≤ x := log_le hx
    have a2 : y < (2 : ℝ) ^ (Int.log 2 y + 1) := lt_log
    have a3 : (2 : ℝ) ^ (Int.log 2 y + 1) ≤ (2 : ℝ) ^ Int.log 2 x := zpow_le_zpow_right₀ (by norm_num) (by omega)
    linarith

theorem roundPos_err {p : ℕ} {x : ℝ} (hx : 0 < x) : |roundPos p x - x| ≤ (2 : ℝ) ^ (- (p : ℤ)) * x := by
  unfold roundPos
  set e := Int.log 2 x
  have h2 : (2 : ℝ) ≠ 0 := by norm_num
  have key := nearestEven_err (x * (2 : ℝ) ^ ((p : ℤ) - 1 - e))
  have e1 : x = x * (2 : ℝ) ^ ((p : ℤ) - 1 - e) * (2 : ℝ) ^ (e - ((p : ℤ) - 1)) := by
    rw [mul_assoc, ← zpow_add₀ h2, show (p : ℤ) - 1 - e + (e - ((p : ℤ) - 1)) = 0 by ring, zpow_zero, mul_one]
  have e2 : (nearestEven (x * (2 : ℝ) ^ ((p : ℤ) - 1 - e)) : ℝ) * (2 : ℝ) ^ (e - ((p : ℤ) - 1)) - x =
      ((nearestEven (x * (2 : ℝ) ^ ((p : ℤ) - 1 - e)) : ℝ) - x * (2 : ℝ) ^ ((p : ℤ) - 1 - e)) * (2 : ℝ) ^ (e - ((p : ℤ) - 1)) := by
    rw [sub_mul, ← e1]
  rw [e2, abs_mul, abs_of_pos (two_zpow_pos (e - ((p : ℤ) - 1)))]
  calc _ ≤ 1 / 2 * (2 : ℝ) ^ (e - ((p : ℤ) - 1)) := mul_le_mul_of_nonneg_right key (two_zpow_pos _).le
    _ = (2 : ℝ) ^ (- (p : ℤ)) * (2 : ℝ) ^ e := by
      rw [show (1 / 2 : ℝ) = (2 : ℝ) ^ (-1 : ℤ) by norm_num, ← zpow_add₀ h2, ← zpow_add₀ h2]; congr 1; ring
    _ ≤ _ := mul_le_mul_of_nonneg_left (log_le hx) (two_zpow_pos _).le

/-- Numbers with few bits are not changed. -/
theorem roundPos_exact {p : ℕ} {m : ℤ} {k : ℤ} (hm : 0 < m) (hm2 : m < 2 ^ p) : roundPos p (m * (2 : ℝ) ^ k) = m * (2 : ℝ) ^ k := by
  have h2 : (2 : ℝ) ≠ 0 := by norm_num
  have hmr : (0 : ℝ) < m := by exact_mod_cast hm
  have hx : 0 < (m : ℝ) * (2 : ℝ) ^ k := mul_pos hmr (two_zpow_pos k)
  unfold roundPos
  set x := (m : ℝ) * (2 : ℝ) ^ k with hxd
  set e := Int.log 2 x with he
  have h3 : x < (2 : ℝ) ^ ((p : ℤ) + k) := by
    rw [zpow_add₀ h2, hxd]
    refine mul_lt_mul_of_pos_right ?_ (two_zpow_pos k)
    rw [zpow_natCast]; exact_mod_cast hm2
  have h4 : e < (p : ℤ) + k := by
    have := lt_of_le_of_lt (log_le hx) h3
    rwa [zpow_lt_zpow_iff_right₀ (by norm_num)] at this
  obtain ⟨n, hn⟩ := Int.eq_ofNat_of_zero_le (show 0 ≤ k + ((p : ℤ) - 1 - e) by omega)
  have h5 : x * (2 : ℝ) ^ ((p : ℤ) - 1 - e) = ((m * 2 ^ n : ℤ) : ℝ) := by
    rw [hxd, mul_assoc, ← zpow_add₀ h2, hn]; push_cast; rw [zpow_natCast]
  rw [h5, nearestEven_int, ← h5, mul_assoc, ← zpow_add₀ h2, show (p : ℤ) - 1 - e + (e - ((p : ℤ) - 1)) = 0 by ring, zpow_zero, mul_one]

theorem roundPos_exact' {p : ℕ} (hp : 1 ≤ p) {m : ℤ} {k : ℤ} (hm : 0 < m) (hm2 : m ≤ 2 ^ p) : roundPos p (m * (2 : ℝ) ^ k) = m * (2 : ℝ) ^ k := by
  rcases hm2.lt_or_eq with h | h
  · exact roundPos_exact hm h
  · have e : (m : ℝ) * (2 : ℝ) ^ k = ((1 : ℤ) : ℝ) * (2 : ℝ) ^ ((p : ℤ) + k) := by
      rw [h, zpow_add₀ (by norm_num)]; push_cast; rw [zpow_natCast, one_mul]
    rw [e]
    exact roundPos_exact one_pos (one_lt_pow₀ (by norm_num) (by omega))

theorem roundPos_idem {p : ℕ} (hp : 1 ≤ p) {x : ℝ} (hx : 0 < x) : roundPos p (roundPos p x) = roundPos p x := by
  have h := roundPos_pos hp hx
  have hb := (roundPos_bounds hp hx).2
  unfold roundPos at h hb
  have hm : 0 < nearestEven (x * (2 : ℝ) ^ ((p : ℤ) - 1 - Int.log 2 x)) := by
    have := pos_of_mul_pos_left h (two_zpow_pos _).le
    exact_mod_cast this
  have hm2 : nearestEven (x * (2 : ℝ) ^ ((p : ℤ) - 1 - Int.log 2 x)) ≤ 2 ^ p := by
    have e : (2 : ℝ) ^ (Int.log 2 x + 1) = (2 : ℝ) ^ p * (2 : ℝ) ^ (Int.log 2 x - ((p : ℤ) - 1)) := by
      rw [← zpow_natCast, ← zpow_add₀ (by norm_num)]; congr 1; ring
    rw [e] at hb
    have := le_of_mul_le_mul_right hb (two_zpow_pos _)
    exact_mod_cast this
  conv_lhs => rw [show roundPos p x = nearestEven (x * (2 : ℝ) ^ ((p : ℤ) - 1 - Int.log 2 x)) * (2 : ℝ) ^ (Int.log 2 x - ((p : ℤ) - 1)) from rfl]
  rw [roundPos_exact' hp hm hm2]
  rfl

theorem roundPos_half {p : ℕ} {x : ℝ} (hx : 0 < x) : roundPos p (x / 2) = roundPos p x / 2 := by
  have h2 : (2 : ℝ) ≠ 0 := by norm_num
  have e : Int.log 2 (x / 2) = Int.log 2 x - 1 := by
    apply log_unique
    · rw [zpow_sub_one₀ h2, ← div_eq_mul_inv]; exact div_le_div_of_nonneg_right (log_le hx) (by norm_num)
    · have := lt_log (x := x)
      rw [zpow_add₀ h2, zpow_one] at this
      rw [sub_add_cancel]; linarith
  unfold roundPos
  rw [e]
  have e1 : x / 2 * (2 : ℝ) ^ ((p : ℤ) - 1 - (Int.log 2 x - 1)) = x * (2 : ℝ) ^ ((p : ℤ) - 1 - Int.log 2 x) := by
    rw [show (p : ℤ) - 1 - (Int.log 2 x - 1) = (p : ℤ) - 1 - Int.log 2 x + 1 by ring, zpow_add_one₀ h2]; ring
  have e2 : (2 : ℝ) ^ (Int.log 2 x - 1 - ((p : ℤ) - 1)) = (2 : ℝ) ^ (Int.log 2 x - ((p : ℤ) - 1)) / 2 := by
    rw [show Int.log 2 x - 1 - ((p : ℤ) - 1) = Int.log 2 x - ((p : ℤ) - 1) - 1 by ring, zpow_sub_one₀ h2]; ring
  rw [e1, e2]; ring

theorem roundTo_pos {p : ℕ} {x : ℝ} (hx : 0 < x) : roundTo p x = roundPos p x := if_pos hx
theorem roundTo_zero {p : ℕ} : roundTo p 0 = 0 := by simp [roundTo]
theorem roundTo_neg {p : ℕ} (x : ℝ) : roundTo p (-x) = - roundTo p x := by
  rcases lt_trichotomy x 0 with h | rfl | h
  · have h' : ¬ 0 < x := by linarith
    simp [roundTo, h, h']
  · simp [roundTo]
  · have h' : ¬ x < 0 := by linarith
    simp [roundTo, h, h']

/-- Integers times a power of 2 with few bits are not changed. -/
theorem roundTo_exact {p : ℕ} (hp : 1 ≤ p) {m : ℤ} {k : ℤ} (hm : |m| ≤ 2 ^ p) : roundTo p (m * (2 : ℝ) ^ k) = m * (2 : ℝ) ^ k := by
  rcases lt_trichotomy m 0 with h | rfl | h
  · have h1 : 0 < -m := by omega
    have h2 : -m ≤ 2 ^ p := by rwa [abs_of_neg h] at hm
    have h3 : (0 : ℝ) < ((-m : ℤ) : ℝ) * (2 : ℝ) ^ k := mul_pos (by exact_mod_cast h1) (two_zpow_pos k)
    have e : (m : ℝ) * (2 : ℝ) ^ k = - (((-m : ℤ) : ℝ) * (2 : ℝ) ^ k) := by push_cast; ring
    rw [e, roundTo_neg, roundTo_pos h3, roundPos_exact' hp h1 h2]
  · simp [roundTo]
  · rw [abs_of_pos h] at hm
    rw [roundTo_pos (mul_pos (by exact_mod_cast h) (two_zpow_pos k)), roundPos_exact' hp h hm]

theorem roundTo_mono {p : ℕ} (hp : 1 ≤ p) : Monotone (roundTo p) := by
  have sgn : ∀ x, 0 < x → 0 < roundTo p x := fun x hx => by rw [roundTo_pos hx]; exact roundPos_pos hp hx
  intro x y hxy
  rcases lt_trichotomy x 0 with hx | rfl | hx
  · rcases lt_trichotomy y 0 with hy | rfl | hy
    · rw [← neg_neg x, ← neg_neg y, roundTo_neg, roundTo_neg (-y), neg_le_neg_iff, roundTo_pos (by linarith), roundTo_pos (by linarith)]
      exact roundPos_mono hp (by linarith) (by linarith)
    · have := sgn (-x) (by linarith)
      rw [roundTo_neg] at this
      rw [roundTo_zero]; linarith
    · have := sgn (-x) (by linarith)
      rw [roundTo_neg] at this
      have := sgn y hy
      linarith
  · rcases hxy.lt_or_eq with hy | rfl
    · rw [roundTo_zero]; exact (sgn y hy).le
    · exact le_rfl
  · rw [roundTo_pos hx, roundTo_pos (by linarith)]; exact roundPos_mono hp hx hxy

theorem roundTo_err {p : ℕ} (x : ℝ) : |roundTo p x - x| ≤ (2 : ℝ) ^ (- (p : ℤ)) * |x| := by
  rcases lt_trichotomy x 0 with h | rfl | h
  · have := roundPos_err (p := p) (x := -x) (by linarith)
    rw [← neg_neg x, roundTo_neg, roundTo_pos (by linarith), abs_neg, abs_of_pos (show 0 < -x by linarith)]
    rwa [show - roundPos p (-x) - (- -x) = - (roundPos p (-x) - -x) by ring, abs_neg]
  · simp [roundTo]
  · rw [roundTo_pos h, abs_of_pos h]; exact roundPos_err h

theorem roundTo_idem {p : ℕ} (hp : 1 ≤ p) (x : ℝ) : roundTo p (roundTo p x) = roundTo p x := by
  have key : ∀ x, 0 < x → roundTo p (roundTo p x) = roundTo p x := by
    intro x h
    rw [roundTo_pos h, roundTo_pos (roundPos_pos hp h), roundPos_idem hp h]
  rcases lt_trichotomy x 0 with h | rfl | h
  · have := key (-x) (by linarith)
    rw [roundTo_neg, roundTo_neg, neg_inj] at this
    exact this
  · simp [roundTo]
  · exact key x h

theorem roundTo_half {p : ℕ} (x : ℝ) : roundTo p (x / 2) = roundTo p x / 2 := by
  rcases lt_trichotomy x 0 with h | rfl | h
  · have := roundPos_half (p := p) (x := -x) (by linarith)
    rw [← neg_neg x, neg_div, roundTo_neg, roundTo_neg (-x), roundTo_pos (by linarith), roundTo_pos (by linarith), this]
    ring
  · simp [roundTo]
  · rw [roundTo_pos h, roundTo_pos (by linarith), roundPos_half h]

/-- The binary floating-point numbers with at least 6 bits meet the hypotheses. -/
theorem binary_ok {p : ℕ} (hp : 6 ≤ p) : FlOk (binary p) ((2 : ℝ) ^ (- (p : ℤ))) ((2 : ℝ) ^ (- (p : ℤ))) := by
  have hs : (2 : ℝ) ^ (- (p : ℤ)) ≤ 1 / 64 := by
    calc (2 : ℝ) ^ (- (p : ℤ)) ≤ (2 : ℝ) ^ (-6 : ℤ) := zpow_le_zpow_right₀ (by norm_num) (by omega)
      _ = 1 / 64 := by norm_num
  refine ⟨(two_zpow_pos _).le, hs, (two_zpow_pos _).le, hs, roundTo_err, roundTo_mono (by omega), roundTo_neg, roundTo_idem (by omega), roundTo_half, ?_, ?_, ?_⟩
  · intro a b
    have := roundTo_err (p := p) (Real.sqrt (a ^ 2 + b ^ 2))
    rwa [abs_of_nonneg (Real.sqrt_nonneg _)] at this
  · intro a b; simp [binary]
  · intro a b; simp [binary]

end H2d.Fl
