import Verif.Lemmas.FloatInverse
import Verif.Spec.Line

/-!
# C124: inverse of a homography with rounding
-/

namespace H2d.Props

open H2d.Spec H2d.Fl

/-- **C124, decision.** The inverse of a matrix whose values are at most `M` is refused when the determinant is below the threshold by the rounding errors, and computed when it is above. Missing: all the matrices without inverse are refused (`C124_singular_false`). -/
theorem C124_decision_partial (F : Arith) (u v : ℝ) (h : FlOk F u v) (t : Thr ℝ) (m : Mat ℝ) (M : ℝ) (hM : UpTo M m) :
    (|(Matrix.of m).det| + 34 * u * M ^ 3 < t.nullDeter → Fl.inverse F t m = .throw) ∧
    (t.nullDeter + 34 * u * M ^ 3 ≤ |(Matrix.of m).det| → ∃ b, Fl.inverse F t m = .ok b) ∧ Fl.inverse F t m ≠ .ub := by
  rw [(matrix_adj m).2]
  have e := determ_err h hM
  have e1 := abs_sub_abs_le_abs_sub (Fl.determ F m) m.determ
  have e2 := abs_sub_abs_le_abs_sub m.determ (Fl.determ F m)
  rw [abs_sub_comm] at e2
  unfold Fl.inverse
  refine ⟨fun hh => if_pos (by linarith), fun hh => ?_, ?_⟩
  · rw [if_neg (by linarith)]; exact ⟨_, rfl⟩
  · split <;> simp

/-- **C124, error.** When the determinant is not of the size of the rounding errors, each value of the computed inverse is near the one of the inverse: with `κ = M³/|det|`, the error is at most
`224 u κ` times the bound `M²/|det|` of the values of the inverse. -/
theorem C124_error (F : Arith) (u v : ℝ) (h : FlOk F u v) (t : Thr ℝ) (m : Mat ℝ) (M : ℝ) (hM : UpTo M m) (hbig : 68 * (u * M ^ 3) ≤ |(Matrix.of m).det|)
    (b b' : Mat ℝ) (hb : IsInv b m) (hok : Fl.inverse F t m = .ok b') (i j : Fin 3) :
    |b' i j - b i j| ≤ 224 * u * (M ^ 3 / |(Matrix.of m).det|) * (M ^ 2 / |(Matrix.of m).det|) := by
  rw [(matrix_adj m).2] at *
  obtain ⟨hd, hb⟩ := (isInv_iff b m).1 hb
  unfold Fl.inverse at hok
  split at hok
  · exact absurd hok (by simp)
  · have hok' := Res.ok.inj hok
    obtain ⟨a1, a2⟩ := adj_err h hM i j
    rw [← hok', hb i j]
    exact (inv_entry_err h (le_trans (abs_nonneg _) (hM 0 0)) a2 a1 (determ_bound hM) (determ_err h hM) hd hbig).2

/-- **C124, there and back.** A point transformed by a homography and then by the computed inverse comes back near its place. `P` bounds 1 and the coordinates, `κ = M³/|det|`. -/
theorem C124_back (F : Arith) (u v : ℝ) (h : FlOk F u v) (t : Thr ℝ) (m : Mat ℝ) (M : ℝ) (hM : UpTo M m) (hd : (Matrix.of m).det ≠ 0) (p : ℝ × ℝ) (P : ℝ) (hP : 1 ≤ P)
    (hp : |p.1| ≤ P ∧ |p.2| ≤ P) (κ : ℝ) (hκ : κ = M ^ 3 / |(Matrix.of m).det|) (hbig : 6000 * u * κ ^ 2 * P ≤ 1) (b' : Mat ℝ) (hok : Fl.inverse F t m = .ok b') :
    |(Fl.getXY F (Fl.app F b' (Fl.app F m (mkPt p.1 p.2)))).1 - p.1| ≤ 21000 * u * κ ^ 2 * P ^ 2 ∧
    |(Fl.getXY F (Fl.app F b' (Fl.app F m (mkPt p.1 p.2)))).2 - p.2| ≤ 21000 * u * κ ^ 2 * P ^ 2 := by
  have hd' := hd
  rw [(matrix_adj m).2] at hd'
  set d := m.determ with hdd
  have M0 : 0 ≤ M := le_trans (abs_nonneg _) (hM 0 0)
  have dp : 0 < |d| := abs_pos.2 hd'
  have hu := h.u_nonneg
  have hu1 := h.u_small
  have k6 : 1 / 6 ≤ κ := by
    rw [hκ, (matrix_adj m).2, div_le_div_iff₀ (by norm_num) dp]; linarith [determ_bound hM]
  have kk : κ * (1 / 6) ≤ κ ^ 2 := by nlinarith
  have uk : 1000 * u * κ ≤ 1 := by
    have h1 : u * κ ^ 2 ≤ u * κ ^ 2 * P := le_mul_of_one_le_right (by positivity) hP
    have h2 := mul_le_mul_of_nonneg_left kk hu
    linarith
  have hb : 68 * (u * M ^ 3) ≤ |(Matrix.of m).det| := by
    rw [(matrix_adj m).2]
    have h1 : M ^ 3 = κ * |d| := by rw [hκ, (matrix_adj m).2, div_mul_cancel₀ _ dp.ne']
    rw [h1]
    have := mul_le_mul_of_nonneg_right uk dp.le
    nlinarith [mul_nonneg (mul_nonneg hu (by linarith : 0 ≤ κ)) dp.le]
  set b : Mat ℝ := fun i j => m.adjugate i j / d with hbd
  have hinv : IsInv b m := (isInv_iff b m).2 ⟨hd', fun i j => rfl⟩
  have err := C124_error F u v h t m M hM hb b b' hinv hok
  rw [← hκ, (matrix_adj m).2] at err
  set w := mkPt p.1 p.2 with hw
  have w1 : ∀ j, |w j| ≤ P := by
    intro j; rw [hw]; fin_cases j <;> simp [mkPt, hp.1, hp.2, hP]
  set q : V3 ℝ := fun i => m i 0 * w 0 + m i 1 * w 1 + m i 2 * w 2 with hq
  have mw : ∀ i j, |m i j * w j| ≤ M * P := fun i j => by rw [abs_mul]; exact mul_le_mul (hM i j) (w1 j) (abs_nonneg _) M0
  have q1 : ∀ i, |q i| ≤ 3 * (M * P) := by
    intro i
    have h0 := mw i 0; have h1 := mw i 1; have h2 := mw i 2
    rw [hq]; rw [abs_le] at *; constructor <;> simp only <;> linarith
  have MP : 0 ≤ M * P := by positivity
  have q2 : ∀ i, |Fl.app F m w i - q i| ≤ 10 * u * (M * P) := by
    intro i
    have g : (1 + u) ^ 3 - 1 ≤ 16 / 5 * u := by nlinarith [mul_nonneg hu hu]
    have := le_trans (dot_err h (m i) w) (mul_le_mul g (add_le_add (add_le_add (mw i 0) (mw i 1)) (mw i 2)) (by positivity) (by positivity))
    refine le_trans this ?_
    nlinarith [mul_nonneg hu MP]
  have bq : ∀ i, b i 0 * q 0 + b i 1 * q 1 + b i 2 * q 2 = w i := by
    intro i
    have e : ∀ j, b i 0 * m 0 j + b i 1 * m 1 j + b i 2 * m 2 j = if i = j then 1 else 0 := by
      intro j
      have := congrFun (congrFun hinv i) j
      rwa [Matrix.mul_apply, Fin.sum_univ_three, Matrix.one_apply] at this
    have e0 := e 0; have e1 := e 1; have e2 := e 2
    calc _ = (b i 0 * m 0 0 + b i 1 * m 1 0 + b i 2 * m 2 0) * w 0 + (b i 0 * m 0 1 + b i 1 * m 1 1 + b i 2 * m 2 1) * w 1
          + (b i 0 * m 0 2 + b i 1 * m 1 2 + b i 2 * m 2 2) * w 2 := by rw [hq]; ring
      _ = w i := by rw [e0, e1, e2]; fin_cases i <;> simp
  have row : ∀ i, |Fl.app F b' (Fl.app F m w) i - w i| ≤ 3000 * u * κ ^ 2 * P := by
    intro i
    refine back_row_err h (b := b i) (b' := b' i) (q := q) (q' := Fl.app F m w) (n := M ^ 2 / |d|) (div_nonneg (sq_nonneg _) dp.le) M0 (by linarith) ?_ k6 uk ?_ (err i) q1 q2 (bq i)
    · rw [hκ, (matrix_adj m).2]; ring
    · intro j
      rw [hbd]
      simp only
      rw [abs_div, div_le_iff₀ dp]
      have := (adj_err h hM i j).2
      have e : 2 * (M ^ 2 / |d|) * |d| = 2 * M ^ 2 := by field_simp
      rw [e]; exact this
  have r0 := row 0; have r1 := row 1; have r2 := row 2
  have hE : 3000 * u * κ ^ 2 * P ≤ 1 / 2 := by linarith
  have hE0 : u * P ≤ 3000 * u * κ ^ 2 * P := by
    have : 1 ≤ 3000 * κ ^ 2 := by nlinarith
    have := mul_le_mul_of_nonneg_left this (mul_nonneg hu (by linarith : 0 ≤ P))
    linarith
  rw [hw] at r0 r1 r2
  simp only [mkPt, Matrix.cons_val_zero, Matrix.cons_val_one, Matrix.cons_val] at r0 r1 r2
  have c1 := back_coord_err h hP hp.1 r0 r2 hE hE0
  have c2 := back_coord_err h hP hp.2 r1 r2 hE hE0
  constructor
  · refine le_trans c1 (le_of_eq ?_); ring
  · refine le_trans c2 (le_of_eq ?_); ring

/-- A homography with a perspective part, within the conditions for `double`. -/
example : UpTo 1 (![![1, 0, 0], ![0, 1, 0], ![1/2, 0, 1]] : Mat ℝ) ∧ (Matrix.of (![![1, 0, 0], ![0, 1, 0], ![1/2, 0, 1]] : Mat ℝ)).det = 1 ∧
    (6000 * (2 : ℝ) ^ (-(53 : ℤ)) * (1 ^ 3 / |1|) ^ 2 * 100000 ≤ 1) ∧ (68 * ((2 : ℝ) ^ (-(53 : ℤ)) * 1 ^ 3) ≤ |1|) := by
  refine ⟨?_, ?_, by norm_num, by norm_num⟩
  · intro i j; fin_cases i <;> fin_cases j <;> norm_num [abs_of_pos]
  · rw [(matrix_adj _).2]; simp [Mat.determ, Mat.det2]

/-- **C124, translations.** The inverse of a translation is exactly the opposite translation. -/
theorem C124_translation (F : Arith) (u v : ℝ) (h : FlOk F u v) (h1 : Rep F 1) (t : Thr ℝ) (ht : t.nullDeter ≤ 1) (dx dy : ℝ) (hx : Rep F dx) (hy : Rep F dy) :
    Fl.inverse F t (Mat.translation dx dy) = .ok (Mat.translation (-dx) (-dy)) := by
  have e0 := rnd_zero h
  have e1 : F.rnd 1 = 1 := h1
  have e2 : F.rnd dx = dx := hx
  have e3 : F.rnd dy = dy := hy
  have d : Fl.determ F (Mat.translation dx dy) = 1 := by
    simp [Fl.determ, Fl.det2, Mat.translation, e0, e1]
  unfold Fl.inverse
  rw [d, abs_one, if_neg (not_lt.2 ht)]
  congr 1
  funext i j
  rw [div_one]
  fin_cases i <;> fin_cases j <;> simp [Fl.adjugate, Fl.det2, Mat.translation, e0, e1, e2, e3, h.odd]

/-- **C124**, without a condition on the size of the values: for any precision of at least 4 bits there is a matrix of numbers of this precision that has no inverse and for which `inverse()` gives one. -/
theorem C124_singular_false {p : ℕ} (hp : 4 ≤ p) (t : Thr ℝ) (ht : t.nullDeter ≤ 2) :
    ∃ m : Mat ℝ, (∀ i j, Rep (binary p) (m i j)) ∧ (¬ ∃ b, IsInv b m) ∧ ∃ b', Fl.inverse (binary p) t m = .ok b' := by
  obtain ⟨L, hL⟩ : ∃ L : ℤ, (2 : ℤ) ^ (p - 3) = L := ⟨_, rfl⟩
  obtain ⟨e1, e2, e3⟩ := singular_rounding hp hL
  have L2 : (2 : ℤ) ≤ L := by
    rw [← hL]; calc (2 : ℤ) = 2 ^ 1 := by norm_num
      _ ≤ _ := pow_le_pow_right₀ (by norm_num) (by omega)
  have hi : ∀ {z : ℤ}, |z| ≤ 8 * L → (binary p).rnd z = z := by
    intro z hz; exact roundTo_int (by omega) (by rw [e3]; exact hz)
  have r0 : (binary p).rnd 0 = 0 := by have := hi (z := 0) (by rw [abs_zero]; omega); exact_mod_cast this
  have r1 : (binary p).rnd 1 = 1 := by have := hi (z := 1) (by rw [abs_one]; omega); exact_mod_cast this
  have r5 : (binary p).rnd 5 = 5 := by have := hi (z := 5) (by rw [abs_of_pos (by norm_num)]; omega); exact_mod_cast this
  have r2 : (binary p).rnd 2 = 2 := by have := hi (z := 2) (by rw [abs_of_pos (by norm_num)]; omega); exact_mod_cast this
  have rm2 : (binary p).rnd (-2) = -2 := by have := hi (z := -2) (by rw [abs_neg, abs_of_pos (by norm_num)]; omega); exact_mod_cast this
  have r10 : (binary p).rnd 10 = 10 := by have := hi (z := 10) (by rw [abs_of_pos (by norm_num)]; omega); exact_mod_cast this
  have rm10 : (binary p).rnd (-10) = -10 := by have := hi (z := -10) (by rw [abs_neg, abs_of_pos (by norm_num)]; omega); exact_mod_cast this
  have r12 : (binary p).rnd (-12) = -12 := by have := hi (z := -12) (by rw [abs_neg, abs_of_pos (by norm_num)]; omega); exact_mod_cast this
  have rN1 : (binary p).rnd (4 * L + 1) = 4 * L + 1 := by have := hi (z := 4 * L + 1) (by rw [abs_of_pos (by omega)]; omega); exact_mod_cast this
  have rN3 : (binary p).rnd (4 * L + 3) = 4 * L + 3 := by have := hi (z := 4 * L + 3) (by rw [abs_of_pos (by omega)]; omega); exact_mod_cast this
  refine ⟨![![4 * L + 1, 4 * L + 3, 1], ![5, 5, 0], ![-2, 0, 1]], ?_, ?_, ?_⟩
  · intro i j
    fin_cases i <;> fin_cases j <;> simp [Rep, r0, r1, r5, rm2, rN1, rN3]
  · rintro ⟨b, hb⟩
    refine ((isInv_iff _ _).1 hb).1 ?_
    simp [Mat.determ, Mat.det2]; ring
  · have d : Fl.determ (binary p) (![![4 * (L : ℝ) + 1, 4 * L + 3, 1], ![5, 5, 0], ![-2, 0, 1]] : Mat ℝ) = -2 := by
      have x1 : (4 * (L : ℝ) + 1) * 5 = 5 * (4 * L + 1) := by ring
      have x2 : (4 * (L : ℝ) + 3) * 5 = 5 * (4 * L + 3) := by ring
      have x3 : (20 * (L : ℝ) + 4) - (20 * L + 16) = -12 := by ring
      simp [Fl.determ, Fl.det2, r0, r5, x1, x2, e1, e2, x3, r12]
      norm_num [rm10, r10, rm2, r0]
    unfold Fl.inverse
    rw [d, if_neg (by rw [abs_neg, abs_of_pos (by norm_num)]; linarith)]
    exact ⟨_, rfl⟩

/-- The standard threshold. -/
example : stdR.nullDeter ≤ 2 ∧ stdR.nullDeter ≤ 1 := by norm_num [stdR]

end H2d.Props
