import Verif.Lemmas.FloatHLine
import Verif.Lemmas.FloatRect
import Verif.Props.FloatInverse

/-!
# C132: product of a homography and a line with rounding
-/

namespace H2d.Props

open H2d.Spec H2d.Fl

/-- **C132, incidence.** A point at `ρ` or less from a line (in the equation of the line) is transformed into a point near the transformed line. `b` is the inverse of the homography, `n` the transformed line without rounding,
`N` the norm of its direction, `δ` the third value of the transformed point without rounding, `κ = M³/|det|`. Missing: lines that become nearly horizontal without being so, see `C132_false` for the other conditions. -/
theorem C132_incidence_partial (F : Arith) (u v : ℝ) (h : FlOk F u v) (t : Thr ℝ) (ht : 0 < t.nullDenom) (ht' : 0 < t.nullDeter) (m b : Mat ℝ) (M : ℝ) (hM : UpTo M m) (hinv : IsInv b m)
    (l : V3 ℝ) (Λ : ℝ) (hl : |l 0| + |l 1| + |l 2| ≤ Λ) (p : ℝ × ℝ) (P : ℝ) (hP : 1 ≤ P) (hp : |p.1| ≤ P ∧ |p.2| ≤ P) (ρ : ℝ) (hρ : |l 0 * p.1 + l 1 * p.2 + l 2| ≤ ρ)
    (n : V3 ℝ) (hn : ∀ j, n j = b 0 j * l 0 + b 1 j * l 1 + b 2 j * l 2) (N : ℝ) (hN : N = Real.sqrt (n 0 ^ 2 + n 1 ^ 2)) (hN0 : 0 < N)
    (δ : ℝ) (hδ : δ = |m 2 0 * p.1 + m 2 1 * p.2 + m 2 2|) (hδ0 : 0 < δ) (κ : ℝ) (hκ : κ = M ^ 3 / |(Matrix.of m).det|)
    (hN1 : 80 * u * M ^ 2 * Λ ≤ |(Matrix.of m).det| * N) (hδ1 : 40 * u * M * P ≤ δ)
    (r : V3 ℝ) (hr : Fl.lineImage F t m l = .ok r) (hs : r 0 = 0 ∨ t.nullDenom ≤ |r 0|) :
    |r 0 * (Fl.getXY F (Fl.app F m (mkPt p.1 p.2))).1 + r 1 * (Fl.getXY F (Fl.app F m (mkPt p.1 p.2))).2 + r 2| ≤ (1000 * u * κ * P * Λ + 3 * ρ) / (N * δ) := by
  obtain ⟨hd, hb⟩ := (isInv_iff b m).1 hinv
  rw [(matrix_adj m).2] at *
  have hu := h.u_nonneg
  have hu1 := h.u_small
  have M0 : 0 ≤ M := le_trans (abs_nonneg _) (hM 0 0)
  have Λ0 : 0 ≤ Λ := le_trans (by positivity) hl
  have P0 : 0 ≤ P := by linarith
  have MP : 0 ≤ M * P := mul_nonneg M0 P0
  have dp : 0 < |m.determ| := abs_pos.2 hd
  have qe := fun i => pointImage_err h hM hP hp i
  -- the transformed line
  unfold Fl.lineImage at hr
  rcases hbx : Fl.homInverse F t m with b' | _ | _ <;> rw [hbx] at hr <;> try cases hr
  simp only [Res.bind] at hr
  obtain ⟨d0, g0, -⟩ := homInverse_ok h ht ht' hbx
  have ce := fun i => imageCoef_err h ht ht' hM hbx hl i
  generalize Fl.app F m (mkPt p.1 p.2) = q at *
  generalize Fl.app F b'.transpose l = w at *
  generalize Fl.adjugate F m 2 2 = g at *
  have gp : 0 < |g| := abs_pos.2 g0
  have hG : dblEps < F.hyp (w 0) (w 1) := by
    by_contra hc
    simp only [Fl.normalizeLine, not_lt.1 hc, if_true] at hr
    cases hr
  rw [Fl.normalizeLine_ok t w hG] at hr
  have Gp := lt_trans dblEps_pos hG
  have hr' := Res.ok.inj hr
  have a_eq : ∀ j, m.adjugate 0 j * l 0 + m.adjugate 1 j * l 1 + m.adjugate 2 j * l 2 = m.determ * n j := by
    intro j
    rw [hn j, hb 0 j, hb 1 j, hb 2 j]; field_simp
  have ident : (m.adjugate 0 0 * l 0 + m.adjugate 1 0 * l 1 + m.adjugate 2 0 * l 2) * (m 0 0 * p.1 + m 0 1 * p.2 + m 0 2) +
      (m.adjugate 0 1 * l 0 + m.adjugate 1 1 * l 1 + m.adjugate 2 1 * l 2) * (m 1 0 * p.1 + m 1 1 * p.2 + m 1 2) +
      (m.adjugate 0 2 * l 0 + m.adjugate 1 2 * l 1 + m.adjugate 2 2 * l 2) * (m 2 0 * p.1 + m 2 1 * p.2 + m 2 2) = m.determ * (l 0 * p.1 + l 1 * p.2 + l 2) := by
    simp [Mat.adjugate, Mat.determ, Mat.det2]; ring
  rw [a_eq, a_eq, a_eq] at ident
  simp only [a_eq] at ce
  generalize m.determ = d at *
  have S0 : 0 ≤ M ^ 2 * Λ := by positivity
  have k : |d * (l 0 * p.1 + l 1 * p.2 + l 2)| ≤ |d| * ρ := by rw [abs_mul]; exact mul_le_mul_of_nonneg_left hρ dp.le
  obtain ⟨A, B, E⟩ := residual_err hu hu1 S0 MP (a := fun i => d * n i) (b := fun i => m i 0 * p.1 + m i 1 * p.2 + m i 2) ce qe ident k
  have q20 : 3 / 4 * δ ≤ |q 2| := by
    have := abs_sub_abs_le_abs_sub (m 2 0 * p.1 + m 2 1 * p.2 + m 2 2) (q 2)
    rw [abs_sub_comm] at this
    have := (qe 2).1
    linarith
  have qp : 0 < |q 2| := by linarith
  have inc := incidence_div h Gp g0 (abs_pos.1 qp) A B E
  have nG := imageNorm_ge h hN (ce 0).1 (ce 1).1 (by linarith)
  have den : 147 / 400 * (|d| * N * δ) ≤ |g| * F.hyp (w 0) (w 1) * |q 2| := by
    have := mul_le_mul nG q20 (by positivity) (by positivity)
    linarith
  have T0 : 0 ≤ u * (M ^ 2 * Λ * (M * P)) := by positivity
  have fin := image_final dp hN0 hδ0 (le_trans (abs_nonneg _) hρ) T0 den
  have f1 : |d| * ρ + 252 * (u * (M ^ 2 * Λ * (M * P))) + 7 * u * (5 / 2 * (M ^ 2 * Λ) * (16 / 5 * (M * P))) = |d| * ρ + 308 * (u * (M ^ 2 * Λ * (M * P))) := by ring
  have f2 : 1000 * (u * (M ^ 2 * Λ * (M * P)) / |d|) = 1000 * u * κ * P * Λ := by rw [hκ]; ring
  rw [f1] at inc
  rw [f2] at fin
  refine le_trans ?_ fin
  -- change of sign
  have keep := signFix_keep t (fun i => F.rnd (w i / F.hyp (w 0) (w 1))) (by
    rcases hs with hs | hs
    · left
      rw [← hr'] at hs
      simp only [signFix] at hs
      split_ifs at hs <;> simpa using hs
    · right
      rw [← hr'] at hs
      simp only [signFix] at hs
      split_ifs at hs <;> simpa using hs)
  rw [hr'] at keep
  have xy : (Fl.getXY F q).1 = F.rnd (q 0 / q 2) ∧ (Fl.getXY F q).2 = F.rnd (q 1 / q 2) := ⟨rfl, rfl⟩
  rw [xy.1, xy.2]
  rcases keep with k | k
  · rw [k]; exact inc
  · rw [k]
    refine le_trans (le_of_eq ?_) inc
    simp only
    rw [← abs_neg]; congr 1; ring

/-- **C132, translations.** The image of a line by a translation is computed from the two coefficients of its direction, unchanged, and the third one after the obvious computation. -/
theorem C132_translation (F : Arith) (u v : ℝ) (h : FlOk F u v) (h1 : Rep F 1) (t : Thr ℝ) (ht : t.nullDeter ≤ 1) (ht' : t.nullDenom ≤ 1) (dx dy : ℝ) (hx : Rep F dx) (hy : Rep F dy)
    (l : V3 ℝ) (hl : ∀ i, Rep F (l i)) :
    Fl.lineImage F t (Mat.translation dx dy) l = Fl.normalizeLine F t ![l 0, l 1, F.rnd (F.rnd (F.rnd (-(dx * l 0)) + F.rnd (-(dy * l 1))) + l 2)] := by
  have e0 := rnd_zero h
  have e1 : F.rnd 1 = 1 := h1
  have e2 : F.rnd dx = dx := hx
  have e3 : F.rnd dy = dy := hy
  have el : ∀ i, F.rnd (l i) = l i := hl
  have hi : Fl.inverse F t (Mat.translation dx dy) = .ok (Mat.translation (-dx) (-dy)) := C124_translation F u v h h1 t ht dx dy hx hy
  have hh : Fl.homInverse F t (Mat.translation dx dy) = .ok (Mat.translation (-dx) (-dy)) := by
    unfold Fl.homInverse
    rw [hi]
    simp only [Res.bind, Fl.normalizeMat]
    have e22 : Mat.translation (-dx) (-dy) 2 2 = 1 := by simp [Mat.translation]
    rw [e22, abs_one, if_neg (not_lt.2 ht'), div_one, e1, if_neg (by norm_num)]
    congr 1
    funext i j
    rw [div_one]
    fin_cases i <;> fin_cases j <;> simp [Mat.translation, e0, e1, e2, e3, h.odd]
  unfold Fl.lineImage
  rw [hh]
  simp only [Res.bind]
  congr 1
  funext i
  fin_cases i <;> simp [Fl.app, Mat.transpose, Mat.translation, e0, el]

/-- A translation, the line x = 0 and the point (0,1) with `double`: the conditions of the theorem are met and the line is x = 1. -/
example : let m : Mat ℝ := Mat.translation 1 0
    UpTo 1 m ∧ IsInv (Mat.translation (-1) 0) m ∧ (Matrix.of m).det = 1 ∧ Fl.lineImage (binary 53) stdR m ![1, 0, 0] = .ok ![1, 0, -1] ∧ stdR.nullDenom ≤ |(![1, 0, -1] : V3 ℝ) 0| ∧
    (∀ j, (![1, 0, -1] : V3 ℝ) j = Mat.translation (-1) 0 0 j * 1 + Mat.translation (-1) 0 1 j * 0 + Mat.translation (-1) 0 2 j * 0) ∧
    80 * (2 : ℝ) ^ (-(53 : ℤ)) * 1 ^ 2 * 1 ≤ |1| * 1 ∧ 40 * (2 : ℝ) ^ (-(53 : ℤ)) * 1 * 1 ≤ |m 2 0 * 0 + m 2 1 * 1 + m 2 2| := by
  have rz : ∀ {n : ℤ}, |n| ≤ 4 → (binary 53).rnd (n : ℝ) = n := fun {n} hn => roundTo_int (p := 53) (by norm_num) (m := n) (hn.trans (by norm_num))
  have r0 : (binary 53).rnd 0 = 0 := by have := rz (n := 0) (by norm_num); exact_mod_cast this
  have r1 : (binary 53).rnd 1 = 1 := by have := rz (n := 1) (by norm_num); exact_mod_cast this
  have rm : (binary 53).rnd (-1) = -1 := by have := rz (n := -1) (by norm_num); exact_mod_cast this
  have d : (Matrix.of (Mat.translation 1 0 : Mat ℝ)).det = 1 := by rw [(matrix_adj _).2]; simp [Mat.determ, Mat.det2, Mat.translation]
  refine ⟨?_, ?_, d, ?_, by norm_num [stdR], ?_, by norm_num, by simp [Mat.translation]; norm_num⟩
  · intro i j; fin_cases i <;> fin_cases j <;> norm_num [Mat.translation]
  · refine (isInv_iff _ _).2 ?_
    have e : (Mat.translation 1 0 : Mat ℝ).determ = 1 := by rw [← (matrix_adj _).2]; exact d
    refine ⟨by rw [e]; norm_num, fun i j => ?_⟩
    rw [e]
    fin_cases i <;> fin_cases j <;> simp [Mat.translation, Mat.adjugate, Mat.det2]
  · rw [C132_translation (binary 53) _ _ (binary_ok (p := 53) (by norm_num)) r1 stdR (by norm_num [stdR]) (by norm_num [stdR]) 1 0 r1 r0 ![1, 0, 0] (by intro i; fin_cases i <;> simp [Rep, r0, r1])]
    have hy : (binary 53).hyp 1 0 = 1 := by rw [(binary_axis (by norm_num)).hypX 1 r1]; norm_num
    have e : (![(![1, 0, 0] : V3 ℝ) 0, (![1, 0, 0] : V3 ℝ) 1, (binary 53).rnd ((binary 53).rnd ((binary 53).rnd (-(1 * (![1, 0, 0] : V3 ℝ) 0)) + (binary 53).rnd (-(0 * (![1, 0, 0] : V3 ℝ) 1))) + (![1, 0, 0] : V3 ℝ) 2)] : V3 ℝ) = ![1, 0, -1] := by
      simp [rm, r0]
    rw [e, Fl.normalizeLine_ok]
    · congr 1
      have e2 : (fun i => (binary 53).rnd ((![1, 0, -1] : V3 ℝ) i / (binary 53).hyp ((![1, 0, -1] : V3 ℝ) 0) ((![1, 0, -1] : V3 ℝ) 1))) = ![1, 0, -1] := by
        funext i
        fin_cases i <;> simp [hy, r0, r1, rm]
      rw [e2]
      have n0 : ¬ ((![1, 0, -1] : V3 ℝ) 0 < 0) := by norm_num
      have n1 : ¬ (|(![1, 0, -1] : V3 ℝ) 0| < stdR.nullDenom) := by norm_num [stdR]
      simp only [signFix, n0, n1, if_false]
    · simp [hy, dblEps]; norm_num
  · intro j; fin_cases j <;> simp [Mat.translation]

/-- **C132**, without a condition on the determinant: for any precision of at least 6 bits there is a matrix of numbers of this precision that has no inverse, so that a line of the plane has no image line, and for which the product
with a line gives a line. -/
theorem C132_false {p : ℕ} (hp : 6 ≤ p) (t : Thr ℝ) (ht : t.nullDeter ≤ 2) (ht' : t.nullDenom ≤ 2) :
    ∃ m : Mat ℝ, (∀ i j, Rep (binary p) (m i j)) ∧ (¬ ∃ b, IsInv b m) ∧ ∃ r, Fl.lineImage (binary p) t m ![0, 0, 1] = .ok r := by
  obtain ⟨L, hL⟩ : ∃ L : ℤ, (2 : ℤ) ^ (p - 3) = L := ⟨_, rfl⟩
  obtain ⟨e1, e2, e3⟩ := singular_rounding (by omega) hL
  have L2 : (2 : ℤ) ≤ L := by
    rw [← hL]; calc (2 : ℤ) = 2 ^ 1 := by norm_num
      _ ≤ _ := pow_le_pow_right₀ (by norm_num) (by omega)
  have hi : ∀ {z : ℤ}, |z| ≤ 8 * L → (binary p).rnd z = z := by
    intro z hz; exact roundTo_int (by omega) (by rw [e3]; exact hz)
  have r0 : (binary p).rnd 0 = 0 := by have := hi (z := 0) (by rw [abs_zero]; omega); exact_mod_cast this
  have r1 : (binary p).rnd 1 = 1 := by have := hi (z := 1) (by rw [abs_one]; omega); exact_mod_cast this
  have r5 : (binary p).rnd 5 = 5 := by have := hi (z := 5) (by rw [abs_of_pos (by norm_num)]; omega); exact_mod_cast this
  have rm5 : (binary p).rnd (-5) = -5 := by rw [(binary_ok hp).odd, r5]
  have r6 : (binary p).rnd 6 = 6 := by have := hi (z := 6) (by rw [abs_of_pos (by norm_num)]; omega); exact_mod_cast this
  have r2 : (binary p).rnd 2 = 2 := by have := hi (z := 2) (by rw [abs_of_pos (by norm_num)]; omega); exact_mod_cast this
  have rm2 : (binary p).rnd (-2) = -2 := by have := hi (z := -2) (by rw [abs_neg, abs_of_pos (by norm_num)]; omega); exact_mod_cast this
  have r10 : (binary p).rnd 10 = 10 := by have := hi (z := 10) (by rw [abs_of_pos (by norm_num)]; omega); exact_mod_cast this
  have rm10 : (binary p).rnd (-10) = -10 := by have := hi (z := -10) (by rw [abs_neg, abs_of_pos (by norm_num)]; omega); exact_mod_cast this
  have r12 : (binary p).rnd (-12) = -12 := by have := hi (z := -12) (by rw [abs_neg, abs_of_pos (by norm_num)]; omega); exact_mod_cast this
  have rN1 : (binary p).rnd (4 * L + 1) = 4 * L + 1 := by have := hi (z := 4 * L + 1) (by rw [abs_of_pos (by omega)]; omega); exact_mod_cast this
  have rN3 : (binary p).rnd (4 * L + 3) = 4 * L + 3 := by have := hi (z := 4 * L + 3) (by rw [abs_of_pos (by omega)]; omega); exact_mod_cast this
  refine ⟨![![4 * L + 1, 4 * L + 3, 1], ![5, 5, 0], ![-2, 0, 1]], ?_, ?_, ?_⟩
  · intro i j
    fin_cases i <;> fin_cases j <;> simp [Rep, r0, r1, r5, rm2, rN1, rN3]
  · rintro ⟨b, hb⟩
    refine ((isInv_iff _ _).1 hb).1 ?_
    simp [Mat.determ, Mat.det2]; ring
  · have x1 : (4 * (L : ℝ) + 1) * 5 = 5 * (4 * L + 1) := by ring
    have x2 : (4 * (L : ℝ) + 3) * 5 = 5 * (4 * L + 3) := by ring
    have x3 : (20 * (L : ℝ) + 4) - (20 * L + 16) = -12 := by ring
    have d : Fl.determ (binary p) (![![4 * (L : ℝ) + 1, 4 * L + 3, 1], ![5, 5, 0], ![-2, 0, 1]] : Mat ℝ) = -2 := by
      simp [Fl.determ, Fl.det2, r0, r5, x1, x2, e1, e2, x3, r12]
      norm_num [rm10, r10, rm2, r0]
    have a22 : Fl.adjugate (binary p) (![![4 * (L : ℝ) + 1, 4 * L + 3, 1], ![5, 5, 0], ![-2, 0, 1]] : Mat ℝ) 2 2 = -12 := by
      simp [Fl.adjugate, Fl.det2, x1, x2, e1, e2, x3, r12]
    have a20 : Fl.adjugate (binary p) (![![4 * (L : ℝ) + 1, 4 * L + 3, 1], ![5, 5, 0], ![-2, 0, 1]] : Mat ℝ) 2 0 = 10 := by
      simp [Fl.adjugate, Fl.det2, r0]; norm_num [rm10, r10]
    generalize (![![4 * (L : ℝ) + 1, 4 * L + 3, 1], ![5, 5, 0], ![-2, 0, 1]] : Mat ℝ) = m at *
    obtain ⟨b, hb, b20⟩ : ∃ b, Fl.homInverse (binary p) t m = .ok b ∧ b 2 0 = (binary p).rnd (-5 / 6) := by
      unfold Fl.homInverse Fl.inverse
      rw [d, if_neg (by rw [abs_neg, abs_of_pos (by norm_num)]; linarith)]
      simp only [Res.bind, Fl.normalizeMat, a22]
      have e6 : (binary p).rnd (-12 / -2) = 6 := by norm_num [r6]
      rw [e6, if_neg (by rw [abs_of_pos (by norm_num)]; linarith)]
      have e1 : (binary p).rnd (6 / 6) = 1 := by norm_num [r1]
      refine ⟨_, rfl, ?_⟩
      rw [e1, if_neg (by norm_num), a20]
      have e5 : (binary p).rnd (10 / -2) = -5 := by norm_num [rm5]
      rw [e5]
    unfold Fl.lineImage
    rw [hb]
    simp only [Res.bind]
    have F := binary_ok hp
    have w0 : Fl.app (binary p) b.transpose ![0, 0, 1] 0 = (binary p).rnd (-5 / 6) := by
      simp [Fl.app, Mat.transpose, b20, r0, F.idem]
    refine ⟨_, Fl.normalizeLine_ok t _ ?_⟩
    rw [w0]
    generalize Fl.app (binary p) b.transpose ![0, 0, 1] 1 = y
    have er := F.err (-5 / 6)
    have hu := F.u_small
    have x : (binary p).rnd (-5 / 6) ≤ -1 / 2 := by
      rw [abs_le, abs_of_neg (by norm_num)] at er
      linarith [er.2]
    generalize (binary p).rnd (-5 / 6) = x' at *
    have hy := (abs_le.1 (F.hypErr x' y)).1
    have s : 1 / 2 ≤ Real.sqrt (x' ^ 2 + y ^ 2) := Real.le_sqrt_of_sq_le (by nlinarith [sq_nonneg y])
    have hv := F.v_small
    have : dblEps < 1 / 4 := by norm_num [dblEps]
    nlinarith

/-- The standard thresholds. -/
example : stdR.nullDeter ≤ 1 ∧ stdR.nullDenom ≤ 1 ∧ 0 < stdR.nullDeter ∧ 0 < stdR.nullDenom := by norm_num [stdR]

end H2d.Props
