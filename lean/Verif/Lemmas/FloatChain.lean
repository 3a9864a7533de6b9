import Verif.Spec.FloatChain
import Verif.Lemmas.FloatErr
import Verif.Lemmas.FloatSegs
import Verif.Lemmas.FloatExact

/-! # Transformations added to a homography with rounded operations -/

namespace H2d.Fl
open H2d.Spec

variable {F : Arith} {u v w : ℝ} {co si : ℝ → ℝ}

/-- An affine transformation, stored with rounded values. -/
structure AffRep (F : Arith) (m : Mat ℝ) : Prop where
  r0 : m 2 0 = 0
  r1 : m 2 1 = 0
  r2 : m 2 2 = 1
  rep : ∀ i j, Rep F (m i j)

/-- One column of the product, third value `z`. -/
noncomputable def colStep (F : Arith) (co si : ℝ → ℝ) (z : ℝ) : Trans → Pt ℝ → Pt ℝ
  | .translation tx ty, q => (F.rnd (q.1 + F.rnd (F.rnd tx * z)), F.rnd (q.2 + F.rnd (F.rnd ty * z)))
  | .rotation a, q => (F.rnd (F.rnd (F.rnd (co a) * q.1) + F.rnd (-F.rnd (si a) * q.2)), F.rnd (F.rnd (F.rnd (si a) * q.1) + F.rnd (F.rnd (co a) * q.2)))
  | .scale kx ky, q => (F.rnd (F.rnd kx * q.1), F.rnd (F.rnd ky * q.2))

/-- The same without rounding. -/
noncomputable def colSent (z : ℝ) : Trans → Pt ℝ → Pt ℝ
  | .translation tx ty, q => (q.1 + z * tx, q.2 + z * ty)
  | .rotation a, q => (q.1 * Real.cos a - q.2 * Real.sin a, q.1 * Real.sin a + q.2 * Real.cos a)
  | .scale kx ky, q => (kx * q.1, ky * q.2)

theorem addTrans_eq (h : FlOk F u v) (h1 : Rep F 1) {t : Thr ℝ} (ht : t.nullDenom ≤ 1) {m : Mat ℝ} (hm : AffRep F m) (o : Trans) :
    ∃ m', addTrans F co si t m o = .ok m' ∧ AffRep F m' ∧ ∀ j, (m' 0 j, m' 1 j) = colStep F co si (m 2 j) o (m 0 j, m 1 j) := by
  have e0 := rnd_zero h
  have e1 : F.rnd 1 = 1 := h1
  have em : ∀ i j, F.rnd (m i j) = m i j := hm.rep
  have e22 : mul F (transMat F co si o) m 2 2 = 1 := by
    cases o <;> simp [mul, transMat, Mat.translation, Mat.rotation, Mat.scale, e0, e1, em, hm.r2]
  have key : addTrans F co si t m o = .ok (mul F (transMat F co si o) m) := by
    unfold addTrans normalizeMat
    rw [e22, abs_one, if_neg (not_lt.2 ht)]
    simp only [div_one]
    rw [e22, e1, if_neg (by norm_num)]
    congr 1
    funext i j
    exact h.idem _
  refine ⟨_, key, ⟨?_, ?_, e22, fun i j => h.idem _⟩, fun j => ?_⟩
  · cases o <;> simp [mul, transMat, Mat.translation, Mat.rotation, Mat.scale, e0, hm.r0]
  · cases o <;> simp [mul, transMat, Mat.translation, Mat.rotation, Mat.scale, e0, hm.r1]
  · cases o <;> simp [colStep, mul, transMat, Mat.translation, Mat.rotation, Mat.scale, e0, em, h.idem, h.odd]

theorem addAll_eq (h : FlOk F u v) (h1 : Rep F 1) {t : Thr ℝ} (ht : t.nullDenom ≤ 1) (os : List Trans) : ∀ {m : Mat ℝ}, AffRep F m →
    ∃ m', addAll F co si t m os = .ok m' ∧ AffRep F m' ∧ ∀ j, (m' 0 j, m' 1 j) = os.foldl (fun q o => colStep F co si (m 2 j) o q) (m 0 j, m 1 j) := by
  induction os with
  | nil => exact fun {m} hm => ⟨m, rfl, hm, fun j => rfl⟩
  | cons o os ih =>
    intro m hm
    obtain ⟨m1, e1, a1, c1⟩ := addTrans_eq (co := co) (si := si) h h1 ht hm o
    obtain ⟨m2, e2, a2, c2⟩ := ih a1
    refine ⟨m2, by rw [addAll, e1]; exact e2, a2, fun j => ?_⟩
    have hz : m1 2 j = m 2 j := by
      fin_cases j
      · exact a1.r0.trans hm.r0.symm
      · exact a1.r1.trans hm.r1.symm
      · exact a1.r2.trans hm.r2.symm
    rw [c2 j, hz, c1 j, List.foldl_cons]

theorem eye_aff (h : FlOk F u v) (h1 : Rep F 1) : AffRep F Mat.eye := by
  have e0 : F.rnd 0 = 0 := rnd_zero h
  have e1 : F.rnd 1 = 1 := h1
  refine ⟨by simp [Mat.eye], by simp [Mat.eye], by simp [Mat.eye], fun i j => ?_⟩
  fin_cases i <;> fin_cases j <;> simp [Mat.eye, Rep, e0, e1]

/-! ## Errors -/

theorem fst_le_len (p : Pt ℝ) : |p.1| ≤ eucl p (0, 0) := by
  unfold eucl
  rw [← Real.sqrt_sq_eq_abs]
  exact Real.sqrt_le_sqrt (by simp only [sub_zero]; nlinarith [sq_nonneg p.2])

theorem snd_le_len (p : Pt ℝ) : |p.2| ≤ eucl p (0, 0) := by
  unfold eucl
  rw [← Real.sqrt_sq_eq_abs]
  exact Real.sqrt_le_sqrt (by simp only [sub_zero]; nlinarith [sq_nonneg p.1])

theorem sum_le_len (p : Pt ℝ) : |p.1| + |p.2| ≤ 3 / 2 * eucl p (0, 0) := by
  unfold eucl
  rw [show (3 / 2 : ℝ) = Real.sqrt (9 / 4) by rw [show (9 / 4 : ℝ) = (3 / 2) ^ 2 by norm_num, Real.sqrt_sq (by norm_num)], ← Real.sqrt_mul (by norm_num)]
  apply Real.le_sqrt_of_sq_le
  simp only [sub_zero]
  have a := sq_abs p.1
  have b := sq_abs p.2
  nlinarith [sq_nonneg (|p.1| - |p.2|), sq_nonneg (|p.1|), sq_nonneg (|p.2|)]

theorem trig_stored (h : FlOk F u v) (hw : TrigOk co si w) (a : ℝ) :
    |F.rnd (co a) - Real.cos a| ≤ 3 / 2 * (u + w) ∧ |F.rnd (si a) - Real.sin a| ≤ 3 / 2 * (u + w) := by
  have gen : ∀ x y : ℝ, |x - y| ≤ w → |y| ≤ 1 → |F.rnd x - y| ≤ 3 / 2 * (u + w) := by
    intro x y h1 h2
    have h3 := h.err x
    have h4 : |x| ≤ 1 + w := by
      have := abs_add_le (x - y) y
      rw [sub_add_cancel] at this
      linarith
    have h5 := abs_add_le (F.rnd x - x) (x - y)
    rw [sub_add_sub_cancel] at h5
    have h6 := mul_le_mul_of_nonneg_left h4 h.u_nonneg
    have h7 := mul_le_mul_of_nonneg_left hw.w_small h.u_nonneg
    linarith [h.u_nonneg, hw.w_nonneg]
  exact ⟨gen _ _ (hw.cosErr a) (Real.abs_cos_le_one a), gen _ _ (hw.sinErr a) (Real.abs_sin_le_one a)⟩

/-- A rounded product with a cosine or sine. -/
theorem trigMul_err (h : FlOk F u v) {e c C x : ℝ} (hue : u ≤ e) (he1 : e ≤ 1 / 32) (hc : |c - C| ≤ 3 / 2 * e) (hC : |C| ≤ 1) : |F.rnd (c * x) - C * x| ≤ 13 / 5 * e * |x| := by
  have h3 := h.err (c * x)
  have c1 : |c| ≤ 1 + 3 / 2 * e := by
    have := abs_add_le (c - C) C
    rw [sub_add_cancel] at this
    linarith
  have e0 : 0 ≤ e := le_trans h.u_nonneg hue
  have h5 := abs_add_le (F.rnd (c * x) - c * x) (c * x - C * x)
  rw [sub_add_sub_cancel, ← sub_mul, abs_mul (c - C)] at h5
  rw [abs_mul] at h3
  have h6 : u * (|c| * |x|) ≤ e * (17 / 16 * |x|) := mul_le_mul hue (mul_le_mul_of_nonneg_right (by linarith) (abs_nonneg _)) (by positivity) e0
  have h7 := mul_le_mul_of_nonneg_right hc (abs_nonneg x)
  have : 0 ≤ e * |x| := by positivity
  linarith

/-- A rounded sum of two such products. -/
theorem trigSum_err (h : FlOk F u v) {e a b A B x y : ℝ} (hue : u ≤ e) (he1 : e ≤ 1 / 32) (ha : |a - A| ≤ 13 / 5 * e * |x|) (hb : |b - B| ≤ 13 / 5 * e * |y|) (hA : |A| ≤ |x|) (hB : |B| ≤ |y|) :
    |F.rnd (a + b) - (A + B)| ≤ 15 / 4 * e * (|x| + |y|) := by
  have h3 := h.err (a + b)
  have e0 : 0 ≤ e := le_trans h.u_nonneg hue
  have p1 : |(a + b) - (A + B)| ≤ 13 / 5 * e * (|x| + |y|) := by
    have := abs_add_le (a - A) (b - B)
    rw [show a - A + (b - B) = (a + b) - (A + B) by ring] at this
    linarith
  have p2 : |a + b| ≤ (1 + 13 / 5 * e) * (|x| + |y|) := by
    have q1 := abs_add_le ((a + b) - (A + B)) (A + B)
    rw [sub_add_cancel] at q1
    have q2 := abs_add_le A B
    linarith
  have h5 := abs_add_le (F.rnd (a + b) - (a + b)) ((a + b) - (A + B))
  rw [sub_add_sub_cancel] at h5
  have s0 : 0 ≤ |x| + |y| := by positivity
  have h6 : u * |a + b| ≤ e * ((1 + 13 / 5 * (1 / 32)) * (|x| + |y|)) :=
    mul_le_mul hue (p2.trans (mul_le_mul_of_nonneg_right (by linarith) s0)) (abs_nonneg _) e0
  have : 0 ≤ e * (|x| + |y|) := by positivity
  linarith

theorem rot_isom (a : ℝ) (p q : Pt ℝ) : eucl (colSent w (.rotation a) p) (colSent w (.rotation a) q) = eucl p q := by
  unfold eucl colSent
  congr 1
  have := Real.sin_sq_add_cos_sq a
  simp only
  linear_combination ((p.1 - q.1) ^ 2 + (p.2 - q.2) ^ 2) * this

theorem scale_expand (kx ky : ℝ) (p q : Pt ℝ) : eucl (colSent w (.scale kx ky) p) (colSent w (.scale kx ky) q) ≤ stretch (.scale kx ky) * eucl p q := by
  have g0 : 0 ≤ stretch (.scale kx ky) := le_trans zero_le_one (le_max_left _ _)
  have gx : |kx| ≤ stretch (.scale kx ky) := le_trans (le_max_left _ _) (le_max_right _ _)
  have gy : |ky| ≤ stretch (.scale kx ky) := le_trans (le_max_right _ _) (le_max_right _ _)
  generalize stretch (.scale kx ky) = g at *
  unfold eucl colSent
  rw [show g = Real.sqrt (g ^ 2) by rw [Real.sqrt_sq g0], ← Real.sqrt_mul (by positivity)]
  apply Real.sqrt_le_sqrt
  have ax : kx ^ 2 ≤ g ^ 2 := by rw [← sq_abs kx]; exact pow_le_pow_left₀ (abs_nonneg _) gx 2
  have ay : ky ^ 2 ≤ g ^ 2 := by rw [← sq_abs ky]; exact pow_le_pow_left₀ (abs_nonneg _) gy 2
  have i1 := mul_le_mul_of_nonneg_right ax (sq_nonneg (p.1 - q.1))
  have i2 := mul_le_mul_of_nonneg_right ay (sq_nonneg (p.2 - q.2))
  simp only
  nlinarith

theorem stretch_ge (o : Trans) : 1 ≤ stretch o := by cases o <;> simp [stretch]

theorem pushLen_nonneg (o : Trans) : 0 ≤ pushLen o := by
  cases o <;> simp [pushLen, eucl]

/-- A transformation without rounding does not expand more than its factor. -/
theorem colSent_expand (z : ℝ) (o : Trans) (p q : Pt ℝ) : eucl (colSent z o p) (colSent z o q) ≤ stretch o * eucl p q := by
  cases o with
  | translation tx ty => simp [colSent, stretch, eucl]
  | rotation a => rw [rot_isom]; simp [stretch]
  | scale kx ky => exact scale_expand kx ky p q

theorem colSent_size {z : ℝ} (hz : z = 0 ∨ z = 1) (o : Trans) (q : Pt ℝ) : eucl (colSent z o q) (0, 0) ≤ stretch o * (eucl q (0, 0) + z * pushLen o) := by
  have h1 := colSent_expand z o q (0, 0)
  have h2 := eucl_triangle (colSent z o q) (colSent z o (0, 0)) (0, 0)
  have h3 : eucl (colSent z o (0, 0)) (0, 0) ≤ z * pushLen o := by
    cases o with
    | translation tx ty => rcases hz with rfl | rfl <;> simp [colSent, pushLen, eucl]
    | rotation a => simp [colSent, pushLen, eucl]
    | scale kx ky => simp [colSent, pushLen, eucl]
  have h4 : z * pushLen o ≤ stretch o * (z * pushLen o) := by
    have : 0 ≤ z * pushLen o := by rcases hz with rfl | rfl <;> simp [pushLen_nonneg]
    nlinarith [stretch_ge o]
  linarith

/-- Error of one step. -/
theorem colStep_err (h : FlOk F u v) (hw : TrigOk co si w) {z : ℝ} (hz : z = 0 ∨ z = 1) (o : Trans) (q : Pt ℝ) (hq : Rep F q.1 ∧ Rep F q.2) :
    eucl (colStep F co si z o q) (colSent z o q) ≤ 9 * (u + w) * (stretch o * (eucl q (0, 0) + z * pushLen o)) := by
  have hu := h.u_nonneg
  have hu1 := h.u_small
  have hw0 := hw.w_nonneg
  have hw1 := hw.w_small
  have f1 := fst_le_len q
  have f2 := snd_le_len q
  have f3 := sum_le_len q
  have n0 : 0 ≤ eucl q (0, 0) := Real.sqrt_nonneg _
  cases o with
  | translation tx ty =>
    rcases hz with rfl | rfl
    · have e0 := rnd_zero h
      have : colStep F co si 0 (.translation tx ty) q = colSent 0 (.translation tx ty) q := by
        simp only [colStep, colSent, mul_zero, e0, add_zero, zero_mul]
        rw [hq.1, hq.2]
      rw [this]
      have : eucl (colSent 0 (.translation tx ty) q) (colSent 0 (.translation tx ty) q) = 0 := by simp [eucl]
      rw [this]
      simp only [stretch, zero_mul, add_zero]
      positivity
    · have s1 : |tx| ≤ pushLen (.translation tx ty) := by
        have := fst_le_len (tx, ty)
        rwa [eucl_comm] at this
      have s2 : |ty| ≤ pushLen (.translation tx ty) := by
        have := snd_le_len (tx, ty)
        rwa [eucl_comm] at this
      have st : stretch (.translation tx ty) = 1 := rfl
      rw [st, one_mul, one_mul]
      generalize pushLen (.translation tx ty) = S at *
      have gen : ∀ x t : ℝ, |x| ≤ eucl q (0, 0) → |t| ≤ S → |F.rnd (x + F.rnd (F.rnd t * 1)) - (x + 1 * t)| ≤ 3 * u * (eucl q (0, 0) + S) := by
        intro x t hx htt
        rw [mul_one, h.idem, one_mul]
        have a1 := h.err (x + F.rnd t)
        have a2 := h.err t
        have a3 := rnd_abs_le h t
        have a4 := abs_add_le x (F.rnd t)
        have a5 := abs_add_le (F.rnd (x + F.rnd t) - (x + F.rnd t)) (F.rnd t - t)
        rw [show F.rnd (x + F.rnd t) - (x + F.rnd t) + (F.rnd t - t) = F.rnd (x + F.rnd t) - (x + t) by ring] at a5
        have S0 : 0 ≤ S := le_trans (abs_nonneg _) htt
        have a6 : (1 + u) * |t| ≤ 65 / 64 * S := mul_le_mul (by linarith) htt (abs_nonneg _) (by norm_num)
        have a7 : u * |x + F.rnd t| ≤ u * (eucl q (0, 0) + 65 / 64 * S) := mul_le_mul_of_nonneg_left (by linarith) hu
        have a8 : u * |t| ≤ u * S := mul_le_mul_of_nonneg_left htt hu
        have : 0 ≤ u * S := mul_nonneg hu S0
        have : 0 ≤ u * eucl q (0, 0) := mul_nonneg hu n0
        linarith
      have := eucl_le_max (p := colStep F co si 1 (.translation tx ty) q) (q := colSent 1 (.translation tx ty) q) (gen q.1 tx f1 s1) (gen q.2 ty f2 s2)
      have S0 : 0 ≤ S := le_trans (abs_nonneg _) s1
      have : 0 ≤ u * (eucl q (0, 0) + S) := by positivity
      have : 0 ≤ w * (eucl q (0, 0) + S) := by positivity
      linarith
  | rotation a =>
    have sh : pushLen (.rotation a) = 0 := rfl
    have st : stretch (.rotation a) = 1 := rfl
    rw [st, sh, one_mul, mul_zero, add_zero]
    obtain ⟨tc, ts⟩ := trig_stored h hw a
    have ue : u ≤ u + w := by linarith
    have e1 : u + w ≤ 1 / 32 := by linarith
    have ts' : |-F.rnd (si a) - -Real.sin a| ≤ 3 / 2 * (u + w) := by rw [show -F.rnd (si a) - -Real.sin a = -(F.rnd (si a) - Real.sin a) by ring, abs_neg]; exact ts
    have c1 := Real.abs_cos_le_one a
    have s1 := Real.abs_sin_le_one a
    have s1' : |-Real.sin a| ≤ 1 := by rwa [abs_neg]
    have sz : ∀ {C x : ℝ}, |C| ≤ 1 → |C * x| ≤ |x| := fun {C x} hC => by rw [abs_mul]; nlinarith [abs_nonneg x]
    have b1 := trigSum_err h ue e1 (trigMul_err h (x := q.1) ue e1 tc c1) (trigMul_err h (x := q.2) ue e1 ts' s1') (sz c1) (sz s1')
    have b2 := trigSum_err h ue e1 (trigMul_err h (x := q.1) ue e1 ts s1) (trigMul_err h (x := q.2) ue e1 tc c1) (sz s1) (sz c1)
    have b3 : 15 / 4 * (u + w) * (|q.1| + |q.2|) ≤ 15 / 4 * (u + w) * (3 / 2 * eucl q (0, 0)) := mul_le_mul_of_nonneg_left f3 (by positivity)
    have := eucl_le_max (p := colStep F co si z (.rotation a) q) (q := colSent z (.rotation a) q) (b := 15 / 4 * (u + w) * (3 / 2 * eucl q (0, 0)))
      (by simp only [colStep, colSent]; rw [show q.1 * Real.cos a - q.2 * Real.sin a = Real.cos a * q.1 + -Real.sin a * q.2 by ring]; exact b1.trans b3)
      (by simp only [colStep, colSent]; rw [show q.1 * Real.sin a + q.2 * Real.cos a = Real.sin a * q.1 + Real.cos a * q.2 by ring]; exact b2.trans b3)
    have : 0 ≤ (u + w) * eucl q (0, 0) := by positivity
    linarith
  | scale kx ky =>
    have sh : pushLen (.scale kx ky) = 0 := rfl
    rw [sh, mul_zero, add_zero]
    have gx : |kx| ≤ stretch (.scale kx ky) := le_trans (le_max_left _ _) (le_max_right _ _)
    have gy : |ky| ≤ stretch (.scale kx ky) := le_trans (le_max_right _ _) (le_max_right _ _)
    generalize stretch (.scale kx ky) = g at *
    have g0 : 0 ≤ g := le_trans (abs_nonneg _) gx
    have gen : ∀ k x : ℝ, |k| ≤ g → |x| ≤ eucl q (0, 0) → |F.rnd (F.rnd k * x) - k * x| ≤ 3 * u * (g * eucl q (0, 0)) := by
      intro k x hk hx
      have a1 := h.err (F.rnd k * x)
      have a2 := h.err k
      have a3 := rnd_abs_le h k
      rw [abs_mul] at a1
      have kx0 : |k| * |x| ≤ g * eucl q (0, 0) := mul_le_mul hk hx (abs_nonneg _) g0
      have a5 := abs_add_le (F.rnd (F.rnd k * x) - F.rnd k * x) ((F.rnd k - k) * x)
      rw [show F.rnd (F.rnd k * x) - F.rnd k * x + (F.rnd k - k) * x = F.rnd (F.rnd k * x) - k * x by ring, abs_mul (F.rnd k - k)] at a5
      have a6 := mul_le_mul_of_nonneg_right a2 (abs_nonneg x)
      have a7 : |F.rnd k| * |x| ≤ 65 / 64 * (g * eucl q (0, 0)) := by
        have := mul_le_mul_of_nonneg_right a3 (abs_nonneg x)
        have p0 : 0 ≤ |k| * |x| := by positivity
        have : (1 + u) * (|k| * |x|) ≤ 65 / 64 * (g * eucl q (0, 0)) := mul_le_mul (by linarith) kx0 p0 (by norm_num)
        linarith
      have a8 := mul_le_mul_of_nonneg_left a7 hu
      have a9 := mul_le_mul_of_nonneg_left kx0 hu
      have : 0 ≤ u * (g * eucl q (0, 0)) := by positivity
      linarith
    have := eucl_le_max (p := colStep F co si z (.scale kx ky) q) (q := colSent z (.scale kx ky) q) (gen kx q.1 gx f1) (gen ky q.2 gy f2)
    have : 0 ≤ u * (g * eucl q (0, 0)) := by positivity
    have : 0 ≤ w * (g * eucl q (0, 0)) := by positivity
    linarith

theorem colStep_rep (h : FlOk F u v) (z : ℝ) (o : Trans) (q : Pt ℝ) : Rep F (colStep F co si z o q).1 ∧ Rep F (colStep F co si z o q).2 := by
  cases o <;> exact ⟨h.idem _, h.idem _⟩

/-- Error after any number of steps. -/
theorem colRun_err (h : FlOk F u v) (hw : TrigOk co si w) {z : ℝ} (hz : z = 0 ∨ z = 1) (os : List Trans) : ∀ (k : ℕ) (S : ℝ) (q q' : Pt ℝ), Rep F q'.1 ∧ Rep F q'.2 →
    eucl q (0, 0) ≤ S → eucl q' q ≤ 10 * k * (u + w) * S → 100 * ((k + os.length : ℕ) : ℝ) * (u + w) ≤ 1 →
    eucl (os.foldl (fun q o => colStep F co si z o q) q') (os.foldl (fun q o => colSent z o q) q) ≤ 10 * ((k + os.length : ℕ) : ℝ) * (u + w) * (growth os * (S + z * travel os)) ∧
    eucl (os.foldl (fun q o => colSent z o q) q) (0, 0) ≤ growth os * (S + z * travel os) := by
  induction os with
  | nil =>
    intro k S q q' _ hS he _
    simp only [List.foldl, growth, travel, List.map, List.prod_nil, List.sum_nil, mul_zero, add_zero, one_mul, List.length_nil]
    exact ⟨he, hS⟩
  | cons o os ih =>
    intro k S q q' hr hS he hn
    have hu := h.u_nonneg
    have hw0 := hw.w_nonneg
    have sg := stretch_ge o
    have sn := pushLen_nonneg o
    have zs : 0 ≤ z * pushLen o := by rcases hz with rfl | rfl <;> simp [sn]
    have S0 : 0 ≤ S := le_trans (Real.sqrt_nonneg _) hS
    have kn : 10 * (k : ℝ) * (u + w) ≤ 1 / 10 := by
      have : (k : ℝ) ≤ ((k + (o :: os).length : ℕ) : ℝ) := by exact_mod_cast Nat.le_add_right _ _
      have := mul_le_mul_of_nonneg_right this (show 0 ≤ u + w by linarith)
      linarith
    have q'S : eucl q' (0, 0) ≤ 11 / 10 * S := by
      have := eucl_triangle q' q (0, 0)
      have := mul_le_mul_of_nonneg_right kn S0
      linarith
    have step := colStep_err h hw hz o q' hr
    have size := colSent_size hz o q
    have exp := colSent_expand z o q' q
    obtain ⟨r1, r2⟩ := ih (k + 1) (stretch o * (S + z * pushLen o)) (colSent z o q) (colStep F co si z o q') (colStep_rep h z o q')
      (size.trans (mul_le_mul_of_nonneg_left (by linarith) (by linarith)))
      (by
        have t1 := eucl_triangle (colStep F co si z o q') (colSent z o q') (colSent z o q)
        have t2 : stretch o * (eucl q' (0, 0) + z * pushLen o) ≤ stretch o * (11 / 10 * (S + z * pushLen o)) := mul_le_mul_of_nonneg_left (by linarith) (by linarith)
        have t3 := mul_le_mul_of_nonneg_left t2 (show 0 ≤ 9 * (u + w) by linarith)
        have t4 := mul_le_mul_of_nonneg_left he (show 0 ≤ stretch o by linarith)
        have t5 : 0 ≤ 10 * (k : ℝ) * (u + w) * stretch o * (z * pushLen o) := by positivity
        have t6 : 0 ≤ (u + w) * (stretch o * (S + z * pushLen o)) := by positivity
        push_cast
        nlinarith)
      (by rw [List.length_cons] at hn; rw [show k + 1 + os.length = k + (os.length + 1) by ring]; exact hn)
    have gr : growth (o :: os) = stretch o * growth os := by simp [growth]
    have tr : travel (o :: os) = pushLen o + travel os := by simp [travel]
    have tn : 0 ≤ travel os := by
      unfold travel
      apply List.sum_nonneg
      intro x hx
      obtain ⟨o', -, rfl⟩ := List.mem_map.1 hx
      exact pushLen_nonneg o'
    have gn : 0 ≤ growth os := by
      unfold growth
      apply List.prod_nonneg
      intro x hx
      obtain ⟨o', -, rfl⟩ := List.mem_map.1 hx
      exact le_trans zero_le_one (stretch_ge o')
    have fin : growth os * (stretch o * (S + z * pushLen o) + z * travel os) ≤ growth (o :: os) * (S + z * travel (o :: os)) := by
      rw [gr, tr]
      have zt : 0 ≤ z * travel os := by rcases hz with rfl | rfl <;> simp [tn]
      have : z * travel os ≤ stretch o * (z * travel os) := by nlinarith
      have := mul_le_mul_of_nonneg_left this gn
      nlinarith
    rw [List.foldl_cons, List.foldl_cons]
    refine ⟨r1.trans ?_, r2.trans fin⟩
    rw [List.length_cons, show k + 1 + os.length = k + (os.length + 1) by ring]
    exact mul_le_mul_of_nonneg_left fin (by positivity)

/-- The image of a point from the images of the columns. -/
theorem sentBy_cols (os : List Trans) (x y : ℝ) : ∀ a b c : Pt ℝ,
    sentBy os (x * a.1 + y * b.1 + c.1, x * a.2 + y * b.2 + c.2) =
      (x * (os.foldl (fun q o => colSent 0 o q) a).1 + y * (os.foldl (fun q o => colSent 0 o q) b).1 + (os.foldl (fun q o => colSent 1 o q) c).1,
       x * (os.foldl (fun q o => colSent 0 o q) a).2 + y * (os.foldl (fun q o => colSent 0 o q) b).2 + (os.foldl (fun q o => colSent 1 o q) c).2) := by
  induction os with
  | nil => exact fun a b c => rfl
  | cons o os ih =>
    intro a b c
    have := ih (colSent 0 o a) (colSent 0 o b) (colSent 1 o c)
    simp only [List.foldl_cons]
    rw [← this]
    unfold sentBy
    rw [List.foldl_cons]
    congr 1
    cases o <;> simp only [sentTo, colSent] <;> ext <;> simp <;> ring

end H2d.Fl

namespace H2d.Fl
open H2d.Spec

variable {F : Arith} {u v w : ℝ} {co si : ℝ → ℝ}

theorem ptImage_aff (h : FlOk F u v) (h1 : Rep F 1) {m : Mat ℝ} (hm : AffRep F m) (p : Pt ℝ) :
    ptImage F m p = (F.rnd (F.rnd (F.rnd (m 0 0 * p.1) + F.rnd (m 0 1 * p.2)) + m 0 2), F.rnd (F.rnd (F.rnd (m 1 0 * p.1) + F.rnd (m 1 1 * p.2)) + m 1 2)) := by
  have e0 := rnd_zero h
  have e1 : F.rnd 1 = 1 := h1
  have em : ∀ i j, F.rnd (m i j) = m i j := hm.rep
  have e2 : app F m (mkPt p.1 p.2) 2 = 1 := by simp [app, mkPt, hm.r0, hm.r1, hm.r2, e0, e1]
  unfold ptImage getXY
  rw [e2, div_one, div_one]
  simp [app, mkPt, em, h.idem]

/-- One coordinate of the image of a point. -/
theorem imgCoord_err (h : FlOk F u v) {a b c x y S : ℝ} (hs : |a * x| + |b * y| + |c| ≤ S) :
    |F.rnd (F.rnd (F.rnd (a * x) + F.rnd (b * y)) + c) - (a * x + b * y + c)| ≤ 16 / 5 * u * S := by
  have hu := h.u_nonneg
  have hu1 := h.u_small
  have a1 := h.err (a * x)
  have a2 := h.err (b * y)
  have a3 := rnd_abs_le h (a * x)
  have a4 := rnd_abs_le h (b * y)
  generalize F.rnd (a * x) = X at *
  generalize F.rnd (b * y) = Y at *
  have b1 := h.err (X + Y)
  have b2 := rnd_abs_le h (X + Y)
  generalize F.rnd (X + Y) = Z at *
  have c1 := h.err (Z + c)
  have b3 := abs_add_le X Y
  have c2 := abs_add_le Z c
  have t := abs_add_le (F.rnd (Z + c) - (Z + c)) (Z - (X + Y))
  have t2 := abs_add_le (F.rnd (Z + c) - (Z + c) + (Z - (X + Y))) (X - a * x)
  have t3 := abs_add_le (F.rnd (Z + c) - (Z + c) + (Z - (X + Y)) + (X - a * x)) (Y - b * y)
  rw [show F.rnd (Z + c) - (Z + c) + (Z - (X + Y)) + (X - a * x) + (Y - b * y) = F.rnd (Z + c) - (a * x + b * y + c) by ring] at t3
  have p0 := abs_nonneg (a * x)
  have q0 := abs_nonneg (b * y)
  have r0 := abs_nonneg c
  generalize |a * x| = P at *
  generalize |b * y| = Q at *
  generalize |c| = R at *
  have i1 : |X + Y| ≤ 65 / 64 * (P + Q) := by nlinarith
  have i2 : |Z| ≤ 65 / 64 * (65 / 64 * (P + Q)) := b2.trans (mul_le_mul (by linarith) i1 (abs_nonneg _) (by norm_num))
  have j1 := mul_le_mul_of_nonneg_left i1 hu
  have j2 : u * |Z + c| ≤ u * (65 / 64 * (65 / 64 * (P + Q)) + R) := mul_le_mul_of_nonneg_left (by linarith) hu
  have j3 := mul_le_mul_of_nonneg_left hs hu
  have : 0 ≤ u * P := mul_nonneg hu p0
  have : 0 ≤ u * Q := mul_nonneg hu q0
  have : 0 ≤ u * R := mul_nonneg hu r0
  linarith

/-- The image of a point by a computed history. -/
theorem addAll_points (h : FlOk F u v) (h1 : Rep F 1) (hw : TrigOk co si w) {t : Thr ℝ} (ht : t.nullDenom ≤ 1) (os : List Trans) (hn : 100 * (os.length : ℝ) * (u + w) ≤ 1) :
    ∃ m, addAll F co si t Mat.eye os = .ok m ∧ AffRep F m ∧
      ∀ p, eucl (ptImage F m p) (sentBy os p) ≤ (10 * os.length + 6) * (u + w) * (growth os * (|p.1| + |p.2| + travel os)) := by
  obtain ⟨m, e, hm, cols⟩ := addAll_eq (co := co) (si := si) h h1 ht os (eye_aff h h1)
  refine ⟨m, e, hm, fun p => ?_⟩
  have hu := h.u_nonneg
  have hw0 := hw.w_nonneg
  have r0 : Rep F 0 := rnd_zero h
  have z0 : ((0 : ℝ) = 0 ∨ (0 : ℝ) = 1) := Or.inl rfl
  have z1 : ((1 : ℝ) = 0 ∨ (1 : ℝ) = 1) := Or.inr rfl
  have self : ∀ q : Pt ℝ, eucl q q = 0 := fun q => by simp [eucl]
  have hn' : 100 * ((0 + os.length : ℕ) : ℝ) * (u + w) ≤ 1 := by rw [zero_add]; exact hn
  obtain ⟨a1, a2⟩ := colRun_err h hw z0 os 0 1 (1, 0) (1, 0) ⟨h1, r0⟩ (by simp [eucl]) (by rw [self]; simp) hn'
  obtain ⟨b1, b2⟩ := colRun_err h hw z0 os 0 1 (0, 1) (0, 1) ⟨r0, h1⟩ (by simp [eucl]) (by rw [self]; simp) hn'
  obtain ⟨c1, c2⟩ := colRun_err h hw z1 os 0 0 (0, 0) (0, 0) ⟨r0, r0⟩ (by simp [eucl]) (by rw [self]; simp) hn'
  have k0 := cols 0
  have k1 := cols 1
  have k2 := cols 2
  simp only [Mat.eye, Matrix.cons_val] at k0 k1 k2
  rw [← k0] at a1
  rw [← k1] at b1
  rw [← k2] at c1
  have s := sentBy_cols os p.1 p.2 (1, 0) (0, 1) (0, 0)
  simp only [mul_one, mul_zero, add_zero, zero_add, Prod.mk.eta] at s
  rw [s, ptImage_aff h h1 hm]
  generalize os.foldl (fun q o => colSent 0 o q) (1, 0) = A at *
  generalize os.foldl (fun q o => colSent 0 o q) (0, 1) = B at *
  generalize os.foldl (fun q o => colSent 1 o q) (0, 0) = C at *
  rw [zero_mul, add_zero, mul_one] at a1 a2 b1 b2
  rw [zero_add, one_mul] at c1 c2
  rw [zero_add] at a1 b1 c1
  have g0 : 0 ≤ growth os := le_trans (Real.sqrt_nonneg _) a2
  have gt : 0 ≤ growth os * travel os := le_trans (Real.sqrt_nonneg _) c2
  have kk : 10 * (os.length : ℝ) * (u + w) ≤ 1 / 10 := by linarith
  have ka := mul_le_mul_of_nonneg_right kk g0
  have kc := mul_le_mul_of_nonneg_right kk gt
  -- sizes of the stored values
  have sa : eucl (m 0 0, m 1 0) (0, 0) ≤ 11 / 10 * growth os := by linarith [eucl_triangle (m 0 0, m 1 0) A (0, 0)]
  have sb : eucl (m 0 1, m 1 1) (0, 0) ≤ 11 / 10 * growth os := by linarith [eucl_triangle (m 0 1, m 1 1) B (0, 0)]
  have sc : eucl (m 0 2, m 1 2) (0, 0) ≤ 11 / 10 * (growth os * travel os) := by linarith [eucl_triangle (m 0 2, m 1 2) C (0, 0)]
  have x0 := abs_nonneg p.1
  have y0 := abs_nonneg p.2
  have coord : ∀ i : Fin 3, |m i 0| ≤ 11 / 10 * growth os → |m i 1| ≤ 11 / 10 * growth os → |m i 2| ≤ 11 / 10 * (growth os * travel os) →
      |m i 0 * p.1| + |m i 1 * p.2| + |m i 2| ≤ 11 / 10 * (growth os * (|p.1| + |p.2| + travel os)) := by
    intro i q1 q2 q3
    rw [abs_mul, abs_mul]
    have := mul_le_mul_of_nonneg_right q1 x0
    have := mul_le_mul_of_nonneg_right q2 y0
    linarith
  have i0 := imgCoord_err h (coord 0 ((fst_le_len (m 0 0, m 1 0)).trans sa) ((fst_le_len (m 0 1, m 1 1)).trans sb) ((fst_le_len (m 0 2, m 1 2)).trans sc))
  have i1 := imgCoord_err h (coord 1 ((snd_le_len (m 0 0, m 1 0)).trans sa) ((snd_le_len (m 0 1, m 1 1)).trans sb) ((snd_le_len (m 0 2, m 1 2)).trans sc))
  have rd := eucl_le_max (p := (F.rnd (F.rnd (F.rnd (m 0 0 * p.1) + F.rnd (m 0 1 * p.2)) + m 0 2), F.rnd (F.rnd (F.rnd (m 1 0 * p.1) + F.rnd (m 1 1 * p.2)) + m 1 2)))
    (q := (m 0 0 * p.1 + m 0 1 * p.2 + m 0 2, m 1 0 * p.1 + m 1 1 * p.2 + m 1 2)) i0 i1
  have sm : ∀ (k : ℝ) (P Q : Pt ℝ), eucl (k * P.1, k * P.2) (k * Q.1, k * Q.2) = |k| * eucl P Q := by
    intro k P Q
    unfold eucl
    rw [← Real.sqrt_sq_eq_abs, ← Real.sqrt_mul (sq_nonneg _)]
    congr 1; ring
  have ad : ∀ P Q P' Q' : Pt ℝ, eucl (P.1 + Q.1, P.2 + Q.2) (P'.1 + Q'.1, P'.2 + Q'.2) ≤ eucl P P' + eucl Q Q' := by
    intro P Q P' Q'
    have h1 := eucl_triangle (P.1 + Q.1, P.2 + Q.2) (P'.1 + Q.1, P'.2 + Q.2) (P'.1 + Q'.1, P'.2 + Q'.2)
    have h2 : eucl (P.1 + Q.1, P.2 + Q.2) (P'.1 + Q.1, P'.2 + Q.2) = eucl P P' := by unfold eucl; congr 1; simp only; ring
    have h3 : eucl (P'.1 + Q.1, P'.2 + Q.2) (P'.1 + Q'.1, P'.2 + Q'.2) = eucl Q Q' := by unfold eucl; congr 1; simp only; ring
    linarith
  have l1 := ad (p.1 * m 0 0 + p.2 * m 0 1, p.1 * m 1 0 + p.2 * m 1 1) (m 0 2, m 1 2) (p.1 * A.1 + p.2 * B.1, p.1 * A.2 + p.2 * B.2) C
  have l2 := ad (p.1 * m 0 0, p.1 * m 1 0) (p.2 * m 0 1, p.2 * m 1 1) (p.1 * A.1, p.1 * A.2) (p.2 * B.1, p.2 * B.2)
  have l3 := sm p.1 (m 0 0, m 1 0) A
  have l4 := sm p.2 (m 0 1, m 1 1) B
  simp only at l1 l2 l3 l4
  rw [l3, l4] at l2
  have l5 := mul_le_mul_of_nonneg_left a1 x0
  have l6 := mul_le_mul_of_nonneg_left b1 y0
  have tri := eucl_triangle (F.rnd (F.rnd (F.rnd (m 0 0 * p.1) + F.rnd (m 0 1 * p.2)) + m 0 2), F.rnd (F.rnd (F.rnd (m 1 0 * p.1) + F.rnd (m 1 1 * p.2)) + m 1 2))
    (m 0 0 * p.1 + m 0 1 * p.2 + m 0 2, m 1 0 * p.1 + m 1 1 * p.2 + m 1 2) (p.1 * A.1 + p.2 * B.1 + C.1, p.1 * A.2 + p.2 * B.2 + C.2)
  rw [show (m 0 0 * p.1 + m 0 1 * p.2 + m 0 2, m 1 0 * p.1 + m 1 1 * p.2 + m 1 2) = (p.1 * m 0 0 + p.2 * m 0 1 + m 0 2, p.1 * m 1 0 + p.2 * m 1 1 + m 1 2) by ext <;> simp only <;> ring] at tri rd
  have W0 : 0 ≤ w * (growth os * (|p.1| + |p.2|) + growth os * travel os) := by positivity
  have U0 : 0 ≤ u * (growth os * (|p.1| + |p.2|) + growth os * travel os) := by positivity
  nlinarith

end H2d.Fl

namespace H2d.Fl
open H2d.Spec

variable {F : Arith} {u v w : ℝ} {co si : ℝ → ℝ}

/-- Translations keep the first two columns. -/
theorem colRun_translations (h : FlOk F u v) (os : List Trans) (ho : ∀ o ∈ os, ∃ tx ty, o = .translation tx ty) : ∀ q : Pt ℝ, Rep F q.1 ∧ Rep F q.2 →
    os.foldl (fun q o => colStep F co si 0 o q) q = q := by
  induction os with
  | nil => exact fun q _ => rfl
  | cons o os ih =>
    intro q hq
    obtain ⟨tx, ty, rfl⟩ := ho o (List.mem_cons_self ..)
    have e : colStep F co si 0 (.translation tx ty) q = q := by
      simp only [colStep, mul_zero, rnd_zero h, add_zero]
      rw [hq.1, hq.2]
    rw [List.foldl_cons, e]
    exact ih (fun o' ho' => ho o' (List.mem_cons_of_mem _ ho')) q hq

/-- Exact translations. -/
theorem colRun_exact (os : List Trans) (ho : ∀ o ∈ os, ∃ tx ty, o = .translation tx ty ∧ Rep F tx ∧ Rep F ty) : ∀ q : Pt ℝ,
    (∀ pre, pre <+: os → Rep F (sentBy pre q).1 ∧ Rep F (sentBy pre q).2) → os.foldl (fun q o => colStep F co si 1 o q) q = sentBy os q := by
  induction os with
  | nil => exact fun q _ => rfl
  | cons o os ih =>
    intro q hq
    obtain ⟨tx, ty, rfl, hx, hy⟩ := ho o (List.mem_cons_self ..)
    obtain ⟨r1, r2⟩ := hq [.translation tx ty] (by simp)
    have e : colStep F co si 1 (.translation tx ty) q = sentTo (.translation tx ty) q := by
      simp only [colStep, mul_one, sentTo]
      rw [hx, hx, hy, hy]
      exact Prod.ext r1 r2
    rw [List.foldl_cons, e]
    exact ih (fun o' ho' => ho o' (List.mem_cons_of_mem _ ho')) _ (fun pre hp => hq (.translation tx ty :: pre) (by simpa using hp))

/-- Without scaling, distances are kept. -/
theorem rigid_sent (os : List Trans) (hr : ∀ o ∈ os, ∀ kx ky, o ≠ .scale kx ky) : growth os = 1 ∧ ∀ p q, eucl (sentBy os p) (sentBy os q) = eucl p q := by
  induction os with
  | nil => exact ⟨by simp [growth], fun p q => rfl⟩
  | cons o os ih =>
    obtain ⟨g, is⟩ := ih fun o' ho' => hr o' (List.mem_cons_of_mem _ ho')
    have ho := hr o (List.mem_cons_self ..)
    have st : stretch o = 1 := by
      cases o with
      | scale kx ky => exact absurd rfl (ho kx ky)
      | _ => rfl
    refine ⟨by simp only [growth, List.map_cons, List.prod_cons, st, one_mul]; exact g, fun p q => ?_⟩
    have e : ∀ x, sentBy (o :: os) x = sentBy os (sentTo o x) := fun x => rfl
    rw [e, e, is]
    cases o with
    | scale kx ky => exact absurd rfl (ho kx ky)
    | translation tx ty => simp [sentTo, eucl]
    | rotation a => exact rot_isom (w := 0) a p q

theorem big_add_one {p : ℕ} (hp : 1 ≤ p) : (binary p).rnd (1 + 2 ^ (p + 1)) = 2 ^ (p + 1) := by
  have e1 : (2 : ℝ) ^ ((p : ℤ) - 1 + 2) = 2 ^ (p + 1) := by rw [show (p : ℤ) - 1 + 2 = ((p + 1 : ℕ) : ℤ) by push_cast; ring, zpow_natCast]
  have e2 : (2 : ℝ) ^ ((p : ℤ) + 2) = 2 * 2 ^ (p + 1) := by rw [show (p : ℤ) + 2 = ((p + 1 + 1 : ℕ) : ℤ) by push_cast; ring, zpow_natCast, pow_succ]; ring
  have e3 : (2 : ℝ) ^ (p + 1) = 4 * 2 ^ (p - 1) := by rw [show p + 1 = p - 1 + 2 by omega, pow_add]; ring
  have e4 : (1 : ℝ) ≤ 2 ^ (p - 1) := one_le_pow₀ (by norm_num)
  have : roundTo p (1 + 2 ^ (p + 1)) = ((2 ^ (p - 1) : ℤ) : ℝ) * (2 : ℝ) ^ (2 : ℤ) := by
    apply roundTo_of hp
    · rw [e1]; linarith
    · rw [e2, e3]; linarith
    · rw [e3]; push_cast
      rw [show ((1 : ℝ) + 4 * 2 ^ (p - 1)) * 2 ^ (-(2 : ℤ)) - 2 ^ (p - 1) = 1 / 4 by
        rw [show (2 : ℝ) ^ (-(2 : ℤ)) = 1 / 4 by norm_num]; ring]
      norm_num [abs_lt]
  rw [binary_rnd, this, e3]; push_cast; norm_num; ring

end H2d.Fl
