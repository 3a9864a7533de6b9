import Verif.Model.FloatInter
import Verif.Lemmas.FloatErr
import Verif.Lemmas.FloatExact
import Verif.Lemmas.Segment

/-! # Distance to a segment with rounded operations -/

namespace H2d.Fl

open H2d.Spec

variable {F : Arith} {u v : ℝ}

theorem pow4_le (h : FlOk F u v) : (1 + u) ^ 4 - 1 ≤ 33 / 8 * u := by
  have h1 := h.u_nonneg
  have h2 := h.u_small
  nlinarith [mul_nonneg h1 h1, mul_nonneg (mul_nonneg h1 h1) h1, mul_nonneg (mul_nonneg h1 h1) (sub_nonneg.2 h2), mul_nonneg (mul_nonneg (mul_nonneg h1 h1) h1) (sub_nonneg.2 h2), mul_nonneg h1 (sub_nonneg.2 h2)]

/-- Square root of a number near a square. -/
theorem sqrt_of_near {x y e : ℝ} (hy : 0 ≤ y) (hx : 0 ≤ x) (h : |x - y ^ 2| ≤ e * y ^ 2) : |Real.sqrt x - y| ≤ e * y := by
  rcases hy.eq_or_lt with rfl | hy
  · have : x = 0 := by simpa using h
    rw [this]; simp
  · have h1 : (Real.sqrt x - y) * (Real.sqrt x + y) = x - y ^ 2 := by
      have := Real.sq_sqrt hx
      nlinarith
    have h2 : |Real.sqrt x - y| * (Real.sqrt x + y) ≤ e * y ^ 2 := by
      rw [← abs_of_nonneg (by positivity : 0 ≤ Real.sqrt x + y), ← abs_mul, h1]; exact h
    have h3 : |Real.sqrt x - y| * y ≤ |Real.sqrt x - y| * (Real.sqrt x + y) := mul_le_mul_of_nonneg_left (by linarith [Real.sqrt_nonneg x]) (abs_nonneg _)
    have h4 : |Real.sqrt x - y| * y ≤ e * y * y := by linarith
    exact le_of_mul_le_mul_right h4 hy

/-- Computed distance by `sqrt( dx*dx + dy*dy )`. -/
theorem sqrtDist_err (h : FlOk F u v) (p q : Pt ℝ) : ∃ d, sqrtF F (sqDist F p q) = some d ∧ 0 ≤ d ∧ |d - eucl p q| ≤ 21 / 4 * u * eucl p q := by
  have hu := h.u_nonneg
  have hu1 := h.u_small
  have h1 := sqDist_err h p q
  have h4 := pow4_le h
  have he := eucl_nonneg p q
  have hx : 0 ≤ sqDist F p q := rnd_nonneg h (add_nonneg (rnd_nonneg h (mul_self_nonneg _)) (rnd_nonneg h (mul_self_nonneg _)))
  refine ⟨F.rnd (Real.sqrt (sqDist F p q)), if_neg (not_lt.2 hx), rnd_nonneg h (Real.sqrt_nonneg _), ?_⟩
  have h2 := rnd_near h (sqrt_of_near he hx h1) (le_of_eq (abs_of_nonneg he))
  refine h2.trans (mul_le_mul_of_nonneg_right ?_ he)
  nlinarith [mul_nonneg hu (sub_nonneg.2 hu1)]

theorem dot2_err (h : FlOk F u v) (a b c d : ℝ) :
    |F.rnd (F.rnd (F.rnd a * F.rnd b) + F.rnd (F.rnd c * F.rnd d)) - (a * b + c * d)| ≤ ((1 + u) ^ 4 - 1) * (|a * b| + |c * d|) := by
  have := cross_err h a b (-c) d
  rw [h.odd, neg_mul, h.odd, sub_neg_eq_add, neg_mul, sub_neg_eq_add, abs_neg] at this
  exact this

theorem abs_dot_le (a b c d : ℝ) : |a * b| + |c * d| ≤ Real.sqrt (a ^ 2 + c ^ 2) * Real.sqrt (b ^ 2 + d ^ 2) := by
  rw [← Real.sqrt_mul (by positivity)]
  apply Real.le_sqrt_of_sq_le
  rw [abs_mul, abs_mul]
  have h1 := sq_abs a
  have h2 := sq_abs b
  have h3 := sq_abs c
  have h4 := sq_abs d
  nlinarith [sq_nonneg (|a| * |d| - |b| * |c|)]

/-- The parameter of the projection. -/
theorem param_err (h : FlOk F u v) {s1 s2 : Pt ℝ} (hs : s1 ≠ s2) (p : Pt ℝ) :
    ∃ k, divF F (F.rnd (F.rnd (F.rnd (p.1 - s1.1) * F.rnd (s2.1 - s1.1)) + F.rnd (F.rnd (p.2 - s1.2) * F.rnd (s2.2 - s1.2))))
        (norm2 F (F.rnd (s2.1 - s1.1)) (F.rnd (s2.2 - s1.2))) = some k ∧
      |k - ((p.1 - s1.1) * (s2.1 - s1.1) + (p.2 - s1.2) * (s2.2 - s1.2)) / eucl s1 s2 ^ 2| ≤ 11 * u * (eucl p s1 / eucl s1 s2) := by
  have hu := h.u_nonneg
  have hu1 := h.u_small
  have hL : 0 < eucl s1 s2 := lt_of_le_of_ne (eucl_nonneg _ _) (fun e => hs (eucl_eq_zero.1 e.symm))
  have hn := sqDist_err h s2 s1
  have hd := dot2_err h (p.1 - s1.1) (s2.1 - s1.1) (p.2 - s1.2) (s2.2 - s1.2)
  have hc := abs_dot_le (p.1 - s1.1) (s2.1 - s1.1) (p.2 - s1.2) (s2.2 - s1.2)
  rw [show Real.sqrt ((p.1 - s1.1) ^ 2 + (p.2 - s1.2) ^ 2) = eucl p s1 from rfl, show Real.sqrt ((s2.1 - s1.1) ^ 2 + (s2.2 - s1.2) ^ 2) = eucl s2 s1 from rfl] at hc
  rw [eucl_comm s2 s1] at hn hc
  have h4 := pow4_le h
  have h40 : 0 ≤ (1 + u) ^ 4 - 1 := by nlinarith [mul_nonneg hu hu, mul_nonneg (mul_nonneg hu hu) hu, mul_nonneg (mul_nonneg hu hu) (mul_nonneg hu hu)]
  generalize (1 + u) ^ 4 - 1 = e at *
  change |norm2 F (F.rnd (s2.1 - s1.1)) (F.rnd (s2.2 - s1.2)) - _| ≤ _ at hn
  have hP := eucl_nonneg p s1
  have habs := abs_add_le ((p.1 - s1.1) * (s2.1 - s1.1)) ((p.2 - s1.2) * (s2.2 - s1.2))
  generalize eucl s1 s2 = L at *
  generalize eucl p s1 = P at *
  generalize norm2 F (F.rnd (s2.1 - s1.1)) (F.rnd (s2.2 - s1.2)) = n at *
  generalize F.rnd (F.rnd (F.rnd (p.1 - s1.1) * F.rnd (s2.1 - s1.1)) + F.rnd (F.rnd (p.2 - s1.2) * F.rnd (s2.2 - s1.2))) = d' at *
  generalize hgd : (p.1 - s1.1) * (s2.1 - s1.1) + (p.2 - s1.2) * (s2.2 - s1.2) = d at *
  have hd1 : |d' - d| ≤ e * (P * L) := hd.trans (mul_le_mul_of_nonneg_left hc h40)
  have hd2 : |d| ≤ P * L := habs.trans hc
  have hn' := abs_le.1 hn
  have hL2 : 0 < L ^ 2 := by positivity
  have he1 : e ≤ 1 / 15 := by linarith
  have hn0 : (1 - e) * L ^ 2 ≤ n := by linarith [hn'.1]
  have hnp : 0 < n := lt_of_lt_of_le (mul_pos (by linarith) hL2) hn0
  refine ⟨F.rnd (d' / n), if_neg hnp.ne', ?_⟩
  have k : |d' / n - d / L ^ 2| ≤ (2 * e / (1 - e)) * (P / L) := by
    rw [show d' / n - d / L ^ 2 = ((d' - d) * L ^ 2 - d * (n - L ^ 2)) / (n * L ^ 2) by field_simp; ring, abs_div, abs_of_pos (mul_pos hnp hL2), div_le_iff₀ (mul_pos hnp hL2)]
    have b : |(d' - d) * L ^ 2 - d * (n - L ^ 2)| ≤ e * (P * L) * L ^ 2 + P * L * (e * L ^ 2) := by
      refine (abs_sub _ _).trans ?_
      rw [abs_mul, abs_mul, abs_of_pos hL2]
      exact add_le_add (mul_le_mul_of_nonneg_right hd1 hL2.le) (mul_le_mul hd2 hn (abs_nonneg _) (by positivity))
    refine b.trans ?_
    have h1e : 0 < 1 - e := by linarith
    have : 2 * e / (1 - e) * (P / L) * (((1 - e) * L ^ 2) * L ^ 2) ≤ 2 * e / (1 - e) * (P / L) * (n * L ^ 2) :=
      mul_le_mul_of_nonneg_left (mul_le_mul_of_nonneg_right hn0 hL2.le) (by positivity)
    refine le_trans (le_of_eq ?_) this
    field_simp; ring
  have hy : |d / L ^ 2| ≤ P / L := by
    rw [abs_div, abs_of_pos hL2, div_le_div_iff₀ hL2 hL]
    nlinarith
  have := rnd_near h k hy
  refine this.trans (mul_le_mul_of_nonneg_right ?_ (by positivity))
  have h1e : 0 < 1 - e := by linarith
  have : 2 * e / (1 - e) ≤ 9 * u := by
    rw [div_le_iff₀ h1e]; nlinarith
  nlinarith [mul_nonneg hu (sub_nonneg.2 hu1)]

/-- A coordinate of the projection. -/
theorem coord_err (h : FlOk F u v) {a b k M : ℝ} (ha : |a| ≤ M) (hb : |b| ≤ M) (hk0 : 0 ≤ k) (hk1 : k ≤ 1) :
    |F.rnd (a + F.rnd (k * F.rnd (b - a))) - (a + k * (b - a))| ≤ 11 / 2 * u * M := by
  have hu := h.u_nonneg
  have hu1 := h.u_small
  have hM : 0 ≤ M := (abs_nonneg _).trans ha
  have hd : |b - a| ≤ 2 * M := by have := abs_sub b a; linarith
  have e1 := h.err (b - a)
  have e1' : |F.rnd (b - a) - (b - a)| ≤ 2 * u * M := e1.trans (by nlinarith)
  have e2 : |k * F.rnd (b - a) - k * (b - a)| ≤ 2 * u * M := by
    rw [← mul_sub, abs_mul, abs_of_nonneg hk0]
    nlinarith [abs_nonneg (F.rnd (b - a) - (b - a))]
  have e3 : |k * F.rnd (b - a)| ≤ 2 * M + 2 * u * M := by
    have h1 : |k * (b - a)| ≤ 2 * M := by rw [abs_mul, abs_of_nonneg hk0]; nlinarith [abs_nonneg (b - a)]
    have := abs_add_le (k * F.rnd (b - a) - k * (b - a)) (k * (b - a))
    rw [sub_add_cancel] at this; linarith
  have e4 := (h.err (k * F.rnd (b - a))).trans (mul_le_mul_of_nonneg_left e3 hu)
  have e5 : |a + F.rnd (k * F.rnd (b - a)) - (a + k * (b - a))| ≤ u * (4 * M + 2 * u * M) := by
    rw [show a + F.rnd (k * F.rnd (b - a)) - (a + k * (b - a)) = (F.rnd (k * F.rnd (b - a)) - k * F.rnd (b - a)) + (k * F.rnd (b - a) - k * (b - a)) by ring]
    refine (abs_add_le _ _).trans ?_
    linarith
  have e6 : |a + k * (b - a)| ≤ M := by
    rw [abs_le] at *
    constructor <;> nlinarith
  have e7 : |a + F.rnd (k * F.rnd (b - a))| ≤ M + u * (4 * M + 2 * u * M) := by
    have := abs_add_le (a + F.rnd (k * F.rnd (b - a)) - (a + k * (b - a))) (a + k * (b - a))
    rw [sub_add_cancel] at this; linarith
  have e8 := (h.err (a + F.rnd (k * F.rnd (b - a)))).trans (mul_le_mul_of_nonneg_left e7 hu)
  have e9 := abs_add_le (F.rnd (a + F.rnd (k * F.rnd (b - a))) - (a + F.rnd (k * F.rnd (b - a)))) (a + F.rnd (k * F.rnd (b - a)) - (a + k * (b - a)))
  rw [sub_add_sub_cancel] at e9
  have uM : 0 ≤ u * M := mul_nonneg hu hM
  have uuM : u * (u * M) ≤ 1 / 64 * (u * M) := mul_le_mul_of_nonneg_right hu1 uM
  have uuuM : u * (u * (u * M)) ≤ 1 / 64 * (u * M) := by nlinarith
  nlinarith

theorem eucl_le_abs (p q : Pt ℝ) : eucl p q ≤ |p.1 - q.1| + |p.2 - q.2| := by
  apply Real.sqrt_le_iff.2
  refine ⟨by positivity, ?_⟩
  have h1 := sq_abs (p.1 - q.1)
  have h2 := sq_abs (p.2 - q.2)
  nlinarith [mul_nonneg (abs_nonneg (p.1 - q.1)) (abs_nonneg (p.2 - q.2))]

theorem eucl_le_3M {p q : Pt ℝ} {M : ℝ} (hp : |p.1| ≤ M ∧ |p.2| ≤ M) (hq : |q.1| ≤ M ∧ |q.2| ≤ M) : eucl p q ≤ 3 * M := by
  have hM : 0 ≤ M := (abs_nonneg _).trans hp.1
  apply Real.sqrt_le_iff.2
  refine ⟨by positivity, ?_⟩
  simp only [abs_le] at hp hq
  have h1 : (p.1 - q.1) ^ 2 ≤ (2 * M) ^ 2 := sq_le_sq' (by linarith) (by linarith)
  have h2 : (p.2 - q.2) ^ 2 ≤ (2 * M) ^ 2 := sq_le_sq' (by linarith) (by linarith)
  nlinarith

/-- The parameter brought back between 0 and 1. -/
noncomputable def clamp (k : ℝ) : ℝ := max 0 (min 1 k)

theorem clamp_lip (j k : ℝ) : |clamp j - clamp k| ≤ |j - k| := by
  unfold clamp
  refine (abs_max_sub_max_le_max 0 (min 1 j) 0 (min 1 k)).trans ?_
  rw [sub_self, abs_zero, max_eq_right (abs_nonneg _)]
  refine (abs_min_sub_min_le_max 1 j 1 k).trans ?_
  rw [sub_self, abs_zero, max_eq_right (abs_nonneg _)]

/-- The exact distance, with the parameter. -/
theorem segDistTo_clamp {s1 s2 : Pt ℝ} (p : Pt ℝ) :
    (H2d.segDistTo (s1, s2) p).1 = eucl p (along (s1, s2) (clamp (((p.1 - s1.1) * (s2.1 - s1.1) + (p.2 - s1.2) * (s2.2 - s1.2)) / eucl s1 s2 ^ 2))) := by
  have hres : ∀ a : Pt ℝ, Real.sqrt ((p.1 - a.1) * (p.1 - a.1) + (p.2 - a.2) * (p.2 - a.2)) = eucl p a := by
    intro a; rw [← ptDist_eucl]; rfl
  unfold H2d.segDistTo
  simp only [hres]
  rw [show (s2.1 - s1.1) * (s2.1 - s1.1) + (s2.2 - s1.2) * (s2.2 - s1.2) = eucl s1 s2 ^ 2 by rw [eucl_sq]; ring]
  generalize ((p.1 - s1.1) * (s2.1 - s1.1) + (p.2 - s1.2) * (s2.2 - s1.2)) / eucl s1 s2 ^ 2 = k
  unfold clamp
  split_ifs with h0 h1
  · rw [max_eq_left (by rw [min_eq_right (by linarith)]; exact h0.le)]; simp [along]
  · rw [min_eq_left h1.le]; simp [along]
  · rw [min_eq_right (not_lt.1 h1), max_eq_right (not_lt.1 h0)]; simp [along]

theorem segDist_main (h : FlOk F u v) {s1 s2 p : Pt ℝ} {M : ℝ} (hs : s1 ≠ s2) (h1 : |s1.1| ≤ M ∧ |s1.2| ≤ M) (h2 : |s2.1| ≤ M ∧ |s2.2| ≤ M) (hp : |p.1| ≤ M ∧ |p.2| ≤ M) :
    ∃ d k c, Fl.segDistTo F s1 s2 p = some (d, c) ∧ (c = -1 ↔ k < 0) ∧ (c = 1 ↔ 1 < k) ∧ (c = -1 ∨ c = 0 ∨ c = 1) ∧ 0 ≤ d ∧
      |d - (H2d.segDistTo (s1, s2) p).1| ≤ 72 * u * M ∧
      |k - ((p.1 - s1.1) * (s2.1 - s1.1) + (p.2 - s1.2) * (s2.2 - s1.2)) / eucl s1 s2 ^ 2| ≤ 11 * u * (eucl p s1 / eucl s1 s2) := by
  have hu := h.u_nonneg
  have hu1 := h.u_small
  have hM : 0 ≤ M := (abs_nonneg _).trans h1.1
  have hL : 0 < eucl s1 s2 := lt_of_le_of_ne (eucl_nonneg _ _) (fun e => hs (eucl_eq_zero.1 e.symm))
  obtain ⟨k, ek, hk⟩ := param_err h hs p
  set t := ((p.1 - s1.1) * (s2.1 - s1.1) + (p.2 - s1.2) * (s2.2 - s1.2)) / eucl s1 s2 ^ 2 with ht
  set r : Int × Pt ℝ := if k < 0 then (-1, s1) else if k > 1 then (1, s2)
    else (0, (F.rnd (s1.1 + F.rnd (k * F.rnd (s2.1 - s1.1))), F.rnd (s1.2 + F.rnd (k * F.rnd (s2.2 - s1.2))))) with hr
  obtain ⟨d, ed, hd0, hd⟩ := sqrtDist_err h p r.2
  refine ⟨d, k, r.1, ?_, ?_, ?_, ?_, hd0, ?_, hk⟩
  · unfold Fl.segDistTo
    simp only [ek, Option.bind_eq_bind, Option.bind_some]
    rw [← hr]
    change (sqrtF F (sqDist F p r.2)).bind _ = _
    rw [ed]
    rfl
  · rw [hr]; split_ifs with a b <;> simp [a]
  · rw [hr]; split_ifs with a b
    · simp; linarith
    · simp; exact b
    · simp; linarith
  · rw [hr]; split_ifs <;> simp
  · rw [segDistTo_clamp, ← ht]
    have near : eucl r.2 (along (s1, s2) (clamp k)) ≤ 11 * u * M := by
      have h0 : 0 ≤ 11 * u * M := by positivity
      rw [hr]
      split_ifs with a b
      · have : along (s1, s2) (clamp k) = s1 := by
          unfold clamp; rw [max_eq_left (by rw [min_eq_right (by linarith)]; exact a.le)]; simp [along]
        simp only [this, eucl_self]; exact h0
      · have : along (s1, s2) (clamp k) = s2 := by
          unfold clamp; rw [min_eq_left b.le]; simp [along]
        simp only [this, eucl_self]; exact h0
      · have : clamp k = k := by unfold clamp; rw [min_eq_right (not_lt.1 b), max_eq_right (not_lt.1 a)]
        rw [this]
        refine (eucl_le_abs _ _).trans ?_
        have c1 := coord_err h h1.1 h2.1 (not_lt.1 a) (not_lt.1 b)
        have c2 := coord_err h h1.2 h2.2 (not_lt.1 a) (not_lt.1 b)
        simp only [along]
        linarith
    have lip : eucl (along (s1, s2) (clamp k)) (along (s1, s2) (clamp t)) ≤ 33 * u * M := by
      rw [eucl_along]
      have := (clamp_lip k t).trans hk
      have h3 := eucl_le_3M hp h1
      have e1 : |clamp k - clamp t| * eucl s1 s2 ≤ 11 * u * (eucl p s1 / eucl s1 s2) * eucl s1 s2 := mul_le_mul_of_nonneg_right this hL.le
      rw [mul_assoc, div_mul_cancel₀ _ hL.ne'] at e1
      refine e1.trans ?_
      nlinarith
    have t1 := eucl_triangle r.2 (along (s1, s2) (clamp k)) (along (s1, s2) (clamp t))
    have t2 := eucl_triangle p r.2 (along (s1, s2) (clamp t))
    have t3 := eucl_triangle p (along (s1, s2) (clamp t)) r.2
    have hq : eucl p (along (s1, s2) (clamp t)) ≤ 3 * M := by
      apply eucl_le_3M hp
      have c0 : 0 ≤ clamp t := le_max_left _ _
      have c1 : clamp t ≤ 1 := max_le zero_le_one (min_le_left _ _)
      simp only [abs_le] at h1 h2 ⊢
      simp only [along]
      refine ⟨⟨?_, ?_⟩, ?_, ?_⟩ <;> nlinarith
    rw [eucl_comm (along (s1, s2) (clamp t)) r.2] at t3
    have uM : 0 ≤ u * M := mul_nonneg hu hM
    have uM1 : u * M ≤ 1 / 64 * M := mul_le_mul_of_nonneg_right hu1 hM
    have hpr : eucl p r.2 ≤ 15 / 4 * M := by linarith
    have hd' : |d - eucl p r.2| ≤ 20 * u * M := hd.trans (by nlinarith)
    rw [abs_le] at hd' ⊢
    constructor <;> linarith [hd'.1, hd'.2]

theorem segDistTo_zero (h : FlOk F u v) {s1 s2 p : Pt ℝ} (hs : s1 ≠ s2)
    (dz : F.rnd (F.rnd (F.rnd (p.1 - s1.1) * F.rnd (s2.1 - s1.1)) + F.rnd (F.rnd (p.2 - s1.2) * F.rnd (s2.2 - s1.2))) = 0) : ∃ d, Fl.segDistTo F s1 s2 p = some (d, 0) := by
  obtain ⟨k, ek, -⟩ := param_err h hs p
  have k0 : k = 0 := by
    rw [dz] at ek
    unfold divF at ek
    split at ek
    · cases ek
    · rw [zero_div, rnd_zero h] at ek
      exact (Option.some.inj ek).symm
  subst k0
  obtain ⟨d, ed, -⟩ := sqrtDist_err h p (F.rnd (s1.1 + F.rnd (0 * F.rnd (s2.1 - s1.1))), F.rnd (s1.2 + F.rnd (0 * F.rnd (s2.2 - s1.2))))
  refine ⟨d, ?_⟩
  unfold Fl.segDistTo
  simp only [ek, Option.bind_eq_bind, Option.bind_some]
  rw [if_neg (lt_irrefl _), if_neg (by norm_num)]
  change (sqrtF F (sqDist F _ _)).bind _ = _
  rw [ed]
  rfl

theorem region_zero {p : ℕ} (hp : 6 ≤ p) {N : ℝ} (hN : (2 : ℝ) ^ (p - 1) = N) : ∃ d, Fl.segDistTo (binary p) (0, 0) (N + 1, N) (N - 1, -N) = some (d, 0) := by
  have h := binary_ok hp
  have h4 := four_le (p := p) (by omega)
  rw [hN] at h4
  have hNi : (((2 ^ (p - 1) : ℤ)) : ℝ) = N := by rw [← hN]; push_cast; rfl
  have hpi := pow_pred_int (p := p) (by omega)
  have h4i := four_le_int (p := p) (by omega)
  have i1 : IntUpTo (2 ^ p) (N + 1) := ⟨2 ^ (p - 1) + 1, by rw [hpi, abs_of_nonneg (by omega)]; omega, by push_cast; rw [hN]⟩
  have i2 : IntUpTo (2 ^ p) N := ⟨2 ^ (p - 1), by rw [hpi, abs_of_nonneg (by omega)]; omega, by push_cast; rw [hN]⟩
  have i3 : IntUpTo (2 ^ p) (N - 1) := ⟨2 ^ (p - 1) - 1, by rw [hpi, abs_of_nonneg (by omega)]; omega, by push_cast; rw [hN]⟩
  have r1 := i1.rnd (by omega) le_rfl
  have r2 := i2.rnd (by omega) le_rfl
  have r3 := i3.rnd (by omega) le_rfl
  have q1 := rnd_pred_sq (p := p) (by omega)
  rw [hN] at q1
  have q2 : (binary p).rnd (N * N) = N * N := by
    have := rnd_multiple (p := p) (by omega) (2 ^ (p - 1)) (by rw [hpi, abs_of_nonneg (by omega)]; omega)
    rw [hNi, hN] at this
    exact this
  have hs : ((0, 0) : Pt ℝ) ≠ (N + 1, N) := by
    intro hh
    have := congrArg Prod.snd hh
    simp only at this
    linarith
  have dz : (binary p).rnd ((binary p).rnd ((binary p).rnd (N - 1 - 0) * (binary p).rnd (N + 1 - 0)) + (binary p).rnd ((binary p).rnd (-N - 0) * (binary p).rnd (N - 0))) = 0 := by
    rw [sub_zero, sub_zero, sub_zero, sub_zero, h.odd, r1, r2, r3, mul_comm (N - 1), q1, neg_mul, h.odd, q2, add_neg_cancel, rnd_zero h]
  exact segDistTo_zero h hs dz

end H2d.Fl
