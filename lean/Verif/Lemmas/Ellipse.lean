import Verif.Spec.Ellipse
import Verif.Lemmas.FRect
import Verif.Lemmas.Homogr
import Mathlib.Tactic.FieldSimp
import Mathlib.Tactic.LinearCombination
import Mathlib.Analysis.Real.Pi.Irrational

/-!
# Lemmas on ellipses
-/

set_option linter.unusedSectionVars false
set_option linter.unusedSimpArgs false

namespace H2d
open H2d.Spec Ell

theorem sc1 (th : ℝ) : Real.sin th * Real.sin th + Real.cos th * Real.cos th = 1 := by
  have := Real.sin_sq_add_cos_sq th; nlinarith [this]

/-- Matrix entries. -/
theorem ellMat_entries (x0 y0 a b th : ℝ) :
    let m := ellMat x0 y0 a b th
    m 0 0 = a ^ 2 * Real.sin th ^ 2 + b ^ 2 * Real.cos th ^ 2 ∧
    m 1 1 = a ^ 2 * Real.cos th ^ 2 + b ^ 2 * Real.sin th ^ 2 ∧
    m 0 1 = (b ^ 2 - a ^ 2) * Real.sin th * Real.cos th ∧ m 1 0 = m 0 1 ∧
    m 0 2 = - m 0 0 * x0 - m 0 1 * y0 ∧ m 2 0 = m 0 2 ∧
    m 1 2 = - m 0 1 * x0 - m 1 1 * y0 ∧ m 2 1 = m 1 2 ∧
    m 2 2 = m 0 0 * x0 ^ 2 + 2 * m 0 1 * x0 * y0 + m 1 1 * y0 ^ 2 - a ^ 2 * b ^ 2 := by
  simp only [ellMat, Matrix.cons_val_zero, Matrix.cons_val_one, Matrix.cons_val]
  refine ⟨?_, ?_, ?_, ?_, ?_, ?_, ?_, ?_, ?_⟩ <;> first | trivial | rfl | ring

theorem sqrt_of_sq {x y : ℝ} (h : x = y * y) (hy : 0 ≤ y) : Real.sqrt x = y := by
  rw [h]; exact Real.sqrt_mul_self hy

/-- The parameters computed from a multiple of the matrix of an ellipse. -/
theorem params_scaled (t : Thr ℝ) (x0 y0 a b th k : ℝ) (hb : 0 < b) (hab : b ≤ a) (hk : k ≠ 0) (m : Mat ℝ)
    (hm : ∀ i j, m i j = k * ellMat x0 y0 a b th i j) :
    (k ^ 2 * (4 * a ^ 2 * b ^ 2) < t.nullDenom ∧ params t m = .throw) ∨
    (t.nullDenom ≤ k ^ 2 * (4 * a ^ 2 * b ^ 2) ∧
      let a' := if 0 < k then a else b
      let b' := if 0 < k then b else a
      let th' := angleOf t (m 0 0) (2 * m 0 1) (m 1 1) (|k| * (a ^ 2 - b ^ 2))
      params t m = .ok { x0 := x0, y0 := y0, a := a', b := b', theta := th', a2 := a' * a', b2 := b' * b',
                         sint := Real.sin th', cost := Real.cos th' }) := by
  obtain ⟨e00, e11, e01, e10, e02, e20, e12, e21, e22⟩ := ellMat_entries x0 y0 a b th
  have hsc := Real.sin_sq_add_cos_sq th
  set s := Real.sin th with hs
  set c := Real.cos th with hc
  set M := ellMat x0 y0 a b th with hM
  have ha : 0 < a := lt_of_lt_of_le hb hab
  have hcs : c ^ 2 = 1 - s ^ 2 := by linarith
  have detM : M 0 1 ^ 2 - M 0 0 * M 1 1 = - (a ^ 2 * b ^ 2) := by
    rw [e00, e11, e01]
    have : ∀ u : ℝ, u = 1 - s ^ 2 → ((b ^ 2 - a ^ 2) * s * c) ^ 2 - (a ^ 2 * s ^ 2 + b ^ 2 * u) * (a ^ 2 * u + b ^ 2 * s ^ 2)
      = (b ^ 2 - a ^ 2) ^ 2 * s ^ 2 * c ^ 2 - (a ^ 2 * s ^ 2 + b ^ 2 * u) * (a ^ 2 * u + b ^ 2 * s ^ 2) := by intros; ring
    rw [this _ hcs, hcs]; ring
  have trM : M 0 0 + M 1 1 = a ^ 2 + b ^ 2 := by
    rw [e00, e11, hcs]; ring
  have sqM : (M 0 0 - M 1 1) ^ 2 + 4 * M 0 1 ^ 2 = (a ^ 2 - b ^ 2) ^ 2 := by
    have : (M 0 0 - M 1 1) ^ 2 + 4 * M 0 1 ^ 2 = (M 0 0 + M 1 1) ^ 2 + 4 * (M 0 1 ^ 2 - M 0 0 * M 1 1) := by ring
    rw [this, trM, detM]; ring
  have hdenom : 2 * m 0 1 * (2 * m 0 1) - 4 * m 0 0 * m 1 1 = - (k ^ 2 * (4 * a ^ 2 * b ^ 2)) := by
    rw [hm, hm, hm]
    have : 2 * (k * M 0 1) * (2 * (k * M 0 1)) - 4 * (k * M 0 0) * (k * M 1 1) = 4 * k ^ 2 * (M 0 1 ^ 2 - M 0 0 * M 1 1) := by ring
    rw [this, detM]; ring
  have hpos : 0 < k ^ 2 * (4 * a ^ 2 * b ^ 2) := by positivity
  have hab2 : b ^ 2 ≤ a ^ 2 := by nlinarith
  have hsqr : Real.sqrt ((m 0 0 - m 1 1) * (m 0 0 - m 1 1) + 2 * m 0 1 * (2 * m 0 1)) = |k| * (a ^ 2 - b ^ 2) := by
    apply sqrt_of_sq
    · rw [hm, hm, hm]
      have : |k| * (a ^ 2 - b ^ 2) * (|k| * (a ^ 2 - b ^ 2)) = |k| ^ 2 * (a ^ 2 - b ^ 2) ^ 2 := by ring
      rw [this, sq_abs, ← sqM]; ring
    · exact mul_nonneg (abs_nonneg k) (by linarith)
  have hcommon : 2 * (m 0 0 * (2 * m 1 2) * (2 * m 1 2) + m 1 1 * (2 * m 0 2) * (2 * m 0 2) - 2 * m 0 1 * (2 * m 0 2) * (2 * m 1 2)
      + - (k ^ 2 * (4 * a ^ 2 * b ^ 2)) * m 2 2) = 8 * k ^ 3 * a ^ 4 * b ^ 4 := by
    rw [hm, hm, hm, hm, hm, hm, e02, e12, e22]
    linear_combination (-8 * k ^ 3 * (M 0 0 * x0 ^ 2 + 2 * M 0 1 * x0 * y0 + M 1 1 * y0 ^ 2)) * detM
  by_cases hth : k ^ 2 * (4 * a ^ 2 * b ^ 2) < t.nullDenom
  · left
    refine ⟨hth, ?_⟩
    simp only [params, hdenom, abs_neg, abs_of_pos hpos, hth, if_true]
  · right
    refine ⟨not_lt.1 hth, ?_⟩
    simp only [params, hdenom, abs_neg, abs_of_pos hpos, hth, if_false, hsqr, hcommon]
    have h4 : (4 * k ^ 2 * a ^ 2 * b ^ 2) ≠ 0 := by positivity
    have hx : (2 * m 1 1 * (2 * m 0 2) - 2 * m 0 1 * (2 * m 1 2)) / -(k ^ 2 * (4 * a ^ 2 * b ^ 2)) = x0 := by
      rw [hm, hm, hm, hm, e02, e12, div_eq_iff (neg_ne_zero.2 hpos.ne')]
      linear_combination (4 * k ^ 2 * x0) * detM
    have hy : (2 * m 0 0 * (2 * m 1 2) - 2 * m 0 1 * (2 * m 0 2)) / -(k ^ 2 * (4 * a ^ 2 * b ^ 2)) = y0 := by
      rw [hm, hm, hm, hm, e02, e12, div_eq_iff (neg_ne_zero.2 hpos.ne')]
      linear_combination (4 * k ^ 2 * y0) * detM
    have hsum : m 0 0 + m 1 1 = k * (a ^ 2 + b ^ 2) := by rw [hm, hm, ← trM]; ring
    have hA : - Real.sqrt (8 * k ^ 3 * a ^ 4 * b ^ 4 * (m 0 0 + m 1 1 + |k| * (a ^ 2 - b ^ 2))) / -(k ^ 2 * (4 * a ^ 2 * b ^ 2))
        = if 0 < k then a else b := by
      rw [hsum]
      rcases lt_or_gt_of_ne hk with hk' | hk'
      · rw [abs_of_neg hk', if_neg (not_lt.2 hk'.le), sqrt_of_sq (y := 4 * k ^ 2 * a ^ 2 * b ^ 3) (by ring) (by positivity)]
        field_simp
      · rw [abs_of_pos hk', if_pos hk', sqrt_of_sq (y := 4 * k ^ 2 * a ^ 3 * b ^ 2) (by ring) (by positivity)]
        field_simp
    have hB : - Real.sqrt (8 * k ^ 3 * a ^ 4 * b ^ 4 * (m 0 0 + m 1 1 - |k| * (a ^ 2 - b ^ 2))) / -(k ^ 2 * (4 * a ^ 2 * b ^ 2))
        = if 0 < k then b else a := by
      rw [hsum]
      rcases lt_or_gt_of_ne hk with hk' | hk'
      · rw [abs_of_neg hk', if_neg (not_lt.2 hk'.le), sqrt_of_sq (y := 4 * k ^ 2 * a ^ 3 * b ^ 2) (by ring) (by positivity)]
        field_simp
      · rw [abs_of_pos hk', if_pos hk', sqrt_of_sq (y := 4 * k ^ 2 * a ^ 2 * b ^ 3) (by ring) (by positivity)]
        field_simp
    rw [hx, hy, hA, hB]

theorem arctan_dir (s c : ℝ) (h : s ^ 2 + c ^ 2 = 1) (hc : c ≠ 0) :
    (Real.cos (Real.arctan (s / c)) = c ∧ Real.sin (Real.arctan (s / c)) = s) ∨
    (Real.cos (Real.arctan (s / c)) = -c ∧ Real.sin (Real.arctan (s / c)) = -s) := by
  rw [Real.cos_arctan, Real.sin_arctan]
  have e : 1 + (s / c) ^ 2 = (1 / c) * (1 / c) := by
    field_simp; linarith
  rcases lt_or_gt_of_ne hc with h' | h'
  · right
    have : Real.sqrt (1 + (s / c) ^ 2) = -(1 / c) :=
      sqrt_of_sq (by rw [e]; ring) (by rw [← one_div_neg_eq_neg_one_div]; exact (one_div_pos.2 (neg_pos.2 h')).le)
    rw [this]
    constructor <;> field_simp
  · left
    have : Real.sqrt (1 + (s / c) ^ 2) = 1 / c := sqrt_of_sq e (one_div_pos.2 h').le
    rw [this]
    constructor <;> field_simp

/-- Same direction, up to a half-turn. -/
def SameDir (th' th : ℝ) : Prop :=
  (Real.cos th' = Real.cos th ∧ Real.sin th' = Real.sin th) ∨ (Real.cos th' = - Real.cos th ∧ Real.sin th' = - Real.sin th)

theorem sin_two (th : ℝ) : Real.sin (2 * th) = 2 * Real.sin th * Real.cos th := Real.sin_two_mul th

/-- The computed angle, from a positive multiple of the matrix. -/
theorem angle_pos (t : Thr ℝ) (x0 y0 a b th k : ℝ) (ht : 0 < t.nullDenom) (hb : 0 < b) (hab : b ≤ a) (hk : 0 < k) (m : Mat ℝ)
    (hm : ∀ i j, m i j = k * ellMat x0 y0 a b th i j)
    (hok : Real.sin th = 0 ∨ a = b ∨ t.nullDenom ≤ k * (a ^ 2 - b ^ 2) * |Real.sin (2 * th)|) :
    a = b ∨ SameDir (angleOf t (m 0 0) (2 * m 0 1) (m 1 1) (k * (a ^ 2 - b ^ 2))) th := by
  obtain ⟨e00, e11, e01, -⟩ := ellMat_entries x0 y0 a b th
  have hsc := Real.sin_sq_add_cos_sq th
  rw [hm, hm, hm, e00, e11, e01]
  have hab2 : b ^ 2 ≤ a ^ 2 := by nlinarith
  rcases hok with h0 | h0 | h0
  · right
    rw [h0] at hsc ⊢
    have hc : Real.cos th = 1 ∨ Real.cos th = -1 := by
      have : (Real.cos th - 1) * (Real.cos th + 1) = 0 := by linear_combination hsc
      rcases mul_eq_zero.1 this with h | h
      · left; linarith
      · right; linarith
    have hang : angleOf t (k * (a ^ 2 * 0 ^ 2 + b ^ 2 * Real.cos th ^ 2)) (2 * (k * ((b ^ 2 - a ^ 2) * 0 * Real.cos th)))
        (k * (a ^ 2 * Real.cos th ^ 2 + b ^ 2 * 0 ^ 2)) (k * (a ^ 2 - b ^ 2)) = 0 := by
      have hc2 : Real.cos th ^ 2 = 1 := by linarith
      simp only [angleOf]
      rw [if_pos (by simpa using ht), if_neg]
      rw [hc2]; nlinarith
    rw [hang]
    rcases hc with h | h
    · left; rw [h, h0]; simp
    · right; rw [h, h0]; simp
  · exact Or.inl h0
  · right
    rw [sin_two] at h0
    have hne : k * (a ^ 2 - b ^ 2) * |2 * Real.sin th * Real.cos th| ≠ 0 := (lt_of_lt_of_le ht h0).ne'
    have hsne : Real.sin th ≠ 0 := by intro h; apply hne; simp [h]
    have hcne : Real.cos th ≠ 0 := by intro h; apply hne; simp [h]
    have hd : a ^ 2 - b ^ 2 ≠ 0 := by intro h; apply hne; simp [h]
    have hd' : b ^ 2 - a ^ 2 ≠ 0 := by intro h; apply hd; linarith
    simp only [angleOf]
    rw [if_neg]
    · have harg : (k * (a ^ 2 * Real.cos th ^ 2 + b ^ 2 * Real.sin th ^ 2) - k * (a ^ 2 * Real.sin th ^ 2 + b ^ 2 * Real.cos th ^ 2)
          - k * (a ^ 2 - b ^ 2)) / (2 * (k * ((b ^ 2 - a ^ 2) * Real.sin th * Real.cos th))) = Real.sin th / Real.cos th := by
        rw [div_eq_div_iff (by positivity) hcne]
        have : Real.cos th ^ 2 = 1 - Real.sin th ^ 2 := by linarith
        rw [this]; ring
      rw [harg]
      exact arctan_dir _ _ hsc hcne
    · rw [not_lt]
      refine le_trans h0 (le_of_eq ?_)
      rw [show 2 * (k * ((b ^ 2 - a ^ 2) * Real.sin th * Real.cos th)) = -(k * (a ^ 2 - b ^ 2) * (2 * Real.sin th * Real.cos th)) by ring,
        abs_neg, abs_mul (k * (a ^ 2 - b ^ 2)), abs_of_nonneg (mul_nonneg hk.le (by linarith))]

/-- The value of the equation does not depend on a half-turn. -/
theorem ellVal_sameDir (x0 y0 a b th th' : ℝ) (h : a = b ∨ SameDir th' th) (p : Pt ℝ) :
    ellVal x0 y0 a b th' p = ellVal x0 y0 a b th p := by
  simp only [ellVal]
  rcases h with h | ⟨h1, h2⟩ | ⟨h1, h2⟩
  · subst h
    rw [← add_div, ← add_div]
    congr 1
    have e1 := Real.sin_sq_add_cos_sq th
    have e2 := Real.sin_sq_add_cos_sq th'
    linear_combination ((p.1 - x0) ^ 2 + (p.2 - y0) ^ 2) * (e2 - e1)
  · rw [h1, h2]
  · rw [h1, h2]; congr 1 <;> congr 1 <;> ring

/-- The test of `pointIsInside`. -/
theorem inside_val (x0 y0 a b th : ℝ) (p : Pt ℝ) :
    (Real.cos th * (p.1 - x0) + Real.sin th * (p.2 - y0)) * (Real.cos th * (p.1 - x0) + Real.sin th * (p.2 - y0)) / (a * a) +
    (Real.sin th * (p.1 - x0) - Real.cos th * (p.2 - y0)) * (Real.sin th * (p.1 - x0) - Real.cos th * (p.2 - y0)) / (b * b)
    = ellVal x0 y0 a b th p := by
  simp only [ellVal]
  congr 1 <;> congr 1 <;> ring

theorem new_m (x y a b th : ℝ) (hab : b ≤ a) : new x y a b th = ⟨ellMat x y a b th, false⟩ := by
  simp only [new, not_lt.2 hab, if_false, pInit]

theorem new_swap (x y a b th : ℝ) : new x y a b th = ⟨ellMat x y (max a b) (min a b) th, false⟩ := by
  rcases le_total b a with h | h
  · rw [new_m x y a b th h, max_eq_left h, min_eq_right h]
  · rw [max_eq_right h, min_eq_left h]
    rcases lt_or_eq_of_le h with h | h
    · simp only [new, h, if_true, pInit]
    · subst h; exact new_m x y a a th le_rfl

/-- Parameters of an ellipse that was just built. -/
theorem params_new (t : Thr ℝ) (x0 y0 a b th : ℝ) (hb : 0 < b) (hab : b ≤ a) :
    (4 * a ^ 2 * b ^ 2 < t.nullDenom ∧ params t (ellMat x0 y0 a b th) = .throw) ∨
    (t.nullDenom ≤ 4 * a ^ 2 * b ^ 2 ∧
      let M := ellMat x0 y0 a b th
      let th' := angleOf t (M 0 0) (2 * M 0 1) (M 1 1) (a ^ 2 - b ^ 2)
      params t M = .ok { x0 := x0, y0 := y0, a := a, b := b, theta := th', a2 := a * a, b2 := b * b,
                         sint := Real.sin th', cost := Real.cos th' }) := by
  have := params_scaled t x0 y0 a b th 1 hb hab one_ne_zero (ellMat x0 y0 a b th) (fun i j => by rw [one_mul])
  simpa using this

theorem angle_new (t : Thr ℝ) (x0 y0 a b th : ℝ) (ht : 0 < t.nullDenom) (hb : 0 < b) (hab : b ≤ a) (hok : AngleOk t a b th) :
    a = b ∨ SameDir (angleOf t (ellMat x0 y0 a b th 0 0) (2 * ellMat x0 y0 a b th 0 1) (ellMat x0 y0 a b th 1 1) (a ^ 2 - b ^ 2)) th := by
  have := angle_pos t x0 y0 a b th 1 ht hb hab one_pos (ellMat x0 y0 a b th) (fun i j => by rw [one_mul])
    (by simpa [AngleOk] using hok)
  simpa using this

theorem cos90_ne : Real.cos 90 ≠ 0 := by
  intro h
  obtain ⟨k, hk⟩ := Real.cos_eq_zero_iff.1 h
  apply irrational_pi
  refine ⟨180 / (2 * k + 1), ?_⟩
  have hne : (2 * (k : ℝ) + 1) ≠ 0 := by
    have : (2 * k + 1 : ℤ) ≠ 0 := by omega
    exact_mod_cast this
  push_cast
  rw [div_eq_iff hne]
  linarith

/-- Angle computed for a vertical major axis. -/
theorem angle_vert (t : Thr ℝ) (x0 y0 a b th s : ℝ) (ht : 0 < t.nullDenom) (hb : 0 < b) (hab : b < a) (hth : Real.cos th = 0) :
    angleOf t (ellMat x0 y0 a b th 0 0) (2 * ellMat x0 y0 a b th 0 1) (ellMat x0 y0 a b th 1 1) s = 90 := by
  obtain ⟨e00, e11, e01, -⟩ := ellMat_entries x0 y0 a b th
  have hsc := Real.sin_sq_add_cos_sq th
  rw [hth] at hsc
  have hs2 : Real.sin th ^ 2 = 1 := by linarith
  simp only [angleOf]
  rw [if_pos, if_pos]
  · rw [e00, e11, hth, hs2]
    show _ < _
    nlinarith
  · rw [e01, hth]; simpa using ht

/-- Quadratic form and equation. -/
theorem quad_ellMat (x0 y0 a b th : ℝ) (ha : a ≠ 0) (hb : b ≠ 0) (p : Pt ℝ) :
    quad (ellMat x0 y0 a b th) ![p.1, p.2, 1] = a ^ 2 * b ^ 2 * (ellVal x0 y0 a b th p - 1) := by
  obtain ⟨e00, e11, e01, e10, e02, e20, e12, e21, e22⟩ := ellMat_entries x0 y0 a b th
  have hv : a ^ 2 * b ^ 2 * (ellVal x0 y0 a b th p - 1) =
      b ^ 2 * ((p.1 - x0) * Real.cos th + (p.2 - y0) * Real.sin th) ^ 2 +
      a ^ 2 * (-(p.1 - x0) * Real.sin th + (p.2 - y0) * Real.cos th) ^ 2 - a ^ 2 * b ^ 2 := by
    simp only [ellVal]; field_simp
  rw [hv]
  simp only [quad, Matrix.cons_val_zero, Matrix.cons_val_one, Matrix.cons_val]
  rw [e10, e20, e21, e22, e02, e12, e01, e00, e11]
  ring

theorem quad_homog {K : Type} [Field K] (m : Mat K) (p : V3 K) (k : K) : quad m (fun i => k * p i) = k ^ 2 * quad m p := by
  simp only [quad]; ring

theorem F_val (x0 y0 a b th : ℝ) (ha : a ≠ 0) (hb : b ≠ 0) :
    ellMat x0 y0 a b th 2 2 = a ^ 2 * b ^ 2 * (ellVal x0 y0 a b th (0, 0) - 1) := by
  rw [← quad_ellMat x0 y0 a b th ha hb]
  simp [quad]

theorem quad_congruence {K : Type} [Field K] (m hi : Mat K) (q : V3 K) :
    quad ((hi.transpose.mul m).mul hi) q = quad m (hi.app q) := by
  simp only [quad, Mat.mul, Mat.transpose, Mat.app]; ring

theorem isCircle_iff (x y a b th thres : ℝ) (f : Bool) : isCircle ⟨ellMat x y a b th, f⟩ thres = true ↔
    |(a ^ 2 - b ^ 2) * (Real.sin th ^ 2 - Real.cos th ^ 2)| < thres ∧ |(a ^ 2 - b ^ 2) * (2 * Real.sin th * Real.cos th)| < thres := by
  obtain ⟨e00, e11, e01, -⟩ := ellMat_entries x y a b th
  have e1 : a ^ 2 * Real.sin th ^ 2 + b ^ 2 * Real.cos th ^ 2 - (a ^ 2 * Real.cos th ^ 2 + b ^ 2 * Real.sin th ^ 2)
        = (a ^ 2 - b ^ 2) * (Real.sin th ^ 2 - Real.cos th ^ 2) := by ring
  have e2 : |(b ^ 2 - a ^ 2) * Real.sin th * Real.cos th| * 2 = |(a ^ 2 - b ^ 2) * (2 * Real.sin th * Real.cos th)| := by
    rw [show (a ^ 2 - b ^ 2) * (2 * Real.sin th * Real.cos th) = -((b ^ 2 - a ^ 2) * Real.sin th * Real.cos th * 2) by ring, abs_neg,
      abs_mul _ 2, abs_two]
  simp only [isCircle, Bool.and_eq_true, decide_eq_true_eq]
  rw [e00, e11, e01, e1, e2]

/-- Half sides of the bounding box. -/
theorem half_pos (a b th : ℝ) (hb : 0 < b) (hab : b ≤ a) :
    0 < a ^ 2 * Real.cos th ^ 2 + b ^ 2 * Real.sin th ^ 2 ∧ 0 < a ^ 2 * Real.sin th ^ 2 + b ^ 2 * Real.cos th ^ 2 := by
  have hsc := Real.sin_sq_add_cos_sq th
  have hab2 : b ^ 2 ≤ a ^ 2 := by nlinarith
  have hb2 : 0 < b ^ 2 := by positivity
  constructor
  · nlinarith [mul_nonneg (sub_nonneg.2 hab2) (sq_nonneg (Real.cos th))]
  · nlinarith [mul_nonneg (sub_nonneg.2 hab2) (sq_nonneg (Real.sin th))]

theorem half_ge (a b th : ℝ) (hb : 0 < b) (hab : b ≤ a) :
    b ≤ Real.sqrt (a ^ 2 * Real.cos th ^ 2 + b ^ 2 * Real.sin th ^ 2) ∧
    b ≤ Real.sqrt (a ^ 2 * Real.sin th ^ 2 + b ^ 2 * Real.cos th ^ 2) := by
  have hsc := Real.sin_sq_add_cos_sq th
  have hab2 : b ^ 2 ≤ a ^ 2 := by nlinarith
  constructor <;> apply Real.le_sqrt_of_sq_le
  · nlinarith [mul_nonneg (sub_nonneg.2 hab2) (sq_nonneg (Real.cos th))]
  · nlinarith [mul_nonneg (sub_nonneg.2 hab2) (sq_nonneg (Real.sin th))]

theorem sameDir_sq (th' th : ℝ) (h : SameDir th' th) :
    Real.cos th' ^ 2 = Real.cos th ^ 2 ∧ Real.sin th' ^ 2 = Real.sin th ^ 2 := by
  rcases h with ⟨h1, h2⟩ | ⟨h1, h2⟩ <;> rw [h1, h2] <;> constructor <;> ring

theorem getBB_ok (t : Thr ℝ) (x y a b th : ℝ) (ht : 0 < t.nullDenom) (hb : 0 < b) (hab : b ≤ a)
    (hbig : t.nullDenom ≤ 4 * a ^ 2 * b ^ 2) (hwide : t.nullOrthogDistance ≤ 2 * b) (hok : AngleOk t a b th) :
    ∃ r, getBB t (new x y a b th) = .ok r ∧
      r.p1 = (x - Real.sqrt (a ^ 2 * Real.cos th ^ 2 + b ^ 2 * Real.sin th ^ 2),
        y - Real.sqrt (a ^ 2 * Real.sin th ^ 2 + b ^ 2 * Real.cos th ^ 2)) ∧
      r.p2 = (x + Real.sqrt (a ^ 2 * Real.cos th ^ 2 + b ^ 2 * Real.sin th ^ 2),
        y + Real.sqrt (a ^ 2 * Real.sin th ^ 2 + b ^ 2 * Real.cos th ^ 2)) := by
  obtain ⟨g1, g2⟩ := half_ge a b th hb hab
  rw [new_m _ _ _ _ _ hab]
  rcases params_new t x y a b th hb hab with ⟨h, -⟩ | ⟨-, h⟩
  · exact absurd h (not_lt.2 hbig)
  · have hang := angle_new t x y a b th ht hb hab hok
    simp only at h
    generalize angleOf t (ellMat x y a b th 0 0) (2 * ellMat x y a b th 0 1) (ellMat x y a b th 1 1) (a ^ 2 - b ^ 2) = th' at h hang
    have e : a * a * Real.cos th' * Real.cos th' + b * b * Real.sin th' * Real.sin th'
          = a ^ 2 * Real.cos th ^ 2 + b ^ 2 * Real.sin th ^ 2 ∧
        a * a * Real.sin th' * Real.sin th' + b * b * Real.cos th' * Real.cos th'
          = a ^ 2 * Real.sin th ^ 2 + b ^ 2 * Real.cos th ^ 2 := by
      rcases hang with hang | hang
      · subst hang
        have e1 := Real.sin_sq_add_cos_sq th
        have e2 := Real.sin_sq_add_cos_sq th'
        constructor <;> linear_combination a ^ 2 * (e2 - e1)
      · obtain ⟨d1, d2⟩ := sameDir_sq _ _ hang
        rw [← d1, ← d2]; constructor <;> ring
    simp only [getBB, h, Res.bind_ok, e.1, e.2]
    generalize Real.sqrt (a ^ 2 * Real.cos th ^ 2 + b ^ 2 * Real.sin th ^ 2) = X at *
    generalize Real.sqrt (a ^ 2 * Real.sin th ^ 2 + b ^ 2 * Real.cos th ^ 2) = Y at *
    rcases ofPts_cases t.nullOrthogDistance (x - X, y - Y) (x + X, y + Y) with ⟨-, h'⟩ | ⟨h', -⟩
    · exfalso
      rcases h' with h' | h'
      · simp only at h'
        rw [show x - X - (x + X) = -(2 * X) by ring, abs_neg, abs_of_pos (by linarith)] at h'
        linarith
      · simp only at h'
        rw [show y - Y - (y + Y) = -(2 * Y) by ring, abs_neg, abs_of_pos (by linarith)] at h'
        linarith
    · refine ⟨_, h', ?_, ?_⟩
      · simp only; rw [min_eq_left (by linarith), min_eq_left (by linarith)]
      · simp only; rw [max_eq_right (by linarith), max_eq_right (by linarith)]

/-- Points inside stay within the half sides. -/
theorem inside_bounds (x y a b th : ℝ) (hb : 0 < b) (hab : b ≤ a) (p : Pt ℝ) (hp : InsideEll x y a b th p) :
    (p.1 - x) ^ 2 < a ^ 2 * Real.cos th ^ 2 + b ^ 2 * Real.sin th ^ 2 ∧
    (p.2 - y) ^ 2 < a ^ 2 * Real.sin th ^ 2 + b ^ 2 * Real.cos th ^ 2 := by
  have ha : 0 < a := hb.trans_le hab
  have hsc := Real.sin_sq_add_cos_sq th
  obtain ⟨hx0, hy0⟩ := half_pos a b th hb hab
  set c := Real.cos th
  set s := Real.sin th
  simp only [InsideEll, ellVal] at hp
  set u := (p.1 - x) * c + (p.2 - y) * s with hu
  set v := -(p.1 - x) * s + (p.2 - y) * c with hv
  have ex : p.1 - x = u * c - v * s := by rw [hu, hv]; linear_combination (-(p.1 - x)) * hsc
  have ey : p.2 - y = u * s + v * c := by rw [hu, hv]; linear_combination (-(p.2 - y)) * hsc
  have cs : ∀ m n : ℝ, (u * m + v * n) ^ 2 ≤ (a ^ 2 * m ^ 2 + b ^ 2 * n ^ 2) * (u ^ 2 / a ^ 2 + v ^ 2 / b ^ 2) := by
    intro m n
    have : (a ^ 2 * m ^ 2 + b ^ 2 * n ^ 2) * (u ^ 2 / a ^ 2 + v ^ 2 / b ^ 2) - (u * m + v * n) ^ 2
        = (a * m * v / b - b * n * u / a) ^ 2 := by field_simp; ring
    nlinarith [sq_nonneg (a * m * v / b - b * n * u / a)]
  constructor
  · rw [ex]
    have h1 := cs c (-s)
    have h2 := mul_lt_mul_of_pos_left hp hx0
    have e1 : (u * c + v * -s) ^ 2 = (u * c - v * s) ^ 2 := by ring
    have e2 : a ^ 2 * c ^ 2 + b ^ 2 * (-s) ^ 2 = a ^ 2 * c ^ 2 + b ^ 2 * s ^ 2 := by ring
    rw [e1, e2] at h1
    linarith
  · rw [ey]
    have h1 := cs s c
    have h2 := mul_lt_mul_of_pos_left hp hy0
    linarith

/-- The point at local coordinates `u`, `v`. -/
theorem ellVal_local (x y a b th u v : ℝ) :
    ellVal x y a b th (x + (u * Real.cos th - v * Real.sin th), y + (u * Real.sin th + v * Real.cos th)) = u ^ 2 / a ^ 2 + v ^ 2 / b ^ 2 := by
  have hsc := Real.sin_sq_add_cos_sq th
  simp only [ellVal]
  have e1 : (x + (u * Real.cos th - v * Real.sin th) - x) * Real.cos th + (y + (u * Real.sin th + v * Real.cos th) - y) * Real.sin th = u := by
    linear_combination u * hsc
  have e2 : -(x + (u * Real.cos th - v * Real.sin th) - x) * Real.sin th + (y + (u * Real.sin th + v * Real.cos th) - y) * Real.cos th = v := by
    linear_combination v * hsc
  rw [e1, e2]

theorem touch (a b th : ℝ) (hb : 0 < b) (hab : b ≤ a) (x y : ℝ) :
    (∃ p : Pt ℝ, ellVal x y a b th p = 1 ∧ p.1 = x - Real.sqrt (a ^ 2 * Real.cos th ^ 2 + b ^ 2 * Real.sin th ^ 2)) ∧
    (∃ p : Pt ℝ, ellVal x y a b th p = 1 ∧ p.1 = x + Real.sqrt (a ^ 2 * Real.cos th ^ 2 + b ^ 2 * Real.sin th ^ 2)) ∧
    (∃ p : Pt ℝ, ellVal x y a b th p = 1 ∧ p.2 = y - Real.sqrt (a ^ 2 * Real.sin th ^ 2 + b ^ 2 * Real.cos th ^ 2)) ∧
    (∃ p : Pt ℝ, ellVal x y a b th p = 1 ∧ p.2 = y + Real.sqrt (a ^ 2 * Real.sin th ^ 2 + b ^ 2 * Real.cos th ^ 2)) := by
  have ha : 0 < a := hb.trans_le hab
  obtain ⟨hx0, hy0⟩ := half_pos a b th hb hab
  have hX := Real.sq_sqrt hx0.le
  have hY := Real.sq_sqrt hy0.le
  have hXp := Real.sqrt_pos.2 hx0
  have hYp := Real.sqrt_pos.2 hy0
  generalize Real.sqrt (a ^ 2 * Real.cos th ^ 2 + b ^ 2 * Real.sin th ^ 2) = X at *
  generalize Real.sqrt (a ^ 2 * Real.sin th ^ 2 + b ^ 2 * Real.cos th ^ 2) = Y at *
  have keyX : ∀ e : ℝ, e ^ 2 = 1 → ∃ p : Pt ℝ, ellVal x y a b th p = 1 ∧ p.1 = x + e * X := by
    intro e he
    refine ⟨_, ellVal_local x y a b th (e * (a ^ 2 * Real.cos th / X)) (e * (-(b ^ 2 * Real.sin th) / X)) |>.trans ?_, ?_⟩
    · field_simp
      rw [he, hX]; ring
    · simp only
      field_simp
      linear_combination (-e) * hX
  have keyY : ∀ e : ℝ, e ^ 2 = 1 → ∃ p : Pt ℝ, ellVal x y a b th p = 1 ∧ p.2 = y + e * Y := by
    intro e he
    refine ⟨_, ellVal_local x y a b th (e * (a ^ 2 * Real.sin th / Y)) (e * (b ^ 2 * Real.cos th / Y)) |>.trans ?_, ?_⟩
    · field_simp
      rw [he, hY]; ring
    · simp only
      field_simp
      linear_combination (-e) * hY
  refine ⟨?_, ?_, ?_, ?_⟩
  · obtain ⟨p, h1, h2⟩ := keyX (-1) (by norm_num); exact ⟨p, h1, by rw [h2]; ring⟩
  · obtain ⟨p, h1, h2⟩ := keyX 1 (by norm_num); exact ⟨p, h1, by rw [h2]; ring⟩
  · obtain ⟨p, h1, h2⟩ := keyY (-1) (by norm_num); exact ⟨p, h1, by rw [h2]; ring⟩
  · obtain ⟨p, h1, h2⟩ := keyY 1 (by norm_num); exact ⟨p, h1, by rw [h2]; ring⟩

/-- Normalisation by a comparison. -/
theorem normalize_cases (t : Thr ℝ) (ht : 0 < t.nullDenom) (e : Ell) :
    (|e.m 2 2| < t.nullDenom ∧ Ell.normalize t e = (.throw, e)) ∨
    (t.nullDenom ≤ |e.m 2 2| ∧ Ell.normalize t e = (.ok (), ⟨fun i j => (1 / e.m 2 2) * e.m i j, true⟩)) := by
  by_cases h : |e.m 2 2| < t.nullDenom
  · left; exact ⟨h, by simp only [Ell.normalize, h, if_true]⟩
  · right
    refine ⟨not_lt.1 h, ?_⟩
    have hne : e.m 2 2 ≠ 0 := by
      intro h0; rw [h0, abs_zero] at h; exact h ht
    simp only [Ell.normalize, h, if_false]
    have h1 : ¬ (e.m.divAll (e.m 2 2) 2 2 < 0) := by
      simp only [Mat.divAll, div_self hne]; norm_num
    rw [if_neg h1]
    congr 2
    funext i j
    simp only [Mat.divAll]
    ring

/-- What a comparison leaves of an object that was just built. -/
theorem eq_after (t : Thr ℝ) (ht : 0 < t.nullDenom) (m : Mat ℝ) (f : Ell) :
    (((eq t ⟨m, false⟩ f).2.1 = ⟨m, false⟩ ∧ |m 2 2| < t.nullDenom) ∨
      (t.nullDenom ≤ |m 2 2| ∧ (eq t ⟨m, false⟩ f).2.1 = ⟨fun i j => (1 / m 2 2) * m i j, true⟩)) ∧
    ((eq t f ⟨m, false⟩).2.2 = ⟨m, false⟩ ∨
      (t.nullDenom ≤ |m 2 2| ∧ (eq t f ⟨m, false⟩).2.2 = ⟨fun i j => (1 / m 2 2) * m i j, true⟩)) := by
  have hn := normalize_cases t ht ⟨m, false⟩
  constructor
  · simp only [Ell.eq, normIfNeeded, Bool.false_eq_true, if_false]
    rcases hn with ⟨h, hn⟩ | ⟨h, hn⟩
    · left; rw [hn]; exact ⟨rfl, h⟩
    · right; rw [hn]
      refine ⟨h, ?_⟩
      simp only
      split <;> rfl
  · simp only [Ell.eq, normIfNeeded, Bool.false_eq_true, if_false]
    rcases hn with ⟨h, hn⟩ | ⟨h, hn⟩
    · left; rw [hn]
      split
      · rfl
      · rfl
    · rw [hn]
      split
      · right; exact ⟨h, rfl⟩
      · left; rfl

theorem angleOk_sameDir (t : Thr ℝ) (a b th th' : ℝ) (hok : AngleOk t a b th) (h : a = b ∨ SameDir th' th) : AngleOk t a b th' := by
  rcases h with h | h
  · exact Or.inr (Or.inl h)
  · have hs : Real.sin (2 * th') = Real.sin (2 * th) := by
      rw [sin_two, sin_two]
      rcases h with ⟨h1, h2⟩ | ⟨h1, h2⟩ <;> rw [h1, h2] <;> ring
    rcases hok with h0 | h0 | h0
    · left
      rcases h with ⟨-, h2⟩ | ⟨-, h2⟩ <;> rw [h2, h0]
      exact neg_zero
    · exact Or.inr (Or.inl h0)
    · right; right; rw [hs]; exact h0

/-- Rotation of the matrix of an ellipse. -/
theorem rot_mat (x y a b th phi : ℝ) :
    ((((Mat.rotation (Real.cos phi) (Real.sin phi)).adjugate.divAll 1).transpose.mul (ellMat x y a b th)).mul
      ((Mat.rotation (Real.cos phi) (Real.sin phi)).adjugate.divAll 1)) =
    ellMat (Real.cos phi * x - Real.sin phi * y) (Real.sin phi * x + Real.cos phi * y) a b (th + phi) := by
  have hp := Real.sin_sq_add_cos_sq phi
  obtain ⟨e00, e11, e01, e10, e02, e20, e12, e21, e22⟩ := ellMat_entries x y a b th
  obtain ⟨f00, f11, f01, f10, f02, f20, f12, f21, f22⟩ :=
    ellMat_entries (Real.cos phi * x - Real.sin phi * y) (Real.sin phi * x + Real.cos phi * y) a b (th + phi)
  rw [Real.sin_add, Real.cos_add] at f00 f11 f01
  set c := Real.cos phi
  set s := Real.sin phi
  set M := ellMat x y a b th
  set N := ellMat (c * x - s * y) (s * x + c * y) a b (th + phi)
  set P := (((Mat.rotation c s).adjugate.divAll 1).transpose.mul M).mul ((Mat.rotation c s).adjugate.divAll 1) with hP
  have p00 : P 0 0 = c ^ 2 * M 0 0 - 2 * s * c * M 0 1 + s ^ 2 * M 1 1 := by
    simp [hP, Mat.mul, Mat.transpose, Mat.divAll, Mat.adjugate, Mat.det2, Mat.rotation, e10]; ring
  have p11 : P 1 1 = s ^ 2 * M 0 0 + 2 * s * c * M 0 1 + c ^ 2 * M 1 1 := by
    simp [hP, Mat.mul, Mat.transpose, Mat.divAll, Mat.adjugate, Mat.det2, Mat.rotation, e10]; ring
  have p01 : P 0 1 = s * c * M 0 0 + (c ^ 2 - s ^ 2) * M 0 1 - s * c * M 1 1 := by
    simp [hP, Mat.mul, Mat.transpose, Mat.divAll, Mat.adjugate, Mat.det2, Mat.rotation, e10]; ring
  have p10 : P 1 0 = P 0 1 := by
    simp [hP, Mat.mul, Mat.transpose, Mat.divAll, Mat.adjugate, Mat.det2, Mat.rotation, e10]; ring
  have p02 : P 0 2 = (c * M 0 2 - s * M 1 2) * (c ^ 2 + s ^ 2) := by
    simp [hP, Mat.mul, Mat.transpose, Mat.divAll, Mat.adjugate, Mat.det2, Mat.rotation]; ring
  have p20 : P 2 0 = P 0 2 := by
    simp [hP, Mat.mul, Mat.transpose, Mat.divAll, Mat.adjugate, Mat.det2, Mat.rotation, e20, e21]; ring
  have p12 : P 1 2 = (s * M 0 2 + c * M 1 2) * (c ^ 2 + s ^ 2) := by
    simp only [hP, Mat.mul, Mat.transpose, Mat.divAll, Mat.adjugate, Mat.det2, Mat.rotation, Matrix.cons_val_zero, Matrix.cons_val_one,
      Matrix.cons_val]; ring
  have p21 : P 2 1 = P 1 2 := by
    simp [hP, Mat.mul, Mat.transpose, Mat.divAll, Mat.adjugate, Mat.det2, Mat.rotation, e20, e21]; ring
  have p22 : P 2 2 = M 2 2 * (c ^ 2 + s ^ 2) ^ 2 := by
    simp [hP, Mat.mul, Mat.transpose, Mat.divAll, Mat.adjugate, Mat.det2, Mat.rotation]; ring
  have hcs : c ^ 2 + s ^ 2 = 1 := by linarith
  rw [hcs] at p02 p12 p22
  have g00 : P 0 0 = N 0 0 := by rw [p00, f00, e00, e11, e01]; ring
  have g11 : P 1 1 = N 1 1 := by rw [p11, f11, e00, e11, e01]; ring
  have g01 : P 0 1 = N 0 1 := by rw [p01, f01, e00, e11, e01]; ring
  have g02 : P 0 2 = N 0 2 := by
    rw [p02, f02, ← g00, ← g01, p00, p01, e02, e12]
    linear_combination (c * (M 0 0 * x + M 0 1 * y) - s * (M 0 1 * x + M 1 1 * y)) * hcs
  have g12 : P 1 2 = N 1 2 := by
    rw [p12, f12, ← g11, ← g01, p11, p01, e02, e12]
    linear_combination (s * (M 0 0 * x + M 0 1 * y) + c * (M 0 1 * x + M 1 1 * y)) * hcs
  have g22 : P 2 2 = N 2 2 := by
    rw [p22, f22, ← g00, ← g01, ← g11, p00, p01, p11, e22]
    linear_combination (-(M 0 0 * x ^ 2 + 2 * M 0 1 * x * y + M 1 1 * y ^ 2) * (c ^ 2 + s ^ 2 + 1)) * hcs
  funext i j
  fin_cases i <;> fin_cases j <;> simp only [Fin.zero_eta, Fin.mk_one, Fin.reduceFinMk]
  · exact g00
  · exact g01
  · exact g02
  · rw [p10, f10]; exact g01
  · exact g11
  · exact g12
  · rw [p20, f20]; exact g02
  · rw [p21, f21]; exact g12
  · exact g22

end H2d
