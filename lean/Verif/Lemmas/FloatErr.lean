import Verif.Model.FloatGeom
import Verif.Lemmas.Float
import Verif.Lemmas.LineOps

/-! # Errors of rounded operations -/

namespace H2d.Fl

open H2d.Spec

variable {F : Arith} {u v : ℝ}

theorem rnd_zero (h : FlOk F u v) : F.rnd 0 = 0 := by
  have := h.err 0
  simpa using this

theorem rnd_abs_le (h : FlOk F u v) (x : ℝ) : |F.rnd x| ≤ (1 + u) * |x| := by
  have := h.err x
  have h2 := abs_add_le (F.rnd x - x) x
  rw [sub_add_cancel] at h2
  linarith

theorem le_rnd_abs (h : FlOk F u v) (x : ℝ) : (1 - u) * |x| ≤ |F.rnd x| := by
  have := h.err x
  have h2 := abs_add_le (x - F.rnd x) (F.rnd x)
  rw [sub_add_cancel, abs_sub_comm] at h2
  linarith

theorem rnd_eq_zero (h : FlOk F u v) {x : ℝ} : F.rnd x = 0 ↔ x = 0 := by
  constructor
  · intro e
    have := le_rnd_abs h x
    rw [e, abs_zero] at this
    have hu := h.u_small
    have := abs_nonneg x
    rw [← abs_eq_zero]
    nlinarith
  · rintro rfl; exact rnd_zero h

theorem rnd_nonneg (h : FlOk F u v) {x : ℝ} (hx : 0 ≤ x) : 0 ≤ F.rnd x := by
  have := h.mono hx
  rwa [rnd_zero h] at this

theorem rnd_sub_comm (h : FlOk F u v) (x y : ℝ) : F.rnd (x - y) = - F.rnd (y - x) := by rw [← h.odd]; congr 1; ring

theorem rnd_two (h : FlOk F u v) (x : ℝ) : F.rnd (2 * x) = 2 * F.rnd x := by
  have := h.half (2 * x)
  rw [mul_div_cancel_left₀ x (by norm_num : (2 : ℝ) ≠ 0)] at this
  linarith

/-- One rounding after an error. -/
theorem rnd_near (h : FlOk F u v) {x y a e : ℝ} (hxy : |x - y| ≤ e * a) (hy : |y| ≤ a) : |F.rnd x - y| ≤ ((1 + e) * (1 + u) - 1) * a := by
  have h1 := h.err x
  have h2 : |x| ≤ |y| + e * a := by
    have := abs_add_le (x - y) y
    rw [sub_add_cancel] at this
    linarith
  have h3 := abs_add_le (F.rnd x - x) (x - y)
  rw [sub_add_sub_cancel] at h3
  have h4 : u * |x| ≤ u * (a + e * a) := mul_le_mul_of_nonneg_left (by linarith) h.u_nonneg
  nlinarith

theorem mul_near {x x' y y' e f : ℝ} (hx : |x' - x| ≤ e * |x|) (hy : |y' - y| ≤ f * |y|) : |x' * y' - x * y| ≤ ((1 + e) * (1 + f) - 1) * |x * y| := by
  have e1 : x' * y' - x * y = (x' - x) * (y' - y) + (x' - x) * y + x * (y' - y) := by ring
  have h1 := abs_add_le ((x' - x) * (y' - y) + (x' - x) * y) (x * (y' - y))
  have h2 := abs_add_le ((x' - x) * (y' - y)) ((x' - x) * y)
  rw [e1]
  rw [abs_mul] at h1 h2 ⊢
  rw [abs_mul] at h2
  have k1 : |x' - x| * |y' - y| ≤ (e * |x|) * (f * |y|) := mul_le_mul hx hy (abs_nonneg _) (le_trans (abs_nonneg _) hx)
  have k2 : |x' - x| * |y| ≤ e * |x| * |y| := mul_le_mul_of_nonneg_right hx (abs_nonneg _)
  have k3 : |x| * |y' - y| ≤ |x| * (f * |y|) := mul_le_mul_of_nonneg_left hy (abs_nonneg _)
  nlinarith

/-- A rounded product of rounded differences, minus another one. -/
theorem cross_err (h : FlOk F u v) (a b c d : ℝ) :
    |F.rnd (F.rnd (F.rnd a * F.rnd b) - F.rnd (F.rnd c * F.rnd d)) - (a * b - c * d)| ≤ ((1 + u) ^ 4 - 1) * (|a * b| + |c * d|) := by
  have k : ∀ a b, |F.rnd (F.rnd a * F.rnd b) - a * b| ≤ ((1 + u) ^ 3 - 1) * |a * b| := by
    intro a b
    have := rnd_near h (mul_near (h.err a) (h.err b)) le_rfl
    refine this.trans (le_of_eq ?_); ring
  have h1 := k a b
  have h2 := k c d
  have h3 : |F.rnd (F.rnd a * F.rnd b) - F.rnd (F.rnd c * F.rnd d) - (a * b - c * d)| ≤ ((1 + u) ^ 3 - 1) * (|a * b| + |c * d|) := by
    have := abs_sub (F.rnd (F.rnd a * F.rnd b) - a * b) (F.rnd (F.rnd c * F.rnd d) - c * d)
    rw [show F.rnd (F.rnd a * F.rnd b) - F.rnd (F.rnd c * F.rnd d) - (a * b - c * d) = F.rnd (F.rnd a * F.rnd b) - a * b - (F.rnd (F.rnd c * F.rnd d) - c * d) by ring]
    linarith
  have := rnd_near h h3 (abs_sub _ _)
  refine this.trans (le_of_eq ?_); ring

theorem sign_of_err {x y e : ℝ} (h : |x - y| ≤ e) (hy : e < |y|) : (0 < x ↔ 0 < y) ∧ (x < 0 ↔ y < 0) := by
  rw [abs_le] at h
  rcases lt_abs.1 hy with h1 | h1
  · have : 0 < x := by linarith
    have h0 : 0 < y := by linarith [abs_nonneg (x - y), h.1, h.2]
    exact ⟨by simp [this, h0], by constructor <;> intro <;> linarith⟩
  · have : x < 0 := by linarith
    have h0 : y < 0 := by linarith [h.1, h.2]
    exact ⟨by constructor <;> intro <;> linarith, by simp [this, h0]⟩

theorem distPt_err (h : FlOk F u v) (p q : Pt ℝ) : |distPt F p q - eucl p q| ≤ ((1 + u) * (1 + v) - 1) * eucl p q := by
  set a := p.1 - q.1
  set b := p.2 - q.2
  have hE : eucl p q = Real.sqrt (a ^ 2 + b ^ 2) := rfl
  have hu := h.u_nonneg
  have hu1 := h.u_small
  have hv := h.v_nonneg
  set S := Real.sqrt (F.rnd a ^ 2 + F.rnd b ^ 2)
  have up : S ≤ (1 + u) * eucl p q := by
    rw [hE, show (1 + u) * Real.sqrt (a ^ 2 + b ^ 2) = Real.sqrt ((1 + u) ^ 2 * (a ^ 2 + b ^ 2)) by
      rw [Real.sqrt_mul (sq_nonneg _), Real.sqrt_sq (by linarith)]]
    apply Real.sqrt_le_sqrt
    have h1 := pow_le_pow_left₀ (abs_nonneg _) (rnd_abs_le h a) 2
    have h2 := pow_le_pow_left₀ (abs_nonneg _) (rnd_abs_le h b) 2
    rw [sq_abs, mul_pow, sq_abs] at h1 h2
    linarith
  have lo : (1 - u) * eucl p q ≤ S := by
    rw [hE, show (1 - u) * Real.sqrt (a ^ 2 + b ^ 2) = Real.sqrt ((1 - u) ^ 2 * (a ^ 2 + b ^ 2)) by
      rw [Real.sqrt_mul (sq_nonneg _), Real.sqrt_sq (by linarith)]]
    apply Real.sqrt_le_sqrt
    have h1 := pow_le_pow_left₀ (mul_nonneg (by linarith) (abs_nonneg _)) (le_rnd_abs h a) 2
    have h2 := pow_le_pow_left₀ (mul_nonneg (by linarith) (abs_nonneg _)) (le_rnd_abs h b) 2
    rw [sq_abs, mul_pow, sq_abs] at h1 h2
    linarith
  have hyp : |distPt F p q - S| ≤ v * S := h.hypErr _ _
  have hS : |S - eucl p q| ≤ u * eucl p q := by rw [abs_le]; constructor <;> linarith
  have h3 := abs_add_le (distPt F p q - S) (S - eucl p q)
  rw [sub_add_sub_cancel] at h3
  have h4 : v * S ≤ v * ((1 + u) * eucl p q) := mul_le_mul_of_nonneg_left up hv
  nlinarith

theorem hyp_zero (h : FlOk F u v) : F.hyp 0 0 = 0 := by
  have := h.hypErr 0 0
  simpa using this

/-- Errors of a sum. -/
theorem sumFl_err (h : FlOk F u v) {e : ℝ} (he : 0 ≤ e) (l : List (ℝ × ℝ × ℝ)) (hl : ∀ x ∈ l, |x.1 - x.2.1| ≤ e * x.2.2 ∧ |x.2.1| ≤ x.2.2) :
    |sumFl F (l.map Prod.fst) - (l.map fun x => x.2.1).sum| ≤ ((1 + u) ^ l.length * (1 + e) - 1) * (l.map fun x => x.2.2).sum ∧
    |(l.map fun x => x.2.1).sum| ≤ (l.map fun x => x.2.2).sum := by
  have hu := h.u_nonneg
  induction l using List.reverseRecOn with
  | nil => simp [sumFl]
  | append_singleton l x ih =>
    obtain ⟨i1, i2⟩ := ih fun y hy => hl y (by simp [hy])
    obtain ⟨x1, x2⟩ := hl x (by simp)
    have es : sumFl F ((l ++ [x]).map Prod.fst) = F.rnd (sumFl F (l.map Prod.fst) + x.1) := by simp [sumFl]
    rw [es]
    simp only [List.map_append, List.map_cons, List.map_nil, List.sum_append, List.sum_cons, List.sum_nil, add_zero, List.length_append, List.length_cons, List.length_nil, zero_add]
    generalize (l.map fun x => x.2.1).sum = S at *
    generalize (l.map fun x => x.2.2).sum = A at *
    generalize sumFl F (l.map Prod.fst) = S' at *
    have hx0 : 0 ≤ x.2.2 := le_trans (abs_nonneg _) x2
    have hpow : 1 ≤ (1 + u) ^ l.length := one_le_pow₀ (by linarith)
    set K := (1 + u) ^ l.length * (1 + e) with hK
    have hK1 : 1 + e ≤ K := by rw [hK]; nlinarith
    have h2 : |S + x.2.1| ≤ A + x.2.2 := (abs_add_le _ _).trans (by linarith)
    refine ⟨?_, h2⟩
    have h1 : |S' + x.1 - (S + x.2.1)| ≤ (K - 1) * (A + x.2.2) := by
      rw [show S' + x.1 - (S + x.2.1) = (S' - S) + (x.1 - x.2.1) by ring]
      refine (abs_add_le _ _).trans ?_
      have : e * x.2.2 ≤ (K - 1) * x.2.2 := mul_le_mul_of_nonneg_right (by linarith) hx0
      linarith
    have := rnd_near h h1 h2
    refine this.trans (le_of_eq ?_)
    rw [pow_succ, hK]; ring

theorem polyLen_eq (closed : Bool) (pts : List (Pt ℝ)) : polyLen F closed pts = sumFl F ((segPairs closed pts).map fun e => distPt F e.1 e.2) := by
  unfold polyLen sumFl; rw [List.foldl_map]

theorem area_eq (pts : List (Pt ℝ)) :
    (cycPairs pts).foldl (fun s e => F.rnd (F.rnd (s + F.rnd (e.1.1 * e.2.2)) - F.rnd (e.1.2 * e.2.1))) 0 =
      sumFl F ((cycPairs pts).flatMap fun e => [F.rnd (e.1.1 * e.2.2), - F.rnd (e.1.2 * e.2.1)]) := by
  unfold sumFl
  generalize (0 : ℝ) = s
  induction cycPairs pts generalizing s with
  | nil => rfl
  | cons e l ih =>
    simp only [List.foldl_cons, List.flatMap_cons, List.cons_append, List.nil_append]
    rw [ih, ← sub_eq_add_neg]

end H2d.Fl

namespace H2d.Fl

open H2d.Spec

variable {F : Arith} {u v : ℝ}

theorem distPt_comm (h : FlOk F u v) (p q : Pt ℝ) : distPt F p q = distPt F q p := by
  unfold distPt
  rw [rnd_sub_comm h p.1, rnd_sub_comm h p.2, h.hypNeg1, h.hypNeg2]

/-- The relative error of the distances. -/
theorem err_small (h : FlOk F u v) : 0 ≤ (1 + u) * (1 + v) - 1 ∧ (1 + u) * (1 + v) - 1 < 1 / 16 := by
  have h1 := h.u_nonneg
  have h2 := h.v_nonneg
  have h3 := h.u_small
  have h4 := h.v_small
  constructor <;> nlinarith

theorem sqDist_err (h : FlOk F u v) (p q : Pt ℝ) : |sqDist F p q - eucl p q ^ 2| ≤ ((1 + u) ^ 4 - 1) * eucl p q ^ 2 := by
  have k : ∀ a, |F.rnd (F.rnd a * F.rnd a) - a ^ 2| ≤ ((1 + u) ^ 3 - 1) * a ^ 2 := by
    intro a
    have := rnd_near h (mul_near (h.err a) (h.err a)) le_rfl
    rw [abs_of_nonneg (mul_self_nonneg a), ← sq a] at this
    refine this.trans (le_of_eq ?_); ring
  rw [eucl_sq]
  have h1 := k (p.1 - q.1)
  have h2 := k (p.2 - q.2)
  have h3 : |F.rnd (F.rnd (p.1 - q.1) * F.rnd (p.1 - q.1)) + F.rnd (F.rnd (p.2 - q.2) * F.rnd (p.2 - q.2)) - ((p.1 - q.1) ^ 2 + (p.2 - q.2) ^ 2)| ≤
      ((1 + u) ^ 3 - 1) * ((p.1 - q.1) ^ 2 + (p.2 - q.2) ^ 2) := by
    rw [show F.rnd (F.rnd (p.1 - q.1) * F.rnd (p.1 - q.1)) + F.rnd (F.rnd (p.2 - q.2) * F.rnd (p.2 - q.2)) - ((p.1 - q.1) ^ 2 + (p.2 - q.2) ^ 2) =
      (F.rnd (F.rnd (p.1 - q.1) * F.rnd (p.1 - q.1)) - (p.1 - q.1) ^ 2) + (F.rnd (F.rnd (p.2 - q.2) * F.rnd (p.2 - q.2)) - (p.2 - q.2) ^ 2) by ring]
    refine (abs_add_le _ _).trans ?_
    linarith
  have := rnd_near h h3 (le_of_eq (abs_of_nonneg (by positivity)))
  refine this.trans (le_of_eq ?_); ring

end H2d.Fl
