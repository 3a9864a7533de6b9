import Verif.Lemmas.FloatBisector

/-! # Centre of the circle of three points with rounded operations -/

namespace H2d.Fl
open H2d.Spec

variable {F : Arith} {u v : ℝ}

/-- A line that is, up to a factor, close to the set of points `x` such that `d · x = d · c`. -/
structure NearPerp (u M : ℝ) (d c : Pt ℝ) (m : V3 ℝ) (k : ℝ) : Prop where
  ne : k ≠ 0
  fst : |k * m 0 - d.1| ≤ 5 * u * |d.1|
  snd : |k * m 1 - d.2| ≤ 5 * u * |d.2|
  off : |k * m 2 + (d.1 * c.1 + d.2 * c.2)| ≤ 10 * u * ((|d.1| + |d.2|) * M)
  mid : |c.1| ≤ M ∧ |c.2| ≤ M

/-- Length of a vector. -/
noncomputable def vlen (d : Pt ℝ) : ℝ := Real.sqrt (d.1 ^ 2 + d.2 ^ 2)

theorem vlen_sum (d : Pt ℝ) : |d.1| + |d.2| ≤ 3 / 2 * vlen d := by
  unfold vlen
  have h1 := abs_nonneg d.1
  have h2 := abs_nonneg d.2
  have e : Real.sqrt (d.1 ^ 2 + d.2 ^ 2) = Real.sqrt (|d.1| ^ 2 + |d.2| ^ 2) := by rw [sq_abs, sq_abs]
  rw [e]
  have : 2 / 3 * (|d.1| + |d.2|) ≤ Real.sqrt (|d.1| ^ 2 + |d.2| ^ 2) := by
    apply Real.le_sqrt_of_sq_le
    nlinarith [sq_nonneg (|d.1| - |d.2|)]
  linarith

theorem NearPerp.norm (hu : 0 ≤ u) (hu1 : u ≤ 1 / 64) {M : ℝ} {d c : Pt ℝ} {m : V3 ℝ} {k : ℝ} (h : NearPerp u M d c m k) :
    (1 - 5 * u) * vlen d ≤ |k| * Real.sqrt (m 0 ^ 2 + m 1 ^ 2) ∧ |k| * Real.sqrt (m 0 ^ 2 + m 1 ^ 2) ≤ (1 + 5 * u) * vlen d := by
  have := sqrt_near (by positivity) (by linarith) h.fst h.snd
  rwa [mul_pow, mul_pow, ← mul_add, Real.sqrt_mul (sq_nonneg _), Real.sqrt_sq_eq_abs] at this

theorem NearPerp.pos (hu : 0 ≤ u) (hu1 : u ≤ 1 / 64) {M : ℝ} {d c : Pt ℝ} {m : V3 ℝ} {k : ℝ} (h : NearPerp u M d c m k) (hd : 0 < vlen d) : 0 < m 0 ^ 2 + m 1 ^ 2 := by
  have h1 := (h.norm hu hu1).1
  have h2 : 0 < |k| * Real.sqrt (m 0 ^ 2 + m 1 ^ 2) := lt_of_lt_of_le (mul_pos (by linarith) hd) h1
  exact Real.sqrt_pos.1 (pos_of_mul_pos_right h2 (abs_nonneg k))

/-- The distance to the origin. -/
theorem NearPerp.offLine (hu : 0 ≤ u) (hu1 : u ≤ 1 / 64) {M : ℝ} {d c : Pt ℝ} {m : V3 ℝ} {k : ℝ} (h : NearPerp u M d c m k) (hd : 0 < vlen d) : Spec.offLine m ≤ 2 * M := by
  have hM : 0 ≤ M := (abs_nonneg _).trans h.mid.1
  have hp := Real.sqrt_pos.2 (h.pos hu hu1 hd)
  have hk : 0 < |k| := abs_pos.2 h.ne
  unfold Spec.offLine
  rw [div_le_iff₀ hp]
  have h1 := (h.norm hu hu1).1
  have h2 : |k| * |m 2| ≤ (1 + 10 * u) * ((|d.1| + |d.2|) * M) := by
    rw [← abs_mul]
    have a := abs_sub_abs_le_abs_sub (k * m 2) (-(d.1 * c.1 + d.2 * c.2))
    rw [abs_neg, sub_neg_eq_add] at a
    have b := abs_add_le (d.1 * c.1) (d.2 * c.2)
    rw [abs_mul, abs_mul] at b
    have b1 := mul_le_mul_of_nonneg_left h.mid.1 (abs_nonneg d.1)
    have b2 := mul_le_mul_of_nonneg_left h.mid.2 (abs_nonneg d.2)
    linarith [h.off]
  have h3 := vlen_sum d
  have h4 : (|d.1| + |d.2|) * M ≤ 3 / 2 * vlen d * M := mul_le_mul_of_nonneg_right h3 hM
  have h5 : (1 + 10 * u) * ((|d.1| + |d.2|) * M) ≤ (1 + 10 / 64) * (3 / 2 * vlen d * M) := mul_le_mul (by linarith) h4 (by positivity) (by norm_num)
  have h6 : (1 - 5 / 64) * vlen d ≤ |k| * Real.sqrt (m 0 ^ 2 + m 1 ^ 2) := le_trans (mul_le_mul_of_nonneg_right (by linarith) hd.le) h1
  have h7 := mul_le_mul_of_nonneg_right h6 hM
  have h8 : 0 ≤ vlen d * M := mul_nonneg hd.le hM
  refine le_of_mul_le_mul_left ?_ hk
  calc |k| * |m 2| ≤ (1 + 10 / 64) * (3 / 2 * vlen d * M) := h2.trans h5
    _ ≤ 2 * ((1 - 5 / 64) * vlen d * M) := by linarith
    _ ≤ 2 * (|k| * Real.sqrt (m 0 ^ 2 + m 1 ^ 2) * M) := by linarith
    _ = |k| * (2 * M * Real.sqrt (m 0 ^ 2 + m 1 ^ 2)) := by ring

/-- The value of the line at a point of the exact one. -/
theorem NearPerp.residual (hu : 0 ≤ u) (hu1 : u ≤ 1 / 64) {M B : ℝ} {d c : Pt ℝ} {m : V3 ℝ} {k : ℝ} (h : NearPerp u M d c m k) (hd : 0 < vlen d) (hMB : M ≤ B)
    {O : Pt ℝ} (hO : |O.1| ≤ B ∧ |O.2| ≤ B) (hon : d.1 * O.1 + d.2 * O.2 = d.1 * c.1 + d.2 * c.2) :
    |m 0 * O.1 + m 1 * O.2 + m 2| ≤ 25 * u * B * Real.sqrt (m 0 ^ 2 + m 1 ^ 2) := by
  have hM : 0 ≤ M := (abs_nonneg _).trans h.mid.1
  have hB : 0 ≤ B := hM.trans hMB
  have hk : 0 < |k| := abs_pos.2 h.ne
  have h1 := (h.norm hu hu1).1
  have e : k * (m 0 * O.1 + m 1 * O.2 + m 2) = (k * m 0 - d.1) * O.1 + (k * m 1 - d.2) * O.2 + (k * m 2 + (d.1 * c.1 + d.2 * c.2)) := by linear_combination hon
  have h2 : |k| * |m 0 * O.1 + m 1 * O.2 + m 2| ≤ 15 * u * ((|d.1| + |d.2|) * B) := by
    rw [← abs_mul, e]
    have a := abs_add_three ((k * m 0 - d.1) * O.1) ((k * m 1 - d.2) * O.2) (k * m 2 + (d.1 * c.1 + d.2 * c.2))
    rw [abs_mul (k * m 0 - d.1), abs_mul (k * m 1 - d.2)] at a
    have b1 := mul_le_mul h.fst hO.1 (abs_nonneg _) (by positivity)
    have b2 := mul_le_mul h.snd hO.2 (abs_nonneg _) (by positivity)
    have b3 : 10 * u * ((|d.1| + |d.2|) * M) ≤ 10 * u * ((|d.1| + |d.2|) * B) := mul_le_mul_of_nonneg_left (mul_le_mul_of_nonneg_left hMB (by positivity)) (by positivity)
    linarith [h.off]
  have h3 := vlen_sum d
  have h4 : 15 * u * ((|d.1| + |d.2|) * B) ≤ 15 * u * (3 / 2 * vlen d * B) := mul_le_mul_of_nonneg_left (mul_le_mul_of_nonneg_right h3 hB) (by positivity)
  have h6 : (1 - 5 / 64) * vlen d ≤ |k| * Real.sqrt (m 0 ^ 2 + m 1 ^ 2) := le_trans (mul_le_mul_of_nonneg_right (by linarith) hd.le) h1
  have h7 := mul_le_mul_of_nonneg_left h6 (mul_nonneg hu hB)
  have h8 : 0 ≤ u * B * vlen d := mul_nonneg (mul_nonneg hu hB) hd.le
  refine le_of_mul_le_mul_left ?_ hk
  calc |k| * |m 0 * O.1 + m 1 * O.2 + m 2| ≤ 15 * u * (3 / 2 * vlen d * B) := h2.trans h4
    _ ≤ 25 * (u * B * ((1 - 5 / 64) * vlen d)) := by linarith
    _ ≤ 25 * (u * B * (|k| * Real.sqrt (m 0 ^ 2 + m 1 ^ 2))) := by linarith
    _ = |k| * (25 * u * B * Real.sqrt (m 0 ^ 2 + m 1 ^ 2)) := by ring

/-- Product of values with small relative errors. -/
theorem prod_near {x y x' y' : ℝ} (hu : 0 ≤ u) (hu1 : u ≤ 1 / 64) (hx : |x' - x| ≤ 5 * u * |x|) (hy : |y' - y| ≤ 5 * u * |y|) : |x' * y' - x * y| ≤ 21 / 2 * u * |x * y| := by
  have e : x' * y' - x * y = (x' - x) * y + x * (y' - y) + (x' - x) * (y' - y) := by ring
  rw [e, abs_mul x y]
  have a := abs_add_three ((x' - x) * y) (x * (y' - y)) ((x' - x) * (y' - y))
  rw [abs_mul, abs_mul, abs_mul] at a
  have hxy : 0 ≤ |x| * |y| := by positivity
  have b1 := mul_le_mul_of_nonneg_right hx (abs_nonneg y)
  have b2 := mul_le_mul_of_nonneg_left hy (abs_nonneg x)
  have b3 := mul_le_mul hx hy (abs_nonneg _) (by positivity)
  have b4 : 5 * u * |x| * (5 * u * |y|) ≤ 1 / 2 * u * (|x| * |y|) := by
    have : 25 * u * u * (|x| * |y|) ≤ 1 / 2 * u * (|x| * |y|) := mul_le_mul_of_nonneg_right (by nlinarith) hxy
    linarith
  linarith

/-- The angle of the lines. -/
theorem NearPerp.sin (hu : 0 ≤ u) (hu1 : u ≤ 1 / 64) {M : ℝ} {d c d' c' : Pt ℝ} {m m' : V3 ℝ} {k k' : ℝ} (h : NearPerp u M d c m k) (h' : NearPerp u M d' c' m' k') (hd : 0 < vlen d) (hd' : 0 < vlen d')
    {S : ℝ} (hS0 : 0 < S) (hSu : 100 * u ≤ S) (hS : S * (vlen d * vlen d') ≤ |d.1 * d'.2 - d.2 * d'.1|) : 3 / 4 * S ≤ sinLines m m' := by
  have hp := Real.sqrt_pos.2 (h.pos hu hu1 hd)
  have hp' := Real.sqrt_pos.2 (h'.pos hu hu1 hd')
  have hk : 0 < |k| := abs_pos.2 h.ne
  have hk' : 0 < |k'| := abs_pos.2 h'.ne
  have n1 := (h.norm hu hu1).2
  have n2 := (h'.norm hu hu1).2
  unfold sinLines
  rw [le_div_iff₀ (mul_pos hp hp')]
  have cs := cs_abs d.1 d.2 d'.1 d'.2
  change |d.1 * d'.2| + |d.2 * d'.1| ≤ vlen d * vlen d' at cs
  have p1 := prod_near hu hu1 h.fst h'.snd
  have p2 := prod_near hu hu1 h.snd h'.fst
  have det : |d.1 * d'.2 - d.2 * d'.1| - 21 / 2 * u * (vlen d * vlen d') ≤ |k| * |k'| * |m 0 * m' 1 - m 1 * m' 0| := by
    rw [← abs_mul, ← abs_mul, show k * k' * (m 0 * m' 1 - m 1 * m' 0) = k * m 0 * (k' * m' 1) - k * m 1 * (k' * m' 0) by ring]
    have a := abs_sub_abs_le_abs_sub (d.1 * d'.2 - d.2 * d'.1) (k * m 0 * (k' * m' 1) - k * m 1 * (k' * m' 0))
    have b : |d.1 * d'.2 - d.2 * d'.1 - (k * m 0 * (k' * m' 1) - k * m 1 * (k' * m' 0))| ≤ 21 / 2 * u * (|d.1 * d'.2| + |d.2 * d'.1|) := by
      rw [show d.1 * d'.2 - d.2 * d'.1 - (k * m 0 * (k' * m' 1) - k * m 1 * (k' * m' 0)) = (k * m 1 * (k' * m' 0) - d.2 * d'.1) - (k * m 0 * (k' * m' 1) - d.1 * d'.2) by ring]
      have := abs_sub (k * m 1 * (k' * m' 0) - d.2 * d'.1) (k * m 0 * (k' * m' 1) - d.1 * d'.2)
      linarith
    have c := mul_le_mul_of_nonneg_left cs (show 0 ≤ 21 / 2 * u by positivity)
    linarith
  have hDD : 0 < vlen d * vlen d' := mul_pos hd hd'
  have n3 : |k| * Real.sqrt (m 0 ^ 2 + m 1 ^ 2) * (|k'| * Real.sqrt (m' 0 ^ 2 + m' 1 ^ 2)) ≤ 117 / 100 * (vlen d * vlen d') := by
    have := mul_le_mul n1 n2 (by positivity) (mul_nonneg (by linarith) hd.le)
    have : (1 + 5 * u) * vlen d * ((1 + 5 * u) * vlen d') ≤ 117 / 100 * (vlen d * vlen d') := by
      have : (1 + 5 * u) * (1 + 5 * u) * (vlen d * vlen d') ≤ 117 / 100 * (vlen d * vlen d') := mul_le_mul_of_nonneg_right (by nlinarith) hDD.le
      linarith
    linarith
  refine le_of_mul_le_mul_left ?_ (mul_pos hk hk')
  have n4 := mul_le_mul_of_nonneg_left n3 (show 0 ≤ 3 / 4 * S by positivity)
  have n5 : 21 / 2 * u * (vlen d * vlen d') ≤ 21 / 200 * S * (vlen d * vlen d') := mul_le_mul_of_nonneg_right (by linarith) hDD.le
  have n6 : 0 ≤ S * (vlen d * vlen d') := by positivity
  linarith

/-- The point of the two lines. -/
theorem NearPerp.cross (h : FlOk F u v) {M B : ℝ} {d c d' c' : Pt ℝ} {m m' : V3 ℝ} {k k' : ℝ} (hm : NearPerp u M d c m k) (hm' : NearPerp u M d' c' m' k') (hd : 0 < vlen d) (hd' : 0 < vlen d')
    {S : ℝ} (hS0 : 0 < S) (hSu : 100 * u ≤ S) (hS : S * (vlen d * vlen d') ≤ |d.1 * d'.2 - d.2 * d'.1|) (hMB : M ≤ B)
    {O : Pt ℝ} (hO : |O.1| ≤ B ∧ |O.2| ≤ B) (hon : d.1 * O.1 + d.2 * O.2 = d.1 * c.1 + d.2 * c.2) (hon' : d'.1 * O.1 + d'.2 * O.2 = d'.1 * c'.1 + d'.2 * c'.2) :
    ∃ q, crossXY F m m' = some q ∧ eucl q O ≤ 130 * u * B / S := by
  have hu := h.u_nonneg
  have hu1 := h.u_small
  have hM : 0 ≤ M := (abs_nonneg _).trans hm.mid.1
  have hB : 0 ≤ B := hM.trans hMB
  have hs := hm.sin hu hu1 hm' hd hd' hS0 hSu hS
  obtain ⟨P, hP⟩ := exists_onBoth (lt_of_lt_of_le (by positivity) hs)
  have near := onBoth_near (a := 25 * u * B / S) (b := 25 * u * B / S) (hm.pos hu hu1 hd) (hm'.pos hu hu1 hd') hS0 hs hP
    (by rw [div_mul_cancel₀ _ hS0.ne']; exact hm.residual hu hu1 hd hMB hO hon) (by rw [div_mul_cancel₀ _ hS0.ne']; exact hm'.residual hu hu1 hd' hMB hO hon')
  obtain ⟨q, e, e1, e2⟩ := crossXY_err h (hm.pos hu hu1 hd) (hm'.pos hu hu1 hd') (s := 3 / 4 * S) (C := 2 * B) (by positivity) (by linarith) hs
    ((hm.offLine hu hu1 hd).trans (by linarith)) ((hm'.offLine hu hu1 hd').trans (by linarith)) hP
  refine ⟨q, e, ?_⟩
  have hε : 0 ≤ u * B / S := by positivity
  have hεB : u * B / S ≤ B / 100 := by
    rw [div_le_iff₀ hS0]
    nlinarith
  have near' : eucl O P ≤ 200 / 3 * (u * B / S) := near.trans (le_of_eq (by ring))
  have x1 : |O.1 - P.1| ≤ eucl O P := Real.abs_le_sqrt (by nlinarith [sq_nonneg (O.2 - P.2)])
  have x2 : |O.2 - P.2| ≤ eucl O P := Real.abs_le_sqrt (by nlinarith [sq_nonneg (O.1 - P.1)])
  have P1 : |P.1| ≤ 5 / 3 * B := by
    have := abs_sub_abs_le_abs_sub P.1 O.1
    rw [abs_sub_comm] at this
    linarith [hO.1]
  have P2 : |P.2| ≤ 5 / 3 * B := by
    have := abs_sub_abs_le_abs_sub P.2 O.2
    rw [abs_sub_comm] at this
    linarith [hO.2]
  have f : ∀ {x : ℝ}, |x| ≤ 5 / 3 * B → 6 * u * (2 * B + |x|) / (3 / 4 * S) ≤ 88 / 3 * (u * B / S) := by
    intro x hx
    rw [← mul_div_assoc, div_le_div_iff₀ (by positivity) hS0]
    have := mul_le_mul_of_nonneg_left hx (mul_nonneg hu hS0.le)
    nlinarith
  have g1 := e1.trans (f P1)
  have g2 := e2.trans (f P2)
  have qP : eucl q P ≤ 44 * (u * B / S) := by
    have := vlen_sum (q.1 - P.1, q.2 - P.2)
    unfold eucl
    apply Real.sqrt_le_iff.2
    refine ⟨by positivity, ?_⟩
    have s1 := sq_le_sq' (by linarith [abs_nonneg (q.1 - P.1)]) g1
    have s2 := sq_le_sq' (by linarith [abs_nonneg (q.2 - P.2)]) g2
    rw [sq_abs] at s1 s2
    nlinarith [sq_nonneg (u * B / S)]
  have tri := eucl_triangle q P O
  rw [eucl_comm P O] at tri
  calc eucl q O ≤ 44 * (u * B / S) + 200 / 3 * (u * B / S) := by linarith
    _ ≤ 130 * (u * B / S) := by linarith
    _ = 130 * u * B / S := by ring

end H2d.Fl
