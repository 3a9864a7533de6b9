import Verif.Lemmas.FloatParallel
import Verif.Lemmas.FloatInsideDemo
import Verif.Props.FloatAngle

/-! # C148: coordinates, sides, points and parallels of a line, with rounded arithmetic -/

namespace H2d.Props
open H2d H2d.Spec H2d.Fl

variable {F : Arith} {u v : ℝ}

/-- **C148, coordinate.** `getCoord` throws exactly when the value to divide by is below the null denominator. Otherwise the point with the given and the returned coordinate verifies the equation
of the line up to `25/8 u` times the size of the two other terms. -/
theorem C148_coord (h : FlOk F u v) (t : Thr ℝ) (ht : 0 < t.nullDenom) (l : V3 ℝ) (x : ℝ) :
    (Fl.lineCoord F t l true x = .throw ↔ |l 1| < t.nullDenom) ∧ (Fl.lineCoord F t l false x = .throw ↔ |l 0| < t.nullDenom) ∧
    (∀ y, Fl.lineCoord F t l true x = .ok y → |l 0 * x + l 1 * y + l 2| ≤ 25 / 8 * u * (|l 0 * x| + |l 2|)) ∧
    (∀ y, Fl.lineCoord F t l false x = .ok y → |l 0 * y + l 1 * x + l 2| ≤ 25 / 8 * u * (|l 1 * x| + |l 2|)) ∧
    Fl.lineCoord F t l true x ≠ .ub ∧ Fl.lineCoord F t l false x ≠ .ub := by
  have nz : ∀ b : ℝ, ¬ |b| < t.nullDenom → b ≠ 0 := by
    rintro b hb rfl
    rw [abs_zero] at hb; exact hb ht
  unfold Fl.lineCoord
  simp only [if_true, Bool.false_eq_true, if_false]
  refine ⟨?_, ?_, fun y hy => ?_, fun y hy => ?_, ?_, ?_⟩
  · split_ifs with e <;> simp [e]
  · split_ifs with e <;> simp [e]
  · split_ifs at hy with e
    injection hy with hy
    rw [← hy]; exact lineCoord_err h _ _ _ (nz _ e)
  · split_ifs at hy with e
    injection hy with hy
    rw [← hy, add_comm (l 0 * _)]; exact lineCoord_err h _ _ _ (nz _ e)
  · split_ifs <;> simp
  · split_ifs <;> simp

/-- The line `3/5 x + 4/5 y - 2 = 0` has both coordinates for the default thresholds. -/
example : ∃ y, Fl.lineCoord (binary 53) stdR ![3 / 5, 4 / 5, -2] true 2 = .ok y := by
  unfold Fl.lineCoord
  rw [if_neg (by norm_num [stdR, abs_of_pos])]
  exact ⟨_, if_pos rfl⟩

/-- **C148, side.** With `e` the error of the expression that is compared: a point farther than the null distance by `e` gets the right sign, a point nearer by `e` gets 0; and when `e` is below the null distance,
an answer that is not 0 is right. -/
theorem C148_side (h : FlOk F u v) (t : Thr ℝ) (l : V3 ℝ) (p : Pt ℝ) :
    let D := l 0 * p.1 + l 1 * p.2 + l 2
    let e := 25 / 8 * u * (|l 0 * p.1| + |l 1 * p.2| + |l 2|)
    (0 < t.nullDistance → t.nullDistance + e ≤ D → Fl.lineSide F t p l = 1) ∧ (0 < t.nullDistance → t.nullDistance + e ≤ - D → Fl.lineSide F t p l = -1) ∧ (|D| + e < t.nullDistance → Fl.lineSide F t p l = 0) ∧
    (e < t.nullDistance → (Fl.lineSide F t p l = 1 → 0 < D) ∧ (Fl.lineSide F t p l = -1 → D < 0)) ∧
    (Fl.lineSide F t p l = 0 → |D| < t.nullDistance + e) := by
  intro D e
  have hd : |F.rnd (F.rnd (F.rnd (l 0 * p.1) + F.rnd (l 1 * p.2)) + l 2) - D| ≤ e := side_err h l p
  have hs : Fl.lineSide F t p l = if |F.rnd (F.rnd (F.rnd (l 0 * p.1) + F.rnd (l 1 * p.2)) + l 2)| < t.nullDistance then 0 else
      if F.rnd (F.rnd (F.rnd (l 0 * p.1) + F.rnd (l 1 * p.2)) + l 2) < 0 then -1 else 1 := rfl
  rw [hs]
  generalize F.rnd (F.rnd (F.rnd (l 0 * p.1) + F.rnd (l 1 * p.2)) + l 2) = d at *
  obtain ⟨d1, d2⟩ := abs_le.1 hd
  refine ⟨fun h0 k => ?_, fun h0 k => ?_, fun k => ?_, fun k => ⟨fun k2 => ?_, fun k2 => ?_⟩, fun k => ?_⟩
  · rw [if_neg (by rw [abs_lt]; rintro ⟨-, h2⟩; linarith), if_neg (by linarith)]
  · rw [if_neg (by rw [abs_lt]; rintro ⟨h2, -⟩; linarith), if_pos (by linarith)]
  · rw [if_pos]
    have := abs_add_le (d - D) D
    rw [sub_add_cancel] at this
    linarith
  · split_ifs at k2 with c1 c2 <;> try cases k2
    rw [not_lt] at c1 c2
    rw [abs_of_nonneg c2] at c1
    linarith
  · split_ifs at k2 with c1 c2 <;> try cases k2
    rw [not_lt, abs_of_neg c2] at c1
    linarith
  · split_ifs at k with c1 c2 <;> try cases k
    have := abs_add_le (D - d) d
    rw [sub_add_cancel, abs_sub_comm] at this
    linarith

/-- For `double` and the default threshold, lines and points up to 10^5: the error is below the threshold. -/
example {l : V3 ℝ} {p : Pt ℝ} (h0 : |l 0 * p.1| ≤ 10 ^ 5) (h1 : |l 1 * p.2| ≤ 10 ^ 5) (h2 : |l 2| ≤ 2 * 10 ^ 4) :
    25 / 8 * u53 * (|l 0 * p.1| + |l 1 * p.2| + |l 2|) < stdR.nullDistance := by
  have : (u53 : ℝ) = 1 / 9007199254740992 := by norm_num
  have e : stdR.nullDistance = 1 / 10 ^ 10 := rfl
  rw [this, e]
  linarith

/-- **C148, points.** For a line with a direction: `getPoints` throws exactly when the computed distance of the point to the line is above the null distance. Otherwise the two points are those of the parallel through the given point
at the given distance of it, one on each side, with errors `u (|x| + 7 |d|)` and `u (|y| + 7 |d|)` on their coordinates; the first is before the second. -/
theorem C148_points (h : FlOk F u v) (t : Thr ℝ) {l : V3 ℝ} (hl : 0 < l 0 ^ 2 + l 1 ^ 2) (p : Pt ℝ) (d : ℝ) :
    (t.nullDistance < Fl.lineDist F l p → Fl.getPoints F t l p d = .throw) ∧
    (Fl.lineDist F l p ≤ t.nullDistance → ∃ a b A B : Pt ℝ, Fl.getPoints F t l p d = .ok (some (a, b)) ∧
      (a.1 < b.1 ∨ a.1 = b.1 ∧ a.2 ≤ b.2) ∧
      (l 0 * (A.1 - p.1) + l 1 * (A.2 - p.2) = 0 ∧ eucl p A = |d|) ∧ (l 0 * (B.1 - p.1) + l 1 * (B.2 - p.2) = 0 ∧ eucl p B = |d|) ∧
      (A.1 + B.1 = 2 * p.1 ∧ A.2 + B.2 = 2 * p.2) ∧
      (|a.1 - A.1| ≤ u * (|p.1| + 7 * |d|) ∧ |a.2 - A.2| ≤ u * (|p.2| + 7 * |d|)) ∧
      (|b.1 - B.1| ≤ u * (|p.1| + 7 * |d|) ∧ |b.2 - B.2| ≤ u * (|p.2| + 7 * |d|))) := by
  unfold Fl.getPoints
  refine ⟨fun k => if_pos k, fun k => ?_⟩
  rw [if_neg (not_lt.2 k)]
  obtain ⟨a, b, A, B, e, hA, hB, hAB, ha, hb⟩ := getPointsB2_eq h hl p d
  rw [e]
  have ho : (∃ x y, fixOrder a b = (x, y) ∧ (x.1 < y.1 ∨ x.1 = y.1 ∧ x.2 ≤ y.2)) ∧ (fixOrder a b = (a, b) ∨ fixOrder a b = (b, a)) := by
    unfold fixOrder
    by_cases k : ptLt a b = true
    · rw [if_neg (by simp [k])]
      refine ⟨⟨a, b, rfl, ?_⟩, Or.inl rfl⟩
      unfold ptLt at k
      rcases lt_trichotomy a.1 b.1 with c | c | c
      · exact Or.inl c
      · right
        refine ⟨c, ?_⟩
        simp [c] at k
        exact k.le
      · simp [c, not_lt.2 c.le] at k
    · rw [if_pos (by simp [k])]
      refine ⟨⟨b, a, rfl, ?_⟩, Or.inr rfl⟩
      unfold ptLt at k
      rcases lt_trichotomy a.1 b.1 with c | c | c
      · simp [c] at k
      · right
        refine ⟨c.symm, ?_⟩
        simp [c] at k
        exact k
      · exact Or.inl c
  obtain ⟨⟨x, y, e1, hxy⟩, e2⟩ := ho
  rw [e1]
  rcases e2 with e2 | e2 <;> rw [e1] at e2 <;> injection e2 with i1 i2 <;> subst i1 <;> subst i2
  · exact ⟨_, _, A, B, rfl, hxy, hA, hB, hAB, ha, hb⟩
  · exact ⟨_, _, B, A, rfl, hxy, hB, hA, ⟨by rw [add_comm]; exact hAB.1, by rw [add_comm]; exact hAB.2⟩, hb, ha⟩

/-- The line `x + y = 0` and the origin. -/
example : 0 < (![1, 1, 0] : V3 ℝ) 0 ^ 2 + (![1, 1, 0] : V3 ℝ) 1 ^ 2 ∧ Fl.lineDist (binary 53) ![1, 1, 0] (0, 0) ≤ stdR.nullDistance := by
  have h := binary_ok (p := 53) (by norm_num)
  refine ⟨by norm_num, ?_⟩
  unfold Fl.lineDist
  simp [rnd_zero h, stdR]

/-- **C148, parallel through a point.** For a line that is horizontal or not nearly so: the returned line is at a distance of the point of at most `5 u (|x| + |y|)`, and the sine of its angle with the line is at most `3 u`. -/
theorem C148_parallel (h : FlOk F u v) {t : Thr ℝ} {l m : V3 ℝ} {p : Pt ℝ} (hl : 0 < l 0 ^ 2 + l 1 ^ 2)
    (hg : l 0 = 0 ∨ t.nullDenom ≤ 9 / 10 * (|l 0| / Real.sqrt (l 0 ^ 2 + l 1 ^ 2))) (hm : Fl.parallelLine F t l p = .ok m) :
    |m 0 * p.1 + m 1 * p.2 + m 2| ≤ 5 * u * (|p.1| + |p.2|) * Real.sqrt (m 0 ^ 2 + m 1 ^ 2) ∧
    |l 0 * m 1 - l 1 * m 0| ≤ 3 * u * (Real.sqrt (l 0 ^ 2 + l 1 ^ 2) * Real.sqrt (m 0 ^ 2 + m 1 ^ 2)) ∧ 0 < m 0 ^ 2 + m 1 ^ 2 := parallelLine_near h hl hg hm

/-- There is a line parallel to `3 x + 4 y - 2 = 0` through (7,1). -/
example : ∃ m, Fl.parallelLine (binary 53) stdR ![3, 4, -2] (7, 1) = .ok m := by
  have h := binary_ok (p := 53) (by norm_num)
  have hh := abs_le.1 (h.hypErr 3 4)
  rw [show (3 : ℝ) ^ 2 + 4 ^ 2 = 5 * 5 by norm_num, Real.sqrt_mul_self (by norm_num)] at hh
  unfold Fl.parallelLine
  refine ⟨_, Fl.normalizeLine_ok _ _ ?_⟩
  simp only [Matrix.cons_val_zero, Matrix.cons_val_one]
  have : dblEps < 1 := by norm_num [dblEps]
  have key : ∀ G e : ℝ, -(e * 5) ≤ G - 5 → e ≤ 1 / 64 → 1 ≤ G := fun G e a b => by linarith
  exact lt_of_lt_of_le this (key _ _ hh.1 h.v_small)

/-- **C148, parallels at a distance.** Both lines have exactly the direction of the line. For a line whose normal has a length within `δ` of 1, any point on it is at the given distance of both, up to
`(δ |d| + u (|c| + |d|)) / (1 - δ)`. The line is between them if the distance is above `u (|c| + |d|)`. -/
theorem C148_parallels (h : FlOk F u v) {l : V3 ℝ} {δ : ℝ} (hδ : δ < 1) (hn : |Real.sqrt (l 0 ^ 2 + l 1 ^ 2) - 1| ≤ δ) (d : ℝ) {m : V3 ℝ}
    (hm : m = (Fl.parallelLines F l d).1 ∨ m = (Fl.parallelLines F l d).2) {p : Pt ℝ} (hp : l 0 * p.1 + l 1 * p.2 + l 2 = 0) :
    (m 0 = l 0 ∧ m 1 = l 1) ∧
    |(|m 0 * p.1 + m 1 * p.2 + m 2| / Real.sqrt (m 0 ^ 2 + m 1 ^ 2)) - (|d|)| ≤ (δ * |d| + u * (|l 2| + |d|)) / (1 - δ) ∧
    (u * (|l 2| + |d|) < d → ((m = (Fl.parallelLines F l d).1 → 0 < m 0 * p.1 + m 1 * p.2 + m 2) ∧ (m = (Fl.parallelLines F l d).2 → m 0 * p.1 + m 1 * p.2 + m 2 < 0))) := by
  have hu := h.u_nonneg
  obtain ⟨n1, n2⟩ := abs_le.1 hn
  have hdir : ∀ w, w = (Fl.parallelLines F l d).1 ∨ w = (Fl.parallelLines F l d).2 → (w 0 = l 0 ∧ w 1 = l 1) := by
    rintro w (rfl | rfl) <;> exact ⟨rfl, rfl⟩
  have hs : ∀ x, |F.rnd (l 2 + x) - (l 2 + x)| ≤ u * (|l 2| + |x|) := fun x => (h.err _).trans (mul_le_mul_of_nonneg_left (abs_add_le _ _) hu)
  have a1 := hs d
  have a2 := hs (-d)
  rw [abs_neg, ← sub_eq_add_neg] at a2
  have v1 : (Fl.parallelLines F l d).1 2 = F.rnd (l 2 + d) := rfl
  have v2 : (Fl.parallelLines F l d).2 2 = F.rnd (l 2 - d) := rfl
  obtain ⟨e0, e1⟩ := hdir m hm
  set g := Real.sqrt (l 0 ^ 2 + l 1 ^ 2)
  have hg : 1 - δ ≤ g := by linarith
  have hg0 : 0 < g := by linarith
  have hE : 0 ≤ u * (|l 2| + |d|) := by positivity
  have hval : |(|m 0 * p.1 + m 1 * p.2 + m 2|) - (|d|)| ≤ u * (|l 2| + |d|) := by
    rcases hm with rfl | rfl
    · rw [e0, e1, v1, show l 0 * p.1 + l 1 * p.2 + F.rnd (l 2 + d) = F.rnd (l 2 + d) - (l 2 + d) + d by linarith]
      refine (abs_abs_sub_abs_le _ _).trans ?_
      rw [add_sub_cancel_right]; exact a1
    · rw [e0, e1, v2, show l 0 * p.1 + l 1 * p.2 + F.rnd (l 2 - d) = F.rnd (l 2 - d) - (l 2 - d) + -d by linarith, ← abs_neg d]
      refine (abs_abs_sub_abs_le _ _).trans ?_
      rw [add_sub_cancel_right, abs_neg]; exact a2
  refine ⟨⟨e0, e1⟩, ?_, fun hd => ⟨?_, ?_⟩⟩
  · rw [show m 0 ^ 2 + m 1 ^ 2 = l 0 ^ 2 + l 1 ^ 2 by rw [e0, e1]]
    have q : |m 0 * p.1 + m 1 * p.2 + m 2| / g - |d| = ((|m 0 * p.1 + m 1 * p.2 + m 2| - |d|) - (g - 1) * |d|) / g := by field_simp; ring
    rw [q, abs_div, abs_of_pos hg0]
    have t1 := abs_sub (|m 0 * p.1 + m 1 * p.2 + m 2| - |d|) ((g - 1) * |d|)
    have t2 : |(g - 1) * (|d|)| ≤ δ * |d| := by rw [abs_mul, abs_abs]; exact mul_le_mul_of_nonneg_right hn (abs_nonneg _)
    have hδ0 : 0 ≤ δ := (abs_nonneg _).trans hn
    have hnum : 0 ≤ δ * |d| + u * (|l 2| + |d|) := add_nonneg (mul_nonneg hδ0 (abs_nonneg _)) hE
    exact div_le_div₀ hnum (by linarith) (by linarith) hg
  · intro e
    rw [e0, e1, e, v1]
    linarith [(abs_le.1 a1).1]
  · intro e
    rw [e0, e1, e, v2]
    linarith [(abs_le.1 a2).2]

/-- The vertical line x = 3 and the point (3,5). -/
example : |Real.sqrt ((![1, 0, -3] : V3 ℝ) 0 ^ 2 + (![1, 0, -3] : V3 ℝ) 1 ^ 2) - 1| ≤ 1 / 64 ∧ (![1, 0, -3] : V3 ℝ) 0 * 3 + (![1, 0, -3] : V3 ℝ) 1 * 5 + (![1, 0, -3] : V3 ℝ) 2 = 0 := by
  constructor <;> simp

/-- **C148, distance.** For lines found to be parallel whose coefficients have the same signs, `getParallelDistance` is a number, equal to its formula up to a relative error of `11 u`. -/
theorem C148_distance (h : FlOk F u v) {t : Thr ℝ} {ac : ℝ → ℝ} {l m : V3 ℝ} (hpar : Fl.isParallel F t ac l m = true) (h0 : 0 ≤ l 0 * m 0) (h1 : 0 ≤ l 1 * m 1) (hp : 0 < l 0 * m 0 + l 1 * m 1) :
    ∃ x, Fl.parallelDistance F t ac l m = .ok (some x) ∧
      |x - |l 2 - m 2| / Real.sqrt (l 0 * m 0 + l 1 * m 1)| ≤ 11 * u * (|l 2 - m 2| / Real.sqrt (l 0 * m 0 + l 1 * m 1)) := by
  obtain ⟨x, e, hx⟩ := parDist_err h h0 h1 hp
  refine ⟨x, ?_, hx⟩
  unfold Fl.parallelDistance
  rw [hpar, if_neg (by simp)]
  exact congrArg _ e

/-- **C148, distance of the parallels.** If the null angle is above the error of the angle: the distance between a line and those given by `getParallelLines` is a number, and it is the given one (divided by the length of the normal), up to
`u (13 |d| + 2 |c|)`. -/
theorem C148_roundtrip (h : FlOk F u v) {ac : ℝ → ℝ} {w : ℝ} (ha : AcosOk ac w) {t : Thr ℝ} (ht : Real.pi * Real.sqrt (11 * u / 2) + w * (Real.pi / 2) < t.nullAngleValue)
    {l : V3 ℝ} (hl : 0 < l 0 ^ 2 + l 1 ^ 2) (d : ℝ) {m : V3 ℝ} (hm : m = (Fl.parallelLines F l d).1 ∨ m = (Fl.parallelLines F l d).2) :
    ∃ x, Fl.parallelDistance F t ac l m = .ok (some x) ∧ |x - |d| / Real.sqrt (l 0 ^ 2 + l 1 ^ 2)| ≤ u * (13 * |d| + 2 * |l 2|) / Real.sqrt (l 0 ^ 2 + l 1 ^ 2) := by
  have hu := h.u_nonneg
  have hu1 := h.u_small
  obtain ⟨e0, e1⟩ : m 0 = l 0 ∧ m 1 = l 1 := by rcases hm with rfl | rfl <;> exact ⟨rfl, rfl⟩
  have hang : IsAngle l m 0 := by
    refine ⟨le_rfl, by positivity, ?_⟩
    rw [Real.cos_zero, one_mul, e0, e1, Real.mul_self_sqrt hl.le, ← sq (l 0), ← sq (l 1), abs_of_pos hl]
  have hpar : Fl.isParallel F t ac l m = true := (C112_parallel h ha t hl (by rw [e0, e1]; exact hl) hang).1 (by linarith)
  have eG : l 0 * m 0 + l 1 * m 1 = l 0 ^ 2 + l 1 ^ 2 := by rw [e0, e1]; ring
  obtain ⟨x, ex, hx⟩ := C148_distance h hpar (by rw [e0]; exact mul_self_nonneg _) (by rw [e1]; exact mul_self_nonneg _) (by rw [eG]; exact hl)
  refine ⟨x, ex, ?_⟩
  rw [eG] at hx
  have hg : 0 < Real.sqrt (l 0 ^ 2 + l 1 ^ 2) := Real.sqrt_pos.2 hl
  set g := Real.sqrt (l 0 ^ 2 + l 1 ^ 2)
  have hE : 0 ≤ u * (|l 2| + |d|) := by positivity
  have hd : |(|l 2 - m 2|) - (|d|)| ≤ u * (|l 2| + |d|) := by
    rcases hm with rfl | rfl
    · have a := (h.err (l 2 + d)).trans (mul_le_mul_of_nonneg_left (abs_add_le _ _) hu)
      rw [abs_sub_comm (l 2)]
      refine (abs_abs_sub_abs_le _ _).trans ?_
      rw [show (Fl.parallelLines F l d).1 2 - l 2 - d = F.rnd (l 2 + d) - (l 2 + d) by change F.rnd (l 2 + d) - l 2 - d = _; ring]; exact a
    · have a := (h.err (l 2 - d)).trans (mul_le_mul_of_nonneg_left (abs_sub _ _) hu)
      refine (abs_abs_sub_abs_le _ _).trans ?_
      rw [show l 2 - (Fl.parallelLines F l d).2 2 - d = - (F.rnd (l 2 - d) - (l 2 - d)) by change l 2 - F.rnd (l 2 - d) - d = _; ring, abs_neg]; exact a
  generalize |l 2 - m 2| = D at *
  obtain ⟨d1, d2⟩ := abs_le.1 hd
  have t1 := abs_add_le (x - D / g) (D / g - |d| / g)
  rw [sub_add_sub_cancel] at t1
  have t2 : |D / g - |d| / g| ≤ u * (|l 2| + |d|) / g := by
    rw [← sub_div, abs_div, abs_of_pos hg]; exact div_le_div_of_nonneg_right hd hg.le
  have t3 : 11 * u * (D / g) ≤ 11 * u * ((|d| + u * (|l 2| + |d|)) / g) := mul_le_mul_of_nonneg_left (div_le_div_of_nonneg_right (by linarith) hg.le) (by positivity)
  have t4 : 11 * u * ((|d| + u * (|l 2| + |d|)) / g) + u * (|l 2| + |d|) / g ≤ u * (13 * |d| + 2 * |l 2|) / g := by
    rw [← mul_div_assoc, ← add_div]
    apply div_le_div_of_nonneg_right _ hg.le
    have : u * (u * (|l 2| + |d|)) ≤ 1 / 64 * (u * (|l 2| + |d|)) := mul_le_mul_of_nonneg_right hu1 hE
    have p1 : 0 ≤ u * |d| := mul_nonneg hu (abs_nonneg _)
    have p2 : 0 ≤ u * |l 2| := mul_nonneg hu (abs_nonneg _)
    nlinarith
  linarith

/-- For `double` the condition on the angle holds for the default thresholds. -/
example : Real.pi * Real.sqrt (11 * u53 / 2) + u53 * (Real.pi / 2) < stdR.nullAngleValue := by
  have h1 : Real.sqrt (11 * u53 / 2) ≤ 1 / 10 ^ 5 := by
    rw [Real.sqrt_le_left (by norm_num)]; norm_num
  have h2 := mul_le_mul_of_nonneg_left h1 Real.pi_pos.le
  have h3 := Real.pi_le_four
  have : (u53 : ℝ) ≤ 1 / 10 ^ 10 := by norm_num
  have h4 := mul_le_mul_of_nonneg_right this (show 0 ≤ Real.pi / 2 by positivity)
  norm_num [stdR] at *
  linarith

/-- **C148, the condition on the signs is needed.** Whatever the thresholds for which lines can be found parallel: two nearly vertical lines, as stored by the library, found to be parallel and whose
distance is not a number. -/
theorem C148_sharp (h : FlOk F u v) {ac : ℝ → ℝ} {w : ℝ} (ha : AcosOk ac w) {t : Thr ℝ} (ht : Real.pi * Real.sqrt (11 * u / 2) + w * (Real.pi / 2) < t.nullAngleValue) (hd : t.nullDenom ≤ 1 / 2) :
    ∃ l m, NormLine t l ∧ NormLine t m ∧ Fl.isParallel F t ac l m = true ∧ Fl.parallelDistance F t ac l m = .ok none := by
  set E := Real.pi * Real.sqrt (11 * u / 2) + w * (Real.pi / 2)
  obtain ⟨f, hf0, hf1, hf2⟩ : ∃ f : ℝ, 0 < f ∧ f ≤ 1 / 3 ∧ 2 * f + E < t.nullAngleValue :=
    ⟨min (t.nullAngleValue - E) 1 / 3, by have := lt_min (sub_pos.2 ht) one_pos; linarith, by have := min_le_right (t.nullAngleValue - E) 1; linarith,
      by have := min_le_left (t.nullAngleValue - E) 1; have := lt_min (sub_pos.2 ht) one_pos; linarith⟩
  have hpi := Real.two_le_pi
  have hc : 1 / 2 ≤ Real.cos f := by
    have := Real.one_sub_sq_div_two_le_cos (x := f); nlinarith
  have hs : 0 < Real.sin f := Real.sin_pos_of_pos_of_lt_pi hf0 (by linarith)
  have hcs := Real.cos_sq_add_sin_sq f
  have hl : UnitNormal ![Real.cos f, Real.sin f, 0] := by simp [UnitNormal]
  have hm : UnitNormal ![Real.cos f, - Real.sin f, 0] := by simp [UnitNormal]
  have hl' : (![Real.cos f, Real.sin f, 0] : V3 ℝ) 0 ^ 2 + (![Real.cos f, Real.sin f, 0] : V3 ℝ) 1 ^ 2 = 1 := hl
  have hm' : (![Real.cos f, - Real.sin f, 0] : V3 ℝ) 0 ^ 2 + (![Real.cos f, - Real.sin f, 0] : V3 ℝ) 1 ^ 2 = 1 := hm
  have hang : IsAngle ![Real.cos f, Real.sin f, 0] ![Real.cos f, - Real.sin f, 0] (2 * f) := by
    refine ⟨by linarith, by linarith, ?_⟩
    rw [hl', hm', Real.cos_two_mul', Real.sqrt_one, mul_one, mul_one]
    simp only [Matrix.cons_val_zero, Matrix.cons_val_one]
    rw [abs_of_nonneg]
    · ring
    · have hsin : Real.sin f ≤ Real.cos f := by have := Real.sin_lt hf0; linarith
      nlinarith
  have hpar : Fl.isParallel F t ac ![Real.cos f, Real.sin f, 0] ![Real.cos f, - Real.sin f, 0] = true :=
    (C112_parallel h ha t (by rw [hl']; norm_num) (by rw [hm']; norm_num) hang).1 hf2
  refine ⟨_, _, ⟨hl, ?_, ?_⟩, ⟨hm, ?_, ?_⟩, hpar, ?_⟩
  · simp; linarith
  · simp; intro; linarith
  · simp; linarith
  · simp; intro; linarith
  · unfold Fl.parallelDistance
    rw [hpar, if_neg (by simp)]
    simp only [Matrix.cons_val_zero, Matrix.cons_val_one, mul_neg]
    have hneg : F.rnd (-(Real.sin f * Real.sin f)) < 0 := by
      rw [h.odd, neg_lt_zero]
      have := le_rnd_abs h (Real.sin f * Real.sin f)
      have hp := mul_pos hs hs
      rw [abs_of_pos hp, abs_of_nonneg (rnd_nonneg h hp.le)] at this
      have := h.u_small
      nlinarith
    have e1 : sqrtF F (F.rnd (-(Real.sin f * Real.sin f))) = none := if_pos hneg
    rw [e1]
    simp only [Option.bind_eq_bind, Option.bind_none]
    cases sqrtF F (F.rnd (Real.cos f * Real.cos f)) <;> rfl

/-- **C148, the error of `side` depends on the sizes.** With `p` bits: for any `n` and `k`, a point and a line `x + 2^-k y - c = 0` with representable values; the expression is exactly `2^n`, but the point is said to be
on the line, for any threshold. -/
theorem C148_side_sharp {p : ℕ} (hp : 6 ≤ p) (n k : ℕ) (t : Thr ℝ) (ht : 0 < t.nullDistance) : ∃ (q : Pt ℝ) (l : V3 ℝ), l 0 = 1 ∧ l 1 = 2 ^ (-(k : ℤ)) ∧ (∀ i, Rep (binary p) (l i)) ∧ Rep (binary p) q.1 ∧ Rep (binary p) q.2 ∧
    l 0 * q.1 + l 1 * q.2 + l 2 = 2 ^ n ∧ Fl.lineSide (binary p) t q l = 0 := by
  have h := binary_ok hp
  have rz : ∀ z : ℤ, (binary p).rnd ((2 : ℝ) ^ z) = 2 ^ z := by
    intro z
    have := roundTo_exact (p := p) (by omega) (m := 1) (k := z) (by rw [abs_one]; exact one_le_pow₀ (by norm_num))
    rw [Int.cast_one, one_mul] at this
    exact this
  have rn : ∀ j : ℕ, (binary p).rnd ((2 : ℝ) ^ j) = 2 ^ j := fun j => by simpa using rz j
  have r1 : (binary p).rnd 1 = 1 := by simpa using rn 0
  have hprod : (2 : ℝ) ^ (-(k : ℤ)) * 2 ^ (n + k) = 2 ^ n := by
    rw [zpow_neg, zpow_natCast, pow_add]; field_simp
  have hsum : (binary p).rnd (2 ^ (n + p + 2) + 2 ^ n) = 2 ^ (n + p + 2) := by
    have e1 : (2 : ℝ) ^ (n + p + 2) = ((2 ^ (p - 1) : ℤ) : ℝ) * (2 : ℝ) ^ ((n + 3 : ℕ) : ℤ) := by
      push_cast
      rw [show (2 : ℝ) ^ ((n : ℤ) + 3) = 2 ^ (n + 3) by exact_mod_cast zpow_natCast (2 : ℝ) (n + 3), ← pow_add]; congr 1; omega
    have := roundTo_of (p := p) (by omega) (x := 2 ^ (n + p + 2) + 2 ^ n) (m := 2 ^ (p - 1)) (k := ((n + 3 : ℕ) : ℤ)) ?_ ?_ ?_
    · rw [e1]; rw [← e1]; exact this.trans e1.symm
    · rw [show ((p : ℤ) - 1 + ((n + 3 : ℕ) : ℤ)) = ((n + p + 2 : ℕ) : ℤ) by push_cast; ring, zpow_natCast]
      have : (0 : ℝ) < 2 ^ n := by positivity
      linarith
    · rw [show ((p : ℤ) + ((n + 3 : ℕ) : ℤ)) = ((n + p + 2 + 1 : ℕ) : ℤ) by push_cast; ring, zpow_natCast, pow_succ _ (n + p + 2)]
      have : (2 : ℝ) ^ n < 2 ^ (n + p + 2) := pow_lt_pow_right₀ (by norm_num) (by omega)
      linarith
    · rw [e1, add_mul, mul_assoc, ← zpow_add₀ two_ne_zero, add_neg_cancel, zpow_zero, mul_one, add_sub_cancel_left, zpow_neg, zpow_natCast, pow_add]
      have : (2 : ℝ) ^ n ≠ 0 := by positivity
      rw [mul_inv, ← mul_assoc, mul_inv_cancel₀ this, abs_of_pos (by norm_num)]
      norm_num
  refine ⟨(2 ^ (n + p + 2), 2 ^ (n + k)), ![1, 2 ^ (-(k : ℤ)), -2 ^ (n + p + 2)], rfl, rfl, ?_, rn _, rn _, ?_, ?_⟩
  · intro i
    fin_cases i
    · exact r1
    · exact rz _
    · change (binary p).rnd (-2 ^ (n + p + 2)) = _
      rw [h.odd, rn]; rfl
  · simp only [Matrix.cons_val]
    rw [hprod]; ring
  · unfold Fl.lineSide
    simp only [Matrix.cons_val, one_mul]
    rw [hprod, rn, rn, hsum, add_neg_cancel, rnd_zero h, abs_zero, if_pos ht]

end H2d.Props
