import Verif.Lemmas.FloatCross
import Verif.Lemmas.FloatSeg
import Verif.Lemmas.Segment
import Verif.Props.FloatLine
import Mathlib.Analysis.Real.Pi.Bounds

/-! # Lemmas for the intersection of segments with rounded operations -/

namespace H2d.Fl
open H2d.Spec H2d.Props

variable {F : Arith} {u v : ℝ}

/-- A vector from its products with two directions. -/
theorem solve_two {a b c d x y : ℝ} : |a * d - b * c| * Real.sqrt (x ^ 2 + y ^ 2) ≤ |a * x + b * y| * Real.sqrt (c ^ 2 + d ^ 2) + |c * x + d * y| * Real.sqrt (a ^ 2 + b ^ 2) := by
  refine le_of_sq_le_sq ?_ (by positivity)
  have e1 : Real.sqrt (x ^ 2 + y ^ 2) ^ 2 = x ^ 2 + y ^ 2 := Real.sq_sqrt (by positivity)
  have e2 : Real.sqrt (c ^ 2 + d ^ 2) ^ 2 = c ^ 2 + d ^ 2 := Real.sq_sqrt (by positivity)
  have e3 : Real.sqrt (a ^ 2 + b ^ 2) ^ 2 = a ^ 2 + b ^ 2 := Real.sq_sqrt (by positivity)
  have hcs : |a * c + b * d| ≤ Real.sqrt (a ^ 2 + b ^ 2) * Real.sqrt (c ^ 2 + d ^ 2) := by
    have := cs_abs a b d c
    rw [add_comm (d ^ 2)] at this
    exact (abs_add_le _ _).trans this
  set n := Real.sqrt (a ^ 2 + b ^ 2)
  set m := Real.sqrt (c ^ 2 + d ^ 2)
  have k1 : |a * d - b * c| ^ 2 = (a * d - b * c) ^ 2 := sq_abs _
  have k2 : |a * x + b * y| ^ 2 = (a * x + b * y) ^ 2 := sq_abs _
  have k3 : |c * x + d * y| ^ 2 = (c * x + d * y) ^ 2 := sq_abs _
  have k4 : - (a * x + b * y) * (c * x + d * y) * (a * c + b * d) ≤ |a * x + b * y| * |c * x + d * y| * (n * m) := by
    refine (le_abs_self _).trans ?_
    rw [abs_mul, abs_mul, abs_neg]
    exact mul_le_mul_of_nonneg_left hcs (by positivity)
  have e : (|a * d - b * c| * Real.sqrt (x ^ 2 + y ^ 2)) ^ 2 = (a * d - b * c) ^ 2 * (x ^ 2 + y ^ 2) := by rw [mul_pow, k1, e1]
  have f : (|a * x + b * y| * m + |c * x + d * y| * n) ^ 2 = (a * x + b * y) ^ 2 * (c ^ 2 + d ^ 2) + (c * x + d * y) ^ 2 * (a ^ 2 + b ^ 2) + 2 * (|a * x + b * y| * |c * x + d * y| * (n * m)) := by
    rw [add_sq, mul_pow, mul_pow, k2, k3, e2, e3]; ring
  rw [e, f]
  nlinarith [k4]

/-- Two unit normals that are nearly orthogonal to two directions. -/
theorem cross_units {α β α' β' σ κ S : ℝ} (h1 : α ^ 2 + β ^ 2 = 1) (h2 : α' ^ 2 + β' ^ 2 = 1) (h3 : |κ| ≤ 1) (hS : S ≤ |σ|) (hS0 : 0 ≤ S) (hσ : |σ| ≤ 1) (ha : |α| ≤ S / 16) (hb : |α'| ≤ S / 16) :
    3 / 4 * S ≤ |σ * (α * α' + β * β') + κ * (α * β' - β * α')| := by
  have hS1 : S ≤ 1 := hS.trans hσ
  have b1 : |β| ≤ 1 := by rw [← sq_le_one_iff_abs_le_one]; nlinarith [sq_nonneg α]
  have b2 : |β'| ≤ 1 := by rw [← sq_le_one_iff_abs_le_one]; nlinarith [sq_nonneg α']
  have a1 : α ^ 2 ≤ (S / 16) ^ 2 := sq_le_sq' (by linarith [abs_le.1 ha]) (abs_le.1 ha).2
  have a2 : α' ^ 2 ≤ (S / 16) ^ 2 := sq_le_sq' (by linarith [abs_le.1 hb]) (abs_le.1 hb).2
  have hbb : 1 - 2 * (S / 16) ^ 2 ≤ |β * β'| := by
    have h0 : |β * β'| ≤ 1 := by rw [abs_mul]; exact mul_le_one₀ b1 (abs_nonneg _) b2
    have e : |β * β'| ^ 2 = β ^ 2 * β' ^ 2 := by rw [sq_abs, mul_pow]
    have l1 : 1 - (S / 16) ^ 2 ≤ β ^ 2 := by linarith
    have l2 : 1 - (S / 16) ^ 2 ≤ β' ^ 2 := by linarith
    have l3 : 0 ≤ 1 - (S / 16) ^ 2 := by nlinarith
    have := mul_le_mul l1 l2 l3 (sq_nonneg β)
    nlinarith [abs_nonneg (β * β'), sq_nonneg ((S / 16) ^ 2)]
  have haa : |α * α'| ≤ (S / 16) ^ 2 := by
    rw [abs_mul, pow_two]; exact mul_le_mul ha hb (abs_nonneg _) (by linarith)
  have k1 : |σ| * (1 - 3 * (S / 16) ^ 2) ≤ |σ * (α * α' + β * β')| := by
    rw [abs_mul]
    refine mul_le_mul_of_nonneg_left ?_ (abs_nonneg _)
    have := abs_sub_abs_le_abs_sub (β * β') (-(α * α'))
    rw [abs_neg, sub_neg_eq_add, add_comm (β * β')] at this
    linarith
  have k2 : |κ * (α * β' - β * α')| ≤ S / 8 := by
    rw [abs_mul]
    have i1 : |α * β' - β * α'| ≤ |α * β'| + |β * α'| := abs_sub _ _
    rw [abs_mul α, abs_mul β] at i1
    have i2 := mul_le_mul ha b2 (abs_nonneg _) (by linarith)
    have i3 := mul_le_mul b1 hb (abs_nonneg _) zero_le_one
    have i4 := mul_le_mul h3 (i1.trans (add_le_add i2 i3)) (abs_nonneg _) zero_le_one
    linarith
  have k3 := abs_sub_abs_le_abs_sub (σ * (α * α' + β * β')) (-(κ * (α * β' - β * α')))
  rw [abs_neg, sub_neg_eq_add] at k3
  have k4 : S * (1 - 3 * (S / 16) ^ 2) ≤ |σ| * (1 - 3 * (S / 16) ^ 2) := mul_le_mul_of_nonneg_right hS (by nlinarith)
  have k5 : S * (3 * (S / 16) ^ 2) ≤ S * (3 / 256) := mul_le_mul_of_nonneg_left (by nlinarith) hS0
  nlinarith

/-- Sine of the angle of two lines that are nearly along two segments. -/
theorem cross_lines {a b c d ax ay bx b_y nl nm LA LB S : ℝ} (hnl : 0 < nl) (hnm : 0 < nm) (hLA : 0 < LA) (hLB : 0 < LB) (el : nl ^ 2 = a ^ 2 + b ^ 2) (em : nm ^ 2 = c ^ 2 + d ^ 2)
    (eA : LA ^ 2 = ax ^ 2 + ay ^ 2) (eB : LB ^ 2 = bx ^ 2 + b_y ^ 2) (hS0 : 0 ≤ S) (hS : S * (LA * LB) ≤ |ax * b_y - ay * bx|)
    (ha : |a * ax + b * ay| ≤ S / 16 * (nl * LA)) (hb : |c * bx + d * b_y| ≤ S / 16 * (nm * LB)) : 3 / 4 * S * (nl * nm) ≤ |a * d - b * c| := by
  have hl : 0 < nl * LA := mul_pos hnl hLA
  have hm : 0 < nm * LB := mul_pos hnm hLB
  have hAB : 0 < LA * LB := mul_pos hLA hLB
  have hcs : |ax * b_y - ay * bx| ≤ LA * LB := by
    refine abs_le_of_sq_le_sq ?_ hAB.le
    rw [mul_pow, eA, eB]; nlinarith [sq_nonneg (ax * bx + ay * b_y)]
  have hcd : |ax * bx + ay * b_y| ≤ LA * LB := by
    refine abs_le_of_sq_le_sq ?_ hAB.le
    rw [mul_pow, eA, eB]; nlinarith [sq_nonneg (ax * b_y - ay * bx)]
  have key := cross_units (α := (a * ax + b * ay) / (nl * LA)) (β := (ax * b - ay * a) / (nl * LA)) (α' := (c * bx + d * b_y) / (nm * LB)) (β' := (bx * d - b_y * c) / (nm * LB))
    (σ := (ax * b_y - ay * bx) / (LA * LB)) (κ := (ax * bx + ay * b_y) / (LA * LB)) (S := S)
    (by rw [div_pow, div_pow, ← add_div, div_eq_one_iff_eq (by positivity), mul_pow, el, eA]; ring)
    (by rw [div_pow, div_pow, ← add_div, div_eq_one_iff_eq (by positivity), mul_pow, em, eB]; ring)
    (by rw [abs_div, abs_of_pos hAB]; exact div_le_one_of_le₀ hcd hAB.le)
    (by rw [abs_div, abs_of_pos hAB, le_div_iff₀ hAB]; exact hS) hS0
    (by rw [abs_div, abs_of_pos hAB]; exact div_le_one_of_le₀ hcs hAB.le)
    (by rw [abs_div, abs_of_pos hl, div_le_iff₀ hl]; exact ha)
    (by rw [abs_div, abs_of_pos hm, div_le_iff₀ hm]; exact hb)
  have e : (ax * b_y - ay * bx) / (LA * LB) * ((a * ax + b * ay) / (nl * LA) * ((c * bx + d * b_y) / (nm * LB)) + (ax * b - ay * a) / (nl * LA) * ((bx * d - b_y * c) / (nm * LB))) +
      (ax * bx + ay * b_y) / (LA * LB) * ((a * ax + b * ay) / (nl * LA) * ((bx * d - b_y * c) / (nm * LB)) - (ax * b - ay * a) / (nl * LA) * ((c * bx + d * b_y) / (nm * LB))) = (a * d - b * c) / (nl * nm) := by
    have e1 : (ax * b_y - ay * bx) * ((a * ax + b * ay) * (c * bx + d * b_y) + (ax * b - ay * a) * (bx * d - b_y * c)) +
      (ax * bx + ay * b_y) * ((a * ax + b * ay) * (bx * d - b_y * c) - (ax * b - ay * a) * (c * bx + d * b_y)) = (a * d - b * c) * (LA ^ 2 * LB ^ 2) := by
      rw [eA, eB]; ring
    field_simp
    linear_combination e1
  rw [e, abs_div, abs_of_pos (mul_pos hnl hnm), le_div_iff₀ (mul_pos hnl hnm)] at key
  exact key

/-- What is used of the line of a segment: it is within `ρ` of both ends. -/
structure NearLine (l : V3 ℝ) (s : Seg) (ρ : ℝ) : Prop where
  norm : 0 < l 0 ^ 2 + l 1 ^ 2
  fst : |l 0 * s.1.1 + l 1 * s.1.2 + l 2| ≤ ρ * Real.sqrt (l 0 ^ 2 + l 1 ^ 2)
  snd : |l 0 * s.2.1 + l 1 * s.2.2 + l 2| ≤ ρ * Real.sqrt (l 0 ^ 2 + l 1 ^ 2)

theorem far_not_same (h : FlOk F u v) (t : Thr ℝ) {p q : Pt ℝ} (hd : 2 * t.nullDistance ≤ eucl p q) (ht : 0 < t.nullDistance) : ¬ PtSame F t p q := by
  have a := abs_le.1 (distPt_err h p q)
  have b := err_small h
  show ¬ distPt F p q < t.nullDistance
  have := mul_le_mul_of_nonneg_right b.2.le (eucl_nonneg p q)
  linarith [a.1]

/-- The computed line of a segment. -/
theorem segLine_near (h : FlOk F u v) (t : Thr ℝ) (ht : 2 * dblEps ≤ t.nullDistance) {s : Seg} {M : ℝ} (hs : SegRep F M s) (hg : SlopeOk t s) (hd : 2 * t.nullDistance ≤ eucl s.1 s.2) :
    ∃ l, lineOfPts F t s.1 s.2 = .ok l ∧ NearLine l s (16 * u * M ^ 2 / eucl s.1 s.2) := by
  obtain ⟨r1, r2, m1, m2, m3, m4⟩ := hs
  have hnd : 0 < t.nullDistance := lt_of_lt_of_le (by have := dblEps_pos; linarith) ht
  have hns := far_not_same h t hd hnd
  obtain ⟨l, hl⟩ := (C106_defined F u v h t ht s.1 s.2 r1 r2).resolve_right fun k => hns k.1
  have hne : s.1 ≠ s.2 := by
    intro e; rw [e, eucl_self] at hd; linarith
  have hn := C106_normalised F u v h t s.1 s.2 l hl
  have hv := h.v_small
  have hv0 := h.v_nonneg
  have hu := h.u_small
  refine ⟨l, hl, ?_, C106_points_partial F u v h t s.1 s.2 r1 r2 M ⟨m1, m2, m3, m4⟩ hne hg l hl _ (Or.inl rfl), C106_points_partial F u v h t s.1 s.2 r1 r2 M ⟨m1, m2, m3, m4⟩ hne hg l hl _ (Or.inr rfl)⟩
  have : 0 < Real.sqrt (l 0 ^ 2 + l 1 ^ 2) := lt_of_lt_of_le (div_pos (by linarith) (by linarith)) hn.1
  exact Real.sqrt_pos.1 this

theorem NearLine.along {l : V3 ℝ} {s : Seg} {ρ : ℝ} (h : NearLine l s ρ) (k : ℝ) :
    |l 0 * (Spec.along s k).1 + l 1 * (Spec.along s k).2 + l 2| ≤ (|1 - k| + |k|) * (ρ * Real.sqrt (l 0 ^ 2 + l 1 ^ 2)) := by
  have e : l 0 * (Spec.along s k).1 + l 1 * (Spec.along s k).2 + l 2 = (1 - k) * (l 0 * s.1.1 + l 1 * s.1.2 + l 2) + k * (l 0 * s.2.1 + l 1 * s.2.2 + l 2) := by
    simp only [Spec.along]; ring
  rw [e]
  refine (abs_add_le _ _).trans ?_
  rw [abs_mul, abs_mul, add_mul]
  exact add_le_add (mul_le_mul_of_nonneg_left h.fst (abs_nonneg _)) (mul_le_mul_of_nonneg_left h.snd (abs_nonneg _))

theorem NearLine.dir {l : V3 ℝ} {s : Seg} {ρ : ℝ} (h : NearLine l s ρ) :
    |l 0 * (s.2.1 - s.1.1) + l 1 * (s.2.2 - s.1.2)| ≤ 2 * (ρ * Real.sqrt (l 0 ^ 2 + l 1 ^ 2)) := by
  have e : l 0 * (s.2.1 - s.1.1) + l 1 * (s.2.2 - s.1.2) = (l 0 * s.2.1 + l 1 * s.2.2 + l 2) - (l 0 * s.1.1 + l 1 * s.1.2 + l 2) := by ring
  rw [e]
  linarith [abs_sub (l 0 * s.2.1 + l 1 * s.2.2 + l 2) (l 0 * s.1.1 + l 1 * s.1.2 + l 2), h.fst, h.snd]

theorem NearLine.off {l : V3 ℝ} {s : Seg} {ρ M : ℝ} (h : NearLine l s ρ) (m1 : |s.1.1| ≤ M) (m2 : |s.1.2| ≤ M) : offLine l ≤ 3 / 2 * M + ρ := by
  have hn : 0 < Real.sqrt (l 0 ^ 2 + l 1 ^ 2) := Real.sqrt_pos.2 h.norm
  unfold offLine
  rw [div_le_iff₀ hn]
  have hM : 0 ≤ M := (abs_nonneg _).trans m1
  have h1 : |l 2| ≤ |l 0 * s.1.1 + l 1 * s.1.2 + l 2| + |l 0 * s.1.1 + l 1 * s.1.2| := by
    have := abs_sub (l 0 * s.1.1 + l 1 * s.1.2 + l 2) (l 0 * s.1.1 + l 1 * s.1.2)
    rwa [add_sub_cancel_left] at this
  have h2 : |l 0 * s.1.1 + l 1 * s.1.2| ≤ Real.sqrt (l 0 ^ 2 + l 1 ^ 2) * (3 / 2 * M) := by
    refine (abs_add_le _ _).trans ((cs_abs (l 0) (l 1) s.1.2 s.1.1).trans (mul_le_mul_of_nonneg_left ?_ hn.le))
    rw [Real.sqrt_le_left (by positivity)]
    have a := sq_le_sq' (abs_le.1 m1).1 (abs_le.1 m1).2
    have b := sq_le_sq' (abs_le.1 m2).1 (abs_le.1 m2).2
    nlinarith
  linarith [h.fst]

theorem eucl_sqrt (p q : Pt ℝ) : eucl p q = Real.sqrt ((p.1 - q.1) ^ 2 + (p.2 - q.2) ^ 2) := rfl

/-- The numbers: `κ = u M² / (L S)`. -/
theorem kappa_facts {u M L S LA : ℝ} (hu : 0 ≤ u) (hL : 0 < L) (hS : 0 < S) (hS1 : S ≤ 1) (hLA : L ≤ LA) (hM : LA ≤ 3 * M) (hb : 512 * (u * M ^ 2) ≤ S * L ^ 2) :
    0 < M ∧ 0 ≤ u * M ^ 2 / (L * S) ∧ 16 * u * M ^ 2 / LA ≤ 16 * (u * M ^ 2 / (L * S)) * S ∧ u * M / S ≤ 3 * (u * M ^ 2 / (L * S)) ∧ u * M ^ 2 / (L * S) ≤ 3 / 512 * M ∧ 50 * u ≤ S ∧
      16 * u * M ^ 2 / LA ≤ S / 32 * LA ∧ u * M ^ 2 / (L * S) ≤ L / 512 := by
  have hM0 : 0 < M := by linarith
  have hLA0 : 0 < LA := by linarith
  have hk : 0 ≤ u * M ^ 2 / (L * S) := by positivity
  have hκ : u * M ^ 2 / (L * S) ≤ L / 512 := by rw [div_le_iff₀ (by positivity)]; nlinarith
  refine ⟨hM0, hk, ?_, ?_, by linarith, ?_, ?_, hκ⟩
  · have e : 16 * (u * M ^ 2 / (L * S)) * S = 16 * u * M ^ 2 / L := by field_simp
    rw [e]
    exact div_le_div_of_nonneg_left (by positivity) hL hLA
  · rw [div_le_iff₀ hS]
    have e : 3 * (u * M ^ 2 / (L * S)) * S = u * M * (3 * M) / L := by field_simp
    rw [e, le_div_iff₀ hL]
    exact mul_le_mul_of_nonneg_left (by linarith) (by positivity)
  · have h1 : S * L ^ 2 ≤ S * (9 * M ^ 2) := mul_le_mul_of_nonneg_left (by nlinarith) hS.le
    have h2 : 512 * u * M ^ 2 ≤ 9 * S * M ^ 2 := by linarith
    have := le_of_mul_le_mul_right h2 (by positivity)
    linarith
  · rw [div_le_iff₀ hLA0]
    have : S * L ^ 2 ≤ S * LA ^ 2 := mul_le_mul_of_nonneg_left (by nlinarith) hS.le
    nlinarith

theorem sinSegs_cross {s s' : Seg} {S : ℝ} (h1 : 0 < eucl s.1 s.2) (h2 : 0 < eucl s'.1 s'.2) (h : S ≤ sinSegs s s') :
    S * (eucl s.1 s.2 * eucl s'.1 s'.2) ≤ |(s.2.1 - s.1.1) * (s'.2.2 - s'.1.2) - (s.2.2 - s.1.2) * (s'.2.1 - s'.1.1)| := by
  unfold sinSegs at h
  rwa [le_div_iff₀ (mul_pos h1 h2)] at h

theorem eucl_sq' (p q : Pt ℝ) : eucl p q ^ 2 = (q.1 - p.1) ^ 2 + (q.2 - p.2) ^ 2 := by rw [eucl_sq]; ring

theorem sinSegs_le_one (s s' : Seg) : sinSegs s s' ≤ 1 := by
  unfold sinSegs
  refine div_le_one_of_le₀ ?_ (mul_nonneg (eucl_nonneg _ _) (eucl_nonneg _ _))
  refine abs_le_of_sq_le_sq ?_ (mul_nonneg (eucl_nonneg _ _) (eucl_nonneg _ _))
  rw [mul_pow, eucl_sq', eucl_sq']
  nlinarith [sq_nonneg ((s.2.1 - s.1.1) * (s'.2.1 - s'.1.1) + (s.2.2 - s.1.2) * (s'.2.2 - s'.1.2))]

theorem sinSegs_comm (s s' : Seg) : sinSegs s s' = sinSegs s' s := by
  unfold sinSegs
  rw [mul_comm (eucl s.1 s.2), ← abs_neg]; congr 2; ring

theorem _root_.H2d.Spec.SegPair.symm {t : Thr ℝ} {w M L S : ℝ} {s s' : Seg} (h : SegPair F t u w M L S s s') : SegPair F t u w M L S s' s :=
  ⟨h.rep2, h.rep1, h.slope2, h.slope1, h.L_pos, h.len2, h.len1, h.S_pos, by rw [sinSegs_comm]; exact h.sin, h.small, h.thr, h.eps, h.angle⟩

theorem pair_not_same (h : FlOk F u v) {t : Thr ℝ} {w M L S : ℝ} {s s' : Seg} (hp : SegPair F t u w M L S s s') : ¬ SegSame F t s s' := by
  rintro ⟨a, b⟩
  have hL := hp.L_pos
  have l1 := hp.len1
  have l2 := hp.len2
  have b1 := err_small h
  have near : ∀ {p q : Pt ℝ}, PtSame F t p q → eucl p q ≤ 16 / 15 * t.nullDistance := by
    intro p q k
    have k : distPt F p q < t.nullDistance := k
    have a := abs_le.1 (distPt_err h p q)
    have := mul_le_mul_of_nonneg_right b1.2.le (eucl_nonneg p q)
    linarith [a.1]
  have na := near a
  have nb := near b
  have hc := sinSegs_cross (by linarith) (by linarith) hp.sin
  have h1 : 0 < eucl s.1 s.2 := by linarith
  have e : (s.2.1 - s.1.1) * (s'.2.2 - s'.1.2) - (s.2.2 - s.1.2) * (s'.2.1 - s'.1.1) =
      ((s.2.1 - s.1.1) * (s.1.2 - s'.1.2) - (s.2.2 - s.1.2) * (s.1.1 - s'.1.1)) - ((s.2.1 - s.1.1) * (s.2.2 - s'.2.2) - (s.2.2 - s.1.2) * (s.2.1 - s'.2.1)) := by ring
  have cs : ∀ p q : Pt ℝ, |(s.2.1 - s.1.1) * (p.2 - q.2) - (s.2.2 - s.1.2) * (p.1 - q.1)| ≤ eucl s.1 s.2 * eucl p q := by
    intro p q
    refine abs_le_of_sq_le_sq ?_ (mul_nonneg (eucl_nonneg _ _) (eucl_nonneg _ _))
    rw [mul_pow, eucl_sq', eucl_sq]
    nlinarith [sq_nonneg ((s.2.1 - s.1.1) * (p.1 - q.1) + (s.2.2 - s.1.2) * (p.2 - q.2))]
  have c1 := cs s.1 s'.1
  have c2 := cs s.2 s'.2
  have c3 := abs_sub ((s.2.1 - s.1.1) * (s.1.2 - s'.1.2) - (s.2.2 - s.1.2) * (s.1.1 - s'.1.1)) ((s.2.1 - s.1.1) * (s.2.2 - s'.2.2) - (s.2.2 - s.1.2) * (s.2.1 - s'.2.1))
  rw [← e] at c3
  have c4 := mul_le_mul_of_nonneg_left na h1.le
  have c5 := mul_le_mul_of_nonneg_left nb h1.le
  have c6 : eucl s.1 s.2 * (S * eucl s'.1 s'.2) ≤ eucl s.1 s.2 * (32 / 15 * t.nullDistance) := by linarith
  have c7 := le_of_mul_le_mul_left c6 h1
  have c8 := mul_le_mul_of_nonneg_left l2 hp.S_pos.le
  have := hp.thr
  have := hp.eps
  have := dblEps_pos
  linarith

/-- The lines of the two segments: near, with an angle. -/
theorem pair_lines (h : FlOk F u v) {t : Thr ℝ} {w M L S : ℝ} {s s' : Seg} (hp : SegPair F t u w M L S s s') :
    ∃ l m, lineOfPts F t s.1 s.2 = .ok l ∧ lineOfPts F t s'.1 s'.2 = .ok m ∧ NearLine l s (16 * u * M ^ 2 / eucl s.1 s.2) ∧ NearLine m s' (16 * u * M ^ 2 / eucl s'.1 s'.2) ∧
      3 / 4 * S ≤ sinLines l m := by
  have hL := hp.L_pos
  have l1 := hp.len1
  have l2 := hp.len2
  have hS1 : S ≤ 1 := hp.sin.trans (sinSegs_le_one s s')
  have hS := hp.S_pos
  have hnd : 0 < t.nullDistance := lt_of_lt_of_le (by have := dblEps_pos; linarith) hp.eps
  have hth := hp.thr
  have hSL : S * L ≤ L := by nlinarith
  obtain ⟨r1, r2, m1, m2, m3, m4⟩ := hp.rep1
  obtain ⟨r1', r2', m1', m2', m3', m4'⟩ := hp.rep2
  obtain ⟨l, el, nl⟩ := segLine_near h t hp.eps hp.rep1 hp.slope1 (by linarith)
  obtain ⟨m, em, nm⟩ := segLine_near h t hp.eps hp.rep2 hp.slope2 (by linarith)
  refine ⟨l, m, el, em, nl, nm, ?_⟩
  have k1 := (kappa_facts h.u_nonneg hL hS hS1 l1 (eucl_le_3M ⟨m1, m2⟩ ⟨m3, m4⟩) hp.small).2.2.2.2.2.2.1
  have k2 := (kappa_facts h.u_nonneg hL hS hS1 l2 (eucl_le_3M ⟨m1', m2'⟩ ⟨m3', m4'⟩) hp.small).2.2.2.2.2.2.1
  have n1 : 0 < Real.sqrt (l 0 ^ 2 + l 1 ^ 2) := Real.sqrt_pos.2 nl.norm
  have n2 : 0 < Real.sqrt (m 0 ^ 2 + m 1 ^ 2) := Real.sqrt_pos.2 nm.norm
  have d1 := nl.dir
  have d2 := nm.dir
  unfold sinLines
  rw [le_div_iff₀ (mul_pos n1 n2)]
  refine cross_lines n1 n2 (LA := eucl s.1 s.2) (LB := eucl s'.1 s'.2) (by linarith) (by linarith) (Real.sq_sqrt (by positivity)) (Real.sq_sqrt (by positivity)) (eucl_sq' _ _) (eucl_sq' _ _) hS.le
    (sinSegs_cross (by linarith) (by linarith) hp.sin) (d1.trans ?_) (d2.trans ?_)
  · have := mul_le_mul_of_nonneg_right k1 n1.le
    linarith
  · have := mul_le_mul_of_nonneg_right k2 n2.le
    linarith

/-- Lines that are not nearly parallel are not declared parallel. -/
theorem not_parallel (h : FlOk F u v) {ac : ℝ → ℝ} {w : ℝ} (ha : AcosOk ac w) (t : Thr ℝ) {l m : V3 ℝ} (hl : 0 < l 0 ^ 2 + l 1 ^ 2) (hm : 0 < m 0 ^ 2 + m 1 ^ 2)
    (hs : t.nullAngleValue + (Real.pi * Real.sqrt (11 * u / 2) + w * (Real.pi / 2)) ≤ sinLines l m) : isParallel F t ac l m = false := by
  have n1 : 0 < Real.sqrt (l 0 ^ 2 + l 1 ^ 2) := Real.sqrt_pos.2 hl
  have n2 : 0 < Real.sqrt (m 0 ^ 2 + m 1 ^ 2) := Real.sqrt_pos.2 hm
  have e1 : Real.sqrt (l 0 ^ 2 + l 1 ^ 2) ^ 2 = l 0 ^ 2 + l 1 ^ 2 := Real.sq_sqrt hl.le
  have e2 : Real.sqrt (m 0 ^ 2 + m 1 ^ 2) ^ 2 = m 0 ^ 2 + m 1 ^ 2 := Real.sq_sqrt hm.le
  have hN := mul_pos n1 n2
  set x := |l 0 * m 0 + l 1 * m 1| / (Real.sqrt (l 0 ^ 2 + l 1 ^ 2) * Real.sqrt (m 0 ^ 2 + m 1 ^ 2)) with hx
  have hx0 : 0 ≤ x := by positivity
  have hsum : x ^ 2 + sinLines l m ^ 2 = 1 := by
    rw [hx, sinLines, div_pow, div_pow, ← add_div, div_eq_one_iff_eq (by positivity), sq_abs, sq_abs, mul_pow, e1, e2]; ring
  have hx1 : x ≤ 1 := by nlinarith [sq_nonneg (sinLines l m)]
  have hφ : IsAngle l m (Real.arccos x) := by
    refine ⟨Real.arccos_nonneg _, Real.arccos_le_pi_div_two.2 hx0, ?_⟩
    rw [Real.cos_arccos (by linarith) hx1, hx, div_mul_cancel₀ _ hN.ne']
  obtain ⟨θ, -, e, -, -, -, -, -, -, hd⟩ := lineAngle_err h ha hl hm hφ
  have hsin : sinLines l m ≤ Real.arccos x := by
    have h0 : 0 ≤ sinLines l m := by unfold sinLines; positivity
    have : Real.sin (Real.arccos x) = sinLines l m := by
      rw [Real.sin_arccos, show 1 - x ^ 2 = sinLines l m ^ 2 by linarith, Real.sqrt_sq h0]
    rw [← this]
    exact Real.sin_le (Real.arccos_nonneg _)
  have hd := abs_le.1 hd
  unfold isParallel
  rw [e]
  exact decide_eq_false (by linarith [hd.1])

theorem eucl_le_max {p q : Pt ℝ} {b : ℝ} (h1 : |p.1 - q.1| ≤ b) (h2 : |p.2 - q.2| ≤ b) : eucl p q ≤ 3 / 2 * b := by
  have hb : 0 ≤ b := (abs_nonneg _).trans h1
  apply Real.sqrt_le_iff.2
  refine ⟨by positivity, ?_⟩
  have a := sq_le_sq' (abs_le.1 h1).1 (abs_le.1 h1).2
  have c := sq_le_sq' (abs_le.1 h2).1 (abs_le.1 h2).2
  nlinarith

theorem abs_fst_le_eucl (p q : Pt ℝ) : |p.1 - q.1| ≤ eucl p q := Real.abs_le_sqrt (by nlinarith [sq_nonneg (p.2 - q.2)])
theorem abs_snd_le_eucl (p q : Pt ℝ) : |p.2 - q.2| ≤ eucl p q := Real.abs_le_sqrt (by nlinarith [sq_nonneg (p.1 - q.1)])

/-- Lines that are not parallel have a common point. -/
theorem exists_onBoth {l m : V3 ℝ} (h : 0 < sinLines l m) : ∃ Q, OnBoth l m Q := by
  have hd : l 0 * m 1 - l 1 * m 0 ≠ 0 := by
    intro e; unfold sinLines at h; rw [e] at h; simp at h
  refine ⟨((l 1 * m 2 - l 2 * m 1) / (l 0 * m 1 - l 1 * m 0), (l 2 * m 0 - l 0 * m 2) / (l 0 * m 1 - l 1 * m 0)), mul_left_cancel₀ hd ?_, mul_left_cancel₀ hd ?_⟩
  · linear_combination l 0 * (div_mul_cancel₀ (l 1 * m 2 - l 2 * m 1) hd) + l 1 * (div_mul_cancel₀ (l 2 * m 0 - l 0 * m 2) hd)
  · linear_combination m 0 * (div_mul_cancel₀ (l 1 * m 2 - l 2 * m 1) hd) + m 1 * (div_mul_cancel₀ (l 2 * m 0 - l 0 * m 2) hd)

/-- A point that is near both lines is near their common point. -/
theorem onBoth_near {l m : V3 ℝ} {S a b : ℝ} (hl : 0 < l 0 ^ 2 + l 1 ^ 2) (hm : 0 < m 0 ^ 2 + m 1 ^ 2) (hS : 0 < S) (hs : 3 / 4 * S ≤ sinLines l m) {P Q : Pt ℝ} (hQ : OnBoth l m Q)
    (ha : |l 0 * P.1 + l 1 * P.2 + l 2| ≤ a * S * Real.sqrt (l 0 ^ 2 + l 1 ^ 2)) (hb : |m 0 * P.1 + m 1 * P.2 + m 2| ≤ b * S * Real.sqrt (m 0 ^ 2 + m 1 ^ 2)) :
    eucl P Q ≤ 4 / 3 * (a + b) := by
  have n1 : 0 < Real.sqrt (l 0 ^ 2 + l 1 ^ 2) := Real.sqrt_pos.2 hl
  have n2 : 0 < Real.sqrt (m 0 ^ 2 + m 1 ^ 2) := Real.sqrt_pos.2 hm
  have hN := mul_pos n1 n2
  unfold sinLines at hs
  rw [le_div_iff₀ hN] at hs
  have key := solve_two (a := l 0) (b := l 1) (c := m 0) (d := m 1) (x := P.1 - Q.1) (y := P.2 - Q.2)
  obtain ⟨q1, q2⟩ := hQ
  rw [show l 0 * (P.1 - Q.1) + l 1 * (P.2 - Q.2) = l 0 * P.1 + l 1 * P.2 + l 2 by linear_combination -q1,
    show m 0 * (P.1 - Q.1) + m 1 * (P.2 - Q.2) = m 0 * P.1 + m 1 * P.2 + m 2 by linear_combination -q2, ← eucl_sqrt] at key
  have k1 := mul_le_mul_of_nonneg_right ha n2.le
  have k2 := mul_le_mul_of_nonneg_right hb n1.le
  have k3 := mul_le_mul_of_nonneg_right hs (eucl_nonneg P Q)
  have hSN : 0 < S * (Real.sqrt (l 0 ^ 2 + l 1 ^ 2) * Real.sqrt (m 0 ^ 2 + m 1 ^ 2)) := mul_pos hS hN
  have k4 : S * (Real.sqrt (l 0 ^ 2 + l 1 ^ 2) * Real.sqrt (m 0 ^ 2 + m 1 ^ 2)) * (3 / 4 * eucl P Q) ≤ S * (Real.sqrt (l 0 ^ 2 + l 1 ^ 2) * Real.sqrt (m 0 ^ 2 + m 1 ^ 2)) * (a + b) := by linarith
  have := le_of_mul_le_mul_left k4 hSN
  linarith

theorem dist_e (h : FlOk F u v) : (1 + u) * (1 + v) - 1 ≤ 65 / 64 * (u + v) := by
  have h1 := h.u_nonneg
  have h2 := h.v_nonneg
  have h3 := h.u_small
  have h4 := h.v_small
  nlinarith

/-- The number that is compared with the threshold. -/
theorem between_num (h : FlOk F u v) (s : Seg) (p : Pt ℝ) :
    |F.rnd (distPt F s.1 p + distPt F s.2 p) - distPt F s.1 s.2 - (eucl s.1 p + eucl s.2 p - eucl s.1 s.2)| ≤ (65 / 64 * (u + v) + 17 / 16 * u) * (eucl s.1 p + eucl s.2 p) + 65 / 64 * (u + v) * eucl s.1 s.2 := by
  have h1 := abs_le.1 (distPt_err h s.1 p)
  have h2 := abs_le.1 (distPt_err h s.2 p)
  have h0 := abs_le.1 (distPt_err h s.1 s.2)
  have he := dist_e h
  have hs := err_small h
  have hu := h.u_nonneg
  generalize (1 + u) * (1 + v) - 1 = e at *
  have hr := h.err (distPt F s.1 p + distPt F s.2 p)
  have n1 := eucl_nonneg s.1 p
  have n2 := eucl_nonneg s.2 p
  have n0 := eucl_nonneg s.1 s.2
  generalize eucl s.1 p = D1 at *
  generalize eucl s.2 p = D2 at *
  generalize eucl s.1 s.2 = D0 at *
  generalize distPt F s.1 p = d1 at *
  generalize distPt F s.2 p = d2 at *
  generalize distPt F s.1 s.2 = d0 at *
  have m1 := mul_le_mul_of_nonneg_right he n1
  have m2 := mul_le_mul_of_nonneg_right he n2
  have m0 := mul_le_mul_of_nonneg_right he n0
  have k1 := mul_le_mul_of_nonneg_right hs.2.le n1
  have k2 := mul_le_mul_of_nonneg_right hs.2.le n2
  have h3 : |d1 + d2| ≤ 17 / 16 * (D1 + D2) := by rw [abs_le]; constructor <;> linarith [h1.1, h1.2, h2.1, h2.2]
  have h4 := mul_le_mul_of_nonneg_left h3 hu
  have hr := abs_le.1 (hr.trans h4)
  rw [abs_le]
  constructor <;> linarith [hr.1, hr.2, h1.1, h1.2, h2.1, h2.2, h0.1, h0.2]

theorem between_of (h : FlOk F u v) {t : Thr ℝ} {s : Seg} {p : Pt ℝ} {g : ℝ} (hg : eucl s.1 p + eucl s.2 p ≤ eucl s.1 s.2 + g) (ht : 65 / 64 * (g + 4 * (u + v) * (eucl s.1 s.2 + g)) < t.nullDistance) : Between F t s p := by
  have key := between_num h s p
  have tri : eucl s.1 s.2 ≤ eucl s.1 p + eucl s.2 p := by rw [eucl_comm s.2 p]; exact eucl_triangle _ _ _
  have n0 := eucl_nonneg s.1 s.2
  have hu := h.u_nonneg
  have hv := h.v_nonneg
  have hu1 := h.u_small
  have hg0 : 0 ≤ g := by linarith
  show |F.rnd (F.rnd (distPt F s.1 p + distPt F s.2 p) - distPt F s.1 s.2)| < _
  generalize F.rnd (distPt F s.1 p + distPt F s.2 p) - distPt F s.1 s.2 = x at *
  generalize eucl s.1 p + eucl s.2 p = D at *
  generalize eucl s.1 s.2 = L at *
  have hx : |x| ≤ g + 4 * (u + v) * (L + g) := by
    have c1 : (65 / 64 * (u + v) + 17 / 16 * u) * D ≤ (65 / 64 * (u + v) + 17 / 16 * u) * (L + g) := mul_le_mul_of_nonneg_left hg (by positivity)
    have c2 : 65 / 64 * (u + v) * L ≤ 65 / 64 * (u + v) * (L + g) := mul_le_mul_of_nonneg_left (by linarith) (by positivity)
    have c3 : 0 ≤ u * (L + g) := by positivity
    have c4 : 0 ≤ v * (L + g) := by positivity
    have := abs_le.1 key
    rw [abs_le]
    constructor <;> linarith [this.1, this.2]
  have hr := h.err x
  have h1 : |F.rnd x| ≤ |F.rnd x - x| + |x| := by have := abs_add_le (F.rnd x - x) x; rwa [sub_add_cancel] at this
  have h2 : u * |x| ≤ 1 / 64 * |x| := mul_le_mul_of_nonneg_right hu1 (abs_nonneg _)
  linarith

theorem between_only (h : FlOk F u v) {t : Thr ℝ} {s : Seg} {p : Pt ℝ} (hb : Between F t s p) : eucl s.1 p + eucl s.2 p ≤ eucl s.1 s.2 + (4 * (u + v) * eucl s.1 s.2 + 11 / 10 * t.nullDistance) := by
  have hb : |F.rnd (F.rnd (distPt F s.1 p + distPt F s.2 p) - distPt F s.1 s.2)| < t.nullDistance := hb
  have key := between_num h s p
  have tri : eucl s.1 s.2 ≤ eucl s.1 p + eucl s.2 p := by rw [eucl_comm s.2 p]; exact eucl_triangle _ _ _
  have n0 := eucl_nonneg s.1 s.2
  have hu := h.u_nonneg
  have hv := h.v_nonneg
  have hu1 := h.u_small
  have hv1 := h.v_small
  generalize F.rnd (distPt F s.1 p + distPt F s.2 p) - distPt F s.1 s.2 = x at *
  have hr := h.err x
  have h1 : |x| ≤ |F.rnd x| + |F.rnd x - x| := by have := abs_sub (F.rnd x) (F.rnd x - x); rwa [sub_sub_cancel] at this
  have h2 : u * |x| ≤ 1 / 64 * |x| := mul_le_mul_of_nonneg_right hu1 (abs_nonneg _)
  have h3 : |x| ≤ 64 / 63 * t.nullDistance := by linarith
  have hnd : 0 ≤ t.nullDistance := (abs_nonneg _).trans hb.le
  have h4 := le_abs_self x
  have h5 := (abs_le.1 key).1
  generalize eucl s.1 p + eucl s.2 p = D at *
  generalize eucl s.1 s.2 = L at *
  obtain ⟨d, rfl⟩ : ∃ d, D = L + d := ⟨D - L, by ring⟩
  have hd : 0 ≤ d := by linarith
  have h6 : (65 / 64 * (u + v) + 17 / 16 * u) * d ≤ 66 / 1000 * d := mul_le_mul_of_nonneg_right (by linarith) hd
  have c3 : 0 ≤ u * L := by positivity
  have c4 : 0 ≤ v * L := by positivity
  linarith

/-- A point between the ends, and near the line, is near a point of the line that is between the ends. -/
theorem seg_foot {s : Seg} {q : Pt ℝ} {δ b : ℝ} (hL : 0 < eucl s.1 s.2) (hd : eucl s.1 q + eucl s.2 q ≤ eucl s.1 s.2 + δ)
    (hb : |(s.2.1 - s.1.1) * (q.2 - s.1.2) - (s.2.2 - s.1.2) * (q.1 - s.1.1)| ≤ b * eucl s.1 s.2) : ∃ k, eucl q (Spec.along s k) ≤ b ∧ -(δ / 2) ≤ k * eucl s.1 s.2 ∧ (k - 1) * eucl s.1 s.2 ≤ δ / 2 := by
  have e0 := eucl_sq' s.1 s.2
  have tri : eucl s.1 s.2 ≤ eucl s.1 q + eucl s.2 q := by rw [eucl_comm s.2 q]; exact eucl_triangle _ _ _
  have hδ : 0 ≤ δ := by linarith
  set L := eucl s.1 s.2 with hLd
  set k0 := ((s.2.1 - s.1.1) * (q.1 - s.1.1) + (s.2.2 - s.1.2) * (q.2 - s.1.2)) / L ^ 2 with hk0
  have hk : k0 * L ^ 2 = (s.2.1 - s.1.1) * (q.1 - s.1.1) + (s.2.2 - s.1.2) * (q.2 - s.1.2) := by rw [hk0]; field_simp
  have foot : eucl q (Spec.along s k0) ≤ b := by
    have : (eucl q (Spec.along s k0) * L) ^ 2 = ((s.2.1 - s.1.1) * (q.2 - s.1.2) - (s.2.2 - s.1.2) * (q.1 - s.1.1)) ^ 2 := by
      rw [mul_pow, eucl_sq]
      simp only [Spec.along]
      linear_combination ((q.1 - s.1.1) ^ 2 + (q.2 - s.1.2) ^ 2) * e0 - (k0 ^ 2 * L ^ 2) * e0 + (-((s.2.1 - s.1.1) * (q.1 - s.1.1) + (s.2.2 - s.1.2) * (q.2 - s.1.2)) + k0 * L ^ 2) * hk
    have h2 := abs_le_of_sq_le_sq' (a := eucl q (Spec.along s k0) * L) (b := |(s.2.1 - s.1.1) * (q.2 - s.1.2) - (s.2.2 - s.1.2) * (q.1 - s.1.1)|) (by rw [this, sq_abs]) (abs_nonneg _)
    exact le_of_mul_le_mul_right (h2.2.trans hb) hL
  have cs : ∀ p : Pt ℝ, |(s.2.1 - s.1.1) * (q.1 - p.1) + (s.2.2 - s.1.2) * (q.2 - p.2)| ≤ L * eucl p q := by
    intro p
    refine abs_le_of_sq_le_sq ?_ (mul_nonneg hL.le (eucl_nonneg _ _))
    rw [mul_pow, e0, eucl_sq']
    nlinarith [sq_nonneg ((s.2.1 - s.1.1) * (q.2 - p.2) - (s.2.2 - s.1.2) * (q.1 - p.1))]
  have d1 : |k0| * L ≤ eucl s.1 q := by
    have := cs s.1
    rw [← hk, abs_mul, abs_of_pos (by positivity : 0 < L ^ 2)] at this
    refine le_of_mul_le_mul_left ?_ hL
    linarith
  have d2 : |1 - k0| * L ≤ eucl s.2 q := by
    have := cs s.2
    rw [show (s.2.1 - s.1.1) * (q.1 - s.2.1) + (s.2.2 - s.1.2) * (q.2 - s.2.2) = -((1 - k0) * L ^ 2) by linear_combination e0 - hk, abs_neg, abs_mul, abs_of_pos (by positivity : 0 < L ^ 2)] at this
    refine le_of_mul_le_mul_left ?_ hL
    linarith
  refine ⟨k0, foot, ?_, ?_⟩
  · linarith [mul_le_mul_of_nonneg_right (neg_abs_le k0) hL.le, mul_le_mul_of_nonneg_right (le_abs_self (1 - k0)) hL.le]
  · linarith [mul_le_mul_of_nonneg_right (le_abs_self k0) hL.le, mul_le_mul_of_nonneg_right (neg_abs_le (1 - k0)) hL.le]

/-- A point between the ends, and near the line, is near the segment. -/
theorem seg_near {s : Seg} {q : Pt ℝ} {δ b : ℝ} (hL : 0 < eucl s.1 s.2) (hd : eucl s.1 q + eucl s.2 q ≤ eucl s.1 s.2 + δ)
    (hb : |(s.2.1 - s.1.1) * (q.2 - s.1.2) - (s.2.2 - s.1.2) * (q.1 - s.1.1)| ≤ b * eucl s.1 s.2) : ∃ k, 0 ≤ k ∧ k ≤ 1 ∧ eucl q (Spec.along s k) ≤ b + δ / 2 := by
  obtain ⟨k, hk, h0, h1⟩ := seg_foot hL hd hb
  have tri : eucl s.1 s.2 ≤ eucl s.1 q + eucl s.2 q := by rw [eucl_comm s.2 q]; exact eucl_triangle _ _ _
  rcases lt_or_ge k 0 with hn | hn
  · refine ⟨0, le_refl _, zero_le_one, ?_⟩
    have tr := eucl_triangle q (Spec.along s k) (Spec.along s 0)
    rw [eucl_along, sub_zero, abs_of_neg hn] at tr
    linarith
  · rcases lt_or_ge 1 k with hp | hp
    · refine ⟨1, zero_le_one, le_refl _, ?_⟩
      have tr := eucl_triangle q (Spec.along s k) (Spec.along s 1)
      rw [eucl_along, abs_of_pos (by linarith)] at tr
      linarith
    · exact ⟨k, hn, hp, by linarith⟩

/-- A point that is near the computed line is near the exact line. -/
theorem NearLine.perp {l : V3 ℝ} {s : Seg} {ρ e c : ℝ} (h : NearLine l s ρ) (hL : 0 < eucl s.1 s.2) (hρ : 32 * ρ ≤ eucl s.1 s.2) {q : Pt ℝ} (he : |l 0 * q.1 + l 1 * q.2 + l 2| ≤ e * Real.sqrt (l 0 ^ 2 + l 1 ^ 2))
    (hc : |(s.2.1 - s.1.1) * (q.1 - s.1.1) + (s.2.2 - s.1.2) * (q.2 - s.1.2)| ≤ c * eucl s.1 s.2 ^ 2) :
    |(s.2.1 - s.1.1) * (q.2 - s.1.2) - (s.2.2 - s.1.2) * (q.1 - s.1.1)| ≤ 64 / 63 * (e + ρ + 2 * c * ρ) * eucl s.1 s.2 := by
  have n1 : 0 < Real.sqrt (l 0 ^ 2 + l 1 ^ 2) := Real.sqrt_pos.2 h.norm
  have en : Real.sqrt (l 0 ^ 2 + l 1 ^ 2) ^ 2 = l 0 ^ 2 + l 1 ^ 2 := Real.sq_sqrt h.norm.le
  have e0 := eucl_sq' s.1 s.2
  have hdir := h.dir
  have hf := h.fst
  set n := Real.sqrt (l 0 ^ 2 + l 1 ^ 2)
  set L := eucl s.1 s.2
  have hρ0 : 0 ≤ ρ := by
    have : 0 ≤ ρ * n := (abs_nonneg _).trans hf
    exact nonneg_of_mul_nonneg_left this n1
  set ax := s.2.1 - s.1.1
  set ay := s.2.2 - s.1.2
  set X := ax * (q.1 - s.1.1) + ay * (q.2 - s.1.2) with hX
  set Y := ax * (q.2 - s.1.2) - ay * (q.1 - s.1.1) with hY
  have id1 : (l 1 * ax - l 0 * ay) * Y = L ^ 2 * ((l 0 * q.1 + l 1 * q.2 + l 2) - (l 0 * s.1.1 + l 1 * s.1.2 + l 2)) - (l 0 * ax + l 1 * ay) * X := by rw [e0, hX, hY]; ring
  have id2 : (l 1 * ax - l 0 * ay) ^ 2 = n ^ 2 * L ^ 2 - (l 0 * ax + l 1 * ay) ^ 2 := by rw [e0, en]; ring
  have b1 : |l 0 * ax + l 1 * ay| ≤ n * L / 16 := by
    refine hdir.trans ?_
    have := mul_le_mul_of_nonneg_right hρ n1.le
    linarith
  have b2 : 63 / 64 * (n * L) ≤ |l 1 * ax - l 0 * ay| := by
    refine abs_le_of_sq_le_sq' ?_ (abs_nonneg _) |>.2
    rw [sq_abs, id2]
    have := sq_le_sq' (by linarith [abs_le.1 b1]) (abs_le.1 b1).2
    nlinarith [mul_pos n1 hL]
  have b3 : |L ^ 2 * ((l 0 * q.1 + l 1 * q.2 + l 2) - (l 0 * s.1.1 + l 1 * s.1.2 + l 2)) - (l 0 * ax + l 1 * ay) * X| ≤ L ^ 2 * (e * n + ρ * n) + 2 * (ρ * n) * (c * L ^ 2) := by
    refine (abs_sub _ _).trans ?_
    rw [abs_mul, abs_mul (l 0 * ax + l 1 * ay), abs_of_pos (by positivity : 0 < L ^ 2)]
    refine add_le_add (mul_le_mul_of_nonneg_left ((abs_sub _ _).trans (add_le_add he hf)) (by positivity)) (mul_le_mul hdir hc (abs_nonneg _) (by positivity))
  rw [← id1, abs_mul] at b3
  have b4 := (mul_le_mul_of_nonneg_right b2 (abs_nonneg Y)).trans b3
  have hnL : 0 < n * L := mul_pos n1 hL
  refine le_of_mul_le_mul_left ?_ hnL
  linarith

/-- What is known of the point that is computed. -/
structure PairPoint (F : Arith) (t : Thr ℝ) (ac : ℝ → ℝ) (u M L S : ℝ) (s s' : Seg) (l m : V3 ℝ) (q Q : Pt ℝ) : Prop where
  near1 : NearLine l s (16 * (u * M ^ 2 / (L * S)) * S)
  near2 : NearLine m s' (16 * (u * M ^ 2 / (L * S)) * S)
  sin : 3 / 4 * S ≤ sinLines l m
  both : OnBoth l m Q
  fst : |q.1 - Q.1| ≤ 8 * (8 / 5 * (u * M / S) + u / S * |Q.1|)
  snd : |q.2 - Q.2| ≤ 8 * (8 / 5 * (u * M / S) + u / S * |Q.2|)
  found : Between F t s q → Between F t s' q → segInter F t ac s s' = .ok (some q)
  only : ∀ p, segInter F t ac s s' = .ok (some p) → p = q ∧ Between F t s q ∧ Between F t s' q
  total : ∃ r, segInter F t ac s s' = .ok r

theorem NearLine.mono {l : V3 ℝ} {s : Seg} {ρ ρ' : ℝ} (h : NearLine l s ρ) (hρ : ρ ≤ ρ') : NearLine l s ρ' :=
  ⟨h.norm, h.fst.trans (mul_le_mul_of_nonneg_right hρ (Real.sqrt_nonneg _)), h.snd.trans (mul_le_mul_of_nonneg_right hρ (Real.sqrt_nonneg _))⟩

theorem pair_point (h : FlOk F u v) {ac : ℝ → ℝ} {t : Thr ℝ} {w M L S : ℝ} (ha : AcosOk ac w) {s s' : Seg} (hp : SegPair F t u w M L S s s') :
    ∃ l m q Q, PairPoint F t ac u M L S s s' l m q Q := by
  obtain ⟨l, m, el, em, nl, nm, hsin⟩ := pair_lines h hp
  have hS := hp.S_pos
  have hL := hp.L_pos
  have hS1 : S ≤ 1 := hp.sin.trans (sinSegs_le_one s s')
  obtain ⟨r1, r2, m1, m2, m3, m4⟩ := hp.rep1
  obtain ⟨r1', r2', m1', m2', m3', m4'⟩ := hp.rep2
  obtain ⟨hM, k0, k1, k2, k3, k4, -, -⟩ := kappa_facts h.u_nonneg hL hS hS1 hp.len1 (eucl_le_3M ⟨m1, m2⟩ ⟨m3, m4⟩) hp.small
  obtain ⟨-, -, k1', -⟩ := kappa_facts h.u_nonneg hL hS hS1 hp.len2 (eucl_le_3M ⟨m1', m2'⟩ ⟨m3', m4'⟩) hp.small
  replace nl := nl.mono k1
  replace nm := nm.mono k1'
  obtain ⟨Q, hQ⟩ := exists_onBoth (lt_of_lt_of_le (by linarith) hsin)
  have hC : 3 / 2 * M + 16 * (u * M ^ 2 / (L * S)) * S ≤ 8 / 5 * M := by
    have : 16 * (u * M ^ 2 / (L * S)) * S ≤ 16 * (u * M ^ 2 / (L * S)) := mul_le_of_le_one_right (by positivity) hS1
    linarith
  obtain ⟨q, eq, hx, hy⟩ := crossXY_err h nl.norm nm.norm (s := 3 / 4 * S) (by linarith) (by linarith [h.u_nonneg]) hsin ((nl.off m1 m2).trans hC) ((nm.off m1' m2').trans hC) hQ
  have hns := pair_not_same h hp
  have hpar := not_parallel h ha t nl.norm nm.norm (hp.angle.trans hsin)
  have ev : segInter F t ac s s' = if Between F t s q then (if Between F t s' q then .ok (some q) else .ok none) else .ok none := by
    unfold segInter lineInter
    rw [if_neg hns, el, em]
    simp only [Res.bind_ok, hpar, Bool.false_eq_true, if_false, eq]
    split_ifs <;> rfl
  refine ⟨l, m, q, Q, nl, nm, hsin, hQ, hx.trans (le_of_eq ?_), hy.trans (le_of_eq ?_), ?_, ?_, ?_⟩
  · field_simp; ring
  · field_simp; ring
  · intro b1 b2
    rw [ev, if_pos b1, if_pos b2]
  · intro p e
    rw [ev] at e
    split_ifs at e with b1 b2
    · exact ⟨by injection e with e; injection e with e; exact e.symm, b1, b2⟩
    · injection e with e; cases e
    · injection e with e; cases e
  · rw [ev]; split_ifs <;> exact ⟨_, rfl⟩

/-- The computed point is near the common point of the segments. -/
theorem PairPoint.near_common (h : FlOk F u v) {ac : ℝ → ℝ} {t : Thr ℝ} {w M L S : ℝ} {s s' : Seg} (hp : SegPair F t u w M L S s s') {l m : V3 ℝ} {q Q : Pt ℝ} (hq : PairPoint F t ac u M L S s s' l m q Q)
    {k j : ℝ} (hk0 : 0 ≤ k) (hk1 : k ≤ 1) (hj0 : 0 ≤ j) (hj1 : j ≤ 1) (hkj : Spec.along s k = Spec.along s' j) : eucl q (Spec.along s k) ≤ 150 * (u * M ^ 2 / (L * S)) := by
  have hS := hp.S_pos
  have hL := hp.L_pos
  have hS1 : S ≤ 1 := hp.sin.trans (sinSegs_le_one s s')
  obtain ⟨r1, r2, m1, m2, m3, m4⟩ := hp.rep1
  obtain ⟨hM, k0, -, k2, k3, k4, -, -⟩ := kappa_facts h.u_nonneg hL hS hS1 hp.len1 (eucl_le_3M ⟨m1, m2⟩ ⟨m3, m4⟩) hp.small
  have hu := h.u_nonneg
  have a1 := hq.near1.along k
  have a2 := hq.near2.along j
  rw [abs_of_nonneg hk0, abs_of_nonneg (by linarith : 0 ≤ 1 - k), sub_add_cancel, one_mul] at a1
  rw [abs_of_nonneg hj0, abs_of_nonneg (by linarith : 0 ≤ 1 - j), sub_add_cancel, one_mul, ← hkj] at a2
  have d := onBoth_near hq.near1.norm hq.near2.norm hS hq.sin hq.both a1 a2
  have hx := hq.fst
  have hy := hq.snd
  have P1 : |(Spec.along s k).1| ≤ M := by
    have : (Spec.along s k).1 = (1 - k) * s.1.1 + k * s.2.1 := by simp only [Spec.along]; ring
    rw [this]
    refine (abs_add_le _ _).trans ?_
    rw [abs_mul, abs_mul, abs_of_nonneg hk0, abs_of_nonneg (by linarith : 0 ≤ 1 - k)]
    linarith [mul_le_mul_of_nonneg_left m1 (by linarith : 0 ≤ 1 - k), mul_le_mul_of_nonneg_left m3 hk0]
  have P2 : |(Spec.along s k).2| ≤ M := by
    have : (Spec.along s k).2 = (1 - k) * s.1.2 + k * s.2.2 := by simp only [Spec.along]; ring
    rw [this]
    refine (abs_add_le _ _).trans ?_
    rw [abs_mul, abs_mul, abs_of_nonneg hk0, abs_of_nonneg (by linarith : 0 ≤ 1 - k)]
    linarith [mul_le_mul_of_nonneg_left m2 (by linarith : 0 ≤ 1 - k), mul_le_mul_of_nonneg_left m4 hk0]
  generalize Spec.along s k = P at *
  have uS : 0 ≤ u / S := by positivity
  have e1 : u / S * M = u * M / S := by ring
  have cb : ∀ a b : ℝ, |a| ≤ M → |a - b| ≤ eucl P Q → u / S * |b| ≤ 5 / 4 * (u * M / S) := by
    intro a b h1 h2
    have h3 : |b| ≤ |a| + |a - b| := by have := abs_sub a (a - b); rwa [sub_sub_cancel] at this
    have h4 : |b| ≤ 5 / 4 * M := by linarith
    have := mul_le_mul_of_nonneg_left h4 uS
    linarith
  have c1 := cb _ _ P1 (abs_fst_le_eucl P Q)
  have c2 := cb _ _ P2 (abs_snd_le_eucl P Q)
  have d2 := eucl_le_max (p := q) (q := Q) (b := 8 * (57 / 20 * (u * M / S))) (by linarith) (by linarith)
  have tr := eucl_triangle q Q P
  rw [eucl_comm Q P] at tr
  linarith

/-- Distances of the computed point to the ends. -/
theorem ends_near {s : Seg} {q : Pt ℝ} {k ε : ℝ} (hk0 : 0 ≤ k) (hk1 : k ≤ 1) (hq : eucl q (Spec.along s k) ≤ ε) : eucl s.1 q + eucl s.2 q ≤ eucl s.1 s.2 + 2 * ε := by
  have t1 := eucl_triangle s.1 (Spec.along s k) q
  have t2 := eucl_triangle s.2 (Spec.along s k) q
  rw [eucl_along_left, eucl_comm (Spec.along s k) q, abs_of_nonneg hk0] at t1
  rw [eucl_along_right, eucl_comm (Spec.along s k) q, abs_of_nonneg (by linarith : 0 ≤ 1 - k)] at t2
  linarith

/-- The same for a point that is inside: the effect is of second order. -/
theorem ends_near_inside {s : Seg} {q : Pt ℝ} {k ε r : ℝ} (hL : 0 < eucl s.1 s.2) (hq : eucl q (Spec.along s k) ≤ ε) (hr : 0 < r) (h2 : 2 * ε ≤ r) (h0 : r ≤ k * eucl s.1 s.2) (h1 : r ≤ (1 - k) * eucl s.1 s.2) :
    eucl s.1 q + eucl s.2 q ≤ eucl s.1 s.2 + 2 * (ε ^ 2 / r) := by
  have e0 := eucl_sq' s.1 s.2
  have hε : 0 ≤ ε := (eucl_nonneg _ _).trans hq
  have hqs : eucl q (Spec.along s k) ^ 2 ≤ ε ^ 2 := pow_le_pow_left₀ (eucl_nonneg _ _) hq 2
  rw [eucl_sq] at hqs
  simp only [Spec.along] at hqs
  set L := eucl s.1 s.2
  set ax := s.2.1 - s.1.1 with hax
  set ay := s.2.2 - s.1.2 with hay
  set dx := q.1 - (s.1.1 + k * ax) with hdx
  set dy := q.2 - (s.1.2 + k * ay) with hdy
  set x := (ax * dx + ay * dy) / L with hx
  set y := (ax * dy - ay * dx) / L with hy
  have exy : x ^ 2 + y ^ 2 = dx ^ 2 + dy ^ 2 := by
    rw [hx, hy, div_pow, div_pow, ← add_div, div_eq_iff (by positivity), e0]; ring
  have exL : x * L = ax * dx + ay * dy := by rw [hx]; field_simp
  have y2 : y ^ 2 ≤ ε ^ 2 := by nlinarith [sq_nonneg x]
  have x1 : |x| ≤ ε := abs_le_of_sq_le_sq (by nlinarith [sq_nonneg y]) hε
  have x1 := abs_le.1 x1
  have one : ∀ a d : ℝ, r / 2 ≤ a → 0 ≤ d → d ^ 2 = a ^ 2 + y ^ 2 → d ≤ a + ε ^ 2 / r := by
    intro a d ha hd e
    have ha0 : 0 < a := by linarith
    have hg : 0 ≤ ε ^ 2 / r := by positivity
    refine (abs_le_of_sq_le_sq' ?_ (by linarith)).2
    have : ε ^ 2 / r * r = ε ^ 2 := by field_simp
    nlinarith [mul_nonneg hg (by linarith : 0 ≤ a - r / 2), sq_nonneg (ε ^ 2 / r)]
  have D1 := one (k * L + x) (eucl s.1 q) (by linarith) (eucl_nonneg _ _) (by
    rw [eucl_sq', add_sq, mul_pow]
    rw [show q.1 - s.1.1 = k * ax + dx by rw [hdx]; ring, show q.2 - s.1.2 = k * ay + dy by rw [hdy]; ring]
    linear_combination -k ^ 2 * e0 - 2 * k * exL - exy)
  have D2 := one ((1 - k) * L - x) (eucl s.2 q) (by linarith) (eucl_nonneg _ _) (by
    rw [eucl_sq']
    rw [show q.1 - s.2.1 = -(1 - k) * ax + dx by rw [hdx, hax]; ring, show q.2 - s.2.2 = -(1 - k) * ay + dy by rw [hdy, hay]; ring]
    linear_combination -(1 - k) ^ 2 * e0 + 2 * (1 - k) * exL - exy)
  linarith

/-- A point that passes the tests is near the line of the segment. -/
theorem PairPoint.cross (h : FlOk F u v) {ac : ℝ → ℝ} {t : Thr ℝ} {w M L S : ℝ} {s s' : Seg} (hp : SegPair F t u w M L S s s') {l m : V3 ℝ} {q Q : Pt ℝ} (hq : PairPoint F t ac u M L S s s' l m q Q)
    (hb : Between F t s q) : |(s.2.1 - s.1.1) * (q.2 - s.1.2) - (s.2.2 - s.1.2) * (q.1 - s.1.1)| ≤ 350 * (u * M ^ 2 / (L * S)) * eucl s.1 s.2 ∧ eucl q Q ≤ 280 * (u * M ^ 2 / (L * S)) := by
  have hS := hp.S_pos
  have hL := hp.L_pos
  have hS1 : S ≤ 1 := hp.sin.trans (sinSegs_le_one s s')
  obtain ⟨r1, r2, m1, m2, m3, m4⟩ := hp.rep1
  have hLM := eucl_le_3M ⟨m1, m2⟩ ⟨m3, m4⟩
  obtain ⟨hM, k0, -, k2, k3, k4, -, k5⟩ := kappa_facts h.u_nonneg hL hS hS1 hp.len1 hLM hp.small
  have hu := h.u_nonneg
  have hv := h.v_nonneg
  have hu1 := h.u_small
  have hv1 := h.v_small
  have hb := between_only h hb
  have hl1 := hp.len1
  have hth := hp.thr
  have hSL : S * L ≤ L := mul_le_of_le_one_left hL.le hS1
  have hLA : 0 < eucl s.1 s.2 := by linarith
  have huvL : (u + v) * eucl s.1 s.2 ≤ 1 / 32 * eucl s.1 s.2 := mul_le_mul_of_nonneg_right (by linarith) hLA.le
  have tr1 : eucl s.1 q ≤ eucl s.1 s.2 + eucl s.2 q := eucl_triangle _ _ _
  have D1 : eucl s.1 q ≤ 5 / 4 * eucl s.1 s.2 := by linarith
  have uS : 0 ≤ u / S := by positivity
  have e1 : u / S * M = u * M / S := by ring
  have uS1 : u / S ≤ 1 / 50 := by rw [div_le_iff₀ hS]; linarith
  have uMS : u * M / S ≤ 1 / 50 * M := by rw [← e1]; exact mul_le_mul_of_nonneg_right uS1 hM.le
  have cb : ∀ a b c : ℝ, |a| ≤ M → |a - b| ≤ eucl s.1 q → |b - c| ≤ 8 * (8 / 5 * (u * M / S) + u / S * |c|) → |b - c| ≤ 61 * (u * M / S) := by
    intro a b c ha hab hbc
    have h3 : |b| ≤ |a| + |a - b| := by have := abs_sub a (a - b); rwa [sub_sub_cancel] at this
    have h4 : |c| ≤ |b| + |b - c| := by have := abs_sub b (b - c); rwa [sub_sub_cancel] at this
    have h5 := mul_le_mul_of_nonneg_right uS1 (abs_nonneg c)
    have h6 : |c| ≤ 6 * M := by linarith
    have h7 := mul_le_mul_of_nonneg_left h6 uS
    have h8 : 0 ≤ u * M / S := by positivity
    linarith
  have dq : eucl q Q ≤ 280 * (u * M ^ 2 / (L * S)) := by
    have := eucl_le_max (p := q) (q := Q) (cb _ _ _ m1 (abs_fst_le_eucl s.1 q) hq.fst) (cb _ _ _ m2 (abs_snd_le_eucl s.1 q) hq.snd)
    linarith
  refine ⟨?_, dq⟩
  obtain ⟨κ, hκ⟩ : ∃ κ, κ = u * M ^ 2 / (L * S) := ⟨_, rfl⟩
  have near1 := hq.near1
  rw [← hκ] at near1 k0 k2 k3 k5 dq
  rw [← hκ]
  have hlq : |l 0 * q.1 + l 1 * q.2 + l 2| ≤ 280 * κ * Real.sqrt (l 0 ^ 2 + l 1 ^ 2) := by
    rw [show l 0 * q.1 + l 1 * q.2 + l 2 = l 0 * (q.1 - Q.1) + l 1 * (q.2 - Q.2) by linear_combination hq.both.1]
    refine (abs_add_le _ _).trans ((cs_abs (l 0) (l 1) (q.2 - Q.2) (q.1 - Q.1)).trans ?_)
    rw [mul_comm, add_comm ((q.2 - Q.2) ^ 2), ← eucl_sqrt]
    exact mul_le_mul_of_nonneg_right dq (Real.sqrt_nonneg _)
  have hX : |(s.2.1 - s.1.1) * (q.1 - s.1.1) + (s.2.2 - s.1.2) * (q.2 - s.1.2)| ≤ 5 / 4 * eucl s.1 s.2 ^ 2 := by
    have : |(s.2.1 - s.1.1) * (q.1 - s.1.1) + (s.2.2 - s.1.2) * (q.2 - s.1.2)| ≤ eucl s.1 s.2 * eucl s.1 q := by
      refine abs_le_of_sq_le_sq ?_ (mul_nonneg hLA.le (eucl_nonneg _ _))
      rw [mul_pow, eucl_sq', eucl_sq']
      nlinarith [sq_nonneg ((s.2.1 - s.1.1) * (q.2 - s.1.2) - (s.2.2 - s.1.2) * (q.1 - s.1.1))]
    have h2 := mul_le_mul_of_nonneg_left D1 hLA.le
    linarith
  have hρ : 16 * κ * S ≤ 16 * κ := mul_le_of_le_one_right (by positivity) hS1
  have hY := (near1.mono hρ).perp hLA (by linarith) hlq hX
  exact hY.trans (mul_le_mul_of_nonneg_right (by linarith) hLA.le)

/-- A point that passes the tests is near the segment. -/
theorem PairPoint.sound (h : FlOk F u v) {ac : ℝ → ℝ} {t : Thr ℝ} {w M L S : ℝ} {s s' : Seg} (hp : SegPair F t u w M L S s s') {l m : V3 ℝ} {q Q : Pt ℝ} (hq : PairPoint F t ac u M L S s s' l m q Q)
    (hb : Between F t s q) : (∃ k, 0 ≤ k ∧ k ≤ 1 ∧ eucl q (Spec.along s k) ≤ 350 * (u * M ^ 2 / (L * S)) + 6 * (u + v) * M + 11 / 20 * t.nullDistance) ∧ eucl q Q ≤ 280 * (u * M ^ 2 / (L * S)) := by
  obtain ⟨hY, dq⟩ := hq.cross h hp hb
  refine ⟨?_, dq⟩
  obtain ⟨-, -, m1, m2, m3, m4⟩ := hp.rep1
  obtain ⟨k, hk0, hk1, hk⟩ := seg_near (lt_of_lt_of_le hp.L_pos hp.len1) (between_only h hb) hY
  refine ⟨k, hk0, hk1, hk.trans ?_⟩
  have hu := h.u_nonneg
  have hv := h.v_nonneg
  have : (u + v) * eucl s.1 s.2 ≤ (u + v) * (3 * M) := mul_le_mul_of_nonneg_left (eucl_le_3M ⟨m1, m2⟩ ⟨m3, m4⟩) (by positivity)
  linarith

theorem onSeg_along (s : Seg) (P : Pt ℝ) : OnSeg s.1 s.2 P ↔ ∃ k, 0 ≤ k ∧ k ≤ 1 ∧ P = Spec.along s k := Iff.rfl

theorem onBoth_unique {l m : V3 ℝ} (h : 0 < sinLines l m) {P Q : Pt ℝ} (hP : OnBoth l m P) (hQ : OnBoth l m Q) : P = Q := by
  have hd : l 0 * m 1 - l 1 * m 0 ≠ 0 := by
    intro e; unfold sinLines at h; rw [e] at h; simp at h
  obtain ⟨p1, p2⟩ := hP
  obtain ⟨q1, q2⟩ := hQ
  apply Prod.ext
  · exact mul_left_cancel₀ hd (by linear_combination m 1 * p1 - l 1 * p2 - m 1 * q1 + l 1 * q2)
  · exact mul_left_cancel₀ hd (by linear_combination l 0 * p2 - m 0 * p1 - l 0 * q2 + m 0 * q1)

theorem isParallel_comm (t : Thr ℝ) (ac : ℝ → ℝ) (l m : V3 ℝ) : isParallel F t ac l m = isParallel F t ac m l := by
  unfold isParallel lineAngle
  rw [cosArg_comm]

theorem sinLines_comm (l m : V3 ℝ) : sinLines l m = sinLines m l := by
  unfold sinLines
  rw [mul_comm (Real.sqrt (l 0 ^ 2 + l 1 ^ 2)), ← abs_neg]; congr 2; ring

theorem lineOfPts_ub (t : Thr ℝ) (p q : Pt ℝ) : lineOfPts F t p q = .throw ∨ ∃ l, lineOfPts F t p q = .ok l := by
  unfold lineOfPts
  by_cases h1 : PtSame F t p q
  · rw [if_pos h1]; exact Or.inl rfl
  · rw [if_neg h1]
    unfold normalizeLine
    simp only
    split_ifs <;> simp

theorem segInter_comm (h : FlOk F u v) (ac : ℝ → ℝ) (t : Thr ℝ) (s s' : Seg) : segInter F t ac s s' = segInter F t ac s' s := by
  have e : SegSame F t s s' ↔ SegSame F t s' s := by
    unfold SegSame PtSame
    rw [distPt_comm h s.1, distPt_comm h s.2]
  unfold segInter lineInter
  simp only [e]
  split_ifs with hs
  · rfl
  · rcases lineOfPts_ub (F := F) t s.1 s.2 with h1 | ⟨l, h1⟩ <;> rcases lineOfPts_ub (F := F) t s'.1 s'.2 with h2 | ⟨m, h2⟩ <;> rw [h1, h2] <;> simp only [Res.bind_ok, Res.bind_throw]
    rw [isParallel_comm, crossXY_comm h]
    split_ifs
    · rfl
    · cases crossXY F m l with
      | none => rfl
      | some p => simp only [Res.bind_ok]; split_ifs <;> rfl

theorem PairPoint.symm (h : FlOk F u v) {ac : ℝ → ℝ} {t : Thr ℝ} {M L S : ℝ} {s s' : Seg} {l m : V3 ℝ} {q Q : Pt ℝ} (hq : PairPoint F t ac u M L S s s' l m q Q) : PairPoint F t ac u M L S s' s m l q Q :=
  ⟨hq.near2, hq.near1, by rw [sinLines_comm]; exact hq.sin, ⟨hq.both.2, hq.both.1⟩, hq.fst, hq.snd, fun a b => by rw [segInter_comm h]; exact hq.found b a,
    fun p e => by rw [segInter_comm h] at e; have := hq.only p e; exact ⟨this.1, this.2.2, this.2.1⟩, by rw [segInter_comm h]; exact hq.total⟩

theorem pair_kappa (h : FlOk F u v) {t : Thr ℝ} {w M L S : ℝ} {s s' : Seg} (hp : SegPair F t u w M L S s s') : 0 ≤ u * M ^ 2 / (L * S) := by
  have h1 := h.u_nonneg
  have h2 := hp.L_pos
  have h3 := hp.S_pos
  positivity

theorem pair_margin (h : FlOk F u v) {t : Thr ℝ} {w M L S : ℝ} {s s' : Seg} (hp : SegPair F t u w M L S s s') {g : ℝ} (hg : 0 ≤ g) (hm : 52 / 45 * g + 13 * (u + v) * M < t.nullDistance) :
    65 / 64 * (g + 4 * (u + v) * (eucl s.1 s.2 + g)) < t.nullDistance := by
  obtain ⟨r1, r2, m1, m2, m3, m4⟩ := hp.rep1
  have hLM := eucl_le_3M ⟨m1, m2⟩ ⟨m3, m4⟩
  have hu := h.u_nonneg
  have hv := h.v_nonneg
  have hu1 := h.u_small
  have hv1 := h.v_small
  have a : (u + v) * eucl s.1 s.2 ≤ (u + v) * (3 * M) := mul_le_mul_of_nonneg_left hLM (by positivity)
  have b : (u + v) * g ≤ 1 / 32 * g := mul_le_mul_of_nonneg_right (by linarith) hg
  have hM : 0 ≤ M := (abs_nonneg _).trans m1
  have c : 0 ≤ (u + v) * M := by positivity
  linarith

theorem acosOk_exact : AcosOk Real.arccos 0 := ⟨le_rfl, by norm_num, fun x _ _ => by simp⟩

theorem rep_small {n : ℤ} (h : |n| ≤ 4) : Rep (binary 53) (n : ℝ) := by
  have := roundTo_int (p := 53) (by norm_num) (m := n) (h.trans (by norm_num))
  exact this

theorem demoPair : SegPair (binary 53) stdR ((2 : ℝ) ^ (-((53 : ℕ) : ℤ))) 0 4 5 (24 / 25) ((0, 0), (4, 3)) ((0, 3), (4, 0)) := by
  have r0 : Rep (binary 53) 0 := by have := rep_small (n := 0) (by norm_num); exact_mod_cast this
  have r3 : Rep (binary 53) 3 := by have := rep_small (n := 3) (by norm_num); exact_mod_cast this
  have r4 : Rep (binary 53) 4 := by have := rep_small (n := 4) (by norm_num); exact_mod_cast this
  have l1 : eucl (0, 0) (4, 3) = 5 := by rw [eucl_eq_iff (by norm_num)]; norm_num
  have l2 : eucl (0, 3) (4, 0) = 5 := by rw [eucl_eq_iff (by norm_num)]; norm_num
  refine ⟨⟨⟨r0, r0⟩, ⟨r4, r3⟩, ?_⟩, ⟨⟨r0, r3⟩, ⟨r4, r0⟩, ?_⟩, Or.inr ?_, Or.inr ?_, by norm_num, ?_, ?_, by norm_num, ?_, by norm_num, by norm_num [stdR], by norm_num [stdR, dblEps], ?_⟩
  · norm_num
  · norm_num
  · simp only [l1]; norm_num [stdR]
  · simp only [l2]; norm_num [stdR]
  · simp only [l1]; norm_num
  · simp only [l2]; norm_num
  · unfold sinSegs; simp only [l1, l2]; norm_num
  · have h1 : Real.sqrt (11 * (2 : ℝ) ^ (-((53 : ℕ) : ℤ)) / 2) ≤ 248 / 10 ^ 10 := by
      rw [Real.sqrt_le_left (by norm_num)]; norm_num
    have h2 := mul_le_mul_of_nonneg_left h1 Real.pi_pos.le
    have h3 := Real.pi_le_four
    norm_num [stdR] at *
    linarith

theorem far_ints {p : ℕ} (hp : 6 ≤ p) {N : ℝ} (hN : (2 : ℝ) ^ (p - 1) = N) (n : ℤ) (h0 : 0 ≤ n) (h4 : n ≤ 4) : Rep (binary p) (N + n) := by
  have hpi := pow_pred_int (p := p) (by omega)
  have h4i := four_le_int (p := p) (by omega)
  have i1 : IntUpTo (2 ^ p) (N + n) := ⟨2 ^ (p - 1) + n, by rw [hpi, abs_of_nonneg (by omega)]; omega, by push_cast; rw [hN]⟩
  exact i1.rnd (by omega) le_rfl

theorem far_reps {p : ℕ} (hp : 6 ≤ p) {N : ℝ} (hN : (2 : ℝ) ^ (p - 1) = N) : (32 : ℝ) ≤ N ∧ Rep (binary p) N ∧ Rep (binary p) (N + 1) ∧ Rep (binary p) (N + 3) := by
  refine ⟨?_, ?_, ?_, ?_⟩
  · rw [← hN]
    calc (32 : ℝ) = 2 ^ 5 := by norm_num
      _ ≤ 2 ^ (p - 1) := pow_le_pow_right₀ (by norm_num) (by omega)
  · have := far_ints hp hN 0 (by norm_num) (by norm_num); simpa using this
  · have := far_ints hp hN 1 (by norm_num) (by norm_num); exact_mod_cast this
  · have := far_ints hp hN 3 (by norm_num) (by norm_num); exact_mod_cast this

theorem far_rep {p : ℕ} (hp : 6 ≤ p) {N : ℝ} (hN : (2 : ℝ) ^ (p - 1) = N) : SegRep (binary p) (N + 3) ((N, N + 1), (N + 3, N + 1)) := by
  obtain ⟨h, r0, r1, r3⟩ := far_reps hp hN
  refine ⟨⟨r0, r1⟩, ⟨r3, r1⟩, ?_, ?_, ?_, ?_⟩ <;> simp only <;> rw [abs_of_nonneg (by linarith)] <;> linarith

theorem far_rep' {p : ℕ} (hp : 6 ≤ p) {N : ℝ} (hN : (2 : ℝ) ^ (p - 1) = N) : SegRep (binary p) (N + 3) ((N + 1, N), (N + 1, N + 3)) := by
  obtain ⟨h, r0, r1, r3⟩ := far_reps hp hN
  refine ⟨⟨r1, r0⟩, ⟨r1, r3⟩, ?_, ?_, ?_, ?_⟩ <;> simp only <;> rw [abs_of_nonneg (by linarith)] <;> linarith

/-- `(N+1)(N+3)` is rounded to `N (N+4)`. -/
theorem rnd_far_prod {p : ℕ} (hp : 6 ≤ p) {N : ℝ} (hN : (2 : ℝ) ^ (p - 1) = N) : (binary p).rnd ((N + 1) * (N + 3)) = N * (N + 4) := by
  obtain ⟨h32, -⟩ := far_reps hp hN
  have hz : (2 : ℝ) ^ ((p - 1 : ℕ) : ℤ) = N := by rw [zpow_natCast, hN]
  have e1 : (2 : ℝ) ^ ((p : ℤ) - 1 + ((p - 1 : ℕ) : ℤ)) = N * N := by
    rw [zpow_add₀ (by norm_num), hz, show (p : ℤ) - 1 = ((p - 1 : ℕ) : ℤ) by omega, hz]
  have e2 : (2 : ℝ) ^ ((p : ℤ) + ((p - 1 : ℕ) : ℤ)) = 2 * N * N := by
    rw [zpow_add₀ (by norm_num), hz, zpow_natCast, pow_pred (by omega), hN]
  have := roundTo_of (p := p) (by omega) (x := (N + 1) * (N + 3)) (m := 2 ^ (p - 1) + 4) (k := ((p - 1 : ℕ) : ℤ)) (by rw [e1]; nlinarith) (by rw [e2]; nlinarith) (by
    rw [zpow_neg, hz]
    push_cast
    rw [hN, show (N + 1) * (N + 3) * N⁻¹ - (N + 4) = 3 * N⁻¹ by field_simp; ring, abs_of_pos (by positivity)]
    have : N⁻¹ ≤ 1 / 32 := by rw [inv_le_comm₀ (by positivity) (by norm_num)]; norm_num; linarith
    linarith)
  rw [binary_rnd, this, hz]
  push_cast
  rw [hN]; ring

theorem far_small {p : ℕ} (hp : 6 ≤ p) (n : ℤ) (h : |n| ≤ 4) : (binary p).rnd n = n := by
  have h4 := four_le_int (p := p) (by omega)
  have hpi := pow_pred_int (p := p) (by omega)
  have i : IntUpTo (2 ^ p) (n : ℝ) := ⟨n, by rw [hpi]; omega, rfl⟩
  exact i.rnd (by omega) le_rfl

theorem normalizeLine_keep {t : Thr ℝ} {v w : V3 ℝ} {c : ℝ} (hc : F.hyp (v 0) (v 1) = c) (he : dblEps < c) (hw : (fun i => F.rnd (v i / c)) = w) (h0 : ¬ w 0 < 0) (h1 : ¬ w 1 < 0) :
    normalizeLine F t v = .ok w := by
  subst hc
  subst hw
  unfold normalizeLine
  simp only at h0 h1 ⊢
  rw [if_neg (not_le.2 he), if_neg h0, if_neg h1, ite_self]

theorem normalizeLine_flip {t : Thr ℝ} {v w : V3 ℝ} {c : ℝ} (hc : F.hyp (v 0) (v 1) = c) (he : dblEps < c) (hw : (fun i => F.rnd (v i / c)) = w) (h0 : w 0 < 0) (h1 : t.nullDenom ≤ |w 0|) :
    normalizeLine F t v = .ok (fun i => - w i) := by
  subst hc
  subst hw
  unfold normalizeLine
  simp only at h0 h1 ⊢
  rw [if_neg (not_le.2 he), if_pos h0, if_neg (by rw [abs_neg]; exact not_lt.2 h1)]

theorem hyp_exact {p : ℕ} {a b c : ℝ} (hc : 0 ≤ c) (h : a ^ 2 + b ^ 2 = c ^ 2) : (binary p).hyp a b = (binary p).rnd c := by
  show roundTo p (Real.sqrt (a ^ 2 + b ^ 2)) = roundTo p c
  rw [h, Real.sqrt_sq hc]

theorem far_nums {p : ℕ} (hp : 6 ≤ p) {N : ℝ} (hN : (2 : ℝ) ^ (p - 1) = N) :
    (binary p).rnd 0 = 0 ∧ (binary p).rnd 1 = 1 ∧ (binary p).rnd 2 = 2 ∧ (binary p).rnd 3 = 3 ∧ (binary p).rnd 4 = 4 ∧ (binary p).rnd (N * (N + 1)) = N * (N + 1) ∧ (binary p).rnd (3 * N) = 3 * N := by
  have s0 := far_small hp 0 (by norm_num)
  have s1 := far_small hp 1 (by norm_num)
  have s2 := far_small hp 2 (by norm_num)
  have s3 := far_small hp 3 (by norm_num)
  have s4 := far_small hp 4 (by norm_num)
  push_cast at s0 s1 s2 s3 s4
  have h4 := four_le_int (p := p) (by omega)
  have hpi := pow_pred_int (p := p) (by omega)
  have m1 := rnd_multiple (p := p) (by omega) (2 ^ (p - 1) + 1) (by rw [hpi, abs_of_nonneg (by omega)]; omega)
  have m2 := rnd_multiple (p := p) (by omega) 3 (by rw [hpi]; norm_num; omega)
  push_cast at m1 m2
  rw [hN] at m1 m2
  exact ⟨s0, s1, s2, s3, s4, by rw [mul_comm]; exact m1, m2⟩

theorem far_line1 {p : ℕ} (hp : 6 ≤ p) {N : ℝ} (hN : (2 : ℝ) ^ (p - 1) = N) {t : Thr ℝ} (h1 : t.nullDistance ≤ 1) : lineOfPts (binary p) t (N, N + 1) (N + 3, N + 1) = .ok ![0, 1, -N] := by
  have h := binary_ok hp
  obtain ⟨h32, r0, r1, r3⟩ := far_reps hp hN
  obtain ⟨s0, s1, s2, s3, s4, m1, m2⟩ := far_nums hp hN
  have r0 : (binary p).rnd N = N := r0
  have r1 : (binary p).rnd (N + 1) = N + 1 := r1
  have r3 : (binary p).rnd (N + 3) = N + 3 := r3
  have hc : crossProd (binary p) (mkPt N (N + 1)) (mkPt (N + 3) (N + 1)) = ![0, 3, -(3 * N)] := by
    unfold crossProd mkPt
    simp only [Matrix.cons_val_zero, Matrix.cons_val_one, Matrix.cons_val, mul_one, one_mul]
    rw [r0, r1, r3, sub_self, s0, m1, rnd_far_prod hp hN, show N * (N + 1) - N * (N + 4) = -(3 * N) by ring, h.odd, m2, show N + 3 - N = 3 by ring, s3]
  have hd : distPt (binary p) (N, N + 1) (N + 3, N + 1) = 3 := by
    unfold distPt
    simp only
    rw [show N - (N + 3) = -3 by ring, sub_self, s0, h.odd, s3, hyp_exact (c := 3) (by norm_num) (by norm_num), s3]
  unfold lineOfPts
  rw [if_neg (by show ¬ distPt _ _ _ < _; rw [hd]; linarith)]
  simp only
  rw [hc]
  have z : (fun i => (binary p).rnd ((![0, 3, -(3 * N)] : V3 ℝ) i / 3)) = (![0, 1, -N] : V3 ℝ) := by
    funext i
    fin_cases i
    · simp [s0]
    · simp [s1]
    · show (binary p).rnd (-(3 * N) / 3) = -N
      rw [show -(3 * N) / 3 = -N by ring, h.odd, r0]
  exact normalizeLine_keep (by simp only [Matrix.cons_val_zero, Matrix.cons_val_one]; rw [hyp_exact (c := 3) (by norm_num) (by norm_num), s3]) (by norm_num [dblEps]) z (by simp) (by simp)

theorem far_line2 {p : ℕ} (hp : 6 ≤ p) {N : ℝ} (hN : (2 : ℝ) ^ (p - 1) = N) {t : Thr ℝ} (h1 : t.nullDistance ≤ 1) (h3 : t.nullDenom ≤ 1) : lineOfPts (binary p) t (N + 1, N) (N + 1, N + 3) = .ok ![1, 0, -N] := by
  have h := binary_ok hp
  obtain ⟨h32, r0, r1, r3⟩ := far_reps hp hN
  obtain ⟨s0, s1, s2, s3, s4, m1, m2⟩ := far_nums hp hN
  have r0 : (binary p).rnd N = N := r0
  have r1 : (binary p).rnd (N + 1) = N + 1 := r1
  have r3 : (binary p).rnd (N + 3) = N + 3 := r3
  have hc : crossProd (binary p) (mkPt (N + 1) N) (mkPt (N + 1) (N + 3)) = ![-3, 0, 3 * N] := by
    unfold crossProd mkPt
    simp only [Matrix.cons_val_zero, Matrix.cons_val_one, Matrix.cons_val, mul_one, one_mul]
    rw [r0, r1, r3, sub_self, s0, m1, rnd_far_prod hp hN, show N * (N + 4) - N * (N + 1) = 3 * N by ring, m2, show N - (N + 3) = -3 by ring, h.odd, s3]
  have hd : distPt (binary p) (N + 1, N) (N + 1, N + 3) = 3 := by
    unfold distPt
    simp only
    rw [show N - (N + 3) = -3 by ring, sub_self, s0, h.odd, s3, hyp_exact (c := 3) (by norm_num) (by norm_num), s3]
  unfold lineOfPts
  rw [if_neg (by show ¬ distPt _ _ _ < _; rw [hd]; linarith)]
  simp only
  rw [hc]
  have z : (fun i => (binary p).rnd ((![-3, 0, 3 * N] : V3 ℝ) i / 3)) = (![-1, 0, N] : V3 ℝ) := by
    funext i
    fin_cases i
    · show (binary p).rnd (-3 / 3) = -1
      rw [show (-3 : ℝ) / 3 = -1 by norm_num, h.odd, s1]
    · simp [s0]
    · show (binary p).rnd (3 * N / 3) = N
      rw [show 3 * N / 3 = N by ring, r0]
  have z2 : (fun i => -(![-1, 0, N] : V3 ℝ) i) = ![1, 0, -N] := by funext i; fin_cases i <;> simp
  rw [← z2]
  exact normalizeLine_flip (by simp only [Matrix.cons_val_zero, Matrix.cons_val_one]; rw [hyp_exact (c := 3) (by norm_num) (by norm_num), s3]) (by norm_num [dblEps]) z (by simp) (by simpa using h3)

theorem far_none {p : ℕ} (hp : 6 ≤ p) {N : ℝ} (hN : (2 : ℝ) ^ (p - 1) = N) {ac : ℝ → ℝ} {w : ℝ} (ha : AcosOk ac w) {t : Thr ℝ} (h1 : t.nullDistance ≤ 1) (h2 : t.nullAngleValue ≤ 1) (h3 : t.nullDenom ≤ 1) :
    segInter (binary p) t ac ((N, N + 1), (N + 3, N + 1)) ((N + 1, N), (N + 1, N + 3)) = .ok none := by
  have h := binary_ok hp
  obtain ⟨h32, r0, r1, r3⟩ := far_reps hp hN
  obtain ⟨s0, s1, s2, s3, s4, m1, m2⟩ := far_nums hp hN
  have r0 : (binary p).rnd N = N := r0
  have hns : ¬ SegSame (binary p) t ((N, N + 1), (N + 3, N + 1)) ((N + 1, N), (N + 1, N + 3)) := by
    rintro ⟨k, -⟩
    have k : distPt (binary p) (N, N + 1) (N + 1, N) < t.nullDistance := k
    have e : distPt (binary p) (N, N + 1) (N + 1, N) = (binary p).rnd (Real.sqrt 2) := by
      unfold distPt
      simp only
      rw [show N - (N + 1) = -1 by ring, h.odd, show N + 1 - N = 1 by ring, s1, hyp_exact (c := Real.sqrt 2) (Real.sqrt_nonneg _) (by rw [Real.sq_sqrt (by norm_num)]; norm_num)]
    have := h.mono (Real.le_sqrt_of_sq_le (by norm_num : (1 : ℝ) ^ 2 ≤ 2))
    rw [s1] at this
    rw [e] at k
    linarith
  have hcos : cosArg (binary p) ![0, 1, -N] ![1, 0, -N] = some 0 := by
    have q1 : sqrtF (binary p) 1 = some 1 := by
      unfold sqrtF
      rw [if_neg (by norm_num), Real.sqrt_one, s1]
    have q2 : divF (binary p) 0 1 = some 0 := by
      unfold divF
      rw [if_neg (by norm_num), zero_div, s0]
    unfold cosArg norm2
    simp only [Matrix.cons_val_zero, Matrix.cons_val_one, zero_mul, mul_zero, mul_one, one_mul, s0, s1, zero_add, add_zero, q1]
    change (divF (binary p) 0 1).bind _ = _
    rw [q2]
    show some (if |(0 : ℝ)| > 1 then 1 else |(0 : ℝ)|) = some 0
    rw [abs_zero, if_neg (by norm_num)]
  have hac : 1 ≤ ac 0 := by
    have := abs_le.1 (ha.err 0 (by norm_num) (by norm_num))
    rw [Real.arccos_zero] at this
    have hw := ha.w_small
    have hpi := Real.pi_gt_three
    have h5 : w * (Real.pi / 2) ≤ 1 / 64 * (Real.pi / 2) := mul_le_mul_of_nonneg_right hw (by positivity)
    linarith [this.1]
  have hpar : isParallel (binary p) t ac ![0, 1, -N] ![1, 0, -N] = false := by
    unfold isParallel lineAngle
    rw [hcos]
    simp only [Option.bind_eq_bind, Option.bind_some]
    rw [if_neg (by norm_num)]
    exact decide_eq_false (by linarith)
  have hx : crossXY (binary p) ![0, 1, -N] ![1, 0, -N] = some (N, N) := by
    have e : crossProd (binary p) ![0, 1, -N] ![1, 0, -N] = ![-N, -N, -1] := by
      unfold crossProd
      simp only [Matrix.cons_val_zero, Matrix.cons_val_one, Matrix.cons_val, mul_one, one_mul, mul_zero, zero_mul, s0, s1, h.odd, r0, sub_zero, zero_sub]
    unfold crossXY
    rw [e]
    simp only
    rw [if_neg (by show ¬ (-1 : ℝ) = 0; norm_num)]
    simp only [getXY, Matrix.cons_val_zero, Matrix.cons_val_one, Matrix.cons_val]
    rw [show -N / -1 = N by ring, r0]
  have hb : ¬ Between (binary p) t ((N, N + 1), (N + 3, N + 1)) (N, N) := by
    intro k
    have d1 : distPt (binary p) (N, N + 1) (N, N) = 1 := by
      unfold distPt
      simp only
      rw [sub_self, show N + 1 - N = 1 by ring, s0, s1, hyp_exact (c := 1) (by norm_num) (by norm_num), s1]
    have d2 : 3 ≤ distPt (binary p) (N + 3, N + 1) (N, N) := by
      have e : distPt (binary p) (N + 3, N + 1) (N, N) = (binary p).rnd (Real.sqrt 10) := by
        unfold distPt
        simp only
        rw [show N + 3 - N = 3 by ring, show N + 1 - N = 1 by ring, s1, s3, hyp_exact (c := Real.sqrt 10) (Real.sqrt_nonneg _) (by rw [Real.sq_sqrt (by norm_num)]; norm_num)]
      have := h.mono (Real.le_sqrt_of_sq_le (by norm_num : (3 : ℝ) ^ 2 ≤ 10))
      rw [s3] at this
      rw [e]; exact this
    have d0 : distPt (binary p) (N, N + 1) (N + 3, N + 1) = 3 := by
      unfold distPt
      simp only
      rw [show N - (N + 3) = -3 by ring, sub_self, s0, h.odd, s3, hyp_exact (c := 3) (by norm_num) (by norm_num), s3]
    have k : |(binary p).rnd ((binary p).rnd (distPt (binary p) (N, N + 1) (N, N) + distPt (binary p) (N + 3, N + 1) (N, N)) - distPt (binary p) (N, N + 1) (N + 3, N + 1))| < t.nullDistance := k
    rw [d1, d0] at k
    have a1 := h.mono (by linarith : (4 : ℝ) ≤ 1 + distPt (binary p) (N + 3, N + 1) (N, N))
    rw [s4] at a1
    have a2 := h.mono (by linarith : (1 : ℝ) ≤ (binary p).rnd (1 + distPt (binary p) (N + 3, N + 1) (N, N)) - 3)
    rw [s1] at a2
    have := le_abs_self ((binary p).rnd ((binary p).rnd (1 + distPt (binary p) (N + 3, N + 1) (N, N)) - 3))
    linarith
  unfold segInter lineInter
  rw [if_neg hns]
  simp only
  rw [far_line1 hp hN h1, far_line2 hp hN h1 h3]
  simp only [Res.bind_ok, hpar, Bool.false_eq_true, if_false, hx]
  rw [if_neg hb]
  rfl

end H2d.Fl
