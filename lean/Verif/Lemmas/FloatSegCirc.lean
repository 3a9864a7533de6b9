import Verif.Spec.FloatSegCirc
import Verif.Lemmas.FloatSegs
import Verif.Lemmas.FloatInter
import Verif.Props.FloatInter

/-! # Lemmas for the intersection of a segment and a circle with rounded operations -/

namespace H2d.Fl
open H2d.Spec H2d.Props

variable {F : Arith} {u v : ℝ}

/-- Distance to the centre along a line: convex, so not above both values around. -/
theorem along_max (s : Seg) (c : Pt ℝ) {a k b x : ℝ} (h1 : a ≤ k) (h2 : k ≤ b) (ha : eucl (Spec.along s a) c ≤ x) (hb : eucl (Spec.along s b) c ≤ x) : eucl (Spec.along s k) c ≤ x := by
  have hx : 0 ≤ x := (eucl_nonneg _ _).trans ha
  rcases eq_or_lt_of_le (h1.trans h2) with e | e
  · have : k = a := le_antisymm (by linarith) h1
    rw [this]; exact ha
  · have qa := pow_le_pow_left₀ (eucl_nonneg _ _) ha 2
    have qb := pow_le_pow_left₀ (eucl_nonneg _ _) hb 2
    refine (abs_le_of_sq_le_sq' ?_ hx).2
    rw [eucl_sq] at *
    simp only [Spec.along] at *
    generalize s.2.1 - s.1.1 = dx at *
    generalize s.2.2 - s.1.2 = dy at *
    refine le_of_mul_le_mul_left ?_ (sub_pos.2 e)
    have id : (b - a) * ((s.1.1 + k * dx - c.1) ^ 2 + (s.1.2 + k * dy - c.2) ^ 2) = (b - k) * ((s.1.1 + a * dx - c.1) ^ 2 + (s.1.2 + a * dy - c.2) ^ 2) +
        (k - a) * ((s.1.1 + b * dx - c.1) ^ 2 + (s.1.2 + b * dy - c.2) ^ 2) - (dx ^ 2 + dy ^ 2) * ((k - a) * ((b - k) * (b - a))) := by ring
    rw [id]
    have i1 := mul_le_mul_of_nonneg_left qa (sub_nonneg.2 h2)
    have i2 := mul_le_mul_of_nonneg_left qb (sub_nonneg.2 h1)
    have i3 : 0 ≤ (dx ^ 2 + dy ^ 2) * ((k - a) * ((b - k) * (b - a))) := mul_nonneg (by positivity) (mul_nonneg (sub_nonneg.2 h1) (mul_nonneg (sub_nonneg.2 h2) (sub_nonneg.2 e.le)))
    linarith

/-- Foot of a point on the line of a segment. -/
theorem foot_along {s : Seg} {q : Pt ℝ} {b : ℝ} (hL : 0 < eucl s.1 s.2) (hb : |(s.2.1 - s.1.1) * (q.2 - s.1.2) - (s.2.2 - s.1.2) * (q.1 - s.1.1)| ≤ b * eucl s.1 s.2) :
    eucl q (Spec.along s (((s.2.1 - s.1.1) * (q.1 - s.1.1) + (s.2.2 - s.1.2) * (q.2 - s.1.2)) / eucl s.1 s.2 ^ 2)) ≤ b := by
  have e0 := eucl_sq' s.1 s.2
  have hb0 : 0 ≤ b := nonneg_of_mul_nonneg_left ((abs_nonneg _).trans hb) hL
  refine (abs_le_of_sq_le_sq' ?_ hb0).2
  rw [eucl_sq]
  simp only [Spec.along]
  generalize eucl s.1 s.2 = L at *
  have hb2 := sq_le_sq' (abs_le.1 hb).1 (abs_le.1 hb).2
  obtain ⟨dx, hdx⟩ : ∃ x, s.2.1 - s.1.1 = x := ⟨_, rfl⟩
  obtain ⟨dy, hdy⟩ : ∃ x, s.2.2 - s.1.2 = x := ⟨_, rfl⟩
  obtain ⟨x, hx⟩ : ∃ x, q.1 - s.1.1 = x := ⟨_, rfl⟩
  obtain ⟨y, hy⟩ : ∃ x, q.2 - s.1.2 = x := ⟨_, rfl⟩
  rw [← sub_sub, ← sub_sub, hdx, hdy, hx, hy]
  rw [hdx, hdy] at e0
  rw [hdx, hdy, hx, hy] at hb2
  have id : (x - (dx * x + dy * y) / L ^ 2 * dx) ^ 2 + (y - (dx * x + dy * y) / L ^ 2 * dy) ^ 2 = (dx * y - dy * x) ^ 2 / L ^ 2 := by
    have : (x - (dx * x + dy * y) / L ^ 2 * dx) ^ 2 + (y - (dx * x + dy * y) / L ^ 2 * dy) ^ 2 =
        x ^ 2 + y ^ 2 - 2 * (dx * x + dy * y) ^ 2 / L ^ 2 + (dx * x + dy * y) ^ 2 / L ^ 2 * ((dx ^ 2 + dy ^ 2) / L ^ 2) := by ring
    rw [this, ← e0, div_self (by positivity)]
    field_simp
    rw [e0]; ring
  rw [id, div_le_iff₀ (by positivity), ← mul_pow]
  exact hb2

/-- Scalar product with the direction of the segment. -/
theorem dot_le (s : Seg) (q : Pt ℝ) : |(s.2.1 - s.1.1) * (q.1 - s.1.1) + (s.2.2 - s.1.2) * (q.2 - s.1.2)| ≤ eucl s.1 s.2 * eucl s.1 q := by
  refine abs_le_of_sq (mul_nonneg (eucl_nonneg _ _) (eucl_nonneg _ _)) ?_
  rw [mul_pow, eucl_sq', eucl_sq']
  nlinarith [sq_nonneg ((s.2.1 - s.1.1) * (q.2 - s.1.2) - (s.2.2 - s.1.2) * (q.1 - s.1.1))]

/-- The middle of both points of a line and a circle is near the foot of the centre. -/
theorem lc_middle (h : FlOk F u v) {l : V3 ℝ} (hG : 0 < l 0 ^ 2 + l 1 ^ 2) {c : Pt ℝ} {r d0 M : ℝ} (h0 : 0 ≤ d0) (hr : d0 ≤ r)
    (hd : |d0 - |lineAt F l c| / Real.sqrt (l 0 ^ 2 + l 1 ^ 2)| ≤ 9 / 2 * u * (|lineAt F l c| / Real.sqrt (l 0 ^ 2 + l 1 ^ 2)))
    (hx : |c.1| ≤ M) (hy : |c.2| ≤ M) (hrM : r ≤ M) :
    eucl (((lcPoints F l c r d0).1.1 + (lcPoints F l c r d0).2.1) / 2, ((lcPoints F l c r d0).1.2 + (lcPoints F l c r d0).2.2) / 2) c ≤ d0 + 36 * u * M := by
  have hu := h.u_nonneg
  have hu1 := h.u_small
  have hA := norm2_err h (l 0) (l 1)
  obtain ⟨m, hm⟩ : ∃ m, m = F.rnd (Real.sqrt (F.rnd (F.rnd (F.rnd (r * r) - F.rnd (d0 * d0)) / norm2 F (l 0) (l 1)))) := ⟨_, rfl⟩
  obtain ⟨g, hg⟩ : ∃ g, Real.sqrt (l 0 ^ 2 + l 1 ^ 2) = g := ⟨_, rfl⟩
  have hg0 : 0 < g := by rw [← hg]; exact Real.sqrt_pos.2 hG
  have hg2 : l 0 ^ 2 + l 1 ^ 2 = g ^ 2 := by rw [← hg]; exact (Real.sq_sqrt hG.le).symm
  rw [hg] at hd
  rw [hg2] at hA
  have P := lc_point h hg0 hg2 hA h0 hr hd hm hx hy hrM (w1 := m * l 1) (w2 := -(m * l 0)) (by ring) (by rw [← hg2]; ring)
  have Q := lc_point h hg0 hg2 hA h0 hr hd hm hx hy hrM (w1 := -(m * l 1)) (w2 := m * l 0) (by ring) (by rw [← hg2]; ring)
  rw [h.odd, ← sub_eq_add_neg (F.rnd _) (F.rnd _)] at P Q
  obtain ⟨p1, p2, -, p4⟩ := P
  obtain ⟨q1, q2, -, -⟩ := Q
  have eP : (lcPoints F l c r d0).1 = (F.rnd (F.rnd (F.rnd (F.rnd (-l 0 * lineAt F l c) / norm2 F (l 0) (l 1)) + F.rnd (m * l 1)) + c.1), F.rnd (F.rnd (F.rnd (F.rnd (-l 1 * lineAt F l c) / norm2 F (l 0) (l 1)) - F.rnd (m * l 0)) + c.2)) := by
    rw [hm]; rfl
  have eQ : (lcPoints F l c r d0).2 = (F.rnd (F.rnd (F.rnd (F.rnd (-l 0 * lineAt F l c) / norm2 F (l 0) (l 1)) - F.rnd (m * l 1)) + c.1), F.rnd (F.rnd (F.rnd (F.rnd (-l 1 * lineAt F l c) / norm2 F (l 0) (l 1)) + F.rnd (m * l 0)) + c.2)) := by
    rw [hm]; rfl
  rw [eP, eQ]
  clear eP eQ hm
  simp only
  generalize F.rnd (F.rnd (F.rnd (F.rnd (-l 0 * lineAt F l c) / norm2 F (l 0) (l 1)) + F.rnd (m * l 1)) + c.1) = x1 at *
  generalize F.rnd (F.rnd (F.rnd (F.rnd (-l 1 * lineAt F l c) / norm2 F (l 0) (l 1)) - F.rnd (m * l 0)) + c.2) = y1 at *
  generalize F.rnd (F.rnd (F.rnd (F.rnd (-l 0 * lineAt F l c) / norm2 F (l 0) (l 1)) - F.rnd (m * l 1)) + c.1) = x2 at *
  generalize F.rnd (F.rnd (F.rnd (F.rnd (-l 1 * lineAt F l c) / norm2 F (l 0) (l 1)) + F.rnd (m * l 0)) + c.2) = y2 at *
  generalize lineAt F l c = cp at *
  set Q : Pt ℝ := (c.1 + (-l 0 * cp / g ^ 2), c.2 + (-l 1 * cp / g ^ 2)) with hQ
  have e1 : eucl ((x1 + x2) / 2, (y1 + y2) / 2) Q ≤ 26 * u * M := by
    refine (eucl_le_abs _ _).trans ?_
    simp only [hQ]
    have a1 : |(x1 + x2) / 2 - (c.1 + -l 0 * cp / g ^ 2)| ≤ 13 * u * M := by rw [abs_le] at *; constructor <;> linarith [p1.1, p1.2, q1.1, q1.2]
    have a2 : |(y1 + y2) / 2 - (c.2 + -l 1 * cp / g ^ 2)| ≤ 13 * u * M := by rw [abs_le] at *; constructor <;> linarith [p2.1, p2.2, q2.1, q2.2]
    linarith
  have e2 : eucl Q c ≤ |cp| / g := by
    refine (abs_le_of_sq_le_sq' ?_ (by positivity)).2
    rw [eucl_sq, div_pow, sq_abs]
    simp only [hQ, add_sub_cancel_left]
    have : (-l 0 * cp / g ^ 2) ^ 2 + (-l 1 * cp / g ^ 2) ^ 2 = (l 0 ^ 2 + l 1 ^ 2) * cp ^ 2 / g ^ 4 := by ring
    rw [this, hg2]
    apply le_of_eq
    field_simp
  have t1 := eucl_triangle ((x1 + x2) / 2, (y1 + y2) / 2) Q c
  have e3 : |cp| / g ≤ 11 / 10 * M := by rw [div_le_iff₀ hg0]; exact p4
  have e4 := mul_le_mul_of_nonneg_left e3 hu
  have uM : 0 ≤ u * M := mul_nonneg hu ((abs_nonneg _).trans hx)
  linarith [(abs_le.1 hd).1]

/-- Parameter of the foot of a point on the line of a segment. -/
noncomputable def footK (s : Seg) (q : Pt ℝ) : ℝ := ((s.2.1 - s.1.1) * (q.1 - s.1.1) + (s.2.2 - s.1.2) * (q.2 - s.1.2)) / eucl s.1 s.2 ^ 2

/-- A point that passes the test on the distances. -/
theorem footK_ge {s : Seg} {q : Pt ℝ} {δ : ℝ} (hL : 0 < eucl s.1 s.2) (hd : eucl s.1 q + eucl s.2 q ≤ eucl s.1 s.2 + δ) : -(δ / 2) ≤ footK s q * eucl s.1 s.2 := by
  have e0 := eucl_sq' s.1 s.2
  have d1 := abs_le.1 (dot_le s q)
  have d2 := abs_le.1 (dot_le (s.2, s.1) q)
  simp only [eucl_comm s.2 s.1] at d2
  have k1 : footK s q * eucl s.1 s.2 * eucl s.1 s.2 = (s.2.1 - s.1.1) * (q.1 - s.1.1) + (s.2.2 - s.1.2) * (q.2 - s.1.2) := by
    rw [mul_assoc, ← sq, footK, div_mul_cancel₀ _ (by positivity)]
  have k2 : (eucl s.1 s.2 - footK s q * eucl s.1 s.2) * eucl s.1 s.2 = (s.1.1 - s.2.1) * (q.1 - s.2.1) + (s.1.2 - s.2.2) * (q.2 - s.2.2) := by
    rw [sub_mul, k1, ← sq, e0]; ring
  rw [← k1] at d1
  rw [← k2] at d2
  have a1 : -(footK s q * eucl s.1 s.2) ≤ eucl s.1 q := le_of_mul_le_mul_right (by linarith [d1.1]) hL
  have a2 : eucl s.1 s.2 - footK s q * eucl s.1 s.2 ≤ eucl s.2 q := le_of_mul_le_mul_right (by linarith [d2.2]) hL
  linarith

theorem footK_le {s : Seg} {q : Pt ℝ} {δ : ℝ} (hL : 0 < eucl s.1 s.2) (hd : eucl s.1 q + eucl s.2 q ≤ eucl s.1 s.2 + δ) : (footK s q - 1) * eucl s.1 s.2 ≤ δ / 2 := by
  have e0 := eucl_sq' s.1 s.2
  have d1 := abs_le.1 (dot_le s q)
  have d2 := abs_le.1 (dot_le (s.2, s.1) q)
  simp only [eucl_comm s.2 s.1] at d2
  have k1 : footK s q * eucl s.1 s.2 * eucl s.1 s.2 = (s.2.1 - s.1.1) * (q.1 - s.1.1) + (s.2.2 - s.1.2) * (q.2 - s.1.2) := by
    rw [mul_assoc, ← sq, footK, div_mul_cancel₀ _ (by positivity)]
  have k2 : (eucl s.1 s.2 - footK s q * eucl s.1 s.2) * eucl s.1 s.2 = (s.1.1 - s.2.1) * (q.1 - s.2.1) + (s.1.2 - s.2.2) * (q.2 - s.2.2) := by
    rw [sub_mul, k1, ← sq, e0]; ring
  rw [← k1] at d1
  rw [← k2] at d2
  have a1 : footK s q * eucl s.1 s.2 ≤ eucl s.1 q := le_of_mul_le_mul_right (by linarith [d1.2]) hL
  have a2 : -(eucl s.1 s.2 - footK s q * eucl s.1 s.2) ≤ eucl s.2 q := le_of_mul_le_mul_right (by linarith [d2.1]) hL
  linarith

/-- The sizes that occur. -/
theorem sc_sizes (h : FlOk F u v) {t : Thr ℝ} {M L : ℝ} {s : Seg} {c : Pt ℝ} {r : ℝ} (hp : SegCirc F t u M L s c r) :
    0 < M ∧ eucl s.1 s.2 ≤ 3 * M ∧ 0 ≤ scErr u M L ∧ u * M ≤ 9 * scErr u M L ∧ 16 * u * M ^ 2 / eucl s.1 s.2 ≤ 48 * scErr u M L ∧
      M / L * (16 * u * M ^ 2 / eucl s.1 s.2) ≤ 16 * scErr u M L ∧ 32 * (16 * u * M ^ 2 / eucl s.1 s.2) ≤ eucl s.1 s.2 ∧
      eucl s.1 c ≤ 3 * M ∧ eucl s.2 c ≤ 3 * M := by
  obtain ⟨-, -, m1, m2, m3, m4⟩ := hp.rep
  have hL := hp.L_pos
  have hlen := hp.len
  have hu := h.u_nonneg
  have box : ∀ {p q : Pt ℝ}, |p.1| ≤ M → |p.2| ≤ M → |q.1| ≤ M → |q.2| ≤ M → eucl p q ≤ 3 * M := by
    intro p q a b c d
    have := eucl_le_max (p := p) (q := q) (b := 2 * M) (by linarith [abs_sub p.1 q.1]) (by linarith [abs_sub p.2 q.2])
    linarith
  have h3 : eucl s.1 s.2 ≤ 3 * M := box m1 m2 m3 m4
  have hM : 0 < M := by linarith
  have hE : 0 < eucl s.1 s.2 := by linarith
  have hsm := hp.small
  refine ⟨hM, h3, ?_, ?_, ?_, ?_, ?_, box m1 m2 hp.cx hp.cy, box m3 m4 hp.cx hp.cy⟩
  · unfold scErr; positivity
  · unfold scErr
    rw [← mul_div_assoc, le_div_iff₀ (by positivity)]
    have : L ^ 2 ≤ 9 * M ^ 2 := by nlinarith
    have := mul_le_mul_of_nonneg_left this (mul_nonneg hu hM.le)
    nlinarith
  · unfold scErr
    rw [div_le_iff₀ hE, mul_div_assoc', div_mul_eq_mul_div, le_div_iff₀ (by positivity)]
    have a1 : L ^ 2 ≤ L * eucl s.1 s.2 := by nlinarith
    have a2 : L * eucl s.1 s.2 ≤ 3 * M * eucl s.1 s.2 := mul_le_mul_of_nonneg_right (by linarith) hE.le
    have := mul_le_mul_of_nonneg_left (a1.trans a2) (by positivity : 0 ≤ 16 * u * M ^ 2)
    nlinarith
  · unfold scErr
    rw [div_mul_div_comm, mul_div_assoc', div_le_div_iff₀ (by positivity) (by positivity)]
    have a1 : L ^ 2 ≤ L * eucl s.1 s.2 := by nlinarith
    have := mul_le_mul_of_nonneg_left a1 (by positivity : 0 ≤ 16 * u * M ^ 3)
    nlinarith
  · rw [mul_div_assoc', div_le_iff₀ hE]
    nlinarith

/-- What is known of both points of the line of the segment and the circle. -/
theorem sc_points (h : FlOk F u v) {t : Thr ℝ} {M L : ℝ} {s : Seg} {c : Pt ℝ} {r : ℝ} (hp : SegCirc F t u M L s c r) {l : V3 ℝ} (hl : NearLine l s (16 * u * M ^ 2 / eucl s.1 s.2))
    {pts : Pt ℝ × Pt ℝ} (e : Fl.lineCircle F l c r = some (some pts)) {P : Pt ℝ} (hP : P = pts.1 ∨ P = pts.2) :
    |eucl P c - r| ≤ 48 * u * M ∧ eucl P (Spec.along s (footK s P)) ≤ 651 * scErr u M L := by
  obtain ⟨hM, h3, k0, k1, k2, k3, k4, b1, b2⟩ := sc_sizes h hp
  have hu := h.u_nonneg
  have hu1 := h.u_small
  have hE : 0 < eucl s.1 s.2 := lt_of_lt_of_le hp.L_pos hp.len
  obtain ⟨c1, c2⟩ := C109_points h hl.norm hp.cx hp.cy hp.rad e P hP
  rw [div_le_iff₀ (Real.sqrt_pos.2 hl.norm)] at c2
  refine ⟨c1, ?_⟩
  have far : eucl s.1 P ≤ 5 * M := by
    have t1 := eucl_triangle s.1 c P
    rw [eucl_comm c P] at t1
    have : u * M ≤ 1 / 64 * M := mul_le_mul_of_nonneg_right hu1 hM.le
    linarith [(abs_le.1 c1).2, hp.rad]
  have hc : |(s.2.1 - s.1.1) * (P.1 - s.1.1) + (s.2.2 - s.1.2) * (P.2 - s.1.2)| ≤ 5 * (M / L) * eucl s.1 s.2 ^ 2 := by
    refine (dot_le s P).trans ?_
    have : eucl s.1 P ≤ 5 * (M / L) * eucl s.1 s.2 := by
      refine far.trans ?_
      rw [mul_div_assoc', div_mul_eq_mul_div, le_div_iff₀ hp.L_pos]
      exact mul_le_mul_of_nonneg_left hp.len (by positivity)
    have := mul_le_mul_of_nonneg_left this hE.le
    linarith
  have key := hl.perp hE k4 c2 hc
  refine (foot_along hE key).trans ?_
  have : 2 * (5 * (M / L)) * (16 * u * M ^ 2 / eucl s.1 s.2) ≤ 160 * scErr u M L := by linarith
  linarith

/-- The line found for the segment, at the centre. -/
theorem sc_centre {t : Thr ℝ} {M L : ℝ} (h : FlOk F u v) {s : Seg} {c : Pt ℝ} {r : ℝ} (hp : SegCirc F t u M L s c r) {l : V3 ℝ} (hl : NearLine l s (16 * u * M ^ 2 / eucl s.1 s.2)) {k : ℝ} (hk0 : 0 ≤ k)
    (hk1 : k ≤ 1) : |l 0 * c.1 + l 1 * c.2 + l 2| / Real.sqrt (l 0 ^ 2 + l 1 ^ 2) ≤ eucl (Spec.along s k) c + 48 * scErr u M L ∧
      8 * u * ((|l 0 * c.1| + |l 1 * c.2| + |l 2|) / Real.sqrt (l 0 ^ 2 + l 1 ^ 2)) ≤ 225 * scErr u M L := by
  obtain ⟨hM, h3, e0, k1, k2, k3, k4, b1, b2⟩ := sc_sizes h hp
  have hu := h.u_nonneg
  have n1 : 0 < Real.sqrt (l 0 ^ 2 + l 1 ^ 2) := Real.sqrt_pos.2 hl.norm
  constructor
  · rw [div_le_iff₀ n1]
    have a1 := hl.along k
    rw [abs_of_nonneg hk0, abs_of_nonneg (by linarith : 0 ≤ 1 - k), sub_add_cancel, one_mul] at a1
    have a2 : |l 0 * (c.1 - (Spec.along s k).1) + l 1 * (c.2 - (Spec.along s k).2)| ≤ Real.sqrt (l 0 ^ 2 + l 1 ^ 2) * eucl (Spec.along s k) c := by
      refine (abs_add_le _ _).trans ((cs_abs (l 0) (l 1) (c.2 - (Spec.along s k).2) (c.1 - (Spec.along s k).1)).trans (le_of_eq ?_))
      rw [eucl_comm, eucl_sqrt]; congr 2; ring
    have e : l 0 * c.1 + l 1 * c.2 + l 2 = (l 0 * (c.1 - (Spec.along s k).1) + l 1 * (c.2 - (Spec.along s k).2)) + (l 0 * (Spec.along s k).1 + l 1 * (Spec.along s k).2 + l 2) := by ring
    rw [e]
    refine (abs_add_le _ _).trans ?_
    have a3 := mul_le_mul_of_nonneg_right k2 n1.le
    linarith
  · have off := hl.off hp.rep.2.2.1 hp.rep.2.2.2.1
    unfold offLine at off
    rw [add_div]
    have hab : (|l 0 * c.1| + |l 1 * c.2|) / Real.sqrt (l 0 ^ 2 + l 1 ^ 2) ≤ 3 / 2 * M := by
      rw [div_le_iff₀ n1]
      refine (cs_abs (l 0) (l 1) c.2 c.1).trans ?_
      rw [mul_comm]
      refine mul_le_mul_of_nonneg_right ?_ n1.le
      rw [Real.sqrt_le_left (by positivity)]
      have a := sq_le_sq' (abs_le.1 hp.cx).1 (abs_le.1 hp.cx).2
      have b := sq_le_sq' (abs_le.1 hp.cy).1 (abs_le.1 hp.cy).2
      nlinarith
    have : (|l 0 * c.1| + |l 1 * c.2|) / Real.sqrt (l 0 ^ 2 + l 1 ^ 2) + |l 2| / Real.sqrt (l 0 ^ 2 + l 1 ^ 2) ≤ 25 / 8 * M := by linarith
    have := mul_le_mul_of_nonneg_left this (by positivity : 0 ≤ 8 * u)
    linarith

/-- A point of the segment is inside enough: both points are computed, and their feet are on both sides of it. -/
theorem sc_found (h : FlOk F u v) {t : Thr ℝ} {M L : ℝ} {s : Seg} {c : Pt ℝ} {r : ℝ} (hp : SegCirc F t u M L s c r) {l : V3 ℝ} (hl : NearLine l s (16 * u * M ^ 2 / eucl s.1 s.2)) {k : ℝ} (hk0 : 0 ≤ k)
    (hk1 : k ≤ 1) (hm : eucl (Spec.along s k) c + 2400 * scErr u M L < r) :
    ∃ pts, Fl.lineCircle F l c r = some (some pts) ∧ ¬ (footK s pts.1 < k ∧ footK s pts.2 < k) ∧ ¬ (k < footK s pts.1 ∧ k < footK s pts.2) := by
  obtain ⟨hM, h3, e0, k1, k2, k3, k4, b1, b2⟩ := sc_sizes h hp
  have hu := h.u_nonneg
  obtain ⟨c1, c2⟩ := sc_centre h hp hl hk0 hk1
  obtain ⟨d0, hd0, hd, -, h2⟩ := lineCircle_eq h hl.norm c r
  have hD := abs_le.1 (lc_dist h hl.norm hd)
  have hr : d0 ≤ r := by linarith [hD.2]
  have e := (h2 hr).2.2
  refine ⟨_, e, ?_⟩
  have mid := lc_middle h hl.norm hd0 hr hd hp.cx hp.cy hp.rad
  obtain ⟨p1, p2⟩ := sc_points h hp hl e (Or.inl rfl)
  obtain ⟨q1, q2⟩ := sc_points h hp hl e (Or.inr rfl)
  generalize lcPoints F l c r d0 = pts at *
  generalize footK s pts.1 = α at *
  generalize footK s pts.2 = β at *
  have mm : eucl (Spec.along s ((α + β) / 2)) ((pts.1.1 + pts.2.1) / 2, (pts.1.2 + pts.2.2) / 2) ≤ 651 * scErr u M L := by
    have z1 := abs_fst_le_eucl
    have sqp := p2
    have sqq := q2
    rw [eucl_comm] at sqp sqq
    have tri : eucl (Spec.along s ((α + β) / 2)) ((pts.1.1 + pts.2.1) / 2, (pts.1.2 + pts.2.2) / 2) ≤ (eucl (Spec.along s α) pts.1 + eucl (Spec.along s β) pts.2) / 2 := by
      have t := eucl_triangle ((Spec.along s α).1 - pts.1.1, (Spec.along s α).2 - pts.1.2) (0, 0) (pts.2.1 - (Spec.along s β).1, pts.2.2 - (Spec.along s β).2)
      have x1 : eucl ((Spec.along s α).1 - pts.1.1, (Spec.along s α).2 - pts.1.2) (0, 0) = eucl (Spec.along s α) pts.1 := by rw [eucl_sqrt, eucl_sqrt]; congr 2 <;> ring
      have x2 : eucl (0, 0) (pts.2.1 - (Spec.along s β).1, pts.2.2 - (Spec.along s β).2) = eucl (Spec.along s β) pts.2 := by rw [eucl_sqrt, eucl_sqrt]; congr 2 <;> ring
      have x3 : eucl ((Spec.along s α).1 - pts.1.1, (Spec.along s α).2 - pts.1.2) (pts.2.1 - (Spec.along s β).1, pts.2.2 - (Spec.along s β).2) =
          2 * eucl (Spec.along s ((α + β) / 2)) ((pts.1.1 + pts.2.1) / 2, (pts.1.2 + pts.2.2) / 2) := by
        refine (pow_left_inj₀ (eucl_nonneg _ _) (mul_nonneg zero_le_two (eucl_nonneg _ _)) (two_ne_zero)).1 ?_
        rw [mul_pow, eucl_sq, eucl_sq]; simp only [Spec.along]; ring
      rw [x1, x2, x3] at t
      linarith
    linarith
  have tm := eucl_triangle (Spec.along s ((α + β) / 2)) ((pts.1.1 + pts.2.1) / 2, (pts.1.2 + pts.2.2) / 2) c
  have φm : eucl (Spec.along s ((α + β) / 2)) c < r - 1083 * scErr u M L := by linarith [hD.2]
  have φα : r - 1083 * scErr u M L ≤ eucl (Spec.along s α) c := by
    have := eucl_triangle pts.1 (Spec.along s α) c
    linarith [(abs_le.1 p1).1]
  have φβ : r - 1083 * scErr u M L ≤ eucl (Spec.along s β) c := by
    have := eucl_triangle pts.2 (Spec.along s β) c
    linarith [(abs_le.1 q1).1]
  obtain ⟨x, hx1, hx2, hx3⟩ : ∃ x, eucl (Spec.along s ((α + β) / 2)) c ≤ x ∧ eucl (Spec.along s k) c ≤ x ∧ x < r - 1083 * scErr u M L :=
    ⟨max _ _, le_max_left _ _, le_max_right _ _, max_lt φm (by linarith)⟩
  constructor
  · rintro ⟨ha, hb⟩
    rcases le_total α β with hab | hab
    · have := along_max s c (a := (α + β) / 2) (k := β) (b := k) (by linarith) hb.le hx1 hx2
      linarith
    · have := along_max s c (a := (α + β) / 2) (k := α) (b := k) (by linarith) ha.le hx1 hx2
      linarith
  · rintro ⟨ha, hb⟩
    rcases le_total α β with hab | hab
    · have := along_max s c (a := k) (k := α) (b := (α + β) / 2) ha.le (by linarith) hx2 hx1
      linarith
    · have := along_max s c (a := k) (k := β) (b := (α + β) / 2) hb.le (by linarith) hx2 hx1
      linarith

/-! ### Tags -/

theorem tag_inside (h : FlOk F u v) (t : Thr ℝ) {p c : Pt ℝ} {r M : ℝ} (hr : r ≤ M) (hp : eucl p c + 2 * (u + v) * M < r) : ptLabel F t p c r = .inside := by
  have e := abs_le.1 (distPt_err h p c)
  have d := mul_le_mul_of_nonneg_right (dist_e h) (eucl_nonneg p c)
  have n := eucl_nonneg p c
  have uv : 0 ≤ u + v := add_nonneg h.u_nonneg h.v_nonneg
  have hM : 0 ≤ M := by
    by_contra hM
    have h1 := h.u_small
    have h2 := h.v_small
    have : -(1 / 16 * -M) ≤ 2 * (u + v) * M := by nlinarith
    linarith
  have uM : 0 ≤ (u + v) * M := mul_nonneg uv hM
  have q := mul_le_mul_of_nonneg_left (show eucl p c ≤ M by linarith) uv
  unfold ptLabel
  rw [if_pos (by linarith [e.2])]

theorem tag_outside (h : FlOk F u v) (t : Thr ℝ) (ht : 0 ≤ t.nullDistance) {p c : Pt ℝ} {r M : ℝ} (hM : eucl p c ≤ 3 * M) (hp : r + 4 * (u + v) * M + 33 / 32 * t.nullDistance ≤ eucl p c) :
    ptLabel F t p c r = .outside := by
  have e := abs_le.1 (distPt_err h p c)
  have d := mul_le_mul_of_nonneg_right (dist_e h) (eucl_nonneg p c)
  have n := eucl_nonneg p c
  have uv : 0 ≤ u + v := add_nonneg h.u_nonneg h.v_nonneg
  have q := mul_le_mul_of_nonneg_left hM uv
  have uM : 0 ≤ (u + v) * M := mul_nonneg uv (by linarith)
  have hd : 33 / 32 * t.nullDistance ≤ distPt F p c - r := by linarith [e.1]
  have hd0 : 0 ≤ distPt F p c - r := by linarith
  unfold ptLabel
  rw [if_neg (by linarith), if_neg]
  have er := abs_le.1 (h.err (distPt F p c - r))
  rw [abs_of_nonneg hd0] at er
  have := mul_le_mul_of_nonneg_right h.u_small hd0
  rw [not_lt]
  refine le_trans ?_ (le_abs_self _)
  linarith [er.1]

theorem tag_edge (h : FlOk F u v) {t : Thr ℝ} {p c : Pt ℝ} {r M : ℝ} (hM : eucl p c ≤ 3 * M) (hp : ptLabel F t p c r = .onEdge) : |eucl p c - r| ≤ 4 * (u + v) * M + 11 / 10 * t.nullDistance := by
  unfold ptLabel at hp
  split_ifs at hp with h1 h2
  have e := distPt_err h p c
  have d := mul_le_mul_of_nonneg_right (dist_e h) (eucl_nonneg p c)
  have n := eucl_nonneg p c
  have uv : 0 ≤ u + v := add_nonneg h.u_nonneg h.v_nonneg
  have q := mul_le_mul_of_nonneg_left hM uv
  have uM : 0 ≤ (u + v) * M := mul_nonneg uv (by linarith)
  have er := h.err (distPt F p c - r)
  have := mul_le_mul_of_nonneg_right h.u_small (abs_nonneg (distPt F p c - r))
  have a1 := abs_sub_abs_le_abs_sub (distPt F p c - r) (F.rnd (distPt F p c - r))
  rw [abs_sub_comm (distPt F p c - r) (F.rnd _)] at a1
  have a2 : |distPt F p c - r| ≤ 64 / 63 * t.nullDistance := by linarith
  have a3 := abs_sub (distPt F p c - r) (distPt F p c - eucl p c)
  rw [show distPt F p c - r - (distPt F p c - eucl p c) = eucl p c - r by ring] at a3
  have hn : 0 ≤ t.nullDistance := (abs_nonneg _).trans h2.le
  linarith

/-! ### The cases -/

theorem segCircle_cross {t : Thr ℝ} {s : Seg} {c : Pt ℝ} {r : ℝ} {l : V3 ℝ} {pts : Pt ℝ × Pt ℝ} (hl : lineOfPts F t s.1 s.2 = .ok l) (e : Fl.lineCircle F l c r = some (some pts))
    (ht : (ptLabel F t s.1 c r = .inside ∧ ptLabel F t s.2 c r = .outside) ∨ (ptLabel F t s.1 c r = .outside ∧ ptLabel F t s.2 c r = .inside)) :
    (Between F t s (fixOrder pts.1 pts.2).1 ∧ segCircle F t s c r = .ok (some [(fixOrder pts.1 pts.2).1])) ∨
    (¬ Between F t s (fixOrder pts.1 pts.2).1 ∧ segCircle F t s c r = .ok (some [(fixOrder pts.1 pts.2).2])) := by
  unfold segCircle
  by_cases hb : Between F t s (fixOrder pts.1 pts.2).1
  · left
    refine ⟨hb, ?_⟩
    rcases ht with ⟨h1, h2⟩ | ⟨h1, h2⟩ <;>
    · simp only [h1, h2, hl, e]
      simp [bind, Res.bind, e, if_pos hb]
  · right
    refine ⟨hb, ?_⟩
    rcases ht with ⟨h1, h2⟩ | ⟨h1, h2⟩ <;>
    · simp only [h1, h2, hl, e]
      simp [bind, Res.bind, e, if_neg hb]

theorem segCircle_out {t : Thr ℝ} {s : Seg} {c : Pt ℝ} {r : ℝ} {l : V3 ℝ} {pts : Pt ℝ × Pt ℝ} (hl : lineOfPts F t s.1 s.2 = .ok l) (e : Fl.lineCircle F l c r = some (some pts))
    (h1 : ptLabel F t s.1 c r = .outside) (h2 : ptLabel F t s.2 c r = .outside) :
    (Between F t s (fixOrder pts.1 pts.2).1 ∧ segCircle F t s c r = .ok (some [(fixOrder pts.1 pts.2).1, (fixOrder pts.1 pts.2).2])) ∨
    (¬ Between F t s (fixOrder pts.1 pts.2).1 ∧ segCircle F t s c r = .ok (some [])) := by
  unfold segCircle
  by_cases hb : Between F t s (fixOrder pts.1 pts.2).1
  · left
    refine ⟨hb, ?_⟩
    simp only [h1, h2, hl, e]
    simp [bind, Res.bind, e, if_pos hb]
  · right
    refine ⟨hb, ?_⟩
    simp only [h1, h2, hl, e]
    simp [bind, Res.bind, e, if_neg hb]

theorem fixOrder_mem (p q : Pt ℝ) : ((fixOrder p q).1 = p ∧ (fixOrder p q).2 = q) ∨ ((fixOrder p q).1 = q ∧ (fixOrder p q).2 = p) := by
  unfold fixOrder
  split_ifs <;> simp

theorem lineOfPts_norm (h : FlOk F u v) {t : Thr ℝ} {p q : Pt ℝ} {l : V3 ℝ} (hl : lineOfPts F t p q = .ok l) : 0 < l 0 ^ 2 + l 1 ^ 2 := by
  have hn := C106_normalised F u v h t p q l hl
  have hv := h.v_small
  have hv0 := h.v_nonneg
  have hu := h.u_small
  exact Real.sqrt_pos.1 (lt_of_lt_of_le (div_pos (by linarith) (by linarith)) hn.1)

/-- Where the reported points come from. -/
theorem segCircle_mem {t : Thr ℝ} {s : Seg} {c : Pt ℝ} {r : ℝ} {pts : List (Pt ℝ)} (e : segCircle F t s c r = .ok (some pts)) {q : Pt ℝ} (hq : q ∈ pts) :
    (∃ l pq, lineOfPts F t s.1 s.2 = .ok l ∧ Fl.lineCircle F l c r = some (some pq) ∧ (q = pq.1 ∨ q = pq.2)) ∨ (q = s.1 ∧ ptLabel F t s.1 c r = .onEdge) ∨ (q = s.2 ∧ ptLabel F t s.2 c r = .onEdge) := by
  unfold segCircle at e
  simp only at e
  by_cases k : ptLabel F t s.1 c r = .inside ∧ ptLabel F t s.2 c r = .inside
  · rw [if_pos k] at e
    obtain rfl := Option.some.inj (Res.ok.inj e)
    cases hq
  · rw [if_neg k] at e
    rcases hl : lineOfPts F t s.1 s.2 with l | _ | _ <;> rw [hl] at e <;> try cases e
    simp only [bind, Res.bind] at e
    rcases e' : Fl.lineCircle F l c r with _ | _ | pq <;> rw [e'] at e
    · cases e
    · obtain rfl := Option.some.inj (Res.ok.inj e)
      cases hq
    · simp only at e
      have key : q = (fixOrder pq.1 pq.2).1 ∨ q = (fixOrder pq.1 pq.2).2 → ∃ l' pq, Res.ok l = Res.ok l' ∧ Fl.lineCircle F l' c r = some (some pq) ∧ (q = pq.1 ∨ q = pq.2) := by
        intro hq
        refine ⟨l, pq, rfl, e', ?_⟩
        rcases fixOrder_mem pq.1 pq.2 with ⟨a, b⟩ | ⟨a, b⟩ <;> rw [a, b] at hq
        · exact hq
        · exact hq.symm
      by_cases k1 : (ptLabel F t s.1 c r = .inside ∧ ptLabel F t s.2 c r = .outside) ∨ (ptLabel F t s.1 c r = .outside ∧ ptLabel F t s.2 c r = .inside)
      · rw [if_pos k1] at e
        left
        apply key
        split_ifs at e <;> obtain rfl := Option.some.inj (Res.ok.inj e)
        · exact Or.inl (List.mem_singleton.1 hq)
        · exact Or.inr (List.mem_singleton.1 hq)
      · rw [if_neg k1] at e
        by_cases k2 : ptLabel F t s.1 c r = .outside ∧ ptLabel F t s.2 c r = .outside
        · rw [if_pos k2] at e
          left
          apply key
          split_ifs at e <;> obtain rfl := Option.some.inj (Res.ok.inj e)
          · simpa using hq
          · cases hq
        · rw [if_neg k2] at e
          obtain rfl := Option.some.inj (Res.ok.inj e)
          right
          rcases List.mem_append.1 hq with hq | hq
          · left
            by_cases k3 : ptLabel F t s.1 c r = .onEdge
            · rw [if_pos k3] at hq; exact ⟨List.mem_singleton.1 hq, k3⟩
            · rw [if_neg k3] at hq; cases hq
          · right
            by_cases k3 : ptLabel F t s.2 c r = .onEdge
            · rw [if_pos k3] at hq; exact ⟨List.mem_singleton.1 hq, k3⟩
            · rw [if_neg k3] at hq; cases hq

/-- Both ends on the other side of the circle than a point between: where the feet of the computed points are. -/
theorem foot_between {s : Seg} {c : Pt ℝ} {r m η k0 k : ℝ} (hη : η < m) (hk : |eucl (Spec.along s k) c - r| ≤ η) (hin : eucl (Spec.along s k0) c + m ≤ r) {k1 : ℝ} (hout : r + m ≤ eucl (Spec.along s k1) c) :
    (k0 ≤ k1 → k ≤ k1) ∧ (k1 ≤ k0 → k1 ≤ k) := by
  have hk := abs_le.1 hk
  constructor
  · intro h01
    by_contra hn
    have := along_max s c (a := k0) (k := k1) (b := k) (x := r + η) h01 (not_le.1 hn).le (by linarith) (by linarith)
    linarith
  · intro h01
    by_contra hn
    have := along_max s c (a := k) (k := k1) (b := k0) (x := r + η) (not_le.1 hn).le h01 (by linarith) (by linarith)
    linarith

/-- Distance to the centre at a foot. -/
theorem foot_circle {s : Seg} {c P : Pt ℝ} {r κ a b k : ℝ} (h1 : |eucl P c - r| ≤ a) (h2 : eucl P (Spec.along s k) ≤ b) (hab : a + b ≤ κ) : |eucl (Spec.along s k) c - r| ≤ κ := by
  have t1 := eucl_triangle P (Spec.along s k) c
  have t2 := eucl_triangle (Spec.along s k) P c
  rw [eucl_comm (Spec.along s k) P] at t2
  rw [abs_le] at *
  constructor <;> linarith [h1.1, h1.2]

/-- Moving along the segment. -/
theorem along_lip (s : Seg) (c : Pt ℝ) (k k' : ℝ) : eucl (Spec.along s k) c ≤ eucl (Spec.along s k') c + |k - k'| * eucl s.1 s.2 := by
  have t := eucl_triangle (Spec.along s k) (Spec.along s k') c
  have : eucl (Spec.along s k) (Spec.along s k') = |k - k'| * eucl s.1 s.2 := by
    refine (pow_left_inj₀ (eucl_nonneg _ _) (mul_nonneg (abs_nonneg _) (eucl_nonneg _ _)) two_ne_zero).1 ?_
    rw [mul_pow, sq_abs, eucl_sq, eucl_sq]; simp only [Spec.along]; ring
  linarith

theorem along_zero (s : Seg) : Spec.along s 0 = s.1 := by simp [Spec.along]
theorem along_one (s : Seg) : Spec.along s 1 = s.2 := by simp [Spec.along]

/-- A point that is near the segment passes the test on the distances. -/
theorem sc_between (h : FlOk F u v) {t : Thr ℝ} {M L : ℝ} {s : Seg} {c : Pt ℝ} {r : ℝ} (hp : SegCirc F t u M L s c r) (hthr : 1500 * scErr u M L + 13 * (u + v) * M < t.nullDistance) {q : Pt ℝ} {k : ℝ}
    (hk0 : 0 ≤ k) (hk1 : k ≤ 1) (hq : eucl q (Spec.along s k) ≤ 651 * scErr u M L) : Between F t s q := by
  obtain ⟨hM, h3, e0, x1, x2, x3, x4, b1, b2⟩ := sc_sizes h hp
  have uv : 0 ≤ u + v := add_nonneg h.u_nonneg h.v_nonneg
  refine between_of h (ends_near hk0 hk1 hq) ?_
  have i1 := mul_le_mul_of_nonneg_left h3 uv
  have i2 := mul_le_mul_of_nonneg_right (show u + v ≤ 1 / 32 by linarith [h.u_small, h.v_small]) e0
  have i3 : 0 ≤ (u + v) * M := mul_nonneg uv hM.le
  have : 4 * (u + v) * (eucl s.1 s.2 + 2 * (651 * scErr u M L)) ≤ 12 * ((u + v) * M) + 5208 / 32 * scErr u M L := by linarith
  linarith

/-- One end inside, the other outside. `k0`, `k1`: parameters of these ends. -/
theorem sc_one (h : FlOk F u v) {t : Thr ℝ} {M L : ℝ} {s : Seg} {c : Pt ℝ} {r : ℝ} (hp : SegCirc F t u M L s c r) {k0 k1 : ℝ} (hk : (k0 = 0 ∧ k1 = 1) ∨ (k0 = 1 ∧ k1 = 0))
    (hin : eucl (Spec.along s k0) c + scMargin u v M L t.nullDistance ≤ r) (hout : r + scMargin u v M L t.nullDistance ≤ eucl (Spec.along s k1) c)
    (hthr : 1500 * scErr u M L + 13 * (u + v) * M < t.nullDistance) :
    ∃ q, segCircle F t s c r = .ok (some [q]) ∧ |eucl q c - r| ≤ 48 * u * M ∧ eucl q (Spec.along s (footK s q)) ≤ 651 * scErr u M L ∧ 0 ≤ footK s q ∧ footK s q ≤ 1 := by
  obtain ⟨hM, h3, e0, x1, x2, x3, x4, b1, b2⟩ := sc_sizes h hp
  have hE : 0 < eucl s.1 s.2 := lt_of_lt_of_le hp.L_pos hp.len
  have hnd : 0 < t.nullDistance := lt_of_lt_of_le (by have := dblEps_pos; linarith) hp.eps
  have uv : 0 ≤ u + v := add_nonneg h.u_nonneg h.v_nonneg
  have uM : 0 ≤ (u + v) * M := mul_nonneg uv hM.le
  have hk01 : 0 ≤ k0 ∧ k0 ≤ 1 := by rcases hk with ⟨a, b⟩ | ⟨a, b⟩ <;> rw [a] <;> norm_num
  unfold scMargin at hin hout
  obtain ⟨l, hl, hN⟩ := segLine_near h t hp.eps hp.rep hp.slope (hp.thr.trans hp.len)
  obtain ⟨pts, e, s1, s2⟩ := sc_found h hp hN hk01.1 hk01.2 (by linarith)
  have tags : (ptLabel F t s.1 c r = .inside ∧ ptLabel F t s.2 c r = .outside) ∨ (ptLabel F t s.1 c r = .outside ∧ ptLabel F t s.2 c r = .inside) := by
    rcases hk with ⟨rfl, rfl⟩ | ⟨rfl, rfl⟩
    · rw [along_zero] at hin; rw [along_one] at hout
      exact Or.inl ⟨tag_inside h t hp.rad (by linarith), tag_outside h t hnd.le b2 (by linarith)⟩
    · rw [along_one] at hin; rw [along_zero] at hout
      exact Or.inr ⟨tag_outside h t hnd.le b1 (by linarith), tag_inside h t hp.rad (by linarith)⟩
  have side : ∀ P, P = pts.1 ∨ P = pts.2 → |eucl P c - r| ≤ 48 * u * M ∧ eucl P (Spec.along s (footK s P)) ≤ 651 * scErr u M L ∧ |eucl (Spec.along s (footK s P)) c - r| ≤ 1083 * scErr u M L ∧
      (k0 ≤ k1 → footK s P ≤ k1) ∧ (k1 ≤ k0 → k1 ≤ footK s P) := by
    intro P hP
    obtain ⟨y1, y2⟩ := sc_points h hp hN e hP
    have y3 := foot_circle (κ := 1083 * scErr u M L) y1 y2 (by linarith)
    exact ⟨y1, y2, y3, foot_between (m := 2400 * scErr u M L + 12 * (u + v) * M + 2 * t.nullDistance) (by linarith) y3 hin hout⟩
  have good : ∀ P, P = pts.1 ∨ P = pts.2 → (k0 ≤ k1 → k0 ≤ footK s P) → (k1 ≤ k0 → footK s P ≤ k0) → 0 ≤ footK s P ∧ footK s P ≤ 1 := by
    intro P hP g1 g2
    obtain ⟨-, -, -, g3, g4⟩ := side P hP
    rcases hk with ⟨rfl, rfl⟩ | ⟨rfl, rfl⟩
    · exact ⟨g1 zero_le_one, g3 zero_le_one⟩
    · exact ⟨g4 zero_le_one, g2 zero_le_one⟩
  obtain ⟨i1, i2⟩ : ((fixOrder pts.1 pts.2).1 = pts.1 ∨ (fixOrder pts.1 pts.2).1 = pts.2) ∧ ((fixOrder pts.1 pts.2).2 = pts.1 ∨ (fixOrder pts.1 pts.2).2 = pts.2) := by
    rcases fixOrder_mem pts.1 pts.2 with ⟨a, b⟩ | ⟨a, b⟩ <;> rw [a, b] <;> simp
  have both : (¬ (footK s (fixOrder pts.1 pts.2).1 < k0 ∧ footK s (fixOrder pts.1 pts.2).2 < k0)) ∧ ¬ (k0 < footK s (fixOrder pts.1 pts.2).1 ∧ k0 < footK s (fixOrder pts.1 pts.2).2) := by
    rcases fixOrder_mem pts.1 pts.2 with ⟨a, b⟩ | ⟨a, b⟩ <;> rw [a, b]
    · exact ⟨s1, s2⟩
    · exact ⟨fun w => s1 w.symm, fun w => s2 w.symm⟩
  generalize hA : (fixOrder pts.1 pts.2).1 = A at *
  generalize hB : (fixOrder pts.1 pts.2).2 = B at *
  have cas := segCircle_cross hl e tags
  rw [hA, hB] at cas
  rcases cas with ⟨hb, cas⟩ | ⟨hb, cas⟩
  · refine ⟨A, cas, (side A i1).1, (side A i1).2.1, good A i1 ?_ ?_⟩
    · intro h01
      by_contra hn
      rw [not_le] at hn
      have g := footK_ge hE (between_only h hb)
      have lip := along_lip s c (footK s A) k0
      rw [abs_of_neg (by linarith)] at lip
      have hk0 : k0 = 0 := by
        rcases hk with ⟨a, b⟩ | ⟨a, b⟩
        · exact a
        · rw [a, b] at h01; norm_num at h01
      subst hk0
      have := mul_le_mul_of_nonneg_left h3 uv
      linarith [(abs_le.1 (side A i1).2.2.1).1]
    · intro h01
      by_contra hn
      rw [not_le] at hn
      have g := footK_le hE (between_only h hb)
      have lip := along_lip s c (footK s A) k0
      rw [abs_of_pos (by linarith)] at lip
      have hk0 : k0 = 1 := by
        rcases hk with ⟨a, b⟩ | ⟨a, b⟩
        · rw [a, b] at h01; norm_num at h01
        · exact a
      subst hk0
      have := mul_le_mul_of_nonneg_left h3 uv
      linarith [(abs_le.1 (side A i1).2.2.1).1]
  · have key : ∀ (w1 : 0 ≤ footK s A) (w2 : footK s A ≤ 1), False := fun w1 w2 => hb (sc_between h hp hthr w1 w2 (side A i1).2.1)
    refine ⟨B, cas, (side B i2).1, (side B i2).2.1, good B i2 ?_ ?_⟩
    · intro h01
      by_contra hn
      rw [not_le] at hn
      have a1 : k0 ≤ footK s A := by
        by_contra hA; exact both.1 ⟨not_le.1 hA, hn⟩
      have a2 := (side A i1).2.2.2.1 h01
      rcases hk with ⟨a, b⟩ | ⟨a, b⟩
      · rw [a] at a1; rw [b] at a2; exact key a1 a2
      · rw [a, b] at h01; norm_num at h01
    · intro h01
      by_contra hn
      rw [not_le] at hn
      have a1 : footK s A ≤ k0 := by
        by_contra hA; exact both.2 ⟨not_le.1 hA, hn⟩
      have a2 := (side A i1).2.2.2.2 h01
      rcases hk with ⟨a, b⟩ | ⟨a, b⟩
      · rw [a, b] at h01; norm_num at h01
      · rw [a] at a1; rw [b] at a2; exact key a2 a1

/-- Both ends outside, a point between inside. -/
theorem sc_two (h : FlOk F u v) {t : Thr ℝ} {M L : ℝ} {s : Seg} {c : Pt ℝ} {r : ℝ} (hp : SegCirc F t u M L s c r) {k : ℝ} (hk0 : 0 ≤ k) (hk1 : k ≤ 1)
    (hin : eucl (Spec.along s k) c + scMargin u v M L t.nullDistance ≤ r) (h1 : r + scMargin u v M L t.nullDistance ≤ eucl s.1 c) (h2 : r + scMargin u v M L t.nullDistance ≤ eucl s.2 c)
    (hthr : 1500 * scErr u M L + 13 * (u + v) * M < t.nullDistance) :
    ∃ q q', segCircle F t s c r = .ok (some [q, q']) ∧ (|eucl q c - r| ≤ 48 * u * M ∧ eucl q (Spec.along s (footK s q)) ≤ 651 * scErr u M L ∧ 0 ≤ footK s q ∧ footK s q ≤ 1) ∧
      (|eucl q' c - r| ≤ 48 * u * M ∧ eucl q' (Spec.along s (footK s q')) ≤ 651 * scErr u M L ∧ 0 ≤ footK s q' ∧ footK s q' ≤ 1) ∧
      ((footK s q ≤ k ∧ k ≤ footK s q') ∨ (footK s q' ≤ k ∧ k ≤ footK s q)) := by
  obtain ⟨hM, h3, e0, x1, x2, x3, x4, b1, b2⟩ := sc_sizes h hp
  have hnd : 0 < t.nullDistance := lt_of_lt_of_le (by have := dblEps_pos; linarith) hp.eps
  have uv : 0 ≤ u + v := add_nonneg h.u_nonneg h.v_nonneg
  have uM : 0 ≤ (u + v) * M := mul_nonneg uv hM.le
  rw [← along_zero s] at h1
  rw [← along_one s] at h2
  unfold scMargin at hin h1 h2
  obtain ⟨l, hl, hN⟩ := segLine_near h t hp.eps hp.rep hp.slope (hp.thr.trans hp.len)
  obtain ⟨pts, e, s1, s2⟩ := sc_found h hp hN hk0 hk1 (by linarith)
  have t1 : ptLabel F t s.1 c r = .outside := tag_outside h t hnd.le b1 (by rw [along_zero] at h1; linarith)
  have t2 : ptLabel F t s.2 c r = .outside := tag_outside h t hnd.le b2 (by rw [along_one] at h2; linarith)
  have side : ∀ P, P = pts.1 ∨ P = pts.2 → |eucl P c - r| ≤ 48 * u * M ∧ eucl P (Spec.along s (footK s P)) ≤ 651 * scErr u M L ∧ 0 ≤ footK s P ∧ footK s P ≤ 1 := by
    intro P hP
    obtain ⟨y1, y2⟩ := sc_points h hp hN e hP
    have y3 := foot_circle (κ := 1083 * scErr u M L) y1 y2 (by linarith)
    exact ⟨y1, y2, (foot_between (m := 2400 * scErr u M L + 12 * (u + v) * M + 2 * t.nullDistance) (by linarith) y3 hin h1).2 hk0,
      (foot_between (m := 2400 * scErr u M L + 12 * (u + v) * M + 2 * t.nullDistance) (by linarith) y3 hin h2).1 hk1⟩
  obtain ⟨i1, i2⟩ : ((fixOrder pts.1 pts.2).1 = pts.1 ∨ (fixOrder pts.1 pts.2).1 = pts.2) ∧ ((fixOrder pts.1 pts.2).2 = pts.1 ∨ (fixOrder pts.1 pts.2).2 = pts.2) := by
    rcases fixOrder_mem pts.1 pts.2 with ⟨a, b⟩ | ⟨a, b⟩ <;> rw [a, b] <;> simp
  have both : (¬ (footK s (fixOrder pts.1 pts.2).1 < k ∧ footK s (fixOrder pts.1 pts.2).2 < k)) ∧ ¬ (k < footK s (fixOrder pts.1 pts.2).1 ∧ k < footK s (fixOrder pts.1 pts.2).2) := by
    rcases fixOrder_mem pts.1 pts.2 with ⟨a, b⟩ | ⟨a, b⟩ <;> rw [a, b]
    · exact ⟨s1, s2⟩
    · exact ⟨fun w => s1 w.symm, fun w => s2 w.symm⟩
  have g1 := side _ i1
  have g2 := side _ i2
  rcases segCircle_out hl e t1 t2 with ⟨-, cas⟩ | ⟨hb, -⟩
  · refine ⟨_, _, cas, g1, g2, ?_⟩
    rcases lt_trichotomy (footK s (fixOrder pts.1 pts.2).1) k with w | w | w
    · exact Or.inl ⟨w.le, not_lt.1 fun w' => both.1 ⟨w, w'⟩⟩
    · rcases le_total (footK s (fixOrder pts.1 pts.2).2) k with w' | w'
      · exact Or.inr ⟨w', w.ge⟩
      · exact Or.inl ⟨w.le, w'⟩
    · exact Or.inr ⟨not_lt.1 fun w' => both.2 ⟨w, w'⟩, w.le⟩
  · exact absurd (sc_between h hp hthr g1.2.2.1 g1.2.2.2 g1.2.1) hb

/-- No point of the segment near the disc. -/
theorem sc_zero (h : FlOk F u v) {t : Thr ℝ} {M L : ℝ} {s : Seg} {c : Pt ℝ} {r : ℝ} (hp : SegCirc F t u M L s c r)
    (hout : ∀ k, 0 ≤ k → k ≤ 1 → r + scMargin u v M L t.nullDistance ≤ eucl (Spec.along s k) c) : segCircle F t s c r = .ok (some []) := by
  obtain ⟨hM, h3, e0, x1, x2, x3, x4, b1, b2⟩ := sc_sizes h hp
  have hE : 0 < eucl s.1 s.2 := lt_of_lt_of_le hp.L_pos hp.len
  have hnd : 0 < t.nullDistance := lt_of_lt_of_le (by have := dblEps_pos; linarith) hp.eps
  have uv : 0 ≤ u + v := add_nonneg h.u_nonneg h.v_nonneg
  have uM : 0 ≤ (u + v) * M := mul_nonneg uv hM.le
  have h1 := hout 0 le_rfl zero_le_one
  have h2 := hout 1 zero_le_one le_rfl
  unfold scMargin at hout h1 h2
  have t1 : ptLabel F t s.1 c r = .outside := tag_outside h t hnd.le b1 (by rw [along_zero] at h1; linarith)
  have t2 : ptLabel F t s.2 c r = .outside := tag_outside h t hnd.le b2 (by rw [along_one] at h2; linarith)
  obtain ⟨l, hl, hN⟩ := segLine_near h t hp.eps hp.rep hp.slope (hp.thr.trans hp.len)
  rcases e : Fl.lineCircle F l c r with _ | _ | pts
  · exact absurd e (C109_defined h hN.norm c r)
  · unfold segCircle
    simp only [t1, t2, hl]
    simp [bind, Res.bind, e]
  · rcases segCircle_out hl e t1 t2 with ⟨hb, -⟩ | ⟨-, cas⟩
    · exfalso
      have i1 : (fixOrder pts.1 pts.2).1 = pts.1 ∨ (fixOrder pts.1 pts.2).1 = pts.2 := by
        rcases fixOrder_mem pts.1 pts.2 with ⟨a, b⟩ | ⟨a, b⟩ <;> rw [a] <;> simp
      obtain ⟨y1, y2⟩ := sc_points h hp hN e i1
      have y3 := foot_circle (κ := 1083 * scErr u M L) y1 y2 (by linarith)
      generalize (fixOrder pts.1 pts.2).1 = A at *
      have g1 := footK_ge hE (between_only h hb)
      have g2 := footK_le hE (between_only h hb)
      have q3 := mul_le_mul_of_nonneg_left h3 uv
      have y3 := (abs_le.1 y3).2
      rcases lt_or_ge (footK s A) 0 with w | w
      · have lip := along_lip s c 0 (footK s A)
        rw [abs_of_pos (by linarith)] at lip
        linarith
      · rcases lt_or_ge 1 (footK s A) with w' | w'
        · have lip := along_lip s c 1 (footK s A)
          rw [abs_of_neg (by linarith)] at lip
          linarith
        · linarith [hout _ w w']
    · exact cas

/-- The distance to the centre is a convex function along the segment. -/
theorem along_conv (s : Seg) (c : Pt ℝ) {a b w : ℝ} (h0 : 0 ≤ w) (h1 : w ≤ 1) : eucl (Spec.along s ((1 - w) * a + w * b)) c ≤ (1 - w) * eucl (Spec.along s a) c + w * eucl (Spec.along s b) c := by
  have t := eucl_triangle ((1 - w) * ((Spec.along s a).1 - c.1), (1 - w) * ((Spec.along s a).2 - c.2)) (0, 0) (-(w * ((Spec.along s b).1 - c.1)), -(w * ((Spec.along s b).2 - c.2)))
  have x1 : eucl ((1 - w) * ((Spec.along s a).1 - c.1), (1 - w) * ((Spec.along s a).2 - c.2)) (0, 0) = (1 - w) * eucl (Spec.along s a) c := by
    refine (pow_left_inj₀ (eucl_nonneg _ _) (mul_nonneg (by linarith) (eucl_nonneg _ _)) two_ne_zero).1 ?_
    rw [mul_pow, eucl_sq, eucl_sq]; ring
  have x2 : eucl (0, 0) (-(w * ((Spec.along s b).1 - c.1)), -(w * ((Spec.along s b).2 - c.2))) = w * eucl (Spec.along s b) c := by
    refine (pow_left_inj₀ (eucl_nonneg _ _) (mul_nonneg h0 (eucl_nonneg _ _)) two_ne_zero).1 ?_
    rw [mul_pow, eucl_sq, eucl_sq]; ring
  have x3 : eucl ((1 - w) * ((Spec.along s a).1 - c.1), (1 - w) * ((Spec.along s a).2 - c.2)) (-(w * ((Spec.along s b).1 - c.1)), -(w * ((Spec.along s b).2 - c.2))) =
      eucl (Spec.along s ((1 - w) * a + w * b)) c := by
    refine (pow_left_inj₀ (eucl_nonneg _ _) (eucl_nonneg _ _) two_ne_zero).1 ?_
    rw [eucl_sq, eucl_sq]; simp only [Spec.along]; ring
  rw [x1, x2, x3] at t
  exact t

/-- Two points of the segment near the circle, on the same side of a point that is inside by `d`. -/
theorem along_close {s : Seg} {c : Pt ℝ} {r d η k0 a b : ℝ} (hd : 0 < d) (hin : eucl (Spec.along s k0) c + d ≤ r) (hab : |a - k0| ≤ |b - k0|) (hs : 0 ≤ (a - k0) * (b - k0)) (ha : r - η ≤ eucl (Spec.along s a) c)
    (hb : eucl (Spec.along s b) c ≤ r + η) (hη : 0 ≤ η) (hone : eucl (Spec.along s a) c = r ∨ eucl (Spec.along s b) c = r) : |b - a| * d ≤ η * |b - k0| := by
  rcases eq_or_ne b k0 with e | e
  · rw [e, sub_self, abs_zero] at hab
    have : a = k0 := by linarith [abs_eq_zero.1 (le_antisymm hab (abs_nonneg _))]
    rw [e, this]; simp
  · have hb0 : b - k0 ≠ 0 := sub_ne_zero.2 e
    have hB : 0 < |b - k0| := abs_pos.2 hb0
    set w := (a - k0) / (b - k0) with hw
    have w0 : 0 ≤ w := by
      rw [hw, show (a - k0) / (b - k0) = (a - k0) * (b - k0) / (b - k0) ^ 2 by field_simp]
      exact div_nonneg hs (sq_nonneg _)
    have w1 : w ≤ 1 := by
      rw [← abs_of_nonneg w0, hw, abs_div]
      exact (div_le_one hB).2 hab
    have ea : (1 - w) * k0 + w * b = a := by
      have : w * (b - k0) = a - k0 := by rw [hw]; field_simp
      linear_combination this
    have cv := along_conv s c (a := k0) (b := b) w0 w1
    rw [ea] at cv
    have eb : |b - a| = (1 - w) * |b - k0| := by
      rw [← abs_of_nonneg (sub_nonneg.2 w1), ← abs_mul]
      congr 1
      have : w * (b - k0) = a - k0 := by rw [hw]; field_simp
      linear_combination this
    have i0 := mul_le_mul_of_nonneg_left hin (sub_nonneg.2 w1)
    have main : (1 - w) * d ≤ η := by
      rcases hone with h1 | h1
      · rw [h1] at cv
        have i1 := mul_le_mul_of_nonneg_left hb w0
        have i2 := mul_le_mul_of_nonneg_right w1 hη
        linarith
      · rw [h1] at cv
        linarith
    rw [eb]
    have := mul_le_mul_of_nonneg_right main hB.le
    linarith

theorem eucl_along (s : Seg) (k k' : ℝ) : eucl (Spec.along s k) (Spec.along s k') = |k - k'| * eucl s.1 s.2 := by
  refine (pow_left_inj₀ (eucl_nonneg _ _) (mul_nonneg (abs_nonneg _) (eucl_nonneg _ _)) two_ne_zero).1 ?_
  rw [mul_pow, sq_abs, eucl_sq, eucl_sq]; simp only [Spec.along]; ring

/-- The reported point and the exact one. -/
theorem sc_exact {s : Seg} {c q : Pt ℝ} {r d κ uM k0 k kx : ℝ} (hκ : 0 ≤ κ) (hd : 0 < d) (huM : uM ≤ 432 * κ) (hin : eucl (Spec.along s k0) c + d ≤ r) (h1 : |eucl q c - r| ≤ uM)
    (h2 : eucl q (Spec.along s k) ≤ 651 * κ) (hx : eucl (Spec.along s kx) c = r) (hs : 0 ≤ (k - k0) * (kx - k0)) (hk : |k - k0| ≤ 1) (hkx : |kx - k0| ≤ 1) :
    eucl q (Spec.along s kx) ≤ 1083 * κ * (1 + eucl s.1 s.2 / d) := by
  have y := abs_le.1 (foot_circle (κ := 1083 * κ) h1 h2 (by linarith))
  have key : |k - kx| * d ≤ 1083 * κ := by
    rcases le_total |k - k0| |kx - k0| with w | w
    · have := along_close hd hin w hs (by linarith [y.1]) (by rw [hx]; linarith : eucl (Spec.along s kx) c ≤ r + 1083 * κ) (by positivity) (Or.inr hx)
      rw [abs_sub_comm k kx]
      nlinarith
    · have := along_close hd hin w (by linarith) (by rw [hx]; linarith : r - 1083 * κ ≤ eucl (Spec.along s kx) c) (by linarith [y.2]) (by positivity) (Or.inl hx)
      nlinarith
  have t := eucl_triangle q (Spec.along s k) (Spec.along s kx)
  rw [eucl_along] at t
  have e : |k - kx| * eucl s.1 s.2 ≤ 1083 * κ * (eucl s.1 s.2 / d) := by
    rw [mul_div_assoc', le_div_iff₀ hd]
    have := mul_le_mul_of_nonneg_right key (eucl_nonneg s.1 s.2)
    linarith
  linarith

end H2d.Fl
