import Verif.Lemmas.FloatCircle3
import Verif.Props.FloatCross

/-! # The circle of three points is defined, with rounded operations -/

namespace H2d.Fl
open H2d.Spec

variable {F : Arith} {u v : ℝ}

theorem normalize_norm (h : FlOk F u v) {t : Thr ℝ} {w l : V3 ℝ} (hl : Fl.normalizeLine F t w = .ok l) : 1 / 2 ≤ Real.sqrt (l 0 ^ 2 + l 1 ^ 2) := by
  have hs : dblEps < F.hyp (w 0) (w 1) := by
    by_contra hs
    simp only [Fl.normalizeLine, not_lt.1 hs, if_true] at hl
    cases hl
  rw [Fl.normalizeLine_ok t w hs] at hl
  injection hl with hl
  have hG := lt_trans dblEps_pos hs
  have n : l 0 ^ 2 + l 1 ^ 2 = F.rnd (w 0 / F.hyp (w 0) (w 1)) ^ 2 + F.rnd (w 1 / F.hyp (w 0) (w 1)) ^ 2 := by
    rw [← hl]; exact signFix_norm t _
  rw [n]
  have hu := h.u_nonneg
  have hu1 := h.u_small
  have hv := h.v_nonneg
  have hv1 := h.v_small
  obtain ⟨s1, s2⟩ := sqrt_near hu (by linarith) (h.err (w 0 / F.hyp (w 0) (w 1))) (h.err (w 1 / F.hyp (w 0) (w 1)))
  have e : Real.sqrt ((w 0 / F.hyp (w 0) (w 1)) ^ 2 + (w 1 / F.hyp (w 0) (w 1)) ^ 2) = Real.sqrt (w 0 ^ 2 + w 1 ^ 2) / F.hyp (w 0) (w 1) := by
    rw [div_pow, div_pow, ← add_div, Real.sqrt_div' _ (sq_nonneg _), Real.sqrt_sq hG.le]
  rw [e] at s1
  have hy := abs_le.1 (h.hypErr (w 0) (w 1))
  set H := Real.sqrt (w 0 ^ 2 + w 1 ^ 2)
  set G := F.hyp (w 0) (w 1)
  have b1 : 1 / (1 + v) ≤ H / G := by rw [div_le_div_iff₀ (by linarith) hG]; linarith [hy.2]
  have b2 : (9 : ℝ) / 10 ≤ 1 / (1 + v) := by rw [le_div_iff₀ (by linarith)]; linarith
  nlinarith

theorem normalize_defined (h : FlOk F u v) (t : Thr ℝ) {w : V3 ℝ} (hw : 1 / 2 ≤ Real.sqrt (w 0 ^ 2 + w 1 ^ 2)) : ∃ l, Fl.normalizeLine F t w = .ok l := by
  refine ⟨_, Fl.normalizeLine_ok t w ?_⟩
  have hy := abs_le.1 (h.hypErr (w 0) (w 1))
  have hv1 := h.v_small
  have : dblEps < 1 / 4 := by norm_num [dblEps]
  nlinarith [hy.1]

theorem bisector_defined (h : FlOk F u v) {t : Thr ℝ} (ht : 2 * dblEps ≤ t.nullDistance) {p q : Pt ℝ} (hp : Rep F p.1 ∧ Rep F p.2) (hq : Rep F q.1 ∧ Rep F q.2) (hd : 2 * t.nullDistance ≤ eucl p q) :
    ∃ m, segBisector F t (fixOrder p q) = .ok m := by
  have hnd : 0 < t.nullDistance := lt_of_lt_of_le (by have := dblEps_pos; linarith) ht
  have key : ∀ {p q : Pt ℝ}, Rep F p.1 ∧ Rep F p.2 → Rep F q.1 ∧ Rep F q.2 → 2 * t.nullDistance ≤ eucl p q → ∃ m, segBisector F t (p, q) = .ok m := by
    intro p q hp hq hd
    obtain ⟨l, hl⟩ := (Props.C106_defined F u v h t ht p q hp hq).resolve_right fun k => far_not_same h t hd hnd k.1
    have hl' := hl
    unfold lineOfPts at hl'
    split_ifs at hl'
    have n := normalize_norm h hl'
    unfold segBisector orthogLine
    simp only [hl, Res.bind_ok]
    obtain ⟨m, hm⟩ := normalize_defined h t (w := ![- l 1, l 0, F.rnd (F.rnd (l 1 * (center F p q).1) - F.rnd (l 0 * (center F p q).2))]) (by
      simp only [Matrix.cons_val_zero, Matrix.cons_val_one]
      rwa [neg_sq, add_comm])
    rw [hm]
    simp only [Res.bind_ok]
    exact normalize_defined h t (normalize_norm h hm)
  rcases Pip.fixOrder_cases p q with e | e <;> rw [e]
  · exact key hp hq hd
  · exact key hq hp (by rwa [eucl_comm])

theorem Three.swapAll {t : Thr ℝ} {M : ℝ} {p1 p2 p3 a b e : Pt ℝ} (ht : Three F t M p1 p2 p3) (hp : [a, b, e].Perm [p1, p2, p3]) : Three F t M a b e :=
  ⟨fun p h => ht.rep p (hp.subset h), fun p h => ht.bound p (hp.subset h), fun p h q h' => ht.slopes p (hp.subset h) q (hp.subset h')⟩

/-- Pairs of points of the triangle. -/
theorem apart_perm {L : ℝ} {p1 p2 p3 a b e : Pt ℝ} (h : L ≤ eucl p1 p2 ∧ L ≤ eucl p1 p3 ∧ L ≤ eucl p2 p3) (hL : 0 < L) (hp : [a, b, e].Perm [p1, p2, p3]) : L ≤ eucl a b ∧ L ≤ eucl a e ∧ L ≤ eucl b e := by
  have hpw : [p1, p2, p3].Pairwise fun x y => L ≤ eucl x y := by simp [h.1, h.2.1, h.2.2]
  have := (hp.symm.pairwise_iff (R := fun x y => L ≤ eucl x y) (fun {x y} k => by rwa [eucl_comm])).1 hpw
  simpa [and_assoc] using this

theorem eucl_le_box {M : ℝ} {p q : Pt ℝ} (hp : |p.1| ≤ M ∧ |p.2| ≤ M) (hq : |q.1| ≤ M ∧ |q.2| ≤ M) : eucl p q ≤ 3 * M := by
  have hM : 0 ≤ M := (abs_nonneg _).trans hp.1
  unfold eucl
  apply Real.sqrt_le_iff.2
  refine ⟨by linarith, ?_⟩
  obtain ⟨a, b⟩ := hp
  obtain ⟨c, d⟩ := hq
  rw [abs_le] at a b c d
  have s1 : (p.1 - q.1) ^ 2 ≤ (2 * M) ^ 2 := sq_le_sq' (by linarith) (by linarith)
  have s2 : (p.2 - q.2) ^ 2 ≤ (2 * M) ^ 2 := sq_le_sq' (by linarith) (by linarith)
  nlinarith

theorem dot_le_eucl (p q r : Pt ℝ) : |(q.1 - p.1) * (r.1 - p.1) + (q.2 - p.2) * (r.2 - p.2)| ≤ eucl p q * eucl p r := by
  apply abs_le_of_sq_le_sq _ (mul_nonneg (eucl_nonneg _ _) (eucl_nonneg _ _))
  rw [mul_pow, eucl_sq, eucl_sq]
  nlinarith [sq_nonneg ((q.1 - p.1) * (r.2 - p.2) - (q.2 - p.2) * (r.1 - p.1))]

/-- The three points are not collinear for the library. -/
theorem notCollinear (h : FlOk F u v) {t : Thr ℝ} {w M L S : ℝ} {p1 p2 p3 : Pt ℝ} (ht : WideTriangle F t u v w M L S p1 p2 p3) : areCollinear F t p1 p2 p3 = .ok false := by
  have hu := h.u_nonneg
  have hv := h.v_nonneg
  have hnd : 0 < t.nullDistance := lt_of_lt_of_le (by have := dblEps_pos; linarith) ht.eps
  have hL : 0 < L := by linarith [ht.long]
  have f12 := far_not_same h t (ht.long.trans ht.apart.1) hnd
  have f13 := far_not_same h t (ht.long.trans ht.apart.2.1) hnd
  have f23 := far_not_same h t (ht.long.trans ht.apart.2.2) hnd
  unfold areCollinear
  rw [if_neg (by tauto)]
  have hp := largest_perm F p1 p2 p3
  generalize largestDistancePoints F p1 p2 p3 = r at hp
  obtain ⟨a, b, e⟩ := r
  simp only at hp ⊢
  have h3 := Three.swapAll ht.toThree hp
  obtain ⟨lab, lae, -⟩ := apart_perm ht.apart hL hp
  have ba := h3.bound a (by simp)
  have bb := h3.bound b (by simp)
  have be := h3.bound e (by simp)
  have hM : 0 ≤ M := (abs_nonneg _).trans ba.1
  have hsl : SlopeOk t (a, b) := by
    refine (h3.slopes a (by simp) b (by simp)).ver.imp id fun k => ?_
    simp only
    rw [abs_sub_comm]
    have : 0 ≤ |b.2 - a.2| / eucl a b := div_nonneg (abs_nonneg _) (eucl_nonneg _ _)
    linarith
  obtain ⟨l, hl, hn⟩ := segLine_near h t ht.eps (s := (a, b)) (M := M) ⟨h3.rep a (by simp), h3.rep b (by simp), ba.1, ba.2, bb.1, bb.2⟩ hsl (ht.long.trans lab)
  simp only at hl hn
  rw [hl]
  simp only [Res.bind_ok]
  have hab : 0 < eucl a b := lt_of_lt_of_le hL lab
  have hab3 := eucl_le_box ba bb
  have hae3 := eucl_le_box ba be
  have hρ1 : 16 * u * M ^ 2 / eucl a b ≤ 16 * u * M ^ 2 / L := div_le_div_of_nonneg_left (by positivity) hL lab
  have hρ2 : 16 * u * M ^ 2 / L ≤ 16 / 1000 * L := by
    rw [div_le_iff₀ hL]; nlinarith [ht.sharp]
  have hn' := hn.mono hρ1
  have hD := lineDist_seg h (s := (a, b)) hl hn' ba.1 ba.2 (by linarith) be.1 be.2
  congr 1
  rw [decide_eq_false_iff_not, not_lt]
  by_contra hlt
  rw [not_le] at hlt
  have n1 : 0 < Real.sqrt (l 0 ^ 2 + l 1 ^ 2) := Real.sqrt_pos.2 hn.norm
  have he : |l 0 * e.1 + l 1 * e.2 + l 2| ≤ (t.nullDistance + 14 * (u + v) * M) * Real.sqrt (l 0 ^ 2 + l 1 ^ 2) := by
    rw [← div_le_iff₀ n1]
    linarith [(abs_le.1 hD).1]
  have hc : |(b.1 - a.1) * (e.1 - a.1) + (b.2 - a.2) * (e.2 - a.2)| ≤ 3 * M / L * eucl a b ^ 2 := by
    refine (dot_le_eucl a b e).trans ?_
    rw [div_mul_eq_mul_div, le_div_iff₀ hL, sq]
    have := mul_le_mul hae3 lab hL.le (by positivity)
    nlinarith
  have hperp := hn'.perp (s := (a, b)) hab (by linarith) he hc
  simp only at hperp
  have hdet := ht.sin a b e hp
  have hS0 : 0 ≤ S := by linarith [ht.prec]
  have e1 : |orientDet a b e| = |(b.1 - a.1) * (e.2 - a.2) - (b.2 - a.2) * (e.1 - a.1)| := by
    unfold orientDet; congr 1; ring
  rw [e1] at hdet
  have hSL : S * L ≤ 64 / 63 * (t.nullDistance + 14 * (u + v) * M + 16 * u * M ^ 2 / L + 2 * (3 * M / L) * (16 * u * M ^ 2 / L)) := by
    have k1 : S * L * eucl a b ≤ S * (eucl a b * eucl a e) := by
      have := mul_le_mul_of_nonneg_left lae (mul_nonneg hS0 hab.le)
      linarith
    exact le_of_mul_le_mul_right (k1.trans (hdet.trans hperp)) hab
  have x1 : 16 * u * M ^ 2 / L ≤ 48 * u * M ^ 3 / L ^ 2 := by
    rw [div_le_div_iff₀ hL (by positivity)]
    have : 0 ≤ 16 * u * M ^ 2 * L := by positivity
    have := mul_le_mul_of_nonneg_left (lab.trans hab3) this
    nlinarith
  have x2 : 2 * (3 * M / L) * (16 * u * M ^ 2 / L) = 96 * u * M ^ 3 / L ^ 2 := by field_simp; ring
  rw [x2] at hSL
  have x3 : 0 ≤ u * M ^ 3 / L ^ 2 := by positivity
  have x4 : 0 ≤ (u + v) * M := by positivity
  have y1 : 48 * u * M ^ 3 / L ^ 2 = 48 * (u * M ^ 3 / L ^ 2) := by ring
  have y2 : 96 * u * M ^ 3 / L ^ 2 = 96 * (u * M ^ 3 / L ^ 2) := by ring
  have y3 : 150 * u * M ^ 3 / L ^ 2 = 150 * (u * M ^ 3 / L ^ 2) := by ring
  have := ht.flat
  rw [y1] at x1
  rw [y2] at hSL
  rw [y3] at this
  linarith

/-- Points on a line. -/
theorem collinear_true (h : FlOk F u v) {t : Thr ℝ} {M L : ℝ} {p1 p2 p3 : Pt ℝ} (ht : Three F t M p1 p2 p3) (heps : 2 * dblEps ≤ t.nullDistance) (hap : L ≤ eucl p1 p2 ∧ L ≤ eucl p1 p3 ∧ L ≤ eucl p2 p3)
    (hlong : 2 * t.nullDistance ≤ L) (hsharp : 1000 * u * M ^ 2 ≤ L ^ 2) (hprec : 14 * (u + v) * M + 150 * u * M ^ 3 / L ^ 2 < t.nullDistance) (hon : OnOneLine p1 p2 p3) : areCollinear F t p1 p2 p3 = .ok true := by
  have hu := h.u_nonneg
  have hv := h.v_nonneg
  have hnd : 0 < t.nullDistance := lt_of_lt_of_le (by have := dblEps_pos; linarith) heps
  have hL : 0 < L := by linarith
  unfold areCollinear
  rw [if_neg (by have f12 := far_not_same h t (hlong.trans hap.1) hnd; have f13 := far_not_same h t (hlong.trans hap.2.1) hnd; have f23 := far_not_same h t (hlong.trans hap.2.2) hnd; tauto)]
  have hp := largest_perm F p1 p2 p3
  generalize largestDistancePoints F p1 p2 p3 = r at hp
  obtain ⟨a, b, e⟩ := r
  simp only at hp ⊢
  have h3 := Three.swapAll ht hp
  obtain ⟨lab, lae, -⟩ := apart_perm hap hL hp
  have ba := h3.bound a (by simp)
  have bb := h3.bound b (by simp)
  have be := h3.bound e (by simp)
  have hM : 0 ≤ M := (abs_nonneg _).trans ba.1
  have hsl : SlopeOk t (a, b) := by
    refine (h3.slopes a (by simp) b (by simp)).ver.imp id fun k => ?_
    simp only
    rw [abs_sub_comm]
    have : 0 ≤ |b.2 - a.2| / eucl a b := div_nonneg (abs_nonneg _) (eucl_nonneg _ _)
    linarith
  obtain ⟨l, hl, hn⟩ := segLine_near h t heps (s := (a, b)) (M := M) ⟨h3.rep a (by simp), h3.rep b (by simp), ba.1, ba.2, bb.1, bb.2⟩ hsl (hlong.trans lab)
  simp only at hl hn
  rw [hl]
  simp only [Res.bind_ok]
  have hab : 0 < eucl a b := lt_of_lt_of_le hL lab
  have hab3 := eucl_le_box ba bb
  have hae3 := eucl_le_box ba be
  have hρ1 : 16 * u * M ^ 2 / eucl a b ≤ 16 * u * M ^ 2 / L := div_le_div_of_nonneg_left (by positivity) hL lab
  have hρ2 : 16 * u * M ^ 2 / L ≤ 16 / 1000 * L := by
    rw [div_le_iff₀ hL]; nlinarith
  have hn' := hn.mono hρ1
  have hD := lineDist_seg h (s := (a, b)) hl hn' ba.1 ba.2 (by linarith) be.1 be.2
  obtain ⟨x, y, z, hxy, hz⟩ := hon
  have za := hz a (hp.subset (by simp))
  have zb := hz b (hp.subset (by simp))
  have ze := hz e (hp.subset (by simp))
  have hdet : (b.1 - a.1) * (e.2 - a.2) - (b.2 - a.2) * (e.1 - a.1) = 0 := by
    rcases hxy with q | q
    · apply mul_left_cancel₀ q; linear_combination (e.2 - a.2) * (zb - za) - (b.2 - a.2) * (ze - za)
    · apply mul_left_cancel₀ q; linear_combination (b.1 - a.1) * (ze - za) - (e.1 - a.1) * (zb - za)
  obtain ⟨k, hk1, hk2⟩ : ∃ k, along (a, b) k = e ∧ |k| ≤ 3 * M / L := by
    refine ⟨((b.1 - a.1) * (e.1 - a.1) + (b.2 - a.2) * (e.2 - a.2)) / eucl a b ^ 2, ?_, ?_⟩
    · have hq : eucl a b ^ 2 ≠ 0 := by positivity
      have e2 := eucl_sq a b
      unfold along
      refine Prod.ext ?_ ?_
      · simp only
        apply mul_left_cancel₀ hq
        field_simp
        rw [e2]
        linear_combination (b.2 - a.2) * hdet
      · simp only
        apply mul_left_cancel₀ hq
        field_simp
        rw [e2]
        linear_combination -(b.1 - a.1) * hdet
    · rw [abs_div, abs_of_pos (show 0 < eucl a b ^ 2 by positivity), div_le_div_iff₀ (by positivity) hL]
      have k1 := mul_le_mul_of_nonneg_right (dot_le_eucl a b e) hL.le
      have k2 := mul_le_mul hae3 lab hL.le (by positivity)
      nlinarith
  have hc := computed_of_near hn' hD k
  rw [hk1, eucl_self] at hc
  have k3 : |1 - k| + |k| ≤ 9 * M / L := by
    have := abs_sub (1 : ℝ) k
    rw [abs_one] at this
    have e3 : 1 ≤ 3 * M / L := by rw [le_div_iff₀ hL]; linarith
    have e4 : 9 * M / L = 3 * M / L + 3 * M / L + 3 * M / L := by ring
    linarith
  have k4 : (|1 - k| + |k|) * (16 * u * M ^ 2 / L) ≤ 9 * M / L * (16 * u * M ^ 2 / L) := mul_le_mul_of_nonneg_right k3 (by positivity)
  have k5 : 9 * M / L * (16 * u * M ^ 2 / L) = 144 * u * M ^ 3 / L ^ 2 := by field_simp; ring
  have k6 : 144 * u * M ^ 3 / L ^ 2 ≤ 150 * u * M ^ 3 / L ^ 2 := by
    apply div_le_div_of_nonneg_right _ (by positivity)
    have : 0 ≤ u * M ^ 3 := by positivity
    nlinarith
  congr 1
  rw [decide_eq_true_iff]
  linarith

/-- Circle of two points. -/
theorem circle2_all (h : FlOk F u v) {t : Thr ℝ} {M : ℝ} {p q : Pt ℝ} (hp : Rep F p.1 ∧ Rep F p.2) (hq : Rep F q.1 ∧ Rep F q.2) (hM : |p.1| ≤ M ∧ |p.2| ≤ M) (hM' : |q.1| ≤ M ∧ |q.2| ≤ M) :
    (PtSame F t p q ∧ circle2 F t p q = .throw) ∨ ∃ c, circle2 F t p q = .ok c ∧ eucl c.center ((p.1 + q.1) / 2, (p.2 + q.2) / 2) ≤ 3 / 2 * u * M ∧
      |c.radius - eucl p q / 2| ≤ (2 * u + v) * eucl p q ∧ |eucl c.center p - c.radius| ≤ 3 / 2 * u * M + (2 * u + v) * eucl p q ∧ |eucl c.center q - c.radius| ≤ 3 / 2 * u * M + (2 * u + v) * eucl p q := by
  have hu := h.u_nonneg
  have hu1 := h.u_small
  have hv := h.v_nonneg
  have hv1 := h.v_small
  by_cases hs : PtSame F t p q
  · left; exact ⟨hs, if_pos hs⟩
  right
  obtain ⟨csym, -, -, -, -, cx, cy⟩ := Props.C105_center F u v h p q hp hq
  have hseg : segMake F t p q = .ok (fixOrder p q) := if_neg hs
  have hcen : center F (fixOrder p q).1 (fixOrder p q).2 = center F p q := by
    rcases Pip.fixOrder_cases p q with e | e <;> rw [e]
    exact csym.symm
  have hdist : distPt F (fixOrder p q).1 (fixOrder p q).2 = distPt F p q := by
    rcases Pip.fixOrder_cases p q with e | e <;> rw [e]
    exact distPt_comm h q p
  refine ⟨⟨center F p q, F.rnd (distPt F p q / 2)⟩, ?_, ?_⟩
  · unfold circle2
    rw [if_neg hs, hseg]
    simp only [Res.bind_ok, hcen, hdist]
    rfl
  have hM0 : 0 ≤ M := (abs_nonneg _).trans hM.1
  have mx : |(p.1 + q.1) / 2| ≤ M := by
    have a := abs_le.1 hM.1; have b := abs_le.1 hM'.1; rw [abs_le]; constructor <;> linarith [a.1, a.2, b.1, b.2]
  have my : |(p.2 + q.2) / 2| ≤ M := by
    have a := abs_le.1 hM.2; have b := abs_le.1 hM'.2; rw [abs_le]; constructor <;> linarith [a.1, a.2, b.1, b.2]
  have hc : eucl (center F p q) ((p.1 + q.1) / 2, (p.2 + q.2) / 2) ≤ 3 / 2 * u * M := by
    have e1 := cx.trans (mul_le_mul_of_nonneg_left mx hu)
    have e2 := cy.trans (mul_le_mul_of_nonneg_left my hu)
    unfold eucl
    apply Real.sqrt_le_iff.2
    refine ⟨by positivity, ?_⟩
    have s1 := sq_le_sq' (by linarith [abs_nonneg ((center F p q).1 - (p.1 + q.1) / 2)]) e1
    have s2 := sq_le_sq' (by linarith [abs_nonneg ((center F p q).2 - (p.2 + q.2) / 2)]) e2
    rw [sq_abs] at s1 s2
    simp only
    nlinarith [sq_nonneg (u * M)]
  have hr : |F.rnd (distPt F p q / 2) - eucl p q / 2| ≤ (2 * u + v) * eucl p q := by
    have a := distPt_err h p q
    have hd := eucl_nonneg p q
    have c : (1 + u) * (1 + v) - 1 ≤ u + v + u / 64 := by nlinarith
    have a' := a.trans (mul_le_mul_of_nonneg_right c hd)
    have b := h.err (distPt F p q / 2)
    have e := abs_sub_le (F.rnd (distPt F p q / 2)) (distPt F p q / 2) (eucl p q / 2)
    have f : |distPt F p q / 2 - eucl p q / 2| = |distPt F p q - eucl p q| / 2 := by rw [← sub_div, abs_div, abs_two]
    rw [f] at e
    have g : |distPt F p q / 2| ≤ eucl p q := by
      rw [abs_div, abs_two]
      have k := abs_sub_abs_le_abs_sub (distPt F p q) (eucl p q)
      rw [abs_of_nonneg hd] at k
      have : (u + v + u / 64) * eucl p q ≤ 1 * eucl p q := mul_le_mul_of_nonneg_right (by linarith) hd
      linarith
    have g' := mul_le_mul_of_nonneg_left g hu
    have : 0 ≤ v * eucl p q := mul_nonneg hv hd
    have : 0 ≤ u * eucl p q := mul_nonneg hu hd
    nlinarith
  have mid : ∀ r, r = p ∨ r = q → eucl ((p.1 + q.1) / 2, (p.2 + q.2) / 2) r = eucl p q / 2 := by
    intro r hr
    rw [eucl_eq_iff (by have := eucl_nonneg p q; positivity)]
    have := eucl_sq p q
    rcases hr with rfl | rfl
    · rw [div_pow, this]; simp only; ring
    · rw [div_pow, this]; simp only; ring
  have fin : ∀ r, r = p ∨ r = q → |eucl (center F p q) r - F.rnd (distPt F p q / 2)| ≤ 3 / 2 * u * M + (2 * u + v) * eucl p q := by
    intro r hr'
    have t1 := eucl_triangle (center F p q) ((p.1 + q.1) / 2, (p.2 + q.2) / 2) r
    have t2 := eucl_triangle ((p.1 + q.1) / 2, (p.2 + q.2) / 2) (center F p q) r
    rw [mid r hr'] at t1 t2
    rw [eucl_comm _ (center F p q)] at t2
    have := abs_le.1 hr
    rw [abs_le]; constructor <;> linarith [this.1, this.2]
  exact ⟨hc, hr, fin p (Or.inl rfl), fin q (Or.inr rfl)⟩

/-- The circle is defined. -/
theorem circle3_defined (h : FlOk F u v) {t : Thr ℝ} {ac : ℝ → ℝ} {w M L S : ℝ} (ha : AcosOk ac w) {p1 p2 p3 : Pt ℝ} (ht : WideTriangle F t u v w M L S p1 p2 p3) (hS0 : 0 < S) :
    ∃ c, circle3 F t ac p1 p2 p3 = .ok c := by
  have hu := h.u_nonneg
  have hu1 := h.u_small
  have hnd : 0 < t.nullDistance := lt_of_lt_of_le (by have := dblEps_pos; linarith) ht.eps
  have hL : 0 < L := by linarith [ht.long]
  unfold circle3
  rw [notCollinear h ht]
  simp only [Res.bind_ok, Bool.false_eq_true, if_false]
  have hp := largest_perm F p1 p2 p3
  generalize largestDistancePoints F p1 p2 p3 = r at hp
  obtain ⟨a, b, e⟩ := r
  simp only at hp ⊢
  have h3 := Three.swapAll ht.toThree hp
  obtain ⟨lab, lae, -⟩ := apart_perm ht.apart hL hp
  have dab := ht.long.trans lab
  have dae := ht.long.trans lae
  rw [show segMake F t a b = .ok (fixOrder a b) from if_neg (far_not_same h t dab hnd), show segMake F t a e = .ok (fixOrder a e) from if_neg (far_not_same h t dae hnd)]
  simp only [Res.bind_ok]
  obtain ⟨m, hm⟩ := bisector_defined h ht.eps (h3.rep a (by simp)) (h3.rep b (by simp)) dab
  obtain ⟨m', hm'⟩ := bisector_defined h ht.eps (h3.rep a (by simp)) (h3.rep e (by simp)) dae
  rw [hm, hm']
  simp only [Res.bind_ok]
  obtain ⟨k, hk⟩ := bisector_near h (h3.rep a (by simp)) (h3.rep b (by simp)) (h3.slopes a (by simp) b (by simp)) (h3.bound a (by simp)) (h3.bound b (by simp)) hm
  obtain ⟨k', hk'⟩ := bisector_near h (h3.rep a (by simp)) (h3.rep e (by simp)) (h3.slopes a (by simp) e (by simp)) (h3.bound a (by simp)) (h3.bound e (by simp)) hm'
  have v1 : 0 < vlen (b.1 - a.1, b.2 - a.2) := by rw [vlen_eq]; linarith
  have v2 : 0 < vlen (e.1 - a.1, e.2 - a.2) := by rw [vlen_eq]; linarith
  have hs := hk.sin hu hu1 hk' v1 v2 hS0 ht.prec (by
      rw [vlen_eq, vlen_eq]
      refine (ht.sin a b e hp).trans (le_of_eq ?_)
      unfold orientDet; simp only; congr 1; ring)
  have hnt := (Props.C115_throws h ha t (hk.pos hu hu1 v1) (hk'.pos hu hu1 v2)).2 (ht.angle.trans hs)
  have hpar : ¬ isParallel F t ac m m' = true := fun q => hnt (if_pos q)
  rw [if_neg hpar, lineInter, if_neg hpar]
  exact ⟨_, rfl⟩

/-- Points of the computed bisector. -/
theorem bisector_equidistant (h : FlOk F u v) {t : Thr ℝ} {p q : Pt ℝ} (hp : Rep F p.1 ∧ Rep F p.2) (hq : Rep F q.1 ∧ Rep F q.2) (hg : Slopes t p q) (hpq : p ≠ q) {B : ℝ}
    (hM : |p.1| ≤ B ∧ |p.2| ≤ B) (hM' : |q.1| ≤ B ∧ |q.2| ≤ B) {m : V3 ℝ} (hm : segBisector F t (fixOrder p q) = .ok m) {O : Pt ℝ} (hO : |O.1| ≤ B ∧ |O.2| ≤ B) (hon : m 0 * O.1 + m 1 * O.2 + m 2 = 0) :
    |eucl O p - eucl O q| ≤ 45 * u * B := by
  have hu := h.u_nonneg
  have hB : 0 ≤ B := (abs_nonneg _).trans hO.1
  obtain ⟨k, hk⟩ := bisector_near h hp hq hg hM hM' hm
  have d0 : 0 < eucl p q := lt_of_le_of_ne (eucl_nonneg _ _) (Ne.symm fun k => hpq (eucl_eq_zero.1 k))
  have hv := vlen_sum (q.1 - p.1, q.2 - p.2)
  rw [vlen_eq] at hv
  have f1 := hk.fst
  have f2 := hk.snd
  have f3 := hk.off
  simp only at f1 f2 f3 hv
  have res : |(q.1 - p.1) * O.1 + (q.2 - p.2) * O.2 - ((q.1 - p.1) * ((p.1 + q.1) / 2) + (q.2 - p.2) * ((p.2 + q.2) / 2))| ≤ 45 / 2 * u * B * eucl p q := by
    have e : (q.1 - p.1) * O.1 + (q.2 - p.2) * O.2 - ((q.1 - p.1) * ((p.1 + q.1) / 2) + (q.2 - p.2) * ((p.2 + q.2) / 2)) =
        -((k * m 0 - (q.1 - p.1)) * O.1) + -((k * m 1 - (q.2 - p.2)) * O.2) + -(k * m 2 + ((q.1 - p.1) * ((p.1 + q.1) / 2) + (q.2 - p.2) * ((p.2 + q.2) / 2))) := by linear_combination k * hon
    rw [e]
    have a := abs_add_three (-((k * m 0 - (q.1 - p.1)) * O.1)) (-((k * m 1 - (q.2 - p.2)) * O.2)) (-(k * m 2 + ((q.1 - p.1) * ((p.1 + q.1) / 2) + (q.2 - p.2) * ((p.2 + q.2) / 2))))
    rw [abs_neg, abs_neg, abs_neg, abs_mul, abs_mul] at a
    have b1 := mul_le_mul f1 hO.1 (abs_nonneg _) (by positivity)
    have b2 := mul_le_mul f2 hO.2 (abs_nonneg _) (by positivity)
    have b3 := mul_le_mul_of_nonneg_left hv (mul_nonneg hu hB)
    linarith
  have sq : (eucl O p - eucl O q) * (eucl O p + eucl O q) = 2 * ((q.1 - p.1) * O.1 + (q.2 - p.2) * O.2 - ((q.1 - p.1) * ((p.1 + q.1) / 2) + (q.2 - p.2) * ((p.2 + q.2) / 2))) := by
    have e1 := eucl_sq O p
    have e2 := eucl_sq O q
    linear_combination e1 - e2
  have tri := eucl_triangle p O q
  rw [eucl_comm p O] at tri
  have hs : 0 < eucl O p + eucl O q := lt_of_lt_of_le d0 tri
  have e3 : |eucl O p - eucl O q| * (eucl O p + eucl O q) ≤ 45 * u * B * eucl p q := by
    rw [← abs_of_pos hs, ← abs_mul, sq, abs_mul, abs_two]
    linarith
  have e4 : 45 * u * B * eucl p q ≤ 45 * u * B * (eucl O p + eucl O q) := mul_le_mul_of_nonneg_left tri (by positivity)
  exact le_of_mul_le_mul_right (e3.trans e4) hs

end H2d.Fl

namespace H2d.Fl
open H2d.Spec

theorem exactArith_ok : FlOk exactArith 0 0 := by
  refine ⟨le_rfl, by norm_num, le_rfl, by norm_num, fun x => ?_, monotone_id, fun x => rfl, fun x => rfl, fun x => rfl, fun a b => ?_, fun a b => ?_, fun a b => ?_⟩
  · simp [exactArith]
  · simp [exactArith]
  · simp [exactArith]
  · simp [exactArith]

/-- The bisector of a nearly horizontal segment, without rounding. -/
theorem bisector_flat {X : ℝ} (hX : X = 2 ^ 40) : segBisector exactArith stdR (fixOrder (0, 0) (X, 1)) = .ok (fun i => ![X, -1, -((X ^ 2 - 1) / 2)] i / Real.sqrt (X ^ 2 + 1)) := by
  have hX0 : 0 < X := by rw [hX]; norm_num
  have hf : fixOrder ((0, 0) : Pt ℝ) (X, 1) = ((0, 0), (X, 1)) := by
    unfold fixOrder ptLt; simp [hX0]
  rw [hf]
  have n0 : 0 < Real.sqrt (X ^ 2 + 1) := Real.sqrt_pos.2 (by positivity)
  have n2 : Real.sqrt (X ^ 2 + 1) ^ 2 = X ^ 2 + 1 := Real.sq_sqrt (by positivity)
  have nX : X ≤ Real.sqrt (X ^ 2 + 1) := Real.le_sqrt_of_sq_le (by linarith)
  have e1 : Real.sqrt (1 + X ^ 2) = Real.sqrt (X ^ 2 + 1) := by rw [add_comm]
  obtain ⟨n, hn⟩ : ∃ n, n = Real.sqrt (X ^ 2 + 1) := ⟨_, rfl⟩
  rw [← hn] at n0 n2 nX e1 ⊢
  have hbig : (2 : ℝ) ^ 40 ≤ n := by rw [← hX]; exact nX
  have hsame : ¬ PtSame exactArith stdR (0, 0) (X, 1) := by
    simp only [PtSame, distPt, exactArith, stdR, id]
    rw [show ((0:ℝ) - X) ^ 2 + (0 - 1) ^ 2 = X ^ 2 + 1 by ring, ← hn]
    have : (1:ℝ) / 10 ^ 10 ≤ 2 ^ 40 := by norm_num
    linarith
  have hl : lineOfPts exactArith stdR (0, 0) (X, 1) = .ok ![1 / n, X / n, 0] := by
    unfold lineOfPts
    rw [if_neg hsame, cross_pts exactArith_ok ⟨rfl, rfl⟩ ⟨rfl, rfl⟩]
    have hh : exactArith.hyp (exactArith.rnd (0 - 1)) (exactArith.rnd (X - 0)) = n := by
      simp only [exactArith, id]; rw [hn]; congr 1; ring
    rw [normalizeLine_ok _ _ (by
      simp only [Matrix.cons_val_zero, Matrix.cons_val_one]
      rw [hh]; exact lt_of_lt_of_le (by norm_num [dblEps]) hbig)]
    simp only [Matrix.cons_val_zero, Matrix.cons_val_one]
    rw [hh]
    congr 1
    have q1 : (0:ℝ) < 1 / n := by positivity
    have q2 : 1 / n < 1 / 10 ^ 10 := by
      apply one_div_lt_one_div_of_lt (by norm_num)
      exact lt_of_lt_of_le (by norm_num) hbig
    have q3 : 0 < X / n := by positivity
    have v0 : ![exactArith.rnd (0 - 1), exactArith.rnd (X - 0), exactArith.rnd (exactArith.rnd (0 * 1) - exactArith.rnd (0 * X))] = ![-1, X, 0] := by
      simp [exactArith]
    rw [v0]
    have v1 : (fun i => exactArith.rnd (![-1, X, 0] i / n)) = ![-(1 / n), X / n, 0] := by
      apply v3_ext <;> simp [exactArith, neg_div]
    rw [v1]
    have c0 : ![-(1 / n), X / n, (0:ℝ)] 0 < 0 := by simp only [Matrix.cons_val_zero]; linarith
    have c1 : |![1 / n, -(X / n), (0:ℝ)] 0| < stdR.nullDenom := by simp only [Matrix.cons_val_zero]; rw [abs_of_pos q1]; exact q2
    have c2 : ![1 / n, -(X / n), (0:ℝ)] 1 < 0 := by simp only [Matrix.cons_val_one, Matrix.cons_val_zero]; linarith
    have v2 : (fun i => - ![-(1 / n), X / n, (0:ℝ)] i) = ![1 / n, -(X / n), 0] := by
      apply v3_ext <;> simp
    unfold signFix
    rw [if_pos c0, v2]
    simp only
    rw [if_pos c1, if_pos c2]
    apply v3_ext <;> simp
  have m1 : ∀ (w : V3 ℝ), w 0 = X / n → w 1 = -1 / n → Fl.normalizeLine exactArith stdR w = .ok w := by
    intro w w0 w1
    have hh : exactArith.hyp (w 0) (w 1) = 1 := by
      simp only [exactArith, w0, w1]
      rw [Real.sqrt_eq_one, div_pow, div_pow, ← add_div, n2, neg_one_sq]
      exact div_self (by positivity)
    rw [normalizeLine_ok _ _ (by rw [hh]; norm_num [dblEps]), hh]
    congr 1
    have v : (fun i => exactArith.rnd (w i / 1)) = w := by funext i; simp [exactArith]
    rw [v]
    have c0 : ¬ w 0 < 0 := by rw [w0, not_lt]; positivity
    have c1 : ¬ |w 0| < stdR.nullDenom := by
      rw [w0, abs_of_pos (by positivity), not_lt, le_div_iff₀ n0]
      simp only [stdR]
      have : n ≤ X + 1 := by
        rw [hn]; apply Real.sqrt_le_iff.2; constructor
        · linarith
        · nlinarith
      have : (1:ℝ) ≤ X := by rw [hX]; norm_num
      linarith
    simp only [signFix, c0, c1, if_false]
  have hm : orthogLine exactArith stdR ![1 / n, X / n, 0] (center exactArith (0, 0) (X, 1)) = .ok (fun i => ![X, -1, -((X ^ 2 - 1) / 2)] i / n) := by
    unfold orthogLine
    have v : ![-(![1 / n, X / n, (0:ℝ)] 1), ![1 / n, X / n, (0:ℝ)] 0, exactArith.rnd (exactArith.rnd (![1 / n, X / n, (0:ℝ)] 1 * (center exactArith (0, 0) (X, 1)).1) - exactArith.rnd (![1 / n, X / n, (0:ℝ)] 0 * (center exactArith (0, 0) (X, 1)).2))] =
        fun i => - (![X, -1, -((X ^ 2 - 1) / 2)] i / n) := by
      apply v3_ext
      · simp
      · simp [neg_div]
      · simp [exactArith, center]; field_simp
    rw [v, normalizeLine_neg exactArith_ok _ (by norm_num [stdR]), m1 _ (by simp) (by simp)]
    simp only [Res.bind_ok]
    exact m1 _ (by simp) (by simp)
  unfold segBisector
  simp only [hl, Res.bind_ok]
  exact hm

/-- The triangle (0,0), (4,0), (0,3) in `double`: sines at least 3/5. -/
theorem demo_wide : WideTriangle (binary 53) stdR (2 ^ (-(53 : ℤ))) (2 ^ (-(53 : ℤ))) 0 4 3 (3 / 5) (0, 0) (4, 0) (0, 3) := by
  have e5 : Real.sqrt 25 = 5 := by rw [show (25:ℝ) = 5 ^ 2 by norm_num]; exact Real.sqrt_sq (by norm_num)
  have d1 : eucl (0, 0) (4, 0) = 4 := by rw [eucl_eq_iff (by norm_num)]; norm_num
  have d2 : eucl (0, 0) (0, 3) = 3 := by rw [eucl_eq_iff (by norm_num)]; norm_num
  have d3 : eucl (4, 0) (0, 3) = 5 := by rw [eucl_eq_iff (by norm_num)]; norm_num
  have d1' : eucl (4, 0) (0, 0) = 4 := by rw [eucl_comm]; exact d1
  have d2' : eucl (0, 3) (0, 0) = 3 := by rw [eucl_comm]; exact d2
  have d3' : eucl (0, 3) (4, 0) = 5 := by rw [eucl_comm]; exact d3
  have k : ∀ m : ℤ, |m| ≤ 300 → Rep (binary 53) (m : ℝ) := fun m hm => roundTo_int (by norm_num) (le_trans hm (by norm_num))
  have k0 : Rep (binary 53) 0 := by have := k 0 (by norm_num); exact_mod_cast this
  have k3 : Rep (binary 53) 3 := by have := k 3 (by norm_num); exact_mod_cast this
  have k4 : Rep (binary 53) 4 := by have := k 4 (by norm_num); exact_mod_cast this
  refine ⟨⟨?_, ?_, ?_⟩, ?_, ?_, ?_, ?_, ?_, ?_, ?_, ?_⟩
  · intro p hp
    simp only [List.mem_cons, List.not_mem_nil, or_false] at hp
    rcases hp with rfl | rfl | rfl <;> exact ⟨by assumption, by assumption⟩
  · intro p hp
    simp only [List.mem_cons, List.not_mem_nil, or_false] at hp
    rcases hp with rfl | rfl | rfl <;> norm_num
  · intro p hp q hq
    simp only [List.mem_cons, List.not_mem_nil, or_false] at hp hq
    rcases hp with rfl | rfl | rfl <;> rcases hq with rfl | rfl | rfl <;> constructor <;> norm_num [d1, d2, d3, d1', d2', d3', stdR]
  · norm_num [stdR, dblEps]
  · rw [d1, d2, d3]; norm_num
  · norm_num [stdR]
  · norm_num
  · intro a b c hp
    have ha : a ∈ [((0:ℝ), (0:ℝ)), (4, 0), (0, 3)] := hp.subset (by simp)
    have hb : b ∈ [((0:ℝ), (0:ℝ)), (4, 0), (0, 3)] := hp.subset (by simp)
    have hc : c ∈ [((0:ℝ), (0:ℝ)), (4, 0), (0, 3)] := hp.subset (by simp)
    have nd : [a, b, c].Nodup := hp.nodup_iff.2 (by norm_num)
    simp only [List.mem_cons, List.not_mem_nil, or_false] at ha hb hc
    rcases ha with rfl | rfl | rfl <;> rcases hb with rfl | rfl | rfl <;> rcases hc with rfl | rfl | rfl <;>
      first | (exfalso; revert nd; norm_num; done) | norm_num [d1, d2, d3, d1', d2', d3', orientDet]
  · norm_num
  · norm_num [stdR]
  · have hpi := Real.pi_lt_four
    have hs : Real.sqrt (11 * 2 ^ (-(53 : ℤ)) / 2) ≤ 1 / 100 := by
      apply Real.sqrt_le_iff.2; norm_num
    have h0 := Real.sqrt_nonneg (11 * (2:ℝ) ^ (-(53 : ℤ)) / 2)
    have := mul_le_mul hpi.le hs h0 (by norm_num)
    have e : stdR.nullAngleValue = 1 / 1000 := rfl
    rw [e, zero_mul, add_zero]
    linarith

end H2d.Fl
