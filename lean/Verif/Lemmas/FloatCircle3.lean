import Verif.Lemmas.FloatCircum
import Verif.Lemmas.FloatMec
import Verif.Lemmas.FloatPipGeom

/-! # Circle of three points with rounded operations -/

namespace H2d.Fl
open H2d.Spec

variable {F : Arith} {u v : ℝ}

theorem largest_perm (F : Arith) (p1 p2 p3 : Pt ℝ) : [(largestDistancePoints F p1 p2 p3).1, (largestDistancePoints F p1 p2 p3).2.1, (largestDistancePoints F p1 p2 p3).2.2].Perm [p1, p2, p3] := by
  have a : [p2, p1, p3].Perm [p1, p2, p3] := List.Perm.swap _ _ _
  have b : ∀ {x y z : Pt ℝ}, [x, z, y].Perm [x, y, z] := fun {x y z} => (List.Perm.swap _ _ _).cons _
  have c : ∀ {x y z : Pt ℝ}, [y, x, z].Perm [x, y, z] := fun {x y z} => List.Perm.swap _ _ _
  unfold largestDistancePoints
  simp only
  split_ifs
  · exact List.Perm.refl _
  · exact a
  · exact b.trans c
  · exact b
  · exact c.trans b
  · exact b.trans (c.trans b)

theorem vlen_eq (p q : Pt ℝ) : vlen (q.1 - p.1, q.2 - p.2) = eucl p q := by
  unfold vlen eucl; congr 1; simp only; ring

theorem bisector_near (h : FlOk F u v) {t : Thr ℝ} {p q : Pt ℝ} (hp : Rep F p.1 ∧ Rep F p.2) (hq : Rep F q.1 ∧ Rep F q.2) (hg : Slopes t p q) {M : ℝ}
    (hM : |p.1| ≤ M ∧ |p.2| ≤ M) (hM' : |q.1| ≤ M ∧ |q.2| ≤ M) {m : V3 ℝ} (hm : segBisector F t (fixOrder p q) = .ok m) :
    ∃ k, NearPerp u M (q.1 - p.1, q.2 - p.2) ((p.1 + q.1) / 2, (p.2 + q.2) / 2) m k := by
  have mid : |(p.1 + q.1) / 2| ≤ M ∧ |(p.2 + q.2) / 2| ≤ M := by
    obtain ⟨a, b⟩ := hM
    obtain ⟨c, d⟩ := hM'
    rw [abs_le] at a b c d
    rw [abs_le, abs_le]
    constructor <;> constructor <;> linarith [a.1, a.2, b.1, b.2, c.1, c.2, d.1, d.2]
  rcases Pip.fixOrder_cases p q with e | e <;> rw [e] at hm
  · obtain ⟨k, h0, h1, h2, h3⟩ := bisector_form h hp hq hg ⟨hM.1, hM.2, hM'.1, hM'.2⟩ hm
    exact ⟨k, h0, h1, h2, h3, mid⟩
  · obtain ⟨k, h0, h1, h2, h3⟩ := bisector_form h hq hp (Slopes_symm hg) ⟨hM'.1, hM'.2, hM.1, hM.2⟩ hm
    refine ⟨-k, neg_ne_zero.2 h0, ?_, ?_, ?_, mid⟩
    · simp only
      rw [show -k * m 0 - (q.1 - p.1) = -(k * m 0 - (p.1 - q.1)) by ring, abs_neg, abs_sub_comm q.1]; exact h1
    · simp only
      rw [show -k * m 1 - (q.2 - p.2) = -(k * m 1 - (p.2 - q.2)) by ring, abs_neg, abs_sub_comm q.2]; exact h2
    · simp only
      rw [show -k * m 2 + ((q.1 - p.1) * ((p.1 + q.1) / 2) + (q.2 - p.2) * ((p.2 + q.2) / 2)) = -(k * m 2 + ((p.1 - q.1) * ((q.1 + p.1) / 2) + (p.2 - q.2) * ((q.2 + p.2) / 2))) by ring,
        abs_neg, abs_sub_comm q.1, abs_sub_comm q.2]
      exact h3

/-- What `circle3` computes when it does not throw. -/
theorem circle3_inv {t : Thr ℝ} {ac : ℝ → ℝ} {p1 p2 p3 : Pt ℝ} {c : Option Circle} (hc : circle3 F t ac p1 p2 p3 = .ok c) :
    ∃ a b e m m', [a, b, e].Perm [p1, p2, p3] ∧ segBisector F t (fixOrder a b) = .ok m ∧ segBisector F t (fixOrder a e) = .ok m' ∧
      c = (crossXY F m m').map fun c => ⟨c, distPt F c p1⟩ := by
  unfold circle3 at hc
  rcases h0 : areCollinear F t p1 p2 p3 with col | _ | _ <;> rw [h0] at hc <;> try cases hc
  simp only [Res.bind_ok] at hc
  cases col
  swap
  · simp at hc
  simp only [Bool.false_eq_true, if_false] at hc
  have hp := largest_perm F p1 p2 p3
  generalize largestDistancePoints F p1 p2 p3 = r at hc hp
  obtain ⟨a, b, e⟩ := r
  simp only at hc hp
  have hs : ∀ x y s, segMake F t x y = .ok s → s = fixOrder x y := by
    intro x y s hs
    unfold segMake at hs
    split_ifs at hs
    injection hs with hs
    exact hs.symm
  rcases h1 : segMake F t a b with s1 | _ | _ <;> rw [h1] at hc <;> try cases hc
  rcases h2 : segMake F t a e with s2 | _ | _ <;> rw [h2] at hc <;> try cases hc
  simp only [Res.bind_ok] at hc
  rcases h3 : segBisector F t s1 with m | _ | _ <;> rw [h3] at hc <;> try cases hc
  rcases h4 : segBisector F t s2 with m' | _ | _ <;> rw [h4] at hc <;> try cases hc
  simp only [Res.bind_ok] at hc
  split_ifs at hc with h5
  rw [lineInter, if_neg h5] at hc
  simp only [Res.bind_ok] at hc
  injection hc with hc
  exact ⟨a, b, e, m, m', hp, by rw [← hs _ _ _ h1]; exact h3, by rw [← hs _ _ _ h2]; exact h4, hc.symm⟩

theorem perp_mid {O p q : Pt ℝ} {R : ℝ} (hp : eucl O p = R) (hq : eucl O q = R) :
    (q.1 - p.1) * O.1 + (q.2 - p.2) * O.2 = (q.1 - p.1) * ((p.1 + q.1) / 2) + (q.2 - p.2) * ((p.2 + q.2) / 2) := by
  have e : eucl O p ^ 2 = eucl O q ^ 2 := by rw [hp, hq]
  rw [eucl_sq, eucl_sq] at e
  linarith

/-- The center. -/
theorem circle3_center (h : FlOk F u v) {t : Thr ℝ} {ac : ℝ → ℝ} {M R S : ℝ} {p1 p2 p3 O : Pt ℝ} (ht : Three F t M p1 p2 p3) (hS0 : 0 < S) (hSu : 100 * u ≤ S) (hS : SinAtLeast S p1 p2 p3)
    (hne : p1 ≠ p2 ∧ p1 ≠ p3 ∧ p2 ≠ p3) (hO : Through O R p1 p2 p3) {c : Option Circle} (hc : circle3 F t ac p1 p2 p3 = .ok c) :
    ∃ q, c = some ⟨q, distPt F q p1⟩ ∧ eucl q O ≤ 130 * u * (M + R) / S := by
  obtain ⟨a, b, e, m, m', hp, hm, hm', rfl⟩ := circle3_inv hc
  have ma : a ∈ [p1, p2, p3] := hp.subset (by simp)
  have mb : b ∈ [p1, p2, p3] := hp.subset (by simp)
  have me : e ∈ [p1, p2, p3] := hp.subset (by simp)
  have nd : [a, b, e].Nodup := hp.nodup_iff.2 (by simp [hne.1, hne.2.1, hne.2.2])
  have hab : a ≠ b := fun q => by simp [q] at nd
  have hae : a ≠ e := fun q => by simp [q] at nd
  obtain ⟨k, hk⟩ := bisector_near h (ht.rep a ma) (ht.rep b mb) (ht.slopes a ma b mb) (ht.bound a ma) (ht.bound b mb) hm
  obtain ⟨k', hk'⟩ := bisector_near h (ht.rep a ma) (ht.rep e me) (ht.slopes a ma e me) (ht.bound a ma) (ht.bound e me) hm'
  have d0 : 0 < eucl a b := lt_of_le_of_ne (eucl_nonneg _ _) (Ne.symm fun q => hab (eucl_eq_zero.1 q))
  have d1 : 0 < eucl a e := lt_of_le_of_ne (eucl_nonneg _ _) (Ne.symm fun q => hae (eucl_eq_zero.1 q))
  have hR : 0 ≤ R := by rw [← hO p1 (by simp)]; exact eucl_nonneg _ _
  have hB : |O.1| ≤ M + R ∧ |O.2| ≤ M + R := by
    have x1 : |O.1 - p1.1| ≤ eucl O p1 := Real.abs_le_sqrt (by nlinarith [sq_nonneg (O.2 - p1.2)])
    have x2 : |O.2 - p1.2| ≤ eucl O p1 := Real.abs_le_sqrt (by nlinarith [sq_nonneg (O.1 - p1.1)])
    rw [hO p1 (by simp)] at x1 x2
    have b := ht.bound p1 (by simp)
    have y1 := abs_sub_abs_le_abs_sub O.1 p1.1
    have y2 := abs_sub_abs_le_abs_sub O.2 p1.2
    constructor <;> linarith [b.1, b.2]
  obtain ⟨q, hq, hq'⟩ := hk.cross h hk' (by rw [vlen_eq]; exact d0) (by rw [vlen_eq]; exact d1) hS0 hSu (by
      rw [vlen_eq, vlen_eq]
      refine (hS a b e hp).trans (le_of_eq ?_)
      unfold orientDet; simp only; congr 1; ring) (le_add_of_nonneg_right hR) hB (perp_mid (hO a ma) (hO b mb)) (perp_mid (hO a ma) (hO e me))
  exact ⟨q, by rw [hq]; rfl, hq'⟩

/-- Center, radius, and the three points. -/
theorem circle3_all (h : FlOk F u v) {t : Thr ℝ} {ac : ℝ → ℝ} {M R S : ℝ} {p1 p2 p3 O : Pt ℝ} (ht : Three F t M p1 p2 p3) (hS0 : 0 < S) (hSu : 100 * u ≤ S) (hS : SinAtLeast S p1 p2 p3)
    (hne : p1 ≠ p2 ∧ p1 ≠ p3 ∧ p2 ≠ p3) (hO : Through O R p1 p2 p3) {c : Option Circle} (hc : circle3 F t ac p1 p2 p3 = .ok c) :
    ∃ d, c = some d ∧ eucl d.center O ≤ 130 * u * (M + R) / S ∧ |d.radius - R| ≤ 130 * u * (M + R) / S + 3 * (u + v) * (M + R) ∧
      ∀ p ∈ [p1, p2, p3], |eucl d.center p - d.radius| ≤ 260 * u * (M + R) / S + 3 * (u + v) * (M + R) := by
  have hu := h.u_nonneg
  have hu1 := h.u_small
  have hv := h.v_nonneg
  have hv1 := h.v_small
  obtain ⟨q, rfl, hq⟩ := circle3_center h ht hS0 hSu hS hne hO hc
  have hR : 0 ≤ R := by rw [← hO p1 (by simp)]; exact eucl_nonneg _ _
  have hM : 0 ≤ M := (abs_nonneg _).trans (ht.bound p1 (by simp)).1
  have hE : 130 * u * (M + R) / S ≤ 13 / 10 * (M + R) := by
    rw [div_le_iff₀ hS0]
    have := mul_le_mul_of_nonneg_right hSu (add_nonneg hM hR)
    linarith
  have key : ∀ p ∈ [p1, p2, p3], |eucl q p - R| ≤ eucl q O := by
    intro p hp
    have t1 := eucl_triangle q O p
    have t2 := eucl_triangle O q p
    rw [hO p hp] at t1 t2
    rw [eucl_comm O q] at t2
    rw [abs_le]; constructor <;> linarith
  have hr := distPt_err h q p1
  have k1 := key p1 (by simp)
  have hr' : |distPt F q p1 - eucl q p1| ≤ 3 * (u + v) * (M + R) := by
    refine hr.trans ?_
    have e1 : eucl q p1 ≤ 23 / 10 * (M + R) := by linarith [(abs_le.1 k1).2]
    have e2 : (1 + u) * (1 + v) - 1 ≤ 65 / 64 * (u + v) := by nlinarith
    have e3 : 0 ≤ (1 + u) * (1 + v) - 1 := by nlinarith [mul_nonneg hu hv]
    have := mul_le_mul e2 e1 (eucl_nonneg _ _) (by positivity)
    have h0 : 0 ≤ (u + v) * (M + R) := by positivity
    linarith
  refine ⟨_, rfl, hq, ?_, ?_⟩
  · have := abs_sub_le (distPt F q p1) (eucl q p1) R
    simp only; linarith
  · intro p hp
    have a := abs_sub_le (eucl q p) R (distPt F q p1)
    have b := abs_sub_le R (eucl q p1) (distPt F q p1)
    rw [abs_sub_comm R (eucl q p1), abs_sub_comm (eucl q p1) (distPt F q p1)] at b
    have c := key p hp
    have e : 260 * u * (M + R) / S = 130 * u * (M + R) / S + 130 * u * (M + R) / S := by ring
    simp only; rw [e]; linarith

end H2d.Fl
