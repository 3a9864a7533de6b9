import Verif.Lemmas.FloatChain
import Verif.Lemmas.FloatInsideDemo

/-! # C153: histories of transformations of a homography with rounded arithmetic -/

namespace H2d.Props
open H2d H2d.Spec H2d.Fl

variable {F : Arith} {u v w : ℝ} {co si : ℝ → ℝ}

/-- **C153, histories.** Any list of translations, rotations and scalings, added one after the other to a default homography: no call throws, the last row stays exactly (0, 0, 1), and the image of any point is at a distance of
the exact one of at most `(10 n + 6) (u + w) G (|x| + |y| + T)`: `n` is the number of transformations, `G` the product of the factors by which they expand, `T` the sum of the lengths of the translations. -/
theorem C153_points (h : FlOk F u v) (h1 : Rep F 1) (hw : TrigOk co si w) {t : Thr ℝ} (ht : t.nullDenom ≤ 1) (os : List Fl.Trans) (hn : 100 * (os.length : ℝ) * (u + w) ≤ 1) :
    ∃ m, Fl.addAll F co si t Mat.eye os = .ok m ∧ m 2 0 = 0 ∧ m 2 1 = 0 ∧ m 2 2 = 1 ∧
      ∀ p, eucl (Fl.ptImage F m p) (sentBy os p) ≤ (10 * os.length + 6) * (u + w) * (growth os * (|p.1| + |p.2| + travel os)) := by
  obtain ⟨m, e, a, b⟩ := addAll_points h h1 hw ht os hn
  exact ⟨m, e, a.r0, a.r1, a.r2, b⟩

/-- With `double` and 10¹² transformations; a quarter turn, a scaling by 2 and a translation by (3,4). -/
example : Rep (binary 53) 1 ∧ TrigOk Real.cos Real.sin u53 ∧ 100 * (10 ^ 12 : ℝ) * (u53 + u53) ≤ 1 ∧ stdR.nullDenom ≤ 1 ∧
    sentBy [.rotation (Real.pi / 2), .scale 2 2, .translation 3 4] (1, 0) = (3, 6) ∧ growth [.rotation (Real.pi / 2), .scale 2 2, .translation 3 4] = 2 ∧ travel [.rotation (Real.pi / 2), .scale 2 2, .translation 3 4] = 5 := by
  refine ⟨?_, ⟨by norm_num, by norm_num, fun x => by simp, fun x => by simp⟩, by norm_num, by norm_num [stdR], ?_, ?_, ?_⟩
  · have := roundTo_int (p := 53) (by norm_num) (m := 1) (by norm_num)
    simpa [Rep, binary] using this
  · simp [sentBy, sentTo]; norm_num
  · simp [growth, stretch]
  · simp [travel, pushLen, eucl]
    rw [Real.sqrt_eq_iff_mul_self_eq (by norm_num) (by norm_num)]; norm_num

/-- **C153, rigid motions.** With translations and rotations only, the distance of any two points is kept, up to twice this error. -/
theorem C153_rigid (h : FlOk F u v) (h1 : Rep F 1) (hw : TrigOk co si w) {t : Thr ℝ} (ht : t.nullDenom ≤ 1) (os : List Fl.Trans) (hn : 100 * (os.length : ℝ) * (u + w) ≤ 1)
    (hr : ∀ o ∈ os, ∀ kx ky, o ≠ .scale kx ky) {M : ℝ} {p q : ℝ × ℝ} (hp : |p.1| + |p.2| ≤ M) (hq : |q.1| + |q.2| ≤ M) :
    ∃ m, Fl.addAll F co si t Mat.eye os = .ok m ∧ |eucl (Fl.ptImage F m p) (Fl.ptImage F m q) - eucl p q| ≤ (20 * os.length + 12) * (u + w) * (M + travel os) := by
  obtain ⟨m, e, -, b⟩ := addAll_points h h1 hw ht os hn
  refine ⟨m, e, ?_⟩
  obtain ⟨g, is⟩ := rigid_sent os hr
  have bp := b p
  have bq := b q
  rw [g, one_mul] at bp bq
  rw [← is p q]
  have K0 : 0 ≤ (10 * (os.length : ℝ) + 6) * (u + w) := by have := h.u_nonneg; have := hw.w_nonneg; positivity
  have kp := mul_le_mul_of_nonneg_left (show |p.1| + |p.2| + travel os ≤ M + travel os by linarith) K0
  have kq := mul_le_mul_of_nonneg_left (show |q.1| + |q.2| + travel os ≤ M + travel os by linarith) K0
  have t1 := eucl_triangle (Fl.ptImage F m p) (sentBy os p) (Fl.ptImage F m q)
  have t2 := eucl_triangle (sentBy os p) (sentBy os q) (Fl.ptImage F m q)
  have t3 := eucl_triangle (sentBy os p) (Fl.ptImage F m p) (sentBy os q)
  have t4 := eucl_triangle (Fl.ptImage F m p) (Fl.ptImage F m q) (sentBy os q)
  rw [eucl_comm (sentBy os q)] at t2
  rw [eucl_comm (sentBy os p) (Fl.ptImage F m p)] at t3
  rw [abs_le]; constructor <;> linarith

example : ∀ o ∈ [Fl.Trans.rotation 1, .translation 3 4], ∀ kx ky, o ≠ .scale kx ky := by simp

/-- **C153, translations.** With translations only, the first two columns are exactly those of the identity; and if the values and the sums on the way are floating-point numbers (as integers of a moderate size are), nothing is
rounded: the matrix is exactly that of the sum. -/
theorem C153_translations (h : FlOk F u v) (h1 : Rep F 1) {t : Thr ℝ} (ht : t.nullDenom ≤ 1) (os : List Fl.Trans) (ho : ∀ o ∈ os, ∃ tx ty, o = .translation tx ty) :
    ∃ m, Fl.addAll F co si t Mat.eye os = .ok m ∧ m 0 0 = 1 ∧ m 0 1 = 0 ∧ m 1 0 = 0 ∧ m 1 1 = 1 ∧ m 2 0 = 0 ∧ m 2 1 = 0 ∧ m 2 2 = 1 ∧
      ((∀ o ∈ os, ∃ tx ty, o = .translation tx ty ∧ Rep F tx ∧ Rep F ty) → (∀ pre, pre <+: os → Rep F (sentBy pre (0, 0)).1 ∧ Rep F (sentBy pre (0, 0)).2) → (m 0 2, m 1 2) = sentBy os (0, 0)) := by
  obtain ⟨m, e, a, c⟩ := addAll_eq (co := co) (si := si) h h1 ht os (eye_aff h h1)
  have r0 : Rep F 0 := rnd_zero h
  have k0 := c 0
  have k1 := c 1
  have k2 := c 2
  simp only [Mat.eye, Matrix.cons_val] at k0 k1 k2
  rw [colRun_translations h os ho _ ⟨h1, r0⟩] at k0
  rw [colRun_translations h os ho _ ⟨r0, h1⟩] at k1
  injection k0 with a00 a10
  injection k1 with a01 a11
  refine ⟨m, e, a00, a01, a10, a11, a.r0, a.r1, a.r2, fun hr hp => ?_⟩
  rw [k2]
  exact colRun_exact os hr (0, 0) hp

/-- Two translations by integers. -/
example : (∀ o ∈ [Fl.Trans.translation 1 2, .translation 3 (-4)], ∃ tx ty, o = .translation tx ty ∧ Rep (binary 53) tx ∧ Rep (binary 53) ty) ∧
    (∀ pre, pre <+: [Fl.Trans.translation 1 2, .translation 3 (-4)] → Rep (binary 53) (sentBy pre (0, 0)).1 ∧ Rep (binary 53) (sentBy pre (0, 0)).2) := by
  have rz : ∀ {n : ℤ}, |n| ≤ 4 → (binary 53).rnd (n : ℝ) = n := fun {n} hn => roundTo_int (p := 53) (by norm_num) (m := n) (hn.trans (by norm_num))
  have r0 : (binary 53).rnd 0 = 0 := by have := rz (n := 0) (by norm_num); exact_mod_cast this
  have r1 : (binary 53).rnd 1 = 1 := by have := rz (n := 1) (by norm_num); exact_mod_cast this
  have r2 : (binary 53).rnd 2 = 2 := by have := rz (n := 2) (by norm_num); exact_mod_cast this
  have r3 : (binary 53).rnd 3 = 3 := by have := rz (n := 3) (by norm_num); exact_mod_cast this
  have r4 : (binary 53).rnd 4 = 4 := by have := rz (n := 4) (by norm_num); exact_mod_cast this
  have rm4 : (binary 53).rnd (-4) = -4 := by have := rz (n := -4) (by norm_num); exact_mod_cast this
  have rm2 : (binary 53).rnd (-2) = -2 := by have := rz (n := -2) (by norm_num); exact_mod_cast this
  constructor
  · simp [Rep, r1, r2, r3, rm4]
  · intro pre hp
    simp only [List.prefix_cons_iff, List.prefix_nil] at hp
    rcases hp with rfl | ⟨a, rfl, rfl | ⟨b, rfl, rfl⟩⟩
    · simp [sentBy, Rep, r0]
    · simp [sentBy, sentTo, Rep, r1, r2]
    · simp [sentBy, sentTo, Rep]; norm_num [r4, rm2]

/-- **C153, the length of the translations counts.** For any precision: three translations whose sum is (1,0), by floating-point numbers, and the origin stays at the origin. -/
theorem C153_sharp {p : ℕ} (hp : 6 ≤ p) {t : Thr ℝ} (ht : t.nullDenom ≤ 1) : ∃ os m, (∀ o ∈ os, ∃ tx, o = Fl.Trans.translation tx 0 ∧ Rep (binary p) tx) ∧ sentBy os (0, 0) = (1, 0) ∧
    Fl.addAll (binary p) co si t Mat.eye os = .ok m ∧ Fl.ptImage (binary p) m (0, 0) = (0, 0) := by
  have h := binary_ok hp
  have i0 : (binary p).rnd 0 = 0 := rnd_zero h
  have i1 : (binary p).rnd 1 = 1 := by have := roundTo_int (p := p) (by omega) (m := 1) (by rw [abs_one]; exact one_le_pow₀ (by norm_num)); simpa [binary] using this
  have iB : (binary p).rnd (2 ^ (p + 1)) = 2 ^ (p + 1) := by
    have := roundTo_exact (p := p) (by omega) (m := 1) (k := ((p + 1 : ℕ) : ℤ)) (by rw [abs_one]; exact one_le_pow₀ (by norm_num))
    rw [zpow_natCast] at this
    simpa [binary] using this
  have ia := big_add_one (p := p) (by omega)
  obtain ⟨m, e, a, c⟩ := addAll_eq (co := co) (si := si) h i1 ht [.translation 1 0, .translation (2 ^ (p + 1)) 0, .translation (-(2 ^ (p + 1))) 0] (eye_aff h i1)
  have k2 := c 2
  simp only [Mat.eye, Matrix.cons_val, List.foldl, colStep, mul_one, zero_add, i0, i1, iB, ia, h.odd, add_neg_cancel] at k2
  injection k2 with k3 k4
  refine ⟨_, m, ?_, ?_, e, ?_⟩
  · simp only [List.mem_cons, List.not_mem_nil, or_false, forall_eq_or_imp, forall_eq]
    exact ⟨⟨1, rfl, i1⟩, ⟨_, rfl, iB⟩, ⟨_, rfl, by rw [Rep, h.odd, iB]⟩⟩
  · simp [sentBy, sentTo]
  · rw [ptImage_aff h i1 a, k3, k4]
    simp [i0]

end H2d.Props
