import Verif.Lemmas.FloatRect

/-! # From rectangles to ranks, with rounded operations -/

namespace H2d.Fl

open H2d.Spec H2d.Rank

variable {F : Arith} {u v : ℝ} {t : Thr ℝ}

/-- The errors of the coordinates of the crossing points are small with respect to the distances between the coordinates. -/
structure Near (F : Arith) (t : Thr ℝ) (u v M η : ℝ) (f g f' g' : ℕ → ℝ) : Prop where
  eta : 0 ≤ η
  hf : Emb (3 * t.nullDistance) f
  hg : Emb (3 * t.nullDistance) g
  ef : ∀ i, |f' i - f i| ≤ η
  eg : ∀ i, |g' i - g i| ≤ η
  small : 4 * η + 11 * (u + v) * M < t.nullDistance
  eps : 2 * dblEps ≤ t.nullDistance

/-- A side of one of the two rectangles. -/
structure Side (F : Arith) (M : ℝ) (f g f' g' : ℕ → ℝ) (s : NS) : Prop where
  ax : Ax s = true
  r1 : Rep F (f s.1.1) ∧ |f s.1.1| ≤ M
  r2 : Rep F (g s.1.2) ∧ |g s.1.2| ≤ M
  r3 : Rep F (f s.2.1) ∧ |f s.2.1| ≤ M
  r4 : Rep F (g s.2.2) ∧ |g s.2.2| ≤ M
  v : s.1.1 = s.2.1 → axisC F (f s.1.1) (g s.1.2) (g s.2.2) = f' s.1.1
  h : s.1.2 = s.2.2 → axisC F (g s.1.2) (f s.1.1) (f s.2.1) = g' s.1.2

theorem emb_weak {n m : ℝ} {f : ℕ → ℝ} (hm : 0 < m) (hmn : m ≤ n) (h : Emb n f) : Emb m f := ⟨hm, fun i j hij => by have := h.gap i j hij; linarith⟩

variable {M η : ℝ} {f g f' g' : ℕ → ℝ}

namespace Near

variable (n : Near F t u v M η f g f' g')
include n

theorem pos : 0 < t.nullDistance := by have := n.eps; have := dblEps_pos; linarith

theorem f1 : Emb t.nullDistance f := emb_weak n.pos (by have := n.pos; linarith) n.hf
theorem g1 : Emb t.nullDistance g := emb_weak n.pos (by have := n.pos; linarith) n.hg

theorem noise (hM : 0 ≤ M) (h : FlOk F u v) : 4 * η < t.nullDistance ∧ 0 ≤ (u + v) * M ∧ 11 * ((u + v) * M) < t.nullDistance := by
  have := n.small
  have k : 0 ≤ (u + v) * M := mul_nonneg (add_nonneg h.u_nonneg h.v_nonneg) hM
  have := n.eta
  exact ⟨by linarith, k, by linarith⟩

theorem f2 (hM : 0 ≤ M) (h : FlOk F u v) : Emb (2 * t.nullDistance) f' := by
  refine ⟨by have := n.pos; linarith, fun i j hij => ?_⟩
  have := n.hf.gap i j hij
  have := abs_le.1 (n.ef i)
  have := abs_le.1 (n.ef j)
  have := (n.noise hM h).1
  have := n.eta
  linarith

theorem g2 (hM : 0 ≤ M) (h : FlOk F u v) : Emb (2 * t.nullDistance) g' := by
  refine ⟨by have := n.pos; linarith, fun i j hij => ?_⟩
  have := n.hg.gap i j hij
  have := abs_le.1 (n.eg i)
  have := abs_le.1 (n.eg j)
  have := (n.noise hM h).1
  have := n.eta
  linarith

end Near

theorem same_self (h : FlOk F u v) (hA : AxisExact F) (ht : 0 < t.nullDistance) (p : Pt ℝ) : PtSame F t p p := by
  show F.hyp (F.rnd (p.1 - p.1)) (F.rnd (p.2 - p.2)) < _
  rw [sub_self, sub_self, rnd_zero h, hA.hypX 0 (rnd_zero h), abs_zero]; exact ht

theorem eucl_far_mp {n : ℝ} (hn : 0 < n) (hf : Emb n f) (hg : Emb n g) {p q : NP} (hne : p ≠ q) : n ≤ eucl (mp f g p) (mp f g q) :=
  eucl_mp_ge (t := ⟨n, 0, 0, 0, 0⟩) hf hg hne

theorem same_mp' (h : FlOk F u v) (hA : AxisExact F) (ht : 0 < t.nullDistance) (hf : Emb (2 * t.nullDistance) f) (hg : Emb (2 * t.nullDistance) g) (p q : NP) :
    PtSame F t (mp f g p) (mp f g q) ↔ p = q := by
  constructor
  · intro hs
    by_contra hne
    exact far_not_same h t (eucl_far_mp (by linarith) hf hg hne) ht hs
  · rintro rfl; exact same_self h hA ht _

/-- The test "between the ends" on a vertical side. -/
theorem betweenV (h : FlOk F u v) (n : Near F t u v M η f g f' g') {i b d j : ℕ} (hbd : b < d) (mb : |g b| ≤ M) (md : |g d| ≤ M) : Between F t ((f i, g b), (f i, g d)) (f' i, g' j) ↔ b ≤ j ∧ j ≤ d := by
  have hM : 0 ≤ M := (abs_nonneg _).trans mb
  obtain ⟨n1, n2, n3⟩ := n.noise hM h
  have n0 := n.eta
  have np := n.pos
  have gp := n.hg.gap b d hbd
  have e1 := n.ef i
  have e2 := n.eg j
  have L : eucl (f i, g b) (f i, g d) = g d - g b := by rw [eucl_vert, abs_sub_comm, abs_of_pos (by linarith)]
  have L2 : g d - g b ≤ 2 * M := by have := (abs_le.1 mb).1; have := (abs_le.1 md).2; linarith
  have k0 : 0 ≤ u + v := add_nonneg h.u_nonneg h.v_nonneg
  constructor
  · intro hb
    have := between_only h hb
    simp only [L] at this
    have q1 : |g b - g' j| ≤ eucl (f i, g b) (f' i, g' j) := abs_snd_le_eucl (f i, g b) (f' i, g' j)
    have q2 : |g d - g' j| ≤ eucl (f i, g d) (f' i, g' j) := abs_snd_le_eucl (f i, g d) (f' i, g' j)
    have q3 : 4 * (u + v) * (g d - g b) ≤ 8 * ((u + v) * M) := by
      have := mul_le_mul_of_nonneg_left L2 (by linarith : 0 ≤ 4 * (u + v)); linarith
    have q4 := abs_le.1 e2
    by_contra hc
    rw [not_and_or, not_le, not_le] at hc
    rcases hc with hc | hc
    · have g1 := n.hg.gap _ _ hc
      have := le_abs_self (g b - g' j)
      have := le_abs_self (g d - g' j)
      linarith
    · have g1 := n.hg.gap _ _ hc
      have := neg_le_abs (g b - g' j)
      have := neg_le_abs (g d - g' j)
      linarith
  · rintro ⟨h1, h2⟩
    have h1 := n.hg.le_iff.2 h1
    have h2 := n.hg.le_iff.2 h2
    have d0 : eucl (f i, g j) (f' i, g' j) ≤ 3 / 2 * η := eucl_le_max (by rw [abs_sub_comm]; exact e1) (by rw [abs_sub_comm]; exact e2)
    have t1 := eucl_triangle (f i, g b) (f i, g j) (f' i, g' j)
    have t2 := eucl_triangle (f i, g d) (f i, g j) (f' i, g' j)
    rw [eucl_vert, abs_sub_comm, abs_of_nonneg (by linarith)] at t1
    rw [eucl_vert, abs_of_nonneg (by linarith)] at t2
    refine between_of h (g := 3 * η) ?_ ?_
    · rw [L]; show eucl (f i, g b) (f' i, g' j) + eucl (f i, g d) (f' i, g' j) ≤ _; linarith
    · rw [L]
      have : 4 * (u + v) * (g d - g b + 3 * η) ≤ 4 * (u + v) * (5 / 2 * M) := mul_le_mul_of_nonneg_left (by linarith) (by linarith)
      have := n.small
      linarith

/-- The test "between the ends" on a horizontal side. -/
theorem betweenH (h : FlOk F u v) (n : Near F t u v M η f g f' g') {i a c j : ℕ} (hac : a < c) (ma : |f a| ≤ M) (mc : |f c| ≤ M) : Between F t ((f a, g j), (f c, g j)) (f' i, g' j) ↔ a ≤ i ∧ i ≤ c := by
  have hM : 0 ≤ M := (abs_nonneg _).trans ma
  obtain ⟨n1, n2, n3⟩ := n.noise hM h
  have n0 := n.eta
  have np := n.pos
  have gp := n.hf.gap a c hac
  have e1 := n.ef i
  have e2 := n.eg j
  have L : eucl (f a, g j) (f c, g j) = f c - f a := by rw [eucl_horiz, abs_sub_comm, abs_of_pos (by linarith)]
  have L2 : f c - f a ≤ 2 * M := by have := (abs_le.1 ma).1; have := (abs_le.1 mc).2; linarith
  have k0 : 0 ≤ u + v := add_nonneg h.u_nonneg h.v_nonneg
  constructor
  · intro hb
    have := between_only h hb
    simp only [L] at this
    have q1 : |f a - f' i| ≤ eucl (f a, g j) (f' i, g' j) := abs_fst_le_eucl (f a, g j) (f' i, g' j)
    have q2 : |f c - f' i| ≤ eucl (f c, g j) (f' i, g' j) := abs_fst_le_eucl (f c, g j) (f' i, g' j)
    have q3 : 4 * (u + v) * (f c - f a) ≤ 8 * ((u + v) * M) := by
      have := mul_le_mul_of_nonneg_left L2 (by linarith : 0 ≤ 4 * (u + v)); linarith
    have q4 := abs_le.1 e1
    by_contra hc
    rw [not_and_or, not_le, not_le] at hc
    rcases hc with hc | hc
    · have g1 := n.hf.gap _ _ hc
      have := le_abs_self (f a - f' i)
      have := le_abs_self (f c - f' i)
      linarith
    · have g1 := n.hf.gap _ _ hc
      have := neg_le_abs (f a - f' i)
      have := neg_le_abs (f c - f' i)
      linarith
  · rintro ⟨h1, h2⟩
    have h1 := n.hf.le_iff.2 h1
    have h2 := n.hf.le_iff.2 h2
    have d0 : eucl (f i, g j) (f' i, g' j) ≤ 3 / 2 * η := eucl_le_max (by rw [abs_sub_comm]; exact e1) (by rw [abs_sub_comm]; exact e2)
    have t1 := eucl_triangle (f a, g j) (f i, g j) (f' i, g' j)
    have t2 := eucl_triangle (f c, g j) (f i, g j) (f' i, g' j)
    rw [eucl_horiz, abs_sub_comm, abs_of_nonneg (by linarith)] at t1
    rw [eucl_horiz, abs_of_nonneg (by linarith)] at t2
    refine between_of h (g := 3 * η) ?_ ?_
    · rw [L]; show eucl (f a, g j) (f' i, g' j) + eucl (f c, g j) (f' i, g' j) ≤ _; linarith
    · rw [L]
      have : 4 * (u + v) * (f c - f a + 3 * η) ≤ 4 * (u + v) * (5 / 2 * M) := mul_le_mul_of_nonneg_left (by linarith) (by linarith)
      have := n.small
      linarith

/-- Two sides that are not equal. -/
theorem segInter_vh (h : FlOk F u v) (hA : AxisExact F) {ac : ℝ → ℝ} {w : ℝ} (ha : AcosOk ac w) (ht : RectThr t) (n : Near F t u v M η f g f' g') {i b d j a c : ℕ}
    (s1 : Side F M f g f' g' ((i, b), (i, d))) (s2 : Side F M f g f' g' ((a, j), (c, j))) (hbd : b < d) (hac : a < c) :
    segInter F t ac ((f i, g b), (f i, g d)) ((f a, g j), (f c, g j)) = .ok (if (b ≤ j ∧ j ≤ d) ∧ a ≤ i ∧ i ≤ c then some (f' i, g' j) else none) := by
  have np := n.pos
  have gp := n.hg.gap b d hbd
  have fp := n.hf.gap a c hac
  have ns : ¬ SegSame F t ((f i, g b), (f i, g d)) ((f a, g j), (f c, g j)) := by
    rintro ⟨q1, q2⟩
    have f2 : Emb (2 * t.nullDistance) f := emb_weak (by linarith) (by linarith) n.hf
    have g2 : Emb (2 * t.nullDistance) g := emb_weak (by linarith) (by linarith) n.hg
    have e1 := (same_mp' h hA np f2 g2 (i, b) (a, j)).1 q1
    have e2 := (same_mp' h hA np f2 g2 (i, d) (c, j)).1 q2
    simp only [Prod.mk.injEq] at e1 e2
    omega
  unfold segInter
  rw [if_neg ns]
  have l1 := vLine h hA ht n.eps s1.r1.1 s1.r2.1 s1.r4.1 (show 2 * t.nullDistance ≤ g d - g b by linarith)
  have l2 := hLine h hA n.eps s2.r2.1 s2.r1.1 s2.r3.1 (show 2 * t.nullDistance ≤ f c - f a by linarith)
  have c1 := s1.v rfl
  have c2 := s2.h rfl
  simp only at l1 l2 c1 c2
  have p1 : Rep F (f' i) := c1 ▸ axisC_rep h _ _ _
  have p2 : Rep F (g' j) := c2 ▸ axisC_rep h _ _ _
  rw [c1] at l1
  rw [c2] at l2
  simp only [l1, l2, Res.bind_ok, (axis_angle h hA ha ht (- f' i) (- g' j) 0 0).2.2.1, lineInter, (axis_cross h hA p1 p2).1, Bool.false_eq_true, if_false, Res.pure_eq]
  have b1 := betweenV h n (i := i) (j := j) hbd s1.r2.2 s1.r4.2
  have b2 := betweenH h n (i := i) (j := j) hac s2.r1.2 s2.r3.2
  by_cases q1 : b ≤ j ∧ j ≤ d
  · rw [if_pos (b1.2 q1)]
    by_cases q2 : a ≤ i ∧ i ≤ c
    · rw [if_pos (b2.2 q2), if_pos ⟨q1, q2⟩]
    · rw [if_neg (fun hc => q2 (b2.1 hc)), if_neg (fun hc => q2 hc.2)]
  · rw [if_neg (fun hc => q1 (b1.1 hc)), if_neg (fun hc => q1 hc.1)]

theorem segInter_mp' (h : FlOk F u v) (hA : AxisExact F) {ac : ℝ → ℝ} {w : ℝ} (ha : AcosOk ac w) (ht : RectThr t) (n : Near F t u v M η f g f' g') (s s' : NS)
    (h1 : Side F M f g f' g' s) (h2 : Side F M f g f' g' s') : segInter F t ac (mpS f g s) (mpS f g s') = .ok ((axInter s s').map (mp f' g')) := by
  have np := n.pos
  by_cases he : s = s'
  · subst he
    unfold segInter
    rw [if_pos ⟨same_self h hA np _, same_self h hA np _⟩]
    simp [axInter]
  have f2 : Emb (2 * t.nullDistance) f := emb_weak (by linarith) (by linarith) n.hf
  have g2 : Emb (2 * t.nullDistance) g := emb_weak (by linarith) (by linarith) n.hg
  have ns : ¬ SegSame F t (mpS f g s) (mpS f g s') := by
    rintro ⟨q1, q2⟩
    exact he (Prod.ext ((same_mp' h hA np f2 g2 _ _).1 q1) ((same_mp' h hA np f2 g2 _ _).1 q2))
  have x1 := h1.ax
  have x2 := h2.ax
  obtain ⟨⟨a, b⟩, c, d⟩ := s
  obtain ⟨⟨a', b'⟩, c', d'⟩ := s'
  have he' : ((((a, b), c, d) : NS) == ((a', b'), c', d')) = false := by rw [beq_eq_false_iff_ne]; exact he
  simp only [Ax, Bool.or_eq_true, Bool.and_eq_true, beq_iff_eq, decide_eq_true_eq] at x1 x2
  rcases x1 with ⟨e, x1⟩ | ⟨e, x1⟩ <;> rcases x2 with ⟨e', x2⟩ | ⟨e', x2⟩
  · subst e e'
    have gp := n.hg.gap b d x1
    have gp' := n.hg.gap b' d' x2
    have l1 := vLine h hA ht n.eps h1.r1.1 h1.r2.1 h1.r4.1 (show 2 * t.nullDistance ≤ g d - g b by linarith)
    have l2 := vLine h hA ht n.eps h2.r1.1 h2.r2.1 h2.r4.1 (show 2 * t.nullDistance ≤ g d' - g b' by linarith)
    simp only at l1 l2
    unfold segInter
    rw [if_neg ns]
    simp only [mpS, mp, l1, l2, Res.bind_ok, (axis_angle h hA ha ht _ 0 _ 0).1, if_true, Res.pure_eq]
    simp [axInter, he', vert]
  · subst e e'
    rw [show mpS f g ((a, b), (a, d)) = ((f a, g b), (f a, g d)) from rfl, show mpS f g ((a', b'), (c', b')) = ((f a', g b'), (f c', g b')) from rfl]
    rw [segInter_vh h hA ha ht n h1 h2 x1 x2]
    have hv : (a' == c') = false := by rw [beq_eq_false_iff_ne]; omega
    simp only [axInter, he', vert, hv, beq_self_eq_true, if_true, Bool.false_eq_true, if_false, Bool.and_eq_true, decide_eq_true_eq]
    by_cases hh : (b ≤ b' ∧ b' ≤ d) ∧ a' ≤ a ∧ a ≤ c'
    · rw [if_pos hh, if_pos (by tauto)]; rfl
    · rw [if_neg hh, if_neg (by tauto)]; rfl
  · subst e e'
    rw [show mpS f g ((a, b), (c, b)) = ((f a, g b), (f c, g b)) from rfl, show mpS f g ((a', b'), (a', d')) = ((f a', g b'), (f a', g d')) from rfl]
    rw [segInter_comm h, segInter_vh h hA ha ht n h2 h1 x2 x1]
    have hv : (a == c) = false := by rw [beq_eq_false_iff_ne]; omega
    simp only [axInter, he', vert, hv, beq_self_eq_true, if_true, Bool.false_eq_true, if_false, Bool.and_eq_true, decide_eq_true_eq]
    by_cases hh : (a ≤ a' ∧ a' ≤ c) ∧ b' ≤ b ∧ b ≤ d'
    · rw [if_pos (by tauto), if_pos (by tauto)]; rfl
    · rw [if_neg (by tauto), if_neg (by tauto)]; rfl
  · subst e e'
    have gp := n.hf.gap a c x1
    have gp' := n.hf.gap a' c' x2
    have l1 := hLine h hA n.eps h1.r2.1 h1.r1.1 h1.r3.1 (show 2 * t.nullDistance ≤ f c - f a by linarith)
    have l2 := hLine h hA n.eps h2.r2.1 h2.r1.1 h2.r3.1 (show 2 * t.nullDistance ≤ f c' - f a' by linarith)
    simp only at l1 l2
    unfold segInter
    rw [if_neg ns]
    simp only [mpS, mp, l1, l2, Res.bind_ok, (axis_angle h hA ha ht 0 _ 0 _).2.1, if_true, Res.pure_eq]
    have hv : (a == c) = false := by rw [beq_eq_false_iff_ne]; omega
    have hv' : (a' == c') = false := by rw [beq_eq_false_iff_ne]; omega
    simp [axInter, he', vert, hv, hv']

theorem rectSegs_mp' (h : FlOk F u v) (n : Near F t u v M η f g f' g') {r : FRect ℕ} (hr : Proper r) : rectSegs F t (mpR f g r) = .ok ((segs r).map (mpS f g)) := by
  have np := n.pos
  have sm : ∀ {p q : NP}, p ≠ q → Fl.segMake F t (mp f g p) (mp f g q) = .ok (mpS f g (ordS (p, q))) := by
    intro p q hne
    rw [Fl.segMake_ok h np ((show 2 * t.nullDistance ≤ 3 * t.nullDistance by linarith).trans (eucl_far_mp (by linarith) n.hf n.hg hne)), fixOrder_mp n.f1 n.g1]
  obtain ⟨⟨x1, y1⟩, ⟨x2, y2⟩⟩ := r
  obtain ⟨h1, h2⟩ := hr
  simp only at h1 h2
  unfold rectSegs
  have a1 := sm (p := (x1, y1)) (q := (x1, y2)) (by simp; omega)
  have a2 := sm (p := (x1, y2)) (q := (x2, y2)) (by simp; omega)
  have a3 := sm (p := (x2, y2)) (q := (x2, y1)) (by simp; omega)
  have a4 := sm (p := (x2, y1)) (q := (x1, y1)) (by simp; omega)
  have o1 : ordS ((x1, y1), (x1, y2)) = ((x1, y1), (x1, y2)) := by simp [ordS, ptLt, h2]
  have o2 : ordS ((x1, y2), (x2, y2)) = ((x1, y2), (x2, y2)) := by simp [ordS, ptLt, h1]
  have o3 : ordS ((x2, y2), (x2, y1)) = ((x2, y1), (x2, y2)) := by simp [ordS, ptLt, h2.le]
  have o4 : ordS ((x2, y1), (x1, y1)) = ((x1, y1), (x2, y1)) := by simp [ordS, ptLt, h1.le, h1]
  rw [o1] at a1; rw [o2] at a2; rw [o3] at a3; rw [o4] at a4
  simp only [mp] at a1 a2 a3 a4
  simp only [mpR, mp, a1, a2, a3, a4, Res.bind_ok, Res.pure_eq, segs, List.map_cons, List.map_nil]

section loops

variable (h : FlOk F u v) (hA : AxisExact F) {ac : ℝ → ℝ} {w : ℝ} (ha : AcosOk ac w) (ht : RectThr t) (n : Near F t u v M η f g f' g') (hM : 0 ≤ M)
include h hA ha ht n hM

omit ha ht in
theorem rectSegLoop_gen (seg : NS) :
    ∀ (l : List NS) (out : List NP), (∀ s ∈ l, segInter F t ac (mpS f g s) (mpS f g seg) = .ok ((axInter s seg).map (mp f' g'))) →
      rectSegLoop F t ac (mpS f g seg) (l.map (mpS f g)) (out.map (mp f' g')) = .ok ((segLoop seg l out).map (mp f' g')) := by
  intro l
  induction l with
  | nil => intro out _; rfl
  | cons s l ih =>
    intro out hl
    rw [List.map_cons]
    simp only [rectSegLoop, segLoop]
    rw [hl s List.mem_cons_self]
    have ih' := fun out => ih out (fun s' hs' => hl s' (List.mem_cons_of_mem _ hs'))
    cases hx : axInter s seg with
    | none => simp only [Option.map_none, Res.bind_ok]; exact ih' out
    | some p =>
      simp only [Option.map_some, Res.bind_ok]
      have aux : ∀ out' : List NP, (if (out'.map (mp f' g')).length = 2 then (pure (out'.map (mp f' g')) : Res (List (Pt ℝ))) else rectSegLoop F t ac (mpS f g seg) (l.map (mpS f g)) (out'.map (mp f' g')))
          = .ok ((if out'.length = 2 then out' else segLoop seg l out').map (mp f' g')) := by
        intro out'
        simp only [List.length_map]
        by_cases h2 : out'.length = 2
        · rw [if_pos h2, if_pos h2, Res.pure_eq]
        · rw [if_neg h2, if_neg h2]; exact ih' out'
      have sm := same_mp' h hA n.pos (n.f2 hM h) (n.g2 hM h)
      match out with
      | [] => exact aux [p]
      | [q] =>
        simp only [List.map_cons, List.map_nil]
        by_cases hq : q = p
        · simp only [if_pos ((sm q p).2 hq), if_pos (show (q == p) = true by simpa using hq)]; exact aux [q]
        · simp only [if_neg (fun h => hq ((sm q p).1 h)), if_neg (show ¬ (q == p) = true by simpa using hq)]; exact aux [q, p]
      | q :: q' :: l' =>
        have := aux (q :: q' :: l' ++ [p])
        rw [List.map_append] at this
        exact this

theorem rectSegLoop_mp' (seg : NS) (hs : Side F M f g f' g' seg) (l : List NS) (out : List NP) (hl : ∀ s ∈ l, Side F M f g f' g' s) :
    rectSegLoop F t ac (mpS f g seg) (l.map (mpS f g)) (out.map (mp f' g')) = .ok ((segLoop seg l out).map (mp f' g')) :=
  rectSegLoop_gen h hA n hM seg l out (fun s h' => segInter_mp' h hA ha ht n s seg (hl s h') hs)

theorem rectLoop_mp' {b : FRect ℕ} (hb : Proper b) (hbs : ∀ s ∈ segs b, Side F M f g f' g' s) :
    ∀ (l : List NS) (pts : List NP) (res : List NP), (∀ s ∈ l, Side F M f g f' g' s) → interLoop b l pts = some res →
      rectLoop F t ac (mpR f g b) (l.map (mpS f g)) (pts.map (mp f' g')) = .ok (res.map (mp f' g')) := by
  have np := n.pos
  have f1 : Emb t.nullDistance f' := emb_weak np (by linarith) (n.f2 hM h)
  have g1 : Emb t.nullDistance g' := emb_weak np (by linarith) (n.g2 hM h)
  intro l
  induction l with
  | nil => intro pts res _ h; simp only [interLoop, Option.some.injEq] at h; subst h; rfl
  | cons s l ih =>
    intro pts res hl hr
    have e : rectSegInter F t ac (mpR f g b) (mpS f g s) = .ok ((segLoop s (segs b) []).map (mp f' g')) := by
      unfold rectSegInter
      rw [rectSegs_mp' h n hb]
      simp only [Res.bind_ok]
      exact rectSegLoop_mp' h hA ha ht n hM s (hl s List.mem_cons_self) (segs b) [] hbs
    rw [List.map_cons]
    simp only [rectLoop, e, Res.bind_ok]
    simp only [interLoop] at hr
    have ih' := fun pts res h => ih pts res (fun s' hs' => hl s' (List.mem_cons_of_mem _ hs')) h
    cases hx : segLoop s (segs b) [] with
    | nil => rw [hx] at hr; exact ih' _ _ hr
    | cons a as =>
      cases as with
      | nil =>
        rw [hx] at hr
        simp only [List.map_cons, List.map_nil]
        rw [setInsert_mp f1 g1]; exact ih' _ _ hr
      | cons a' as =>
        cases as with
        | nil =>
          rw [hx] at hr
          simp only [List.map_cons, List.map_nil]
          rw [setInsert_mp f1 g1, setInsert_mp f1 g1]; exact ih' _ _ hr
        | cons a'' as => rw [hx] at hr; simp at hr

omit ha ht hM in
theorem mpR_eq' (a b : FRect ℕ) : rectEqB F t (mpR f g a) (mpR f g b) = (a == b) := by
  have np := n.pos
  have f2 : Emb (2 * t.nullDistance) f := emb_weak (by linarith) (by linarith) n.hf
  have g2 : Emb (2 * t.nullDistance) g := emb_weak (by linarith) (by linarith) n.hg
  unfold rectEqB
  rw [Bool.eq_iff_iff]
  simp only [Bool.and_eq_true, decide_eq_true_eq, mpR, same_mp' h hA np f2 g2, beq_iff_eq]
  obtain ⟨a1, a2⟩ := a
  obtain ⟨b1, b2⟩ := b
  simp

theorem rectInter_mp' {a b : FRect ℕ} (pa : Proper a) (pb : Proper b) (has : ∀ s ∈ segs a, Side F M f g f' g' s) (hbs : ∀ s ∈ segs b, Side F M f g f' g' s) {res : List NP}
    (hr : inter a b = some res) : rectInter F t ac (mpR f g a) (mpR f g b) = .ok (res.map (mp f' g')) := by
  unfold rectInter
  unfold inter at hr
  rw [mpR_eq' h hA n]
  by_cases he : a == b
  · rw [if_pos he] at hr ⊢
    simp only [Option.some.injEq] at hr; subst hr; rfl
  · rw [if_neg he] at hr ⊢
    rw [rectSegs_mp' h n pa]
    exact rectLoop_mp' h hA ha ht n hM pb hbs (segs a) [] res has hr

omit hA ha in
theorem ofPts_mp' {p q : NP} {r : FRect ℕ} (hr : ofPts p q = some r) : rectOfPts F t (mp f' g' p) (mp f' g' q) = .ok (mpR f' g' r) := by
  have np := n.pos
  have f2 := n.f2 hM h
  have g2 := n.g2 hM h
  obtain ⟨n1, n2⟩ := ofPts_ne hr
  unfold ofPts at hr
  split_ifs at hr with hc
  simp only [Option.some.injEq] at hr
  have k1 := rnd_ge_half h np (f2.far n1)
  have k2 := rnd_ge_half h np (g2.far n2)
  have ho := ht.orth
  unfold rectOfPts
  rw [if_neg]
  · rw [← hr]
    simp only [mpR, mp, f2.map_min, f2.map_max, g2.map_min, g2.map_max]
  · rintro (hh | hh)
    · simp only [mp] at hh; linarith
    · simp only [mp] at hh; linarith

omit h hA ha ht hM in
theorem near_mpR (r : FRect ℕ) : NearRect η (mpR f' g' r) (mpR f g r) := ⟨n.ef _, n.eg _, n.ef _, n.eg _⟩

end loops

theorem near_min {a b a' b' e : ℝ} (h1 : |a' - a| ≤ e) (h2 : |b' - b| ≤ e) : |min a' b' - min a b| ≤ e := (abs_min_sub_min_le_max a' b' a b).trans (max_le h1 h2)
theorem near_max {a b a' b' e : ℝ} (h1 : |a' - a| ≤ e) (h2 : |b' - b| ≤ e) : |max a' b' - max a b| ≤ e := (abs_max_sub_max_le_max a' b' a b).trans (max_le h1 h2)

theorem near_self {x e : ℝ} (h : 0 ≤ e) : |x - x| ≤ e := by rw [sub_self, abs_zero]; exact h

/-- The answers agree. -/
def NearOpt (η : ℝ) (f g : ℕ → ℝ) (o : Option (FRect ℝ)) : Option (FRect ℕ) → Prop
  | none => o = none
  | some r => ∃ r', o = some r' ∧ NearRect η r' (mpR f g r)

theorem intersectArea_mp' (h : FlOk F u v) (hA : AxisExact F) {ac : ℝ → ℝ} {w : ℝ} (ha : AcosOk ac w) (ht : RectThr t) (n : Near F t u v M η f g f' g') (hM : 0 ≤ M)
    {a b : FRect ℕ} (pa : Proper a) (pb : Proper b) (has : ∀ s ∈ segs a, Side F M f g f' g' s) (hbs : ∀ s ∈ segs b, Side F M f g f' g' s) {res : Option (FRect ℕ)}
    (hr : Rank.intersectArea a b = some res) : ∃ o, Fl.intersectArea F t ac (mpR f g a) (mpR f g b) = .ok o ∧ NearOpt η f g o res := by
  have np := n.pos
  have n0 := n.eta
  have f1 := n.f1
  have g1 := n.g1
  have f2 := n.f2 hM h
  have g2 := n.g2 hM h
  have nr : ∀ r : FRect ℕ, NearRect η (mpR f g r) (mpR f g r) := fun r => ⟨near_self n0, near_self n0, near_self n0, near_self n0⟩
  unfold Rank.intersectArea at hr
  unfold Fl.intersectArea
  rw [mpR_eq' h hA n]
  by_cases he : a == b
  · rw [if_pos he] at hr ⊢
    simp only [Option.some.injEq] at hr; subst hr
    exact ⟨_, rfl, _, rfl, nr _⟩
  rw [if_neg he] at hr ⊢
  have four : ∀ i0 i1 q0 q1 : NP, NearRect η (FRect.of4Pts (mp f' g' i0) (mp f' g' i1) (mp f g q0) (mp f g q1))
      (mpR f g ⟨(min (min (min i0.1 i1.1) q0.1) q1.1, min (min (min i0.2 i1.2) q0.2) q1.2), (max (max (max i0.1 i1.1) q0.1) q1.1, max (max (max i0.2 i1.2) q0.2) q1.2)⟩) := by
    intro i0 i1 q0 q1
    rw [← of4Pts_mp f1 g1]
    exact ⟨near_min (near_min (near_min (n.ef _) (n.ef _)) (near_self n0)) (near_self n0), near_min (near_min (near_min (n.eg _) (n.eg _)) (near_self n0)) (near_self n0),
      near_max (near_max (near_max (n.ef _) (n.ef _)) (near_self n0)) (near_self n0), near_max (near_max (near_max (n.eg _) (n.eg _)) (near_self n0)) (near_self n0)⟩
  cases hi : inter a b with
  | none => rw [hi] at hr; simp at hr
  | some l =>
    rw [hi] at hr
    rw [rectInter_mp' h hA ha ht n hM pa pb has hbs hi]
    simp only [Res.bind_ok]
    match l with
    | [] =>
      simp only [List.map_nil, isInside_mp f1 g1] at hr ⊢
      by_cases h1 : isInside a b = true
      · rw [if_pos h1] at hr ⊢; simp only [Option.some.injEq] at hr; subst hr; exact ⟨_, rfl, _, rfl, nr _⟩
      · rw [if_neg h1] at hr ⊢
        by_cases h2 : isInside b a = true
        · rw [if_pos h2] at hr ⊢; simp only [Option.some.injEq] at hr; subst hr; exact ⟨_, rfl, _, rfl, nr _⟩
        · rw [if_neg h2] at hr ⊢; simp only [Option.some.injEq] at hr; subst hr; exact ⟨_, rfl, rfl⟩
    | [_] => simp only [Option.some.injEq] at hr; subst hr; exact ⟨_, rfl, rfl⟩
    | [i0, i1] =>
      simp only [List.map_cons, List.map_nil, pointsInside_mp f1 g1] at hr ⊢
      cases h1 : pointsIn a b with
      | nil =>
        rw [h1] at hr
        cases h2 : pointsIn b a with
        | nil => rw [h2] at hr; simp only [Option.some.injEq] at hr; subst hr; exact ⟨_, rfl, rfl⟩
        | cons q0 l2 =>
          rw [h2] at hr
          cases l2 with
          | nil => simp at hr
          | cons q1 l2 =>
            cases l2 with
            | nil =>
              simp only [Option.some.injEq] at hr; subst hr
              exact ⟨_, rfl, _, rfl, four _ _ _ _⟩
            | cons q2 l2 => simp at hr
      | cons q0 l1 =>
        rw [h1] at hr
        cases l1 with
        | nil =>
          cases h2 : pointsIn b a with
          | nil => rw [h2] at hr; simp at hr
          | cons q1 l2 =>
            rw [h2] at hr
            cases l2 with
            | nil =>
              simp only [Option.map_eq_some_iff] at hr
              obtain ⟨r, hr, h'⟩ := hr
              subst h'
              simp only [List.map_cons, List.map_nil, ofPts_mp' h ht n hM hr, Res.bind_ok]
              exact ⟨_, rfl, _, rfl, near_mpR n r⟩
            | cons q2 l2 => simp at hr
        | cons q1 l1 =>
          cases l1 with
          | nil =>
            cases h2 : pointsIn b a with
            | nil =>
              rw [h2] at hr
              simp only [Option.some.injEq] at hr; subst hr
              exact ⟨_, rfl, _, rfl, four _ _ _ _⟩
            | cons q2 l2 => rw [h2] at hr; simp at hr
          | cons q2 l1 => simp at hr
    | [v0, v1, v2] =>
      simp only [Option.map_eq_some_iff] at hr
      obtain ⟨r, hr, h'⟩ := hr
      subst h'
      obtain ⟨n1, n2⟩ := ofPts_ne hr
      have hr' := ofPts_mp' h ht n hM hr
      simp only at n1 n2
      have l1 : min v0.1 (min v1.1 v2.1) < max v0.1 (max v1.1 v2.1) := lt_of_le_of_ne ((min_le_left _ _).trans (le_max_left _ _)) n1
      have l2 : min v0.2 (min v1.2 v2.2) < max v0.2 (max v1.2 v2.2) := lt_of_le_of_ne ((min_le_left _ _).trans (le_max_left _ _)) n2
      have k1 := f2.gap _ _ l1
      have k2 := g2.gap _ _ l2
      have ho := ht.orth
      simp only [mp, f2.map_min, f2.map_max, g2.map_min, g2.map_max] at hr' k1 k2
      have big : ∀ x : ℝ, 2 * t.nullDistance ≤ x → t.nullOrthogDistance < F.rnd x := by
        intro x hx
        have := rnd_ge_half h np (hx.trans (le_abs_self x))
        rw [abs_of_nonneg (rnd_nonneg h (by linarith))] at this
        linarith
      simp only [List.map_cons, List.map_nil, mp]
      rw [if_neg (by rw [not_not]; exact big _ (by linarith)), if_neg (by rw [not_not]; exact big _ (by linarith)), hr']
      exact ⟨_, rfl, _, rfl, near_mpR n r⟩
    | [v0, v1, v2, v3] =>
      simp only [Option.map_eq_some_iff] at hr
      obtain ⟨r, hr, h'⟩ := hr
      subst h'
      simp only [List.map_cons, List.map_nil, ofPts_mp' h ht n hM hr, Res.bind_ok]
      exact ⟨_, rfl, _, rfl, near_mpR n r⟩
    | _ :: _ :: _ :: _ :: _ :: _ => simp at hr

end H2d.Fl
