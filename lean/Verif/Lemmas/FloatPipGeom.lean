import Verif.Lemmas.FloatPipModel

/-! # Geometry for the point in polygon algorithm with rounded operations -/

namespace H2d.Fl
open H2d.Spec H2d.Pip

variable {F : Arith} {u v : ℝ}

theorem lineOfPts_rep (h : FlOk F u v) {t : Thr ℝ} {p q : Pt ℝ} {l : V3 ℝ} (hl : lineOfPts F t p q = .ok l) : Rep F (l 2) := by
  unfold lineOfPts at hl
  split_ifs at hl
  unfold normalizeLine at hl
  simp only at hl
  split_ifs at hl <;> cases hl <;> simp [Rep, h.odd, h.idem]

/-- Error of the computed distance to the line of a segment. -/
theorem lineDist_seg (h : FlOk F u v) {t : Thr ℝ} {s : Seg} {l : V3 ℝ} (hl : lineOfPts F t s.1 s.2 = .ok l) {ρ M : ℝ} (hn : NearLine l s ρ) (m1 : |s.1.1| ≤ M) (m2 : |s.1.2| ≤ M) (hρ : ρ ≤ M / 10)
    {p : Pt ℝ} (p1 : |p.1| ≤ M) (p2 : |p.2| ≤ M) : |lineDist F l p - |l 0 * p.1 + l 1 * p.2 + l 2| / Real.sqrt (l 0 ^ 2 + l 1 ^ 2)| ≤ 14 * (u + v) * M := by
  have n1 : 0 < Real.sqrt (l 0 ^ 2 + l 1 ^ 2) := Real.sqrt_pos.2 hn.norm
  have hM : 0 ≤ M := (abs_nonneg _).trans m1
  refine (Props.C108_line F u v h l (lineOfPts_rep h hl) n1 p).trans ?_
  have hu := h.u_nonneg
  have hv := h.v_nonneg
  have hu1 := h.u_small
  have hv1 := h.v_small
  have c0 : (1 + u) ^ 4 ≤ 1 + 42 / 10 * u := by nlinarith [mul_nonneg hu hu, mul_nonneg (mul_nonneg hu hu) hu]
  have c1 : (1 + u) ^ 4 / (1 - v) - 1 ≤ 9 / 2 * (u + v) := by
    rw [sub_le_iff_le_add, div_le_iff₀ (by linarith)]
    nlinarith [mul_nonneg hu hv]
  have c2 : (|l 0 * p.1| + |l 1 * p.2| + |l 2|) / Real.sqrt (l 0 ^ 2 + l 1 ^ 2) ≤ 31 / 10 * M := by
    have a1 := hn.off m1 m2
    unfold offLine at a1
    have a2 := cs_abs (l 0) (l 1) p.2 p.1
    have a3 : Real.sqrt (p.2 ^ 2 + p.1 ^ 2) ≤ 3 / 2 * M := by
      apply Real.sqrt_le_iff.2
      have b1 := sq_le_sq' (abs_le.1 p1).1 (abs_le.1 p1).2
      have b2 := sq_le_sq' (abs_le.1 p2).1 (abs_le.1 p2).2
      exact ⟨by positivity, by nlinarith⟩
    have a4 := mul_le_mul_of_nonneg_left a3 n1.le
    rw [add_div]
    have a5 : (|l 0 * p.1| + |l 1 * p.2|) / Real.sqrt (l 0 ^ 2 + l 1 ^ 2) ≤ 3 / 2 * M := by
      rw [div_le_iff₀ n1]; linarith
    linarith
  have c3 : 0 ≤ (|l 0 * p.1| + |l 1 * p.2| + |l 2|) / Real.sqrt (l 0 ^ 2 + l 1 ^ 2) := by positivity
  have c4 := mul_le_mul c1 c2 c3 (by positivity)
  have : 0 ≤ (u + v) * M := by positivity
  nlinarith

/-- Difference of the values of a line at two points. -/
theorem line_diff (l : V3 ℝ) (p q : Pt ℝ) : |(l 0 * p.1 + l 1 * p.2 + l 2) - (l 0 * q.1 + l 1 * q.2 + l 2)| ≤ Real.sqrt (l 0 ^ 2 + l 1 ^ 2) * eucl p q := by
  have a := cs_abs (l 0) (l 1) (p.2 - q.2) (p.1 - q.1)
  have e : Real.sqrt ((p.2 - q.2) ^ 2 + (p.1 - q.1) ^ 2) = eucl p q := by rw [eucl_sqrt, add_comm]
  rw [e] at a
  have : (l 0 * p.1 + l 1 * p.2 + l 2) - (l 0 * q.1 + l 1 * q.2 + l 2) = l 0 * (p.1 - q.1) + l 1 * (p.2 - q.2) := by ring
  rw [this]
  exact (abs_add_le _ _).trans a

/-- A computed distance to the line bounds the distance to the points of the line that are not far from the segment. -/
theorem far_of_computed {l : V3 ℝ} {s : Seg} {ρ d ε D : ℝ} (hn : NearLine l s ρ) {p : Pt ℝ} (he : |D - |l 0 * p.1 + l 1 * p.2 + l 2| / Real.sqrt (l 0 ^ 2 + l 1 ^ 2)| ≤ ε) (hd : d ≤ D) (k : ℝ) :
    d - ε - (|1 - k| + |k|) * ρ ≤ eucl p (along s k) := by
  have n1 : 0 < Real.sqrt (l 0 ^ 2 + l 1 ^ 2) := Real.sqrt_pos.2 hn.norm
  have a := hn.along k
  have b := line_diff l p (along s k)
  have c : |l 0 * p.1 + l 1 * p.2 + l 2| ≤ ((|1 - k| + |k|) * ρ + eucl p (along s k)) * Real.sqrt (l 0 ^ 2 + l 1 ^ 2) := by
    have := abs_add_le ((l 0 * p.1 + l 1 * p.2 + l 2) - (l 0 * (along s k).1 + l 1 * (along s k).2 + l 2)) (l 0 * (along s k).1 + l 1 * (along s k).2 + l 2)
    rw [sub_add_cancel] at this
    linarith
  rw [← div_le_iff₀ n1] at c
  linarith [(abs_le.1 he).2]

/-- A point close to the line has a small computed distance. -/
theorem computed_of_near {l : V3 ℝ} {s : Seg} {ρ ε D : ℝ} (hn : NearLine l s ρ) {p : Pt ℝ} (he : |D - |l 0 * p.1 + l 1 * p.2 + l 2| / Real.sqrt (l 0 ^ 2 + l 1 ^ 2)| ≤ ε) (k : ℝ) :
    D ≤ ε + (|1 - k| + |k|) * ρ + eucl p (along s k) := by
  have := far_of_computed hn he (le_refl D) k
  linarith

/-- The foot of the perpendicular. -/
theorem foot_at {s : Seg} (hL : 0 < eucl s.1 s.2) (p : Pt ℝ) {c : ℝ} (hc : |(s.2.1 - s.1.1) * (p.2 - s.1.2) - (s.2.2 - s.1.2) * (p.1 - s.1.1)| ≤ c * eucl s.1 s.2) : ∃ k, eucl p (along s k) ≤ c := by
  have e0 := eucl_sq' s.1 s.2
  have hc0 : 0 ≤ c := by
    by_contra hh
    have := mul_pos (neg_pos.2 (not_le.1 hh)) hL
    linarith [abs_nonneg ((s.2.1 - s.1.1) * (p.2 - s.1.2) - (s.2.2 - s.1.2) * (p.1 - s.1.1))]
  refine ⟨((p.1 - s.1.1) * (s.2.1 - s.1.1) + (p.2 - s.1.2) * (s.2.2 - s.1.2)) / eucl s.1 s.2 ^ 2, ?_⟩
  have hq : eucl s.1 s.2 ^ 2 ≠ 0 := by positivity
  refine (abs_le_of_sq_le_sq' ?_ hc0).2
  set k := ((p.1 - s.1.1) * (s.2.1 - s.1.1) + (p.2 - s.1.2) * (s.2.2 - s.1.2)) / eucl s.1 s.2 ^ 2 with hk
  have hk' : k * eucl s.1 s.2 ^ 2 = (p.1 - s.1.1) * (s.2.1 - s.1.1) + (p.2 - s.1.2) * (s.2.2 - s.1.2) := div_mul_cancel₀ _ hq
  clear_value k
  have h2 := sq_le_sq' (abs_le.1 hc).1 (abs_le.1 hc).2
  have e1 : eucl p (along s k) ^ 2 * eucl s.1 s.2 ^ 2 = ((s.2.1 - s.1.1) * (p.2 - s.1.2) - (s.2.2 - s.1.2) * (p.1 - s.1.1)) ^ 2 := by
    rw [eucl_sq]
    simp only [along]
    rw [e0] at hk' ⊢
    set A := s.2.1 - s.1.1
    set B := s.2.2 - s.1.2
    set x := p.1 - s.1.1 with hx
    set y := p.2 - s.1.2 with hy
    have ex : p.1 - (s.1.1 + k * A) = x - k * A := by rw [hx]; ring
    have ey : p.2 - (s.1.2 + k * B) = y - k * B := by rw [hy]; ring
    rw [ex, ey]
    linear_combination (k * (A ^ 2 + B ^ 2) - (x * A + y * B)) * hk'
  have : eucl p (along s k) ^ 2 * eucl s.1 s.2 ^ 2 ≤ c ^ 2 * eucl s.1 s.2 ^ 2 := by rw [e1, ← mul_pow]; exact h2
  exact le_of_mul_le_mul_right this (by positivity)

section ok
variable {ac : ℝ → ℝ} {t : Thr ℝ} {w M L S : ℝ} {pts : List (Pt ℝ)} {p lo hi : Pt ℝ}

theorem pip_box (hp : PipOk F t u v w M L S pts p lo hi) : (|lo.1| ≤ M / 4 ∧ |lo.2| ≤ M / 4) ∧ |hi.1| ≤ M / 4 ∧ |hi.2| ≤ M / 4 := by
  obtain ⟨_, m1, x1⟩ := hp.box.left
  obtain ⟨_, m2, x2⟩ := hp.box.right
  obtain ⟨_, m3, x3⟩ := hp.box.bottom
  obtain ⟨_, m4, x4⟩ := hp.box.top
  exact ⟨⟨x1 ▸ (hp.rep _ m1).2.1, x3 ▸ (hp.rep _ m3).2.2⟩, x2 ▸ (hp.rep _ m2).2.1, x4 ▸ (hp.rep _ m4).2.2⟩

theorem pip_facts (h : FlOk F u v) (hp : PipOk F t u v w M L S pts p lo hi) :
    0 < t.nullDistance ∧ 3 * t.nullDistance ≤ L ∧ 0 < M ∧ 0 ≤ u * M ^ 2 / (L * S) ∧ 0 ≤ u * M ∧ 0 ≤ v * M := by
  have hd : 0 < t.nullDistance := by have := dblEps_pos; linarith [hp.eps]
  obtain ⟨⟨a, -⟩, b, -⟩ := pip_box hp
  have hM : 0 < M := by linarith [(abs_le.1 a).1, (abs_le.1 b).2, hp.wide]
  have hL := hp.L_pos
  have hS := hp.S_pos
  have hu := h.u_nonneg
  have hv := h.v_nonneg
  refine ⟨hd, ?_, hM, by positivity, by positivity, by positivity⟩
  have := mul_le_mul_of_nonneg_right hp.S_le hL.le
  linarith [hp.thr]

theorem pip_ref (h : FlOk F u v) (hp : PipOk F t u v w M L S pts p lo hi) (n : ℕ) :
    (Rep F (refPt F lo hi n).1 ∧ Rep F (refPt F lo hi n).2) ∧ (|(refPt F lo hi n).1| ≤ M ∧ |(refPt F lo hi n).2| ≤ M) ∧ (refPt F lo hi n).1 ≤ lo.1 - (hi.1 - lo.1) + u * M := by
  obtain ⟨⟨a1, a2⟩, b1, b2⟩ := pip_box hp
  obtain ⟨-, -, hM, -, hu, -⟩ := pip_facts h hp
  have hle := IsTightBox.le hp.box
  have hu0 := h.u_nonneg
  have hu1 := h.u_small
  have e : ∀ x, |x| ≤ 3 / 4 * M → |F.rnd x| ≤ M := by
    intro x hx
    have := rnd_abs_le h x
    nlinarith [abs_nonneg x]
  rw [abs_le] at a1 a2 b1 b2
  have c1 : |2 * lo.1 - hi.1| ≤ 3 / 4 * M := by rw [abs_le]; constructor <;> linarith
  have c2 : |2 * lo.2 - hi.2| ≤ 3 / 4 * M := by rw [abs_le]; constructor <;> linarith
  have c3 : |2 * hi.2 - lo.2| ≤ 3 / 4 * M := by rw [abs_le]; constructor <;> linarith
  refine ⟨⟨h.idem _, refY_rep h lo hi n⟩, ⟨e _ c1, ?_⟩, ?_⟩
  · have l1 := refY_low h lo hi hle.2 n
    have l2 := refY_high h lo hi hle.2 n
    have l3 := abs_le.1 (e _ c2)
    have l4 := abs_le.1 (e _ c3)
    show |refY F lo hi n| ≤ M
    rw [abs_le]; constructor <;> linarith
  · show F.rnd (2 * lo.1 - hi.1) ≤ _
    have := (abs_le.1 (h.err (2 * lo.1 - hi.1))).2
    have := mul_le_mul_of_nonneg_left c1 hu0
    linarith

theorem slopeOk_fix {s : Seg} (hs : SlopeOk t s) : SlopeOk t (fixOrder s.1 s.2) := by
  rcases fixOrder_cases s.1 s.2 with e | e <;> rw [e]
  · exact hs
  · unfold SlopeOk at *
    simp only [Prod.fst_swap, Prod.snd_swap]
    rw [abs_sub_comm, eucl_comm s.2 s.1]
    exact hs.imp Eq.symm id

theorem pip_edge (h : FlOk F u v) (hp : PipOk F t u v w M L S pts p lo hi) {e : Seg} (he : e ∈ polyEdges pts) :
    (fixOrder e.1 e.2).1 ∈ pts ∧ (fixOrder e.1 e.2).2 ∈ pts ∧ SegRep F M (fixOrder e.1 e.2) ∧ L ≤ eucl (fixOrder e.1 e.2).1 (fixOrder e.1 e.2).2 ∧
      ∃ l, lineOfPts F t (fixOrder e.1 e.2).1 (fixOrder e.1 e.2).2 = .ok l ∧ NearLine l (fixOrder e.1 e.2) (16 * u * M ^ 2 / eucl (fixOrder e.1 e.2).1 (fixOrder e.1 e.2).2) ∧
        16 * u * M ^ 2 / eucl (fixOrder e.1 e.2).1 (fixOrder e.1 e.2).2 ≤ 16 * (u * M ^ 2 / (L * S)) ∧ 16 * u * M ^ 2 / eucl (fixOrder e.1 e.2).1 (fixOrder e.1 e.2).2 ≤ M / 10 ∧
        32 * (16 * u * M ^ 2 / eucl (fixOrder e.1 e.2).1 (fixOrder e.1 e.2).2) ≤ eucl (fixOrder e.1 e.2).1 (fixOrder e.1 e.2).2 := by
  obtain ⟨hd, hL, hM, hκ, -, -⟩ := pip_facts h hp
  obtain ⟨x1, x2⟩ := edges_mem he
  obtain ⟨g1, g2⟩ := hp.edges e he
  have mem : (fixOrder e.1 e.2).1 ∈ pts ∧ (fixOrder e.1 e.2).2 ∈ pts := by
    rcases fixOrder_cases e.1 e.2 with q | q <;> rw [q]
    · exact ⟨x1, x2⟩
    · exact ⟨x2, x1⟩
  have hlen : L ≤ eucl (fixOrder e.1 e.2).1 (fixOrder e.1 e.2).2 := by rw [eucl_fix]; exact g2
  have hsl := slopeOk_fix g1
  generalize fixOrder e.1 e.2 = s at *
  obtain ⟨a1, a2, a3⟩ := hp.rep _ mem.1
  obtain ⟨b1, b2, b3⟩ := hp.rep _ mem.2
  have hrep : SegRep F M s := ⟨a1, b1, by linarith, by linarith, by linarith, by linarith⟩
  obtain ⟨l, hl, hn⟩ := segLine_near h t hp.eps hrep hsl (by linarith)
  obtain ⟨-, -, k1, -, k2, -, k3, -⟩ := kappa_facts h.u_nonneg hp.L_pos hp.S_pos hp.S_le hlen (eucl_le_3M ⟨hrep.2.2.1, hrep.2.2.2.1⟩ ⟨hrep.2.2.2.2.1, hrep.2.2.2.2.2⟩) hp.small
  have hS := hp.S_le
  have hS0 := hp.S_pos
  have k4 : 16 * u * M ^ 2 / eucl s.1 s.2 ≤ 16 * (u * M ^ 2 / (L * S)) := k1.trans (by nlinarith)
  refine ⟨mem.1, mem.2, hrep, hlen, l, hl, hn, k4, by linarith, ?_⟩
  have : S / 32 * eucl s.1 s.2 ≤ 1 / 32 * eucl s.1 s.2 := mul_le_mul_of_nonneg_right (by linarith) (eucl_nonneg _ _)
  linarith

theorem in_box_abs (hp : PipOk F t u v w M L S pts p lo hi) (hin : lo.1 < p.1 ∧ p.1 < hi.1 ∧ lo.2 < p.2 ∧ p.2 < hi.2) : |p.1| ≤ M / 4 ∧ |p.2| ≤ M / 4 := by
  obtain ⟨⟨a1, a2⟩, b1, b2⟩ := pip_box hp
  rw [abs_le] at *
  rw [abs_le]
  obtain ⟨h1, h2, h3, h4⟩ := hin
  exact ⟨⟨by linarith, by linarith⟩, by linarith, by linarith⟩

/-- The computed distances to the lines are large: the point is far from the edges, and from what is next to them on their lines. -/
theorem edge_far (h : FlOk F u v) (hp : PipOk F t u v w M L S pts p lo hi) (hin : lo.1 < p.1 ∧ p.1 < hi.1 ∧ lo.2 < p.2 ∧ p.2 < hi.2) {e : Seg} (he : e ∈ polyEdges pts)
    (hc : ∀ l, lineOfPts F t (fixOrder e.1 e.2).1 (fixOrder e.1 e.2).2 = .ok l → t.nullDistance ≤ lineDist F l p) {k : ℝ} (hk : |1 - k| + |k| ≤ 3) : 19 / 20 * t.nullDistance ≤ eucl p (along (fixOrder e.1 e.2) k) := by
  obtain ⟨hd, hL, hM, hκ, hu, hv⟩ := pip_facts h hp
  obtain ⟨-, -, hrep, hlen, l, hl, hn, k1, k2, -⟩ := pip_edge h hp he
  obtain ⟨p1, p2⟩ := in_box_abs hp hin
  have er := lineDist_seg h hl hn hrep.2.2.1 hrep.2.2.2.1 k2 (p := p) (by linarith) (by linarith)
  have := far_of_computed hn er (hc l hl) k
  have b : (|1 - k| + |k|) * (16 * u * M ^ 2 / eucl (fixOrder e.1 e.2).1 (fixOrder e.1 e.2).2) ≤ 3 * (16 * (u * M ^ 2 / (L * S))) :=
    mul_le_mul hk k1 (div_nonneg (mul_nonneg (mul_nonneg (by norm_num) h.u_nonneg) (sq_nonneg M)) (eucl_nonneg _ _)) (by norm_num)
  have := hp.num
  nlinarith

/-- The point is close to the line of an edge for the computed distance: it is not far from it. -/
theorem line_near (h : FlOk F u v) (hp : PipOk F t u v w M L S pts p lo hi) (hx : 2000 * (u * M ^ 3 / L ^ 2) ≤ t.nullDistance) (hin : lo.1 < p.1 ∧ p.1 < hi.1 ∧ lo.2 < p.2 ∧ p.2 < hi.2) {e : Seg} (he : e ∈ polyEdges pts)
    {l : V3 ℝ} (hl : lineOfPts F t (fixOrder e.1 e.2).1 (fixOrder e.1 e.2).2 = .ok l) (hc : lineDist F l p < t.nullDistance) : ∃ k, eucl p (along (fixOrder e.1 e.2) k) < 11 / 10 * t.nullDistance := by
  obtain ⟨hd, hL, hM, hκ, hu, hv⟩ := pip_facts h hp
  obtain ⟨m1, -, hrep, hlen, l', hl', hn, k1, k2, k3⟩ := pip_edge h hp he
  rw [hl] at hl'; cases hl'
  obtain ⟨p1, p2⟩ := in_box_abs hp hin
  have er := lineDist_seg h hl hn hrep.2.2.1 hrep.2.2.2.1 k2 (p := p) (by linarith) (by linarith)
  generalize fixOrder e.1 e.2 = s at *
  have n1 : 0 < Real.sqrt (l 0 ^ 2 + l 1 ^ 2) := Real.sqrt_pos.2 hn.norm
  have hL0 : 0 < eucl s.1 s.2 := lt_of_lt_of_le hp.L_pos hlen
  have he : |l 0 * p.1 + l 1 * p.2 + l 2| ≤ (t.nullDistance + 14 * (u + v) * M) * Real.sqrt (l 0 ^ 2 + l 1 ^ 2) := by
    rw [← div_le_iff₀ n1]; linarith [(abs_le.1 er).1]
  have hcx : |(s.2.1 - s.1.1) * (p.1 - s.1.1) + (s.2.2 - s.1.2) * (p.2 - s.1.2)| ≤ M / eucl s.1 s.2 * eucl s.1 s.2 ^ 2 := by
    have a := cs_abs (s.2.1 - s.1.1) (s.2.2 - s.1.2) (p.2 - s.1.2) (p.1 - s.1.1)
    have b : Real.sqrt ((s.2.1 - s.1.1) ^ 2 + (s.2.2 - s.1.2) ^ 2) = eucl s.1 s.2 := by rw [eucl_comm, eucl_sqrt]
    have c : Real.sqrt ((p.2 - s.1.2) ^ 2 + (p.1 - s.1.1) ^ 2) = eucl p s.1 := by rw [eucl_sqrt, add_comm]
    have d : eucl p s.1 ≤ M := by
      have := eucl_le_3M (p := p) (q := s.1) ⟨p1, p2⟩ (hp.rep _ m1).2
      linarith
    rw [b, c] at a
    have e1 : M / eucl s.1 s.2 * eucl s.1 s.2 ^ 2 = eucl s.1 s.2 * M := by field_simp
    rw [e1]
    exact (abs_add_le _ _).trans (a.trans (mul_le_mul_of_nonneg_left d hL0.le))
  have pr := hn.perp hL0 k3 he hcx
  obtain ⟨k, hk⟩ := foot_at hL0 p pr
  refine ⟨k, lt_of_le_of_lt hk ?_⟩
  have b1 : 2 * (M / eucl s.1 s.2) * (16 * u * M ^ 2 / eucl s.1 s.2) ≤ 32 * (u * M ^ 3 / L ^ 2) := by
    have e1 : 2 * (M / eucl s.1 s.2) * (16 * u * M ^ 2 / eucl s.1 s.2) = 32 * (u * M ^ 3 / eucl s.1 s.2 ^ 2) := by field_simp; ring
    rw [e1]
    have hL1 := hp.L_pos
    have hu0 := h.u_nonneg
    have : u * M ^ 3 / eucl s.1 s.2 ^ 2 ≤ u * M ^ 3 / L ^ 2 := div_le_div_of_nonneg_left (by positivity) (by positivity) (pow_le_pow_left₀ hL1.le hlen 2)
    linarith
  have := hp.num
  nlinarith

/-- A point close to the line of an edge is so for the computed distance. -/
theorem near_line (h : FlOk F u v) (hp : PipOk F t u v w M L S pts p lo hi) (hx : 2000 * (u * M ^ 3 / L ^ 2) ≤ t.nullDistance) (hin : lo.1 < p.1 ∧ p.1 < hi.1 ∧ lo.2 < p.2 ∧ p.2 < hi.2) {e : Seg} (he : e ∈ polyEdges pts)
    {l : V3 ℝ} (hl : lineOfPts F t (fixOrder e.1 e.2).1 (fixOrder e.1 e.2).2 = .ok l) {k : ℝ} (hk : eucl p (along (fixOrder e.1 e.2) k) ≤ 9 / 10 * t.nullDistance) : lineDist F l p < t.nullDistance := by
  obtain ⟨hd, hL, hM, hκ, hu, hv⟩ := pip_facts h hp
  obtain ⟨m1, -, hrep, hlen, l', hl', hn, k1, k2, k3⟩ := pip_edge h hp he
  rw [hl] at hl'; cases hl'
  obtain ⟨p1, p2⟩ := in_box_abs hp hin
  have er := lineDist_seg h hl hn hrep.2.2.1 hrep.2.2.2.1 k2 (p := p) (by linarith) (by linarith)
  generalize fixOrder e.1 e.2 = s at *
  have hL0 : 0 < eucl s.1 s.2 := lt_of_lt_of_le hp.L_pos hlen
  have c := computed_of_near hn er k
  have d : eucl p s.1 ≤ 3 / 4 * M := by
    have := eucl_le_3M (p := p) (q := s.1) ⟨p1, p2⟩ (hp.rep _ m1).2
    linarith
  obtain ⟨⟨x1, -⟩, x2, -⟩ := pip_box hp
  have hdM : t.nullDistance ≤ M / 4 := by linarith [(abs_le.1 x1).1, (abs_le.1 x2).2, hp.wide]
  have hkM : |k| * eucl s.1 s.2 ≤ M := by
    rw [← eucl_along_left]
    have := eucl_triangle s.1 p (along s k)
    rw [eucl_comm s.1 p] at this
    linarith
  have hk1 : |k| ≤ M / eucl s.1 s.2 := by rw [le_div_iff₀ hL0]; exact hkM
  have hk2 : |1 - k| + |k| ≤ 1 + 2 * (M / eucl s.1 s.2) := by
    have := abs_sub (1 : ℝ) k
    rw [abs_one] at this
    linarith
  have hu0 := h.u_nonneg
  have hρ : 0 ≤ 16 * u * M ^ 2 / eucl s.1 s.2 := by positivity
  have b0 := mul_le_mul_of_nonneg_right hk2 hρ
  have b1 : 2 * (M / eucl s.1 s.2) * (16 * u * M ^ 2 / eucl s.1 s.2) ≤ 32 * (u * M ^ 3 / L ^ 2) := by
    have e1 : 2 * (M / eucl s.1 s.2) * (16 * u * M ^ 2 / eucl s.1 s.2) = 32 * (u * M ^ 3 / eucl s.1 s.2 ^ 2) := by field_simp; ring
    rw [e1]
    have hL1 := hp.L_pos
    have : u * M ^ 3 / eucl s.1 s.2 ^ 2 ≤ u * M ^ 3 / L ^ 2 := div_le_div_of_nonneg_left (by positivity) (by positivity) (pow_le_pow_left₀ hL1.le hlen 2)
    linarith
  rw [add_mul (1 : ℝ), one_mul] at b0
  have := hp.num
  nlinarith

end ok

end H2d.Fl
