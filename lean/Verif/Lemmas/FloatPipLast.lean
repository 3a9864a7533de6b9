import Verif.Lemmas.FloatPipGeom

/-! # The answer of the point in polygon algorithm with rounded operations -/

namespace H2d.Fl
open H2d.Spec H2d.Pip

variable {F : Arith} {u v : ℝ} {ac : ℝ → ℝ} {t : Thr ℝ} {w M L S : ℝ} {pts : List (Pt ℝ)} {p lo hi : Pt ℝ}

theorem reach_nonneg (h : FlOk F u v) (hd : 0 ≤ t.nullDistance) {Λ : ℝ} (hΛ : 0 ≤ Λ) : 0 ≤ reach t u v Λ := by
  have hu := h.u_nonneg
  have hv := h.v_nonneg
  unfold reach slack
  positivity

/-- What is left of `lo.1` by the far end of the reference segment. -/
theorem ref_left (h : FlOk F u v) (hp : PipOk F t u v w M L S pts p lo hi) (n : ℕ) : (refPt F lo hi n).1 + 19 / 10 * t.nullDistance ≤ lo.1 := by
  obtain ⟨hd, hL, hM, hκ, hu, hv⟩ := pip_facts h hp
  have := (pip_ref h hp n).2.2
  have := hp.wide
  have := hp.num
  linarith

/-- No vertex is taken to be close to the reference segment: all are far from it. -/
theorem vertex_far (h : FlOk F u v) (hp : PipOk F t u v w M L S pts p lo hi) (hin : lo.1 < p.1 ∧ p.1 < hi.1 ∧ lo.2 < p.2 ∧ p.2 < hi.2) {n : ℕ} {x : Pt ℝ} (hx : x ∈ pts)
    (hc : vertexClose F t (fixOrder p (refPt F lo hi n)) x = false) {y : Pt ℝ} (hy : OnSeg p (refPt F lo hi n) y) : 19 / 20 * t.nullDistance ≤ eucl x y := by
  obtain ⟨hd, hL, hM, hκ, hu, hv⟩ := pip_facts h hp
  obtain ⟨-, hr, -⟩ := pip_ref h hp n
  obtain ⟨p1, p2⟩ := in_box_abs hp hin
  have hl := ref_left h hp n
  set q := refPt F lo hi n
  have hfix : fixOrder p q = (q, p) := by rw [fixOrder_comm]; exact fixOrder_of_lt (Or.inl (by linarith [hin.1]))
  have hne : q ≠ p := by intro e; rw [e] at hl; linarith [hin.1]
  obtain ⟨-, x1, x2⟩ := hp.rep x hx
  obtain ⟨d, k, c, e, -, -, -, -, hdd, -⟩ := segDist_main h hne hr ⟨p1.trans (by linarith), p2.trans (by linarith)⟩ (p := x) ⟨x1.trans (by linarith), x2.trans (by linarith)⟩
  rw [hfix] at hc
  unfold vertexClose at hc
  simp only [e, decide_eq_false_iff_not, not_lt] at hc
  have hs := (Props.C19_shortest (q, p) hne x).2 ⟨y, onSeg_swap hy, rfl⟩
  have := hp.num
  linarith [(abs_le.1 hdd).2]

/-- All the points of the reference segment are far from the vertex: it is not taken to be close. -/
theorem vertex_not_close (h : FlOk F u v) (hp : PipOk F t u v w M L S pts p lo hi) (hin : lo.1 < p.1 ∧ p.1 < hi.1 ∧ lo.2 < p.2 ∧ p.2 < hi.2) {n : ℕ} {x : Pt ℝ} (hx : x ∈ pts)
    (hy : ∀ y, OnSeg p (refPt F lo hi n) y → 11 / 10 * t.nullDistance ≤ eucl x y) : vertexClose F t (fixOrder p (refPt F lo hi n)) x = false := by
  obtain ⟨hd, hL, hM, hκ, hu, hv⟩ := pip_facts h hp
  obtain ⟨-, hr, -⟩ := pip_ref h hp n
  obtain ⟨p1, p2⟩ := in_box_abs hp hin
  have hl := ref_left h hp n
  set q := refPt F lo hi n
  have hfix : fixOrder p q = (q, p) := by rw [fixOrder_comm]; exact fixOrder_of_lt (Or.inl (by linarith [hin.1]))
  have hne : q ≠ p := by intro e; rw [e] at hl; linarith [hin.1]
  obtain ⟨-, x1, x2⟩ := hp.rep x hx
  obtain ⟨d, k, c, e, -, -, -, -, hdd, -⟩ := segDist_main h hne hr ⟨p1.trans (by linarith), p2.trans (by linarith)⟩ (p := x) ⟨x1.trans (by linarith), x2.trans (by linarith)⟩
  rw [hfix]
  unfold vertexClose
  simp only [e, decide_eq_false_iff_not, not_lt]
  obtain ⟨y, h1, h2⟩ := (Props.C19_shortest (q, p) hne x).1
  have := hy y (onSeg_swap h1)
  have := hp.num
  linarith [(abs_le.1 hdd).1]

/-- An edge and a reference segment are found to intersect when they have a common point. -/
theorem crossing_iff (h : FlOk F u v) (ha : AcosOk ac w) (hp : PipOk F t u v w M L S pts p lo hi) (hin : lo.1 < p.1 ∧ p.1 < hi.1 ∧ lo.2 < p.2 ∧ p.2 < hi.2) {n : ℕ} (n1 : 1 ≤ n) (n5 : n ≤ 5) {e : Seg} (he : e ∈ polyEdges pts)
    (hc : ∀ l, lineOfPts F t (fixOrder e.1 e.2).1 (fixOrder e.1 e.2).2 = .ok l → t.nullDistance ≤ lineDist F l p) (hv' : ∀ x ∈ pts, vertexClose F t (fixOrder p (refPt F lo hi n)) x = false) :
    ∃ i, Fl.segInter F t ac (fixOrder e.1 e.2) (fixOrder p (refPt F lo hi n)) = .ok i ∧ (i.isSome = true ↔ ∃ r, OnSeg e.1 e.2 r ∧ OnSeg p (refPt F lo hi n) r) := by
  obtain ⟨hd, hL, hM, hκ, hu, hv⟩ := pip_facts h hp
  obtain ⟨rr, hr, -⟩ := pip_ref h hp n
  obtain ⟨p1, p2⟩ := in_box_abs hp hin
  have hl := ref_left h hp n
  obtain ⟨g1, g2, g3⟩ := hp.refs n n1 n5
  have vf := fun x hx y hy => vertex_far h hp hin (x := x) hx (hv' x hx) (y := y) hy
  set q := refPt F lo hi n
  have hfix : fixOrder p q = (q, p) := by rw [fixOrder_comm]; exact fixOrder_of_lt (Or.inl (by linarith [hin.1]))
  obtain ⟨m1, m2, hrep, hlen, -⟩ := pip_edge h hp he
  have hrep' : SegRep F M (p, q) := ⟨hp.repP, rr, p1.trans (by linarith), p2.trans (by linarith), hr.1, hr.2⟩
  obtain ⟨i, hi⟩ := segInter_total h hp.eps ac (s := fixOrder e.1 e.2) (s' := fixOrder p q) hrep.1 hrep.2.1 (by rw [hfix]; exact rr) (by rw [hfix]; exact hp.repP) (by linarith) (by rw [eucl_fix]; linarith)
  refine ⟨i, hi, ?_⟩
  rcases g3 e he with hs | hfar
  · have hpair : SegPair F t u w M L S (fixOrder e.1 e.2) (fixOrder p q) := by
      have k1 := (hp.edges e he)
      have hrep0 : SegRep F M e := by
        obtain ⟨y1, y2⟩ := edges_mem he
        obtain ⟨a1, a2, a3⟩ := hp.rep _ y1
        obtain ⟨b1, b2, b3⟩ := hp.rep _ y2
        exact ⟨a1, b1, by linarith, by linarith, by linarith, by linarith⟩
      have : SegPair F t u w M L S e (p, q) := ⟨hrep0, hrep', k1.1, g1, hp.L_pos, k1.2, g2, hp.S_pos, hs, hp.small, hp.thr, hp.eps, hp.angle⟩
      exact this.fix
    have hnum := hp.num
    constructor
    · intro hsome
      by_contra hno
      obtain ⟨x, rfl⟩ := Option.isSome_iff_exists.1 hsome
      have hno' : ∀ k j, 0 ≤ k → k ≤ 1 → 0 ≤ j → j ≤ 1 → along (fixOrder e.1 e.2) k ≠ along (fixOrder p q) j := by
        intro k j k0 k1 j0 j1 hkj
        exact hno ⟨along (fixOrder e.1 e.2) k, onSeg_fix.1 ((onSeg_along _ _).2 ⟨k, k0, k1, rfl⟩), onSeg_fix.1 ((onSeg_along _ _).2 ⟨j, j0, j1, hkj⟩)⟩
      have vv : ∀ y ∈ pts, ∀ j, 0 ≤ j → j ≤ 1 → 19 / 20 * t.nullDistance ≤ eucl y (along (fixOrder p q) j) := by
        intro y hy j j0 j1
        exact vf y hy _ (onSeg_fix.1 ((onSeg_along _ _).2 ⟨j, j0, j1, rfl⟩))
      have hmin : ∀ k, -(6 * (u + v) * M + 11 / 20 * t.nullDistance) ≤ k * eucl (fixOrder e.1 e.2).1 (fixOrder e.1 e.2).2 →
          (k - 1) * eucl (fixOrder e.1 e.2).1 (fixOrder e.1 e.2).2 ≤ 6 * (u + v) * M + 11 / 20 * t.nullDistance →
          |1 - k| + |k| ≤ 3 ∧ lo.1 - (6 * (u + v) * M + 11 / 20 * t.nullDistance) ≤ (along (fixOrder e.1 e.2) k).1 := by
        intro k h0 h1
        have c1 := (hp.box.contains _ m1).1
        have c2 := (hp.box.contains _ m2).1
        have hβ : 6 * (u + v) * M + 11 / 20 * t.nullDistance ≤ t.nullDistance := by linarith
        have hβ0 : 0 ≤ 6 * (u + v) * M + 11 / 20 * t.nullDistance := by linarith
        generalize fixOrder e.1 e.2 = s at *
        generalize 6 * (u + v) * M + 11 / 20 * t.nullDistance = β at *
        have hl0 : 0 < eucl s.1 s.2 := lt_of_lt_of_le hp.L_pos hlen
        constructor
        · have a1 : -1 ≤ k := by
            by_contra hh
            have := mul_lt_mul_of_pos_right (not_le.1 hh) hl0
            linarith
          have a2 : k - 1 ≤ 1 := by
            by_contra hh
            have := mul_lt_mul_of_pos_right (not_le.1 hh) hl0
            linarith
          rcases abs_cases (1 - k) with ⟨q1, -⟩ | ⟨q1, -⟩ <;> rcases abs_cases k with ⟨q2, -⟩ | ⟨q2, -⟩ <;> rw [q1, q2] <;> linarith
        · rcases lt_or_ge k 0 with hk | hk
          · have a := abs_fst_le_eucl s.1 (along s k)
            rw [eucl_along_left, abs_of_neg hk] at a
            linarith [(abs_le.1 a).2]
          · rcases lt_or_ge 1 k with hk1 | hk1
            · have a := abs_fst_le_eucl s.2 (along s k)
              rw [eucl_along_right, abs_of_neg (show 1 - k < 0 by linarith)] at a
              linarith [(abs_le.1 a).2]
            · have : lo.1 ≤ s.1.1 + k * (s.2.1 - s.1.1) := by nlinarith
              show lo.1 - β ≤ s.1.1 + k * (s.2.1 - s.1.1)
              linarith
      have wq : ∀ k, -(6 * (u + v) * M + 11 / 20 * t.nullDistance) ≤ k * eucl (fixOrder e.1 e.2).1 (fixOrder e.1 e.2).2 →
          (k - 1) * eucl (fixOrder e.1 e.2).1 (fixOrder e.1 e.2).2 ≤ 6 * (u + v) * M + 11 / 20 * t.nullDistance → 19 / 20 * t.nullDistance ≤ eucl q (along (fixOrder e.1 e.2) k) := by
        intro k h0 h1
        have a := (hmin k h0 h1).2
        have b := abs_fst_le_eucl q (along (fixOrder e.1 e.2) k)
        linarith [(abs_le.1 b).1]
      have wp : ∀ k, -(6 * (u + v) * M + 11 / 20 * t.nullDistance) ≤ k * eucl (fixOrder e.1 e.2).1 (fixOrder e.1 e.2).2 →
          (k - 1) * eucl (fixOrder e.1 e.2).1 (fixOrder e.1 e.2).2 ≤ 6 * (u + v) * M + 11 / 20 * t.nullDistance → 19 / 20 * t.nullDistance ≤ eucl p (along (fixOrder e.1 e.2) k) := by
        intro k h0 h1
        exact edge_far h hp hin he hc (hmin k h0 h1).1
      exact cross_none h ha hpair hno' (vv _ m1) (vv _ m2) (by rw [hfix]; exact wq) (by rw [hfix]; exact wp) (by linarith) x hi
    · rintro ⟨r, r1, r2⟩
      obtain ⟨x, hx, -⟩ := Props.C116_found h ha hpair (P := r) (onSeg_fix.2 r1) (onSeg_fix.2 r2) (by linarith)
      rw [hi] at hx
      cases hx
      rfl
  · constructor
    · intro hsome
      obtain ⟨x, rfl⟩ := Option.isSome_iff_exists.1 hsome
      exfalso
      obtain ⟨b1, b2⟩ := segInter_some hi
      obtain ⟨y, hy, d1⟩ := between_near h hd.le (Λ := 3 * M) (lt_of_lt_of_le hp.L_pos hlen) (eucl_le_3M ⟨hrep.2.2.1, hrep.2.2.2.1⟩ hrep.2.2.2.2) b1
      obtain ⟨y', hy', d2⟩ := between_near h hd.le (Λ := 3 * M) (by rw [eucl_fix]; linarith) (by rw [eucl_fix]; exact eucl_le_3M ⟨hrep'.2.2.1, hrep'.2.2.2.1⟩ hrep'.2.2.2.2) b2
      have := hfar y y' (onSeg_fix.1 hy) (onSeg_fix.1 hy')
      have tr := eucl_triangle y x y'
      rw [eucl_comm y x] at tr
      linarith
    · rintro ⟨r, r1, r2⟩
      exfalso
      have := hfar r r r1 r2
      rw [eucl_self] at this
      linarith [reach_nonneg h hd.le (show 0 ≤ 3 * M by linarith)]

open Classical in
/-- The answer of the last step. -/
theorem last_answer (h : FlOk F u v) (ha : AcosOk ac w) (hp : PipOk F t u v w M L S pts p lo hi) (hin : lo.1 < p.1 ∧ p.1 < hi.1 ∧ lo.2 < p.2 ∧ p.2 < hi.2) {n : ℕ} (n1 : 1 ≤ n) (n5 : n ≤ 5)
    (hn : ∀ s ∈ (polyEdges pts).map (fun e => fixOrder e.1 e.2), ∀ li, lineOfPts F t s.1 s.2 = .ok li → t.nullDistance ≤ lineDist F li p)
    (hv' : ∀ x ∈ pts, vertexClose F t (fixOrder p (refPt F lo hi n)) x = false) :
    FarFromContour (19 / 20 * t.nullDistance) pts p ∧ ∃ c, Fl.pipCount F t ac (fixOrder p (refPt F lo hi n)) ((polyEdges pts).map fun e => fixOrder e.1 e.2) = .ok c ∧ (c % 2 = 1 ↔ EvenOdd pts p) := by
  obtain ⟨hd, hL, hM, hκ, hu, hv⟩ := pip_facts h hp
  have hl := ref_left h hp n
  have hfar : FarFromContour (19 / 20 * t.nullDistance) pts p := by
    intro e he y hy
    obtain ⟨k, k0, k1, rfl⟩ := (onSeg_along _ _).1 (onSeg_fix.2 hy)
    refine edge_far h hp hin he (fun li hli => hn _ (List.mem_map.2 ⟨e, he, rfl⟩) li hli) ?_
    rw [abs_of_nonneg k0, abs_of_nonneg (sub_nonneg.2 k1)]; linarith
  refine ⟨hfar, _, pipCount_eq (fun s => ∃ r, OnSeg s.1 s.2 r ∧ OnSeg p (refPt F lo hi n) r) _ ?_, ?_⟩
  · intro s hs
    obtain ⟨e, he, rfl⟩ := List.mem_map.1 hs
    obtain ⟨i, hi, hii⟩ := crossing_iff h ha hp hin n1 n5 he (fun li hli => hn _ hs li hli) hv'
    refine ⟨i, hi, ?_⟩
    rw [hii]
    simp only [onSeg_fix]
  · rw [List.countP_map]
    have : (polyEdges pts).countP ((fun s : Seg => decide (∃ r, OnSeg s.1 s.2 r ∧ OnSeg p (refPt F lo hi n) r)) ∘ fun e => fixOrder e.1 e.2) =
        (polyEdges pts).countP (fun e => decide (∃ r, OnSeg e.1 e.2 r ∧ OnSeg p (refPt F lo hi n) r)) := by
      apply List.countP_congr
      intro e _
      simp only [Function.comp, onSeg_fix]
    rw [this]
    refine parity (pts := pts) (p := p) (q := refPt F lo hi n) (by linarith [hin.1]) (fun x hx => by linarith [(hp.box.contains x hx).1]) ?_ ?_
    · intro x hx ho
      have := vertex_far h hp hin hx (hv' x hx) ho
      rw [eucl_self] at this
      linarith
    · intro e he ho
      have := hfar e he p ho
      rw [eucl_self] at this
      linarith

theorem edge_poly {P : Type} {pts : List P} {i : ℕ} {e : P × P} (he : Edge pts i e) : e ∈ polyEdges pts := by
  have := Simple.cyc_edge.2 he
  rw [cycPairs_eq] at this
  exact List.mem_of_getElem? this

theorem pip_edgesOk (h : FlOk F u v) (hp : PipOk F t u v w M L S pts p lo hi) : EdgesOk F t (3 * M) pts := by
  obtain ⟨hd, hL, hM, hκ, hu, hv⟩ := pip_facts h hp
  refine ⟨fun q hq => (hp.rep q hq).1, fun i e he => ?_⟩
  have hm := edge_poly he
  obtain ⟨y1, y2⟩ := edges_mem hm
  obtain ⟨-, a2, a3⟩ := hp.rep _ y1
  obtain ⟨-, b2, b3⟩ := hp.rep _ y2
  exact ⟨by linarith [(hp.edges e hm).2], eucl_le_3M ⟨by linarith, by linarith⟩ ⟨by linarith, by linarith⟩⟩

/-- Lower bound of the rounded value of a number. -/
theorem rnd_ge_half (h : FlOk F u v) {x d : ℝ} (hd : 0 < d) (hx : 2 * d ≤ |x|) : d ≤ |F.rnd x| := by
  have a := h.err x
  have b := h.u_small
  have c := abs_sub_abs_le_abs_sub x (F.rnd x)
  rw [abs_sub_comm] at c
  have := mul_le_mul_of_nonneg_right b (abs_nonneg x)
  linarith

theorem box_ok (h : FlOk F u v) (hp : PipOk F t u v w M L S pts p lo hi) (ho : 0 < t.nullOrthogDistance) (hl : 2 ≤ pts.length)
    (w1 : 2 * max t.nullDistance t.nullOrthogDistance ≤ hi.1 - lo.1) (w2 : 2 * max t.nullDistance t.nullOrthogDistance ≤ hi.2 - lo.2) : Fl.polyGetBB F t pts = .ok ⟨lo, hi⟩ := by
  obtain ⟨hd, hL, hM, hκ, hu, hv⟩ := pip_facts h hp
  have m1 := le_max_left t.nullDistance t.nullOrthogDistance
  have m2 := le_max_right t.nullDistance t.nullOrthogDistance
  rw [polyGetBB_form t hl hp.box, if_neg, if_neg]
  · rintro (k | k)
    · exact absurd (rnd_ge_half h ho (x := lo.1 - hi.1) (by rw [abs_sub_comm, abs_of_nonneg] <;> linarith)) (not_le.2 k)
    · exact absurd (rnd_ge_half h ho (x := lo.2 - hi.2) (by rw [abs_sub_comm, abs_of_nonneg] <;> linarith)) (not_le.2 k)
  · apply far_not_same h t _ hd
    refine le_trans ?_ (abs_fst_le_eucl lo hi)
    rw [abs_sub_comm, abs_of_nonneg] <;> linarith

/-- The extended bounding box is built. -/
theorem ext_ok (h : FlOk F u v) (hp : PipOk F t u v w M L S pts p lo hi) (ho : 0 < t.nullOrthogDistance)
    (w1 : 2 * max t.nullDistance t.nullOrthogDistance ≤ hi.1 - lo.1) (w2 : 2 * max t.nullDistance t.nullOrthogDistance ≤ hi.2 - lo.2) :
    ∃ ext l, Fl.getExtended F t ⟨lo, hi⟩ = .ok ext ∧ Fl.rectSegs F t ext = .ok (((F.rnd (2 * lo.1 - hi.1), F.rnd (2 * lo.2 - hi.2)), (F.rnd (2 * lo.1 - hi.1), refY F lo hi 0)) :: l) := by
  obtain ⟨hd, hL, hM, hκ, hu, hv⟩ := pip_facts h hp
  have hnum := hp.num
  have m1 := le_max_left t.nullDistance t.nullOrthogDistance
  have m2 := le_max_right t.nullDistance t.nullOrthogDistance
  obtain ⟨⟨a1, a2⟩, b1, b2⟩ := pip_box hp
  rw [abs_le] at a1 a2 b1 b2
  have hu0 := h.u_nonneg
  have er : ∀ x, |x| ≤ 3 / 4 * M → |F.rnd x - x| ≤ u * M := fun x hx => by
    have := h.err x
    have := mul_le_mul_of_nonneg_left hx hu0
    linarith
  have c1 := abs_le.1 (er (2 * lo.1 - hi.1) (by rw [abs_le]; constructor <;> linarith))
  have c2 := abs_le.1 (er (2 * lo.2 - hi.2) (by rw [abs_le]; constructor <;> linarith))
  have c3 := abs_le.1 (er (2 * hi.1 - lo.1) (by rw [abs_le]; constructor <;> linarith))
  have c4 := abs_le.1 (er (2 * hi.2 - lo.2) (by rw [abs_le]; constructor <;> linarith))
  have W : 2 * max t.nullDistance t.nullOrthogDistance ≤ F.rnd (2 * hi.1 - lo.1) - F.rnd (2 * lo.1 - hi.1) := by linarith
  have H : 2 * max t.nullDistance t.nullOrthogDistance ≤ F.rnd (2 * hi.2 - lo.2) - F.rnd (2 * lo.2 - hi.2) := by linarith
  obtain ⟨_, x1, y1⟩ := hp.box.left
  obtain ⟨_, x2, y2⟩ := hp.box.right
  obtain ⟨_, x3, y3⟩ := hp.box.bottom
  obtain ⟨_, x4, y4⟩ := hp.box.top
  have dbl : ∀ x, Rep F x → F.rnd (x * 2) = 2 * x := fun x hx => by rw [mul_comm, rnd_two h, show F.rnd x = x from hx]
  have d1 := dbl lo.1 (y1 ▸ (hp.rep _ x1).1.1)
  have d2 := dbl hi.1 (y2 ▸ (hp.rep _ x2).1.1)
  have d3 := dbl lo.2 (y3 ▸ (hp.rep _ x3).1.2)
  have d4 := dbl hi.2 (y4 ▸ (hp.rep _ x4).1.2)
  have hE : Fl.getExtended F t ⟨lo, hi⟩ = rectOfPts F t (F.rnd (2 * lo.1 - hi.1), F.rnd (2 * lo.2 - hi.2)) (F.rnd (2 * hi.1 - lo.1), F.rnd (2 * hi.2 - lo.2)) := by
    unfold Fl.getExtended
    simp only [d1, d2, d3, d4]
  rw [hE, show refY F lo hi 0 = F.rnd (2 * hi.2 - lo.2) from rfl]
  clear hE d1 d2 d3 d4 c1 c2 c3 c4
  generalize F.rnd (2 * lo.1 - hi.1) = X at *
  generalize F.rnd (2 * hi.1 - lo.1) = X' at *
  generalize F.rnd (2 * lo.2 - hi.2) = Y at *
  generalize F.rnd (2 * hi.2 - lo.2) = Y' at *
  have hx : ∀ y : ℝ, 2 * t.nullDistance ≤ eucl (X, y) (X', y) := fun y => by
    refine le_trans ?_ (abs_fst_le_eucl (X, y) (X', y))
    simp only
    rw [abs_sub_comm, abs_of_nonneg] <;> linarith
  have hy : ∀ x : ℝ, 2 * t.nullDistance ≤ eucl (x, Y) (x, Y') := fun x => by
    refine le_trans ?_ (abs_snd_le_eucl (x, Y) (x, Y'))
    simp only
    rw [abs_sub_comm, abs_of_nonneg] <;> linarith
  refine ⟨⟨(X, Y), (X', Y')⟩, [fixOrder (X, Y') (X', Y'), fixOrder (X', Y') (X', Y), fixOrder (X', Y) (X, Y)], ?_, ?_⟩
  · unfold rectOfPts
    rw [if_neg, min_eq_left (by simp only; linarith), min_eq_left (by simp only; linarith), max_eq_right (by simp only; linarith), max_eq_right (by simp only; linarith)]
    rintro (k | k)
    · exact absurd (rnd_ge_half h ho (x := X - X') (by rw [abs_sub_comm, abs_of_nonneg] <;> linarith)) (not_le.2 k)
    · exact absurd (rnd_ge_half h ho (x := Y - Y') (by rw [abs_sub_comm, abs_of_nonneg] <;> linarith)) (not_le.2 k)
  · unfold Fl.rectSegs
    simp only
    rw [segMake_ok h hd (hy X), segMake_ok h hd (hx Y'), segMake_ok h hd (by rw [eucl_comm]; exact hy X'), segMake_ok h hd (by rw [eucl_comm]; exact hx Y), fixOrder_self_le (show Y ≤ Y' by linarith)]
    rfl

/-- An answer is given when no vertex is close to the first reference segment. -/
theorem answer_first (h : FlOk F u v) (ha : AcosOk ac w) (hp : PipOk F t u v w M L S pts p lo hi) (ho : 0 < t.nullOrthogDistance)
    (w1 : 2 * max t.nullDistance t.nullOrthogDistance ≤ hi.1 - lo.1) (w2 : 2 * max t.nullDistance t.nullOrthogDistance ≤ hi.2 - lo.2) (hs : simpleF F t ac true pts = .ok true)
    (hin : lo.1 < p.1 ∧ p.1 < hi.1 ∧ lo.2 < p.2 ∧ p.2 < hi.2) (hv' : ∀ x ∈ pts, vertexClose F t (fixOrder p (refPt F lo hi 1)) x = false) : ∃ b, Fl.ptInsidePoly F t ac true pts p = .ok b := by
  obtain ⟨hd, hL, hM, hκ, hu, hv⟩ := pip_facts h hp
  have h3 := (simple_length hs).1
  unfold Fl.ptInsidePoly
  rw [hs, Res.bind_ok, box_ok h hp ho (by omega) w1 w2]
  simp only [Bool.not_true, Bool.false_eq_true, if_false, Res.bind_ok]
  rw [(insideRect_iff p ⟨lo, hi⟩).2 hin, segPairs_edges h3, polySegs_fix h hd _ fun e he => by linarith [(hp.edges e he).2]]
  simp only [Bool.not_true, Bool.false_eq_true, if_false, Res.bind_ok]
  have hlines : ∀ s ∈ (polyEdges pts).map (fun e => fixOrder e.1 e.2), ∃ li, lineOfPts F t s.1 s.2 = .ok li := by
    intro s hs
    obtain ⟨e, he, rfl⟩ := List.mem_map.1 hs
    obtain ⟨-, -, -, -, l, hl, -⟩ := pip_edge h hp he
    exact ⟨l, hl⟩
  rcases nearLine_cases (p := p) hlines with ⟨e, hn⟩ | ⟨e, -⟩
  · obtain ⟨-, c, hc, -⟩ := last_answer (ac := ac) h ha hp hin (le_refl 1) (by norm_num) hn hv'
    obtain ⟨ext, l, e1, e2⟩ := ext_ok h hp ho w1 w2
    refine ⟨decide (c % 2 = 1), ?_⟩
    rw [e, Res.bind_ok]
    simp only [Bool.false_eq_true, if_false]
    rw [e1, Res.bind_ok, e2, Res.bind_ok]
    exact pipLoop_first h lo hi hd (by linarith [(hp.refs 1 (le_refl 1) (by norm_num)).2.1]) hv' hc
  · rw [e]; exact ⟨_, rfl⟩

theorem nearLine_not_far (h : FlOk F u v) (hp : PipOk F t u v w M L S pts p lo hi) (hx : 2000 * (u * M ^ 3 / L ^ 2) ≤ t.nullDistance) (hin : lo.1 < p.1 ∧ p.1 < hi.1 ∧ lo.2 < p.2 ∧ p.2 < hi.2)
    (hf : FarFromLines (11 / 10 * t.nullDistance) pts p) : Fl.nearLine F t p ((polyEdges pts).map fun e => fixOrder e.1 e.2) ≠ .ok true := by
  intro hn
  have hlines : ∀ s ∈ (polyEdges pts).map (fun e => fixOrder e.1 e.2), ∃ li, lineOfPts F t s.1 s.2 = .ok li := by
    intro s hs
    obtain ⟨e, he, rfl⟩ := List.mem_map.1 hs
    obtain ⟨-, -, -, -, l, hl, -⟩ := pip_edge h hp he
    exact ⟨l, hl⟩
  rcases nearLine_cases (p := p) hlines with ⟨e, -⟩ | ⟨-, s, hs, li, hl, hd⟩
  · rw [hn] at e; cases e
  · obtain ⟨e, he, rfl⟩ := List.mem_map.1 hs
    obtain ⟨k, hk⟩ := line_near h hp hx hin he hl hd
    obtain ⟨k', hk'⟩ : ∃ k', along (fixOrder e.1 e.2) k = along e k' := by
      rcases fixOrder_cases e.1 e.2 with q | q <;> rw [q]
      · exact ⟨k, rfl⟩
      · exact ⟨1 - k, along_swap e k⟩
    rw [hk'] at hk
    exact absurd (hf e he k') (not_le.2 hk)

theorem nearLine_close (h : FlOk F u v) (hp : PipOk F t u v w M L S pts p lo hi) (hx : 2000 * (u * M ^ 3 / L ^ 2) ≤ t.nullDistance) (hin : lo.1 < p.1 ∧ p.1 < hi.1 ∧ lo.2 < p.2 ∧ p.2 < hi.2)
    {e : Seg} (he : e ∈ polyEdges pts) {k : ℝ} (hk : eucl p (along e k) ≤ 9 / 10 * t.nullDistance) : Fl.nearLine F t p ((polyEdges pts).map fun e => fixOrder e.1 e.2) = .ok true := by
  have hlines : ∀ s ∈ (polyEdges pts).map (fun e => fixOrder e.1 e.2), ∃ li, lineOfPts F t s.1 s.2 = .ok li := by
    intro s hs
    obtain ⟨e, he, rfl⟩ := List.mem_map.1 hs
    obtain ⟨-, -, -, -, l, hl, -⟩ := pip_edge h hp he
    exact ⟨l, hl⟩
  rcases nearLine_cases (p := p) hlines with ⟨-, hn⟩ | ⟨q, -⟩
  · exfalso
    obtain ⟨-, -, -, -, l, hl, -⟩ := pip_edge h hp he
    obtain ⟨k', hk'⟩ : ∃ k', along e k = along (fixOrder e.1 e.2) k' := by
      rcases fixOrder_cases e.1 e.2 with q | q <;> rw [q]
      · exact ⟨k, rfl⟩
      · exact ⟨1 - k, by rw [show ((e.1, e.2) : Seg) = e from rfl, along_swap]; congr 1; ring⟩
    rw [hk'] at hk
    exact absurd (hn _ (List.mem_map.2 ⟨e, he, rfl⟩) l hl) (not_le.2 (near_line h hp hx hin he hl hk))
  · exact q

theorem nearLine_false (h : FlOk F u v) (hp : PipOk F t u v w M L S pts p lo hi) (hn : Fl.nearLine F t p ((polyEdges pts).map fun e => fixOrder e.1 e.2) = .ok false) :
    ∀ s ∈ (polyEdges pts).map (fun e => fixOrder e.1 e.2), ∀ li, lineOfPts F t s.1 s.2 = .ok li → t.nullDistance ≤ lineDist F li p := by
  have hlines : ∀ s ∈ (polyEdges pts).map (fun e => fixOrder e.1 e.2), ∃ li, lineOfPts F t s.1 s.2 = .ok li := by
    intro s hs
    obtain ⟨e, he, rfl⟩ := List.mem_map.1 hs
    obtain ⟨-, -, -, -, l, hl, -⟩ := pip_edge h hp he
    exact ⟨l, hl⟩
  rcases nearLine_cases (p := p) hlines with ⟨-, q⟩ | ⟨e, -⟩
  · exact q
  · rw [hn] at e; cases e

theorem answer_not_simple (hs : simpleF F t ac true pts = .ok false) : Fl.ptInsidePoly F t ac true pts p = .ok false := by
  unfold Fl.ptInsidePoly
  rw [hs, Res.bind_ok]
  rfl

theorem answer_outside (h : FlOk F u v) (hp : PipOk F t u v w M L S pts p lo hi) (ho : 0 < t.nullOrthogDistance)
    (w1 : 2 * max t.nullDistance t.nullOrthogDistance ≤ hi.1 - lo.1) (w2 : 2 * max t.nullDistance t.nullOrthogDistance ≤ hi.2 - lo.2) (hs : simpleF F t ac true pts = .ok true)
    (hin : ¬ (lo.1 < p.1 ∧ p.1 < hi.1 ∧ lo.2 < p.2 ∧ p.2 < hi.2)) : Fl.ptInsidePoly F t ac true pts p = .ok false := by
  have h3 := (simple_length hs).1
  unfold Fl.ptInsidePoly
  rw [hs, Res.bind_ok, box_ok h hp ho (by omega) w1 w2]
  simp only [Bool.not_true, Bool.false_eq_true, if_false, Res.bind_ok]
  rw [show Pt.isInsideRect p ⟨lo, hi⟩ = false from Bool.eq_false_iff.2 fun k => hin ((insideRect_iff p ⟨lo, hi⟩).1 k)]
  rfl

theorem answer_near (h : FlOk F u v) (hp : PipOk F t u v w M L S pts p lo hi) (ho : 0 < t.nullOrthogDistance)
    (w1 : 2 * max t.nullDistance t.nullOrthogDistance ≤ hi.1 - lo.1) (w2 : 2 * max t.nullDistance t.nullOrthogDistance ≤ hi.2 - lo.2) (hs : simpleF F t ac true pts = .ok true)
    (hin : lo.1 < p.1 ∧ p.1 < hi.1 ∧ lo.2 < p.2 ∧ p.2 < hi.2) (hn : Fl.nearLine F t p ((polyEdges pts).map fun e => fixOrder e.1 e.2) = .ok true) : Fl.ptInsidePoly F t ac true pts p = .ok false := by
  obtain ⟨hd, hL, hM, hκ, hu, hv⟩ := pip_facts h hp
  have h3 := (simple_length hs).1
  unfold Fl.ptInsidePoly
  rw [hs, Res.bind_ok, box_ok h hp ho (by omega) w1 w2]
  simp only [Bool.not_true, Bool.false_eq_true, if_false, Res.bind_ok]
  rw [(insideRect_iff p ⟨lo, hi⟩).2 hin, segPairs_edges h3, polySegs_fix h hd _ fun e he => by linarith [(hp.edges e he).2]]
  simp only [Bool.not_true, Bool.false_eq_true, if_false, Res.bind_ok]
  rw [hn]
  rfl

end H2d.Fl
