import Verif.Lemmas.FloatPipLast

/-! # The rounds of the point in polygon algorithm with rounded operations -/

namespace H2d.Fl
open H2d.Spec H2d.Pip

variable {F : Arith} {u v : ℝ} {ac : ℝ → ℝ} {t : Thr ℝ} {w M L S : ℝ} {pts : List (Pt ℝ)} {p lo hi : Pt ℝ}

/-- A vertex that is close to the reference segment is taken to be close. -/
theorem vertex_close (h : FlOk F u v) (hp : PipOk F t u v w M L S pts p lo hi) (hin : lo.1 < p.1 ∧ p.1 < hi.1 ∧ lo.2 < p.2 ∧ p.2 < hi.2) {n : ℕ} {x : Pt ℝ} (hx : x ∈ pts)
    {y : Pt ℝ} (hy : OnSeg p (refPt F lo hi n) y) (hxy : eucl x y ≤ 9 / 10 * t.nullDistance) : vertexClose F t (fixOrder p (refPt F lo hi n)) x = true := by
  by_contra hc
  have := vertex_far h hp hin hx (by simpa using hc) hy
  have := (pip_facts h hp).1
  linarith

/-- A segment on the border of a rectangle, at a distance at least `d` of `p`, of length at least `ℓ`. -/
def Border (F : Arith) (B d ℓ : ℝ) (p : Pt ℝ) (s : Seg) : Prop :=
  (s.1.1 = s.2.1 ∧ Rep F s.1.1 ∧ d ≤ |p.1 - s.1.1| ∧ |s.1.2| ≤ B ∧ |s.2.2| ≤ B ∧ ℓ ≤ |s.1.2 - s.2.2|) ∨
  (s.1.2 = s.2.2 ∧ Rep F s.1.2 ∧ d ≤ |p.2 - s.1.2| ∧ |s.1.1| ≤ B ∧ |s.2.1| ≤ B ∧ ℓ ≤ |s.1.1 - s.2.1|)

theorem Border.swap {B d ℓ : ℝ} {a b : Pt ℝ} (h : Border F B d ℓ p (a, b)) : Border F B d ℓ p (b, a) := by
  rcases h with ⟨e, r, k, b1, b2, l⟩ | ⟨e, r, k, b1, b2, l⟩
  · simp only at e r k b1 b2 l
    exact Or.inl ⟨e.symm, e ▸ r, e ▸ k, b2, b1, by rwa [abs_sub_comm]⟩
  · simp only at e r k b1 b2 l
    exact Or.inr ⟨e.symm, e ▸ r, e ▸ k, b2, b1, by rwa [abs_sub_comm]⟩

theorem Border.fix {B d ℓ : ℝ} {a b : Pt ℝ} (h : Border F B d ℓ p (a, b)) : Border F B d ℓ p (fixOrder a b) := by
  rcases fixOrder_cases a b with e | e <;> rw [e]
  · exact h
  · exact h.swap

theorem mid_same (h : FlOk F u v) {x : ℝ} (hx : Rep F x) : F.rnd (F.rnd (x + x) / 2) = x := by
  rw [← two_mul, rnd_two h, show F.rnd x = x from hx, mul_div_cancel_left₀ _ (by norm_num : (2 : ℝ) ≠ 0)]; exact hx

/-- Middle of an interval. -/
theorem mid_split (h : FlOk F u v) {x y B : ℝ} (hB : Rep F B) (hx : |x| ≤ B) (hy : |y| ≤ B) : |F.rnd (F.rnd (x + y) / 2)| ≤ B ∧
    |x - y| / 2 - u * B ≤ |x - F.rnd (F.rnd (x + y) / 2)| ∧ |x - y| / 2 - u * B ≤ |F.rnd (F.rnd (x + y) / 2) - y| := by
  rw [h.half, h.idem]
  have e := h.err (x + y)
  have hu := h.u_nonneg
  have up : F.rnd (x + y) ≤ 2 * B := by
    have := h.mono (show x + y ≤ 2 * B by linarith [(abs_le.1 hx).2, (abs_le.1 hy).2])
    rwa [rnd_two h, show F.rnd B = B from hB] at this
  have dn : -(2 * B) ≤ F.rnd (x + y) := by
    have := h.mono (show -(2 * B) ≤ x + y by linarith [(abs_le.1 hx).1, (abs_le.1 hy).1])
    rwa [h.odd, rnd_two h, show F.rnd B = B from hB] at this
  have s : |x + y| ≤ 2 * B := (abs_add_le x y).trans (by linarith)
  have := mul_le_mul_of_nonneg_left s hu
  generalize F.rnd (x + y) = z at *
  refine ⟨?_, ?_, ?_⟩
  · rw [abs_le]
    constructor <;> linarith
  · rcases abs_cases (x - y) with ⟨q, -⟩ | ⟨q, -⟩ <;> rw [q] <;> rw [abs_le] at e
    · exact le_trans (by linarith [e.1, e.2]) (le_abs_self _)
    · exact le_trans (by linarith [e.1, e.2]) (neg_le_abs _)
  · rcases abs_cases (x - y) with ⟨q, -⟩ | ⟨q, -⟩ <;> rw [q] <;> rw [abs_le] at e
    · exact le_trans (by linarith [e.1, e.2]) (le_abs_self _)
    · exact le_trans (by linarith [e.1, e.2]) (neg_le_abs _)

theorem Border.dist (h : FlOk F u v) {B d ℓ : ℝ} {s : Seg} (hs : Border F B d ℓ p s) : d ≤ eucl p (center F s.1 s.2) := by
  rcases hs with ⟨e, r, k, -⟩ | ⟨e, r, k, -⟩
  · refine k.trans (le_trans (le_of_eq ?_) (abs_fst_le_eucl _ _))
    show _ = |p.1 - F.rnd (F.rnd (s.1.1 + s.2.1) / 2)|
    rw [← e, mid_same h r]
  · refine k.trans (le_trans (le_of_eq ?_) (abs_snd_le_eucl _ _))
    show _ = |p.2 - F.rnd (F.rnd (s.1.2 + s.2.2) / 2)|
    rw [← e, mid_same h r]

theorem Border.length {B d ℓ : ℝ} {s : Seg} (hs : Border F B d ℓ p s) : ℓ ≤ eucl s.1 s.2 := by
  rcases hs with ⟨-, -, -, -, -, k⟩ | ⟨-, -, -, -, -, k⟩
  · exact k.trans (abs_snd_le_eucl _ _)
  · exact k.trans (abs_fst_le_eucl _ _)

theorem Border.split (h : FlOk F u v) {B d ℓ : ℝ} (hB : Rep F B) {s : Seg} (hs : Border F B d ℓ p s) :
    Border F B d (ℓ / 2 - u * B) p (s.1, center F s.1 s.2) ∧ Border F B d (ℓ / 2 - u * B) p (center F s.1 s.2, s.2) := by
  have hu := h.u_nonneg
  rcases hs with ⟨e, r, k, b1, b2, l⟩ | ⟨e, r, k, b1, b2, l⟩
  · obtain ⟨m1, m2, m3⟩ := mid_split h hB b1 b2
    have c1 : (center F s.1 s.2).1 = s.1.1 := by show F.rnd (F.rnd (s.1.1 + s.2.1) / 2) = _; rw [← e, mid_same h r]
    exact ⟨Or.inl ⟨c1.symm, r, k, b1, m1, le_trans (by linarith) m2⟩, Or.inl ⟨c1.trans e, by rw [c1]; exact r, by rw [c1]; exact k, m1, b2, le_trans (by linarith) m3⟩⟩
  · obtain ⟨m1, m2, m3⟩ := mid_split h hB b1 b2
    have c1 : (center F s.1 s.2).2 = s.1.2 := by show F.rnd (F.rnd (s.1.2 + s.2.2) / 2) = _; rw [← e, mid_same h r]
    exact ⟨Or.inr ⟨c1.symm, r, k, b1, m1, le_trans (by linarith) m2⟩, Or.inr ⟨c1.trans e, by rw [c1]; exact r, by rw [c1]; exact k, m1, b2, le_trans (by linarith) m3⟩⟩

/-- A round splits all the segments. -/
theorem splitAll_ok (h : FlOk F u v) (hd : 0 < t.nullDistance) {B d ℓ : ℝ} (hB : Rep F B) (hl : 2 * t.nullDistance ≤ ℓ / 2 - u * B) : ∀ l : List Seg, (∀ s ∈ l, Border F B d ℓ p s) →
    ∃ r, Fl.splitAll F t l = .ok r ∧ ∀ s ∈ r, Border F B d (ℓ / 2 - u * B) p s
  | [], _ => ⟨[], rfl, by simp⟩
  | s :: l, H => by
    obtain ⟨r, e, k⟩ := splitAll_ok h hd hB hl l fun s' hs' => H s' (List.mem_cons_of_mem _ hs')
    obtain ⟨k1, k2⟩ := (H s List.mem_cons_self).split h hB
    refine ⟨fixOrder s.1 (center F s.1 s.2) :: fixOrder (center F s.1 s.2) s.2 :: r, ?_, ?_⟩
    · unfold Fl.splitAll
      rw [segMake_ok h hd (hl.trans k1.length), Res.bind_ok, segMake_ok h hd (hl.trans k2.length), Res.bind_ok, e]
      rfl
    · intro s' hs'
      rcases List.mem_cons.1 hs' with rfl | hs'
      · exact k1.fix
      · rcases List.mem_cons.1 hs' with rfl | hs'
        · exact k2.fix
        · exact k s' hs'

theorem pipTry_skip (h : FlOk F u v) (hd : 0 < t.nullDistance) {segs : List Seg} : ∀ l : List Seg, (∀ s ∈ l, 2 * t.nullDistance ≤ eucl p (center F s.1 s.2)) → Fl.pipTry F t ac pts segs p l true = .ok none
  | [], _ => rfl
  | s :: l, H => by
    unfold Fl.pipTry
    rw [segMake_ok h hd (H s List.mem_cons_self), Res.bind_ok]
    simp only [Bool.true_or, if_true]
    exact pipTry_skip h hd l fun s' hs' => H s' (List.mem_cons_of_mem _ hs')

theorem pipTry_none (h : FlOk F u v) (hd : 0 < t.nullDistance) {segs : List Seg} {s : Seg} {l : List Seg} (H : ∀ s' ∈ s :: l, 2 * t.nullDistance ≤ eucl p (center F s'.1 s'.2))
    (hc : ∃ x ∈ pts, vertexClose F t (fixOrder p (center F s.1 s.2)) x = true) : Fl.pipTry F t ac pts segs p (s :: l) false = .ok none := by
  unfold Fl.pipTry
  rw [segMake_ok h hd (H s List.mem_cons_self), Res.bind_ok]
  have : pts.any (vertexClose F t (fixOrder p (center F s.1 s.2))) = true := List.any_eq_true.2 hc
  simp only [this, Bool.or_true, if_true]
  exact pipTry_skip h hd l fun s' hs' => H s' (List.mem_cons_of_mem _ hs')

/-- The rounds, from the round `m + 1`, when `n + 1` rounds are left: an answer is given as soon as no vertex is close to the reference segment. -/
theorem pipLoop_retry (h : FlOk F u v) (hd : 0 < t.nullDistance) (hle : lo.2 ≤ hi.2) {segs : List Seg} {B d : ℝ} (hB : Rep F B) (hB0 : 0 ≤ B) (hdd : 2 * t.nullDistance ≤ d) : ∀ (n m : ℕ) (l : List Seg) {ℓ : ℝ},
    2 ^ n * (2 * t.nullDistance + 2 * (u * B)) - 2 * (u * B) ≤ ℓ →
    (∀ s ∈ ((F.rnd (2 * lo.1 - hi.1), F.rnd (2 * lo.2 - hi.2)), (F.rnd (2 * lo.1 - hi.1), refY F lo hi m)) :: l, Border F B d ℓ p s) →
    (∀ j, m + 1 ≤ j → j ≤ m + n + 1 → (∀ x ∈ pts, vertexClose F t (fixOrder p (refPt F lo hi j)) x = false) → ∃ c, Fl.pipCount F t ac (fixOrder p (refPt F lo hi j)) segs = .ok c) →
    (∃ j, m + 1 ≤ j ∧ j ≤ m + n + 1 ∧ ∀ x ∈ pts, vertexClose F t (fixOrder p (refPt F lo hi j)) x = false) →
    ∃ b, Fl.pipLoop F t ac pts segs p (n + 1) (((F.rnd (2 * lo.1 - hi.1), F.rnd (2 * lo.2 - hi.2)), (F.rnd (2 * lo.1 - hi.1), refY F lo hi m)) :: l) = .ok b
  | n, m, l, ℓ, hl, H, hc, he => by
    have hcen := center_ref h lo hi m
    have hfar : ∀ s' ∈ ((F.rnd (2 * lo.1 - hi.1), F.rnd (2 * lo.2 - hi.2)), (F.rnd (2 * lo.1 - hi.1), refY F lo hi m)) :: l, 2 * t.nullDistance ≤ eucl p (center F s'.1 s'.2) :=
      fun s' hs' => hdd.trans ((H s' hs').dist h)
    by_cases hm : ∀ x ∈ pts, vertexClose F t (fixOrder p (refPt F lo hi (m + 1))) x = false
    · obtain ⟨c, e⟩ := hc (m + 1) (le_refl _) (by omega) hm
      refine ⟨decide (c % 2 = 1), ?_⟩
      unfold Fl.pipLoop
      rw [pipTry_first h hd (hfar _ List.mem_cons_self) (by rw [hcen]; exact hm) (by rw [hcen]; exact e)]
      rfl
    · obtain ⟨j, j1, j2, hj⟩ := he
      have hjm : j ≠ m + 1 := by rintro rfl; exact hm hj
      obtain ⟨n, rfl⟩ : ∃ k, n = k + 1 := ⟨n - 1, by omega⟩
      push Not at hm
      obtain ⟨x, hx, hxc⟩ := hm
      have hxc : vertexClose F t (fixOrder p (refPt F lo hi (m + 1))) x = true := by simpa using hxc
      have hp2 : (1 : ℝ) ≤ 2 ^ n := one_le_pow₀ (by norm_num)
      have huB := mul_nonneg h.u_nonneg hB0
      have hl2 : 2 ^ n * (2 * t.nullDistance + 2 * (u * B)) - 2 * (u * B) ≤ ℓ / 2 - u * B := by rw [pow_succ] at hl; linarith
      have hl3 : 2 * t.nullDistance ≤ ℓ / 2 - u * B := by
        have := mul_le_mul_of_nonneg_right hp2 (show 0 ≤ 2 * t.nullDistance + 2 * (u * B) by positivity)
        linarith
      obtain ⟨k1, k2⟩ := (H _ List.mem_cons_self).split h hB
      obtain ⟨r, er, kr⟩ := splitAll_ok h hd hB hl3 l fun s' hs' => H s' (List.mem_cons_of_mem _ hs')
      have hsp : Fl.splitAll F t (((F.rnd (2 * lo.1 - hi.1), F.rnd (2 * lo.2 - hi.2)), (F.rnd (2 * lo.1 - hi.1), refY F lo hi m)) :: l) =
          .ok (((F.rnd (2 * lo.1 - hi.1), F.rnd (2 * lo.2 - hi.2)), (F.rnd (2 * lo.1 - hi.1), refY F lo hi (m + 1))) :: fixOrder (refPt F lo hi (m + 1)) (F.rnd (2 * lo.1 - hi.1), refY F lo hi m) :: r) := by
        unfold Fl.splitAll
        rw [segMake_ok h hd (hl3.trans k1.length), Res.bind_ok, segMake_ok h hd (hl3.trans k2.length), Res.bind_ok, er, hcen]
        unfold refPt
        rw [fixOrder_self_le (refY_low h lo hi hle _)]
        rfl
      rw [hcen] at k1 k2
      have ih := pipLoop_retry h hd hle hB hB0 hdd n (m + 1) (fixOrder (refPt F lo hi (m + 1)) (F.rnd (2 * lo.1 - hi.1), refY F lo hi m) :: r) hl2 (by
          intro s' hs'
          rcases List.mem_cons.1 hs' with rfl | hs'
          · exact k1
          · rcases List.mem_cons.1 hs' with rfl | hs'
            · exact k2.fix
            · exact kr s' hs') (fun j q1 q2 => hc j (by omega) (by omega)) ⟨j, by omega, by omega, hj⟩
      obtain ⟨b, hb⟩ := ih
      refine ⟨b, ?_⟩
      unfold Fl.pipLoop
      rw [pipTry_none h hd hfar ⟨x, hx, by rw [hcen]; exact hxc⟩, Res.bind_ok]
      simp only [Nat.add_eq_zero_iff, one_ne_zero, and_false, if_false]
      rw [hsp, Res.bind_ok]
      exact hb

theorem rep_abs (h : FlOk F u v) {x : ℝ} (hx : Rep F x) : Rep F |x| := by
  rcases abs_cases x with ⟨e, -⟩ | ⟨e, -⟩ <;> rw [e]
  · exact hx
  · show F.rnd (-x) = -x; rw [h.odd, show F.rnd x = x from hx]

theorem rep_max {x y : ℝ} (hx : Rep F x) (hy : Rep F y) : Rep F (max x y) := by
  rcases max_choice x y with e | e <;> rw [e] <;> assumption

/-- The sides of the extended bounding box. -/
theorem ext_border (h : FlOk F u v) (hp : PipOk F t u v w M L S pts p lo hi) (ho : 0 < t.nullOrthogDistance) (hin : lo.1 < p.1 ∧ p.1 < hi.1 ∧ lo.2 < p.2 ∧ p.2 < hi.2)
    (w1 : 12 * max t.nullDistance t.nullOrthogDistance ≤ hi.1 - lo.1) (w2 : 12 * max t.nullDistance t.nullOrthogDistance ≤ hi.2 - lo.2) :
    ∃ ext l B, Fl.getExtended F t ⟨lo, hi⟩ = .ok ext ∧ Fl.rectSegs F t ext = .ok (((F.rnd (2 * lo.1 - hi.1), F.rnd (2 * lo.2 - hi.2)), (F.rnd (2 * lo.1 - hi.1), refY F lo hi 0)) :: l) ∧
      Rep F B ∧ 0 ≤ B ∧ B ≤ M ∧ ∀ s ∈ ((F.rnd (2 * lo.1 - hi.1), F.rnd (2 * lo.2 - hi.2)), (F.rnd (2 * lo.1 - hi.1), refY F lo hi 0)) :: l, Border F B (2 * t.nullDistance) (35 * t.nullDistance) p s := by
  obtain ⟨hd, hL, hM, hκ, hu, hv⟩ := pip_facts h hp
  have hnum := hp.num
  have m1 := le_max_left t.nullDistance t.nullOrthogDistance
  have m2 := le_max_right t.nullDistance t.nullOrthogDistance
  obtain ⟨⟨a1, a2⟩, b1, b2⟩ := pip_box hp
  rw [abs_le] at a1 a2 b1 b2
  have hu0 := h.u_nonneg
  have hu1 := h.u_small
  have hv0 := h.v_nonneg
  have huM : u * M ≤ t.nullDistance / 1500 := by
    have : 0 ≤ u * M ^ 2 / (L * S) := by have := hp.S_pos; have := hp.L_pos; positivity
    have : 0 ≤ v * M := mul_nonneg hv0 hM.le
    linarith
  have er : ∀ x, |x| ≤ 3 / 4 * M → |F.rnd x - x| ≤ u * M := fun x hx => by
    have := h.err x
    have := mul_le_mul_of_nonneg_left hx hu0
    linarith
  have bd : ∀ x, |x| ≤ 3 / 4 * M → |F.rnd x| ≤ M := fun x hx => by
    have k := er x hx
    have := mul_le_mul_of_nonneg_right hu1 hM.le
    rw [abs_le] at *
    constructor <;> linarith [k.1, k.2]
  have q1 : |2 * lo.1 - hi.1| ≤ 3 / 4 * M := by rw [abs_le]; constructor <;> linarith
  have q2 : |2 * lo.2 - hi.2| ≤ 3 / 4 * M := by rw [abs_le]; constructor <;> linarith
  have q3 : |2 * hi.1 - lo.1| ≤ 3 / 4 * M := by rw [abs_le]; constructor <;> linarith
  have q4 : |2 * hi.2 - lo.2| ≤ 3 / 4 * M := by rw [abs_le]; constructor <;> linarith
  have c1 := abs_le.1 (er _ q1)
  have c2 := abs_le.1 (er _ q2)
  have c3 := abs_le.1 (er _ q3)
  have c4 := abs_le.1 (er _ q4)
  have B1 := bd _ q1
  have B2 := bd _ q2
  have B3 := bd _ q3
  have B4 := bd _ q4
  have r1 : Rep F (F.rnd (2 * lo.1 - hi.1)) := h.idem _
  have r2 : Rep F (F.rnd (2 * lo.2 - hi.2)) := h.idem _
  have r3 : Rep F (F.rnd (2 * hi.1 - lo.1)) := h.idem _
  have r4 : Rep F (F.rnd (2 * hi.2 - lo.2)) := h.idem _
  obtain ⟨_, x1, y1⟩ := hp.box.left
  obtain ⟨_, x2, y2⟩ := hp.box.right
  obtain ⟨_, x3, y3⟩ := hp.box.bottom
  obtain ⟨_, x4, y4⟩ := hp.box.top
  have dbl : ∀ x, Rep F x → F.rnd (x * 2) = 2 * x := fun x hx => by rw [mul_comm, rnd_two h, show F.rnd x = x from hx]
  have d1 := dbl lo.1 (y1 ▸ (hp.rep _ x1).1.1)
  have d2 := dbl hi.1 (y2 ▸ (hp.rep _ x2).1.1)
  have d3 := dbl lo.2 (y3 ▸ (hp.rep _ x3).1.2)
  have d4 := dbl hi.2 (y4 ▸ (hp.rep _ x4).1.2)
  have hE : Fl.getExtended F t ⟨lo, hi⟩ = rectOfPts F t (F.rnd (2 * lo.1 - hi.1), F.rnd (2 * lo.2 - hi.2)) (F.rnd (2 * hi.1 - lo.1), F.rnd (2 * hi.2 - lo.2)) := by
    unfold Fl.getExtended
    simp only [d1, d2, d3, d4]
  rw [hE, show refY F lo hi 0 = F.rnd (2 * hi.2 - lo.2) from rfl]
  clear hE d1 d2 d3 d4
  obtain ⟨p1, p2, p3, p4⟩ := hin
  have W : 35 * max t.nullDistance t.nullOrthogDistance ≤ F.rnd (2 * hi.1 - lo.1) - F.rnd (2 * lo.1 - hi.1) := by linarith
  have H : 35 * max t.nullDistance t.nullOrthogDistance ≤ F.rnd (2 * hi.2 - lo.2) - F.rnd (2 * lo.2 - hi.2) := by linarith
  have e1 : 2 * t.nullDistance ≤ p.1 - F.rnd (2 * lo.1 - hi.1) := by linarith
  have e2 : 2 * t.nullDistance ≤ p.2 - F.rnd (2 * lo.2 - hi.2) := by linarith
  have e3 : 2 * t.nullDistance ≤ F.rnd (2 * hi.1 - lo.1) - p.1 := by linarith
  have e4 : 2 * t.nullDistance ≤ F.rnd (2 * hi.2 - lo.2) - p.2 := by linarith
  clear c1 c2 c3 c4
  generalize F.rnd (2 * lo.1 - hi.1) = X at *
  generalize F.rnd (2 * hi.1 - lo.1) = X' at *
  generalize F.rnd (2 * lo.2 - hi.2) = Y at *
  generalize F.rnd (2 * hi.2 - lo.2) = Y' at *
  have hx : ∀ y : ℝ, 2 * t.nullDistance ≤ eucl (X, y) (X', y) := fun y => by
    refine le_trans ?_ (abs_fst_le_eucl (X, y) (X', y))
    simp only
    rw [abs_sub_comm, abs_of_nonneg] <;> linarith
  have hy : ∀ x : ℝ, 2 * t.nullDistance ≤ eucl (x, Y) (x, Y') := fun x => by
    refine le_trans ?_ (abs_snd_le_eucl (x, Y) (x, Y'))
    simp only
    rw [abs_sub_comm, abs_of_nonneg] <;> linarith
  have k1 : |X| ≤ max (max |X| |X'|) (max |Y| |Y'|) := le_max_of_le_left (le_max_left _ _)
  have k2 : |X'| ≤ max (max |X| |X'|) (max |Y| |Y'|) := le_max_of_le_left (le_max_right _ _)
  have k3 : |Y| ≤ max (max |X| |X'|) (max |Y| |Y'|) := le_max_of_le_right (le_max_left _ _)
  have k4 : |Y'| ≤ max (max |X| |X'|) (max |Y| |Y'|) := le_max_of_le_right (le_max_right _ _)
  have s1 : Border F (max (max |X| |X'|) (max |Y| |Y'|)) (2 * t.nullDistance) (35 * t.nullDistance) p ((X, Y), (X, Y')) :=
    Or.inl ⟨rfl, r1, e1.trans (le_abs_self _), k3, k4, le_trans (by simp only; linarith) (neg_le_abs _)⟩
  have s2 : Border F (max (max |X| |X'|) (max |Y| |Y'|)) (2 * t.nullDistance) (35 * t.nullDistance) p ((X', Y'), (X', Y)) :=
    Or.inl ⟨rfl, r3, le_trans (by simp only; linarith) (neg_le_abs _), k4, k3, le_trans (by simp only; linarith) (le_abs_self _)⟩
  have s3 : Border F (max (max |X| |X'|) (max |Y| |Y'|)) (2 * t.nullDistance) (35 * t.nullDistance) p ((X, Y'), (X', Y')) :=
    Or.inr ⟨rfl, r4, le_trans (by simp only; linarith) (neg_le_abs _), k1, k2, le_trans (by simp only; linarith) (neg_le_abs _)⟩
  have s4 : Border F (max (max |X| |X'|) (max |Y| |Y'|)) (2 * t.nullDistance) (35 * t.nullDistance) p ((X', Y), (X, Y)) :=
    Or.inr ⟨rfl, r2, e2.trans (le_abs_self _), k2, k1, le_trans (by simp only; linarith) (le_abs_self _)⟩
  refine ⟨⟨(X, Y), (X', Y')⟩, [fixOrder (X, Y') (X', Y'), fixOrder (X', Y') (X', Y), fixOrder (X', Y) (X, Y)], max (max |X| |X'|) (max |Y| |Y'|), ?_, ?_,
    rep_max (rep_max (rep_abs h r1) (rep_abs h r3)) (rep_max (rep_abs h r2) (rep_abs h r4)), (abs_nonneg _).trans k1, max_le (max_le B1 B3) (max_le B2 B4), ?_⟩
  · unfold rectOfPts
    rw [if_neg, min_eq_left (by simp only; linarith), min_eq_left (by simp only; linarith), max_eq_right (by simp only; linarith), max_eq_right (by simp only; linarith)]
    rintro (k | k)
    · exact absurd (rnd_ge_half h ho (x := X - X') (by rw [abs_sub_comm, abs_of_nonneg] <;> linarith)) (not_le.2 k)
    · exact absurd (rnd_ge_half h ho (x := Y - Y') (by rw [abs_sub_comm, abs_of_nonneg] <;> linarith)) (not_le.2 k)
  · unfold Fl.rectSegs
    simp only
    rw [segMake_ok h hd (hy X), segMake_ok h hd (hx Y'), segMake_ok h hd (by rw [eucl_comm]; exact hy X'), segMake_ok h hd (by rw [eucl_comm]; exact hx Y), fixOrder_self_le (show Y ≤ Y' by linarith)]
    rfl
  · intro s hs
    simp only [List.mem_cons, List.not_mem_nil, or_false] at hs
    rcases hs with rfl | rfl | rfl | rfl
    · exact s1
    · exact s3.fix
    · exact s2.fix
    · exact s4.fix

/-- An answer is given when no vertex is close to one of the five reference segments. -/
theorem answer_retry (h : FlOk F u v) (ha : AcosOk ac w) (hp : PipOk F t u v w M L S pts p lo hi) (ho : 0 < t.nullOrthogDistance)
    (w1 : 12 * max t.nullDistance t.nullOrthogDistance ≤ hi.1 - lo.1) (w2 : 12 * max t.nullDistance t.nullOrthogDistance ≤ hi.2 - lo.2) (hs : simpleF F t ac true pts = .ok true)
    (hin : lo.1 < p.1 ∧ p.1 < hi.1 ∧ lo.2 < p.2 ∧ p.2 < hi.2) {n : ℕ} (n1 : 1 ≤ n) (n5 : n ≤ 5) (hv' : ∀ x ∈ pts, vertexClose F t (fixOrder p (refPt F lo hi n)) x = false) :
    ∃ b, Fl.ptInsidePoly F t ac true pts p = .ok b := by
  obtain ⟨hd, hL, hM, hκ, hu, hv⟩ := pip_facts h hp
  have h3 := (simple_length hs).1
  have m1 := le_max_left t.nullDistance t.nullOrthogDistance
  unfold Fl.ptInsidePoly
  rw [hs, Res.bind_ok, box_ok h hp ho (by omega) (by linarith) (by linarith)]
  simp only [Bool.not_true, Bool.false_eq_true, if_false, Res.bind_ok]
  rw [(insideRect_iff p ⟨lo, hi⟩).2 hin, segPairs_edges h3, polySegs_fix h hd _ fun e he => by linarith [(hp.edges e he).2]]
  simp only [Bool.not_true, Bool.false_eq_true, if_false, Res.bind_ok]
  have hlines : ∀ s ∈ (polyEdges pts).map (fun e => fixOrder e.1 e.2), ∃ li, lineOfPts F t s.1 s.2 = .ok li := by
    intro s hs
    obtain ⟨e, he, rfl⟩ := List.mem_map.1 hs
    obtain ⟨-, -, -, -, l, hl, -⟩ := pip_edge h hp he
    exact ⟨l, hl⟩
  rcases nearLine_cases (p := p) hlines with ⟨e, hn⟩ | ⟨e, -⟩
  · obtain ⟨ext, l, B, e1, e2, rB, B0, BM, hB⟩ := ext_border h hp ho hin w1 w2
    rw [e, Res.bind_ok]
    simp only [Bool.false_eq_true, if_false]
    rw [e1, Res.bind_ok, e2, Res.bind_ok]
    have huB : u * B ≤ t.nullDistance / 1500 := by
      have hnum := hp.num
      have : 0 ≤ u * M ^ 2 / (L * S) := by have := hp.S_pos; have := hp.L_pos; have := h.u_nonneg; positivity
      have := mul_nonneg h.v_nonneg hM.le
      have := mul_le_mul_of_nonneg_left BM h.u_nonneg
      linarith
    exact pipLoop_retry h hd (IsTightBox.le hp.box).2 rB B0 (le_refl _) 4 0 l (by norm_num; linarith) hB (fun j j1 j5 hj => by
      obtain ⟨-, c, hc, -⟩ := last_answer (ac := ac) h ha hp hin (by omega) (by omega) hn hj
      exact ⟨c, hc⟩) ⟨n, by omega, by omega, hv'⟩
  · rw [e]; exact ⟨_, rfl⟩

end H2d.Fl
