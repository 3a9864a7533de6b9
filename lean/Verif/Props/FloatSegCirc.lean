import Verif.Lemmas.FloatSegCircDemo

/-!
# C145: intersection of a segment and a circle with rounded operations

All numbers of this file: `M` bounds the coordinates and the radius, `L` is a lower bound of the length of the segment, `u` and `v` are the precisions of the arithmetic and of `std::hypot`.
`scErr` is `u M (M/L)²` and `scMargin` is `2400 scErr + 12 (u + v) M + 2 nullDistance`: 3·10^-10 for the segment (0,0)-(4,3) in `double` with the default thresholds (`demo_margin`).
-/

namespace H2d.Props

open H2d.Spec H2d.Fl

/-- **C145, an answer.** Ends with floating-point coordinates, any circle: the call returns a list of points (numbers), or the ends are the same point for `operator ==`. -/
theorem C145_defined {F : Arith} {u v : ℝ} (h : FlOk F u v) {t : Thr ℝ} (ht : 2 * dblEps ≤ t.nullDistance) {s : Seg} (h1 : Rep F s.1.1 ∧ Rep F s.1.2) (h2 : Rep F s.2.1 ∧ Rep F s.2.2) (c : Pt ℝ) (r : ℝ) :
    (∃ pts, Fl.segCircle F t s c r = .ok (some pts)) ∨ Fl.PtSame F t s.1 s.2 := by
  by_cases hs : Fl.PtSame F t s.1 s.2
  · exact Or.inr hs
  · left
    obtain ⟨l, hl⟩ := (C106_defined F u v h t ht s.1 s.2 h1 h2).resolve_right fun k => hs k.1
    have hd := C109_defined h (lineOfPts_norm h hl) c r
    unfold Fl.segCircle
    simp only
    by_cases k : Fl.ptLabel F t s.1 c r = .inside ∧ Fl.ptLabel F t s.2 c r = .inside
    · rw [if_pos k]; exact ⟨_, rfl⟩
    · rw [if_neg k, hl]
      simp only [bind, Res.bind]
      rcases e : Fl.lineCircle F l c r with _ | _ | pts
      · exact absurd e hd
      · exact ⟨_, rfl⟩
      · simp only
        split_ifs <;> exact ⟨_, rfl⟩

/-- The segment (0,0)-(4,3) in `double`, default thresholds, any circle: there is an answer. -/
example (c : Pt ℝ) (r : ℝ) : ∃ pts, Fl.segCircle (binary 53) stdR ((0, 0), (4, 3)) c r = .ok (some pts) := by
  refine (C145_defined (binary_ok (by norm_num)) (by norm_num [stdR, dblEps]) demoPair.rep1.1 demoPair.rep1.2.1 c r).resolve_right ?_
  refine far_not_same (binary_ok (by norm_num)) _ ?_ (by norm_num [stdR])
  rw [show eucl (0, 0) (4, 3) = 5 by rw [eucl_eq_iff (by norm_num)]; norm_num]
  norm_num [stdR]

/-- **C145, on the circle.** Whatever the positions, all the points that are reported are near the circle. -/
theorem C145_circle {F : Arith} {u v : ℝ} (h : FlOk F u v) {t : Thr ℝ} (ht : 0 ≤ t.nullDistance) {s : Seg} {c : Pt ℝ} {r M : ℝ} (hs : |s.1.1| ≤ M ∧ |s.1.2| ≤ M ∧ |s.2.1| ≤ M ∧ |s.2.2| ≤ M) (hx : |c.1| ≤ M) (hy : |c.2| ≤ M)
    (hr : r ≤ M) {pts : List (Pt ℝ)} (e : Fl.segCircle F t s c r = .ok (some pts)) : ∀ q ∈ pts, NearCircle c r (48 * u * M + 4 * v * M + 11 / 10 * t.nullDistance) q := by
  have hM : 0 ≤ M := (abs_nonneg _).trans hx
  have uM : 0 ≤ u * M := mul_nonneg h.u_nonneg hM
  have vM : 0 ≤ v * M := mul_nonneg h.v_nonneg hM
  have box : ∀ {p : Pt ℝ}, |p.1| ≤ M → |p.2| ≤ M → eucl p c ≤ 3 * M := by
    intro p a b
    have := eucl_le_max (p := p) (q := c) (b := 2 * M) (by linarith [abs_sub p.1 c.1]) (by linarith [abs_sub p.2 c.2])
    linarith
  obtain ⟨m1, m2, m3, m4⟩ := hs
  intro q hq
  unfold NearCircle
  rcases segCircle_mem e hq with ⟨l, pq, hl, e', hq⟩ | ⟨rfl, k⟩ | ⟨rfl, k⟩
  · have := (C109_points h (lineOfPts_norm h hl) hx hy hr e' q hq).1
    linarith
  · linarith [tag_edge h (box m1 m2) k]
  · linarith [tag_edge h (box m3 m4) k]

/-- `C145_crossing_partial` and `C145_through_partial` give lists that are not empty. In `double`, `M` = 4: within 2·10^-10 of the circle. -/
example : 48 * (2 : ℝ) ^ (-((53 : ℕ) : ℤ)) * 4 + 4 * (2 : ℝ) ^ (-((53 : ℕ) : ℤ)) * 4 + 11 / 10 * stdR.nullDistance ≤ 2 / 10 ^ 10 := by norm_num [stdR]

/-- **C145, inside.** Both ends inside the disc, by a margin: no points. -/
theorem C145_inside_partial {F : Arith} {u v : ℝ} (h : FlOk F u v) (t : Thr ℝ) {s : Seg} {c : Pt ℝ} {r M : ℝ} (hr : r ≤ M) (h1 : eucl s.1 c + 2 * (u + v) * M < r) (h2 : eucl s.2 c + 2 * (u + v) * M < r) :
    Fl.segCircle F t s c r = .ok (some []) := by
  unfold Fl.segCircle
  simp only
  rw [if_pos ⟨tag_inside h t hr h1, tag_inside h t hr h2⟩]

example : eucl (0, 0) (2, 3 / 2) + 2 * ((2 : ℝ) ^ (-((53 : ℕ) : ℤ)) + (2 : ℝ) ^ (-((53 : ℕ) : ℤ))) * 3 < 3 ∧ eucl (4, 3) (2, 3 / 2) + 2 * ((2 : ℝ) ^ (-((53 : ℕ) : ℤ)) + (2 : ℝ) ^ (-((53 : ℕ) : ℤ))) * 3 < 3 := by
  rw [show eucl (0, 0) (2, 3 / 2) = 5 / 2 by rw [eucl_eq_iff (by norm_num)]; norm_num, show eucl (4, 3) (2, 3 / 2) = 5 / 2 by rw [eucl_eq_iff (by norm_num)]; norm_num]
  norm_num

/-- **C145, outside.** All the segment is outside the disc, by a margin: no points. -/
theorem C145_outside_partial {F : Arith} {u v : ℝ} (h : FlOk F u v) {t : Thr ℝ} {M L : ℝ} {s : Seg} {c : Pt ℝ} {r : ℝ} (hp : SegCirc F t u M L s c r)
    (hout : ∀ k, 0 ≤ k → k ≤ 1 → r + scMargin u v M L t.nullDistance ≤ eucl (along s k) c) : Fl.segCircle F t s c r = .ok (some []) := sc_zero h hp hout

/-- The segment (0,0)-(4,3) and the unit circle around (4,-4). -/
example : Fl.segCircle (binary 53) stdR ((0, 0), (4, 3)) (4, -4) 1 = .ok (some []) := by
  refine C145_outside_partial (binary_ok (by norm_num)) (demo_segCirc (by norm_num) (by norm_num) (by norm_num)) fun k h0 h1 => ?_
  refine le_trans (add_le_add le_rfl demo_margin) ?_
  refine (abs_le_of_sq_le_sq' ?_ (eucl_nonneg _ _)).2
  rw [eucl_sq]; simp only [along]
  nlinarith [sq_nonneg (k - 4 / 25)]

/-- **C145, one crossing.** One end inside, the other outside, by a margin: exactly one point, on the segment and on the circle up to rounding; it is near every exact intersection point (so there is one only),
up to the conditioning `length / depth`. -/
theorem C145_crossing_partial {F : Arith} {u v : ℝ} (h : FlOk F u v) {t : Thr ℝ} {M L : ℝ} {s : Seg} {c : Pt ℝ} {r : ℝ} (hp : SegCirc F t u M L s c r) (hthr : 1500 * scErr u M L + 13 * (u + v) * M < t.nullDistance)
    {A B : Pt ℝ} (hs : s = (A, B) ∨ s = (B, A)) {d : ℝ} (hd : scMargin u v M L t.nullDistance ≤ d) (hA : eucl A c + d ≤ r) (hB : r + scMargin u v M L t.nullDistance ≤ eucl B c) :
    ∃ q, Fl.segCircle F t s c r = .ok (some [q]) ∧ NearCircle c r (48 * u * M) q ∧ NearSeg s (651 * scErr u M L) q ∧
      ∀ X, OnSeg s.1 s.2 X → eucl X c = r → eucl q X ≤ 1083 * scErr u M L * (1 + eucl s.1 s.2 / d) := by
  obtain ⟨hM, h3, e0, x1, -⟩ := sc_sizes h hp
  have hnd : 0 < t.nullDistance := lt_of_lt_of_le (by have := dblEps_pos; linarith) hp.eps
  have uv : 0 ≤ u + v := add_nonneg h.u_nonneg h.v_nonneg
  have hd0 : 0 < d := by
    have : 0 ≤ (u + v) * M := mul_nonneg uv hM.le
    unfold scMargin at hd; linarith
  obtain ⟨k0, k1, hk, ea, eb⟩ : ∃ k0 k1 : ℝ, ((k0 = 0 ∧ k1 = 1) ∨ (k0 = 1 ∧ k1 = 0)) ∧ along s k0 = A ∧ along s k1 = B := by
    rcases hs with rfl | rfl
    · exact ⟨0, 1, Or.inl ⟨rfl, rfl⟩, along_zero _, along_one _⟩
    · exact ⟨1, 0, Or.inr ⟨rfl, rfl⟩, along_one _, along_zero _⟩
  obtain ⟨q, e, c1, c2, f0, f1⟩ := sc_one h hp hk (by rw [ea]; linarith) (by rw [eb]; exact hB) hthr
  refine ⟨q, e, c1, ⟨_, f0, f1, c2⟩, ?_⟩
  rintro X ⟨kx, g0, g1, rfl⟩ hX
  refine sc_exact (k0 := k0) (kx := kx) e0 hd0 (by linarith) (by rw [ea]; exact hA) c1 c2 hX ?_ ?_ ?_
  · rcases hk with ⟨rfl, -⟩ | ⟨rfl, -⟩
    · simpa using mul_nonneg f0 g0
    · nlinarith
  · rcases hk with ⟨rfl, -⟩ | ⟨rfl, -⟩ <;> rw [abs_le] <;> constructor <;> linarith
  · rcases hk with ⟨rfl, -⟩ | ⟨rfl, -⟩ <;> rw [abs_le] <;> constructor <;> linarith

/-- The segment (0,0)-(4,3) and the circle with radius 5/2 around the origin: one point, within 10^-11 of (2, 3/2). -/
example : ∃ q, Fl.segCircle (binary 53) stdR ((0, 0), (4, 3)) (0, 0) (5 / 2) = .ok (some [q]) ∧ eucl q (2, 3 / 2) ≤ 1 / 10 ^ 11 := by
  obtain ⟨q, e, -, -, k⟩ := C145_crossing_partial (binary_ok (by norm_num)) (demo_segCirc (c := (0, 0)) (r := 5 / 2) (by norm_num) (by norm_num) (by norm_num)) demo_thr (A := (0, 0)) (B := (4, 3)) (Or.inl rfl) (d := 5 / 2)
    (demo_margin.trans (by norm_num)) (by rw [eucl_self]; norm_num) (by
      rw [show eucl (4, 3) (0, 0) = 5 by rw [eucl_eq_iff (by norm_num)]; norm_num]
      linarith [demo_margin])
  refine ⟨q, e, (k (2, 3 / 2) ⟨1 / 2, by norm_num, by norm_num, by norm_num⟩ (by rw [eucl_eq_iff (by norm_num)]; norm_num)).trans ?_⟩
  simp only
  rw [show eucl (0, 0) (4, 3) = 5 by rw [eucl_eq_iff (by norm_num)]; norm_num]
  norm_num [scErr]

/-- **C145, two crossings.** Both ends outside, a point `P` of the segment inside, by a margin: exactly two points, on the segment and on the circle up to rounding, each near the exact intersection point
that is on its side of `P`. -/
theorem C145_through_partial {F : Arith} {u v : ℝ} (h : FlOk F u v) {t : Thr ℝ} {M L : ℝ} {s : Seg} {c : Pt ℝ} {r : ℝ} (hp : SegCirc F t u M L s c r) (hthr : 1500 * scErr u M L + 13 * (u + v) * M < t.nullDistance)
    {k d : ℝ} (hk0 : 0 ≤ k) (hk1 : k ≤ 1) (hd : scMargin u v M L t.nullDistance ≤ d) (hin : eucl (along s k) c + d ≤ r)
    (h1 : r + scMargin u v M L t.nullDistance ≤ eucl s.1 c) (h2 : r + scMargin u v M L t.nullDistance ≤ eucl s.2 c) :
    ∃ q q' a b, Fl.segCircle F t s c r = .ok (some [q, q']) ∧ ((a, b) = (q, q') ∨ (a, b) = (q', q)) ∧ (∀ p, p = a ∨ p = b → NearCircle c r (48 * u * M) p ∧ NearSeg s (651 * scErr u M L) p) ∧
      (∀ i, 0 ≤ i → i ≤ k → eucl (along s i) c = r → eucl a (along s i) ≤ 1083 * scErr u M L * (1 + eucl s.1 s.2 / d)) ∧
      (∀ i, k ≤ i → i ≤ 1 → eucl (along s i) c = r → eucl b (along s i) ≤ 1083 * scErr u M L * (1 + eucl s.1 s.2 / d)) := by
  obtain ⟨hM, h3, e0, x1, -⟩ := sc_sizes h hp
  have hnd : 0 < t.nullDistance := lt_of_lt_of_le (by have := dblEps_pos; linarith) hp.eps
  have uv : 0 ≤ u + v := add_nonneg h.u_nonneg h.v_nonneg
  have hd0 : 0 < d := by
    have : 0 ≤ (u + v) * M := mul_nonneg uv hM.le
    unfold scMargin at hd; linarith
  obtain ⟨q, q', e, ⟨a1, a2, a3, a4⟩, ⟨b1, b2, b3, b4⟩, side⟩ := sc_two h hp hk0 hk1 (by linarith) h1 h2 hthr
  have near : ∀ p, p = q ∨ p = q' → NearCircle c r (48 * u * M) p ∧ NearSeg s (651 * scErr u M L) p := by
    rintro p (rfl | rfl)
    · exact ⟨a1, _, a3, a4, a2⟩
    · exact ⟨b1, _, b3, b4, b2⟩
  have close : ∀ {p : Pt ℝ} {i : ℝ}, |eucl p c - r| ≤ 48 * u * M → eucl p (along s (footK s p)) ≤ 651 * scErr u M L → 0 ≤ footK s p → footK s p ≤ 1 → 0 ≤ i → i ≤ 1 → 0 ≤ (footK s p - k) * (i - k) →
      eucl (along s i) c = r → eucl p (along s i) ≤ 1083 * scErr u M L * (1 + eucl s.1 s.2 / d) := by
    intro p i c1 c2 c3 c4 i0 i1 hs hi
    refine sc_exact (k0 := k) (kx := i) e0 hd0 (by linarith) hin c1 c2 hi hs ?_ ?_ <;> rw [abs_le] <;> constructor <;> linarith
  rcases side with ⟨w1, w2⟩ | ⟨w1, w2⟩
  · refine ⟨q, q', q, q', e, Or.inl rfl, near, fun i i0 i1 hi => close a1 a2 a3 a4 i0 (i1.trans hk1) ?_ hi, fun i i0 i1 hi => close b1 b2 b3 b4 (hk0.trans i0) i1 ?_ hi⟩
    · exact mul_nonneg_of_nonpos_of_nonpos (by linarith) (by linarith)
    · exact mul_nonneg (by linarith) (by linarith)
  · refine ⟨q, q', q', q, e, Or.inr rfl, fun p hp => near p hp.symm, fun i i0 i1 hi => close b1 b2 b3 b4 i0 (i1.trans hk1) ?_ hi, fun i i0 i1 hi => close a1 a2 a3 a4 (hk0.trans i0) i1 ?_ hi⟩
    · exact mul_nonneg_of_nonpos_of_nonpos (by linarith) (by linarith)
    · exact mul_nonneg (by linarith) (by linarith)

/-- The segment (0,0)-(4,3) and the unit circle around its middle (2, 3/2): two points. -/
example : ∃ q q', Fl.segCircle (binary 53) stdR ((0, 0), (4, 3)) (2, 3 / 2) 1 = .ok (some [q, q']) := by
  have m : along ((0, 0), (4, 3)) (1 / 2) = (2, 3 / 2) := by simp only [along]; norm_num
  obtain ⟨q, q', -, -, e, -⟩ := C145_through_partial (binary_ok (by norm_num)) (demo_segCirc (c := (2, 3 / 2)) (r := 1) (by norm_num) (by norm_num) (by norm_num)) demo_thr (k := 1 / 2) (d := 1) (by norm_num) (by norm_num)
    (demo_margin.trans (by norm_num)) (by rw [m, eucl_self]; norm_num)
    (by rw [show eucl (0, 0) (2, 3 / 2) = 5 / 2 by rw [eucl_eq_iff (by norm_num)]; norm_num]; linarith [demo_margin])
    (by rw [show eucl (4, 3) (2, 3 / 2) = 5 / 2 by rw [eucl_eq_iff (by norm_num)]; norm_num]; linarith [demo_margin])
  exact ⟨q, q', e⟩

/-- **C145, the margins are needed (1).** In `double`, default thresholds: the segment from (-1 + 2^-40, 0), inside the unit circle, to (2, 0), outside, meets the circle at (1, 0) only; the point that is reported
is (-1, 0), at distance 2, which is not on the segment. -/
theorem C145_sharp : ∃ (s : Seg) (c X q : Pt ℝ) (r : ℝ), Fl.segCircle (binary 53) stdR s c r = .ok (some [q]) ∧ eucl s.1 c < r ∧ r + 1 ≤ eucl s.2 c ∧
    (∀ Y, OnSeg s.1 s.2 Y ∧ eucl Y c = r ↔ Y = X) ∧ eucl q X = 2 ∧ ¬ OnSeg s.1 s.2 q := by
  obtain ⟨δ, hδ⟩ : ∃ δ, δ = (2 : ℝ) ^ (-40 : ℤ) := ⟨_, rfl⟩
  have dpos : 0 < δ := by rw [hδ]; positivity
  have dsm : δ < 1 / 10 ^ 11 := by rw [hδ]; norm_num
  refine ⟨((-(1 - δ), 0), (2, 0)), (0, 0), (1, 0), (-1, 0), 1, near_far_point hδ, ?_, ?_, ?_, ?_, ?_⟩
  · rw [show eucl (-(1 - δ), 0) (0, 0) = 1 - δ by rw [eucl_eq_iff (by linarith)]; simp only; ring]; linarith
  · rw [show eucl (2, 0) (0, 0) = 2 by rw [eucl_eq_iff (by norm_num)]; norm_num]; norm_num
  · rintro ⟨x, y⟩
    constructor
    · rintro ⟨⟨k, k0, k1, e⟩, hr⟩
      rw [eucl_eq_iff (by norm_num)] at hr
      simp only [Prod.mk.injEq] at e hr ⊢
      obtain ⟨ex, ey⟩ := e
      have y0 : y = 0 := by linarith
      have hx : -(1 - δ) ≤ x := by rw [ex]; nlinarith
      rw [y0] at hr
      refine ⟨?_, y0⟩
      have : (x - 1) * (x + 1) = 0 := by linarith
      rcases mul_eq_zero.1 this with h | h <;> linarith
    · intro e
      rw [e]
      refine ⟨⟨(2 - δ) / (3 - δ), div_nonneg (by linarith) (by linarith), (div_le_one (by linarith)).2 (by linarith), ?_⟩, by rw [eucl_eq_iff (by norm_num)]; norm_num⟩
      have : (3 - δ) ≠ 0 := by linarith
      ext
      · simp only; field_simp; ring
      · simp
  · rw [eucl_eq_iff (by norm_num)]; norm_num
  · rintro ⟨k, k0, k1, e⟩
    simp only [Prod.mk.injEq] at e
    nlinarith [e.1]

/-- **C145 is false** without a margin that grows with the distance to the origin. With `p` bits of precision (`p` at least 6): a segment with one end inside a circle and the other outside, by more than 1/5, and no
intersection point is reported. -/
theorem C145_false {p : ℕ} (hp : 6 ≤ p) {t : Thr ℝ} (h1 : t.nullDistance ≤ 1) : ∃ (s : Seg) (c : Pt ℝ) (r : ℝ), (Rep (binary p) s.1.1 ∧ Rep (binary p) s.1.2) ∧ (Rep (binary p) s.2.1 ∧ Rep (binary p) s.2.2) ∧
    (Rep (binary p) c.1 ∧ Rep (binary p) c.2) ∧ eucl s.1 c + 1 / 5 < r ∧ r + 1 / 5 < eucl s.2 c ∧ Fl.segCircle (binary p) t s c r = .ok (some []) := by
  obtain ⟨N, hN⟩ : ∃ N, (2 : ℝ) ^ (p - 1) = N := ⟨_, rfl⟩
  obtain ⟨-, r0, r1, r3⟩ := far_reps hp hN
  refine ⟨((N, N + 1), (N + 3, N + 1)), (N + 1, N + 3), 5 / 2, ⟨r0, r1⟩, ⟨r3, r1⟩, ⟨r1, r3⟩, ?_, ?_, far_circle hp hN h1⟩
  · have : eucl (N, N + 1) (N + 1, N + 3) < 23 / 10 := by
      refine lt_of_pow_lt_pow_left₀ 2 (by norm_num) ?_
      rw [eucl_sq]; ring_nf; norm_num
    simp only; linarith
  · have : 14 / 5 ≤ eucl (N + 3, N + 1) (N + 1, N + 3) := by
      refine (abs_le_of_sq_le_sq' ?_ (eucl_nonneg _ _)).2
      rw [eucl_sq]; ring_nf; norm_num
    simp only; linarith

end H2d.Props
