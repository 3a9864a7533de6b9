import Verif.Lemmas.FloatRange
import Verif.Lemmas.FloatExact

/-! # Functions that give the same result with and without limits of the exponents -/

namespace H2d.Fl
open H2d H2d.Spec

variable {f : Format} {e n : ℤ}

theorem fits_bounds (hf : Fits f e n) : 1 ≤ f.p ∧ e ≤ 0 ∧ 0 ≤ n ∧ f.emin + 2 * f.p + 4 ≤ 2 * e - 2 * n ∧ 2 * n - 2 * e + f.p + 4 ≤ f.emax :=
  ⟨le_trans (by norm_num) hf.1, hf.2⟩

theorem agree_sub (hf : Fits f e n) (over : ℝ → ℝ) {x y : ℝ} (hx : Grid e n x) (hy : Grid e n y) :
    (f.arith over).rnd (x - y) = (binary f.p).rnd (x - y) ∧ Grid e (n + 1) ((binary f.p).rnd (x - y)) := by
  obtain ⟨h1, h2, h3, h4, h5⟩ := fits_bounds hf
  exact (hx.sub hy).step h1 over (by omega) (by omega)

theorem agree_add (hf : Fits f e n) (over : ℝ → ℝ) {x y : ℝ} (hx : Grid e n x) (hy : Grid e n y) :
    (f.arith over).rnd (x + y) = (binary f.p).rnd (x + y) ∧ Grid e (n + 1) ((binary f.p).rnd (x + y)) := by
  obtain ⟨h1, h2, h3, h4, h5⟩ := fits_bounds hf
  exact (hx.add hy).step h1 over (by omega) (by omega)

theorem agree_dist (hf : Fits f e n) (over : ℝ → ℝ) {p q : Pt ℝ} (hp : GridPt e n p) (hq : GridPt e n q) :
    distPt (f.arith over) p q = distPt (binary f.p) p q ∧ Grid (e - f.p + 1) (n + 2) (distPt (binary f.p) p q) := by
  obtain ⟨h1, h2, h3, h4, h5⟩ := fits_bounds hf
  obtain ⟨a1, a2⟩ := agree_sub hf over hp.1 hq.1
  obtain ⟨b1, b2⟩ := agree_sub hf over hp.2 hq.2
  obtain ⟨c1, c2, -⟩ := hyp_step h1 over a2 b2 (by omega) (by omega)
  unfold distPt
  rw [a1, b1]
  exact ⟨c1, c2.mono le_rfl (by omega)⟩

/-- Sum or difference of two products. -/
theorem agree_norm2 (hf : Fits f e n) (over : ℝ → ℝ) {a b c d : ℝ} (ha : Grid e (n + 1) a) (hb : Grid e (n + 1) b) (hc : Grid e (n + 1) c) (hd : Grid e (n + 1) d) :
    (f.arith over).rnd ((f.arith over).rnd (a * b) + (f.arith over).rnd (c * d)) = (binary f.p).rnd ((binary f.p).rnd (a * b) + (binary f.p).rnd (c * d)) ∧
      (f.arith over).rnd ((f.arith over).rnd (a * b) - (f.arith over).rnd (c * d)) = (binary f.p).rnd ((binary f.p).rnd (a * b) - (binary f.p).rnd (c * d)) ∧
      Grid (e + e) (n + 1 + (n + 1) + 1) ((binary f.p).rnd ((binary f.p).rnd (a * b) + (binary f.p).rnd (c * d))) ∧
      Grid (e + e) (n + 1 + (n + 1) + 1) ((binary f.p).rnd ((binary f.p).rnd (a * b) - (binary f.p).rnd (c * d))) := by
  obtain ⟨h1, h2, h3, h4, h5⟩ := fits_bounds hf
  obtain ⟨a1, a2⟩ := (ha.mul hb).step h1 over (by omega) (by omega)
  obtain ⟨b1, b2⟩ := (hc.mul hd).step h1 over (by omega) (by omega)
  rw [a1, b1]
  obtain ⟨c1, c2⟩ := (a2.add b2).step h1 over (by omega) (by omega)
  obtain ⟨d1, d2⟩ := (a2.sub b2).step h1 over (by omega) (by omega)
  exact ⟨c1, d1, c2, d2⟩

theorem agree_sqDist (hf : Fits f e n) (over : ℝ → ℝ) {p q : Pt ℝ} (hp : GridPt e n p) (hq : GridPt e n q) :
    sqDist (f.arith over) p q = sqDist (binary f.p) p q := by
  obtain ⟨a1, a2⟩ := agree_sub hf over hp.1 hq.1
  obtain ⟨b1, b2⟩ := agree_sub hf over hp.2 hq.2
  unfold sqDist
  rw [a1, b1]
  exact (agree_norm2 hf over a2 a2 b2 b2).1

theorem agree_cross (hf : Fits f e n) (over : ℝ → ℝ) {p q r : Pt ℝ} (hp : GridPt e n p) (hq : GridPt e n q) (hr : GridPt e n r) :
    crossAt (f.arith over) p q r = crossAt (binary f.p) p q r := by
  unfold crossAt
  rw [(agree_sub hf over hq.1 hp.1).1, (agree_sub hf over hr.2 hq.2).1, (agree_sub hf over hq.2 hp.2).1, (agree_sub hf over hr.1 hq.1).1]
  exact (agree_norm2 hf over (agree_sub hf over hq.1 hp.1).2 (agree_sub hf over hr.2 hq.2).2 (agree_sub hf over hq.2 hp.2).2 (agree_sub hf over hr.1 hq.1).2).2.1

theorem agree_orientation (hf : Fits f e n) (over : ℝ → ℝ) (thr : ℝ) {p q r : Pt ℝ} (hp : GridPt e n p) (hq : GridPt e n q) (hr : GridPt e n r) :
    chOrientation (f.arith over) thr p q r = chOrientation (binary f.p) thr p q r := by
  unfold chOrientation
  rw [(agree_sub hf over hq.1 hp.1).1, (agree_sub hf over hr.2 hq.2).1, (agree_sub hf over hq.2 hp.2).1, (agree_sub hf over hr.1 hq.1).1,
    (agree_norm2 hf over (agree_sub hf over hq.2 hp.2).2 (agree_sub hf over hr.1 hq.1).2 (agree_sub hf over hq.1 hp.1).2 (agree_sub hf over hr.2 hq.2).2).2.1]

theorem agree_side (hf : Fits f e n) (over : ℝ → ℝ) {p q r : Pt ℝ} (hp : GridPt e n p) (hq : GridPt e n q) (hr : GridPt e n r) :
    sideCross (f.arith over) p q r = sideCross (binary f.p) p q r := by
  unfold sideCross
  rw [(agree_sub hf over hq.1 hp.1).1, (agree_sub hf over hr.2 hp.2).1, (agree_sub hf over hq.2 hp.2).1, (agree_sub hf over hr.1 hp.1).1,
    (agree_norm2 hf over (agree_sub hf over hr.1 hp.1).2 (agree_sub hf over hq.2 hp.2).2 (agree_sub hf over hr.2 hp.2).2 (agree_sub hf over hq.1 hp.1).2).2.1]

/-! ### Area, length of a polygon -/

theorem agree_area_fold (hf : Fits f e n) (over : ℝ → ℝ) (l : List (Pt ℝ × Pt ℝ)) (hl : ∀ x ∈ l, GridPt e n x.1 ∧ GridPt e n x.2) :
    ∀ (k : ℕ) (s : ℝ), (∃ m : ℤ, s = m * (2 : ℝ) ^ (e + e)) → |s| ≤ k * (2 : ℝ) ^ (n + n) → k + 2 * l.length ≤ 2 ^ f.p →
      let st := fun (F : Arith) (s : ℝ) (e : Pt ℝ × Pt ℝ) => F.rnd (F.rnd (s + F.rnd (e.1.1 * e.2.2)) - F.rnd (e.1.2 * e.2.1))
      l.foldl (st (f.arith over)) s = l.foldl (st (binary f.p)) s ∧ Grid (e + e) (n + n + f.p) (l.foldl (st (binary f.p)) s) := by
  obtain ⟨h1, h2, h3, h4, h5⟩ := fits_bounds hf
  have big : ∀ (k : ℕ) (s : ℝ), |s| ≤ k * (2 : ℝ) ^ (n + n) → k ≤ 2 ^ f.p → |s| ≤ (2 : ℝ) ^ (n + n + f.p) := by
    intro k s hs hk
    refine le_trans hs ?_
    rw [zpow_add₀ (by norm_num) (n + n), zpow_natCast, mul_comm]
    have : (k : ℝ) ≤ 2 ^ f.p := by exact_mod_cast hk
    have := two_zpow_pos (n + n)
    gcongr
  have stp : ∀ (k : ℕ) (s : ℝ) (x : ℝ), (∃ m : ℤ, s = m * (2 : ℝ) ^ (e + e)) → |s| ≤ k * (2 : ℝ) ^ (n + n) → k + 1 ≤ 2 ^ f.p → Grid (e + e) (n + n) x →
      (f.arith over).rnd (s + x) = (binary f.p).rnd (s + x) ∧ (∃ m : ℤ, (binary f.p).rnd (s + x) = m * (2 : ℝ) ^ (e + e)) ∧ |(binary f.p).rnd (s + x)| ≤ ((k + 1 : ℕ) : ℝ) * (2 : ℝ) ^ (n + n) := by
    intro k s x ⟨m, hm⟩ hs hk hx
    have hb : |s + x| ≤ ((k + 1 : ℕ) : ℝ) * (2 : ℝ) ^ (n + n) := by
      push_cast
      linarith [abs_add_le s x, hx.2]
    have hg : Grid (e + e) (n + n + f.p) (s + x) := by
      refine ⟨?_, big _ _ hb hk⟩
      obtain ⟨⟨m', hm'⟩, -⟩ := hx
      exact ⟨m + m', by rw [hm, hm']; push_cast; ring⟩
    obtain ⟨a1, a2⟩ := hg.step h1 over (by omega) (by omega)
    exact ⟨a1, a2.1, roundTo_le_mul h1 hk hb⟩
  induction l with
  | nil =>
    intro k s hm hs hk
    refine ⟨rfl, hm, big k s hs (by simpa using hk)⟩
  | cons x l ih =>
    intro k s hm hs hk
    simp only [List.length_cons] at hk
    obtain ⟨⟨p1, p2⟩, q1, q2⟩ := hl x (by simp)
    obtain ⟨a1, a2⟩ := (p1.mul q2).step h1 over (by omega) (by omega)
    obtain ⟨b1, b2⟩ := (p2.mul q1).step h1 over (by omega) (by omega)
    obtain ⟨c1, c2, c3⟩ := stp k s _ hm hs (by omega) a2
    obtain ⟨d1, d2, d3⟩ := stp (k + 1) _ _ c2 c3 (by omega) b2.neg
    have := ih (fun y hy => hl y (by simp [hy])) (k + 1 + 1) _ d2 d3 (by omega)
    simp only [List.foldl_cons]
    simp only [← sub_eq_add_neg] at d1 this
    rw [a1, b1, c1, d1]
    exact this

theorem cycPairs_mem {P : Pt ℝ → Prop} {pts : List (Pt ℝ)} (h : ∀ p ∈ pts, P p) : ∀ x ∈ cycPairs pts, P x.1 ∧ P x.2 :=
  fun _ hx => ⟨h _ (mem_cycPairs hx).1, h _ (mem_cycPairs hx).2⟩

theorem agree_area (hf : Fits f e n) (over : ℝ → ℝ) {pts : List (Pt ℝ)} (h : ∀ p ∈ pts, GridPt e n p) (hl : 2 * (cycPairs pts).length ≤ 2 ^ f.p) :
    signedArea (f.arith over) pts = signedArea (binary f.p) pts := by
  obtain ⟨h1, h2, h3, h4, h5⟩ := fits_bounds hf
  have := agree_area_fold hf over (cycPairs pts) (cycPairs_mem h) 0 0 ⟨0, by simp⟩ (by simp) (by omega)
  unfold signedArea
  obtain ⟨a1, a2⟩ := this
  simp only at a1 a2
  rw [a1]
  exact (a2.half.step h1 over (by omega) (by omega)).1

theorem agree_len_fold (hf : Fits f e n) (over : ℝ → ℝ) (l : List (Pt ℝ × Pt ℝ)) (hl : ∀ x ∈ l, GridPt e n x.1 ∧ GridPt e n x.2) :
    ∀ (k : ℕ) (s : ℝ), (∃ m : ℤ, s = m * (2 : ℝ) ^ (e - f.p + 1)) → |s| ≤ k * (2 : ℝ) ^ (n + 2) → k + l.length ≤ 2 ^ f.p →
      l.foldl (fun s e => (f.arith over).rnd (s + distPt (f.arith over) e.1 e.2)) s = l.foldl (fun s e => (binary f.p).rnd (s + distPt (binary f.p) e.1 e.2)) s := by
  obtain ⟨h1, h2, h3, h4, h5⟩ := fits_bounds hf
  induction l with
  | nil => intro k s hm hs hk; rfl
  | cons x l ih =>
    intro k s ⟨m, hm⟩ hs hk
    simp only [List.length_cons] at hk
    obtain ⟨a1, a2⟩ := agree_dist hf over (hl x (by simp)).1 (hl x (by simp)).2
    have hb : |s + distPt (binary f.p) x.1 x.2| ≤ ((k + 1 : ℕ) : ℝ) * (2 : ℝ) ^ (n + 2) := by
      push_cast
      linarith [abs_add_le s (distPt (binary f.p) x.1 x.2), a2.2]
    have hk1 : k + 1 ≤ 2 ^ f.p := by omega
    have hg : Grid (e - f.p + 1) (n + 2 + f.p) (s + distPt (binary f.p) x.1 x.2) := by
      constructor
      · obtain ⟨⟨m', hm'⟩, -⟩ := a2
        exact ⟨m + m', by rw [hm, hm']; push_cast; ring⟩
      · refine le_trans hb ?_
        rw [zpow_add₀ (by norm_num) (n + 2), zpow_natCast, mul_comm]
        have : ((k + 1 : ℕ) : ℝ) ≤ 2 ^ f.p := by exact_mod_cast hk1
        have := two_zpow_pos (n + 2)
        gcongr
    obtain ⟨b1, b2⟩ := hg.step h1 over (by omega) (by omega)
    simp only [List.foldl_cons]
    rw [a1, b1]
    exact ih (fun y hy => hl y (by simp [hy])) (k + 1) _ b2.1 (roundTo_le_mul h1 hk1 hb) (by omega)

theorem segPairs_mem {P : Pt ℝ → Prop} {c : Bool} {pts : List (Pt ℝ)} (h : ∀ p ∈ pts, P p) : ∀ x ∈ segPairs c pts, P x.1 ∧ P x.2 := by
  intro x hx
  unfold segPairs at hx
  split_ifs at hx
  · simp at hx
  · exact cycPairs_mem h x hx
  · obtain ⟨a, b⟩ := x
    have := List.of_mem_zip hx
    exact ⟨h _ this.1, h _ (List.mem_of_mem_tail this.2)⟩

theorem agree_len (hf : Fits f e n) (over : ℝ → ℝ) (c : Bool) {pts : List (Pt ℝ)} (h : ∀ p ∈ pts, GridPt e n p) (hl : (segPairs c pts).length ≤ 2 ^ f.p) :
    polyLen (f.arith over) c pts = polyLen (binary f.p) c pts :=
  agree_len_fold hf over _ (segPairs_mem h) 0 0 ⟨0, by simp⟩ (by simp) (by omega)

theorem agree_convex (hf : Fits f e n) (over : ℝ → ℝ) (simple : Bool) {pts : List (Pt ℝ)} (h : ∀ p ∈ pts, GridPt e n p) :
    isConvex (f.arith over) simple pts = isConvex (binary f.p) simple pts := by
  unfold isConvex
  have : (cycTriples pts).map (fun t => crossAt (f.arith over) t.1 t.2.1 t.2.2) = (cycTriples pts).map (fun t => crossAt (binary f.p) t.1 t.2.1 t.2.2) := by
    apply List.map_congr_left
    intro t ht
    obtain ⟨a, b, c⟩ := t
    obtain ⟨ha, hb, hc⟩ := mem_of_cycTriples ht
    exact agree_cross hf over (h _ ha) (h _ hb) (h _ hc)
  rw [this]

/-! ### Rectangles, circles, translations -/

theorem agree_half (hf : Fits f e n) (over : ℝ → ℝ) {x : ℝ} (hx : Grid e (n + 1) x) :
    (f.arith over).rnd (x / 2) = (binary f.p).rnd (x / 2) := by
  obtain ⟨h1, h2, h3, h4, h5⟩ := fits_bounds hf
  exact (hx.half.step h1 over (by omega) (by omega)).1

theorem agree_center (hf : Fits f e n) (over : ℝ → ℝ) {p q : Pt ℝ} (hp : GridPt e n p) (hq : GridPt e n q) :
    center (f.arith over) p q = center (binary f.p) p q := by
  obtain ⟨a1, a2⟩ := agree_add hf over hp.1 hq.1
  obtain ⟨b1, b2⟩ := agree_add hf over hp.2 hq.2
  unfold center
  rw [a1, b1, agree_half hf over a2, agree_half hf over b2]

theorem agree_rect (hf : Fits f e n) (over : ℝ → ℝ) {r : FRect ℝ} (hp : GridPt e n r.p1) (hq : GridPt e n r.p2) :
    rectWidth (f.arith over) r = rectWidth (binary f.p) r ∧ rectHeight (f.arith over) r = rectHeight (binary f.p) r ∧
      rectArea (f.arith over) r = rectArea (binary f.p) r ∧ rectLength (f.arith over) r = rectLength (binary f.p) r := by
  obtain ⟨h1, h2, h3, h4, h5⟩ := fits_bounds hf
  obtain ⟨a1, a2⟩ := agree_sub hf over hq.1 hp.1
  obtain ⟨b1, b2⟩ := agree_sub hf over hq.2 hp.2
  have two : ∀ {x : ℝ}, Grid e (n + 1) x → Grid e (n + 1 + 1) (2 * x) := fun h => by rw [two_mul]; exact h.add h
  refine ⟨a1, b1, ?_, ?_⟩
  · unfold rectArea rectHeight rectWidth
    rw [a1, b1]
    exact ((b2.mul a2).step h1 over (by omega) (by omega)).1
  · unfold rectLength rectHeight rectWidth
    rw [a1, b1]
    obtain ⟨c1, c2⟩ := (two a2).step h1 over (by omega) (by omega)
    obtain ⟨d1, d2⟩ := (two b2).step h1 over (by omega) (by omega)
    rw [c1, d1]
    exact ((d2.add c2).step h1 over (by omega) (by omega)).1

theorem agree_translate (hf : Fits f e n) (over : ℝ → ℝ) {p : Pt ℝ} {dx dy : ℝ} (hp : GridPt e n p) (hx : Grid e n dx) (hy : Grid e n dy) :
    ptTranslate (f.arith over) p dx dy = ptTranslate (binary f.p) p dx dy := by
  unfold ptTranslate
  rw [(agree_add hf over hp.1 hx).1, (agree_add hf over hp.2 hy).1]

theorem agree_sub' (hf : Fits f e n) (over : ℝ → ℝ) {x y : ℝ} (hx : Grid e (n + 1) x) (hy : Grid e (n + 1) y) :
    (f.arith over).rnd (x - y) = (binary f.p).rnd (x - y) := by
  obtain ⟨h1, h2, h3, h4, h5⟩ := fits_bounds hf
  exact ((hx.sub hy).step h1 over (by omega) (by omega)).1

theorem agree_rectOfPts (hf : Fits f e n) (over : ℝ → ℝ) (t : Thr ℝ) {p q : Pt ℝ} (hp : GridPt e (n + 1) p) (hq : GridPt e (n + 1) q) :
    rectOfPts (f.arith over) t p q = rectOfPts (binary f.p) t p q := by
  unfold rectOfPts
  have h : ShareCoord (f.arith over) t p q ↔ ShareCoord (binary f.p) t p q := by
    unfold ShareCoord
    rw [agree_sub' hf over hp.1 hq.1, agree_sub' hf over hp.2 hq.2]
  simp only [h]

theorem agree_circBB (hf : Fits f e n) (over : ℝ → ℝ) (t : Thr ℝ) {c : Pt ℝ} {r : ℝ} (hc : GridPt e n c) (hr : Grid e n r) :
    circBB (f.arith over) t c r = circBB (binary f.p) t c r := by
  obtain ⟨a1, a2⟩ := agree_sub hf over hc.1 hr
  obtain ⟨b1, b2⟩ := agree_sub hf over hc.2 hr
  obtain ⟨c1, c2⟩ := agree_add hf over hc.1 hr
  obtain ⟨d1, d2⟩ := agree_add hf over hc.2 hr
  unfold circBB
  rw [a1, b1, c1, d1]
  exact agree_rectOfPts hf over t ⟨a2, b2⟩ ⟨c2, d2⟩

/-! ### Quotients -/

/-- Quotient of a multiple of `2^a`, at most `2^b`, by a number between `2^c` and `2^d`. -/
theorem agree_div (hp : 1 ≤ f.p) (over : ℝ → ℝ) {a b c d : ℤ} {x y : ℝ} (hx : Grid a b x) (hy : (2 : ℝ) ^ c ≤ |y|) (hy2 : |y| ≤ (2 : ℝ) ^ d)
    (h1 : f.emin + f.p - 1 ≤ a - d) (h2 : b - c ≤ f.emax - 1) :
    (f.arith over).rnd (x / y) = (binary f.p).rnd (x / y) ∧ Grid (a - d - f.p + 1) (b - c) ((binary f.p).rnd (x / y)) := by
  have hy0 : 0 < |y| := lt_of_lt_of_le (two_zpow_pos c) hy
  refine far_step hp over ?_ ?_ h1 h2
  · by_cases h0 : x = 0
    · left; rw [h0, zero_div]
    · right
      rw [abs_div, zpow_sub₀ (by norm_num)]
      exact div_le_div₀ (abs_nonneg _) (hx.ge h0) hy0 hy2
  · rw [abs_div, zpow_sub₀ (by norm_num)]
    exact div_le_div₀ (two_zpow_pos _).le hx.2 (two_zpow_pos _) hy

theorem agree_normalize (hf : Fits f e n) (over : ℝ → ℝ) (t : Thr ℝ) {v : V3 ℝ} (h0 : Grid e (n + 1) (v 0)) (h1 : Grid e (n + 1) (v 1)) (h2 : Grid (e + e) (n + n + 1) (v 2)) :
    normalizeLine (f.arith over) t v = normalizeLine (binary f.p) t v := by
  obtain ⟨g1, g2, g3, g4, g5⟩ := fits_bounds hf
  obtain ⟨a1, a2, a3⟩ := hyp_step g1 over h0 h1 (by omega) (by omega)
  unfold normalizeLine
  simp only [a1]
  by_cases hs : (binary f.p).hyp (v 0) (v 1) ≤ dblEps
  · rw [if_pos hs, if_pos hs]
  · rw [if_neg hs, if_neg hs]
    have hne : v 0 ≠ 0 ∨ v 1 ≠ 0 := by
      by_contra hc
      push Not at hc
      apply hs
      rw [hc.1, hc.2]
      show roundTo f.p (Real.sqrt (0 ^ 2 + 0 ^ 2)) ≤ _
      have : (0 : ℝ) ^ 2 + 0 ^ 2 = 0 := by norm_num
      rw [this, Real.sqrt_zero, roundTo_zero]
      unfold dblEps
      positivity
    have lo := a3 hne
    have hy : (2 : ℝ) ^ e ≤ |(binary f.p).hyp (v 0) (v 1)| := le_trans lo (le_abs_self _)
    have hw : (fun i => (f.arith over).rnd (v i / (binary f.p).hyp (v 0) (v 1))) = fun i => (binary f.p).rnd (v i / (binary f.p).hyp (v 0) (v 1)) := by
      funext i
      have hv : Grid (e + e) (n + n + 1) (v i) := by
        fin_cases i
        · exact h0.mono (by omega) (by omega)
        · exact h1.mono (by omega) (by omega)
        · exact h2
      exact (agree_div g1 over hv hy a2.2 (by omega) (by omega)).1
    have hw' := fun i => congrFun hw i
    simp only [hw']

theorem agree_lineOfPts (hf : Fits f e n) (over : ℝ → ℝ) (t : Thr ℝ) {p q : Pt ℝ} (hp : GridPt e n p) (hq : GridPt e n q) :
    lineOfPts (f.arith over) t p q = lineOfPts (binary f.p) t p q := by
  obtain ⟨g1, g2, g3, g4, g5⟩ := fits_bounds hf
  have hone : Grid 0 0 1 := Grid.one le_rfl le_rfl
  unfold lineOfPts PtSame
  rw [(agree_dist hf over hp hq).1]
  have key : ∀ {x : ℝ}, Grid e n x → (f.arith over).rnd (x * 1) = (binary f.p).rnd (x * 1) ∧ (f.arith over).rnd (1 * x) = (binary f.p).rnd (1 * x) ∧ Grid e n ((binary f.p).rnd (x * 1)) ∧ Grid e n ((binary f.p).rnd (1 * x)) := by
    intro x hx
    rw [one_mul, mul_one]
    obtain ⟨a1, a2⟩ := hx.step g1 over (by omega) (by omega)
    exact ⟨a1, a1, a2, a2⟩
  have prod : ∀ {x y : ℝ}, Grid e n x → Grid e n y → (f.arith over).rnd (x * y) = (binary f.p).rnd (x * y) ∧ Grid (e + e) (n + n) ((binary f.p).rnd (x * y)) :=
    fun hx hy => (hx.mul hy).step g1 over (by omega) (by omega)
  have c : crossProd (f.arith over) (mkPt p.1 p.2) (mkPt q.1 q.2) = crossProd (binary f.p) (mkPt p.1 p.2) (mkPt q.1 q.2) := by
    show (![(f.arith over).rnd ((f.arith over).rnd (p.2 * 1) - (f.arith over).rnd (1 * q.2)), (f.arith over).rnd ((f.arith over).rnd (1 * q.1) - (f.arith over).rnd (p.1 * 1)), (f.arith over).rnd ((f.arith over).rnd (p.1 * q.2) - (f.arith over).rnd (p.2 * q.1))] : V3 ℝ) =
      ![(binary f.p).rnd ((binary f.p).rnd (p.2 * 1) - (binary f.p).rnd (1 * q.2)), (binary f.p).rnd ((binary f.p).rnd (1 * q.1) - (binary f.p).rnd (p.1 * 1)), (binary f.p).rnd ((binary f.p).rnd (p.1 * q.2) - (binary f.p).rnd (p.2 * q.1))]
    rw [(key hp.2).1, (key hq.2).2.1, (key hq.1).2.1, (key hp.1).1, (prod hp.1 hq.2).1, (prod hp.2 hq.1).1,
      (agree_sub hf over (key hp.2).2.2.1 (key hq.2).2.2.2).1, (agree_sub hf over (key hq.1).2.2.2 (key hp.1).2.2.1).1,
      (((prod hp.1 hq.2).2.sub (prod hp.2 hq.1).2).step g1 over (by omega) (by omega)).1]
  rw [c, agree_normalize hf over t]
  · exact (agree_sub hf over (key hp.2).2.2.1 (key hq.2).2.2.2).2
  · exact (agree_sub hf over (key hq.1).2.2.2 (key hp.1).2.2.1).2
  · exact (((prod hp.1 hq.2).2.sub (prod hp.2 hq.1).2).step g1 over (by omega) (by omega)).2

/-! ### Homographies -/

theorem agree_row (hf : Fits f e n) (over : ℝ → ℝ) {a b c x y z : ℝ} (ha : Grid e n a) (hb : Grid e n b) (hc : Grid e n c) (hx : Grid e n x) (hy : Grid e n y) (hz : Grid e n z) :
    (f.arith over).rnd ((f.arith over).rnd ((f.arith over).rnd (a * x) + (f.arith over).rnd (b * y)) + (f.arith over).rnd (c * z)) =
      (binary f.p).rnd ((binary f.p).rnd ((binary f.p).rnd (a * x) + (binary f.p).rnd (b * y)) + (binary f.p).rnd (c * z)) ∧
    Grid (e + e) (n + n + 2) ((binary f.p).rnd ((binary f.p).rnd ((binary f.p).rnd (a * x) + (binary f.p).rnd (b * y)) + (binary f.p).rnd (c * z))) := by
  obtain ⟨g1, g2, g3, g4, g5⟩ := fits_bounds hf
  obtain ⟨a1, a2⟩ := (ha.mul hx).step g1 over (by omega) (by omega)
  obtain ⟨b1, b2⟩ := (hb.mul hy).step g1 over (by omega) (by omega)
  obtain ⟨c1, c2⟩ := (hc.mul hz).step g1 over (by omega) (by omega)
  obtain ⟨d1, d2⟩ := (a2.add b2).step g1 over (by omega) (by omega)
  obtain ⟨k1, k2⟩ := (d2.add (c2.mono le_rfl (show n + n ≤ n + n + 1 by omega))).step g1 over (by omega) (by omega)
  rw [a1, b1, c1, d1]
  exact ⟨k1, k2.mono le_rfl (by omega)⟩

theorem agree_app (hf : Fits f e n) (over : ℝ → ℝ) {a : Mat ℝ} {v : V3 ℝ} (ha : ∀ i j, Grid e n (a i j)) (hv : ∀ i, Grid e n (v i)) :
    app (f.arith over) a v = app (binary f.p) a v ∧ ∀ i, Grid (e + e) (n + n + 2) (app (binary f.p) a v i) :=
  ⟨funext fun i => (agree_row hf over (ha i 0) (ha i 1) (ha i 2) (hv 0) (hv 1) (hv 2)).1, fun i => (agree_row hf over (ha i 0) (ha i 1) (ha i 2) (hv 0) (hv 1) (hv 2)).2⟩

theorem agree_mul (hf : Fits f e n) (over : ℝ → ℝ) {a b : Mat ℝ} (ha : ∀ i j, Grid e n (a i j)) (hb : ∀ i j, Grid e n (b i j)) :
    mul (f.arith over) a b = mul (binary f.p) a b := by
  obtain ⟨g1, g2, g3, g4, g5⟩ := fits_bounds hf
  funext i j
  unfold mul
  obtain ⟨a1, a2⟩ := ((ha i 0).mul (hb 0 j)).step g1 over (by omega) (by omega)
  have b1 := (a2.step g1 over (by omega) (by omega)).1
  have i1 : (binary f.p).rnd ((binary f.p).rnd (a i 0 * b 0 j)) = (binary f.p).rnd (a i 0 * b 0 j) := roundTo_idem g1 _
  rw [zero_add, zero_add, a1, b1, i1]
  have := (agree_row hf over (ha i 0) (ha i 1) (ha i 2) (hb 0 j) (hb 1 j) (hb 2 j)).1
  rwa [a1] at this

theorem agree_image (hf : Fits f e n) (over : ℝ → ℝ) {a : Mat ℝ} {v : V3 ℝ} (ha : ∀ i j, Grid e n (a i j)) (hv : ∀ i, Grid e n (v i)) (h0 : app (binary f.p) a v 2 ≠ 0) :
    getXY (f.arith over) (app (f.arith over) a v) = getXY (binary f.p) (app (binary f.p) a v) := by
  obtain ⟨g1, g2, g3, g4, g5⟩ := fits_bounds hf
  obtain ⟨a1, a2⟩ := agree_app hf over ha hv
  rw [a1]
  unfold getXY
  rw [(agree_div g1 over (a2 0) ((a2 2).ge h0) (a2 2).2 (by omega) (by omega)).1, (agree_div g1 over (a2 1) ((a2 2).ge h0) (a2 2).2 (by omega) (by omega)).1]

/-! ### Convex hull -/

theorem agree_hullComp (hf : Fits f e n) (over : ℝ → ℝ) {input : List (Pt ℝ)} (h : ∀ p ∈ input, GridPt e n p) (piv : ℕ) :
    hullComp (f.arith over) input piv = hullComp (binary f.p) input piv := by
  funext i j
  unfold hullComp
  rcases h0 : input[piv]? with _ | p0
  · rfl
  rcases h1 : input[i]? with _ | p1
  · rfl
  rcases h2 : input[j]? with _ | p2
  · rfl
  have g0 := h _ (List.mem_of_getElem? h0)
  have g1 := h _ (List.mem_of_getElem? h1)
  have g2 := h _ (List.mem_of_getElem? h2)
  simp only
  rw [(agree_sub hf over g1.1 g0.1).1, (agree_sub hf over g1.2 g0.2).1, (agree_sub hf over g2.1 g0.1).1, (agree_sub hf over g2.2 g0.2).1,
    (agree_norm2 hf over (agree_sub hf over g1.1 g0.1).2 (agree_sub hf over g2.2 g0.2).2 (agree_sub hf over g2.1 g0.1).2 (agree_sub hf over g1.2 g0.2).2).2.1]

theorem hullPt_ok_mem {input : List (Pt ℝ)} {v2 : List ℕ} {i : ℕ} {p : Pt ℝ} (h : hullPt input v2 i = .ok p) : p ∈ input := by
  unfold hullPt at h
  split at h
  · cases h
  · split at h
    · cases h
    · rename_i h2
      cases h
      exact List.mem_of_getElem? h2

theorem agree_hullLoop (hf : Fits f e n) (over : ℝ → ℝ) (thr : ℝ) {input : List (Pt ℝ)} (h : ∀ p ∈ input, GridPt e n p) (v2 : List ℕ) :
    ∀ (fuel i1 i2 i3 : ℕ) (hull fp : List ℕ), hullLoop (f.arith over) thr input v2 fuel i1 i2 i3 hull fp = hullLoop (binary f.p) thr input v2 fuel i1 i2 i3 hull fp := by
  intro fuel
  induction fuel with
  | zero => intros; rfl
  | succ fuel ih =>
    intro i1 i2 i3 hull fp
    unfold hullLoop
    rcases e1 : hullPt input v2 i1 with p | _ | _ <;> rcases e2 : hullPt input v2 i2 with q | _ | _ <;> rcases e3 : hullPt input v2 i3 with r | _ | _ <;>
      rcases e4 : v2[i3]? with _ | k <;> try rfl
    simp only [agree_orientation hf over thr (h _ (hullPt_ok_mem e1)) (h _ (hullPt_ok_mem e2)) (h _ (hullPt_ok_mem e3)), ih]

theorem checkInput_congr {P : Type} {s s' : P → P → Bool} {pts : List P} (h : ∀ p ∈ pts, ∀ q ∈ pts, s p q = s' p q) : checkInput s pts = checkInput s' pts := by
  unfold checkInput
  split
  · rfl
  · rfl
  · rename_i a l _
    congr 1
    · rw [Bool.eq_iff_iff, List.all_eq_true, List.all_eq_true]
      apply forall₂_congr
      intro x hx
      have := List.of_mem_zip (show (x.1, x.2) ∈ (a :: l).zip (a :: l).tail from hx)
      rw [h _ this.1 _ (List.mem_of_mem_tail this.2)]
    · rw [h a (by simp) _ (by
        cases l with
        | nil => simp
        | cons b l =>
          rw [List.getLastD_eq_getLast?, List.getLast?_eq_some_getLast (by simp)]
          exact List.mem_cons_of_mem _ (List.getLast_mem _))]

theorem hullCopy_mem {input : List (Pt ℝ)} : ∀ (l : List ℕ) (r : List (Pt ℝ)), hullCopy input l = .ok r → ∀ p ∈ r, p ∈ input := by
  intro l
  induction l with
  | nil => intro r h; cases h; simp
  | cons k l ih =>
    intro r h
    unfold hullCopy at h
    split at h
    · cases h
    · rename_i p hp
      rcases hr : hullCopy input l with r' | _ | _
      · rw [hr] at h
        cases h
        intro q hq
        rcases List.mem_cons.1 hq with rfl | hq
        · exact List.mem_of_getElem? hp
        · exact ih r' hr q hq
      · rw [hr] at h; cases h
      · rw [hr] at h; cases h

theorem agree_hull (hf : Fits f e n) (over : ℝ → ℝ) (srt : (Nat → Nat → Bool) → List Nat → List Nat) (t : Thr ℝ) (thr : ℝ) {input : List (Pt ℝ)} (h : ∀ p ∈ input, GridPt e n p) :
    convexHull (f.arith over) srt t thr input = convexHull (binary f.p) srt t thr input := by
  classical
  have hs : ∀ pts : List (Pt ℝ), (∀ p ∈ pts, p ∈ input) → polySet (fun p q => decide (PtSame (f.arith over) t p q)) pts = polySet (fun p q => decide (PtSame (binary f.p) t p q)) pts := by
    intro pts hp
    unfold polySet
    rw [checkInput_congr (s' := fun p q => decide (PtSame (binary f.p) t p q))]
    intro p h1 q h2
    simp only [PtSame, (agree_dist hf over (h p (hp p h1)) (h q (hp q h2))).1]
  have hv : sortPoints (f.arith over) srt input (getPivot input) = sortPoints (binary f.p) srt input (getPivot input) := by
    unfold sortPoints
    rw [agree_hullComp hf over h]
  unfold convexHull
  simp only [hv, agree_hullLoop hf over thr h]
  split
  · convert hs input fun _ h => h
  · split
    · split
      · rename_i hull _
        rcases hc : hullCopy input hull.reverse with r | _ | _
        · have := hs r (hullCopy_mem _ _ hc)
          show polySet _ r = polySet _ r
          convert this
        · rfl
        · rfl
      all_goals rfl
    · rfl

end H2d.Fl
