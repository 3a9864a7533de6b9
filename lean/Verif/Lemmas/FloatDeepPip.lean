import Verif.Lemmas.FloatDeep

/-! # Limits of the format: polygons -/

namespace H2d.Fl
open H2d H2d.Spec

variable {f : Format} {e n : ℤ} {over : ℝ → ℝ}

/-! ### `isSimple()` -/

section
variable {P S : Type} {mk mk' : P → P → Res S} {i i' : S → S → Res (Option P)} {Q : P → Prop} {R : S → Prop} {pts : List P}

theorem edgeSeg_congr (hm : ∀ a b, Q a → Q b → mk a b = mk' a b) (h : ∀ p ∈ pts, Q p) (k : Nat) : Simple.edgeSeg mk pts k = Simple.edgeSeg mk' pts k := by
  unfold Simple.edgeSeg
  by_cases hk : k ≥ nbSegs true pts
  · rw [if_pos hk, if_pos hk]
  · rw [if_neg hk, if_neg hk]
    generalize h1 : pts[k]? = a
    generalize h2 : pts[if (k + 1 == nbSegs true pts) = true then 0 else k + 1]? = b
    rcases a with _ | a <;> rcases b with _ | b <;> try rfl
    exact hm a b (h a (List.mem_of_getElem? h1)) (h b (List.mem_of_getElem? h2))

theorem edgeSeg_has (hr : ∀ a b s, Q a → Q b → mk a b = .ok s → R s) (h : ∀ p ∈ pts, Q p) {k : Nat} {s : S} (e : Simple.edgeSeg mk pts k = .ok s) : R s := by
  unfold Simple.edgeSeg at e
  by_cases hk : k ≥ nbSegs true pts
  · rw [if_pos hk] at e
    cases e
  · rw [if_neg hk] at e
    generalize h1 : pts[k]? = a at e
    generalize h2 : pts[if (k + 1 == nbSegs true pts) = true then 0 else k + 1]? = b at e
    rcases a with _ | a <;> rcases b with _ | b <;> try cases e
    exact hr a b s (h a (List.mem_of_getElem? h1)) (h b (List.mem_of_getElem? h2)) e

theorem innerLoop_congr (hm : ∀ a b, Q a → Q b → mk a b = mk' a b) (hr : ∀ a b s, Q a → Q b → mk' a b = .ok s → R s) (hi : ∀ s s', R s → R s' → i s s' = i' s s') (h : ∀ p ∈ pts, Q p) {s1 : S} (h1 : R s1) (l : List Nat) :
    Simple.innerLoop mk i pts s1 l = Simple.innerLoop mk' i' pts s1 l := by
  induction l with
  | nil => rfl
  | cons j l ih =>
    unfold Simple.innerLoop
    rw [edgeSeg_congr hm h j]
    rcases e : Simple.edgeSeg mk' pts j with s | _ | _
    · simp only [Res.bind_ok]
      rw [hi s s1 (edgeSeg_has hr h e) h1, ih]
    · rfl
    · rfl

theorem outerLoop_congr (hm : ∀ a b, Q a → Q b → mk a b = mk' a b) (hr : ∀ a b s, Q a → Q b → mk' a b = .ok s → R s) (hi : ∀ s s', R s → R s' → i s s' = i' s s') (h : ∀ p ∈ pts, Q p) (l : List Nat) :
    Simple.outerLoop mk i pts l = Simple.outerLoop mk' i' pts l := by
  induction l with
  | nil => rfl
  | cons j l ih =>
    unfold Simple.outerLoop
    rw [edgeSeg_congr hm h j]
    rcases e : Simple.edgeSeg mk' pts j with s | _ | _
    · simp only [Res.bind_ok]
      rw [innerLoop_congr hm hr hi h (edgeSeg_has hr h e), ih]
    · rfl
    · rfl

theorem run_congr (hm : ∀ a b, Q a → Q b → mk a b = mk' a b) (hr : ∀ a b s, Q a → Q b → mk' a b = .ok s → R s) (hi : ∀ s s', R s → R s' → i s s' = i' s s') (h : ∀ p ∈ pts, Q p) (closed : Bool) :
    Simple.run mk i closed pts = Simple.run mk' i' closed pts := by
  unfold Simple.run
  rw [outerLoop_congr hm hr hi h]

end

theorem agree_simple (hf : FitsDeep f e n) (over : ℝ → ℝ) (t : Thr ℝ) (ac : ℝ → ℝ) (closed : Bool) {pts : List (Pt ℝ)} (h : ∀ p ∈ pts, GridPt e n p) :
    simpleF (f.arith over) t ac closed pts = simpleF (binary f.p) t ac closed pts :=
  run_congr (Q := GridPt e n) (R := GridSeg e n) (fun _ _ ha hb => agree_segMake (deep_fits hf) over t ha hb) (fun _ _ _ ha hb hs => grid_segMake ha hb hs) (fun _ _ h1 h2 => (agree_segInter hf over t ac h1 h2).1) h closed

theorem agree_polyArea (hf : FitsDeep f e n) (over : ℝ → ℝ) (t : Thr ℝ) (ac : ℝ → ℝ) (closed : Bool) {pts : List (Pt ℝ)} (h : ∀ p ∈ pts, GridPt e n p) (hl : 2 * (cycPairs pts).length ≤ 2 ^ f.p) :
    polyArea (f.arith over) t ac closed pts = polyArea (binary f.p) t ac closed pts := by
  unfold polyArea
  rw [agree_simple hf over t ac closed h, agree_area (deep_fits hf) over h hl]

/-! ### Centroid -/

/-- Sum of terms of moderate size. -/
theorem sum_agree (hp : 1 ≤ f.p) (over : ℝ → ℝ) {a b : ℤ} {α : Type} (g : Arith → α → ℝ) (l : List α) (hg : ∀ x ∈ l, g (f.arith over) x = g (binary f.p) x ∧ Grid a b (g (binary f.p) x)) (ha : f.emin ≤ a) (hb : b + f.p ≤ f.emax - 1) :
    ∀ (k : ℕ) (s : ℝ), (∃ m : ℤ, s = m * (2 : ℝ) ^ a) → |s| ≤ k * (2 : ℝ) ^ b → k + l.length ≤ 2 ^ f.p →
      l.foldl (fun s x => (f.arith over).rnd (s + g (f.arith over) x)) s = l.foldl (fun s x => (binary f.p).rnd (s + g (binary f.p) x)) s ∧
      Grid a (b + f.p) (l.foldl (fun s x => (binary f.p).rnd (s + g (binary f.p) x)) s) := by
  have big : ∀ (k : ℕ) (s : ℝ), |s| ≤ k * (2 : ℝ) ^ b → k ≤ 2 ^ f.p → |s| ≤ (2 : ℝ) ^ (b + f.p) := by
    intro k s hs hk
    refine le_trans hs ?_
    rw [zpow_add₀ (by norm_num) b, zpow_natCast, mul_comm]
    have : (k : ℝ) ≤ 2 ^ f.p := by exact_mod_cast hk
    have := two_zpow_pos b
    gcongr
  induction l with
  | nil =>
    intro k s hm hs hk
    exact ⟨rfl, hm, big k s hs (by simpa using hk)⟩
  | cons x l ih =>
    intro k s ⟨m, hm⟩ hs hk
    simp only [List.length_cons] at hk
    obtain ⟨x1, x2⟩ := hg x (by simp)
    have hb' : |s + g (binary f.p) x| ≤ ((k + 1 : ℕ) : ℝ) * (2 : ℝ) ^ b := by
      push_cast
      linarith [abs_add_le s (g (binary f.p) x), x2.2]
    have hgr : Grid a (b + f.p) (s + g (binary f.p) x) := by
      refine ⟨?_, big _ _ hb' (by omega)⟩
      obtain ⟨⟨m', hm'⟩, -⟩ := x2
      exact ⟨m + m', by rw [hm, hm']; push_cast; ring⟩
    obtain ⟨a1, a2⟩ := hgr.step hp over ha hb
    simp only [List.foldl_cons]
    rw [x1, a1]
    exact ih (fun y hy => hg y (by simp [hy])) (k + 1) _ a2.1 (roundTo_le_mul hp (by omega) hb') (by omega)

theorem agree_edgeProd (hf : Fits f e n) (over : ℝ → ℝ) {x : Pt ℝ × Pt ℝ} (h1 : GridPt e n x.1) (h2 : GridPt e n x.2) :
    edgeProd (f.arith over) x = edgeProd (binary f.p) x ∧ Grid (e + e) (n + n + 1) (edgeProd (binary f.p) x) := by
  obtain ⟨g1, g2, g3, g4, g5⟩ := fits_bounds hf
  exact (products_step g1 over h1.1 h2.2 h2.1 h1.2 (by omega) (by omega)).2

theorem agree_centroidRaw (hf : FitsDeep f e n) (over : ℝ → ℝ) {pts : List (Pt ℝ)} (h : ∀ p ∈ pts, GridPt e n p) (hl : 2 * (cycPairs pts).length ≤ 2 ^ f.p) :
    centroidRaw (f.arith over) pts = centroidRaw (binary f.p) pts := by
  have hf' := deep_fits hf
  obtain ⟨h1, h2, h3, h4, h5, h6⟩ := deep_bounds hf
  have h2' : (6 : ℤ) ≤ f.p := by exact_mod_cast h2
  have hc := cycPairs_mem (P := GridPt e n) h
  have hx := sum_agree h1 over (a := 3 * e) (b := 3 * n + 2) (fun F x => F.rnd (F.rnd (x.1.1 + x.2.1) * edgeProd F x)) (cycPairs pts) (fun x hx => by
      obtain ⟨p1, p2⟩ := hc x hx
      obtain ⟨a1, a2⟩ := (p1.1.add p2.1).step h1 over (by omega) (by omega)
      obtain ⟨b1, b2⟩ := agree_edgeProd hf' over p1 p2
      obtain ⟨c1, c2⟩ := (a2.mul b2).step h1 over (by omega) (by omega)
      simp only [a1, b1]
      exact ⟨c1, c2.mono (by omega) (by omega)⟩) (by omega) (by omega) 0 0 ⟨0, by simp⟩ (by simp) (by omega)
  have hy := sum_agree h1 over (a := 3 * e) (b := 3 * n + 2) (fun F x => F.rnd (F.rnd (x.1.2 + x.2.2) * edgeProd F x)) (cycPairs pts) (fun x hx => by
      obtain ⟨p1, p2⟩ := hc x hx
      obtain ⟨a1, a2⟩ := (p1.2.add p2.2).step h1 over (by omega) (by omega)
      obtain ⟨b1, b2⟩ := agree_edgeProd hf' over p1 p2
      obtain ⟨c1, c2⟩ := (a2.mul b2).step h1 over (by omega) (by omega)
      simp only [a1, b1]
      exact ⟨c1, c2.mono (by omega) (by omega)⟩) (by omega) (by omega) 0 0 ⟨0, by simp⟩ (by simp) (by omega)
  have ha := agree_area_fold hf' (fun _ => 0) (cycPairs pts) hc 0 0 ⟨0, by simp⟩ (by simp) (by omega)
  have hs : Grid (e + e - 1) (n + n + f.p) (signedArea (binary f.p) pts) := ha.2.half.rnd h1
  have g6 : Grid 0 3 (6 : ℝ) := ⟨⟨6, by norm_num⟩, by norm_num⟩
  obtain ⟨d1, d2⟩ := (g6.mul hs).step h1 over (by omega) (by omega)
  unfold centroidRaw momentX momentY
  rw [agree_area hf' over h hl]
  simp only [d1]
  rw [hx.1, hy.1]
  by_cases h0 : (binary f.p).rnd (6 * signedArea (binary f.p) pts) = 0
  · rw [if_pos h0, if_pos h0]
  · rw [if_neg h0, if_neg h0, (agree_div h1 over hx.2 (d2.ge h0) d2.2 (by omega) (by omega)).1, (agree_div h1 over hy.2 (d2.ge h0) d2.2 (by omega) (by omega)).1]

theorem agree_centroid (hf : FitsDeep f e n) (over : ℝ → ℝ) (t : Thr ℝ) (ac : ℝ → ℝ) (closed : Bool) {pts : List (Pt ℝ)} (h : ∀ p ∈ pts, GridPt e n p) (hl : 2 * (cycPairs pts).length ≤ 2 ^ f.p) :
    centroid (f.arith over) t ac closed pts = centroid (binary f.p) t ac closed pts := by
  unfold centroid
  rw [agree_simple hf over t ac closed h, agree_centroidRaw hf over h hl]

/-! ### Distances to lines and segments -/

theorem agree_lineDist (hf : FitsDeep f e n) (over : ℝ → ℝ) {l : V3 ℝ} {p : Pt ℝ} (hl : LineGrid f e n l) (hp : GridPt e n p) : lineDist (f.arith over) l p = lineDist (binary f.p) l p := by
  obtain ⟨h1, h2, h3, h4, h5, h6⟩ := deep_bounds hf
  have h2' : (6 : ℤ) ≤ f.p := by exact_mod_cast h2
  obtain ⟨⟨a1, a2⟩, -⟩ := products_step h1 over hl.1 hp.1 hl.2.1 hp.2 (by omega) (by omega)
  obtain ⟨b1, b2⟩ := (a2.add (hl.2.2.mono (show _ ≤ 2 * e - n - f.p - 1 from (by omega : e - n - f.p - 1 + e ≤ _)) (show _ ≤ n + 1 - e + n + 1 by omega))).step h1 over (by omega) (by omega)
  obtain ⟨c1, c2, c3⟩ := hyp_step h1 over hl.1 hl.2.1 (by omega) (by omega)
  unfold lineDist
  rw [a1, b1, c1]
  by_cases h0 : l 0 ≠ 0 ∨ l 1 ≠ 0
  · exact (agree_div h1 over b2.abs ((c3 h0).trans (le_abs_self _)) c2.2 (by omega) (by omega)).1
  · push Not at h0
    have e0 : (binary f.p).hyp (l 0) (l 1) = 0 := by
      rw [h0.1, h0.2]
      show roundTo f.p (Real.sqrt (0 ^ 2 + 0 ^ 2)) = _
      rw [show (0 : ℝ) ^ 2 + 0 ^ 2 = 0 by norm_num, Real.sqrt_zero, roundTo_zero]
    rw [e0, div_zero]
    exact ((Grid.zero e n).step h1 over (by omega) (by omega)).1

theorem norm2_step (hp : 1 ≤ f.p) (over : ℝ → ℝ) {a b : ℤ} {x y : ℝ} (hx : Grid a b x) (hy : Grid a b y) (ha : f.emin ≤ a + a) (hb : b + b + 1 ≤ f.emax - 1) :
    norm2 (f.arith over) x y = norm2 (binary f.p) x y ∧ Grid (a + a) (b + b + 1) (norm2 (binary f.p) x y) :=
  (products_step hp over hx hx hy hy ha hb).1

/-- End of the computation of the distance. -/
theorem dist_tail (hp : 1 ≤ f.p) (over : ℝ → ℝ) {a b : ℤ} {p q : Pt ℝ} (h1 : GridPt a b p) (h2 : GridPt a b q) (ha : f.emin + f.p - 1 ≤ a) (ha' : f.emin ≤ a + a) (hb : 2 * b + 4 ≤ f.emax - 1) (hb0 : b + 2 ≤ f.emax - 1) :
    sqrtF (f.arith over) (norm2 (f.arith over) ((f.arith over).rnd (p.1 - q.1)) ((f.arith over).rnd (p.2 - q.2))) =
    sqrtF (binary f.p) (norm2 (binary f.p) ((binary f.p).rnd (p.1 - q.1)) ((binary f.p).rnd (p.2 - q.2))) := by
  obtain ⟨a1, a2⟩ := (h1.1.sub h2.1).step hp over (by omega) (by omega)
  obtain ⟨b1, b2⟩ := (h1.2.sub h2.2).step hp over (by omega) (by omega)
  obtain ⟨c1, c2⟩ := norm2_step hp over a2 b2 ha' (by omega)
  rw [a1, b1, c1]
  obtain ⟨s1, -⟩ := sqrt_step hp over (c2.mono (show 2 * a ≤ _ by omega) (show _ ≤ 2 * (b + 2) by omega)) ha (by omega)
  unfold sqrtF
  rw [s1]

theorem agree_segDistTo (hf : FitsDeep f e n) (over : ℝ → ℝ) {s1 s2 p : Pt ℝ} (h1 : GridPt e n s1) (h2 : GridPt e n s2) (hp : GridPt e n p) :
    segDistTo (f.arith over) s1 s2 p = segDistTo (binary f.p) s1 s2 p := by
  obtain ⟨g1, g2, g3, g4, g5, g6⟩ := deep_bounds hf
  have g2' : (6 : ℤ) ≤ f.p := by exact_mod_cast g2
  obtain ⟨a1, a2⟩ := (hp.1.sub h1.1).step g1 over (by omega) (by omega)
  obtain ⟨b1, b2⟩ := (hp.2.sub h1.2).step g1 over (by omega) (by omega)
  obtain ⟨c1, c2⟩ := (h2.1.sub h1.1).step g1 over (by omega) (by omega)
  obtain ⟨d1, d2⟩ := (h2.2.sub h1.2).step g1 over (by omega) (by omega)
  obtain ⟨⟨k1, k2⟩, -⟩ := products_step g1 over a2 c2 b2 d2 (by omega) (by omega)
  obtain ⟨m1, m2⟩ := norm2_step g1 over c2 d2 (by omega) (by omega)
  unfold segDistTo
  simp only [a1, b1, c1, d1, k1, m1]
  unfold divF
  by_cases h0 : norm2 (binary f.p) ((binary f.p).rnd (s2.1 - s1.1)) ((binary f.p).rnd (s2.2 - s1.2)) = 0
  · rw [if_pos h0, if_pos h0]
    rfl
  rw [if_neg h0, if_neg h0]
  obtain ⟨q1, q2⟩ := agree_div g1 over k2 (m2.ge h0) m2.2 (by omega) (by omega)
  rw [q1]
  generalize (binary f.p).rnd ((binary f.p).rnd ((binary f.p).rnd ((binary f.p).rnd (p.1 - s1.1) * (binary f.p).rnd (s2.1 - s1.1)) + (binary f.p).rnd ((binary f.p).rnd (p.2 - s1.2) * (binary f.p).rnd (s2.2 - s1.2))) /
    norm2 (binary f.p) ((binary f.p).rnd (s2.1 - s1.1)) ((binary f.p).rnd (s2.2 - s1.2))) = param at q2
  simp only [Option.bind_eq_bind, Option.bind_some]
  by_cases hp0 : param < 0
  · simp only [if_pos hp0]
    rw [dist_tail g1 over hp h1 (by omega) (by omega) (by omega) (by omega)]
  by_cases hp1 : param > 1
  · simp only [if_neg hp0, if_pos hp1]
    rw [dist_tail g1 over hp h2 (by omega) (by omega) (by omega) (by omega)]
  simp only [if_neg hp0, if_neg hp1]
  have q3 : Grid (2 * e - 2 * n - 2 - f.p) 0 param := by
    refine ⟨(q2.mono (show 2 * e - 2 * n - 2 - f.p ≤ _ by omega) le_rfl).1, ?_⟩
    rw [abs_of_nonneg (not_lt.1 hp0), zpow_zero]
    exact not_lt.1 hp1
  obtain ⟨r1, r2⟩ := (q3.mul c2).step g1 over (by omega) (by omega)
  obtain ⟨t1, t2⟩ := (q3.mul d2).step g1 over (by omega) (by omega)
  have up : ∀ {x : ℝ}, Grid e n x → Grid (3 * e - 2 * n - 2 - f.p) (n + 1) x := fun h => h.mono (by omega) (by omega)
  obtain ⟨u1, u2⟩ := ((up h1.1).add (r2.mono (show 3 * e - 2 * n - 2 - f.p ≤ _ by omega) (show _ ≤ n + 1 by omega))).step g1 over (by omega) (by omega)
  obtain ⟨v1, v2⟩ := ((up h1.2).add (t2.mono (show 3 * e - 2 * n - 2 - f.p ≤ _ by omega) (show _ ≤ n + 1 by omega))).step g1 over (by omega) (by omega)
  rw [r1, t1, u1, v1]
  rw [dist_tail g1 over (p := p) (q := ((binary f.p).rnd (s1.1 + (binary f.p).rnd (param * (binary f.p).rnd (s2.1 - s1.1))), (binary f.p).rnd (s1.2 + (binary f.p).rnd (param * (binary f.p).rnd (s2.2 - s1.2)))))
    ⟨(up hp.1).mono le_rfl (show _ ≤ n + 2 by omega), (up hp.2).mono le_rfl (show _ ≤ n + 2 by omega)⟩ ⟨u2.mono le_rfl (by omega), v2.mono le_rfl (by omega)⟩ (by omega) (by omega) (by omega) (by omega)]

/-! ### Point inside a polygon -/

theorem agree_polySegs (hf : Fits f e n) (over : ℝ → ℝ) (t : Thr ℝ) {l : List (Pt ℝ × Pt ℝ)} (h : ∀ x ∈ l, GridPt e n x.1 ∧ GridPt e n x.2) :
    polySegs (f.arith over) t l = polySegs (binary f.p) t l ∧ ∀ r, polySegs (binary f.p) t l = .ok r → ∀ s ∈ r, GridSeg e n s := by
  induction l with
  | nil => exact ⟨rfl, fun r hr s hs => by cases hr; cases hs⟩
  | cons x l ih =>
    obtain ⟨i1, i2⟩ := ih fun y hy => h y (by simp [hy])
    obtain ⟨x1, x2⟩ := h x (by simp)
    unfold polySegs
    rw [agree_segMake hf over t x1 x2, i1]
    refine ⟨rfl, fun r hr => ?_⟩
    rcases e1 : segMake (binary f.p) t x.1 x.2 with s | _ | _ <;> rw [e1] at hr <;> try cases hr
    rcases e2 : polySegs (binary f.p) t l with r' | _ | _ <;> rw [e2] at hr <;> try cases hr
    intro y hy
    rcases List.mem_cons.1 hy with rfl | hy
    · exact grid_segMake x1 x2 e1
    · exact i2 r' e2 y hy

theorem agree_nearLine (hf : FitsDeep f e n) (over : ℝ → ℝ) (t : Thr ℝ) {p : Pt ℝ} (hp : GridPt e n p) {l : List Seg} (h : ∀ s ∈ l, GridSeg e n s) :
    nearLine (f.arith over) t p l = nearLine (binary f.p) t p l := by
  induction l with
  | nil => rfl
  | cons s l ih =>
    have hs := h s (by simp)
    unfold nearLine
    rw [agree_lineOfPts (deep_fits hf) over t hs.1 hs.2, ih fun y hy => h y (by simp [hy])]
    rcases e1 : lineOfPts (binary f.p) t s.1 s.2 with li | _ | _
    · simp only [Res.bind_ok]
      rw [agree_lineDist hf over (grid_lineOfPts (deep_fits hf) t hs.1 hs.2 e1) hp]
    · rfl
    · rfl

theorem agree_pipCount (hf : FitsDeep f e n) (over : ℝ → ℝ) (t : Thr ℝ) (ac : ℝ → ℝ) {ref : Seg} (hr : GridSeg e n ref) {l : List Seg} (h : ∀ s ∈ l, GridSeg e n s) :
    pipCount (f.arith over) t ac ref l = pipCount (binary f.p) t ac ref l := by
  induction l with
  | nil => rfl
  | cons s l ih =>
    unfold pipCount
    rw [(agree_segInter hf over t ac (h s (by simp)) hr).1, ih fun y hy => h y (by simp [hy])]

theorem GridPt.mono' {a b c d : ℤ} {p : Pt ℝ} (h : GridPt a b p) (h1 : c ≤ a) (h2 : b ≤ d) : GridPt c d p := ⟨h.1.mono h1 h2, h.2.mono h1 h2⟩

theorem center_step (hp : 1 ≤ f.p) (over : ℝ → ℝ) {a b : ℤ} {p q : Pt ℝ} (h1 : GridPt a b p) (h2 : GridPt a b q) (ha : f.emin ≤ a - 1) (hb : b + 1 ≤ f.emax - 1) :
    center (f.arith over) p q = center (binary f.p) p q ∧ GridPt (a - 1) b (center (binary f.p) p q) := by
  have hh : ∀ {x : ℝ}, Grid a (b + 1) x → Grid (a - 1) b (x / 2) := fun {x} hx => by
    refine ⟨hx.half.1, ?_⟩
    have := hx.2
    rw [zpow_add₀ (by norm_num), zpow_one] at this
    rw [abs_div, abs_two]
    linarith
  obtain ⟨a1, a2⟩ := (h1.1.add h2.1).step hp over (by omega) hb
  obtain ⟨b1, b2⟩ := (h1.2.add h2.2).step hp over (by omega) hb
  obtain ⟨c1, c2⟩ := (hh a2).step hp over ha (by omega)
  obtain ⟨d1, d2⟩ := (hh b2).step hp over ha (by omega)
  unfold center
  rw [a1, b1, c1, d1]
  exact ⟨rfl, c2, d2⟩

theorem agree_pipTry (hf : FitsDeep f e n) (over : ℝ → ℝ) (t : Thr ℝ) (ac : ℝ → ℝ) {pts : List (Pt ℝ)} {segs : List Seg} {p : Pt ℝ} (hpts : ∀ q ∈ pts, GridPt e n q) (hsegs : ∀ s ∈ segs, GridSeg e n s) (hp : GridPt e n p)
    {a : ℤ} (ha : e + 1 ≤ a) : ∀ (l : List Seg) (c : Bool), (∀ s ∈ l, GridSeg a n s) → pipTry (f.arith over) t ac pts segs p l c = pipTry (binary f.p) t ac pts segs p l c := by
  obtain ⟨h1, h2, h3, h4, h5, h6⟩ := deep_bounds hf
  have h2' : (6 : ℤ) ≤ f.p := by exact_mod_cast h2
  intro l
  induction l with
  | nil => intro c _; rfl
  | cons s l ih =>
    intro c h
    have hs := h s (by simp)
    obtain ⟨c1, c2⟩ := center_step h1 over hs.1 hs.2 (by omega) (by omega)
    have c3 : GridPt e n (center (binary f.p) s.1 s.2) := GridPt.mono' c2 (by omega) le_rfl
    unfold pipTry
    rw [c1, agree_segMake (deep_fits hf) over t hp c3]
    rcases e1 : segMake (binary f.p) t p (center (binary f.p) s.1 s.2) with r | _ | _
    · have hr := grid_segMake hp c3 e1
      simp only [Res.bind_ok]
      have ev : pts.any (vertexClose (f.arith over) t r) = pts.any (vertexClose (binary f.p) t r) := by
        rw [Bool.eq_iff_iff]
        simp only [List.any_eq_true]
        have : ∀ q ∈ pts, vertexClose (f.arith over) t r q = vertexClose (binary f.p) t r q := fun q hq => by
          unfold vertexClose
          rw [agree_segDistTo hf over hr.1 hr.2 (hpts q hq)]
        exact ⟨fun ⟨q, hq, k⟩ => ⟨q, hq, this q hq ▸ k⟩, fun ⟨q, hq, k⟩ => ⟨q, hq, (this q hq).symm ▸ k⟩⟩
      rw [ev, ih _ fun y hy => h y (by simp [hy]), agree_pipCount hf over t ac hr hsegs]
    · rfl
    · rfl

theorem agree_splitAll (hp : 1 ≤ f.p) (over : ℝ → ℝ) (t : Thr ℝ) {a : ℤ} (hf : Fits f (a - 1) n) {l : List Seg} (h : ∀ s ∈ l, GridSeg a n s) :
    splitAll (f.arith over) t l = splitAll (binary f.p) t l ∧ ∀ r, splitAll (binary f.p) t l = .ok r → ∀ s ∈ r, GridSeg (a - 1) n s := by
  obtain ⟨g1, g2, g3, g4, g5⟩ := fits_bounds hf
  induction l with
  | nil => exact ⟨rfl, fun r hr s hs => by cases hr; cases hs⟩
  | cons s l ih =>
    obtain ⟨i1, i2⟩ := ih fun y hy => h y (by simp [hy])
    have hs := h s (by simp)
    obtain ⟨c1, c2⟩ := center_step hp over hs.1 hs.2 (by omega) (by omega)
    have s1 : GridPt (a - 1) n s.1 := GridPt.mono' hs.1 (by omega) le_rfl
    have s2 : GridPt (a - 1) n s.2 := GridPt.mono' hs.2 (by omega) le_rfl
    unfold splitAll
    rw [c1, agree_segMake hf over t s1 c2, agree_segMake hf over t c2 s2, i1]
    refine ⟨rfl, fun r hr => ?_⟩
    rcases e1 : segMake (binary f.p) t s.1 (center (binary f.p) s.1 s.2) with x | _ | _ <;> rw [e1] at hr <;> try cases hr
    rcases e2 : segMake (binary f.p) t (center (binary f.p) s.1 s.2) s.2 with y | _ | _ <;> rw [e2] at hr <;> try cases hr
    rcases e3 : splitAll (binary f.p) t l with r' | _ | _ <;> rw [e3] at hr <;> try cases hr
    intro z hz
    rcases List.mem_cons.1 hz with rfl | hz
    · exact grid_segMake s1 c2 e1
    rcases List.mem_cons.1 hz with rfl | hz
    · exact grid_segMake c2 s2 e2
    · exact i2 r' e3 z hz

theorem agree_pipLoop (hf : FitsDeep f e n) (over : ℝ → ℝ) (t : Thr ℝ) (ac : ℝ → ℝ) {pts : List (Pt ℝ)} {segs : List Seg} {p : Pt ℝ} (hpts : ∀ q ∈ pts, GridPt e n q) (hsegs : ∀ s ∈ segs, GridSeg e n s) (hp : GridPt e n p) :
    ∀ (k : ℕ) (a : ℤ) (l : List Seg), e + k ≤ a → a ≤ 0 → (∀ s ∈ l, GridSeg a n s) → pipLoop (f.arith over) t ac pts segs p k l = pipLoop (binary f.p) t ac pts segs p k l := by
  obtain ⟨h1, h2, h3, h4, h5, h6⟩ := deep_bounds hf
  have h2' : (6 : ℤ) ≤ f.p := by exact_mod_cast h2
  intro k
  induction k with
  | zero => intro a l _ _ _; rfl
  | succ k ih =>
    intro a l ha ha0 h
    push_cast at ha
    have hfa : Fits f (a - 1) n := ⟨h2, by omega, h4, by omega, by omega⟩
    obtain ⟨s1, s2⟩ := agree_splitAll h1 over t hfa h
    unfold pipLoop
    rw [agree_pipTry hf over t ac hpts hsegs hp (by omega) l false h, s1]
    rcases e1 : pipTry (binary f.p) t ac pts segs p l false with b | _ | _
    · simp only [Res.bind_ok]
      rcases b with _ | b
      · simp only
        split_ifs
        · rfl
        · rcases e2 : splitAll (binary f.p) t l with r | _ | _
          · simp only [Res.bind_ok]
            exact ih (a - 1) r (by omega) (by omega) (s2 r e2)
          · rfl
          · rfl
      · rfl
    · rfl
    · rfl

theorem rectOfPts_step (hp : 1 ≤ f.p) (over : ℝ → ℝ) (t : Thr ℝ) {a b : ℤ} {p q : Pt ℝ} (h1 : GridPt a b p) (h2 : GridPt a b q) (ha : f.emin ≤ a) (hb : b + 1 ≤ f.emax - 1) :
    rectOfPts (f.arith over) t p q = rectOfPts (binary f.p) t p q := by
  have e2 : ShareCoord (f.arith over) t p q ↔ ShareCoord (binary f.p) t p q := by
    unfold ShareCoord
    rw [((h1.1.sub h2.1).step hp over (by omega) (by omega)).1, ((h1.2.sub h2.2).step hp over (by omega) (by omega)).1]
  unfold rectOfPts
  simp only [e2]

end H2d.Fl
