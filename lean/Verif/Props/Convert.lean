import Verif.Lemmas.Convert

/-! # C126: conversions between number types -/

namespace H2d.Props

open H2d.Spec H2d.Fl H2d.Conv

variable {F G : Arith} {u v : ℝ}

/-- **C126, to a type with more bits.** Points, lines, matrices, rectangles, circles, segments (whose ends are ordered) and polylines are not changed by a conversion to a type with at least as many bits;
converting back gives the same object. -/
theorem C126_widen {p q : ℕ} (hp : 6 ≤ p) (hpq : p ≤ q) (t : Thr ℝ) :
    (∀ x : Pt ℝ, Rep (binary p) x.1 → Rep (binary p) x.2 → pt (binary q) x = x ∧ pt (binary p) (pt (binary q) x) = x) ∧
    (∀ l : V3 ℝ, (∀ i, Rep (binary p) (l i)) → vec (binary q) l = l ∧ vec (binary p) (vec (binary q) l) = l) ∧
    (∀ a : Mat ℝ, (∀ i j, Rep (binary p) (a i j)) → mat (binary q) a = a ∧ mat (binary p) (mat (binary q) a) = a) ∧
    (∀ r : FRect ℝ, (∀ x, x = r.p1 ∨ x = r.p2 → Rep (binary p) x.1 ∧ Rep (binary p) x.2) → rect (binary q) r = r ∧ rect (binary p) (rect (binary q) r) = r) ∧
    (∀ c : Pt ℝ × ℝ, Rep (binary p) c.1.1 → Rep (binary p) c.1.2 → Rep (binary p) c.2 → circ (binary q) c = c ∧ circ (binary p) (circ (binary q) c) = c) ∧
    (∀ (o : Bool) (s : Seg), (∀ x, x = s.1 ∨ x = s.2 → Rep (binary p) x.1 ∧ Rep (binary p) x.2) → LexLt s.1 s.2 → seg (binary q) o s = s ∧ seg (binary p) o (seg (binary q) o s) = s) ∧
    (∀ pts : List (Pt ℝ), (∀ x ∈ pts, Rep (binary p) x.1 ∧ Rep (binary p) x.2) → ∀ l, poly (binary p) (binary q) t pts = .ok l → l = pts) := by
  have w : ∀ {x}, Rep (binary p) x → (binary q).rnd x = x := fun h => rep_wider (by omega) hpq h
  have n : ∀ {x}, Rep (binary p) x → (binary p).rnd x = x := fun h => h
  have wp : ∀ {x : Pt ℝ}, Rep (binary p) x.1 ∧ Rep (binary p) x.2 → pt (binary q) x = x := fun h => pt_rep ⟨w h.1, w h.2⟩
  have np : ∀ {x : Pt ℝ}, Rep (binary p) x.1 ∧ Rep (binary p) x.2 → pt (binary p) x = x := fun h => pt_rep h
  refine ⟨fun x h1 h2 => ?_, fun l h => ?_, fun a h => ?_, fun r h => ?_, fun c h1 h2 h3 => ?_, fun o s h hs => ?_, fun pts h l hl => ?_⟩
  · rw [wp ⟨h1, h2⟩]; exact ⟨rfl, np ⟨h1, h2⟩⟩
  · have e : vec (binary q) l = l := funext fun i => w (h i)
    rw [e]; exact ⟨rfl, funext fun i => n (h i)⟩
  · have e : mat (binary q) a = a := funext fun i => funext fun j => w (h i j)
    rw [e]; exact ⟨rfl, funext fun i => funext fun j => n (h i j)⟩
  · have e : rect (binary q) r = r := by unfold rect; rw [wp (h _ (Or.inl rfl)), wp (h _ (Or.inr rfl))]
    rw [e]; exact ⟨rfl, by unfold rect; rw [np (h _ (Or.inl rfl)), np (h _ (Or.inr rfl))]⟩
  · have e : circ (binary q) c = c := by unfold circ; rw [wp ⟨h1, h2⟩, w h3]
    rw [e]; exact ⟨rfl, by unfold circ; rw [np ⟨h1, h2⟩, n h3]⟩
  · have f : segConvert o s = s := by
      unfold segConvert
      split_ifs
      · rfl
      · exact fixOrder_of_lt hs
    have e : seg (binary q) o s = s := by unfold seg; rw [wp (h _ (Or.inl rfl)), wp (h _ (Or.inr rfl))]; exact f
    rw [e]; exact ⟨rfl, by unfold seg; rw [np (h _ (Or.inl rfl)), np (h _ (Or.inr rfl))]; exact f⟩
  · unfold poly polySet at hl
    split_ifs at hl with k
    · cases hl
      conv_rhs => rw [← List.map_id pts]
      exact List.map_congr_left fun x hx => wp (h x hx)
    · cases hl

/-- **C126, distances.** A converted point is at a relative distance of at most `u` of the point; the distance of two points changes by at most `u` times the sum of their distances to the origin. -/
theorem C126_distances (h : FlOk F u v) (p q : Pt ℝ) :
    eucl (pt F p) p ≤ u * eucl p (0, 0) ∧ |eucl (pt F p) (pt F q) - eucl p q| ≤ u * (eucl p (0, 0) + eucl q (0, 0)) := ⟨pt_close h p, dist_close h p q⟩

/-- **C126, order.** Converted rectangles have their corners in the right order. The ends of a converted segment are not in the wrong order. A radius stays positive. A point that is not inside a rectangle is not inside it after conversion. -/
theorem C126_order (h : FlOk F u v) :
    (∀ r : FRect ℝ, r.p1.1 ≤ r.p2.1 → r.p1.2 ≤ r.p2.2 → (rect F r).p1.1 ≤ (rect F r).p2.1 ∧ (rect F r).p1.2 ≤ (rect F r).p2.2) ∧
    (∀ s : Seg, ¬ LexLt (seg F false s).2 (seg F false s).1 ∧ (seg F false s = (pt F s.1, pt F s.2) ∨ seg F false s = (pt F s.2, pt F s.1))) ∧
    (∀ c : Pt ℝ × ℝ, 0 < c.2 → 0 < (circ F c).2 ∧ |(circ F c).2 - c.2| ≤ u * c.2) ∧
    (∀ (p : Pt ℝ) (r : FRect ℝ), Pt.isInsideRect p r = false → Pt.isInsideRect (pt F p) (rect F r) = false) := by
  refine ⟨fun r h1 h2 => ⟨h.mono h1, h.mono h2⟩, fun s => ?_, fun c hc => ⟨rnd_pos' h hc, ?_⟩, fun p r hr => ?_⟩
  · have := fixOrder_spec (pt F s.1) (pt F s.2)
    exact ⟨this.2, this.1⟩
  · have := h.err c.2
    rwa [abs_of_pos hc] at this
  · rw [Bool.eq_false_iff] at hr ⊢
    intro k
    rw [insideRect_iff] at k
    exact hr ((insideRect_iff p r).2 ⟨rnd_lt h k.1, rnd_lt h k.2.1, rnd_lt h k.2.2.1, rnd_lt h k.2.2.2⟩)

/-- **C126, segments built from points of another type.** The constructor throws exactly when it would for a segment of the type of the points, and if it does not, it has the same result as the conversion of that segment. The ends of an oriented segment are
the converted points, in that order. Without orientation, the order of the points does not matter. -/
theorem C126_segment_points (t : Thr ℝ) (p q : Pt ℝ) (o : Bool) :
    (segOf G F t o p q = .throw ↔ Fl.segMake G t p q = .throw) ∧ segOf G F t o p q ≠ .ub ∧
    (∀ s, segOf G F t true p q = .ok s → s = (pt F p, pt F q)) ∧
    (∀ s, segOf G F t false p q = .ok s → ¬ LexLt s.2 s.1 ∧ (s = (pt F p, pt F q) ∨ s = (pt F q, pt F p))) ∧
    (∀ s, Fl.segMake G t p q = .ok s → segOf G F t false p q = .ok (seg F false s)) ∧ (FlOk G u v → segOf G F t false p q = segOf G F t false q p) := by
  have hcomm : FlOk G u v → (PtSame G t q p ↔ PtSame G t p q) := fun h => by show distPt G q p < _ ↔ distPt G p q < _; rw [distPt_comm h]
  unfold segOf Fl.segMake
  by_cases hs : PtSame G t p q
  · refine ⟨by simp [hs], by simp [hs], by simp [hs], by simp [hs], by simp [hs], fun h => ?_⟩
    rw [if_pos hs, if_pos ((hcomm h).2 hs)]
  · simp only [if_neg hs]
    refine ⟨by simp, by simp, fun s h => ?_, fun s h => ?_, fun s h => ?_, fun h => ?_⟩
    · cases h; rfl
    · cases h
      have := fixOrder_spec (pt F p) (pt F q)
      exact ⟨this.2, this.1⟩
    · cases h
      show Res.ok (fixOrder _ _) = .ok (fixOrder _ _)
      rcases Pip.fixOrder_cases p q with e | e <;> rw [e]
      rw [fixOrder_comm]; rfl
    · rw [if_neg fun k => hs ((hcomm h).1 k)]
      show Res.ok (fixOrder _ _) = .ok (fixOrder _ _)
      rw [fixOrder_comm]

/-- **C126, bounding box.** The bounding box of the converted points is the converted bounding box. -/
theorem C126_box (h : FlOk F u v) {pts : List (Pt ℝ)} {lo hi : Pt ℝ} (hb : IsTightBox (fun q => q ∈ pts) lo hi) :
    IsTightBox (fun q => q ∈ pts.map (pt F)) (pt F lo) (pt F hi) := by
  obtain ⟨c, ⟨l, hl, el⟩, ⟨r, hr, er⟩, ⟨b, hb, eb⟩, ⟨t, ht, et⟩⟩ := hb
  refine ⟨fun q hq => ?_, ⟨_, List.mem_map.2 ⟨l, hl, rfl⟩, by simp [pt, el]⟩, ⟨_, List.mem_map.2 ⟨r, hr, rfl⟩, by simp [pt, er]⟩, ⟨_, List.mem_map.2 ⟨b, hb, rfl⟩, by simp [pt, eb]⟩,
    ⟨_, List.mem_map.2 ⟨t, ht, rfl⟩, by simp [pt, et]⟩⟩
  obtain ⟨x, hx, rfl⟩ := List.mem_map.1 hq
  obtain ⟨k1, k2, k3, k4⟩ := c x hx
  exact ⟨h.mono k1, h.mono k2, h.mono k3, h.mono k4⟩

/-- **C126, area and length.** Change of the area and of the length of a polyline by a conversion. -/
theorem C126_measures (h : FlOk F u v) (closed : Bool) (pts : List (Pt ℝ)) :
    |signedArea (pts.map (pt F)) - signedArea pts| ≤ (2 * u + u ^ 2) * (((cycPairs pts).map fun e => |e.1.1 * e.2.2| + |e.1.2 * e.2.1|).sum / 2) ∧
    |((segPairs closed (pts.map (pt F))).map fun e => eucl e.1 e.2).sum - ((segPairs closed pts).map fun e => eucl e.1 e.2).sum| ≤
      u * ((segPairs closed pts).map fun e => eucl e.1 (0, 0) + eucl e.2 (0, 0)).sum := by
  constructor
  · unfold signedArea
    rw [cycPairs_map, List.map_map, ← sub_div, abs_div, abs_of_pos (show (0 : ℝ) < 2 by norm_num), ← mul_div_assoc]
    refine div_le_div_of_nonneg_right ?_ (by norm_num)
    rw [← List.sum_map_mul_left]
    refine sum_close _ _ _ _ fun e _ => ?_
    have a := mul_close h e.1.1 e.2.2
    have b := mul_close h e.1.2 e.2.1
    have c := abs_sub (F.rnd e.1.1 * F.rnd e.2.2 - e.1.1 * e.2.2) (F.rnd e.1.2 * F.rnd e.2.1 - e.1.2 * e.2.1)
    simp only [Function.comp, pt, Prod.map]
    rw [show F.rnd e.1.1 * F.rnd e.2.2 - F.rnd e.1.2 * F.rnd e.2.1 - (e.1.1 * e.2.2 - e.1.2 * e.2.1) =
      (F.rnd e.1.1 * F.rnd e.2.2 - e.1.1 * e.2.2) - (F.rnd e.1.2 * F.rnd e.2.1 - e.1.2 * e.2.1) by ring]
    linarith
  · rw [segPairs_map, List.map_map, ← List.sum_map_mul_left]
    exact sum_close _ _ _ _ fun e _ => dist_close h e.1 e.2

/-- **C126, lines.** The values `a`, `b` of a converted line are normalised up to a relative error `u`. Each point of the line is near a point of the converted line. -/
theorem C126_line (h : FlOk F u v) {l : V3 ℝ} (hn : l 0 ^ 2 + l 1 ^ 2 = 1) :
    |Real.sqrt (vec F l 0 ^ 2 + vec F l 1 ^ 2) - 1| ≤ u ∧
    ∀ p, On l p → ∃ q, On (vec F l) q ∧ (1 - u) * eucl p q ≤ u * (|l 0 * p.1| + |l 1 * p.2| + |l 2|) := by
  have a := h.err (l 0)
  have b := h.err (l 1)
  have c := h.err (l 2)
  have hu := h.u_nonneg
  have us := h.u_small
  have e0 : eucl (l 0, l 1) (0, 0) = 1 := by rw [eucl_eq_iff (by norm_num)]; simp only [sub_zero]; linarith
  have k := dist_close h (l 0, l 1) (0, 0)
  have k' : |Real.sqrt (vec F l 0 ^ 2 + vec F l 1 ^ 2) - 1| ≤ u := by
    rw [e0, show eucl (0, 0) (0, 0) = 0 from eucl_self _, add_zero, mul_one] at k
    unfold eucl pt at k
    simp only [rnd_zero h, sub_zero] at k
    exact k
  refine ⟨k', fun p hp => ?_⟩
  set n := Real.sqrt (vec F l 0 ^ 2 + vec F l 1 ^ 2) with hnd
  have hn1 : 1 - u ≤ n := by have := (abs_le.1 k').1; linarith
  have hn0 : 0 < n := by linarith
  have hsq : n ^ 2 = vec F l 0 ^ 2 + vec F l 1 ^ 2 := Real.sq_sqrt (by positivity)
  set d := vec F l 0 * p.1 + vec F l 1 * p.2 + vec F l 2 with hdd
  have hd : |d| ≤ u * (|l 0 * p.1| + |l 1 * p.2| + |l 2|) := by
    have hp' : l 0 * p.1 + l 1 * p.2 + l 2 = 0 := hp
    have e : d = (F.rnd (l 0) - l 0) * p.1 + (F.rnd (l 1) - l 1) * p.2 + (F.rnd (l 2) - l 2) := by
      rw [hdd]; unfold vec; linarith
    rw [e, abs_mul, abs_mul]
    have q1 := abs_add_le ((F.rnd (l 0) - l 0) * p.1 + (F.rnd (l 1) - l 1) * p.2) (F.rnd (l 2) - l 2)
    have q2 := abs_add_le ((F.rnd (l 0) - l 0) * p.1) ((F.rnd (l 1) - l 1) * p.2)
    rw [abs_mul, abs_mul] at q2
    have q3 := mul_le_mul_of_nonneg_right a (abs_nonneg p.1)
    have q4 := mul_le_mul_of_nonneg_right b (abs_nonneg p.2)
    linarith
  refine ⟨(p.1 - d / n ^ 2 * vec F l 0, p.2 - d / n ^ 2 * vec F l 1), ?_, ?_⟩
  · unfold On
    simp only
    have : vec F l 0 * (p.1 - d / n ^ 2 * vec F l 0) + vec F l 1 * (p.2 - d / n ^ 2 * vec F l 1) + vec F l 2 = d - d / n ^ 2 * (vec F l 0 ^ 2 + vec F l 1 ^ 2) := by rw [hdd]; ring
    rw [this, ← hsq, div_mul_cancel₀ _ (by positivity), sub_self]
  · have : eucl p (p.1 - d / n ^ 2 * vec F l 0, p.2 - d / n ^ 2 * vec F l 1) = |d| / n := by
      rw [eucl_eq_iff (by positivity)]
      simp only [sub_sub_cancel]
      rw [div_pow, sq_abs, mul_pow, mul_pow, ← mul_add, ← hsq]
      field_simp
    rw [this]
    have : (1 - u) * (|d| / n) ≤ n * (|d| / n) := mul_le_mul_of_nonneg_right hn1 (by positivity)
    rw [mul_div_cancel₀ _ hn0.ne'] at this
    linarith

/-- **C126, objects that are not too small.** If the sizes are large compared to the null distances and to the errors of conversion, a converted rectangle, segment or polyline is one that the constructor of the target type accepts. -/
theorem C126_valid_partial (h : FlOk F u v) {t : Thr ℝ} (ht : 0 < t.nullDistance) (ho : 0 < t.nullOrthogDistance) :
    (∀ r : FRect ℝ, 2 * t.nullOrthogDistance + u * (|r.p1.1| + |r.p2.1|) ≤ r.p2.1 - r.p1.1 → 2 * t.nullOrthogDistance + u * (|r.p1.2| + |r.p2.2|) ≤ r.p2.2 - r.p1.2 →
      rectOfPts F t (rect F r).p1 (rect F r).p2 = .ok (rect F r)) ∧
    (∀ s : Seg, 2 * t.nullDistance + u * (eucl s.1 (0, 0) + eucl s.2 (0, 0)) ≤ eucl s.1 s.2 → Fl.segMake F t (seg F false s).1 (seg F false s).2 = .ok (seg F false s)) ∧
    (∀ pts l : List (Pt ℝ), (∀ e ∈ cycPairs pts, 2 * t.nullDistance + u * (eucl e.1 (0, 0) + eucl e.2 (0, 0)) ≤ eucl e.1 e.2) → poly G F t pts = .ok l → poly F F t l = .ok l) := by
  refine ⟨fun r h1 h2 => ?_, fun s hs => ?_, fun pts l hl hc => ?_⟩
  · have key : ∀ x y : ℝ, 2 * t.nullOrthogDistance + u * (|x| + |y|) ≤ y - x → 2 * t.nullOrthogDistance ≤ F.rnd y - F.rnd x := by
      intro x y hxy
      have a := abs_le.1 (h.err x)
      have b := abs_le.1 (h.err y)
      linarith
    have k1 := key _ _ h1
    have k2 := key _ _ h2
    unfold rectOfPts rect pt
    simp only
    rw [if_neg, min_eq_left (by linarith), min_eq_left (by linarith), max_eq_right (by linarith), max_eq_right (by linarith)]
    rintro (k | k)
    · exact absurd (rnd_ge_half h ho (x := F.rnd r.p1.1 - F.rnd r.p2.1) (by rw [abs_sub_comm, abs_of_nonneg] <;> linarith)) (not_le.2 k)
    · exact absurd (rnd_ge_half h ho (x := F.rnd r.p1.2 - F.rnd r.p2.2) (by rw [abs_sub_comm, abs_of_nonneg] <;> linarith)) (not_le.2 k)
  · have hd := (abs_le.1 (dist_close h s.1 s.2)).1
    have hf : 2 * t.nullDistance ≤ eucl (pt F s.1) (pt F s.2) := by linarith
    have : seg F false s = fixOrder (pt F s.1) (pt F s.2) := rfl
    rw [this]
    rcases Pip.fixOrder_cases (pt F s.1) (pt F s.2) with e | e
    · rw [Fl.segMake_ok h ht (by rw [e]; exact hf), e, e]
    · rw [Fl.segMake_ok h ht (by rw [e, eucl_comm]; exact hf), e]
      simp only [Prod.fst_swap, Prod.snd_swap]
      rw [fixOrder_comm, e]
  · have hl' : l = pts.map (pt F) ∧ pts.length ≠ 1 := by
      unfold poly polySet at hc
      split_ifs at hc with k
      · cases hc
        refine ⟨rfl, ?_⟩
        rintro k1
        obtain ⟨x, rfl⟩ := List.length_eq_one_iff.1 k1
        exact absurd k (by unfold checkInput; simp)
      · cases hc
    obtain ⟨rfl, h1⟩ := hl'
    have far : ∀ e ∈ cycPairs (pts.map (pt F)), ¬ PtSame F t e.1 e.2 := by
      rw [cycPairs_map]
      intro e he
      obtain ⟨e', he', rfl⟩ := List.mem_map.1 he
      have hd := (abs_le.1 (dist_close h e'.1 e'.2)).1
      exact far_not_same h t (by have := hl e' he'; show _ ≤ eucl (pt F e'.1) (pt F e'.2); linarith) ht
    unfold poly polySet
    rw [check_of_cyc h (by rw [List.length_map]; exact h1) far]
    show Res.ok ((pts.map (pt F)).map (pt F)) = _
    rw [List.map_map]
    congr 1
    exact List.map_congr_left fun x _ => Prod.ext (h.idem _) (h.idem _)

/-- **C126 is false** for small objects far from the origin. For all `p`, `q ≥ p + 2`: with `q` bits, a rectangle, a segment and a triangle that the constructors accept; converted to `p` bits, without exception, the rectangle has a null width, the ends of the segment
are the same point, and two consecutive vertices of the triangle too. The constructors of the target type throw for them. -/
theorem C126_false {p q : ℕ} (hp : 6 ≤ p) (hq : p + 2 ≤ q) {t : Thr ℝ} (ht : 0 < t.nullDistance) (ht2 : t.nullDistance ≤ 1 / 4) (ho : 0 < t.nullOrthogDistance) (ho2 : t.nullOrthogDistance ≤ 1 / 4) :
    (∃ a b r, (∀ x, x = a ∨ x = b → Rep (binary q) x.1 ∧ Rep (binary q) x.2) ∧ rectOfPts (binary q) t a b = .ok r ∧ (rect (binary p) r).p1.1 = (rect (binary p) r).p2.1 ∧
      rectOfPts (binary p) t (rect (binary p) r).p1 (rect (binary p) r).p2 = .throw) ∧
    (∃ (a b : Pt ℝ) (s : Seg), (∀ x, x = a ∨ x = b → Rep (binary q) x.1 ∧ Rep (binary q) x.2) ∧ Fl.segMake (binary q) t a b = .ok s ∧ (seg (binary p) false s).1 = (seg (binary p) false s).2 ∧
      Fl.segMake (binary p) t (seg (binary p) false s).1 (seg (binary p) false s).2 = .throw) ∧
    ∃ a b c a' c' : Pt ℝ, (∀ x, x = a ∨ x = b ∨ x = c → Rep (binary q) x.1 ∧ Rep (binary q) x.2) ∧ poly (binary q) (binary p) t [a, b, c] = .ok [a', a', c'] ∧ poly (binary p) (binary p) t [a', a', c'] = .throw := by
  obtain ⟨e1, e2, e3⟩ := narrow_half (p := p) (q := q) (by omega) hq
  have hF := binary_ok (p := p) hp
  have hG := binary_ok (p := q) (by omega)
  have r0 : ∀ {s : ℕ}, Rep (binary s) 0 := by intro s; show roundTo s 0 = 0; exact roundTo_zero
  have r1 : ∀ {s : ℕ}, 1 ≤ s → Rep (binary s) 1 := fun {s} hs => by
    have := roundTo_int hs (m := 1) (by rw [abs_one]; exact one_le_pow₀ (by norm_num))
    rw [Int.cast_one] at this
    exact this
  have e3' := rep_wider (q := q) (by omega) (by omega) e3
  have r1p := r1 (s := p) (by omega)
  have r1q := r1 (s := q) (by omega)
  have r0p : Rep (binary p) 0 := r0
  have r0q : Rep (binary q) 0 := r0
  unfold Rep at e2 e3 e3' r1p r1q r0p r0q
  generalize (2 : ℝ) ^ p = N at *
  have hs : ∀ x : Pt ℝ, PtSame (binary p) t x x := fun x => by
    show distPt (binary p) x x < _
    have := abs_le.1 (distPt_err hF x x)
    rw [eucl_self] at this
    linarith
  have far : ∀ (a b : Pt ℝ), 1 / 2 ≤ eucl a b → ¬ PtSame (binary q) t a b := fun a b k => far_not_same hG t (by linarith) ht
  have d1 : 1 / 2 ≤ eucl (N, 0) (N + 1 / 2, 0) := by
    refine le_trans ?_ (abs_fst_le_eucl _ _); simp
  have d2 : 1 / 2 ≤ eucl (N + 1 / 2, 0) (N, 1) := by
    refine le_trans ?_ (abs_snd_le_eucl _ _); norm_num
  have d3 : 1 / 2 ≤ eucl (N, 0) (N, 1) := by
    refine le_trans ?_ (abs_snd_le_eucl _ _); norm_num
  refine ⟨⟨(N, 0), (N + 1 / 2, 1), ⟨(N, 0), (N + 1 / 2, 1)⟩, ?_, ?_, ?_, ?_⟩, ⟨(N, 0), (N + 1 / 2, 0), ((N, 0), (N + 1 / 2, 0)), ?_, ?_, ?_, ?_⟩, (N, 0), (N + 1 / 2, 0), (N, 1), (N, 0), (N, 1), ?_, ?_, ?_⟩
  · rintro x (rfl | rfl)
    · exact ⟨e3', r0q⟩
    · exact ⟨e2, r1q⟩
  · unfold rectOfPts
    rw [if_neg]
    · simp
    · rintro (k | k)
      · exact absurd (rnd_ge_half hG ho (x := N - (N + 1 / 2)) (by rw [abs_sub_comm, abs_of_nonneg] <;> linarith)) (not_le.2 k)
      · exact absurd (rnd_ge_half hG ho (x := (0 : ℝ) - 1) (by rw [abs_sub_comm, abs_of_nonneg] <;> linarith)) (not_le.2 k)
  · show (binary p).rnd N = (binary p).rnd (N + 1 / 2)
    rw [e1, e3]
  · unfold rectOfPts
    rw [if_pos]
    left
    show |(binary p).rnd ((binary p).rnd N - (binary p).rnd (N + 1 / 2))| < _
    rw [e1, e3, sub_self, r0p, abs_zero]
    exact ho
  · rintro x (rfl | rfl)
    · exact ⟨e3', r0q⟩
    · exact ⟨e2, r0q⟩
  · unfold Fl.segMake
    rw [if_neg (far _ _ d1), fixOrder_of_lt (Or.inl (by simp))]
  · have : seg (binary p) false ((N, 0), (N + 1 / 2, 0)) = ((N, 0), (N, 0)) := by
      unfold seg segConvert pt
      simp only [e1, e3, r0p, Bool.false_eq_true, if_false]
      rcases Pip.fixOrder_cases (N, 0) (N, 0) with k | k <;> rw [k]; rfl
    rw [this]
  · have : seg (binary p) false ((N, 0), (N + 1 / 2, 0)) = ((N, 0), (N, 0)) := by
      unfold seg segConvert pt
      simp only [e1, e3, r0p, Bool.false_eq_true, if_false]
      rcases Pip.fixOrder_cases (N, 0) (N, 0) with k | k <;> rw [k]; rfl
    rw [this]
    exact if_pos (hs _)
  · rintro x (rfl | rfl | rfl)
    · exact ⟨e3', r0q⟩
    · exact ⟨e2, r0q⟩
    · exact ⟨e3', r1q⟩
  · unfold poly polySet
    rw [if_pos]
    · show Res.ok _ = _
      simp only [List.map_cons, List.map_nil, pt, e1, e3, r0p, r1p]
    · simp [checkInput, openPairs]
      refine ⟨⟨?_, ?_⟩, ?_⟩
      · simpa using far _ _ d1
      · simpa using far _ _ d2
      · simpa using far _ _ d3
  · unfold poly polySet
    rw [if_neg]
    · rfl
    · simp only [checkInput, openPairs]
      have := hs (N, 0)
      simp [this]

/-- **C126, sharpness.** The ends of a (non oriented) segment may be exchanged by a conversion: `(N,1) (N+1/2,0)` with `N = 2^p`, converted to a type with `p` bits. -/
theorem C126_order_sharp {p q : ℕ} (hp : 6 ≤ p) (hq : p + 2 ≤ q) {t : Thr ℝ} (ht : 0 < t.nullDistance) (ht2 : t.nullDistance ≤ 1 / 4) :
    ∃ (a b : Pt ℝ) (s : Seg), (∀ x, x = a ∨ x = b → Rep (binary q) x.1 ∧ Rep (binary q) x.2) ∧ Fl.segMake (binary q) t a b = .ok s ∧ s = (a, b) ∧
      seg (binary p) false s = (pt (binary p) b, pt (binary p) a) ∧ pt (binary p) a ≠ pt (binary p) b := by
  obtain ⟨e1, e2, e3⟩ := narrow_half (p := p) (q := q) (by omega) hq
  have hG := binary_ok (p := q) (by omega)
  have e3' := rep_wider (q := q) (by omega) (by omega) e3
  have r0 : ∀ {s : ℕ}, Rep (binary s) 0 := by intro s; show roundTo s 0 = 0; exact roundTo_zero
  have r1 : ∀ {s : ℕ}, 1 ≤ s → Rep (binary s) 1 := fun {s} hs => by
    have := roundTo_int hs (m := 1) (by rw [abs_one]; exact one_le_pow₀ (by norm_num))
    rw [Int.cast_one] at this
    exact this
  have r1p := r1 (s := p) (by omega)
  have r1q := r1 (s := q) (by omega)
  have r0p : Rep (binary p) 0 := r0
  have r0q : Rep (binary q) 0 := r0
  unfold Rep at e2 e3 e3' r1p r1q r0p r0q
  generalize (2 : ℝ) ^ p = N at *
  have d : 1 / 2 ≤ eucl (N, 1) (N + 1 / 2, 0) := by
    refine le_trans ?_ (abs_snd_le_eucl _ _); norm_num
  have ea : pt (binary p) (N, 1) = (N, 1) := by simp only [pt, e3, r1p]
  have eb : pt (binary p) (N + 1 / 2, 0) = (N, 0) := by simp only [pt, e1, r0p]
  refine ⟨(N, 1), (N + 1 / 2, 0), _, ?_, ?_, rfl, ?_, ?_⟩
  · rintro x (rfl | rfl)
    · exact ⟨e3', r1q⟩
    · exact ⟨e2, r0q⟩
  · unfold Fl.segMake
    rw [if_neg (far_not_same hG t (by linarith) ht), fixOrder_of_lt (Or.inl (by simp))]
  · have : seg (binary p) false ((N, 1), (N + 1 / 2, 0)) = fixOrder (pt (binary p) (N, 1)) (pt (binary p) (N + 1 / 2, 0)) := rfl
    rw [this, ea, eb, fixOrder_comm]
    exact fixOrder_of_lt (Or.inr ⟨rfl, zero_lt_one⟩)
  · rw [ea, eb]; simp

/-- The hypotheses: `float` and `double`, with the default thresholds; the square (0,0) (8,8) is large enough. -/
example : FlOk (binary 24) (2 ^ (-((24 : ℕ) : ℤ))) (2 ^ (-((24 : ℕ) : ℤ))) ∧ 24 + 2 ≤ 53 ∧ 0 < stdR.nullDistance ∧ stdR.nullDistance ≤ 1 / 4 ∧ 0 < stdR.nullOrthogDistance ∧ stdR.nullOrthogDistance ≤ 1 / 4 ∧
    2 * stdR.nullOrthogDistance + 2 ^ (-((24 : ℕ) : ℤ)) * (|0| + |8|) ≤ (8 : ℝ) - 0 := by
  refine ⟨binary_ok (by norm_num), by norm_num, ?_⟩
  norm_num [stdR]

end H2d.Props
