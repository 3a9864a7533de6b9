import Verif.Spec.Unit
import Verif.Lemmas.MoveRect
import Verif.Lemmas.FloatExact
import Mathlib.Data.Int.Log

/-! # Scaling by a power of two commutes with the rounding -/

namespace H2d.Unit
open H2d.Fl H2d.Spec

theorem log_scale (k : ℤ) {x : ℝ} (hx : 0 < x) : Int.log 2 ((2 : ℝ) ^ k * x) = k + Int.log 2 x := by
  have h2 : (0 : ℝ) < 2 ^ k := by positivity
  have hp : 0 < (2 : ℝ) ^ k * x := mul_pos h2 hx
  have a := Int.zpow_log_le_self (b := 2) (by norm_num) hx
  have b := Int.lt_zpow_succ_log_self (b := 2) (by norm_num) x
  apply le_antisymm
  · apply Int.lt_add_one_iff.1
    apply (Int.lt_zpow_iff_log_lt (by norm_num) hp).1
    rw [add_assoc, zpow_add₀ (by norm_num)]
    exact mul_lt_mul_of_pos_left b h2
  · apply (Int.zpow_le_iff_le_log (by norm_num) hp).1
    rw [zpow_add₀ (by norm_num)]
    exact mul_le_mul_of_nonneg_left a h2.le

theorem roundPos_scale (p : ℕ) (k : ℤ) {x : ℝ} (hx : 0 < x) : roundPos p ((2 : ℝ) ^ k * x) = 2 ^ k * roundPos p x := by
  unfold roundPos
  rw [log_scale k hx]
  have e1 : (2 : ℝ) ^ k * x * 2 ^ ((p : ℤ) - 1 - (k + Int.log 2 x)) = x * 2 ^ ((p : ℤ) - 1 - Int.log 2 x) := by
    rw [mul_comm ((2 : ℝ) ^ k) x, mul_assoc, ← zpow_add₀ (by norm_num)]
    congr 2; ring
  have e2 : (2 : ℝ) ^ (k + Int.log 2 x - ((p : ℤ) - 1)) = 2 ^ k * 2 ^ (Int.log 2 x - ((p : ℤ) - 1)) := by
    rw [← zpow_add₀ (by norm_num)]
    congr 1; ring
  rw [e1, e2]; ring

theorem roundTo_scale (p : ℕ) (k : ℤ) (x : ℝ) : roundTo p ((2 : ℝ) ^ k * x) = 2 ^ k * roundTo p x := by
  have h2 : (0 : ℝ) < 2 ^ k := by positivity
  unfold roundTo
  rcases lt_trichotomy x 0 with h | h | h
  · have h' : (2 : ℝ) ^ k * x < 0 := mul_neg_of_pos_of_neg h2 h
    rw [if_neg h'.not_gt, if_pos h', if_neg h.not_gt, if_pos h, ← mul_neg, roundPos_scale p k (neg_pos.2 h)]; ring
  · subst h; simp
  · rw [if_pos (mul_pos h2 h), if_pos h, roundPos_scale p k h]

/-- What is used of the arithmetic. -/
structure Homog (F : Arith) (c : ℝ) : Prop where
  pos : 0 < c
  rnd : ∀ x, F.rnd (c * x) = c * F.rnd x
  hyp : ∀ x y, F.hyp (c * x) (c * y) = c * F.hyp x y

theorem homog_binary (p : ℕ) (k : ℤ) : Homog (binary p) ((2 : ℝ) ^ k) where
  pos := by positivity
  rnd := roundTo_scale p k
  hyp x y := by
    change roundTo p _ = _ * roundTo p _
    rw [← roundTo_scale, mul_pow, mul_pow, ← mul_add, Real.sqrt_mul (by positivity), Real.sqrt_sq (by positivity)]

theorem dist01 : distPt (binary 53) ((0, 0) : Pt ℝ) (1, 0) = 1 := by
  have a : roundTo 53 (0 : ℝ) = 0 := by exact_mod_cast roundTo_int (p := 53) (by norm_num) (m := 0) (by norm_num)
  have b : roundTo 53 (1 : ℝ) = 1 := by exact_mod_cast roundTo_int (p := 53) (by norm_num) (m := 1) (by norm_num)
  have d : roundTo 53 (-1 : ℝ) = -1 := by exact_mod_cast roundTo_int (p := 53) (by norm_num) (m := -1) (by norm_num)
  change roundTo 53 (Real.sqrt (roundTo 53 (0 - 1) ^ 2 + roundTo 53 (0 - 0) ^ 2)) = 1
  rw [zero_sub, d, sub_zero, a]
  norm_num [b]

variable {F : Arith} {c : ℝ} (h : Homog F c)
include h

theorem rnd2 (x : ℝ) : F.rnd (c * (c * x)) = c * (c * F.rnd x) := by rw [h.rnd, h.rnd]

theorem dist_sc (p q : Pt ℝ) : distPt F (scalePt c p) (scalePt c q) = c * distPt F p q := by
  simp only [distPt, scalePt, ← mul_sub, h.rnd, h.hyp]

theorem mm (a b : ℝ) : F.rnd (c * a * (c * b)) = c * (c * F.rnd (a * b)) := by
  rw [← rnd2 h]; congr 1; ring

theorem sqDist_sc (p q : Pt ℝ) : Fl.sqDist F (scalePt c p) (scalePt c q) = c * (c * Fl.sqDist F p q) := by
  simp only [Fl.sqDist, scalePt, ← mul_sub, h.rnd, mm h, ← mul_add]

theorem cross_sc (a b d : Pt ℝ) : Fl.crossAt F (scalePt c a) (scalePt c b) (scalePt c d) = c * (c * Fl.crossAt F a b d) := by
  simp only [Fl.crossAt, scalePt, ← mul_sub, h.rnd, mm h]

theorem side_sc (a b d : Pt ℝ) : sideCross F (scalePt c a) (scalePt c b) (scalePt c d) = c * (c * sideCross F a b d) := by
  simp only [sideCross, scalePt, ← mul_sub, h.rnd, mm h]

theorem center_sc (p q : Pt ℝ) : center F (scalePt c p) (scalePt c q) = scalePt c (center F p q) := by
  simp only [center, scalePt, ← mul_add, h.rnd, mul_div_assoc]

theorem lenFold_sc (l : List (Pt ℝ × Pt ℝ)) (s : ℝ) :
    (l.map (Prod.map (scalePt c) (scalePt c))).foldl (fun s e => F.rnd (s + distPt F e.1 e.2)) (c * s) = c * l.foldl (fun s e => F.rnd (s + distPt F e.1 e.2)) s := by
  induction l generalizing s with
  | nil => rfl
  | cons e l ih => simp only [List.map_cons, List.foldl_cons, Prod.map_fst, Prod.map_snd, dist_sc h, ← mul_add, h.rnd, ih]

theorem areaFold_sc (l : List (Pt ℝ × Pt ℝ)) (s : ℝ) :
    (l.map (Prod.map (scalePt c) (scalePt c))).foldl (fun s e => F.rnd (F.rnd (s + F.rnd (e.1.1 * e.2.2)) - F.rnd (e.1.2 * e.2.1))) (c * (c * s))
      = c * (c * l.foldl (fun s e => F.rnd (F.rnd (s + F.rnd (e.1.1 * e.2.2)) - F.rnd (e.1.2 * e.2.1))) s) := by
  induction l generalizing s with
  | nil => rfl
  | cons e l ih => simp only [List.map_cons, List.foldl_cons, Prod.map_fst, Prod.map_snd, scalePt, mm h, ← mul_add, ← mul_sub, h.rnd, ih]

omit h in
theorem cycPairs_sc {P : Type} (f : P → P) (l : List P) : cycPairs (l.map f) = (cycPairs l).map (Prod.map f f) := by
  unfold cycPairs
  simp only [← List.map_tail, ← List.map_take, ← List.map_append, List.zip_map]

omit h in
theorem segPairs_sc {P : Type} (b : Bool) (f : P → P) (l : List P) : segPairs b (l.map f) = (segPairs b l).map (Prod.map f f) := by
  unfold segPairs openPairs
  rw [List.length_map, cycPairs_sc, ← List.map_tail, List.zip_map]
  split
  · rfl
  · split <;> rfl

theorem len_sc (b : Bool) (l : List (Pt ℝ)) : polyLen F b (l.map (scalePt c)) = c * polyLen F b l := by
  unfold polyLen
  rw [segPairs_sc, ← lenFold_sc h, mul_zero]

theorem area_sc (l : List (Pt ℝ)) : Fl.signedArea F (l.map (scalePt c)) = c * (c * Fl.signedArea F l) := by
  unfold Fl.signedArea
  have e := areaFold_sc h (cycPairs l) 0
  rw [mul_zero, mul_zero] at e
  rw [cycPairs_sc, e, mul_div_assoc, mul_div_assoc, rnd2 h]

theorem loop_sc (s : Int) (l : List ℝ) : convexLoop s (l.map fun x => c * (c * x)) = convexLoop s l := by
  induction l generalizing s with
  | nil => rfl
  | cons x l ih =>
    have e : (c * (c * x) > 0) ↔ x > 0 := by
      have := h.pos
      constructor
      · intro a; exact pos_of_mul_pos_right (pos_of_mul_pos_right a this.le) this.le
      · intro a; positivity
    simp only [List.map_cons, convexLoop, e, ih]

theorem convex_sc (b : Bool) (l : List (Pt ℝ)) : Fl.isConvex F b (l.map (scalePt c)) = Fl.isConvex F b l := by
  unfold Fl.isConvex
  rw [List.length_map, Move.triples_mv, List.map_map]
  have e : ((fun s : Pt ℝ × Pt ℝ × Pt ℝ => Fl.crossAt F s.1 s.2.1 s.2.2) ∘ fun s : Pt ℝ × Pt ℝ × Pt ℝ => (scalePt c s.1, scalePt c s.2.1, scalePt c s.2.2))
      = (fun x => c * (c * x)) ∘ fun s => Fl.crossAt F s.1 s.2.1 s.2.2 := by
    funext s; exact cross_sc h _ _ _
  rw [e, ← List.map_map, loop_sc h]

theorem same_sc (t : Thr ℝ) (p q : Pt ℝ) : PtSame F (scaleThr c t) (scalePt c p) (scalePt c q) ↔ PtSame F t p q := by
  simp only [PtSame, dist_sc h, scaleThr, mul_lt_mul_iff_right₀ h.pos]

theorem inCirc_sc (p q : Pt ℝ) (r : ℝ) : PtInCirc F (scalePt c p) (scalePt c q) (c * r) ↔ PtInCirc F p q r := by
  simp only [PtInCirc, dist_sc h, mul_lt_mul_iff_right₀ h.pos]

theorem share_sc (t : Thr ℝ) (p q : Pt ℝ) : ShareCoord F (scaleThr c t) (scalePt c p) (scalePt c q) ↔ ShareCoord F t p q := by
  simp only [ShareCoord, scalePt, scaleThr, ← mul_sub, h.rnd, abs_mul, abs_of_pos h.pos, mul_lt_mul_iff_right₀ h.pos]

theorem rectOf_sc (t : Thr ℝ) (p q : Pt ℝ) : rectOfPts F (scaleThr c t) (scalePt c p) (scalePt c q) = scaleRes c (rectOfPts F t p q) := by
  unfold rectOfPts
  have hc := h.pos.le
  by_cases e : ShareCoord F t p q
  · rw [if_pos e, if_pos ((share_sc h t p q).2 e)]; rfl
  · rw [if_neg e, if_neg (fun a => e ((share_sc h t p q).1 a))]
    simp only [scaleRes, scaleRect, scalePt, mul_min_of_nonneg _ _ hc, mul_max_of_nonneg _ _ hc]

theorem circBB_sc (t : Thr ℝ) (p : Pt ℝ) (r : ℝ) : circBB F (scaleThr c t) (scalePt c p) (c * r) = scaleRes c (circBB F t p r) := by
  unfold circBB
  rw [← rectOf_sc h]
  simp only [scalePt, ← mul_sub, ← mul_add, h.rnd]

theorem rect_sc (r : FRect ℝ) : rectWidth F (scaleRect c r) = c * rectWidth F r ∧ rectHeight F (scaleRect c r) = c * rectHeight F r
    ∧ rectArea F (scaleRect c r) = c * (c * rectArea F r) ∧ rectLength F (scaleRect c r) = c * rectLength F r := by
  have a : rectWidth F (scaleRect c r) = c * rectWidth F r := by simp only [rectWidth, scaleRect, scalePt, ← mul_sub, h.rnd]
  have b : rectHeight F (scaleRect c r) = c * rectHeight F r := by simp only [rectHeight, scaleRect, scalePt, ← mul_sub, h.rnd]
  refine ⟨a, b, ?_, ?_⟩
  · unfold rectArea; rw [a, b, mm h]
  · unfold rectLength; rw [a, b, mul_left_comm, mul_left_comm 2 c (rectWidth F r), h.rnd, h.rnd, ← mul_add, h.rnd]

section
omit h
open H2d.Search
variable {P D : Type} [LinearOrder D] {dist : P → P → D} {eq eq' : P → P → Bool} {f : P → P} {g : D → D}

theorem findLoop_sc (hg : StrictMono g) (hd : ∀ p q, dist (f p) (f q) = g (dist p q)) (he : ∀ p q, eq' (f p) (f q) = eq p q) (w : What) (q : P) : ∀ (l : List P) (i r : Nat) (e : D),
    findLoop w dist eq' (f q) i (l.map f) r (g e) = findLoop w dist eq q i l r e
  | [], _, _, _ => rfl
  | x :: l, i, r, e => by
    have hb : better w (g (dist q x)) (g e) = better w (dist q x) e := by cases w <;> simp only [better, gt_iff_lt, hg.lt_iff_lt]
    rw [List.map_cons, findLoop, findLoop, hd, he, hb]
    simp only [findLoop_sc hg hd he w q l]

theorem findPoint_sc (hg : StrictMono g) (hd : ∀ p q, dist (f p) (f q) = g (dist p q)) (he : ∀ p q, eq' (f p) (f q) = eq p q) (w : What) (q : P) (l : List P) :
    findPoint w dist eq' (f q) (l.map f) = findPoint w dist eq q l := by
  match l with
  | [] => rfl
  | [_] => rfl
  | a :: b :: l =>
    simp only [List.map_cons, findPoint, hd, he]
    have h1 := findLoop_sc hg hd he w q l 2 1 (dist q b)
    have h2 := findLoop_sc hg hd he w q (b :: l) 1 0 (dist q a)
    rw [List.map_cons] at h2
    rw [h1, h2]

theorem nfLoop_sc (hg : StrictMono g) (hd : ∀ p q, dist (f p) (f q) = g (dist p q)) (he : ∀ p q, eq' (f p) (f q) = eq p q) (q : P) : ∀ (l : List P) (i a : Nat) (x : D) (b : Nat) (y : D),
    nfLoop dist eq' (f q) i (l.map f) a (g x) b (g y) = nfLoop dist eq q i l a x b y
  | [], _, _, _, _, _ => rfl
  | z :: l, i, a, x, b, y => by
    rw [List.map_cons, nfLoop, nfLoop, hd, he]
    simp only [gt_iff_lt, hg.lt_iff_lt]
    by_cases h1 : dist q z < x <;> by_cases h2 : y < dist q z <;> simp only [h1, h2, if_true, if_false, nfLoop_sc hg hd he q l]

theorem findNF_sc (hg : StrictMono g) (hd : ∀ p q, dist (f p) (f q) = g (dist p q)) (he : ∀ p q, eq' (f p) (f q) = eq p q) (q : P) (l : List P) :
    findNearestFarthestPoint dist eq' (f q) (l.map f) = findNearestFarthestPoint dist eq q l := by
  match l with
  | [] => rfl
  | [_] => rfl
  | a :: b :: l =>
    simp only [List.map_cons, findNearestFarthestPoint, hd, he]
    have h1 := nfLoop_sc hg hd he q l 2 1 (dist q b) 1 (dist q b)
    have h2 := nfLoop_sc hg hd he q (b :: l) 1 0 (dist q a) 0 (dist q a)
    rw [List.map_cons] at h2
    rw [h1, h2]
end

theorem mono_sc : StrictMono (fun x : ℝ => c * (c * x)) := fun _ _ a => mul_lt_mul_of_pos_left (mul_lt_mul_of_pos_left a h.pos) h.pos

theorem sameB_sc (t : Thr ℝ) (p q : Pt ℝ) : sameB F (scaleThr c t) (scalePt c p) (scalePt c q) = sameB F t p q := by
  classical
  unfold sameB
  exact decide_eq_decide.2 (same_sc h t p q)

theorem search_sc (t : Thr ℝ) (q : Pt ℝ) (l : List (Pt ℝ)) :
    nearest F (scaleThr c t) (scalePt c q) (l.map (scalePt c)) = nearest F t q l ∧ farthest F (scaleThr c t) (scalePt c q) (l.map (scalePt c)) = farthest F t q l
      ∧ nearestFarthest F (scaleThr c t) (scalePt c q) (l.map (scalePt c)) = nearestFarthest F t q l :=
  ⟨findPoint_sc (mono_sc h) (sqDist_sc h) (sameB_sc h t) _ _ _, findPoint_sc (mono_sc h) (sqDist_sc h) (sameB_sc h t) _ _ _,
    findNF_sc (mono_sc h) (sqDist_sc h) (sameB_sc h t) _ _⟩

end H2d.Unit
