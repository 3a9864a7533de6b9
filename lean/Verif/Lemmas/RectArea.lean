import Verif.Lemmas.RectRank
import Verif.Lemmas.Segment
import Verif.Spec.Objects
import Verif.Spec.RectArea
import Mathlib.Tactic.IntervalCases
import Mathlib.Algebra.BigOperators.Field

/-!
# From real rectangles to ranks
-/

set_option linter.unusedSectionVars false
set_option linter.unusedSimpArgs false

namespace H2d.Rank

/-- An increasing sequence with gaps of at least `n`. -/
structure Emb (n : ℝ) (f : ℕ → ℝ) : Prop where
  pos : 0 < n
  gap : ∀ i j, i < j → f i + n ≤ f j

namespace Emb
variable {n : ℝ} {f : ℕ → ℝ} (h : Emb n f)
include h

theorem lt_iff {i j : ℕ} : f i < f j ↔ i < j := by
  constructor
  · intro hl
    by_contra hc
    rcases (not_lt.1 hc).eq_or_lt with e | e
    · rw [e] at hl; exact lt_irrefl _ hl
    · have := h.gap _ _ e; have := h.pos; linarith
  · intro hl; have := h.gap _ _ hl; have := h.pos; linarith

theorem le_iff {i j : ℕ} : f i ≤ f j ↔ i ≤ j := by rw [← not_lt, ← not_lt, h.lt_iff]

theorem inj {i j : ℕ} : f i = f j ↔ i = j := by
  constructor
  · intro e; exact le_antisymm (h.le_iff.1 e.le) (h.le_iff.1 e.ge)
  · rintro rfl; rfl

theorem far {i j : ℕ} (hij : i ≠ j) : n ≤ |f i - f j| := by
  rcases lt_or_gt_of_ne hij with e | e
  · have := h.gap _ _ e; rw [abs_sub_comm]; exact (le_sub_iff_add_le'.2 this).trans (le_abs_self _)
  · have := h.gap _ _ e; exact (le_sub_iff_add_le'.2 this).trans (le_abs_self _)

theorem map_min (i j : ℕ) : f (min i j) = min (f i) (f j) := by
  rcases le_total i j with e | e
  · rw [min_eq_left e, min_eq_left (h.le_iff.2 e)]
  · rw [min_eq_right e, min_eq_right (h.le_iff.2 e)]

theorem map_max (i j : ℕ) : f (max i j) = max (f i) (f j) := by
  rcases le_total i j with e | e
  · rw [max_eq_right e, max_eq_right (h.le_iff.2 e)]
  · rw [max_eq_left e, max_eq_left (h.le_iff.2 e)]

end Emb

def mp (f g : ℕ → ℝ) (p : NP) : Pt ℝ := (f p.1, g p.2)
def mpS (f g : ℕ → ℝ) (s : NS) : Seg := (mp f g s.1, mp f g s.2)
def mpR (f g : ℕ → ℝ) (r : FRect ℕ) : FRect ℝ := ⟨mp f g r.p1, mp f g r.p2⟩

variable {t : Thr ℝ} {f g : ℕ → ℝ}

theorem ptLt_mp (hf : Emb t.nullDistance f) (hg : Emb t.nullDistance g) (p q : NP) : ptLt (mp f g p) (mp f g q) = ptLt p q := by
  simp only [ptLt, mp, gt_iff_lt, hf.lt_iff, hg.lt_iff]

theorem eucl_mp_ge (hf : Emb t.nullDistance f) (hg : Emb t.nullDistance g) {p q : NP} (h : p ≠ q) : t.nullDistance ≤ Spec.eucl (mp f g p) (mp f g q) := by
  by_contra hc
  rw [not_le, eucl_lt_iff hf.pos] at hc
  simp only [mp] at hc
  have : p.1 ≠ q.1 ∨ p.2 ≠ q.2 := by
    by_contra hh; push Not at hh; exact h (Prod.ext hh.1 hh.2)
  rcases this with e | e
  · have := hf.far e
    have : t.nullDistance ^ 2 ≤ (f p.1 - f q.1) ^ 2 := by rw [← sq_abs (f p.1 - f q.1)]; exact pow_le_pow_left₀ hf.pos.le this 2
    nlinarith [sq_nonneg (g p.2 - g q.2)]
  · have := hg.far e
    have : t.nullDistance ^ 2 ≤ (g p.2 - g q.2) ^ 2 := by rw [← sq_abs (g p.2 - g q.2)]; exact pow_le_pow_left₀ hf.pos.le this 2
    nlinarith [sq_nonneg (f p.1 - f q.1)]

theorem ptEq_mp (hf : Emb t.nullDistance f) (hg : Emb t.nullDistance g) (p q : NP) : PtEq t (mp f g p) (mp f g q) ↔ p = q := by
  simp only [PtEq, ptDist_eucl]
  constructor
  · intro h; by_contra hc; exact absurd (eucl_mp_ge hf hg hc) (not_le.2 h)
  · rintro rfl; rw [eucl_self]; exact hf.pos

theorem fixOrder_mp (hf : Emb t.nullDistance f) (hg : Emb t.nullDistance g) (p q : NP) :
    fixOrder (mp f g p) (mp f g q) = mpS f g (ordS (p, q)) := by
  unfold fixOrder ordS
  rw [ptLt_mp hf hg]
  cases ptLt p q <;> simp [mpS]

theorem segMake_mp (hf : Emb t.nullDistance f) (hg : Emb t.nullDistance g) {p q : NP} (h : p ≠ q) :
    segMake t false (mp f g p) (mp f g q) = .ok (mpS f g (ordS (p, q))) := by
  unfold segMake
  rw [if_neg (by rw [ptEq_mp hf hg]; exact h), fixOrder_mp hf hg]
  simp

/-! ### Segments parallel to the axes -/

theorem eucl_vert (x y y' : ℝ) : Spec.eucl (x, y) (x, y') = |y - y'| := by rw [eucl_eq_iff (abs_nonneg _)]; simp

theorem eucl_horiz (x x' y : ℝ) : Spec.eucl (x, y) (x', y) = |x - x'| := by rw [eucl_eq_iff (abs_nonneg _)]; simp

theorem normalizeLine_eq {v w : V3 ℝ} {d : ℝ} (hs : Real.sqrt (v 0 * v 0 + v 1 * v 1) = d) (hw : (fun i => v i / d) = w) :
    normalizeLine t v = if d ≤ dblEps then .throw else
      let w1 : V3 ℝ := if w 0 < 0 then fun i => - w i else w
      .ok (if |w1 0| < t.nullDenom then (if w1 1 < 0 then ![w1 0, - w1 1, - w1 2] else w1) else w1) := by
  subst hw hs; rfl

theorem normalizeLine_V (ht : Spec.RectThr t) {d x : ℝ} (h : dblEps < d) : normalizeLine t ![-d, 0, x * d] = .ok (lineV x) := by
  have h0 := dblEps_pos
  have hd : d ≠ 0 := by linarith
  have es : Real.sqrt (-d * -d + 0 * 0) = d := by rw [show -d * -d + 0 * 0 = d ^ 2 by ring, Real.sqrt_sq (by linarith)]
  have ew : (fun i => (![-d, 0, x * d] : V3 ℝ) i / d) = ![-1, 0, x] := by
    funext i
    fin_cases i
    · show -d / d = -1; rw [neg_div, div_self hd]
    · show 0 / d = 0; simp
    · show x * d / d = x; rw [mul_div_cancel_right₀ _ hd]
  rw [normalizeLine_eq es ew, if_neg (by linarith)]
  have hn : (![-1, 0, x] : V3 ℝ) 0 < 0 := by simp
  simp only [if_pos hn]
  have e1 : (fun i => -(![-1, 0, x] : V3 ℝ) i) = lineV x := by
    funext i
    fin_cases i
    · show - (-1 : ℝ) = 1; norm_num
    · show - (0 : ℝ) = 0; norm_num
    · rfl
  rw [e1]
  have e2 : lineV x 0 = 1 := rfl
  rw [if_neg (by simpa using ht.denom)]

theorem normalizeLine_H {d y : ℝ} (h : dblEps < d) : normalizeLine t ![0, d, -y * d] = .ok (lineH y) := by
  have h0 := dblEps_pos
  have hd : d ≠ 0 := by linarith
  have es : Real.sqrt (0 * 0 + d * d) = d := by rw [show 0 * 0 + d * d = d ^ 2 by ring, Real.sqrt_sq (by linarith)]
  have ew : (fun i => (![0, d, -y * d] : V3 ℝ) i / d) = lineH y := by
    funext i
    fin_cases i
    · show 0 / d = 0; simp
    · show d / d = 1; rw [div_self hd]
    · show -y * d / d = -y; rw [mul_div_cancel_right₀ _ hd]
  rw [normalizeLine_eq es ew, if_neg (by linarith)]
  have e0 : lineH y 0 = 0 := rfl
  have e1 : lineH y 1 = 1 := rfl
  simp only [e0]
  rw [if_neg (lt_irrefl _), e1, if_neg (show ¬ (1 : ℝ) < 0 by norm_num)]
  simp

theorem segLine_vert (ht : Spec.RectThr t) {x y1 y2 : ℝ} (h : y1 + t.nullDistance ≤ y2) : segLine t ((x, y1), (x, y2)) = .ok (lineV x) := by
  have h0 := dblEps_pos
  have h1 := ht.dist
  unfold segLine lineOfPts
  rw [if_neg]
  · rw [← normalizeLine_V ht (d := y2 - y1) (by linarith)]
    congr 1
    simp only [crossProd, mkPt]
    funext i
    fin_cases i <;> (simp; try ring)
  · have e : ∀ a b : ℝ, getXY (mkPt a b) = (a, b) := by intro a b; simp [getXY, mkPt]
    rw [e, e, PtEq, ptDist_eucl, eucl_vert, abs_sub_comm, abs_of_nonneg (by linarith)]; linarith

theorem segLine_horiz (ht : Spec.RectThr t) {x1 x2 y : ℝ} (h : x1 + t.nullDistance ≤ x2) : segLine t ((x1, y), (x2, y)) = .ok (lineH y) := by
  have h0 := dblEps_pos
  have h1 := ht.dist
  unfold segLine lineOfPts
  rw [if_neg]
  · rw [← normalizeLine_H (t := t) (d := x2 - x1) (y := y) (by linarith)]
    congr 1
    simp only [crossProd, mkPt]
    funext i
    fin_cases i <;> (simp; try ring)
  · have e : ∀ a b : ℝ, getXY (mkPt a b) = (a, b) := by intro a b; simp [getXY, mkPt]
    rw [e, e, PtEq, ptDist_eucl, eucl_horiz, abs_sub_comm, abs_of_nonneg (by linarith)]; linarith

theorem par_VV (ht : Spec.RectThr t) (x x' : ℝ) : IsParallel t (lineV x) (lineV x') := by
  have e : angleCos (lineV x) (lineV x') = 1 := by simp [angleCos, lineV]
  simp only [IsParallel, lineAngle, e, lt_irrefl, gt_iff_lt, if_false, Real.arccos_one]; exact ht.ang0

theorem par_HH (ht : Spec.RectThr t) (x x' : ℝ) : IsParallel t (lineH x) (lineH x') := by
  have e : angleCos (lineH x) (lineH x') = 1 := by simp [angleCos, lineH]
  simp only [IsParallel, lineAngle, e, lt_irrefl, gt_iff_lt, if_false, Real.arccos_one]; exact ht.ang0

theorem par_VH (ht : Spec.RectThr t) (x y : ℝ) : ¬ IsParallel t (lineV x) (lineH y) ∧ ¬ IsParallel t (lineH y) (lineV x) := by
  have e : angleCos (lineV x) (lineH y) = 0 := by simp [angleCos, lineV, lineH]
  have e' : angleCos (lineH y) (lineV x) = 0 := by simp [angleCos, lineV, lineH]
  have := ht.ang1
  have := Real.two_le_pi
  constructor
  · simp only [IsParallel, lineAngle, e, gt_iff_lt, show ¬ (1:ℝ) < 0 by norm_num, if_false, Real.arccos_zero]; linarith
  · simp only [IsParallel, lineAngle, e', gt_iff_lt, show ¬ (1:ℝ) < 0 by norm_num, if_false, Real.arccos_zero]; linarith

theorem inter_VH (ht : Spec.RectThr t) (x y : ℝ) :
    (∃ p, lineInter t (lineV x) (lineH y) = .ok p ∧ getXY p = (x, y)) ∧ (∃ p, lineInter t (lineH y) (lineV x) = .ok p ∧ getXY p = (x, y)) := by
  obtain ⟨h1, h2⟩ := par_VH ht x y
  constructor
  · refine ⟨_, by rw [lineInter, if_neg h1], ?_⟩
    simp [getXY, crossProd, lineV, lineH]
  · refine ⟨_, by rw [lineInter, if_neg h2], ?_⟩
    simp [getXY, crossProd, lineV, lineH]

/-- The tolerance of the test "the point is between the ends" plays no role. -/
theorem between (hf : Emb t.nullDistance f) {i j k : ℕ} (h : i < j) :
    |(|f i - f k| + |f j - f k| - |f i - f j|)| < t.nullDistance ↔ i ≤ k ∧ k ≤ j := by
  have h0 := hf.pos
  have hij := hf.gap _ _ h
  rw [abs_of_neg (show f i - f j < 0 by linarith)]
  constructor
  · intro hh
    by_contra hc
    rw [not_and_or, not_le, not_le] at hc
    rcases hc with hc | hc
    · have h1 := hf.gap _ _ hc
      rw [abs_of_pos (show 0 < f i - f k by linarith), abs_of_pos (show 0 < f j - f k by linarith)] at hh
      rw [abs_of_pos (by linarith)] at hh; linarith
    · have h1 := hf.gap _ _ hc
      rw [abs_of_neg (show f i - f k < 0 by linarith), abs_of_neg (show f j - f k < 0 by linarith)] at hh
      rw [abs_of_pos (by linarith)] at hh; linarith
  · rintro ⟨h1, h2⟩
    have h1' := hf.le_iff.2 h1
    have h2' := hf.le_iff.2 h2
    rw [abs_of_nonpos (show f i - f k ≤ 0 by linarith), abs_of_nonneg (show 0 ≤ f j - f k by linarith)]
    rw [show -(f i - f k) + (f j - f k) - -(f i - f j) = 0 by ring, abs_zero]; exact h0

theorem segEq_mp (hf : Emb t.nullDistance f) (hg : Emb t.nullDistance g) (s s' : NS) : SegEq t (mpS f g s) (mpS f g s') ↔ s = s' := by
  show PtEq t (mp f g s.1) (mp f g s'.1) ∧ PtEq t (mp f g s.2) (mp f g s'.2) ↔ _
  rw [ptEq_mp hf hg, ptEq_mp hf hg]
  exact (Prod.ext_iff).symm

theorem segInter_mp (ht : Spec.RectThr t) (hf : Emb t.nullDistance f) (hg : Emb t.nullDistance g) (s s' : NS) (h : Ax s = true) (h' : Ax s' = true) :
    segInter t (mpS f g s) (mpS f g s') = .ok ((axInter s s').map (mp f g)) := by
  unfold segInter
  by_cases he : s = s'
  · rw [if_pos ((segEq_mp hf hg s s').2 he)]
    simp [axInter, he]
  rw [if_neg (fun hc => he ((segEq_mp hf hg s s').1 hc))]
  obtain ⟨⟨a, b⟩, c, d⟩ := s
  obtain ⟨⟨a', b'⟩, c', d'⟩ := s'
  have he' : ((((a, b), c, d) : NS) == ((a', b'), c', d')) = false := by rw [beq_eq_false_iff_ne]; exact he
  simp only [Ax, Bool.or_eq_true, Bool.and_eq_true, beq_iff_eq, decide_eq_true_eq] at h h'
  have lenV : ∀ (x : ℕ) (y y' : ℕ), segLength (mpS f g ((x, y), (x, y'))) = |g y - g y'| := fun x y y' => by
    simp only [segLength, ptDist_eucl, mpS, mp, eucl_vert]
  have lenH : ∀ (x x' : ℕ) (y : ℕ), segLength (mpS f g ((x, y), (x', y))) = |f x - f x'| := fun x y y' => by
    simp only [segLength, ptDist_eucl, mpS, mp, eucl_horiz]
  have fin : ∀ (P Q : Prop) [Decidable P] [Decidable Q] (p : Pt ℝ),
      (if P then (if Q then (Res.ok (some p) : Res (Option (Pt ℝ))) else .ok none) else .ok none) = .ok (if P ∧ Q then some p else none) := by
    intro P Q _ _ p; by_cases hP : P <;> by_cases hQ : Q <;> simp [hP, hQ]
  rcases h with ⟨e, h⟩ | ⟨e, h⟩ <;> rcases h' with ⟨e', h'⟩ | ⟨e', h'⟩
  · -- vertical, vertical
    subst e e'
    rw [show mpS f g ((a, b), (a, d)) = ((f a, g b), (f a, g d)) from rfl, show mpS f g ((a', b'), (a', d')) = ((f a', g b'), (f a', g d')) from rfl]
    rw [segLine_vert ht (hg.gap _ _ h), segLine_vert ht (hg.gap _ _ h')]
    simp only [Res.bind_ok, if_pos (par_VV ht _ _), Res.pure_eq]
    simp [axInter, he', vert]
  · -- vertical, horizontal
    subst e e'
    obtain ⟨p, hp, hp'⟩ := (inter_VH ht (f a) (g b')).1
    have l1 := lenV a b d
    have l2 := lenH a' c' b'
    rw [show mpS f g ((a, b), (a, d)) = ((f a, g b), (f a, g d)) from rfl] at l1 ⊢
    rw [show mpS f g ((a', b'), (c', b')) = ((f a', g b'), (f c', g b')) from rfl] at l2 ⊢
    rw [segLine_vert ht (hg.gap _ _ h), segLine_horiz ht (hf.gap _ _ h')]
    simp only [Res.bind_ok, if_neg (par_VH ht _ _).1, Res.pure_eq, hp, hp', l1, l2, ptDist_eucl, eucl_vert, eucl_horiz]
    rw [fin]
    simp only [between hg h, between hf h']
    have hv : (a' == c') = false := by rw [beq_eq_false_iff_ne]; omega
    simp only [axInter, he', vert, hv, beq_self_eq_true, if_true, Bool.false_eq_true, if_false, Bool.and_eq_true, decide_eq_true_eq]
    by_cases hh : (b ≤ b' ∧ b' ≤ d) ∧ a' ≤ a ∧ a ≤ c'
    · rw [if_pos hh, if_pos (by tauto)]; rfl
    · rw [if_neg hh, if_neg (by tauto)]; rfl
  · -- horizontal, vertical
    subst e e'
    obtain ⟨p, hp, hp'⟩ := (inter_VH ht (f a') (g b)).2
    have l1 := lenH a c b
    have l2 := lenV a' b' d'
    rw [show mpS f g ((a, b), (c, b)) = ((f a, g b), (f c, g b)) from rfl] at l1 ⊢
    rw [show mpS f g ((a', b'), (a', d')) = ((f a', g b'), (f a', g d')) from rfl] at l2 ⊢
    rw [segLine_horiz ht (hf.gap _ _ h), segLine_vert ht (hg.gap _ _ h')]
    simp only [Res.bind_ok, if_neg (par_VH ht _ _).2, Res.pure_eq, hp, hp', l1, l2, ptDist_eucl, eucl_vert, eucl_horiz]
    rw [fin]
    simp only [between hf h, between hg h']
    have hv : (a == c) = false := by rw [beq_eq_false_iff_ne]; omega
    simp only [axInter, he', vert, hv, beq_self_eq_true, if_true, Bool.false_eq_true, if_false, Bool.and_eq_true, decide_eq_true_eq]
    by_cases hh : (a ≤ a' ∧ a' ≤ c) ∧ b' ≤ b ∧ b ≤ d'
    · rw [if_pos hh, if_pos (by tauto)]; rfl
    · rw [if_neg hh, if_neg (by tauto)]; rfl
  · -- horizontal, horizontal
    subst e e'
    rw [show mpS f g ((a, b), (c, b)) = ((f a, g b), (f c, g b)) from rfl, show mpS f g ((a', b'), (c', b')) = ((f a', g b'), (f c', g b')) from rfl]
    rw [segLine_horiz ht (hf.gap _ _ h), segLine_horiz ht (hf.gap _ _ h')]
    simp only [Res.bind_ok, if_pos (par_HH ht _ _), Res.pure_eq]
    have hv : (a == c) = false := by rw [beq_eq_false_iff_ne]; omega
    have hv' : (a' == c') = false := by rw [beq_eq_false_iff_ne]; omega
    simp [axInter, he', vert, hv, hv']

/-! ### Intersection of two rectangles -/

/-- A rectangle with different coordinates. -/
def Proper (r : FRect ℕ) : Prop := r.p1.1 < r.p2.1 ∧ r.p1.2 < r.p2.2

theorem segs_ax {r : FRect ℕ} (h : Proper r) : ∀ s ∈ segs r, Ax s = true := by
  obtain ⟨h1, h2⟩ := h
  simp [segs, Ax, h1, h2]

theorem rectSegs_mp (hf : Emb t.nullDistance f) (hg : Emb t.nullDistance g) {r : FRect ℕ} (h : Proper r) :
    rectSegs t (mpR f g r) = .ok ((segs r).map (mpS f g)) := by
  obtain ⟨⟨x1, y1⟩, ⟨x2, y2⟩⟩ := r
  obtain ⟨h1, h2⟩ := h
  simp only at h1 h2
  unfold rectSegs
  have a1 := segMake_mp hf hg (p := (x1, y1)) (q := (x1, y2)) (by simp; omega)
  have a2 := segMake_mp hf hg (p := (x1, y2)) (q := (x2, y2)) (by simp; omega)
  have a3 := segMake_mp hf hg (p := (x2, y2)) (q := (x2, y1)) (by simp; omega)
  have a4 := segMake_mp hf hg (p := (x2, y1)) (q := (x1, y1)) (by simp; omega)
  have o1 : ordS ((x1, y1), (x1, y2)) = ((x1, y1), (x1, y2)) := by simp [ordS, ptLt, h2]
  have o2 : ordS ((x1, y2), (x2, y2)) = ((x1, y2), (x2, y2)) := by simp [ordS, ptLt, h1]
  have o3 : ordS ((x2, y2), (x2, y1)) = ((x2, y1), (x2, y2)) := by simp [ordS, ptLt, h2.le]
  have o4 : ordS ((x2, y1), (x1, y1)) = ((x1, y1), (x2, y1)) := by simp [ordS, ptLt, h1.le, h1]
  rw [o1] at a1; rw [o2] at a2; rw [o3] at a3; rw [o4] at a4
  simp only [mp] at a1 a2 a3 a4
  simp only [mpR, mp, a1, a2, a3, a4, Res.bind_ok, Res.pure_eq, segs, List.map_cons, List.map_nil]

theorem rectSegLoop_mp (ht : Spec.RectThr t) (hf : Emb t.nullDistance f) (hg : Emb t.nullDistance g) (seg : NS) (hs : Ax seg = true) :
    ∀ (l : List NS) (out : List NP), (∀ s ∈ l, Ax s = true) →
      rectSegLoop t (mpS f g seg) (l.map (mpS f g)) (out.map (mp f g)) = .ok ((segLoop seg l out).map (mp f g)) := by
  intro l
  induction l with
  | nil => intro out _; rfl
  | cons s l ih =>
    intro out hl
    rw [List.map_cons]
    simp only [rectSegLoop, segLoop]
    rw [segInter_mp ht hf hg s seg (hl s List.mem_cons_self) hs]
    have ih' := fun out => ih out (fun s' hs' => hl s' (List.mem_cons_of_mem _ hs'))
    cases hx : axInter s seg with
    | none => simp only [Option.map_none, Res.bind_ok]; exact ih' out
    | some p =>
      simp only [Option.map_some, Res.bind_ok]
      have aux : ∀ out' : List NP, (if (out'.map (mp f g)).length = 2 then (pure (out'.map (mp f g)) : Res (List (Pt ℝ))) else rectSegLoop t (mpS f g seg) (l.map (mpS f g)) (out'.map (mp f g)))
          = .ok ((if out'.length = 2 then out' else segLoop seg l out').map (mp f g)) := by
        intro out'
        simp only [List.length_map]
        by_cases h2 : out'.length = 2
        · rw [if_pos h2, if_pos h2, Res.pure_eq]
        · rw [if_neg h2, if_neg h2]; exact ih' out'
      match out with
      | [] => exact aux [p]
      | [q] =>
        simp only [List.map_cons, List.map_nil]
        by_cases hq : q = p
        · simp only [if_pos ((ptEq_mp hf hg q p).2 hq), if_pos (show (q == p) = true by simpa using hq)]; exact aux [q]
        · simp only [if_neg (fun h => hq ((ptEq_mp hf hg q p).1 h)), if_neg (show ¬ (q == p) = true by simpa using hq)]; exact aux [q, p]
      | q :: q' :: l' =>
        have := aux (q :: q' :: l' ++ [p])
        rw [List.map_append] at this
        exact this

theorem setInsert_mp (hf : Emb t.nullDistance f) (hg : Emb t.nullDistance g) (p : NP) (l : List NP) :
    setInsert (mp f g p) (l.map (mp f g)) = (setInsert p l).map (mp f g) := by
  induction l with
  | nil => rfl
  | cons q l ih =>
    simp only [List.map_cons, setInsert, ptLt_mp hf hg]
    cases ptLt p q <;> cases ptLt q p <;> simp [ih]

theorem rectLoop_mp (ht : Spec.RectThr t) (hf : Emb t.nullDistance f) (hg : Emb t.nullDistance g) {b : FRect ℕ} (hb : Proper b) :
    ∀ (l : List NS) (pts : List NP) (res : List NP), (∀ s ∈ l, Ax s = true) → interLoop b l pts = some res →
      rectLoop t (mpR f g b) (l.map (mpS f g)) (pts.map (mp f g)) = .ok (res.map (mp f g)) := by
  intro l
  induction l with
  | nil => intro pts res _ h; simp only [interLoop, Option.some.injEq] at h; subst h; rfl
  | cons s l ih =>
    intro pts res hl h
    have e : rectSegInter t (mpR f g b) (mpS f g s) = .ok ((segLoop s (segs b) []).map (mp f g)) := by
      unfold rectSegInter
      rw [rectSegs_mp hf hg hb]
      simp only [Res.bind_ok]
      exact rectSegLoop_mp ht hf hg s (hl s List.mem_cons_self) (segs b) [] (segs_ax hb)
    rw [List.map_cons]
    simp only [rectLoop, e, Res.bind_ok]
    simp only [interLoop] at h
    have ih' := fun pts res h => ih pts res (fun s' hs' => hl s' (List.mem_cons_of_mem _ hs')) h
    cases hx : segLoop s (segs b) [] with
    | nil => rw [hx] at h; exact ih' _ _ h
    | cons a as =>
      cases as with
      | nil =>
        rw [hx] at h
        simp only [List.map_cons, List.map_nil]
        rw [setInsert_mp hf hg]; exact ih' _ _ h
      | cons a' as =>
        cases as with
        | nil =>
          rw [hx] at h
          simp only [List.map_cons, List.map_nil]
          rw [setInsert_mp hf hg, setInsert_mp hf hg]; exact ih' _ _ h
        | cons a'' as => rw [hx] at h; simp at h

theorem mpR_eq (hf : Emb t.nullDistance f) (hg : Emb t.nullDistance g) (a b : FRect ℕ) : rectEqB t (mpR f g a) (mpR f g b) = (a == b) := by
  unfold rectEqB
  rw [Bool.eq_iff_iff]
  simp only [Bool.and_eq_true, decide_eq_true_eq, mpR, ptEq_mp hf hg, beq_iff_eq]
  obtain ⟨a1, a2⟩ := a
  obtain ⟨b1, b2⟩ := b
  simp

theorem rectInter_mp (ht : Spec.RectThr t) (hf : Emb t.nullDistance f) (hg : Emb t.nullDistance g) {a b : FRect ℕ} (ha : Proper a) (hb : Proper b) {res : List NP}
    (h : inter a b = some res) : rectInter t (mpR f g a) (mpR f g b) = .ok (res.map (mp f g)) := by
  unfold rectInter
  unfold inter at h
  rw [mpR_eq hf hg]
  by_cases he : a == b
  · rw [if_pos he] at h ⊢
    simp only [Option.some.injEq] at h; subst h; rfl
  · rw [if_neg he] at h ⊢
    rw [rectSegs_mp hf hg ha]
    exact rectLoop_mp ht hf hg hb (segs a) [] res (segs_ax ha) h

theorem ptIn_mp (hf : Emb t.nullDistance f) (hg : Emb t.nullDistance g) (p : NP) (r : FRect ℕ) : Pt.isInsideRect (mp f g p) (mpR f g r) = ptIn p r := by
  simp only [Pt.isInsideRect, ptIsInside, mpR, mp, ptIn, gt_iff_lt, hf.lt_iff, hg.lt_iff]

theorem get4Pts_mp (r : FRect ℕ) : (mpR f g r).get4Pts = (corners r).map (mp f g) := rfl

theorem isInside_mp (hf : Emb t.nullDistance f) (hg : Emb t.nullDistance g) (a b : FRect ℕ) : (mpR f g a).isInsideRect (mpR f g b) = isInside a b := by
  unfold FRect.isInsideRect isInside
  rw [get4Pts_mp, List.all_map]
  congr 1
  funext p
  exact ptIn_mp hf hg p b

theorem pointsInside_mp (hf : Emb t.nullDistance f) (hg : Emb t.nullDistance g) (a b : FRect ℕ) : pointsInside (mpR f g a) (mpR f g b) = (pointsIn a b).map (mp f g) := by
  unfold pointsInside pointsIn
  rw [get4Pts_mp, List.filter_map]
  congr 1
  congr 1
  funext p
  exact ptIn_mp hf hg p b

theorem ofPts_mp (ht : Spec.RectThr t) (hf : Emb t.nullDistance f) (hg : Emb t.nullDistance g) {p q : NP} {r : FRect ℕ} (h : ofPts p q = some r) :
    FRect.ofPts t.nullOrthogDistance (mp f g p) (mp f g q) = .ok (mpR f g r) := by
  unfold ofPts at h
  split_ifs at h with hc
  simp only [Bool.or_eq_true, beq_iff_eq, not_or] at hc
  simp only [Option.some.injEq] at h
  have h1 := hf.far hc.1
  have h2 := hg.far hc.2
  have h3 := ht.orth
  have hs : shareCommonCoord t.nullOrthogDistance (mp f g p) (mp f g q) = false := by
    unfold shareCommonCoord
    simp only [mp, Bool.or_eq_false_iff, decide_eq_false_iff_not, not_lt]
    exact ⟨decide_eq_false (not_lt.2 (h3.le.trans h1)), decide_eq_false (not_lt.2 (h3.le.trans h2))⟩
  unfold FRect.ofPts getCorrectPoints
  rw [hs]
  simp only [Bool.false_eq_true, if_false, Res.bind_ok, Res.pure_eq]
  rw [← h]
  simp only [mpR, mp, hf.map_min, hf.map_max, hg.map_min, hg.map_max]

theorem ofPts_ne {p q : NP} {r : FRect ℕ} (h : ofPts p q = some r) : p.1 ≠ q.1 ∧ p.2 ≠ q.2 := by
  unfold ofPts at h
  split_ifs at h with hc
  simpa only [Bool.or_eq_true, beq_iff_eq, not_or] using hc

theorem of4Pts_mp (hf : Emb t.nullDistance f) (hg : Emb t.nullDistance g) (a b c d : NP) :
    FRect.of4Pts (mp f g a) (mp f g b) (mp f g c) (mp f g d) =
      mpR f g ⟨(min (min (min a.1 b.1) c.1) d.1, min (min (min a.2 b.2) c.2) d.2), (max (max (max a.1 b.1) c.1) d.1, max (max (max a.2 b.2) c.2) d.2)⟩ := by
  simp only [FRect.of4Pts, mpR, mp, hf.map_min, hf.map_max, hg.map_min, hg.map_max]

theorem intersectArea_mp (ht : Spec.RectThr t) (hf : Emb t.nullDistance f) (hg : Emb t.nullDistance g) {a b : FRect ℕ} (ha : Proper a) (hb : Proper b) {res : Option (FRect ℕ)}
    (h : intersectArea a b = some res) : H2d.intersectArea t (mpR f g a) (mpR f g b) = .ok (res.map (mpR f g)) := by
  unfold intersectArea at h
  unfold H2d.intersectArea
  rw [mpR_eq hf hg]
  by_cases he : a == b
  · rw [if_pos he] at h ⊢
    simp only [Option.some.injEq] at h; subst h; rfl
  rw [if_neg he] at h ⊢
  cases hi : inter a b with
  | none => rw [hi] at h; simp at h
  | some l =>
    rw [hi] at h
    rw [rectInter_mp ht hf hg ha hb hi]
    simp only [Res.bind_ok]
    match l with
    | [] =>
      simp only [List.map_nil, isInside_mp hf hg] at h ⊢
      by_cases h1 : isInside a b = true
      · rw [if_pos h1] at h ⊢; simp only [Option.some.injEq] at h; subst h; rfl
      · rw [if_neg h1] at h ⊢
        by_cases h2 : isInside b a = true
        · rw [if_pos h2] at h ⊢; simp only [Option.some.injEq] at h; subst h; rfl
        · rw [if_neg h2] at h ⊢; simp only [Option.some.injEq] at h; subst h; rfl
    | [_] => simp only [Option.some.injEq] at h; subst h; rfl
    | [i0, i1] =>
      simp only [List.map_cons, List.map_nil, pointsInside_mp hf hg] at h ⊢
      cases h1 : pointsIn a b with
      | nil =>
        rw [h1] at h
        cases h2 : pointsIn b a with
        | nil => rw [h2] at h; simp only [Option.some.injEq] at h; subst h; rfl
        | cons q0 l2 =>
          rw [h2] at h
          cases l2 with
          | nil => simp at h
          | cons q1 l2 =>
            cases l2 with
            | nil =>
              simp only [Option.some.injEq] at h; subst h
              simp only [List.map_cons, List.map_nil, of4Pts_mp hf hg]; rfl
            | cons q2 l2 => simp at h
      | cons q0 l1 =>
        rw [h1] at h
        cases l1 with
        | nil =>
          cases h2 : pointsIn b a with
          | nil => rw [h2] at h; simp at h
          | cons q1 l2 =>
            rw [h2] at h
            cases l2 with
            | nil =>
              simp only [Option.map_eq_some_iff] at h
              obtain ⟨r, h, h'⟩ := h
              subst h'
              simp only [List.map_cons, List.map_nil, ofPts_mp ht hf hg h, Res.bind_ok]; rfl
            | cons q2 l2 => simp at h
        | cons q1 l1 =>
          cases l1 with
          | nil =>
            cases h2 : pointsIn b a with
            | nil =>
              rw [h2] at h
              simp only [Option.some.injEq] at h; subst h
              simp only [List.map_cons, List.map_nil, of4Pts_mp hf hg]; rfl
            | cons q2 l2 => rw [h2] at h; simp at h
          | cons q2 l1 => simp at h
    | [v0, v1, v2] =>
      simp only [Option.map_eq_some_iff] at h
      obtain ⟨r, h, h'⟩ := h
      subst h'
      obtain ⟨n1, n2⟩ := ofPts_ne h
      have hr := ofPts_mp ht hf hg h
      simp only at n1 n2
      have l1 : min v0.1 (min v1.1 v2.1) < max v0.1 (max v1.1 v2.1) := lt_of_le_of_ne ((min_le_left _ _).trans (le_max_left _ _)) n1
      have l2 : min v0.2 (min v1.2 v2.2) < max v0.2 (max v1.2 v2.2) := lt_of_le_of_ne ((min_le_left _ _).trans (le_max_left _ _)) n2
      have g1 := hf.gap _ _ l1
      have g2 := hg.gap _ _ l2
      have ho := ht.orth
      simp only [mp, hf.map_min, hf.map_max, hg.map_min, hg.map_max] at hr g1 g2
      simp only [List.map_cons, List.map_nil, mp]
      rw [if_neg (by rw [not_not]; linarith), if_neg (by rw [not_not]; linarith), hr]
      rfl
    | [v0, v1, v2, v3] =>
      simp only [Option.map_eq_some_iff] at h
      obtain ⟨r, h, h'⟩ := h
      subst h'
      simp only [List.map_cons, List.map_nil, ofPts_mp ht hf hg h, Res.bind_ok]; rfl
    | _ :: _ :: _ :: _ :: _ :: _ => simp at h

/-! ### Union -/

def mpI (f : ℕ → ℝ) (i : Idx ℕ) : Idx ℝ := ⟨f i.val, i.rect⟩

theorem idxLt_mp (hf : Emb t.nullDistance f) (a b : Idx ℕ) : (mpI f a).lt (mpI f b) = a.lt b := by
  unfold Idx.lt
  by_cases h : a.val = b.val
  · rw [if_pos h, if_pos (show (mpI f a).val = (mpI f b).val from hf.inj.2 h)]; rfl
  · rw [if_neg h, if_neg (show ¬ (mpI f a).val = (mpI f b).val from fun hc => h (hf.inj.1 hc))]; simp only [mpI, hf.lt_iff]

theorem idxInsert_mp (hf : Emb t.nullDistance f) (a : Idx ℕ) (l : List (Idx ℕ)) : idxInsert (mpI f a) (l.map (mpI f)) = (idxInsert a l).map (mpI f) := by
  induction l with
  | nil => rfl
  | cons b l ih =>
    simp only [List.map_cons, idxInsert, idxLt_mp hf]
    cases b.lt a <;> simp [ih]

theorem coordVec_mp (hf : Emb t.nullDistance f) (a b c d : ℕ) : coordVec (f a) (f b) (f c) (f d) = (coordVec a b c d).map (mpI f) := by
  have e : ∀ l : List (Idx ℕ), idxSort (l.map (mpI f)) = (idxSort l).map (mpI f) := by
    intro l
    induction l with
    | nil => rfl
    | cons x l ih =>
      show idxInsert (mpI f x) (idxSort (l.map (mpI f))) = _
      rw [ih, idxInsert_mp hf]; rfl
  exact e [⟨a, 1⟩, ⟨b, 1⟩, ⟨c, 2⟩, ⟨d, 2⟩]

theorem tableCell_mp (vx vy : List (Idx ℕ)) : tableCell (vx.map (mpI f)) (vy.map (mpI g)) = tableCell vx vy := by
  funext r c
  simp only [tableCell, List.getElem?_map]
  cases vx[r]? <;> cases vy[c]? <;> simp [mpI]

theorem same_mp (hf : Emb t.nullDistance f) (hg : Emb t.nullDistance g) (p q : NP) : (stdEnv t).same (mp f g p) (mp f g q) = same p q := by
  simp only [stdEnv, ptEq_mp hf hg, same]
  rw [Bool.eq_iff_iff]
  simp

/-- Image of an outcome. -/
def mapRes {α β : Type} (u : α → β) : Res α → Res β
  | .ok a => .ok (u a)
  | .throw => .throw
  | .ub => .ub

theorem mapRes_bind {α β γ δ : Type} (u : α → β) (v : γ → δ) (x : Res α) (F : α → Res γ) (G : β → Res δ) (h : ∀ a, x = .ok a → G (u a) = mapRes v (F a)) :
    (mapRes u x >>= G) = mapRes v (x >>= F) := by
  cases x with
  | ok a => exact h a rfl
  | throw => rfl
  | ub => rfl

theorem convertLoop_mp (hf : Emb t.nullDistance f) (hg : Emb t.nullDistance g) (vx vy : List (Idx ℕ)) :
    ∀ (l : List (ℕ × ℕ)) (v : List NP), convertLoop (stdEnv t).same (vx.map (mpI f)) (vy.map (mpI g)) l (v.map (mp f g)) = mapRes (List.map (mp f g)) (convertLoop same vx vy l v) := by
  intro l
  induction l with
  | nil => intro v; rfl
  | cons e l ih =>
    intro v
    simp only [convertLoop, List.getElem?_map]
    cases vx[e.1]? with
    | none => rfl
    | some x =>
      cases vy[e.2]? with
      | none => rfl
      | some y =>
        simp only [Option.map_some]
        cases v with
        | nil => exact ih [(x.val, y.val)]
        | cons q qs =>
          simp only [List.map_cons]
          have e1 : (qs.map (mp f g)).getLastD (mp f g q) = mp f g (qs.getLastD q) := by
            rw [List.getLastD_eq_getLast?, List.getLastD_eq_getLast?, List.getLast?_map]
            cases qs.getLast? <;> rfl
          have e2 : (((mpI f x).val, (mpI g y).val) : Pt ℝ) = mp f g (x.val, y.val) := rfl
          rw [e1, e2, same_mp hf hg, same_mp hf hg, ← ih]
          congr 1
          split_ifs <;> simp

theorem openPairs_map (u : NP → Pt ℝ) (l : List NP) : openPairs (l.map u) = (openPairs l).map (Prod.map u u) := by
  unfold openPairs
  rw [← List.map_tail, List.zip_map]

theorem checkInput_mp (hf : Emb t.nullDistance f) (hg : Emb t.nullDistance g) (l : List NP) : checkInput (stdEnv t).same (l.map (mp f g)) = checkInput same l := by
  cases l with
  | nil => rfl
  | cons a l =>
    cases l with
    | nil => rfl
    | cons b l =>
      simp only [List.map_cons, checkInput]
      have e1 : ((mp f g b) :: l.map (mp f g)).getLastD (mp f g a) = mp f g ((b :: l).getLastD a) := by
        rw [← List.map_cons, List.getLastD_eq_getLast?, List.getLastD_eq_getLast?, List.getLast?_map]
        cases (b :: l).getLast? <;> rfl
      rw [e1, same_mp hf hg]
      congr 1
      have e2 : openPairs (mp f g a :: mp f g b :: l.map (mp f g)) = (openPairs (a :: b :: l)).map (mpS f g) := by
        rw [← List.map_cons, ← List.map_cons]
        exact openPairs_map _ _
      rw [e2, List.all_map]
      congr 1
      funext s
      simp only [Function.comp, mpS, same_mp hf hg]

theorem dropMarked_mp {P Q : Type} (u : P → Q) : ∀ (l : List P) (i : ℕ) (ks : List ℕ), dropMarked i ks (l.map u) = (dropMarked i ks l).map u := by
  intro l
  induction l with
  | nil => intro i ks; cases ks <;> rfl
  | cons p l ih =>
    intro i ks
    cases ks with
    | nil => simp only [List.map_cons, dropMarked, ih]
    | cons k ks =>
      simp only [List.map_cons, dropMarked]
      split_ifs
      · rw [ih]; rfl
      · exact ih _ _

theorem addPoints_mp (hf : Emb t.nullDistance f) (hg : Emb t.nullDistance g) : ∀ (l acc : List NP),
    addPoints (stdEnv t).same (acc.map (mp f g)) (l.map (mp f g)) = mapRes (List.map (mp f g)) (addPoints same acc l) := by
  intro l
  induction l with
  | nil => intro acc; cases acc <;> simp [addPoints, mapRes]
  | cons p l ih =>
    intro acc
    cases acc with
    | nil => exact ih [p]
    | cons b acc =>
      simp only [List.map_cons, addPoints, same_mp hf hg]
      by_cases h : same p b = true
      · rw [if_pos h, if_pos h]; rfl
      · rw [if_neg h, if_neg h]; exact ih (p :: b :: acc)

/-! ### Directions -/

theorem axOrd_iff {p q : NP} : Ax (ordS (p, q)) = true ↔ (p.1 = q.1 ∧ p.2 ≠ q.2) ∨ (p.2 = q.2 ∧ p.1 ≠ q.1) := by
  obtain ⟨a, b⟩ := p
  obtain ⟨c, d⟩ := q
  unfold ordS ptLt Ax
  simp only
  split_ifs <;> simp_all <;> omega

/-- Angle of a step parallel to the axes, as computed by `minimize()`. -/
noncomputable def stepAngle (p q : NP) : ℝ :=
  if p.1 = q.1 then (if p.2 < q.2 then 0 else Real.pi) else (if p.1 < q.1 then Real.pi / 2 else - (Real.pi / 2))

theorem atan2_mp (hf : Emb t.nullDistance f) (hg : Emb t.nullDistance g) {p q : NP} (h : Ax (ordS (p, q)) = true) :
    atan2 ((mp f g q).1 - (mp f g p).1) ((mp f g q).2 - (mp f g p).2) = stepAngle p q := by
  rw [axOrd_iff] at h
  unfold atan2 stepAngle mp
  simp only
  rcases h with ⟨h1, h2⟩ | ⟨h1, h2⟩
  · rw [if_pos h1, h1, sub_self]
    by_cases h3 : p.2 < q.2
    · rw [if_pos h3, Complex.arg_eq_zero_iff]
      have := hg.lt_iff.2 h3
      exact ⟨by simp; linarith, rfl⟩
    · rw [if_neg h3, Complex.arg_eq_pi_iff]
      have := hg.lt_iff.2 (show q.2 < p.2 by omega)
      exact ⟨by simp; linarith, rfl⟩
  · rw [if_neg h2, h1, sub_self]
    by_cases h3 : p.1 < q.1
    · rw [if_pos h3, Complex.arg_eq_pi_div_two_iff]
      have := hf.lt_iff.2 h3
      exact ⟨rfl, by simp; linarith⟩
    · rw [if_neg h3, Complex.arg_eq_neg_pi_div_two_iff]
      have := hf.lt_iff.2 (show q.1 < p.1 by omega)
      exact ⟨rfl, by simp; linarith⟩

theorem mid_mp (ht : Spec.RectThr t) (hf : Emb t.nullDistance f) (hg : Emb t.nullDistance g) {p q r : NP} (h : axTriple p q r = true) :
    (stdEnv t).mid (mp f g p) (mp f g q) (mp f g r) = mid p q r := by
  unfold axTriple at h
  rw [Bool.and_eq_true] at h
  show sameAngle _ _ _ _ = _
  unfold sameAngle
  simp only
  rw [atan2_mp hf hg h.1, atan2_mp hf hg h.2]
  have h1 := axOrd_iff.1 h.1
  have h2 := axOrd_iff.1 h.2
  have hp := Real.two_le_pi
  have a0 := ht.ang0
  have a1 := ht.ang1
  rw [Bool.eq_iff_iff]
  simp only [decide_eq_true_eq, mid, Bool.or_eq_true, Bool.and_eq_true, beq_iff_eq]
  unfold stepAngle
  rcases h1 with ⟨h1, h1'⟩ | ⟨h1, h1'⟩ <;> rcases h2 with ⟨h2, h2'⟩ | ⟨h2, h2'⟩
  · rw [if_pos h1, if_pos h2]
    by_cases c1 : p.2 < q.2 <;> by_cases c2 : q.2 < r.2 <;> simp only [c1, c2, if_true, if_false, decide_true, decide_false, sub_self, abs_zero, sub_zero, zero_sub, abs_neg]
    · simp [a0, h1, h2]
    · rw [abs_of_pos (by linarith)]
      simp [h1, h2, h1', h2']; linarith
    · rw [abs_of_pos (by linarith)]
      simp [h1, h2, h1', h2']; linarith
    · simp [a0, h1, h2]
  · rw [if_pos h1, if_neg h2']
    have : ¬ (p.2 = q.2 ∧ q.2 = r.2) := fun hc => h1' hc.1
    have : ¬ (p.1 = q.1 ∧ q.1 = r.1) := fun hc => h2' hc.2
    have hno : ¬ ((((p.1 = q.1) ∧ q.1 = r.1) ∧ decide (p.2 < q.2) = decide (q.2 < r.2)) ∨ (((p.2 = q.2) ∧ q.2 = r.2) ∧ decide (p.1 < q.1) = decide (q.1 < r.1))) := by tauto
    refine iff_of_false ?_ hno
    rw [not_lt]
    split_ifs
    · rw [abs_of_pos (by linarith)]; linarith
    · rw [abs_of_neg (by linarith)]; linarith
    · rw [abs_of_neg (by linarith)]; linarith
    · rw [abs_of_neg (by linarith)]; linarith
  · rw [if_neg h1', if_pos h2]
    have : ¬ (p.2 = q.2 ∧ q.2 = r.2) := fun hc => h2' hc.2
    have : ¬ (p.1 = q.1 ∧ q.1 = r.1) := fun hc => h1' hc.1
    have hno : ¬ ((((p.1 = q.1) ∧ q.1 = r.1) ∧ decide (p.2 < q.2) = decide (q.2 < r.2)) ∨ (((p.2 = q.2) ∧ q.2 = r.2) ∧ decide (p.1 < q.1) = decide (q.1 < r.1))) := by tauto
    refine iff_of_false ?_ hno
    rw [not_lt]
    split_ifs
    · rw [abs_of_neg (by linarith)]; linarith
    · rw [abs_of_pos (by linarith)]; linarith
    · rw [abs_of_pos (by linarith)]; linarith
    · rw [abs_of_pos (by linarith)]; linarith
  · rw [if_neg h1', if_neg h2']
    by_cases c1 : p.1 < q.1 <;> by_cases c2 : q.1 < r.1 <;> simp only [c1, c2, if_true, if_false, decide_true, decide_false, sub_self, abs_zero]
    · simp [a0, h1, h2]
    · rw [abs_of_neg (by linarith)]
      simp [h1, h2, h1', h2']; linarith
    · rw [abs_of_pos (by linarith)]
      simp [h1, h2, h1', h2']; linarith
    · simp [a0, h1, h2]

theorem minimizeMark_mp (ht : Spec.RectThr t) (hf : Emb t.nullDistance f) (hg : Emb t.nullDistance g) {pts : List NP} (h : axAll pts = true) :
    minimizeMark (stdEnv t).mid (pts.map (mp f g)) 0 (pts.map (mp f g)).length = minimizeMark mid pts 0 pts.length := by
  unfold minimizeMark
  rw [List.length_map]
  apply List.filter_congr
  intro i hi
  have hi' : i < pts.length := by
    rw [List.mem_range'_1] at hi; omega
  unfold axAll at h
  rw [List.all_eq_true] at h
  have h := h i (List.mem_range.2 hi')
  simp only [List.getElem?_map]
  cases h1 : pts[if i = 0 then pts.length - 1 else i - 1]? with
  | none => rfl
  | some p =>
    cases h2 : pts[i]? with
    | none => rfl
    | some q =>
      cases h3 : pts[if i = pts.length - 1 then 0 else i + 1]? with
      | none => rfl
      | some r =>
        rw [h1, h2, h3] at h
        exact mid_mp ht hf hg h

theorem minimize_mp (ht : Spec.RectThr t) (hf : Emb t.nullDistance f) (hg : Emb t.nullDistance g) {pts : List NP} (h : axAll pts = true) :
    minimize (stdEnv t).same (stdEnv t).mid true (pts.map (mp f g)) = mapRes (List.map (mp f g)) (minimize same mid true pts) := by
  unfold minimize
  simp only [if_true, minimizeMark_mp ht hf hg h]
  rw [List.length_map]
  by_cases h1 : pts.length < 3
  · rw [if_pos h1, if_pos h1]; rfl
  · rw [if_neg h1, if_neg h1]
    by_cases h2 : (minimizeMark mid pts 0 pts.length).isEmpty = true
    · rw [if_pos h2, if_pos h2]; rfl
    · rw [if_neg h2, if_neg h2, dropMarked_mp]
      exact addPoints_mp hf hg _ []

theorem convertToCoord_mp (hf : Emb t.nullDistance f) (hg : Emb t.nullDistance g) (v : List (ℕ × ℕ)) (vx vy : List (Idx ℕ)) :
    convertToCoord (stdEnv t).same v (vx.map (mpI f)) (vy.map (mpI g)) = mapRes (List.map (mp f g)) (convertToCoord same v vx vy) := by
  unfold convertToCoord
  have := convertLoop_mp hf hg vx vy v []
  rw [List.map_nil] at this
  rw [this]
  apply mapRes_bind
  intro a _
  unfold polySet
  rw [checkInput_mp hf hg]
  split_ifs <;> rfl

theorem unionTable_mp (ht : Spec.RectThr t) (hf : Emb t.nullDistance f) (hg : Emb t.nullDistance g) (r1 r2 : FRect ℕ) (h : ∀ pts, unionRaw r1 r2 = .ok pts → axAll pts = true) :
    unionTable (stdEnv t).same (stdEnv t).mid (mpR f g r1) (mpR f g r2) = mapRes (List.map (mp f g)) (unionTable same mid r1 r2) := by
  have e1 := coordVec_mp hf r1.p1.1 r1.p2.1 r2.p1.1 r2.p2.1
  have e2 := coordVec_mp hg r1.p1.2 r1.p2.2 r2.p1.2 r2.p2.2
  unfold unionTable
  simp only [mpR, mp]
  rw [e1, e2, tableCell_mp]
  unfold unionRaw at h
  simp only at h
  cases hp : parseTable (tableCell (coordVec r1.p1.1 r1.p2.1 r2.p1.1 r2.p2.1) (coordVec r1.p1.2 r1.p2.2 r2.p1.2 r2.p2.2)) with
  | throw => rfl
  | ub => rfl
  | ok v =>
    rw [hp] at h
    simp only [Res.bind_ok] at h ⊢
    rw [convertToCoord_mp hf hg]
    apply mapRes_bind
    intro a ha
    exact minimize_mp ht hf hg (h a ha)

theorem unionArea_mp (ht : Spec.RectThr t) (hf : Emb t.nullDistance f) (hg : Emb t.nullDistance g) {a b : FRect ℕ} (ha : Proper a) (hb : Proper b) {res : Res (List NP)}
    (h : union a b = some res)
    (hx : ∀ q l, inter a b = some (q :: l) → ∀ pts, (if a.p1.1 < b.p1.1 then unionRaw b a else unionRaw a b) = .ok pts → axAll pts = true) :
    unionArea t (mpR f g a) (mpR f g b) = mapRes (List.map (mp f g)) res := by
  unfold union at h
  unfold unionArea
  rw [mpR_eq hf hg]
  by_cases he : a == b
  · rw [if_pos he] at h ⊢
    simp only [Option.some.injEq] at h; subst h; rfl
  rw [if_neg he] at h ⊢
  cases hi : inter a b with
  | none => rw [hi] at h; simp at h
  | some l =>
    rw [hi] at h
    rw [rectInter_mp ht hf hg ha hb hi]
    simp only [Res.bind_ok]
    cases l with
    | nil =>
      simp only [List.map_nil, isInside_mp hf hg, Option.some.injEq] at h ⊢
      subst h
      split_ifs <;> rfl
    | cons q l =>
      have hx := hx q l hi
      simp only [List.map_cons, Option.some.injEq] at h ⊢
      subst h
      have e : (mpR f g a).p1.1 < (mpR f g b).p1.1 ↔ a.p1.1 < b.p1.1 := hf.lt_iff
      by_cases hc : a.p1.1 < b.p1.1
      · rw [if_pos (e.2 hc), if_pos hc]
        rw [if_pos hc] at hx
        exact unionTable_mp ht hf hg b a hx
      · rw [if_neg (fun hh => hc (e.1 hh)), if_neg hc]
        rw [if_neg hc] at hx
        exact unionTable_mp ht hf hg a b hx

/-! ### Area of the polygon -/

theorem cycPairs_mp (l : List NP) : cycPairs (l.map (mp f g)) = (cycPairs l).map (mpS f g) := by
  unfold cycPairs
  rw [← List.map_tail, ← List.map_take, ← List.map_append, List.zip_map]
  rfl

theorem segPairs_mp (l : List NP) : segPairs true (l.map (mp f g)) = (segPairs true l).map (mpS f g) := by
  unfold segPairs
  rw [List.length_map]
  by_cases h : l.length < 2
  · rw [if_pos h, if_pos h]; rfl
  · rw [if_neg h, if_neg h, if_pos rfl, if_pos rfl]; exact cycPairs_mp l

theorem segInterB_mp (ht : Spec.RectThr t) (hf : Emb t.nullDistance f) (hg : Emb t.nullDistance g) (a b : NS) (ha : Ax (ordS a) = true) (hb : Ax (ordS b) = true) :
    segInterB t (mpS f g a) (mpS f g b) = interB a b := by
  unfold segInterB interB
  simp only [mpS]
  rw [fixOrder_mp hf hg, fixOrder_mp hf hg, segInter_mp ht hf hg _ _ ha hb]
  cases axInter (ordS (a.1, a.2)) (ordS (b.1, b.2)) <;> rfl

theorem noCross_mp (ht : Spec.RectThr t) (hf : Emb t.nullDistance f) (hg : Emb t.nullDistance g) {l : List NS} (h : ∀ s ∈ l, Ax (ordS s) = true) :
    noCross (segInterB t) (l.map (mpS f g)) = noCross interB l := by
  unfold noCross
  simp only [List.length_map, List.getElem?_map]
  congr 2
  funext i
  congr 1
  funext j
  cases h1 : l[j]? with
  | none => rfl
  | some a =>
    cases h2 : l[i]? with
    | none => rfl
    | some b => exact segInterB_mp ht hf hg a b (h a (List.mem_of_getElem? h1)) (h b (List.mem_of_getElem? h2))

theorem sum_single {a b : ℕ} (ha : a < 4) (hb : b < 4) :
    f a * g b = ∑ i ∈ Finset.range 4, ∑ j ∈ Finset.range 4, (((if a = i ∧ b = j then 1 else 0 : ℤ) : ℤ) : ℝ) * (f i * g j) := by
  interval_cases a <;> interval_cases b <;> simp [Finset.sum_range_succ]

theorem sum_pairs (l : List NS) (h : ∀ s ∈ l, (s.1.1 < 4 ∧ s.1.2 < 4) ∧ s.2.1 < 4 ∧ s.2.2 < 4) :
    ((l.map (mpS f g)).map (fun s => s.1.1 * s.2.2 - s.1.2 * s.2.1)).sum =
      ∑ i ∈ Finset.range 4, ∑ j ∈ Finset.range 4,
        (((l.map (fun s => (if s.1.1 = i ∧ s.2.2 = j then (1 : ℤ) else 0) - (if s.2.1 = i ∧ s.1.2 = j then 1 else 0))).sum : ℤ) : ℝ) * (f i * g j) := by
  induction l with
  | nil => simp
  | cons s l ih =>
    obtain ⟨⟨h1, h2⟩, h3, h4⟩ := h s List.mem_cons_self
    simp only [List.map_cons, List.sum_cons, Int.cast_add, add_mul, Finset.sum_add_distrib]
    rw [← ih (fun s' hs' => h s' (List.mem_cons_of_mem _ hs'))]
    congr 1
    simp only [Int.cast_sub, sub_mul, Finset.sum_sub_distrib]
    rw [← sum_single h1 h4, ← sum_single h3 h2]
    simp only [mpS, mp]; ring

theorem area_coef {r : FRect ℕ} (h1 : r.p1.1 < 4 ∧ r.p1.2 < 4) (h2 : r.p2.1 < 4 ∧ r.p2.2 < 4) :
    (mpR f g r).area = ∑ i ∈ Finset.range 4, ∑ j ∈ Finset.range 4, ((coefR i j r : ℤ) : ℝ) * (f i * g j) := by
  simp only [coefR, Int.cast_add, Int.cast_sub, add_mul, sub_mul, Finset.sum_add_distrib, Finset.sum_sub_distrib]
  rw [← sum_single h2.1 h2.2, ← sum_single h1.1 h1.2, ← sum_single h1.1 h2.2, ← sum_single h2.1 h1.2]
  simp only [FRect.area, FRect.height, FRect.width, mpR, mp]; ring

theorem mem_cycPairs {P : Type} {l : List P} {s : P × P} (h : s ∈ cycPairs l) : s.1 ∈ l ∧ s.2 ∈ l := by
  unfold cycPairs at h
  have := List.of_mem_zip (show (s.1, s.2) ∈ _ from h)
  refine ⟨this.1, ?_⟩
  rcases List.mem_append.1 this.2 with h | h
  · exact List.mem_of_mem_tail h
  · exact List.mem_of_mem_take h

/-- The area of the polygon, from what `goodPoly` checks. -/
theorem freshArea_mp (ht : Spec.RectThr t) (hf : Emb t.nullDistance f) (hg : Emb t.nullDistance g) {a b : FRect ℕ}
    (ha : Proper a) (hb : Proper b) (h4a : a.p2.1 < 4 ∧ a.p2.2 < 4) (h4b : b.p2.1 < 4 ∧ b.p2.2 < 4) {pts : List NP} (h : goodPoly a b pts = true) :
    freshSimple (stdEnv t) true (pts.map (mp f g)) = .ok true ∧
    signedArea (pts.map (mp f g)) = - ((mpR f g a).area + (mpR f g b).area - (mpR f g (common a b)).area) := by
  unfold goodPoly at h
  simp only [Bool.and_eq_true, decide_eq_true_eq, List.all_eq_true, List.mem_range] at h
  obtain ⟨⟨⟨⟨h1, h2⟩, h3⟩, h4⟩, h5⟩ := h
  constructor
  · unfold freshSimple
    rw [List.length_map, if_neg (by omega)]
    simp only [Bool.not_true, Bool.false_eq_true, if_false]
    rw [segPairs_mp]
    rw [if_neg]
    · unfold isSimple
      rw [List.length_map, if_neg (by omega)]
      simp only [Bool.not_true, Bool.false_eq_true, if_false]
      rw [segPairs_mp]
      show Res.ok (noCross (segInterB t) _) = _
      rw [noCross_mp ht hf hg h3, h4]
    · rw [List.any_eq_true]
      rintro ⟨s, hs, hs'⟩
      rw [List.mem_map] at hs
      obtain ⟨s0, hs0, rfl⟩ := hs
      simp only [mpS, same_mp hf hg, same, beq_iff_eq] at hs'
      have := axOrd_iff.1 (h3 s0 hs0)
      rw [hs'] at this
      tauto
  · unfold signedArea
    rw [cycPairs_mp, sum_pairs]
    · rw [area_coef (r := a) ⟨by have := ha.1; omega, by have := ha.2; omega⟩ h4a]
      rw [area_coef (r := b) ⟨by have := hb.1; omega, by have := hb.2; omega⟩ h4b]
      rw [area_coef (r := common a b)
        ⟨by simp only [common]; have := ha.1; have := hb.1; omega, by simp only [common]; have := ha.2; have := hb.2; omega⟩
        ⟨by simp only [common]; omega, by simp only [common]; omega⟩]
      rw [← Finset.sum_add_distrib, ← Finset.sum_sub_distrib, ← Finset.sum_neg_distrib, Finset.sum_div]
      apply Finset.sum_congr rfl
      intro i hi
      rw [← Finset.sum_add_distrib, ← Finset.sum_sub_distrib, ← Finset.sum_neg_distrib, Finset.sum_div]
      apply Finset.sum_congr rfl
      intro j hj
      have := h5 i (Finset.mem_range.1 hi) j (Finset.mem_range.1 hj)
      unfold coef at this
      rw [this]
      push_cast
      ring
    · intro s hs
      obtain ⟨m1, m2⟩ := mem_cycPairs hs
      exact ⟨h2 _ m1, h2 _ m2⟩

/-! ### Any two separated intervals are one of the thirteen relative positions -/

theorem emb4 {n c0 c1 c2 c3 : ℝ} (hn : 0 < n) (h0 : c0 + n ≤ c1) (h1 : c1 + n ≤ c2) (h2 : c2 + n ≤ c3) :
    ∃ f, Emb n f ∧ f 0 = c0 ∧ f 1 = c1 ∧ f 2 = c2 ∧ f 3 = c3 := by
  refine ⟨fun i => if i = 0 then c0 else if i = 1 then c1 else if i = 2 then c2 else c3 + ((i : ℝ) - 3) * n, ⟨hn, ?_⟩, by simp, by simp, by simp, by norm_num⟩
  have step : ∀ i : ℕ, (if i = 0 then c0 else if i = 1 then c1 else if i = 2 then c2 else c3 + ((i : ℝ) - 3) * n) + n ≤
      (if i + 1 = 0 then c0 else if i + 1 = 1 then c1 else if i + 1 = 2 then c2 else c3 + (((i + 1 : ℕ) : ℝ) - 3) * n) := by
    intro i
    match i with
    | 0 => simpa using h0
    | 1 => simpa using h1
    | 2 => norm_num; linarith
    | k + 3 =>
      rw [if_neg (by omega), if_neg (by omega), if_neg (by omega), if_neg (by omega), if_neg (by omega), if_neg (by omega)]
      push_cast
      linarith
  intro i j hij
  induction j with
  | zero => omega
  | succ j ih =>
    rcases Nat.lt_succ_iff_lt_or_eq.1 hij with h | h
    · have := ih h
      have := step j
      linarith
    · subst h; exact step i

theorem exists_emb {n a1 a2 b1 b2 : ℝ} (hn : 0 < n) (ha : a1 + n ≤ a2) (hb : b1 + n ≤ b2)
    (h11 : a1 = b1 ∨ n ≤ |a1 - b1|) (h12 : a1 = b2 ∨ n ≤ |a1 - b2|) (h21 : a2 = b1 ∨ n ≤ |a2 - b1|) (h22 : a2 = b2 ∨ n ≤ |a2 - b2|) :
    ∃ f, Emb n f ∧ ∃ x ∈ allen, a1 = f x.1 ∧ a2 = f x.2.1 ∧ b1 = f x.2.2.1 ∧ b2 = f x.2.2.2 := by
  have tri : ∀ x y : ℝ, (x = y ∨ n ≤ |x - y|) → x = y ∨ x + n ≤ y ∨ y + n ≤ x := by
    intro x y h
    rcases h with h | h
    · exact Or.inl h
    · rcases le_abs.1 h with h | h
      · right; right; linarith
      · right; left; linarith
  rcases tri _ _ h11 with e | e | e
  · subst e
    rcases tri _ _ h22 with e' | e' | e'
    · subst e'
      obtain ⟨f, hf, e0, e1, -, -⟩ := emb4 (c2 := a2 + n) (c3 := a2 + n + n) hn ha le_rfl le_rfl
      exact ⟨f, hf, (0, 1, 0, 1), by decide, e0.symm, e1.symm, e0.symm, e1.symm⟩
    · obtain ⟨f, hf, e0, e1, e2, -⟩ := emb4 (c3 := b2 + n) hn ha e' le_rfl
      exact ⟨f, hf, (0, 1, 0, 2), by decide, e0.symm, e1.symm, e0.symm, e2.symm⟩
    · obtain ⟨f, hf, e0, e1, e2, -⟩ := emb4 (c3 := a2 + n) hn hb e' le_rfl
      exact ⟨f, hf, (0, 2, 0, 1), by decide, e0.symm, e2.symm, e0.symm, e1.symm⟩
  · rcases tri _ _ h21 with e' | e' | e'
    · subst e'
      obtain ⟨f, hf, e0, e1, e2, -⟩ := emb4 (c3 := b2 + n) hn ha hb le_rfl
      exact ⟨f, hf, (0, 1, 1, 2), by decide, e0.symm, e1.symm, e1.symm, e2.symm⟩
    · obtain ⟨f, hf, e0, e1, e2, e3⟩ := emb4 hn ha e' hb
      exact ⟨f, hf, (0, 1, 2, 3), by decide, e0.symm, e1.symm, e2.symm, e3.symm⟩
    · rcases tri _ _ h22 with e'' | e'' | e''
      · subst e''
        obtain ⟨f, hf, e0, e1, e2, -⟩ := emb4 (c3 := a2 + n) hn e e' le_rfl
        exact ⟨f, hf, (0, 2, 1, 2), by decide, e0.symm, e2.symm, e1.symm, e2.symm⟩
      · obtain ⟨f, hf, e0, e1, e2, e3⟩ := emb4 hn e e' e''
        exact ⟨f, hf, (0, 2, 1, 3), by decide, e0.symm, e2.symm, e1.symm, e3.symm⟩
      · obtain ⟨f, hf, e0, e1, e2, e3⟩ := emb4 hn e hb e''
        exact ⟨f, hf, (0, 3, 1, 2), by decide, e0.symm, e3.symm, e1.symm, e2.symm⟩
  · rcases tri _ _ h12 with e' | e' | e'
    · subst e'
      obtain ⟨f, hf, e0, e1, e2, -⟩ := emb4 (c3 := a2 + n) hn hb ha le_rfl
      exact ⟨f, hf, (1, 2, 0, 1), by decide, e1.symm, e2.symm, e0.symm, e1.symm⟩
    · rcases tri _ _ h22 with e'' | e'' | e''
      · subst e''
        obtain ⟨f, hf, e0, e1, e2, -⟩ := emb4 (c3 := a2 + n) hn e ha le_rfl
        exact ⟨f, hf, (1, 2, 0, 2), by decide, e1.symm, e2.symm, e0.symm, e2.symm⟩
      · obtain ⟨f, hf, e0, e1, e2, e3⟩ := emb4 hn e ha e''
        exact ⟨f, hf, (1, 2, 0, 3), by decide, e1.symm, e2.symm, e0.symm, e3.symm⟩
      · obtain ⟨f, hf, e0, e1, e2, e3⟩ := emb4 hn e e' e''
        exact ⟨f, hf, (1, 3, 0, 2), by decide, e1.symm, e3.symm, e0.symm, e2.symm⟩
    · obtain ⟨f, hf, e0, e1, e2, e3⟩ := emb4 hn hb e' ha
      exact ⟨f, hf, (2, 3, 0, 1), by decide, e2.symm, e3.symm, e0.symm, e1.symm⟩

/-! ### Results for two rectangles -/

theorem mpR_common (hf : Emb t.nullDistance f) (hg : Emb t.nullDistance g) (a b : FRect ℕ) : Spec.commonRect (mpR f g a) (mpR f g b) = mpR f g (common a b) := by
  simp only [Spec.commonRect, common, mpR, mp, hf.map_min, hf.map_max, hg.map_min, hg.map_max]

theorem overlap_coord (a b : FRect ℝ) : Spec.Overlap a b ↔ max a.p1.1 b.p1.1 < min a.p2.1 b.p2.1 ∧ max a.p1.2 b.p1.2 < min a.p2.2 b.p2.2 := by
  constructor
  · rintro ⟨p, ⟨h1, h2, h3, h4⟩, h5, h6, h7, h8⟩
    exact ⟨(max_lt h1 h5).trans (lt_min h2 h6), (max_lt h3 h7).trans (lt_min h4 h8)⟩
  · rintro ⟨h1, h2⟩
    obtain ⟨x, hx, hx'⟩ := exists_between h1
    obtain ⟨y, hy, hy'⟩ := exists_between h2
    rw [max_lt_iff] at hx hy
    rw [lt_min_iff] at hx' hy'
    exact ⟨(x, y), ⟨hx.1, hx'.1, hy.1, hy'.1⟩, hx.2, hx'.2, hy.2, hy'.2⟩

theorem overlap_mp (hf : Emb t.nullDistance f) (hg : Emb t.nullDistance g) (a b : FRect ℕ) : Spec.Overlap (mpR f g a) (mpR f g b) ↔ overlap a b = true := by
  rw [overlap_coord]
  simp only [mpR, mp, overlap, Bool.and_eq_true, decide_eq_true_eq, ← hf.map_min, ← hf.map_max, ← hg.map_min, ← hg.map_max, hf.lt_iff, hg.lt_iff]

/-- The closed rectangles have no common point. -/
def apart (a b : FRect ℕ) : Bool :=
  !(decide (max a.p1.1 b.p1.1 ≤ min a.p2.1 b.p2.1) && decide (max a.p1.2 b.p1.2 ≤ min a.p2.2 b.p2.2))

theorem disjoint_mp (hf : Emb t.nullDistance f) (hg : Emb t.nullDistance g) {a b : FRect ℕ} : Spec.Disjoint (mpR f g a) (mpR f g b) → apart a b = true := by
  intro h
  unfold apart
  rw [Bool.not_eq_true', Bool.eq_false_iff]
  intro hc
  simp only [Bool.and_eq_true, decide_eq_true_eq, max_le_iff, le_min_iff] at hc
  obtain ⟨⟨⟨h1, h2⟩, h3, h4⟩, ⟨h5, h6⟩, h7, h8⟩ := hc
  refine h (f (max a.p1.1 b.p1.1), g (max a.p1.2 b.p1.2)) ⟨?_, ?_, ?_, ?_⟩ ⟨?_, ?_, ?_, ?_⟩
  all_goals simp only [mpR, mp, hf.le_iff, hg.le_iff]; omega

theorem union_apart : ∀ x ∈ allen, ∀ y ∈ allen, apart (rectA x y) (rectB x y) = true → union (rectA x y) (rectB x y) = some (.ok []) ∧ inter (rectA x y) (rectB x y) = some [] := by
  decide +kernel

theorem allen_small : ∀ x ∈ allen, x.1 < x.2.1 ∧ x.2.2.1 < x.2.2.2 ∧ x.2.1 < 4 ∧ x.2.2.2 < 4 := by decide

/-- Two rectangles whose coordinates are apart are the image of two rectangles of the list. -/
theorem exists_rank (ht : Spec.RectThr t) {a b : FRect ℝ} (h : Spec.ApartRects t.nullDistance a b) :
    ∃ f g, Emb t.nullDistance f ∧ Emb t.nullDistance g ∧ ∃ x ∈ allen, ∃ y ∈ allen, a = mpR f g (rectA x y) ∧ b = mpR f g (rectB x y) := by
  have hn : 0 < t.nullDistance := dblEps_pos.trans ht.dist
  obtain ⟨f, hf, x, hx, e1, e2, e3, e4⟩ := exists_emb hn h.wa h.wb h.x11 h.x12 h.x21 h.x22
  obtain ⟨g, hg, y, hy, e5, e6, e7, e8⟩ := exists_emb hn h.ha h.hb h.y11 h.y12 h.y21 h.y22
  refine ⟨f, g, hf, hg, x, hx, y, hy, ?_, ?_⟩
  · obtain ⟨⟨_, _⟩, _, _⟩ := a
    simp only at e1 e2 e5 e6
    subst e1 e2 e5 e6; rfl
  · obtain ⟨⟨_, _⟩, _, _⟩ := b
    simp only at e3 e4 e7 e8
    subst e3 e4 e7 e8; rfl

theorem proper_AB {x y : ℕ × ℕ × ℕ × ℕ} (hx : x ∈ allen) (hy : y ∈ allen) : Proper (rectA x y) ∧ Proper (rectB x y) :=
  ⟨⟨(allen_small x hx).1, (allen_small y hy).1⟩, (allen_small x hx).2.1, (allen_small y hy).2.1⟩

theorem interArea_apart (ht : Spec.RectThr t) {a b : FRect ℝ} (h : Spec.ApartRects t.nullDistance a b) :
    (Spec.Overlap a b → H2d.intersectArea t a b = .ok (some (Spec.commonRect a b))) ∧ (¬ Spec.Overlap a b → H2d.intersectArea t a b = .ok none) := by
  obtain ⟨f, g, hf, hg, x, hx, y, hy, rfl, rfl⟩ := exists_rank ht h
  obtain ⟨pA, pB⟩ := proper_AB hx hy
  have hc := check_all x hx y hy
  unfold check at hc
  simp only [Bool.and_eq_true, decide_eq_true_eq] at hc
  have := intersectArea_mp ht hf hg pA pB hc.1.1
  rw [this, overlap_mp hf hg, mpR_common hf hg]
  constructor
  · intro ho; rw [if_pos ho]; rfl
  · intro ho; rw [if_neg ho]; rfl

theorem unionArea_overlap (ht : Spec.RectThr t) {a b : FRect ℝ} (h : Spec.ApartRects t.nullDistance a b) (ho : Spec.Overlap a b) :
    ∃ pts, unionArea t a b = .ok pts ∧ freshSimple (stdEnv t) true pts = .ok true ∧ signedArea pts = - Spec.unionSize a b := by
  obtain ⟨f, g, hf, hg, x, hx, y, hy, rfl, rfl⟩ := exists_rank ht h
  obtain ⟨pA, pB⟩ := proper_AB hx hy
  have sx := allen_small x hx
  have sy := allen_small y hy
  have hc := check_all x hx y hy
  rw [overlap_mp hf hg] at ho
  unfold check at hc
  simp only [Bool.and_eq_true, decide_eq_true_eq, ho, Bool.not_true, Bool.false_or] at hc
  obtain ⟨⟨-, h2⟩, h3⟩ := hc
  cases hu : union (rectA x y) (rectB x y) with
  | none => rw [hu] at h2; simp at h2
  | some r =>
    rw [hu] at h2
    cases r with
    | throw => simp at h2
    | ub => simp at h2
    | ok pts =>
      simp only at h2
      have := unionArea_mp ht hf hg pA pB hu (by
        intro q l hi pts' hp
        rw [hi] at h3
        simp only [hp] at h3
        exact h3)
      have hA := freshArea_mp ht hf hg pA pB ⟨sx.2.2.1, sy.2.2.1⟩ ⟨sx.2.2.2, sy.2.2.2⟩ h2
      refine ⟨pts.map (mp f g), this, hA.1, ?_⟩
      rw [hA.2, Spec.unionSize, mpR_common hf hg]

theorem unionArea_disjoint (ht : Spec.RectThr t) {a b : FRect ℝ} (h : Spec.ApartRects t.nullDistance a b) (ho : Spec.Disjoint a b) :
    unionArea t a b = .ok [] := by
  obtain ⟨f, g, hf, hg, x, hx, y, hy, rfl, rfl⟩ := exists_rank ht h
  obtain ⟨pA, pB⟩ := proper_AB hx hy
  obtain ⟨h1, h2⟩ := union_apart x hx y hy (disjoint_mp hf hg ho)
  exact unionArea_mp ht hf hg pA pB h1 (by intro q l hi; rw [h2] at hi; simp at hi)

theorem commonRect_symm (a b : FRect ℝ) : Spec.commonRect a b = Spec.commonRect b a := by
  simp only [Spec.commonRect, max_comm, min_comm]

theorem overlap_symm (a b : FRect ℝ) : Spec.Overlap a b ↔ Spec.Overlap b a := by
  unfold Spec.Overlap
  constructor <;> rintro ⟨p, h1, h2⟩ <;> exact ⟨p, h2, h1⟩

theorem apart_symm {n x y : ℝ} (h : Spec.Apart n x y) : Spec.Apart n y x := by
  rcases h with h | h
  · exact Or.inl h.symm
  · exact Or.inr (by rwa [abs_sub_comm])

theorem apartRects_symm {n : ℝ} {a b : FRect ℝ} (h : Spec.ApartRects n a b) : Spec.ApartRects n b a :=
  ⟨h.wb, h.hb, h.wa, h.ha, apart_symm h.x11, apart_symm h.x21, apart_symm h.x12, apart_symm h.x22, apart_symm h.y11, apart_symm h.y21, apart_symm h.y12, apart_symm h.y22⟩

/-- Sizes: the common part is not larger than either rectangle. -/
theorem common_area_le {a b : FRect ℝ} (ha : a.p1.1 < a.p2.1 ∧ a.p1.2 < a.p2.2) (hb : b.p1.1 < b.p2.1 ∧ b.p1.2 < b.p2.2) (ho : Spec.Overlap a b) :
    0 < (Spec.commonRect a b).area ∧ (Spec.commonRect a b).area ≤ a.area ∧ (Spec.commonRect a b).area ≤ b.area := by
  obtain ⟨h1, h2⟩ := (overlap_coord a b).1 ho
  simp only [FRect.area, FRect.height, FRect.width, Spec.commonRect]
  have k1 := le_max_left a.p1.1 b.p1.1
  have k2 := le_max_right a.p1.1 b.p1.1
  have k3 := le_max_left a.p1.2 b.p1.2
  have k4 := le_max_right a.p1.2 b.p1.2
  have k5 := min_le_left a.p2.1 b.p2.1
  have k6 := min_le_right a.p2.1 b.p2.1
  have k7 := min_le_left a.p2.2 b.p2.2
  have k8 := min_le_right a.p2.2 b.p2.2
  refine ⟨mul_pos (by linarith) (by linarith), ?_, ?_⟩
  · exact mul_le_mul (by linarith) (by linarith) (by linarith) (by linarith)
  · exact mul_le_mul (by linarith) (by linarith) (by linarith) (by linarith)

theorem rectIoU_overlap (ht : Spec.RectThr t) {a b : FRect ℝ} (h : Spec.ApartRects t.nullDistance a b) (ho : Spec.Overlap a b) :
    rectIoU t a b = .ok ((Spec.commonRect a b).area / Spec.unionSize a b) := by
  have hn : 0 < t.nullDistance := dblEps_pos.trans ht.dist
  have h1 := (interArea_apart ht h).1 ho
  obtain ⟨pts, h2, h3, h4⟩ := unionArea_overlap ht h ho
  obtain ⟨k1, k2, k3⟩ := common_area_le (a := a) (b := b) ⟨by linarith [h.wa], by linarith [h.ha]⟩ ⟨by linarith [h.wb], by linarith [h.hb]⟩ ho
  have hpos : 0 < Spec.unionSize a b := by unfold Spec.unionSize; linarith
  have h5 : freshArea (stdEnv t) true pts = .ok (Spec.unionSize a b) := by
    unfold freshArea
    rw [h3, Res.bind_ok, if_pos rfl, h4, abs_neg, abs_of_pos hpos]
  unfold rectIoU
  rw [h1]
  simp only [Res.bind_ok, h2, h5]
  rw [if_neg hpos.ne']
  rfl

theorem rectIoU_no (ht : Spec.RectThr t) {a b : FRect ℝ} (h : Spec.ApartRects t.nullDistance a b) (ho : ¬ Spec.Overlap a b) : rectIoU t a b = .ok 0 := by
  unfold rectIoU
  rw [(interArea_apart ht h).2 ho]
  rfl

/-- Two overlapping rectangles that have the area of their common part are the same. -/
theorem area_eq_imp {a b : FRect ℝ} (pa : a.p1.1 < a.p2.1 ∧ a.p1.2 < a.p2.2) (pb : b.p1.1 < b.p2.1 ∧ b.p1.2 < b.p2.2) (ho : Spec.Overlap a b)
    (e1 : (Spec.commonRect a b).area = a.area) (e2 : (Spec.commonRect a b).area = b.area) : a = b := by
  obtain ⟨h1, h2⟩ := (overlap_coord a b).1 ho
  simp only [FRect.area, FRect.height, FRect.width, Spec.commonRect] at e1 e2
  have k1 := le_max_left a.p1.1 b.p1.1
  have k2 := le_max_right a.p1.1 b.p1.1
  have k3 := le_max_left a.p1.2 b.p1.2
  have k4 := le_max_right a.p1.2 b.p1.2
  have k5 := min_le_left a.p2.1 b.p2.1
  have k6 := min_le_right a.p2.1 b.p2.1
  have k7 := min_le_left a.p2.2 b.p2.2
  have k8 := min_le_right a.p2.2 b.p2.2
  have key : ∀ {h w H W : ℝ}, 0 < h → 0 < w → h ≤ H → w ≤ W → h * w = H * W → h = H ∧ w = W := by
    intro h w H W p1 p2 l1 l2 e
    constructor
    · by_contra hc
      have : h < H := lt_of_le_of_ne l1 hc
      nlinarith
    · by_contra hc
      have : w < W := lt_of_le_of_ne l2 hc
      nlinarith
  obtain ⟨a1, a2⟩ := key (by linarith) (by linarith) (by linarith) (by linarith) e1
  obtain ⟨b1, b2⟩ := key (by linarith) (by linarith) (by linarith) (by linarith) e2
  obtain ⟨⟨ax, ay⟩, ax', ay'⟩ := a
  obtain ⟨⟨bx, bY⟩, bx', bY'⟩ := b
  simp only at *
  have q1 : ax = bx := by linarith
  have q2 : ay = bY := by linarith
  have q3 : ax' = bx' := by linarith
  have q4 : ay' = bY' := by linarith
  subst q1 q2 q3 q4; rfl

theorem stdR_thr : Spec.RectThr Spec.stdR := by
  constructor <;> norm_num [Spec.stdR, dblEps]

theorem emb_cast : Emb Spec.stdR.nullDistance (fun i => (i : ℝ)) := by
  refine ⟨by norm_num [Spec.stdR], ?_⟩
  intro i j h
  have : ((i : ℝ) + 1) ≤ j := by exact_mod_cast h
  have : Spec.stdR.nullDistance ≤ 1 := by norm_num [Spec.stdR]
  linarith

/-- The other case: the segments cross. -/
theorem freshArea_cross (ht : Spec.RectThr t) (hf : Emb t.nullDistance f) (hg : Emb t.nullDistance g) {pts : List NP} (h1 : 3 ≤ pts.length)
    (h3 : ∀ s ∈ segPairs true pts, Ax (ordS s) = true) (h4 : noCross interB (segPairs true pts) = false) :
    freshArea (stdEnv t) true (pts.map (mp f g)) = .ok 0 := by
  have : freshSimple (stdEnv t) true (pts.map (mp f g)) = .ok false := by
    unfold freshSimple
    rw [List.length_map, if_neg (by omega)]
    simp only [Bool.not_true, Bool.false_eq_true, if_false]
    rw [segPairs_mp]
    rw [if_neg]
    · unfold isSimple
      rw [List.length_map, if_neg (by omega)]
      simp only [Bool.not_true, Bool.false_eq_true, if_false]
      rw [segPairs_mp]
      show Res.ok (noCross (segInterB t) _) = _
      rw [noCross_mp ht hf hg h3, h4]
    · rw [List.any_eq_true]
      rintro ⟨s, hs, hs'⟩
      rw [List.mem_map] at hs
      obtain ⟨s0, hs0, rfl⟩ := hs
      simp only [mpS, same_mp hf hg, same, beq_iff_eq] at hs'
      have := axOrd_iff.1 (h3 s0 hs0)
      rw [hs'] at this
      tauto
  unfold freshArea
  rw [this]; rfl

end H2d.Rank
