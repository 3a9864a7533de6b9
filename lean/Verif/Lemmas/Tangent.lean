import Verif.Lemmas.Bisect
import Verif.Props.Segment
import Verif.Props.SegmentOps
import Verif.Props.Line
import Verif.Props.Bisect

/-! # Lemmas for tangent segments -/

set_option linter.unusedVariables false
set_option linter.unusedSimpArgs false

namespace H2d.Tan
open H2d H2d.Spec H2d.Bis Real

theorem onSeg_symm {a b q : Pt ℝ} (h : OnSeg a b q) : OnSeg b a q := by
  obtain ⟨k, k0, k1, e⟩ := h
  exact ⟨1 - k, by linarith, by linarith, by rw [e]; apply Prod.ext <;> (simp only; ring)⟩

/-- Distance to a segment from a point facing one of its ends. -/
theorem dist_end {a b p : Pt ℝ} (h : a ≠ b) (hp : (p.1 - a.1) * (b.1 - a.1) + (p.2 - a.2) * (b.2 - a.2) = 0) {s : Seg} (hs : s = (a, b) ∨ s = (b, a)) :
    (segDistTo s p).1 = eucl p a := by
  have least : IsLeast {d | ∃ q, OnSeg a b q ∧ d = eucl p q} (eucl p a) := by
    refine ⟨⟨a, ⟨0, le_rfl, zero_le_one, by simp⟩, rfl⟩, ?_⟩
    rintro d ⟨q, ⟨k, k0, k1, rfl⟩, rfl⟩
    rw [eucl_le_iff (eucl_nonneg _ _), eucl_sq]
    simp only
    nlinarith [sq_nonneg (k * (b.1 - a.1)), sq_nonneg (k * (b.2 - a.2))]
  rcases hs with rfl | rfl
  · exact (Props.C19_shortest (a, b) h p).unique least
  · refine (Props.C19_shortest (b, a) h.symm p).unique ?_
    have : {d | ∃ q, OnSeg b a q ∧ d = eucl p q} = {d | ∃ q, OnSeg a b q ∧ d = eucl p q} := by
      ext d
      exact ⟨fun ⟨q, g, e⟩ => ⟨q, onSeg_symm g, e⟩, fun ⟨q, g, e⟩ => ⟨q, onSeg_symm g, e⟩⟩
    simp only
    rw [this]; exact least

theorem unitTo_norm {p q : Pt ℝ} (h : p ≠ q) : (unitTo p q).1 ^ 2 + (unitTo p q).2 ^ 2 = 1 := by
  have hd : 0 < eucl p q := lt_of_le_of_ne (eucl_nonneg _ _) (fun h0 => h (eucl_eq_zero.1 h0.symm))
  unfold unitTo; simp only
  rw [div_pow, div_pow, ← add_div, div_eq_one_iff_eq (by positivity), eucl_sq]; ring

theorem unitTo_mul {p q : Pt ℝ} (h : p ≠ q) : q = (p.1 + eucl p q * (unitTo p q).1, p.2 + eucl p q * (unitTo p q).2) := by
  have hd : 0 < eucl p q := lt_of_le_of_ne (eucl_nonneg _ _) (fun h0 => h (eucl_eq_zero.1 h0.symm))
  unfold unitTo
  apply Prod.ext <;> simp only <;> field_simp <;> ring

theorem rot_norm {u : Pt ℝ} (h : u.1 ^ 2 + u.2 ^ 2 = 1) (a : ℝ) : (rotOrigin a u).1 ^ 2 + (rotOrigin a u).2 ^ 2 = 1 := by
  unfold rotOrigin; simp only
  linear_combination (u.1 ^ 2 + u.2 ^ 2) * sin_sq_add_cos_sq a + h

/-- A segment along a unit direction. -/
theorem good_dir {t : Thr ℝ} {p : Pt ℝ} {u : ℝ × ℝ} (hu : u.1 ^ 2 + u.2 ^ 2 = 1) (hg : GoodDir t u) {k : ℝ} (hk : 0 < k) (hk2 : t.nullDistance ≤ k) :
    eucl (p.1 + k * u.1, p.2 + k * u.2) p = k ∧ GoodSeg t ((p.1 + k * u.1, p.2 + k * u.2), p) ∧ GoodSlopeX t (p.1 + k * u.1, p.2 + k * u.2) p := by
  have e : eucl (p.1 + k * u.1, p.2 + k * u.2) p = k := by
    rw [eucl_eq_iff hk.le]; simp only; linear_combination k ^ 2 * hu
  refine ⟨e, ⟨by simp only [e]; exact hk2, ?_⟩, ?_⟩
  · rcases hg.2 with h | h
    · left; simp [h]
    · right
      simp only [e]
      rw [add_sub_cancel_left, abs_mul, abs_of_pos hk, mul_comm]
      exact mul_le_mul_of_nonneg_left h hk.le
  · rcases hg.1 with h | h
    · left; simp [h]
    · right
      simp only [e]
      rw [add_sub_cancel_left, abs_mul, abs_of_pos hk, mul_comm]
      exact mul_le_mul_of_nonneg_left h hk.le

theorem good_fix {t : Thr ℝ} {p q : Pt ℝ} (h : GoodSeg t (p, q)) (hx : GoodSlopeX t p q) :
    GoodSeg t (fixOrder p q) ∧ GoodSlopeX t (fixOrder p q).1 (fixOrder p q).2 := by
  unfold fixOrder
  split_ifs
  · refine ⟨⟨by simp only; rw [eucl_comm]; exact h.1, ?_⟩, ?_⟩
    · rcases h.2 with g | g
      · exact Or.inl g.symm
      · right; simp only at g ⊢; rw [eucl_comm, abs_sub_comm]; exact g
    · rcases hx with g | g
      · exact Or.inl g.symm
      · right; simp only at g ⊢; rw [eucl_comm, abs_sub_comm]; exact g
  · exact ⟨h, hx⟩

/-- Parallel segments of a non oriented segment along a unit direction. -/
theorem parallel_dir {t : Thr ℝ} (h1 : dblEps < t.nullDistance) (h2 : t.nullAngleValue ≤ π / 2) {p : Pt ℝ} {u : ℝ × ℝ} (hu : u.1 ^ 2 + u.2 ^ 2 = 1)
    (hg : GoodDir t u) {k : ℝ} (hk2 : t.nullDistance ≤ k) {d : ℝ} (hd : t.nullDistance ≤ d) :
    ∃ s w, segMake t false (p.1 + k * u.1, p.2 + k * u.2) p = .ok s ∧ (s = ((p.1 + k * u.1, p.2 + k * u.2), p) ∨ s = (p, (p.1 + k * u.1, p.2 + k * u.2))) ∧
      (w = d ∨ w = -d) ∧ segParallel t false s d = .ok (shift (w * u.2, - (w * u.1)) s, shift (- (w * u.2), w * u.1) s) := by
  have hp := dblEps_pos
  have hk : 0 < k := by linarith
  obtain ⟨e, g1, g2⟩ := good_dir (p := p) hu hg hk hk2
  have hne : (p.1 + k * u.1, p.2 + k * u.2) ≠ p := by
    intro h; rw [h, eucl_self] at e; linarith
  obtain ⟨f1, f2⟩ := good_fix g1 g2
  have hord : LexLt (fixOrder (p.1 + k * u.1, p.2 + k * u.2) p).1 (fixOrder (p.1 + k * u.1, p.2 + k * u.2) p).2 := by
    obtain ⟨a1, a2⟩ := fixOrder_spec (p.1 + k * u.1, p.2 + k * u.2) p
    by_contra hc
    apply hne
    have : (fixOrder (p.1 + k * u.1, p.2 + k * u.2) p).1 = (fixOrder (p.1 + k * u.1, p.2 + k * u.2) p).2 := by
      unfold LexLt at *
      apply Prod.ext <;> grind
    rcases a1 with a | a <;> rw [a] at this
    · exact this
    · exact this.symm
  obtain ⟨v, q1, q2, q3, -⟩ := Props.C21_parallel_partial t h1 h2 false (fixOrder (p.1 + k * u.1, p.2 + k * u.2) p) (Or.inr hord) f1 f2 d hd
  have hcase : fixOrder (p.1 + k * u.1, p.2 + k * u.2) p = ((p.1 + k * u.1, p.2 + k * u.2), p) ∨
      fixOrder (p.1 + k * u.1, p.2 + k * u.2) p = (p, (p.1 + k * u.1, p.2 + k * u.2)) := (fixOrder_spec _ _).1
  have hperp : v.1 * u.1 + v.2 * u.2 = 0 := by
    have : k * (v.1 * u.1 + v.2 * u.2) = 0 := by
      rcases hcase with h | h <;> rw [h] at q3 <;> simp only at q3 <;> linarith
    rcases mul_eq_zero.1 this with h | h
    · linarith
    · exact h
  set w := v.1 * u.2 - v.2 * u.1 with hw
  have e1 : v.1 = w * u.2 := by rw [hw]; linear_combination (-v.1) * hu + u.1 * hperp
  have e2 : v.2 = -(w * u.1) := by rw [hw]; linear_combination (-v.2) * hu + u.2 * hperp
  refine ⟨_, w, segMake_eq false (by rw [e]; exact hk2), hcase, ?_, ?_⟩
  · have : w ^ 2 = d ^ 2 := by rw [← q2, e1, e2]; linear_combination (-w ^ 2) * hu
    exact sq_eq_sq_iff_eq_or_eq_neg.1 this
  · simp only [Bool.false_eq_true, if_false]
    rw [q1, e1, e2, neg_neg]
    have : v = (w * u.2, -(w * u.1)) := Prod.ext e1 e2
    rw [this]

/-- One side: the segment from the contact point of the larger circle, moved by both normals. -/
theorem tanSide_spec {t : Thr ℝ} (h1 : dblEps < t.nullDistance) (h2 : t.nullAngleValue ≤ π / 2) (ht : 0 < t.nullDenom) (ht1 : t.nullDenom ≤ 1)
    (hd : 0 < t.nullDeter) (hd1 : t.nullDeter ≤ 1) {a : Pt ℝ} {cB : Circle} (hne : cB.center ≠ a) {l0 : V3 ℝ} (hl : UnitNormal l0) (o1 : On l0 cB.center)
    (o2 : On l0 a) (θ : ℝ) (hcos : 0 < cos θ) (hk : t.nullDistance ≤ eucl cB.center a * cos θ) (hr : t.nullDistance ≤ cB.radius)
    (hg : GoodDir t (rotOrigin θ (unitTo cB.center a))) :
    ∃ s w, (s = ((cB.center.1 + eucl cB.center a * cos θ * (rotOrigin θ (unitTo cB.center a)).1,
        cB.center.2 + eucl cB.center a * cos θ * (rotOrigin θ (unitTo cB.center a)).2), cB.center) ∨
        s = (cB.center, (cB.center.1 + eucl cB.center a * cos θ * (rotOrigin θ (unitTo cB.center a)).1,
        cB.center.2 + eucl cB.center a * cos θ * (rotOrigin θ (unitTo cB.center a)).2))) ∧ (w = cB.radius ∨ w = - cB.radius) ∧
      tanSide t a cB l0 θ (eucl cB.center a * cos θ) = .ok (shift (w * (rotOrigin θ (unitTo cB.center a)).2, - (w * (rotOrigin θ (unitTo cB.center a)).1)) s,
        shift (- (w * (rotOrigin θ (unitTo cB.center a)).2), w * (rotOrigin θ (unitTo cB.center a)).1) s) := by
  have hp := dblEps_pos
  set b := cB.center with hb
  set h := eucl b a with hh
  have hh0 : 0 < h := lt_of_le_of_ne (eucl_nonneg _ _) (fun h0 => hne (eucl_eq_zero.1 h0.symm))
  have hu := unitTo_norm hne
  have hu1 := rot_norm hu θ
  obtain ⟨r, e1, e2, e3, e4⟩ := rotated_spec ht ht1 hd hd1 hl (p := b) (by rw [(lineDist_eq_zero hl.proper b).2 o1]; linarith) θ
  rw [bis_slope hne hl o1 o2] at e3
  have hbr : r 0 = 0 ∨ t.nullDenom ≤ r 0 := by
    rw [e3]
    rcases hg.2 with g | g
    · left; rw [g, abs_zero]
    · right; exact g
  have hon : ∀ q, On l0 q → On r (rotAround b θ q) := by
    obtain ⟨r', x1, -, x2⟩ := (Props.C85_partial t ht ht1 hd hd1 l0 hl b θ).2 (by rw [(lineDist_eq_zero hl.proper b).2 o1]; linarith)
    rw [e1] at x1; cases x1
    intro q hq; exact (x2 hbr q).1 hq
  have ob : On r b := by
    have := hon b o1
    rw [show rotAround b θ b = b by unfold rotAround; simp] at this
    exact this
  have oa := hon a o2
  set u1 := rotOrigin θ (unitTo b a) with hu1d
  have ea : rotAround b θ a = (b.1 + h * u1.1, b.2 + h * u1.2) := by
    have := unitTo_mul hne
    rw [hu1d]
    unfold rotAround rotOrigin
    have x1 : a.1 - b.1 = h * (unitTo b a).1 := by have := congrArg Prod.fst this; simp only at this; rw [hh]; linarith
    have x2 : a.2 - b.2 = h * (unitTo b a).2 := by have := congrArg Prod.snd this; simp only at this; rw [hh]; linarith
    rw [x1, x2]
    apply Prod.ext <;> (simp only; ring)
  rw [ea] at oa
  have hdir : r 0 * u1.1 + r 1 * u1.2 = 0 := by
    have : h * (r 0 * u1.1 + r 1 * u1.2) = 0 := by unfold On at oa ob; simp only at oa; linarith
    rcases mul_eq_zero.1 this with g | g
    · linarith
    · exact g
  obtain ⟨pa, pb, g1, g2, g3, g4, g5, g6, g7, g8⟩ := (Props.C07_points t (by linarith) r e2.1.proper b (h * cos θ)).2 ob
  have hk0 : 0 < h * cos θ := by positivity
  rw [abs_of_pos hk0] at g4 g5
  -- a point of the line at this distance is one of two
  have two : ∀ q, On r q → eucl b q = h * cos θ → q = (b.1 + h * cos θ * u1.1, b.2 + h * cos θ * u1.2) ∨ q = (b.1 - h * cos θ * u1.1, b.2 - h * cos θ * u1.2) := by
    intro q hq hqd
    have ru := e2.1
    unfold UnitNormal at ru
    have hq' : r 0 * (q.1 - b.1) + r 1 * (q.2 - b.2) = 0 := by unfold On at hq ob; linarith
    have hc : (q.1 - b.1) * u1.2 - (q.2 - b.2) * u1.1 = 0 := by
      have x1 : r 0 * ((q.1 - b.1) * u1.2 - (q.2 - b.2) * u1.1) = 0 := by linear_combination u1.2 * hq' - (q.2 - b.2) * hdir
      have x2 : r 1 * ((q.1 - b.1) * u1.2 - (q.2 - b.2) * u1.1) = 0 := by linear_combination (-u1.1) * hq' + (q.1 - b.1) * hdir
      rcases mul_eq_zero.1 x1 with g | g
      · rcases mul_eq_zero.1 x2 with g' | g'
        · rw [g, g'] at ru; norm_num at ru
        · exact g'
      · exact g
    set m := (q.1 - b.1) * u1.1 + (q.2 - b.2) * u1.2 with hm
    have y1 : q.1 - b.1 = m * u1.1 := by rw [hm]; linear_combination (-(q.1 - b.1)) * hu1 + u1.2 * hc
    have y2 : q.2 - b.2 = m * u1.2 := by rw [hm]; linear_combination (-(q.2 - b.2)) * hu1 - u1.1 * hc
    have hm2 : m ^ 2 = (h * cos θ) ^ 2 := by
      rw [← hqd, eucl_sq]
      rw [show b.1 - q.1 = -(m * u1.1) by linarith, show b.2 - q.2 = -(m * u1.2) by linarith]
      linear_combination (-m ^ 2) * hu1
    rcases sq_eq_sq_iff_eq_or_eq_neg.1 hm2 with g | g
    · left; rw [g] at y1 y2; apply Prod.ext <;> (simp only; linarith)
    · right; rw [g] at y1 y2; apply Prod.ext <;> (simp only; linarith)
  -- the nearer one
  have hcs := sin_sq_add_cos_sq θ
  have hav : a = (b.1 + h * (cos θ * u1.1 + sin θ * u1.2), b.2 + h * (cos θ * u1.2 - sin θ * u1.1)) := by
    have := unitTo_mul hne
    rw [hu1d]
    unfold rotOrigin
    simp only
    rw [← hh] at this
    have x1 := congrArg Prod.fst this
    have x2 := congrArg Prod.snd this
    simp only at x1 x2
    apply Prod.ext <;> simp only
    · rw [x1]; linear_combination (-h * (unitTo b a).1) * hcs
    · rw [x2]; linear_combination (-h * (unitTo b a).2) * hcs
  have near : eucl (b.1 + h * cos θ * u1.1, b.2 + h * cos θ * u1.2) a < eucl (b.1 - h * cos θ * u1.1, b.2 - h * cos θ * u1.2) a := by
    refine lt_of_pow_lt_pow_left₀ 2 (eucl_nonneg _ _) ?_
    rw [eucl_sq, eucl_sq, hav]
    simp only
    have : 0 < (h * cos θ) ^ 2 := by positivity
    nlinarith [this, hu1]
  have hsel : (if ptDist pb a < ptDist pa a then pb else pa) = (b.1 + h * cos θ * u1.1, b.2 + h * cos θ * u1.2) := by
    rw [ptDist_eucl, ptDist_eucl]
    rcases two pa g2 g4 with x | x
    · have hpb : pb = (b.1 - h * cos θ * u1.1, b.2 - h * cos θ * u1.2) := by
        rw [x] at g6 g7; simp only at g6 g7; apply Prod.ext <;> (simp only; linarith)
      rw [if_neg (by rw [x, hpb]; exact not_lt.2 near.le), x]
    · have hpb : pb = (b.1 + h * cos θ * u1.1, b.2 + h * cos θ * u1.2) := by
        rw [x] at g6 g7; simp only at g6 g7; apply Prod.ext <;> (simp only; linarith)
      rw [if_pos (by rw [x, hpb]; exact near), hpb]
  obtain ⟨s, w, k1, k2, k3, k4⟩ := parallel_dir h1 h2 (p := b) hu1 hg hk hr
  refine ⟨s, w, k2, k3, ?_⟩
  unfold tanSide
  rw [e1, Res.bind_ok, g1, Res.bind_ok]
  simp only
  rw [hsel, k1, Res.bind_ok, k4]

/-- The segment between the points at distance `D + rB` and `rB` from the centers, along the same normal. -/
theorem outer_of {a b : Pt ℝ} {h c sn D x rA rB : ℝ} {u : ℝ × ℝ} (hu : u.1 ^ 2 + u.2 ^ 2 = 1) (hcs : sn ^ 2 + c ^ 2 = 1) (hc : 0 < c) (hh : 0 < h)
    (ha : a = (b.1 + h * (c * u.1 + sn * u.2), b.2 + h * (c * u.2 - sn * u.1))) (hD : D = h * sn) (hx : |x| = rB) (hr : 0 < rB) (hxD : x * D < 0) (hA : rA = |D| + rB)
    {s : Seg} (hs : s = ((b.1 + h * c * u.1, b.2 + h * c * u.2), b) ∨ s = (b, (b.1 + h * c * u.1, b.2 + h * c * u.2))) :
    OuterTangent a rA b rB (shift (x * u.2, - (x * u.1)) s) ∧
    ∀ e, (e = (shift (x * u.2, - (x * u.1)) s).1 ∨ e = (shift (x * u.2, - (x * u.1)) s).2) → 0 < turnAt a b e * x := by
  have hx0 : x ≠ 0 := by rintro rfl; simp at hxD
  have hDx : |x - D| = rA := by
    rw [hA, ← hx]
    rcases lt_or_gt_of_ne hx0 with g | g
    · have : 0 < D := by nlinarith
      rw [abs_of_neg (by linarith), abs_of_neg g, abs_of_pos this]; ring
    · have : D < 0 := by nlinarith
      rw [abs_of_pos (by linarith), abs_of_pos g, abs_of_neg this]; ring
  have hrA : 0 < rA := by rw [hA]; have := abs_nonneg D; linarith
  have hprod : 0 < (x - D) * x := by nlinarith [mul_pos hr hr, sq_abs x, sq_pos_of_ne_zero hx0]
  set TA : Pt ℝ := (b.1 + h * c * u.1 + x * u.2, b.2 + h * c * u.2 - x * u.1) with hTA
  set TB : Pt ℝ := (b.1 + x * u.2, b.2 - x * u.1) with hTB
  have tA : turnAt a b TA = h * c * (x - D) := by
    rw [ha, hTA, hD]; unfold turnAt; simp only
    linear_combination (h * c * (x - h * sn)) * hu
  have tB : turnAt a b TB = h * c * x := by
    rw [ha, hTB]; unfold turnAt; simp only
    linear_combination (h * c * x) * hu
  have hhc : 0 < h * c := by positivity
  have hcase : shift (x * u.2, - (x * u.1)) s = (TA, TB) ∨ shift (x * u.2, - (x * u.1)) s = (TB, TA) := by
    rcases hs with rfl | rfl
    · left; unfold shift; simp only [hTA, hTB, sub_eq_add_neg]
    · right; unfold shift; simp only [hTA, hTB, sub_eq_add_neg]
  constructor
  · refine ⟨TA, TB, hcase, ⟨?_, ?_⟩, ⟨?_, ?_⟩, ?_⟩
    · rw [eucl_eq_iff hrA.le, ← hDx, sq_abs, ha, hTA, hD]; simp only
      linear_combination (h * sn - x) ^ 2 * hu
    · rw [ha, hTA, hTB]; simp only; ring
    · rw [eucl_eq_iff hr.le, ← hx, sq_abs, hTB]; simp only
      linear_combination x ^ 2 * hu
    · rw [hTA, hTB]; simp only; ring
    · have e1 : turnAt TA TB a = (h * c) * (D - x) := by
        rw [ha, hTA, hTB, hD]; unfold turnAt; simp only
        linear_combination (-(h * c * (x - h * sn))) * hu
      have e2 : turnAt TA TB b = - (h * c * x) := by
        rw [hTA, hTB]; unfold turnAt; simp only
        linear_combination (-(h * c * x)) * hu
      rw [e1, e2]
      have : 0 < (h * c) ^ 2 * ((x - D) * x) := by positivity
      nlinarith
  · intro e he
    have : e = TA ∨ e = TB := by
      rcases hcase with g | g <;> rw [g] at he
      · exact he
      · exact he.symm
    rcases this with rfl | rfl
    · rw [tA]; nlinarith
    · rw [tB]; have := mul_pos hhc (sq_pos_of_ne_zero hx0); nlinarith

/-- Distance from the larger center to a shifted segment. -/
theorem far_dist {a b : Pt ℝ} {h c sn D x : ℝ} {u : ℝ × ℝ} (hu : u.1 ^ 2 + u.2 ^ 2 = 1) (hcs : sn ^ 2 + c ^ 2 = 1) (hc : 0 < c) (hh : 0 < h)
    (ha : a = (b.1 + h * (c * u.1 + sn * u.2), b.2 + h * (c * u.2 - sn * u.1))) (hD : D = h * sn)
    {s : Seg} (hs : s = ((b.1 + h * c * u.1, b.2 + h * c * u.2), b) ∨ s = (b, (b.1 + h * c * u.1, b.2 + h * c * u.2))) :
    (segDistTo (shift (x * u.2, - (x * u.1)) s) a).1 = |x - D| := by
  have hhc : 0 < h * c := by positivity
  rw [dist_end (a := (b.1 + h * c * u.1 + x * u.2, b.2 + h * c * u.2 + -(x * u.1))) (b := (b.1 + x * u.2, b.2 + -(x * u.1)))]
  · rw [eucl_eq_iff (abs_nonneg _), sq_abs, ha, hD]; simp only
    linear_combination (h * sn - x) ^ 2 * hu
  · intro g
    have g1 := congrArg Prod.fst g
    have g2 := congrArg Prod.snd g
    simp only at g1 g2
    have : (h * c) ^ 2 = 0 := by
      have x1 : h * c * u.1 = 0 := by linarith
      have x2 : h * c * u.2 = 0 := by linarith
      linear_combination (-(h * c) ^ 2) * hu + (h * c * u.1) * x1 + (h * c * u.2) * x2
    nlinarith
  · rw [ha]; simp only; ring
  · rcases hs with rfl | rfl
    · left; rfl
    · right; rfl

theorem abs_far {x D : ℝ} (h : x * D < 0) : |(-x) - D| < |x - D| := by
  rw [← sq_lt_sq]; nlinarith

/-- One side of the result: whichever of the two comes first, the farther one is the tangent. -/
theorem side_spec {t : Thr ℝ} (h1 : dblEps < t.nullDistance) (h2 : t.nullAngleValue ≤ π / 2) (ht : 0 < t.nullDenom) (ht1 : t.nullDenom ≤ 1)
    (hd : 0 < t.nullDeter) (hd1 : t.nullDeter ≤ 1) {a : Pt ℝ} {cB : Circle} (hne : cB.center ≠ a) {l0 : V3 ℝ} (hl : UnitNormal l0) (o1 : On l0 cB.center)
    (o2 : On l0 a) (θ : ℝ) (hcos : 0 < cos θ) (hsin : sin θ ≠ 0) (hk : t.nullDistance ≤ eucl cB.center a * cos θ) (hr : t.nullDistance ≤ cB.radius)
    (hg : GoodDir t (rotOrigin θ (unitTo cB.center a))) {rA : ℝ} (hA : rA = |eucl cB.center a * sin θ| + cB.radius) :
    ∃ s1 s2 s, tanSide t a cB l0 θ (eucl cB.center a * cos θ) = .ok (s1, s2) ∧
      (((segDistTo s1 a).1 < (segDistTo s2 a).1 ∧ s = s2) ∨ ((segDistTo s2 a).1 < (segDistTo s1 a).1 ∧ s = s1)) ∧
      OuterTangent a rA cB.center cB.radius s ∧ ∀ e, (e = s.1 ∨ e = s.2) → turnAt a cB.center e * sin θ < 0 := by
  obtain ⟨s, w, k1, k2, k3⟩ := tanSide_spec h1 h2 ht ht1 hd hd1 hne hl o1 o2 θ hcos hk hr hg
  have hp := dblEps_pos
  have hcs := sin_sq_add_cos_sq θ
  have hh0 : 0 < eucl cB.center a := lt_of_le_of_ne (eucl_nonneg _ _) (fun h0 => hne (eucl_eq_zero.1 h0.symm))
  have hu := rot_norm (unitTo_norm hne) θ
  have ha : a = (cB.center.1 + eucl cB.center a * (cos θ * (rotOrigin θ (unitTo cB.center a)).1 + sin θ * (rotOrigin θ (unitTo cB.center a)).2),
      cB.center.2 + eucl cB.center a * (cos θ * (rotOrigin θ (unitTo cB.center a)).2 - sin θ * (rotOrigin θ (unitTo cB.center a)).1)) := by
    have := unitTo_mul hne
    unfold rotOrigin
    simp only
    have x1 := congrArg Prod.fst this
    have x2 := congrArg Prod.snd this
    simp only at x1 x2
    apply Prod.ext <;> simp only
    · linear_combination x1 + (-eucl cB.center a * (unitTo cB.center a).1) * hcs
    · linear_combination x2 + (-eucl cB.center a * (unitTo cB.center a).2) * hcs
  generalize rotOrigin θ (unitTo cB.center a) = u at *
  have far := fun x => far_dist (x := x) hu hcs hcos hh0 ha rfl k1
  have hr0 : 0 < cB.radius := by linarith
  have hD0 : eucl cB.center a * sin θ ≠ 0 := mul_ne_zero hh0.ne' hsin
  have hw : w ≠ 0 := by rcases k2 with rfl | rfl <;> simp [hr0.ne']
  have habs : |w| = cB.radius := by rcases k2 with rfl | rfl <;> simp [abs_of_pos hr0]
  have e2 : shift (-(w * u.2), w * u.1) s = shift (-w * u.2, -(-w * u.1)) s := by congr 1; apply Prod.ext <;> (simp only; ring)
  have sgn : ∀ x, x * (eucl cB.center a * sin θ) < 0 → ∀ y, 0 < y * x → y * sin θ < 0 := by
    intro x hx y hy
    have z1 : x * sin θ < 0 := by
      by_contra hc
      have := mul_nonneg hh0.le (not_lt.1 hc)
      linarith
    rcases lt_or_gt_of_ne hsin with g | g
    · have : 0 < x := by nlinarith
      have : 0 < y := by nlinarith
      nlinarith
    · have : x < 0 := by nlinarith
      have : y < 0 := by nlinarith
      nlinarith
  refine ⟨_, _, if w * (eucl cB.center a * sin θ) < 0 then shift (w * u.2, -(w * u.1)) s else shift (-(w * u.2), w * u.1) s, k3, ?_, ?_⟩
  · by_cases hc : w * (eucl cB.center a * sin θ) < 0
    · right
      rw [if_pos hc]
      refine ⟨?_, rfl⟩
      rw [e2, far, far]
      exact abs_far hc
    · left
      rw [if_neg hc]
      refine ⟨?_, rfl⟩
      rw [e2, far, far]
      have : -w * (eucl cB.center a * sin θ) < 0 := by
        have := lt_of_le_of_ne (not_lt.1 hc) (mul_ne_zero hw hD0).symm
        linarith
      have := abs_far this
      rwa [neg_neg] at this
  · by_cases hc : w * (eucl cB.center a * sin θ) < 0
    · rw [if_pos hc]
      obtain ⟨g1, g2⟩ := outer_of hu hcs hcos hh0 ha rfl habs hr0 hc hA k1
      exact ⟨g1, fun e he => sgn w hc _ (g2 e he)⟩
    · rw [if_neg hc, e2]
      have hc' : -w * (eucl cB.center a * sin θ) < 0 := by
        have := lt_of_le_of_ne (not_lt.1 hc) (mul_ne_zero hw hD0).symm
        linarith
      obtain ⟨g1, g2⟩ := outer_of hu hcs hcos hh0 ha rfl (by rw [abs_neg, habs]) hr0 hc' hA k1
      exact ⟨g1, fun e he => sgn (-w) hc' _ (g2 e he)⟩

theorem outer_symm {c1 c2 : ℝ × ℝ} {r1 r2 : ℝ} {s : Seg} (h : OuterTangent c1 r1 c2 r2 s) : OuterTangent c2 r2 c1 r1 s := by
  obtain ⟨a, b, h1, h2, h3, h4⟩ := h
  refine ⟨b, a, h1.symm, h3, h2, ?_⟩
  have : ∀ c, turnAt b a c = - turnAt a b c := by intro c; unfold turnAt; ring
  rw [this, this]; linarith

theorem sides_symm {p q : ℝ × ℝ} {s s' : Seg} (h : OtherSides p q s s') : OtherSides q p s s' := by
  intro a b ha hb
  have : ∀ c, turnAt q p c = - turnAt p q c := by intro c; unfold turnAt; ring
  rw [this, this]
  have := h a b ha hb
  linarith

end H2d.Tan
