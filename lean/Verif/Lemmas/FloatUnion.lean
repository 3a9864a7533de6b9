import Verif.Lemmas.FloatRectWit
import Verif.Lemmas.FloatCentroid
import Verif.Lemmas.Convert
import Verif.Lemmas.RectUnionGen
import Verif.Model.FloatUnion
import Verif.Spec.FloatUnion

/-! # Union of two rectangles with rounded operations -/

namespace H2d.Fl

open H2d.Spec H2d.Rank

variable {F : Arith} {u v : ℝ} {t : Thr ℝ} {M L η : ℝ} {f g : ℕ → ℝ}

/-! ### The test of `minimize()` -/

theorem step_vals (p q : NP) : stepAngle p q = 0 ∨ stepAngle p q = Real.pi ∨ stepAngle p q = Real.pi / 2 ∨ stepAngle p q = -(Real.pi / 2) := by
  unfold stepAngle
  split_ifs <;> simp

theorem step_abs (p q : NP) : |stepAngle p q| ≤ Real.pi := by
  have := Real.pi_pos
  rw [abs_le]
  rcases step_vals p q with e | e | e | e <;> rw [e] <;> constructor <;> linarith

theorem step_sep (p q r s : NP) : stepAngle p q = stepAngle r s ∨ Real.pi / 2 ≤ |stepAngle p q - stepAngle r s| := by
  have := Real.pi_pos
  rcases step_vals p q with e | e | e | e <;> rcases step_vals r s with e' | e' | e' | e' <;> rw [e, e'] <;>
    first | (left; rfl) | (right; rw [le_abs]; left; linarith) | (right; rw [le_abs]; right; linarith)

/-- Points that go on in the same direction. -/
theorem mid_step (ht : RectThr t) (hf : Emb t.nullDistance f) (hg : Emb t.nullDistance g) {p q r : NP} (h : axTriple p q r = true) : mid p q r = true ↔ stepAngle q r = stepAngle p q := by
  have ht' : RectThr ⟨t.nullDistance, t.nullOrthogDistance, 1, t.nullDenom, t.nullDeter⟩ := ⟨ht.dist, ht.orth, ht.denom, one_pos, le_rfl⟩
  have key := mid_mp ht' hf hg h
  have hh := h
  unfold axTriple at h
  rw [Bool.and_eq_true] at h
  change H2d.sameAngle _ _ _ _ = _ at key
  unfold H2d.sameAngle at key
  simp only at key
  rw [atan2_mp hf hg h.1, atan2_mp hf hg h.2] at key
  rw [← key, decide_eq_true_eq]
  constructor
  · intro hd
    rcases step_sep q r p q with e | e
    · exact e
    · have := Real.two_le_pi
      linarith
  · intro e; rw [e, sub_self, abs_zero]; exact one_pos

theorem atan2_rnd (h : FlOk F u v) {n : ℝ} (hf : Emb n f) (hg : Emb n g) {p q : NP} (hx : Ax (ordS (p, q)) = true) :
    atan2 (F.rnd ((mp f g q).1 - (mp f g p).1)) (F.rnd ((mp f g q).2 - (mp f g p).2)) = stepAngle p q := by
  have neg : ∀ {x : ℝ}, x < 0 → F.rnd x < 0 := by
    intro x hx
    have := Conv.rnd_pos' h (x := -x) (by linarith)
    rw [h.odd] at this; linarith
  rw [axOrd_iff] at hx
  unfold atan2 stepAngle mp
  simp only
  rcases hx with ⟨h1, h2⟩ | ⟨h1, h2⟩
  · rw [if_pos h1, h1, sub_self, rnd_zero h]
    by_cases h3 : p.2 < q.2
    · rw [if_pos h3, Complex.arg_eq_zero_iff]
      have := hg.lt_iff.2 h3
      exact ⟨(Conv.rnd_pos' h (by linarith)).le, rfl⟩
    · rw [if_neg h3, Complex.arg_eq_pi_iff]
      have := hg.lt_iff.2 (show q.2 < p.2 by omega)
      exact ⟨neg (by linarith), rfl⟩
  · rw [if_neg h2, h1, sub_self, rnd_zero h]
    by_cases h3 : p.1 < q.1
    · rw [if_pos h3, Complex.arg_eq_pi_div_two_iff]
      have := hf.lt_iff.2 h3
      exact ⟨rfl, Conv.rnd_pos' h (by linarith)⟩
    · rw [if_neg h3, Complex.arg_eq_neg_pi_div_two_iff]
      have := hf.lt_iff.2 (show q.1 < p.1 by omega)
      exact ⟨rfl, neg (by linarith)⟩

theorem sameAngle_mp (h : FlOk F u v) (ht : RectThr t) (hf : Emb t.nullDistance f) (hg : Emb t.nullDistance g) {at2 : ℝ → ℝ → ℝ} {w : ℝ} (hw : Atan2Ok at2 w) (hwt : 7 * w < t.nullAngleValue) :
    MidOk f g (sameAngle F at2 t.nullAngleValue) := by
  intro p q r hx
  have e := mid_step ht hf hg hx
  have hx' := hx
  unfold axTriple at hx
  rw [Bool.and_eq_true] at hx
  have a1 := hw.err (F.rnd ((mp f g q).1 - (mp f g p).1)) (F.rnd ((mp f g q).2 - (mp f g p).2))
  have a2 := hw.err (F.rnd ((mp f g r).1 - (mp f g q).1)) (F.rnd ((mp f g r).2 - (mp f g q).2))
  rw [atan2_rnd h hf hg hx.1] at a1
  rw [atan2_rnd h hf hg hx.2] at a2
  unfold sameAngle
  simp only
  generalize at2 (F.rnd ((mp f g q).1 - (mp f g p).1)) (F.rnd ((mp f g q).2 - (mp f g p).2)) = A at *
  generalize at2 (F.rnd ((mp f g r).1 - (mp f g q).1)) (F.rnd ((mp f g r).2 - (mp f g q).2)) = B at *
  rw [Bool.eq_iff_iff, e, decide_eq_true_eq]
  have w0 := hw.nonneg
  have w1 := hw.small
  have hu := h.u_small
  have hu0 := h.u_nonneg
  have p1 := Real.pi_lt_d2
  have p0 := Real.pi_gt_d2
  have k1 : w * |stepAngle p q| ≤ w * (63 / 20) := mul_le_mul_of_nonneg_left ((step_abs p q).trans (by linarith)) w0
  have k2 : w * |stepAngle q r| ≤ w * (63 / 20) := mul_le_mul_of_nonneg_left ((step_abs q r).trans (by linarith)) w0
  have d : |(B - A) - (stepAngle q r - stepAngle p q)| ≤ 63 / 10 * w := by
    have := abs_add_le (B - stepAngle q r) (-(A - stepAngle p q))
    rw [abs_neg] at this
    rw [show (B - A) - (stepAngle q r - stepAngle p q) = (B - stepAngle q r) + -(A - stepAngle p q) by ring]
    linarith
  constructor
  · intro hd
    rcases step_sep q r p q with e | e
    · exact e
    · exfalso
      have d1 := abs_sub_abs_le_abs_sub (stepAngle q r - stepAngle p q) (B - A)
      rw [abs_sub_comm (stepAngle q r - stepAngle p q) (B - A)] at d1
      have d2 : 7 / 5 ≤ |B - A| := by linarith
      have := le_rnd_abs h (B - A)
      have := ht.ang1
      nlinarith
  · intro e
    rw [e, sub_self, sub_zero] at d
    have := rnd_abs_le h (B - A)
    have : (1 + u) * |B - A| ≤ (1 + 1 / 64) * (63 / 10 * w) := mul_le_mul (by linarith) d (abs_nonneg _) (by norm_num)
    linarith

theorem ptSameB_mp (h : FlOk F u v) (hA : AxisExact F) (ht : 0 < t.nullDistance) (hf : Emb (2 * t.nullDistance) f) (hg : Emb (2 * t.nullDistance) g) : SameOk f g (ptSameB F t) := by
  intro p q
  unfold ptSameB
  rw [Bool.eq_iff_iff, decide_eq_true_eq, same_mp' h hA ht hf hg]
  simp [same]

/-! ### Whether the contours cross -/

theorem setInsert_ne {K : Type} [LinearOrder K] (p : Pt K) (l : List (Pt K)) : setInsert p l ≠ [] := by
  cases l with
  | nil => simp [setInsert]
  | cons q l => unfold setInsert; split_ifs <;> simp

theorem rectLoop_empty {ac : ℝ → ℝ} {b : FRect ℕ} :
    ∀ (l : List NS) (pts : List (Pt ℝ)) (q res : List NP), (∀ s ∈ l, ∃ m : NP → Pt ℝ, rectSegInter F t ac (mpR f g b) (mpS f g s) = .ok ((segLoop s (segs b) []).map m)) → interLoop b l q = some res →
      (pts = [] ↔ q = []) → ∃ pts', rectLoop F t ac (mpR f g b) (l.map (mpS f g)) pts = .ok pts' ∧ (pts' = [] ↔ res = []) := by
  intro l
  induction l with
  | nil => intro pts q res _ hr he; simp only [interLoop, Option.some.injEq] at hr; subst hr; exact ⟨pts, rfl, he⟩
  | cons s l ih =>
    intro pts q res hl hr he
    obtain ⟨m, e⟩ := hl s List.mem_cons_self
    have ih' := fun pts q => ih pts q res (fun s' hs' => hl s' (List.mem_cons_of_mem _ hs'))
    rw [List.map_cons]
    simp only [rectLoop, e, Res.bind_ok]
    simp only [interLoop] at hr
    cases hx : segLoop s (segs b) [] with
    | nil => rw [hx] at hr; exact ih' _ _ hr he
    | cons a as =>
      cases as with
      | nil =>
        rw [hx] at hr
        exact ih' _ _ hr (iff_of_false (setInsert_ne _ _) (setInsert_ne _ _))
      | cons a' as =>
        cases as with
        | nil =>
          rw [hx] at hr
          exact ih' _ _ hr (iff_of_false (setInsert_ne _ _) (setInsert_ne _ _))
        | cons a'' as => rw [hx] at hr; simp at hr

theorem inter_some : ∀ x ∈ allen, ∀ y ∈ allen, (inter (rectA x y) (rectB x y)).isSome = true := by decide +kernel

theorem rectInter_empty (h : FlOk F u v) (hA : AxisExact F) {ac : ℝ → ℝ} {w : ℝ} (ha : AcosOk ac w) (ht : RectThr t) (hM : 0 ≤ M) {a b : FRect ℕ} (pa : Proper a) (pb : Proper b)
    (ra : RectRep F M (mpR f g a)) (rb : RectRep F M (mpR f g b)) (nV : Near F t u v M η f g (axX F f g a) (axY F f g b)) (nH : Near F t u v M η f g (axX F f g b) (axY F f g a)) {res : List NP}
    (hr : inter a b = some res) : ∃ pts, rectInter F t ac (mpR f g a) (mpR f g b) = .ok pts ∧ (pts = [] ↔ res = []) := by
  unfold rectInter
  unfold inter at hr
  rw [mpR_eq' h hA nV]
  by_cases he : a == b
  · rw [if_pos he] at hr ⊢
    simp only [Option.some.injEq] at hr; subst hr; exact ⟨[], rfl, by simp⟩
  · rw [if_neg he] at hr ⊢
    rw [rectSegs_mp' h nV pa]
    refine rectLoop_empty (segs a) [] [] res (fun s hs => ?_) hr (by simp)
    rcases ax_cases (segs_ax pa s hs) with ⟨e, -⟩ | ⟨e, -⟩
    · exact ⟨_, rectSegInter_V h hA ha ht hM pa pb ra rb nV hs e⟩
    · exact ⟨_, rectSegInter_H h hA ha ht hM pa pb ra rb nH hs e⟩

theorem unionArea_mp' (h : FlOk F u v) (hA : AxisExact F) {ac : ℝ → ℝ} {w : ℝ} (ha : AcosOk ac w) (ht : RectThr t) {at2 : ℝ → ℝ → ℝ} {w' : ℝ} (hw : Atan2Ok at2 w') (hwt : 7 * w' < t.nullAngleValue) (hM : 0 ≤ M)
    {a b : FRect ℕ} (pa : Proper a) (pb : Proper b) (ra : RectRep F M (mpR f g a)) (rb : RectRep F M (mpR f g b)) (nV : Near F t u v M η f g (axX F f g a) (axY F f g b)) (nH : Near F t u v M η f g (axX F f g b) (axY F f g a))
    {res : Res (List NP)} (hu : union a b = some res)
    (hx : ∀ q l, inter a b = some (q :: l) → ∀ pts, (if a.p1.1 < b.p1.1 then unionRaw b a else unionRaw a b) = .ok pts → axAll pts = true) :
    unionArea F t ac at2 (mpR f g a) (mpR f g b) = Rank.mapRes (List.map (mp f g)) res := by
  have np := nV.pos
  have f2 : Emb (2 * t.nullDistance) f := emb_weak (by linarith) (by linarith) nV.hf
  have g2 : Emb (2 * t.nullDistance) g := emb_weak (by linarith) (by linarith) nV.hg
  have hf := nV.f1
  have hg := nV.g1
  have hS := ptSameB_mp h hA np f2 g2
  have hD := sameAngle_mp h ht hf hg hw hwt
  unfold union at hu
  unfold unionArea
  rw [mpR_eq' h hA nV]
  by_cases he : a == b
  · rw [if_pos he] at hu ⊢
    simp only [Option.some.injEq] at hu; subst hu; rfl
  rw [if_neg he] at hu ⊢
  cases hi : inter a b with
  | none => rw [hi] at hu; simp at hu
  | some l =>
    rw [hi] at hu
    obtain ⟨pts, e, hp⟩ := rectInter_empty h hA ha ht hM pa pb ra rb nV nH hi
    rw [e]
    simp only [Res.bind_ok]
    cases l with
    | nil =>
      rw [hp.2 rfl]
      simp only [isInside_mp hf hg, Option.some.injEq] at hu ⊢
      subst hu
      split_ifs <;> rfl
    | cons q l =>
      have hx := hx q l hi
      cases pts with
      | nil => exact absurd (hp.1 rfl) (by simp)
      | cons p' l' =>
        simp only [Option.some.injEq] at hu ⊢
        subst hu
        have e : (mpR f g a).p1.1 < (mpR f g b).p1.1 ↔ a.p1.1 < b.p1.1 := hf.lt_iff
        by_cases hc : a.p1.1 < b.p1.1
        · rw [if_pos (e.2 hc), if_pos hc]
          rw [if_pos hc] at hx
          exact unionTable_gen hf hg hS hD b a hx
        · rw [if_neg (fun hh => hc (e.1 hh)), if_neg hc]
          rw [if_neg hc] at hx
          exact unionTable_gen hf hg hS hD a b hx

/-- With rounded operations the union is the one computed with real numbers. -/
theorem unionArea_apart (h : FlOk F u v) (hA : AxisExact F) {ac : ℝ → ℝ} {w : ℝ} (ha : AcosOk ac w) (ht : RectThr t) {at2 : ℝ → ℝ → ℝ} {w' : ℝ} (hw : Atan2Ok at2 w') (hwt : 7 * w' < t.nullAngleValue) {a b : FRect ℝ}
    (hp : RectApart F t u v M L a b) : unionArea F t ac at2 a b = H2d.unionArea t a b := by
  have np : 0 < t.nullDistance := by have := hp.eps; have := dblEps_pos; linarith
  have hn : 0 < 3 * t.nullDistance := by linarith
  have A := hp.apart
  obtain ⟨f, hf, x, hx, e1, e2, e3, e4⟩ := exists_emb hn A.wa A.wb A.x11 A.x12 A.x21 A.x22
  obtain ⟨g, hg, y, hy, e5, e6, e7, e8⟩ := exists_emb hn A.ha A.hb A.y11 A.y12 A.y21 A.y22
  have ea : a = mpR f g (rectA x y) := by
    obtain ⟨⟨_, _⟩, _, _⟩ := a
    simp only at e1 e2 e5 e6
    subst e1 e2 e5 e6; rfl
  have eb : b = mpR f g (rectB x y) := by
    obtain ⟨⟨_, _⟩, _, _⟩ := b
    simp only at e3 e4 e7 e8
    subst e3 e4 e7 e8; rfl
  have M0 : 0 ≤ M := (abs_nonneg _).trans hp.ra.x1.2
  obtain ⟨ra, rb, L0, la, lb, -, eps, noise⟩ := hp
  subst ea eb
  obtain ⟨pA, pB⟩ := proper_AB hx hy
  have mk : ∀ {r r' : FRect ℕ}, RectRep F M (mpR f g r) → LongSides L (mpR f g r) → RectRep F M (mpR f g r') → LongSides L (mpR f g r') → Near F t u v M (9 * (u * M ^ 2 / L)) f g (axX F f g r) (axY F f g r') :=
    fun h1 h2 h3 h4 => ⟨by have := h.u_nonneg; positivity, hf, hg, near_axX h h1 L0 h2, near_axY h h3 L0 h4, by linarith, eps⟩
  have f1 : Emb t.nullDistance f := emb_weak np (by linarith) hf
  have g1 : Emb t.nullDistance g := emb_weak np (by linarith) hg
  have hc := check_all x hx y hy
  unfold check at hc
  simp only [Bool.and_eq_true] at hc
  have h3 := hc.2
  have hi := inter_some x hx y hy
  have hz : ∀ q l, inter (rectA x y) (rectB x y) = some (q :: l) → ∀ pts, (if (rectA x y).p1.1 < (rectB x y).p1.1 then unionRaw (rectB x y) (rectA x y) else unionRaw (rectA x y) (rectB x y)) = .ok pts → axAll pts = true := by
    intro q l hi pts' hp
    rw [hi] at h3
    simp only [hp] at h3
    exact h3
  cases hu : union (rectA x y) (rectB x y) with
  | none =>
    exfalso
    unfold union at hu
    rw [Option.isSome_iff_exists] at hi
    obtain ⟨l, hl⟩ := hi
    by_cases he : rectA x y == rectB x y
    · rw [if_pos he] at hu; cases hu
    · rw [if_neg he, hl] at hu
      cases l <;> cases hu
  | some res => rw [unionArea_mp' h hA ha ht hw hwt M0 pA pB ra rb (mk ra la rb lb) (mk rb lb ra la) hu hz, unionArea_mp ht f1 g1 pA pB hu hz]

end H2d.Fl
