import Verif.Model.Bisect
import Verif.Spec.Bisect
import Verif.Lemmas.Segment
import Verif.Props.Homogr

/-! # Lemmas on oriented angles, rotated lines and bisectors -/

set_option linter.unusedSimpArgs false
set_option linter.unusedVariables false

namespace H2d.Bis
open H2d H2d.Spec H2d.Props Real

/-- The matrix of the rotation about a point. -/
noncomputable def rotMat (p : Pt ℝ) (a : ℝ) : Mat ℝ :=
  ![![cos a, - sin a, p.1 - cos a * p.1 + sin a * p.2], ![sin a, cos a, p.2 - sin a * p.1 - cos a * p.2], ![0, 0, 1]]

theorem add_22 {t : Thr ℝ} (ht : 0 < t.nullDenom) (h1 : t.nullDenom ≤ 1) {h : Hom ℝ} (hn : h.m 2 2 = 1) (e : Elem ℝ) :
    e.add t h = (.ok (), { h with m := (elemMat e).mul h.m, changed := true }) ∧ ((elemMat e).mul h.m) 2 2 = 1 := by
  obtain ⟨o, ho, he⟩ := elem_add_eq t h e
  have h22 : o.m.mul h.m 2 2 = 1 := by rw [ho, elemMat_mul_22, hn]
  rw [he, ← ho]
  refine ⟨?_, h22⟩
  rcases Hom.premul_spec t ht o h with ⟨hlt, -⟩ | ⟨-, hne, e'⟩
  · rw [h22, abs_one] at hlt; exact absurd hlt (not_lt.2 h1)
  · rw [e', h22]
    congr 2
    funext i j; simp [Mat.divAll]

theorem chain_rot {t : Thr ℝ} (ht : 0 < t.nullDenom) (h1 : t.nullDenom ≤ 1) (p : Pt ℝ) (a : ℝ) :
    ∃ g1 g2 g3, Hom.call (Hom.default.addTranslation t (- p.1) (- p.2)) = .ok g1 ∧ Hom.call (g1.addRotation t (cos a) (sin a)) = .ok g2 ∧
      Hom.call (g2.addTranslation t p.1 p.2) = .ok g3 ∧ g3.m = rotMat p a ∧ g3.changed = true := by
  have a1 := add_22 ht h1 (h := (Hom.default : Hom ℝ)) (by simp [Hom.default, Mat.eye]) (.translation (-p.1) (-p.2))
  have a2 := add_22 ht h1 (h := { (Hom.default : Hom ℝ) with m := (elemMat (.translation (-p.1) (-p.2))).mul (Hom.default : Hom ℝ).m, changed := true })
    a1.2 (.rotation (cos a) (sin a))
  have a3 := add_22 ht h1 (h := { (Hom.default : Hom ℝ) with m := (elemMat (.rotation (cos a) (sin a))).mul ((elemMat (.translation (-p.1) (-p.2))).mul (Hom.default : Hom ℝ).m), changed := true })
    a2.2 (.translation p.1 p.2)
  simp only [Elem.add] at a1 a2 a3
  refine ⟨_, _, _, by rw [a1.1]; rfl, by rw [a2.1]; rfl, by rw [a3.1]; rfl, ?_, rfl⟩
  funext i j
  fin_cases i <;> fin_cases j <;> simp [elemMat, Mat.mul, Mat.translation, Mat.rotation, Hom.default, Mat.eye, rotMat] <;> ring

/-- The line turned about the point. -/
noncomputable def rotLine (l : V3 ℝ) (p : Pt ℝ) (a : ℝ) : V3 ℝ :=
  ![cos a * l 0 - sin a * l 1, sin a * l 0 + cos a * l 1,
    l 0 * p.1 + l 1 * p.2 + l 2 - ((cos a * l 0 - sin a * l 1) * p.1 + (sin a * l 0 + cos a * l 1) * p.2)]

theorem rotMat_determ (p : Pt ℝ) (a : ℝ) : (rotMat p a).determ = 1 := by
  simp [rotMat, Mat.determ, Mat.det2]
  nlinarith [sin_sq_add_cos_sq a]

theorem rotMat_adj (p : Pt ℝ) (a : ℝ) : (rotMat p a).adjugate = rotMat p (-a) := by
  have h := sin_sq_add_cos_sq a
  funext i j
  fin_cases i <;> fin_cases j <;> simp [rotMat, Mat.adjugate, Mat.det2]
  · linear_combination p.1 * h
  · linear_combination p.2 * h
  · linear_combination h

theorem app_rot {t : Thr ℝ} (ht : 0 < t.nullDenom) (h1 : t.nullDenom ≤ 1) (hd : 0 < t.nullDeter) (hd1 : t.nullDeter ≤ 1) {g : Hom ℝ} {p : Pt ℝ} {a : ℝ}
    (hm : g.m = rotMat p a) (hc : g.changed = true) (l : V3 ℝ) : (g.appLineRaw t l).1 = .ok (rotLine l p a) := by
  have hi : Hom.invTransp t g = .ok (rotMat p (-a)).transpose := by
    have e : g.copy.m = rotMat p a := hm
    have e2 : ((rotMat p a).adjugate.divAll (rotMat p a).determ) = rotMat p (-a) := by
      rw [rotMat_determ, rotMat_adj]; funext i j; simp [Mat.divAll]
    have e3 : rotMat p (-a) 2 2 = 1 := by simp [rotMat]
    unfold Hom.invTransp
    rcases Hom.inverse_spec t ht hd g.copy with ⟨hh, e'⟩ | ⟨-, -, ⟨hh, e'⟩ | ⟨-, -, e'⟩⟩
    · rw [e, rotMat_determ, abs_one] at hh; exact absurd hh (not_lt.2 hd1)
    · rw [e, e2, e3, abs_one] at hh; exact absurd hh (not_lt.2 h1)
    · rw [e']
      simp only [Hom.transpose, e, e2, e3]
      congr 1
      funext i j; simp [Mat.transpose, Mat.divAll]
  rcases Hom.appLineRaw_spec t g (Hom.cacheOk_changed hc) l with ⟨h', -, -⟩ | ⟨mi, h', e⟩
  · rw [hi] at h'; cases h'
  · rw [hi] at h'; cases h'
    rw [e]
    show Res.ok _ = Res.ok _
    congr 1
    funext i
    fin_cases i <;> simp [Mat.app, Mat.transpose, rotMat, rotLine] <;> ring

theorem rotLine_unit {l : V3 ℝ} (hl : UnitNormal l) (p : Pt ℝ) (a : ℝ) : UnitNormal (rotLine l p a) := by
  unfold UnitNormal rotLine at *
  simp only [Matrix.cons_val_zero, Matrix.cons_val_one]
  linear_combination (l 0 ^ 2 + l 1 ^ 2) * sin_sq_add_cos_sq a + hl

theorem rotLine_on (l : V3 ℝ) (p : Pt ℝ) (a : ℝ) (q : Pt ℝ) : On (rotLine l p a) q ↔ On l (rotAround p (-a) q) := by
  unfold On rotLine rotAround
  simp only [Matrix.cons_val_zero, Matrix.cons_val_one, Matrix.cons_val, cos_neg, sin_neg]
  constructor <;> intro h <;> linarith

theorem rotated_spec {t : Thr ℝ} (ht : 0 < t.nullDenom) (h1 : t.nullDenom ≤ 1) (hd : 0 < t.nullDeter) (hd1 : t.nullDeter ≤ 1) {l : V3 ℝ} (hl : UnitNormal l)
    {p : Pt ℝ} (hp : lineDist l p ≤ t.nullDistance) (a : ℝ) :
    ∃ r, rotatedLine t l p a = .ok r ∧ NormLine t r ∧ r 0 = |cos a * l 0 - sin a * l 1| ∧ normalizeLine t (rotLine l p a) = .ok r := by
  obtain ⟨g1, g2, g3, e1, e2, e3, e4, e5⟩ := chain_rot ht h1 p a
  have hu := rotLine_unit hl p a
  have hs : sqrt (rotLine l p a 0 * rotLine l p a 0 + rotLine l p a 1 * rotLine l p a 1) = 1 := by
    unfold UnitNormal at hu
    rw [show rotLine l p a 0 * rotLine l p a 0 + rotLine l p a 1 * rotLine l p a 1 = 1 by linarith, sqrt_one]
  have hn := normalizeLine_eq t (rotLine l p a) (by rw [hs]; exact dblEps_lt_one)
  refine ⟨_, ?_, normalizeLine_norm hn, ?_, hn⟩
  · unfold rotatedLine
    rw [if_neg (not_lt.2 hp), e1]
    simp only [Res.bind_ok]
    rw [e2]
    simp only [Res.bind_ok]
    rw [e3]
    simp only [Res.bind_ok]
    rw [app_rot ht h1 hd hd1 e4 e5 l]
    simp only [Res.bind_ok]
    exact hn
  · rw [normalizeLine_zero hn, hs, div_one]; rfl

theorem On_sameLoc {l m : V3 ℝ} (h : SameLoc l m) (q : Pt ℝ) : On l q ↔ On m q := by
  rw [← onLine_mkPt, ← onLine_mkPt]; exact OnLine_sameLine h

/-! ### Oriented angles -/

theorem oseg_cos_sin {s s' : Seg} (h : s.1 ≠ s.2) (h' : s'.1 ≠ s'.2) :
    cos (osegAngle s s') * (eucl s.1 s.2 * eucl s'.1 s'.2) = (s.2.1 - s.1.1) * (s'.2.1 - s'.1.1) + (s.2.2 - s.1.2) * (s'.2.2 - s'.1.2) ∧
    sin (osegAngle s s') * (eucl s.1 s.2 * eucl s'.1 s'.2) = (s.2.1 - s.1.1) * (s'.2.2 - s'.1.2) - (s.2.2 - s.1.2) * (s'.2.1 - s'.1.1) := by
  have hd : 0 < eucl s.1 s.2 := lt_of_le_of_ne (eucl_nonneg _ _) (fun h0 => h (eucl_eq_zero.1 h0.symm))
  have hd' : 0 < eucl s'.1 s'.2 := lt_of_le_of_ne (eucl_nonneg _ _) (fun h0 => h' (eucl_eq_zero.1 h0.symm))
  unfold osegAngle atan2 segVector
  simp only
  set z : ℂ := ⟨(s.2.1 - s.1.1) * (s'.2.1 - s'.1.1) + (s.2.2 - s.1.2) * (s'.2.2 - s'.1.2),
    (s.2.1 - s.1.1) * (s'.2.2 - s'.1.2) - (s.2.2 - s.1.2) * (s'.2.1 - s'.1.1)⟩ with hz
  have hn : ‖z‖ = eucl s.1 s.2 * eucl s'.1 s'.2 := by
    rw [← sq_eq_sq₀ (norm_nonneg _) (by positivity), Complex.sq_norm, Complex.normSq_apply, hz, mul_pow, eucl_sq, eucl_sq]
    simp only; ring
  have hz0 : z ≠ 0 := by rw [← norm_pos_iff, hn]; positivity
  rw [Complex.cos_arg hz0, Complex.sin_arg, hn]
  have : eucl s.1 s.2 * eucl s'.1 s'.2 ≠ 0 := by positivity
  exact ⟨div_mul_cancel₀ _ this, div_mul_cancel₀ _ this⟩

theorem oseg_range (s s' : Seg) : - π < osegAngle s s' ∧ osegAngle s s' ≤ π := ⟨Complex.neg_pi_lt_arg _, Complex.arg_le_pi _⟩

theorem oseg_rot {s s' : Seg} (h : s.1 ≠ s.2) (h' : s'.1 ≠ s'.2) : rotOrigin (osegAngle s s') (unitTo s.1 s.2) = unitTo s'.1 s'.2 := by
  obtain ⟨e1, e2⟩ := oseg_cos_sin h h'
  have hd : 0 < eucl s.1 s.2 := lt_of_le_of_ne (eucl_nonneg _ _) (fun h0 => h (eucl_eq_zero.1 h0.symm))
  have hd' : 0 < eucl s'.1 s'.2 := lt_of_le_of_ne (eucl_nonneg _ _) (fun h0 => h' (eucl_eq_zero.1 h0.symm))
  have q1 := eucl_sq s.1 s.2
  generalize cos (osegAngle s s') = c at e1
  unfold rotOrigin unitTo
  have hc : cos (osegAngle s s') = cos (osegAngle s s') := rfl
  obtain ⟨e1', e2'⟩ := oseg_cos_sin h h'
  generalize cos (osegAngle s s') = c at *
  generalize sin (osegAngle s s') = d at *
  generalize eucl s.1 s.2 = A at *
  generalize eucl s'.1 s'.2 = B at *
  apply Prod.ext <;> simp only
  · have : c * ((s.2.1 - s.1.1) / A) - d * ((s.2.2 - s.1.2) / A) = (c * (A * B) * (s.2.1 - s.1.1) - d * (A * B) * (s.2.2 - s.1.2)) / (A ^ 2 * B) := by
      field_simp
    rw [this, e1', e2', div_eq_div_iff (by positivity) (by positivity), q1]
    ring
  · have : d * ((s.2.1 - s.1.1) / A) + c * ((s.2.2 - s.1.2) / A) = (d * (A * B) * (s.2.1 - s.1.1) + c * (A * B) * (s.2.2 - s.1.2)) / (A ^ 2 * B) := by
      field_simp
    rw [this, e1', e2', div_eq_div_iff (by positivity) (by positivity), q1]
    ring

/-- The angle is determined by what it does. -/
theorem oseg_unique {s s' : Seg} (h : s.1 ≠ s.2) (h' : s'.1 ≠ s'.2) {a : ℝ} (h1 : - π < a) (h2 : a ≤ π)
    (hr : rotOrigin a (unitTo s.1 s.2) = unitTo s'.1 s'.2) : osegAngle s s' = a := by
  have hd : 0 < eucl s.1 s.2 := lt_of_le_of_ne (eucl_nonneg _ _) (fun h0 => h (eucl_eq_zero.1 h0.symm))
  have hu : (unitTo s.1 s.2).1 ^ 2 + (unitTo s.1 s.2).2 ^ 2 = 1 := by
    unfold unitTo; simp only
    rw [div_pow, div_pow, ← add_div, div_eq_one_iff_eq (by positivity), eucl_sq]; ring
  have e := oseg_rot h h'
  obtain ⟨g1, g2⟩ := oseg_range s s'
  rw [← hr] at e
  generalize unitTo s.1 s.2 = u at *
  generalize osegAngle s s' = b at *
  unfold rotOrigin at e
  simp only [Prod.mk.injEq] at e
  obtain ⟨e1, e2⟩ := e
  have hc : cos b = cos a := by linear_combination u.1 * e1 + u.2 * e2 - (cos b - cos a) * hu
  have hs : sin b = sin a := by linear_combination u.1 * e2 - u.2 * e1 - (sin b - sin a) * hu
  have hb : Complex.arg (Complex.exp (b * Complex.I)) = b := Complex.arg_exp_mul_I b ▸ (toIocMod_eq_self _).2 ⟨g1, by linarith⟩
  have ha : Complex.arg (Complex.exp (a * Complex.I)) = a := Complex.arg_exp_mul_I a ▸ (toIocMod_eq_self _).2 ⟨h1, by linarith⟩
  have : Complex.exp (b * Complex.I) = Complex.exp (a * Complex.I) := by
    apply Complex.ext
    · rw [Complex.exp_ofReal_mul_I_re, Complex.exp_ofReal_mul_I_re, hc]
    · rw [Complex.exp_ofReal_mul_I_im, Complex.exp_ofReal_mul_I_im, hs]
  rw [← hb, this, ha]

/-! ### Bisectors -/

theorem bis_vertex {a v b : Pt ℝ} (ha : v ≠ a) (hb : v ≠ b) {l r : V3 ℝ} (h1 : On l v) (h2 : On l a) (hr : UnitNormal r)
    (hs : SameLoc (rotLine l v (osegAngle (v, a) (v, b) / 2)) r) : IsBisector a v b r := by
  have hrot := oseg_rot (s := (v, a)) (s' := (v, b)) ha hb
  simp only at hrot
  have hd : 0 < eucl v a := lt_of_le_of_ne (eucl_nonneg _ _) (fun h0 => ha (eucl_eq_zero.1 h0.symm))
  have hA : l 0 * (unitTo v a).1 + l 1 * (unitTo v a).2 = 0 := by
    unfold On at h1 h2; unfold unitTo; simp only
    rw [← mul_div_assoc, ← mul_div_assoc, ← add_div, div_eq_zero_iff]
    left; linarith
  have hu : (unitTo v a).1 ^ 2 + (unitTo v a).2 ^ 2 = 1 := by
    unfold unitTo; simp only
    rw [div_pow, div_pow, ← add_div, div_eq_one_iff_eq (by positivity), eucl_sq]; ring
  have hx : a.1 - v.1 = (unitTo v a).1 * eucl v a := by unfold unitTo; simp only; rw [div_mul_cancel₀ _ hd.ne']
  have hy : a.2 - v.2 = (unitTo v a).2 * eucl v a := by unfold unitTo; simp only; rw [div_mul_cancel₀ _ hd.ne']
  unfold IsBisector
  rw [← hrot, hx, hy]
  generalize unitTo v a = u at *
  set θ := osegAngle (v, a) (v, b)
  have ec : cos θ = 2 * cos (θ / 2) ^ 2 - 1 := by rw [← cos_two_mul]; congr 1; ring
  have es : sin θ = 2 * sin (θ / 2) * cos (θ / 2) := by rw [← sin_two_mul]; congr 1; ring
  have hcs := sin_sq_add_cos_sq (θ / 2)
  unfold rotOrigin
  simp only
  rw [ec, es]
  set c := cos (θ / 2)
  set d := sin (θ / 2)
  unfold On at h1
  refine ⟨hr, (On_sameLoc hs v).1 ?_, (On_sameLoc hs _).1 ?_, ?_⟩
  · unfold On rotLine
    simp only [Matrix.cons_val_zero, Matrix.cons_val_one, Matrix.cons_val]
    linarith
  · unfold On rotLine
    simp only [Matrix.cons_val_zero, Matrix.cons_val_one, Matrix.cons_val]
    linear_combination h1 + 2 * c * hA - 2 * c * 0 * hcs + (2 * c) * (l 0 * u.1 + l 1 * u.2) * (hcs)
  · rintro ⟨e1, e2⟩
    have hc0 : c = 0 := by
      have : 4 * c ^ 2 = 0 := by
        have h3 : (u.1 + ((2 * c ^ 2 - 1) * u.1 - 2 * d * c * u.2)) ^ 2 + (u.2 + (2 * d * c * u.1 + (2 * c ^ 2 - 1) * u.2)) ^ 2 = 0 := by rw [e1, e2]; ring
        linear_combination h3 - (4 * c ^ 2 * (c ^ 2 + d ^ 2)) * hu - (4 * c ^ 2) * hcs
      nlinarith
    obtain ⟨k, -, hk⟩ := hs
    rw [hk, hk]
    unfold rotLine
    simp only [Matrix.cons_val_zero, Matrix.cons_val_one]
    rw [show cos (θ / 2) = 0 from hc0]
    linear_combination (-k * d * eucl v a) * hA

theorem bis_slope {v a : Pt ℝ} (h : v ≠ a) {l : V3 ℝ} (hl : UnitNormal l) (h1 : On l v) (h2 : On l a) (x : ℝ) :
    |cos x * l 0 - sin x * l 1| = |(rotOrigin x (unitTo v a)).2| := by
  have hd : 0 < eucl v a := lt_of_le_of_ne (eucl_nonneg _ _) (fun h0 => h (eucl_eq_zero.1 h0.symm))
  obtain ⟨e, e1, e2, e3⟩ := unit_dir hl (s := (v, a)) h1 h2
  simp only at e1 e2 e3
  unfold rotOrigin unitTo
  simp only
  rw [e2, e3]
  rcases sq_eq_sq_iff_eq_or_eq_neg.1 e1 with h | h <;> rw [h]
  · rw [mul_div_cancel_left₀ _ hd.ne', neg_div, mul_div_cancel_left₀ _ hd.ne', ← abs_neg]; congr 1; ring
  · rw [neg_mul, neg_div, mul_div_cancel_left₀ _ hd.ne', neg_mul, neg_neg, mul_div_cancel_left₀ _ hd.ne']; congr 1; ring

/-- What the loop gives: `L` is the list of the points met, the last one before the loop being the first one. -/
theorem bisectorLoop_spec {t : Thr ℝ} (he : dblEps < t.nullDistance) (ht : 0 < t.nullDenom) (h1 : t.nullDenom ≤ 1) (hd : 0 < t.nullDeter) (hd1 : t.nullDeter ≤ 1)
    (rest : List (Pt ℝ)) (v a : Pt ℝ) (hg : GoodSeg t (v, a)) (hall : ∀ e ∈ (v :: rest).zip rest, GoodSeg t e) :
    ∃ ms, bisectorLoop t (v, a) ((v :: rest).zip rest) = .ok ms ∧ ms.length = rest.length ∧
      ∀ i m, ms[i]? = some m → ∃ p q r, (a :: v :: rest)[i]? = some p ∧ (a :: v :: rest)[i + 1]? = some q ∧ (a :: v :: rest)[i + 2]? = some r ∧
        (BisectorSlope t p q r → IsBisector p q r m) := by
  induction rest generalizing v a with
  | nil => exact ⟨[], rfl, rfl, by simp⟩
  | cons b rest ih =>
    have hp := dblEps_pos
    have gb : GoodSeg t (v, b) := hall _ (by simp)
    have gb' : GoodSeg t (b, v) := by
      refine ⟨by rw [eucl_comm]; exact gb.1, ?_⟩
      rcases gb.2 with h | h
      · exact Or.inl h.symm
      · right; simp only at h ⊢; rw [eucl_comm, abs_sub_comm]; exact h
    obtain ⟨ms, e1, e2, e3⟩ := ih b v gb' (fun e he => hall e (by simp only [List.zip_cons_cons]; exact List.mem_cons_of_mem _ he))
    obtain ⟨l, f1, f2, f3, f4⟩ := segLine_spec (t := t) he (a := v) (b := a) hg.1
    obtain ⟨f5, f6⟩ := f4 hg.2
    have hld : lineDist l v = 0 := (lineDist_eq_zero f2.1.proper v).2 f5
    obtain ⟨r, g1, g2, g3, g4⟩ := rotated_spec ht h1 hd hd1 f2.1 (p := v) (by rw [hld]; linarith) (osegAngle (v, a) (v, b) / 2)
    refine ⟨r :: ms, ?_, by simp [e2], ?_⟩
    · simp only [List.zip_cons_cons, bisectorLoop]
      rw [segMake_eq true gb.1]
      simp only [if_true, Res.bind_ok]
      rw [f1]
      simp only [Res.bind_ok]
      rw [g1]
      simp only [Res.bind_ok, segNeg]
      rw [e1]
      rfl
    · intro i m hm
      cases i with
      | zero =>
        simp only [List.getElem?_cons_zero, Option.some.injEq] at hm
        subst hm
        refine ⟨a, v, b, rfl, rfl, rfl, fun hb => ?_⟩
        have n1 : v ≠ a := by intro h; have := hg.1; simp only [h, eucl_self] at this; linarith
        have n2 : v ≠ b := by intro h; have := gb.1; simp only [h, eucl_self] at this; linarith
        refine bis_vertex n1 n2 f5 f6 g2.1 (normalizeLine_same g4 ?_)
        obtain ⟨θ, t1, t2, t3, t4⟩ := hb
        rw [oseg_unique (s := (v, a)) (s' := (v, b)) n1 n2 t1 t2 t3] at g3
        rw [g3, bis_slope n1 f2.1 f5 f6]
        rcases t4 with h | h
        · left; rw [h, abs_zero]
        · right; exact h
      | succ i =>
        rw [List.getElem?_cons_succ] at hm
        obtain ⟨p, q, r', k1, k2, k3, k4⟩ := e3 i m hm
        exact ⟨p, q, r', by rw [List.getElem?_cons_succ]; exact k1, by rw [List.getElem?_cons_succ]; exact k2, by rw [List.getElem?_cons_succ]; exact k3, k4⟩

end H2d.Bis
