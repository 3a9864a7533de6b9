import Verif.Lemmas.Line
import Mathlib.Algebra.Order.Field.Rat
import Mathlib.LinearAlgebra.Matrix.Determinant.Basic

/-!
# C11-C16 and C62: homographies
-/

set_option linter.unusedSectionVars false
set_option linter.unusedSimpArgs false

namespace H2d.Props

open H2d.Spec

variable {K : Type} [Field K] [LinearOrder K] [IsStrictOrderedRing K]

/-- **C11.** When the product is accepted, applying it to a point gives the location obtained by applying the right operand,
then the left one; in particular it is finite in the same cases and has the same coordinates. -/
theorem C11_product (t : Thr K) (ht : 0 < t.nullDenom) (h1 h2 h : Hom K) (hm : Hom.mul t h1 h2 = .ok h) (p : V3 K) :
    SameLoc (h1.appPt (h2.appPt p)) (h.appPt p) ∧
    (IsFin (h1.appPt (h2.appPt p)) ↔ IsFin (h.appPt p)) ∧
    getXY (h.appPt p) = getXY (h1.appPt (h2.appPt p)) := by
  have key : SameLoc (h1.appPt (h2.appPt p)) (h.appPt p) := by
    rcases Hom.mul_spec t ht h1 h2 with ⟨-, e⟩ | ⟨-, hne, e⟩
    · rw [e] at hm; cases hm
    · rw [e] at hm; cases hm
      simp only [Hom.appPt, ← Mat.mul_app]
      exact divAll_sameLoc _ _ hne p
  exact ⟨key, key.isFin, key.getXY.symm⟩

/-- **C11, failures.** The product is refused exactly when the element (2,2) of the matrix product is below the threshold. -/
theorem C11_throws (t : Thr K) (ht : 0 < t.nullDenom) (h1 h2 : Hom K) :
    Hom.mul t h1 h2 = .throw ↔ |h1.m 2 0 * h2.m 0 2 + h1.m 2 1 * h2.m 1 2 + h1.m 2 2 * h2.m 2 2| < t.nullDenom := by
  have e0 : h1.m.mul h2.m 2 2 = h1.m 2 0 * h2.m 0 2 + h1.m 2 1 * h2.m 1 2 + h1.m 2 2 * h2.m 2 2 := rfl
  rw [← e0]
  rcases Hom.mul_spec t ht h1 h2 with ⟨h, e⟩ | ⟨h, -, e⟩
  · simp [e, h]
  · rw [e]; simpa using h

/-- Non trivial case: a product of two projective transformations that is accepted. -/
example : ∃ h : Hom ℚ, Hom.mul ⟨1, 1, 1, 1/10, 1/10⟩
    ⟨![![1, 2, 3], ![0, 1, 4], ![5, 6, 1]], true, true, none⟩ ⟨![![2, 0, 1], ![0, 3, 0], ![1, 0, 1]], true, true, none⟩ = .ok h ∧
    getXY (h.appPt ![1, 2, 1]) = getXY ((⟨![![1, 2, 3], ![0, 1, 4], ![5, 6, 1]], true, true, none⟩ : Hom ℚ).appPt
      ((⟨![![2, 0, 1], ![0, 3, 0], ![1, 0, 1]], true, true, none⟩ : Hom ℚ).appPt ![1, 2, 1])) := by
  have ht : (0:ℚ) < (⟨1, 1, 1, 1/10, 1/10⟩ : Thr ℚ).nullDenom := by norm_num
  rcases Hom.mul_spec (⟨1, 1, 1, 1/10, 1/10⟩ : Thr ℚ) ht ⟨![![1, 2, 3], ![0, 1, 4], ![5, 6, 1]], true, true, none⟩
    ⟨![![2, 0, 1], ![0, 3, 0], ![1, 0, 1]], true, true, none⟩ with ⟨h, -⟩ | ⟨-, -, e⟩
  · exfalso; revert h; decide +kernel
  · exact ⟨_, e, (C11_product _ ht _ _ _ e _).2.2⟩

/-- **C12.** When `inverse()` returns normally, the object maps `H*p` back to `p` and conversely, for every point. -/
theorem C12_inverse (t : Thr K) (ht : 0 < t.nullDenom) (hd : 0 < t.nullDeter) (h : Hom K) (hi : (h.inverse t).1 = .ok ()) (p : V3 K) :
    let h' := (h.inverse t).2
    SameLoc p (h'.appPt (h.appPt p)) ∧ SameLoc p (h.appPt (h'.appPt p)) ∧
    getXY (h'.appPt (h.appPt p)) = getXY p ∧ getXY (h.appPt (h'.appPt p)) = getXY p := by
  intro h'
  rcases Hom.inverse_spec t ht hd h with ⟨-, e⟩ | ⟨-, hdet, ⟨-, e⟩ | ⟨-, hne, e⟩⟩
  · rw [e] at hi; cases hi
  · rw [e] at hi; cases hi
  · have key1 : SameLoc p (h'.appPt (h.appPt p)) := by
      simp only [h', e, Hom.appPt]
      refine ⟨1 / (h.m.adjugate.divAll h.m.determ 2 2), one_div_ne_zero hne, fun i => ?_⟩
      rw [Mat.divAll_app, Mat.divAll_app, Mat.adj_app]
      field_simp
    have key2 : SameLoc p (h.appPt (h'.appPt p)) := by
      simp only [h', e, Hom.appPt]
      refine ⟨1 / (h.m.adjugate.divAll h.m.determ 2 2), one_div_ne_zero hne, fun i => ?_⟩
      rw [Mat.divAll_app, Mat.divAll_app, Mat.app_smul, Mat.app_smul, Mat.app_adj]
      field_simp
    exact ⟨key1, key2, key1.getXY.symm, key2.getXY.symm⟩

/-- **C12, failures.** `inverse()` throws exactly when the determinant is below its threshold, or when the inverse matrix has a last element
below the other threshold. -/
theorem C12_throws (t : Thr K) (ht : 0 < t.nullDenom) (hd : 0 < t.nullDeter) (h : Hom K) :
    (h.inverse t).1 = .throw ↔
      |h.m.determ| < t.nullDeter ∨ |(h.m 0 0 * h.m 1 1 - h.m 0 1 * h.m 1 0) / h.m.determ| < t.nullDenom := by
  have e0 : h.m.adjugate.divAll h.m.determ 2 2 = (h.m 0 0 * h.m 1 1 - h.m 0 1 * h.m 1 0) / h.m.determ := by
    simp [Mat.adjugate, Mat.divAll, Mat.det2]
  rcases Hom.inverse_spec t ht hd h with ⟨h1, e⟩ | ⟨h1, hdet, ⟨h2, e⟩ | ⟨h2, hne, e⟩⟩
  · simp [e, h1]
  · rw [e]; rw [e0] at h2; simp [h2]
  · rw [e]; rw [e0] at h2
    simp [not_lt.2 h1, not_lt.2 h2]

/-- **C12, determinant.** The determinant that is tested is the determinant of the matrix. -/
theorem C12_determ (m : Mat K) : m.determ = Matrix.det (Matrix.of m) := by
  rw [Matrix.det_fin_three]; simp [Mat.determ, Mat.det2]; ring

example : ((⟨![![1, 2, 3], ![0, 1, 4], ![5, 6, 1]], true, true, none⟩ : Hom ℚ).inverse ⟨1, 1, 1, 1/100, 1/100⟩).1 = .ok () := by
  decide +kernel

/-- **C12, an invertible matrix that is refused.** The determinant is 1, the inverse exists but cannot be normalised. -/
theorem C12_refused (t : Thr ℚ) (ht : 0 < t.nullDenom) (hd : 0 < t.nullDeter) :
    ∃ h : Hom ℚ, h.m 2 2 = 1 ∧ h.m.determ = 1 ∧ (h.inverse t).1 = .throw := by
  refine ⟨⟨![![0, 0, 1], ![0, 1, 0], ![-1, 0, 1]], true, true, none⟩, by decide +kernel, by decide +kernel, ?_⟩
  rw [C12_throws t ht hd]
  right
  have : ((![![0, 0, 1], ![0, 1, 0], ![-1, 0, 1]] : Mat ℚ) 0 0 * (![![0, 0, 1], ![0, 1, 0], ![-1, 0, 1]] : Mat ℚ) 1 1 -
    (![![0, 0, 1], ![0, 1, 0], ![-1, 0, 1]] : Mat ℚ) 0 1 * (![![0, 0, 1], ![0, 1, 0], ![-1, 0, 1]] : Mat ℚ) 1 0) = 0 := by decide +kernel
  simp only [this, zero_div, abs_zero]; exact ht

/-- Every constructor gives such an object (used in C13, C16). -/
example (t : Thr K) (m : Mat K) (h h' : Hom K) (hv : Hom.ofValues t m = .ok h') :
    Fresh (Hom.default : Hom K) ∧ Fresh h.copy ∧ Fresh h' := by
  refine ⟨⟨rfl, rfl⟩, ⟨rfl, rfl⟩, ?_⟩
  simp only [Hom.ofValues, Hom.normalize] at hv
  split_ifs at hv <;> simp at hv <;> subst hv <;> exact ⟨rfl, rfl⟩

/-- **C15, construction.** A homography can be built from nine values exactly when the last one is not below the threshold; the values are divided by it, so that matrices that differ by a factor give the same homography. -/
theorem C15_values (t : Thr K) (ht : 0 < t.nullDenom) (m : Mat K) :
    (Hom.ofValues t m = .throw ↔ |m 2 2| < t.nullDenom) ∧ Hom.ofValues t m ≠ .ub ∧
    (∀ h, Hom.ofValues t m = .ok h → h.m 2 2 = 1 ∧ ∀ i j, h.m i j = m i j / m 2 2) ∧
    ∀ k : K, k ≠ 0 → t.nullDenom ≤ |m 2 2| → t.nullDenom ≤ |k * m 2 2| → Hom.ofValues t (fun i j => k * m i j) = Hom.ofValues t m := by
  have key : ∀ n : Mat K, t.nullDenom ≤ |n 2 2| → Hom.ofValues t n = .ok ⟨fun i j => n i j / n 2 2, true, true, none⟩ := by
    intro n hn
    have h0 : n 2 2 ≠ 0 := abs_pos.1 (lt_of_lt_of_le ht hn)
    simp only [Hom.ofValues, Hom.normalize, Mat.divAll, if_neg (not_lt.2 hn), div_self h0, not_lt.2 (zero_le_one (α := K)), if_false]
    rfl
  rcases lt_or_ge |m 2 2| t.nullDenom with h | h
  · have e : Hom.ofValues t m = .throw := by simp only [Hom.ofValues, Hom.normalize, if_pos h]
    rw [e]
    refine ⟨by simp [h], by simp, by simp, fun k _ hm => absurd h (not_lt.2 hm)⟩
  · have h0 : m 2 2 ≠ 0 := abs_pos.1 (lt_of_lt_of_le ht h)
    rw [key m h]
    refine ⟨by simp [h], by simp, ?_, ?_⟩
    · rintro h' ⟨⟩
      exact ⟨div_self h0, fun i j => rfl⟩
    · intro k hk _ hm
      rw [key _ hm]
      congr 2
      funext i j
      exact mul_div_mul_left _ _ hk

/-- A matrix and its double. -/
example (t : Thr ℚ) (h : t.nullDenom = 1/10) : t.nullDenom ≤ |(![![1, 2, 3], ![0, 1, 4], ![0, 0, 2]] : Mat ℚ) 2 2| ∧
    t.nullDenom ≤ |2 * (![![1, 2, 3], ![0, 1, 4], ![0, 0, 2]] : Mat ℚ) 2 2| := by
  rw [h]; decide +kernel

/-- **C13.** For any history of operations (including those that throw) without `init()`, `transpose()` or element write, starting from
any new object: if `H*l` returns a line then it contains `H*p` exactly when `l` contains `p`.
The lines with a first coefficient strictly between 0 and the null denominator are excluded: see `C01_false`. -/
theorem C13_incidence_partial (t : Thr ℝ) (ht : 0 < t.nullDenom) (hd : 0 < t.nullDeter) (h0 : Hom ℝ) (hf : Fresh h0)
    (ops : List (HOp ℝ)) (hs : ∀ op ∈ ops, HOp.silent op = false) (l v r : V3 ℝ)
    (hv : ((homRun t h0 ops).appLineRaw t l).1 = .ok v) (hr : normalizeLine t v = .ok r) (hb : r 0 = 0 ∨ t.nullDenom ≤ r 0) (p : V3 ℝ) :
    OnLine l p ↔ OnLine r ((homRun t h0 ops).appPt p) := by
  have hco := Hom.run_cache t ht hd ops h0 (Hom.cacheOk_changed hf.1) hs
  rcases Hom.appLineRaw_spec t _ hco l with ⟨-, e, -⟩ | ⟨mi, h1, e⟩
  · rw [e] at hv; cases hv
  · rw [e] at hv
    simp only [Res.ok.injEq] at hv
    subst hv
    rw [Hom.invTransp_acts t ht hd _ mi h1 l p]
    exact OnLine_sameLine (normalizeLine_same hr hb)

/-- **C13, when the product with a line succeeds.** After such a history, the product (before the final normalisation of the line)
throws exactly when `inverse()` would. -/
theorem C13_throws (t : Thr K) (ht : 0 < t.nullDenom) (hd : 0 < t.nullDeter) (h0 : Hom K) (hf : Fresh h0)
    (ops : List (HOp K)) (hs : ∀ op ∈ ops, HOp.silent op = false) (l : V3 K) :
    ((homRun t h0 ops).appLineRaw t l).1 = .throw ↔ ((homRun t h0 ops).inverse t).1 = .throw := by
  have hco := Hom.run_cache t ht hd ops h0 (Hom.cacheOk_changed hf.1) hs
  generalize homRun t h0 ops = h at *
  have e0 : (h.copy.inverse t).1 = (h.inverse t).1 := by
    have := C12_throws t ht hd h
    have h2 := C12_throws t ht hd h.copy
    have e : h.copy.m = h.m := rfl
    rw [e, ← this] at h2
    rcases Hom.inverse_spec t ht hd h with ⟨-, e⟩ | ⟨-, -, ⟨-, e⟩ | ⟨-, -, e⟩⟩ <;>
    rcases Hom.inverse_spec t ht hd h.copy with ⟨-, e'⟩ | ⟨-, -, ⟨-, e'⟩ | ⟨-, -, e'⟩⟩ <;> rw [e, e'] at h2 ⊢ <;> simp_all
  rw [← e0]
  rcases Hom.appLineRaw_spec t _ hco l with ⟨h1, e, -⟩ | ⟨mi, h1, e⟩
  · rw [e]
    simp only [Hom.invTransp] at h1
    rcases Hom.inverse_spec t ht hd h.copy with ⟨-, e'⟩ | ⟨-, -, ⟨-, e'⟩ | ⟨-, -, e'⟩⟩ <;> rw [e'] at h1 ⊢ <;> simp at h1 ⊢
  · rw [e]
    simp only [Hom.invTransp] at h1
    rcases Hom.inverse_spec t ht hd h.copy with ⟨-, e'⟩ | ⟨-, -, ⟨-, e'⟩ | ⟨-, -, e'⟩⟩ <;> rw [e'] at h1 ⊢ <;> simp at h1 ⊢

/-- **C13, negation.** With `init()`, an element write, or `transpose()` after a product with a line, the next product with a line uses the
old matrix: a point of the line is no more mapped on the image of the line. (Values before the scaling to unit length, which does not change
the line here.) -/
theorem C13_false (t : Thr ℚ) (h1 : t.nullDenom = 1/1000) (h2 : t.nullDeter = 1/1000) :
    ∃ (ops : List (HOp ℚ)) (l p v : V3 ℚ), OnLine l p ∧ ((homRun t Hom.default ops).appLineRaw t l).1 = .ok v ∧
      v 0 * v 0 + v 1 * v 1 = 1 ∧ ¬ OnLine v ((homRun t Hom.default ops).appPt p) ∧
      ops = [.setTranslation 1 0, .appLine l, .init] := by
  obtain ⟨a, b, c, d, e⟩ := t
  simp only at h1 h2
  subst h1 h2
  refine ⟨_, ![1, 0, 0], ![0, 0, 1], ![1, 0, -1], by simp [OnLine], ?_, by decide +kernel, ?_, rfl⟩
  · have : ((homRun ⟨a, b, c, 1/1000, 1/1000⟩ Hom.default [.setTranslation 1 0, .appLine ![1, 0, 0], .init]).appLineRaw
      ⟨a, b, c, 1/1000, 1/1000⟩ ![1, 0, 0]).1 = ((homRun ⟨0, 0, 0, 1/1000, 1/1000⟩ Hom.default [.setTranslation 1 0, .appLine ![1, 0, 0], .init]).appLineRaw
      ⟨0, 0, 0, 1/1000, 1/1000⟩ ![1, 0, 0]).1 := rfl
    rw [this]; exact resProj_ok (by decide +kernel)
  · have : (homRun ⟨a, b, c, 1/1000, 1/1000⟩ Hom.default [.setTranslation 1 0, .appLine ![1, 0, 0], .init]).m = Mat.eye := rfl
    rw [Hom.appPt, this]; simp [OnLine, Mat.app, Mat.eye, Mat.translation, Mat.write, Mat.transpose]

/-- **C13, negation, element write and transpose.** -/
theorem C13_write_false (t : Thr ℚ) (h1 : t.nullDenom = 1/1000) (h2 : t.nullDeter = 1/1000) (op : HOp ℚ)
    (hop : op = .write 0 2 0 ∨ op = .transpose) :
    ∃ (l p v : V3 ℚ), OnLine l p ∧ ((homRun t Hom.default [.setTranslation 1 0, .appLine l, op]).appLineRaw t l).1 = .ok v ∧
      v 0 * v 0 + v 1 * v 1 = 1 ∧ ¬ OnLine v ((homRun t Hom.default [.setTranslation 1 0, .appLine l, op]).appPt p) := by
  obtain ⟨a, b, c, d, e⟩ := t
  simp only at h1 h2
  subst h1 h2
  refine ⟨![1, 0, 0], ![0, 0, 1], ![1, 0, -1], by simp [OnLine], ?_, by decide +kernel, ?_⟩
  · have : ((homRun ⟨a, b, c, 1/1000, 1/1000⟩ Hom.default [.setTranslation 1 0, .appLine ![1, 0, 0], op]).appLineRaw
      ⟨a, b, c, 1/1000, 1/1000⟩ ![1, 0, 0]).1 = ((homRun ⟨0, 0, 0, 1/1000, 1/1000⟩ Hom.default [.setTranslation 1 0, .appLine ![1, 0, 0], op]).appLineRaw
      ⟨0, 0, 0, 1/1000, 1/1000⟩ ![1, 0, 0]).1 := by rcases hop with rfl | rfl <;> rfl
    rw [this]; rcases hop with rfl | rfl <;> exact resProj_ok (by decide +kernel)
  · rcases hop with rfl | rfl
    · have : (homRun ⟨a, b, c, 1/1000, 1/1000⟩ Hom.default [.setTranslation 1 0, .appLine ![1, 0, 0], .write 0 2 0]).m = (Mat.translation 1 0).write 0 2 0 := by
        show Mat.write ((Hom.default.setTranslation 1 0).appLineRaw ⟨a, b, c, 1/1000, 1/1000⟩ ![1, 0, 0]).2.m 0 2 0 = _
        rw [(Hom.appLineRaw_m _ _ _).1]; rfl
      rw [Hom.appPt, this]; simp [OnLine, Mat.app, Mat.eye, Mat.translation, Mat.write, Mat.transpose]
    · have : (homRun ⟨a, b, c, 1/1000, 1/1000⟩ Hom.default [.setTranslation 1 0, .appLine ![1, 0, 0], .transpose]).m = (Mat.translation 1 0).transpose := by
        show Mat.transpose ((Hom.default.setTranslation 1 0).appLineRaw ⟨a, b, c, 1/1000, 1/1000⟩ ![1, 0, 0]).2.m = _
        rw [(Hom.appLineRaw_m _ _ _).1]; rfl
      rw [Hom.appPt, this]; simp [OnLine, Mat.app, Mat.eye, Mat.translation, Mat.write, Mat.transpose]

/- Non trivial history for C13. -/
example : ∃ v : V3 ℚ, ((homRun ⟨1, 1, 1, 1/1000, 1/1000⟩ Hom.default
    [.setTranslation 3 4, .appLine ![1, 1, 2], .addScale 2 3, .appLine ![1, 0, 2], .inverse, .cmpL Hom.default, .addRotation 0 1]).appLineRaw
      ⟨1, 1, 1, 1/1000, 1/1000⟩ ![1, 2, 3]).1 = .ok v := by
  have : (((homRun ⟨1, 1, 1, 1/1000, 1/1000⟩ Hom.default
    [.setTranslation 3 4, .appLine ![1, 1, 2], .addScale 2 3, .appLine ![1, 0, 2], .inverse, .cmpL Hom.default, .addRotation 0 1]).appLineRaw
      ⟨1, 1, 1, 1/1000, 1/1000⟩ ![1, 2, 3]).1 : Res (V3 ℚ)).isOk = true := by decide +kernel
  revert this
  generalize ((homRun ⟨1, 1, 1, 1/1000, 1/1000⟩ (Hom.default : Hom ℚ)
    [.setTranslation 3 4, .appLine ![1, 1, 2], .addScale 2 3, .appLine ![1, 0, 2], .inverse, .cmpL Hom.default, .addRotation 0 1]).appLineRaw
      ⟨1, 1, 1, 1/1000, 1/1000⟩ ![1, 2, 3]).1 = r
  intro h
  rcases r with v | _ | _
  · exact ⟨v, rfl⟩
  · cases h
  · cases h

/-- **C14, one call.** After `addX`, the homography maps `p` to the added transformation applied to the old image. -/
theorem C14_add (t : Thr K) (ht : 0 < t.nullDenom) (h : Hom K) (e : Elem K) (hok : (e.add t h).1 = .ok ()) (p : V3 K)
    (hp : IsFin (h.appPt p)) :
    IsFin ((e.add t h).2.appPt p) ∧ getXY ((e.add t h).2.appPt p) = e.act (getXY (h.appPt p)) := by
  obtain ⟨o, ho, he⟩ := elem_add_eq t h e
  rw [he] at hok ⊢
  rcases Hom.premul_spec t ht o h with ⟨-, e'⟩ | ⟨-, hne, e'⟩
  · rw [e'] at hok; cases hok
  · rw [e', ho] at *
    have hs : SameLoc ((elemMat e).app (h.m.app p)) ((((elemMat e).mul h.m).divAll ((elemMat e).mul h.m 2 2)).app p) := by
      rw [← Mat.mul_app]; exact divAll_sameLoc _ _ hne p
    obtain ⟨h1, h2⟩ := elemMat_app e (h.m.app p) hp
    exact ⟨hs.isFin.1 h1, by simp only [Hom.appPt]; rw [← hs.getXY, h2]⟩

/-- **C14, chains.** A chain of `add*` calls applies the transformations in the order of the calls. -/
theorem C14_chain (t : Thr K) (ht : 0 < t.nullDenom) (es : List (Elem K)) (h h' : Hom K) (hr : addChain t h es = .ok h') (p : V3 K)
    (hp : IsFin (h.appPt p)) :
    IsFin (h'.appPt p) ∧ getXY (h'.appPt p) = es.foldl (fun q e => e.act q) (getXY (h.appPt p)) := by
  induction es generalizing h with
  | nil => simp only [addChain, Res.ok.injEq] at hr; subst hr; exact ⟨hp, rfl⟩
  | cons e es ih =>
    simp only [addChain] at hr
    rcases he : e.add t h with ⟨r, h1⟩
    rw [he] at hr
    rcases r with _ | _ | _
    · simp only at hr
      obtain ⟨h2, h3⟩ := C14_add t ht h e (by rw [he]) p hp
      rw [he] at h2 h3
      obtain ⟨h4, h5⟩ := ih h1 hr h2
      exact ⟨h4, by rw [h5, h3]; rfl⟩
    · cases hr
    · cases hr

/-- **C14, no failure.** On a normalised homography, such chains never throw, and leave it normalised. -/
theorem C14_chain_ok (t : Thr K) (ht : 0 < t.nullDenom) (h1 : t.nullDenom ≤ 1) (es : List (Elem K)) (h : Hom K) (hn : h.m 2 2 = 1) :
    ∃ h', addChain t h es = .ok h' ∧ h'.m 2 2 = 1 := by
  induction es generalizing h with
  | nil => exact ⟨h, rfl, hn⟩
  | cons e es ih =>
    obtain ⟨o, ho, he⟩ := elem_add_eq t h e
    have h22 : o.m.mul h.m 2 2 = 1 := by rw [ho, elemMat_mul_22, hn]
    rcases Hom.premul_spec t ht o h with ⟨hlt, -⟩ | ⟨-, hne, e'⟩
    · rw [h22, abs_one] at hlt; exact absurd hlt (not_lt.2 h1)
    · obtain ⟨h', h2, h3⟩ := ih { h with m := (o.m.mul h.m).divAll (o.m.mul h.m 2 2), changed := true } (Hom.divAll_22 _ hne)
      exact ⟨h', by simp only [addChain, he, e']; exact h2, h3⟩

/-- **C14, set.** `setX` discards the previous content. -/
theorem C14_set (h : Hom K) (e : Elem K) (p : V3 K) (hp : IsFin p) :
    IsFin ((e.set h).appPt p) ∧ getXY ((e.set h).appPt p) = e.act (getXY p) := by
  have : (e.set h).m = elemMat e := by cases e <;> rfl
  simp only [Hom.appPt, this]
  exact elemMat_app e p hp

example : ∃ h', addChain ⟨1, 1, 1, 1/1000, 1/1000⟩ (Hom.default : Hom ℚ) [.translation 1 2, .rotation (3/5) (4/5), .scale 2 3, .translation 1 1] = .ok h' ∧
    getXY (h'.appPt ![1, 1, 1]) = (-7/5, 56/5) := by
  obtain ⟨h', h1, -⟩ := C14_chain_ok (⟨1, 1, 1, 1/1000, 1/1000⟩ : Thr ℚ) (by norm_num) (by norm_num)
    [.translation 1 2, .rotation (3/5) (4/5), .scale 2 3, .translation 1 1] Hom.default (by decide +kernel)
  refine ⟨h', h1, ?_⟩
  rw [(C14_chain _ (by norm_num) _ _ _ h1 ![1, 1, 1] (by simp [IsFin, Hom.appPt, Hom.default, Mat.app, Mat.eye])).2]
  decide +kernel

/-- **C15, symmetric** for any pair of objects; the two comparisons also give the same outcome when an exception is thrown. -/
theorem C15_symmetric (t : Thr K) (a b : Hom K) : (Hom.eq t a b).1 = (Hom.eq t b a).1 := by
  simp only [Hom.eq]
  have hno : ∀ h : Hom K, (∃ h', h.normIfNeeded t = (.ok (), h')) ∨ ∃ h', h.normIfNeeded t = (.throw, h') := by
    intro h
    simp only [Hom.normIfNeeded, Hom.normalize]
    split_ifs <;> first | exact Or.inl ⟨_, rfl⟩ | exact Or.inr ⟨_, rfl⟩
  have hc : ∀ m m' : Mat K, Hom.closeMat t m m' = Hom.closeMat t m' m := by
    intro m m'
    rw [Bool.eq_iff_iff, Hom.closeMat_iff, Hom.closeMat_iff]
    constructor <;> intro h i j <;> rw [abs_sub_comm] <;> exact h i j
  rcases hno a with ⟨a', ha⟩ | ⟨a', ha⟩ <;> rcases hno b with ⟨b', hb⟩ | ⟨b', hb⟩ <;> simp [ha, hb, hc]

/-- **C15, reflexive**: the only other outcome is the exception of the normalisation. -/
theorem C15_reflexive (t : Thr K) (hd : 0 < t.nullDeter) (a : Hom K) :
    (Hom.eqSelf t a).1 = .ok true ∨ ((Hom.eqSelf t a).1 = .throw ∧ |a.m 2 2| < t.nullDenom) := by
  simp only [Hom.eqSelf, Hom.normIfNeeded, Hom.normalize]
  have hc : ∀ m : Mat K, Hom.closeMat t m m = true := by
    intro m; rw [Hom.closeMat_iff]; intro i j; simpa using hd
  split_ifs with h1 h2
  · left; simp [hc]
  · right; exact ⟨rfl, h2⟩
  · left; simp [hc]
  · left; simp [hc]

/-- **C15, scale.** For objects obtained from a constructor by any histories without element write and without assignment of an object that is not
normalised: if the values of one are the values of the other multiplied by some number, and the comparison does not throw, then they compare
equal. More precisely the comparison says whether the normalised matrices are close. -/
theorem C15_scale_partial (t : Thr K) (ht : 0 < t.nullDenom) (ht1 : t.nullDenom ≤ 1) (hd : 0 < t.nullDeter) (a0 b0 : Hom K)
    (ha0 : a0.isNorm = true → a0.m 2 2 = 1) (hb0 : b0.isNorm = true → b0.m 2 2 = 1) (opa opb : List (HOp K))
    (ha : ∀ op ∈ opa, ¬ HOp.breaksFlag op) (hb : ∀ op ∈ opb, ¬ HOp.breaksFlag op) :
    let a := homRun t a0 opa
    let b := homRun t b0 opb
    (t.nullDenom ≤ |a.m 2 2| → t.nullDenom ≤ |b.m 2 2| →
      ((Hom.eq t a b).1 = .ok true ↔ ∀ i j, |a.m i j / a.m 2 2 - b.m i j / b.m 2 2| < t.nullDeter) ∧
      (∀ k : K, (∀ i j, b.m i j = k * a.m i j) → (Hom.eq t a b).1 = .ok true)) := by
  intro a b h1 h2
  have hfa := Hom.run_flag t ht hd opa a0 ha0 ha
  have hfb := Hom.run_flag t ht hd opb b0 hb0 hb
  have key : (Hom.eq t a b).1 = .ok true ↔ ∀ i j, |a.m i j / a.m 2 2 - b.m i j / b.m 2 2| < t.nullDeter := by
    rcases Hom.normIfNeeded_spec t ht ht1 a hfa with ⟨h3, -⟩ | ⟨-, -, a', ea, ma⟩
    · exact absurd h3 (not_lt.2 h1)
    · rcases Hom.normIfNeeded_spec t ht ht1 b hfb with ⟨h3, -⟩ | ⟨-, -, b', eb, mb⟩
      · exact absurd h3 (not_lt.2 h2)
      · simp only [Hom.eq, ea, eb, Res.ok.injEq, Hom.closeMat_iff, ma, mb, Mat.divAll]
  refine ⟨key, fun k hk => key.2 (fun i j => ?_)⟩
  have hbne : b.m 2 2 ≠ 0 := by intro h0; rw [h0, abs_zero] at h2; linarith
  rw [hk 2 2] at hbne
  have hkne : k ≠ 0 := fun h => hbne (by rw [h, zero_mul])
  rw [hk i j, hk 2 2, mul_div_mul_left _ _ hkne, sub_self, abs_zero]
  exact hd

/-- **C15, negation.** Element writes do not reset the flag "normalised": two multiples of the same matrix compare different. -/
theorem C15_false (t : Thr ℚ) (h1 : t.nullDenom = 1/1000) (h2 : t.nullDeter = 1/1000) :
    ∃ opa : List (HOp ℚ), (∀ i j, (homRun t Hom.default opa).m i j = 2 * (Hom.default : Hom ℚ).m i j) ∧
      (Hom.eq t (homRun t Hom.default opa) Hom.default).1 = .ok false := by
  obtain ⟨a, b, c, d, e⟩ := t
  simp only at h1 h2
  subst h1 h2
  refine ⟨[.write 0 0 2, .write 1 1 2, .write 2 2 2], ?_, ?_⟩
  · show ∀ i j, (((Mat.eye.write 0 0 2).write 1 1 2).write 2 2 2 : Mat ℚ) i j = 2 * (Mat.eye : Mat ℚ) i j
    decide +kernel
  · show Res.ok (Hom.closeMat ⟨a, b, c, 1/1000, 1/1000⟩ (((Mat.eye.write 0 0 2).write 1 1 2).write 2 2 2) Mat.eye) = .ok false
    rw [Res.ok.injEq, ← Bool.not_eq_true, Hom.closeMat_iff]
    intro h
    have := h 0 0
    revert this
    show ¬ (|(((Mat.eye.write 0 0 2).write 1 1 2).write 2 2 2 : Mat ℚ) 0 0 - (Mat.eye : Mat ℚ) 0 0| < 1/1000)
    decide +kernel

/-- **C16, containers of points** (`H*container`, `applyTo`): same size, same order. -/
theorem C16_points (h : Hom K) (l : List (V3 K)) :
    (appPts h l).length = l.length ∧ ∀ i (hi : i < l.length) (hi' : i < (appPts h l).length), (appPts h l)[i] = h.appPt l[i] := by
  refine ⟨by simp [appPts], fun i hi hi' => by simp [appPts]⟩

/-- **C16, containers of lines**: after any history without silent change, each element of the result is what the product of the homography with
this single element gives. -/
theorem C16_lines (t : Thr K) (ht : 0 < t.nullDenom) (hd : 0 < t.nullDeter) (nrm : V3 K → Res (V3 K)) (h0 : Hom K) (hf : Fresh h0)
    (ops : List (HOp K)) (hs : ∀ op ∈ ops, HOp.silent op = false) (ls vs : List (V3 K))
    (hr : (appLines t nrm (homRun t h0 ops) ls).1 = .ok vs) :
    List.Forall₂ (fun l v => ∃ w, ((homRun t h0 ops).appLineRaw t l).1 = .ok w ∧ nrm w = .ok v) ls vs :=
  Hom.appLines_spec t nrm _ (Hom.run_cache t ht hd ops h0 (Hom.cacheOk_changed hf.1) hs) ls vs hr

/-- **C16, polylines and rectangles**: the vertices of the result are the images, in the same order; it throws exactly when
the images of two successive vertices are the same. -/
theorem C16_polyline (same : V3 K → V3 K → Bool) (h : Hom K) (pts : List (V3 K)) :
    (appPoly same h pts = .ok (pts.map h.appPt) ∧ ∀ i (hi : i + 1 < pts.length), same (h.appPt pts[i+1]) (h.appPt pts[i]) = false) ∨
    (appPoly same h pts = .throw ∧ ∃ i, ∃ hi : i + 1 < pts.length, same (h.appPt pts[i+1]) (h.appPt pts[i]) = true) := by
  simp only [appPoly]
  rcases addPoints_spec same (pts.map h.appPt) with ⟨h1, h2⟩ | ⟨h1, i, hi, h2⟩
  · left; refine ⟨h1, fun i hi => ?_⟩
    have := h2 i (by simpa using hi)
    simpa using this
  · right; refine ⟨h1, i, by simpa using hi, by simpa using h2⟩

example : (appPoly (fun p q : V3 ℚ => decide (p = q)) (Hom.default.setScale 2 3) [![0,0,1], ![1,0,1], ![1,1,1]]).isOk = true := by
  decide +kernel

/-- **C62.** If the vector given by the linear solver is a solution of the system built from the four pairs of points, then the homography maps each
source point (with a finite image) to the corresponding destination point. -/
theorem C62_four_points (src dst : Fin 4 → K × K) (x : Fin 8 → K)
    (hx : ∀ i odd, dotRow (dltRow (src i) (dst i) odd).1 x = (dltRow (src i) (dst i) odd).2) (i : Fin 4)
    (hf : IsFin ((dltMat x).app (mkPt (src i).1 (src i).2))) :
    getXY ((dltMat x).app (mkPt (src i).1 (src i).2)) = dst i := by
  have h0 := hx i false
  have h1 := hx i true
  simp [dltRow, dotRow] at h0 h1
  have e2 : (dltMat x).app (mkPt (src i).1 (src i).2) 2 = x 6 * (src i).1 + x 7 * (src i).2 + 1 := by simp [dltMat, Mat.app, mkPt]
  have e0 : (dltMat x).app (mkPt (src i).1 (src i).2) 0 = x 0 * (src i).1 + x 1 * (src i).2 + x 2 := by simp [dltMat, Mat.app, mkPt]
  have e1 : (dltMat x).app (mkPt (src i).1 (src i).2) 1 = x 3 * (src i).1 + x 4 * (src i).2 + x 5 := by simp [dltMat, Mat.app, mkPt]
  simp only [IsFin, e2] at hf
  refine Prod.ext ?_ ?_
  · simp only [getXY, e0, e2]
    rw [div_eq_iff hf]; linear_combination h0
  · simp only [getXY, e1, e2]
    rw [div_eq_iff hf]; linear_combination h1

/- Four corners of a unit square sent on a trapezium. -/
example : ∃ (src dst : Fin 4 → ℚ × ℚ) (x : Fin 8 → ℚ),
    (∀ i odd, dotRow (dltRow (src i) (dst i) odd).1 x = (dltRow (src i) (dst i) odd).2) ∧
    dst 2 = (2/3, 2/3) ∧ (dltMat x) 2 1 = 1/2 :=
  ⟨![(0,0), (1,0), (1,1), (0,1)], ![(0,0), (1,0), (2/3,2/3), (0,2/3)], ![1, 0, 0, 0, 1, 0, 0, 1/2], by decide +kernel, by decide +kernel, by decide +kernel⟩

end H2d.Props
