import Verif.Spec.Homogr
import Mathlib.Tactic.Ring
import Mathlib.Tactic.FieldSimp
import Mathlib.Tactic.LinearCombination
import Mathlib.Tactic.FinCases
import Mathlib.LinearAlgebra.Matrix.Notation
import Mathlib.Tactic.Linarith

/-!
# Lemmas on matrices and homographies
-/

set_option linter.unusedSectionVars false

namespace H2d

open H2d.Spec

variable {K : Type} [Field K] [LinearOrder K] [IsStrictOrderedRing K]

theorem v3_ext {p q : V3 K} (h0 : p 0 = q 0) (h1 : p 1 = q 1) (h2 : p 2 = q 2) : p = q := by
  funext i; fin_cases i <;> assumption

theorem fin3_forall {P : Fin 3 → Prop} (h0 : P 0) (h1 : P 1) (h2 : P 2) : ∀ i, P i := by
  intro i; fin_cases i <;> assumption

/-- A component of a result, to evaluate examples. -/
def resProj (r : Res (V3 K)) (i : Fin 3) : Option K := match r with | .ok v => some (v i) | _ => none

theorem resProj_ok {r : Res (V3 K)} {a b c : K} (h : [resProj r 0, resProj r 1, resProj r 2] = [some a, some b, some c]) :
    r = .ok ![a, b, c] := by
  rcases r with v | _ | _
  · simp only [resProj, List.cons.injEq, Option.some.injEq, and_true] at h
    obtain ⟨h0, h1, h2⟩ := h
    rw [Res.ok.injEq]
    exact v3_ext h0 h1 h2
  · simp [resProj] at h
  · simp [resProj] at h

theorem addPoints_cons_spec {P : Type} (same : P → P → Bool) (l : List P) (b : P) (acc : List P) :
    (addPoints same (b :: acc) l = .ok (acc.reverse ++ b :: l) ∧
      ∀ i (hi : i + 1 < (b :: l).length), same (b :: l)[i+1] (b :: l)[i] = false) ∨
    (addPoints same (b :: acc) l = .throw ∧ ∃ i, ∃ hi : i + 1 < (b :: l).length, same (b :: l)[i+1] (b :: l)[i] = true) := by
  induction l generalizing b acc with
  | nil => left; refine ⟨by simp [addPoints], fun i hi => ?_⟩; simp at hi
  | cons p ps ih =>
    by_cases hs : same p b = true
    · right; exact ⟨by simp [addPoints, hs], 0, by simp, by simpa using hs⟩
    · have hs' : same p b = false := by simpa using hs
      rcases ih p (b :: acc) with ⟨h1, h2⟩ | ⟨h1, i, hi, h2⟩
      · left
        refine ⟨by simp [addPoints, hs', h1], fun i hi => ?_⟩
        rcases i with _ | i
        · simpa using hs'
        · have := h2 i (by simpa using hi)
          simpa using this
      · right
        exact ⟨by simp [addPoints, hs', h1], i + 1, by simpa using hi, by simpa using h2⟩

theorem addPoints_spec {P : Type} (same : P → P → Bool) (l : List P) :
    (addPoints same [] l = .ok l ∧ ∀ i (hi : i + 1 < l.length), same l[i+1] l[i] = false) ∨
    (addPoints same [] l = .throw ∧ ∃ i, ∃ hi : i + 1 < l.length, same l[i+1] l[i] = true) := by
  cases l with
  | nil => left; refine ⟨by simp [addPoints], fun i hi => ?_⟩; simp at hi
  | cons p ps => simpa [addPoints] using addPoints_cons_spec same ps p []

namespace Mat

theorem mul_app (a b : Mat K) (p : V3 K) : (a.mul b).app p = a.app (b.app p) := by
  funext i; simp only [mul, app]; ring

theorem app_smul (a : Mat K) (k : K) (p : V3 K) : a.app (fun i => k * p i) = fun i => k * a.app p i := by
  funext i; simp only [app]; ring

theorem divAll_app (a : Mat K) (d : K) (p : V3 K) : (a.divAll d).app p = fun i => (1 / d) * a.app p i := by
  funext i; simp only [divAll, app]; ring

theorem adj_app (m : Mat K) (p : V3 K) : m.adjugate.app (m.app p) = fun i => m.determ * p i := by
  apply v3_ext <;> simp [adjugate, app, determ, det2] <;> ring

theorem app_adj (m : Mat K) (p : V3 K) : m.app (m.adjugate.app p) = fun i => m.determ * p i := by
  apply v3_ext <;> simp [adjugate, app, determ, det2] <;> ring

theorem adjT_inc (m : Mat K) (l p : V3 K) :
    m.adjugate.transpose.app l 0 * m.app p 0 + m.adjugate.transpose.app l 1 * m.app p 1 + m.adjugate.transpose.app l 2 * m.app p 2 =
      m.determ * (l 0 * p 0 + l 1 * p 1 + l 2 * p 2) := by
  simp [adjugate, app, determ, det2, transpose]; ring

end Mat

theorem Spec.SameLoc.refl (p : V3 K) : SameLoc p p := ⟨1, one_ne_zero, fun i => by ring⟩

theorem Spec.SameLoc.symm {p q : V3 K} (h : SameLoc p q) : SameLoc q p := by
  obtain ⟨k, hk, h⟩ := h
  exact ⟨k⁻¹, inv_ne_zero hk, fun i => by rw [h i]; field_simp⟩

theorem Spec.SameLoc.trans {p q r : V3 K} (h1 : SameLoc p q) (h2 : SameLoc q r) : SameLoc p r := by
  obtain ⟨k, hk, h1⟩ := h1
  obtain ⟨j, hj, h2⟩ := h2
  exact ⟨j * k, mul_ne_zero hj hk, fun i => by rw [h2 i, h1 i]; ring⟩

theorem Spec.SameLoc.app {p q : V3 K} (m : Mat K) (h : SameLoc p q) : SameLoc (m.app p) (m.app q) := by
  obtain ⟨k, hk, h⟩ := h
  have : q = fun i => k * p i := funext h
  rw [this, Mat.app_smul]
  exact ⟨k, hk, fun i => rfl⟩

theorem Spec.SameLoc.isFin {p q : V3 K} (h : SameLoc p q) : IsFin p ↔ IsFin q := by
  obtain ⟨k, hk, h⟩ := h
  simp only [IsFin, h 2, ne_eq, mul_eq_zero, hk, false_or]

theorem Spec.SameLoc.getXY {p q : V3 K} (h : SameLoc p q) : getXY p = getXY q := by
  obtain ⟨k, hk, h⟩ := h
  simp only [H2d.getXY, h 0, h 1, h 2]
  rw [mul_div_mul_left _ _ hk, mul_div_mul_left _ _ hk]

theorem sameLoc_of_getXY {p q : V3 K} (hp : IsFin p) (hq : IsFin q) (h : getXY p = getXY q) : SameLoc p q := by
  simp only [IsFin] at hp hq
  simp only [getXY, Prod.mk.injEq] at h
  obtain ⟨h0, h1⟩ := h
  refine ⟨q 2 / p 2, div_ne_zero hq hp, fin3_forall ?_ ?_ ?_⟩
  · field_simp at h0 ⊢; linear_combination -h0
  · field_simp at h1 ⊢; linear_combination -h1
  · field_simp

theorem OnLine_sameLoc {l p q : V3 K} (h : SameLoc p q) : OnLine l p ↔ OnLine l q := by
  obtain ⟨k, hk, h⟩ := h
  simp only [OnLine, h 0, h 1, h 2]
  have : l 0 * (k * p 0) + l 1 * (k * p 1) + l 2 * (k * p 2) = k * (l 0 * p 0 + l 1 * p 1 + l 2 * p 2) := by ring
  rw [this, mul_eq_zero]; simp [hk]

theorem OnLine_sameLine {l m p : V3 K} (h : SameLoc l m) : OnLine l p ↔ OnLine m p := by
  obtain ⟨k, hk, h⟩ := h
  simp only [OnLine, h 0, h 1, h 2]
  have : k * l 0 * p 0 + k * l 1 * p 1 + k * l 2 * p 2 = k * (l 0 * p 0 + l 1 * p 1 + l 2 * p 2) := by ring
  rw [this, mul_eq_zero]; simp [hk]

namespace Hom

/-- Effect of `normalize`. -/
theorem normalize_spec (t : Thr K) (ht : 0 < t.nullDenom) (h : Hom K) :
    (|h.m 2 2| < t.nullDenom ∧ normalize t h = (.throw, h)) ∨
    (t.nullDenom ≤ |h.m 2 2| ∧ h.m 2 2 ≠ 0 ∧
      normalize t h = (.ok (), { h with m := h.m.divAll (h.m 2 2), isNorm := true, changed := true })) := by
  by_cases hd : |h.m 2 2| < t.nullDenom
  · left; exact ⟨hd, by simp [normalize, hd]⟩
  · right
    have hne : h.m 2 2 ≠ 0 := by
      intro h0; rw [h0, abs_zero] at hd; exact hd ht
    have h1 : ¬ (h.m.divAll (h.m 2 2) 2 2 < 0) := by
      simp [Mat.divAll, div_self hne]
    refine ⟨not_lt.1 hd, hne, ?_⟩
    simp only [normalize, hd, if_false, h1]

theorem divAll_22 (m : Mat K) (h : m 2 2 ≠ 0) : m.divAll (m 2 2) 2 2 = 1 := by
  simp [Mat.divAll, div_self h]

/-- Effect of `operator *`. -/
theorem mul_spec (t : Thr K) (ht : 0 < t.nullDenom) (a b : Hom K) :
    (|a.m.mul b.m 2 2| < t.nullDenom ∧ mul t a b = .throw) ∨
    (t.nullDenom ≤ |a.m.mul b.m 2 2| ∧ a.m.mul b.m 2 2 ≠ 0 ∧
      mul t a b = .ok { m := (a.m.mul b.m).divAll (a.m.mul b.m 2 2), isNorm := true, changed := true, hmt := none }) := by
  rcases normalize_spec t ht { m := a.m.mul b.m, isNorm := true, changed := true, hmt := none } with ⟨h1, h2⟩ | ⟨h1, h2, h3⟩
  · left; exact ⟨h1, by simp only [mul, default, h2]⟩
  · right; exact ⟨h1, h2, by simp only [mul, default, h3]⟩

/-- Effect of `inverse`. -/
theorem inverse_spec (t : Thr K) (ht : 0 < t.nullDenom) (hd : 0 < t.nullDeter) (h : Hom K) :
    (|h.m.determ| < t.nullDeter ∧ inverse t h = (.throw, h)) ∨
    (t.nullDeter ≤ |h.m.determ| ∧ h.m.determ ≠ 0 ∧
      let a := h.m.adjugate.divAll h.m.determ
      ((|a 2 2| < t.nullDenom ∧ inverse t h = (.throw, { h with m := a, isNorm := false })) ∨
       (t.nullDenom ≤ |a 2 2| ∧ a 2 2 ≠ 0 ∧
        inverse t h = (.ok (), { h with m := a.divAll (a 2 2), isNorm := true, changed := true })))) := by
  by_cases h0 : |h.m.determ| < t.nullDeter
  · left; exact ⟨h0, by simp [inverse, h0]⟩
  · right
    have hne : h.m.determ ≠ 0 := by
      intro h1; rw [h1, abs_zero] at h0; exact h0 hd
    refine ⟨not_lt.1 h0, hne, ?_⟩
    simp only [inverse, h0, if_false]
    rcases normalize_spec t ht { h with m := h.m.adjugate.divAll h.m.determ, isNorm := false } with ⟨h1, h2⟩ | ⟨h1, h2, h3⟩
    · left; exact ⟨h1, h2⟩
    · right; exact ⟨h1, h2, h3⟩

/-- The matrix `mi` is what the product with a line needs: it acts on lines as `m` acts on points. -/
def ActsOnLines (m mi : Mat K) : Prop := ∀ l p, OnLine l p ↔ OnLine (mi.app l) (m.app p)

theorem invTransp_acts (t : Thr K) (ht : 0 < t.nullDenom) (hd : 0 < t.nullDeter) (h : Hom K) (mi : Mat K)
    (hi : invTransp t h = .ok mi) : ActsOnLines h.m mi := by
  simp only [invTransp] at hi
  rcases inverse_spec t ht hd h.copy with ⟨-, h2⟩ | ⟨-, h2, h3⟩
  · rw [h2] at hi; simp at hi
  · rcases h3 with ⟨-, h4⟩ | ⟨-, h4, h5⟩
    · rw [h4] at hi; simp at hi
    · rw [h5] at hi
      simp only [Res.ok.injEq] at hi
      subst hi
      intro l p
      have e : ∀ i, (transpose { h.copy with
            m := ((h.copy.m.adjugate.divAll h.copy.m.determ).divAll (h.copy.m.adjugate.divAll h.copy.m.determ 2 2))
            isNorm := true
            changed := true }).m.app l i =
          (1 / h.m.determ / (h.copy.m.adjugate.divAll h.copy.m.determ 2 2)) * h.m.adjugate.transpose.app l i := by
        intro i
        simp only [transpose, Mat.transpose, Mat.divAll, Mat.app, copy]
        ring
      simp only [OnLine, e]
      have hk := Mat.adjT_inc h.m l p
      have hdet : h.m.determ ≠ 0 := h2
      have hs : (1 / h.m.determ / (h.copy.m.adjugate.divAll h.copy.m.determ 2 2)) ≠ 0 :=
        div_ne_zero (one_div_ne_zero hdet) h4
      generalize (1 / h.m.determ / (h.copy.m.adjugate.divAll h.copy.m.determ 2 2)) = c at hs
      have : c * h.m.adjugate.transpose.app l 0 * h.m.app p 0 + c * h.m.adjugate.transpose.app l 1 * h.m.app p 1 +
          c * h.m.adjugate.transpose.app l 2 * h.m.app p 2 = (c * h.m.determ) * (l 0 * p 0 + l 1 * p 1 + l 2 * p 2) := by
        rw [mul_assoc c h.m.determ, ← hk]; ring
      rw [this, mul_eq_zero]
      simp [hs, hdet]

/-- Invariant: when the object is not marked as changed, the cached matrix is the one of the current values. -/
def CacheOk (t : Thr K) (h : Hom K) : Prop := h.changed = false → ∃ mi, h.hmt = some mi ∧ invTransp t h = .ok mi

theorem cacheOk_changed {t : Thr K} {h : Hom K} (hc : h.changed = true) : CacheOk t h := by
  intro h0; rw [hc] at h0; cases h0

theorem invTransp_congr {t : Thr K} {a b : Hom K} (hm : a.m = b.m) : invTransp t a = invTransp t b := by
  obtain ⟨m, n1, c1, h1⟩ := a
  obtain ⟨m', n2, c2, h2⟩ := b
  simp only at hm
  subst hm
  simp only [invTransp, copy, inverse]
  by_cases h1 : |m.determ| < t.nullDeter
  · simp [h1]
  · simp [h1]

theorem refresh_spec (t : Thr K) (h : Hom K) (hc : CacheOk t h) :
    (invTransp t h = .throw ∧ (refresh t h).1 = .throw ∧ (refresh t h).2.m = h.m ∧ (refresh t h).2.changed = true ∧
        (refresh t h).2.isNorm = h.isNorm) ∨
    (∃ mi, invTransp t h = .ok mi ∧ refresh t h = (.ok (), { h with hmt := some mi, changed := false })) := by
  have hno : invTransp t h = .throw ∨ ∃ mi, invTransp t h = .ok mi := by
    simp only [invTransp]; split
    · exact Or.inr ⟨_, rfl⟩
    · exact Or.inl rfl
  rcases hh : h.hmt with _ | m0
  · have e : invTransp t { h with hmt := some (fun _ _ => 0), changed := true } = invTransp t h := invTransp_congr rfl
    rcases hno with h1 | ⟨mi, h1⟩
    · left
      simp [refresh, hh, e, h1]
    · right
      exact ⟨mi, h1, by simp [refresh, hh, e, h1]⟩
  · by_cases hch : h.changed = true
    · rcases hno with h1 | ⟨mi, h1⟩
      · left; simp [refresh, hh, hch, h1]
      · right; exact ⟨mi, h1, by simp [refresh, hh, hch, h1]⟩
    · right
      have hf : h.changed = false := by simpa using hch
      obtain ⟨mi, h2, h3⟩ := hc hf
      refine ⟨mi, h3, ?_⟩
      rw [hh] at h2
      have : m0 = mi := by simpa using h2
      subst this
      obtain ⟨m, n, c, hm⟩ := h
      simp only at hf hh
      subst hf hh
      simp [refresh]

theorem appLineRaw_spec (t : Thr K) (h : Hom K) (hc : CacheOk t h) (l : V3 K) :
    (invTransp t h = .throw ∧ (appLineRaw t h l).1 = .throw ∧ (appLineRaw t h l).2.m = h.m ∧ (appLineRaw t h l).2.changed = true ∧
        (appLineRaw t h l).2.isNorm = h.isNorm) ∨
    (∃ mi, invTransp t h = .ok mi ∧ appLineRaw t h l = (.ok (mi.app l), { h with hmt := some mi, changed := false })) := by
  rcases refresh_spec t h hc with ⟨h1, h2, h3, h4, h5⟩ | ⟨mi, h1, h2⟩
  · left
    rcases hr : refresh t h with ⟨r, h'⟩
    rw [hr] at h2 h3 h4 h5
    simp only at h2 h3 h4 h5
    subst h2
    simp [appLineRaw, hr, h1, h3, h4, h5]
  · right; exact ⟨mi, h1, by simp [appLineRaw, h2]⟩

theorem normalize_cache (t : Thr K) (ht : 0 < t.nullDenom) (h : Hom K) (hc : CacheOk t h) : CacheOk t (normalize t h).2 := by
  rcases normalize_spec t ht h with ⟨-, h2⟩ | ⟨-, -, h3⟩
  · rw [h2]; exact hc
  · rw [h3]; exact cacheOk_changed rfl

theorem normIfNeeded_cache (t : Thr K) (ht : 0 < t.nullDenom) (h : Hom K) (hc : CacheOk t h) : CacheOk t (normIfNeeded t h).2 := by
  simp only [normIfNeeded]; split_ifs
  · exact hc
  · exact normalize_cache t ht h hc

theorem eq_fst (t : Thr K) (a b : Hom K) : (eq t a b).2.1 = (normIfNeeded t a).2 := by
  simp only [eq]; split <;> (try split) <;> simp_all

theorem eq_snd (t : Thr K) (a b : Hom K) : (eq t a b).2.2 = b ∨ (eq t a b).2.2 = (normIfNeeded t b).2 := by
  simp only [eq]; split <;> (try split) <;> simp_all

theorem premul_spec (t : Thr K) (ht : 0 < t.nullDenom) (o h : Hom K) :
    (|o.m.mul h.m 2 2| < t.nullDenom ∧ premul t o h = (.throw, h)) ∨
    (t.nullDenom ≤ |o.m.mul h.m 2 2| ∧ o.m.mul h.m 2 2 ≠ 0 ∧
      premul t o h = (.ok (), { h with m := (o.m.mul h.m).divAll (o.m.mul h.m 2 2), changed := true })) := by
  rcases mul_spec t ht o h with ⟨h1, h2⟩ | ⟨h1, h2, h3⟩
  · left; exact ⟨h1, by simp [premul, h2]⟩
  · right; exact ⟨h1, h2, by simp [premul, h3, assign]⟩

theorem premul_cache (t : Thr K) (ht : 0 < t.nullDenom) (o h : Hom K) (hc : CacheOk t h) : CacheOk t (premul t o h).2 := by
  rcases premul_spec t ht o h with ⟨-, h2⟩ | ⟨-, -, h3⟩
  · rw [h2]; exact hc
  · rw [h3]; exact cacheOk_changed rfl

theorem inverse_cache (t : Thr K) (ht : 0 < t.nullDenom) (hd : 0 < t.nullDeter) (h : Hom K) (hc : CacheOk t h) :
    CacheOk t (inverse t h).2 := by
  rcases inverse_spec t ht hd h with ⟨-, h2⟩ | ⟨-, -, h3⟩
  · rw [h2]; exact hc
  · rcases h3 with ⟨h4, h5⟩ | ⟨-, -, h5⟩
    · rw [h5]
      by_cases hch : h.changed = true
      · exact cacheOk_changed hch
      · -- the cached matrix could not have been computed
        exfalso
        obtain ⟨mi, -, h7⟩ := hc (by simpa using hch)
        simp only [invTransp] at h7
        rcases inverse_spec t ht hd h.copy with ⟨-, h8⟩ | ⟨-, -, h8⟩
        · rw [h8] at h7; simp at h7
        · rcases h8 with ⟨-, h9⟩ | ⟨h9, -, -⟩
          · rw [h9] at h7; simp at h7
          · exact absurd h4 (not_lt.2 h9)
    · rw [h5]; exact cacheOk_changed rfl

theorem exec_cache (t : Thr K) (ht : 0 < t.nullDenom) (hd : 0 < t.nullDeter) (h : Hom K) (hc : CacheOk t h) (op : HOp K)
    (hs : HOp.silent op = false) : CacheOk t (op.exec t h) := by
  cases op with
  | init => simp [HOp.silent] at hs
  | transpose => simp [HOp.silent] at hs
  | write r c v => simp [HOp.silent] at hs
  | setTranslation x y => exact cacheOk_changed rfl
  | setRotation x y => exact cacheOk_changed rfl
  | setScale x y => exact cacheOk_changed rfl
  | addTranslation x y => exact premul_cache t ht _ h hc
  | addRotation x y => exact premul_cache t ht _ h hc
  | addScale x y => exact premul_cache t ht _ h hc
  | assign o => exact cacheOk_changed rfl
  | inverse => exact inverse_cache t ht hd h hc
  | normalize => exact normalize_cache t ht h hc
  | cmpL o => simp only [HOp.exec, eq_fst]; exact normIfNeeded_cache t ht h hc
  | cmpR o =>
    simp only [HOp.exec]
    rcases eq_snd t o h with h1 | h1 <;> rw [h1]
    · exact hc
    · exact normIfNeeded_cache t ht h hc
  | appLine l =>
    simp only [HOp.exec]
    rcases appLineRaw_spec t h hc l with ⟨-, -, -, h4, -⟩ | ⟨mi, h1, h2⟩
    · exact cacheOk_changed h4
    · rw [h2]
      intro _
      exact ⟨mi, rfl, by rw [← h1]; exact invTransp_congr rfl⟩
  | appPt p => exact hc

theorem run_cache (t : Thr K) (ht : 0 < t.nullDenom) (hd : 0 < t.nullDeter) (ops : List (HOp K)) (h : Hom K) (hc : CacheOk t h)
    (hs : ∀ op ∈ ops, HOp.silent op = false) : CacheOk t (homRun t h ops) := by
  induction ops generalizing h with
  | nil => exact hc
  | cons op ops ih =>
    simp only [homRun, List.foldl_cons]
    exact ih _ (exec_cache t ht hd h hc op (hs op (by simp))) (fun o ho => hs o (by simp [ho]))

/-- Product with lines, for a container. -/
theorem appLines_spec (t : Thr K) (nrm : V3 K → Res (V3 K)) (h : Hom K) (hc : CacheOk t h) (ls vs : List (V3 K))
    (hr : (appLines t nrm h ls).1 = .ok vs) :
    List.Forall₂ (fun l v => ∃ w, (appLineRaw t h l).1 = .ok w ∧ nrm w = .ok v) ls vs := by
  induction ls generalizing h vs with
  | nil => simp [appLines] at hr; subst hr; exact .nil
  | cons l ls ih =>
    rcases appLineRaw_spec t h hc l with ⟨h0, h1, -, -, -⟩ | ⟨mi, h1, h2⟩
    · exfalso
      rcases he : appLineRaw t h l with ⟨r, h'⟩
      rw [he] at h1
      simp only at h1
      subst h1
      simp [appLines, he] at hr
    · simp only [appLines, h2] at hr
      rcases hn : nrm (mi.app l) with v' | _ | _
      · rw [hn] at hr
        simp only at hr
        rcases ha : appLines t nrm { h with hmt := some mi, changed := false } ls with ⟨r, h''⟩
        rw [ha] at hr
        rcases r with vs' | _ | _
        · simp only [Res.ok.injEq] at hr
          subst hr
          refine .cons ⟨_, by rw [h2], hn⟩ ?_
          have hc' : CacheOk t { h with hmt := some mi, changed := false } := by
            intro _; exact ⟨mi, rfl, by rw [← h1]; exact invTransp_congr rfl⟩
          have e : invTransp t { h with hmt := some mi, changed := false } = invTransp t h := invTransp_congr rfl
          have := ih _ hc' vs' (by rw [ha])
          refine this.imp ?_
          rintro l' v ⟨w, hw, hv⟩
          refine ⟨w, ?_, hv⟩
          rcases appLineRaw_spec t h hc l' with ⟨h3, -⟩ | ⟨mi', h3, h4⟩
          · rw [h1] at h3; cases h3
          · rw [h1] at h3; cases h3
            rw [h4]
            rcases appLineRaw_spec t _ hc' l' with ⟨h5, -⟩ | ⟨mi', h5, h6⟩
            · rw [e, h1] at h5; cases h5
            · rw [e, h1] at h5; cases h5
              rw [h6] at hw; exact hw
        · simp at hr
        · simp at hr
      · rw [hn] at hr; simp at hr
      · rw [hn] at hr; simp at hr

/-! ## The flag "normalised" -/

/-- Invariant: an object flagged as normalised has a 1 as last element. -/
def FlagOk (h : Hom K) : Prop := h.isNorm = true → h.m 2 2 = 1

theorem normalize_flag (t : Thr K) (ht : 0 < t.nullDenom) (h : Hom K) (hf : FlagOk h) : FlagOk (normalize t h).2 := by
  rcases normalize_spec t ht h with ⟨-, h2⟩ | ⟨-, h2, h3⟩
  · rw [h2]; exact hf
  · rw [h3]; intro _; exact divAll_22 _ h2

theorem normIfNeeded_flag (t : Thr K) (ht : 0 < t.nullDenom) (h : Hom K) (hf : FlagOk h) : FlagOk (normIfNeeded t h).2 := by
  simp only [normIfNeeded]; split_ifs
  · exact hf
  · exact normalize_flag t ht h hf

theorem premul_flag (t : Thr K) (ht : 0 < t.nullDenom) (o h : Hom K) (hf : FlagOk h) : FlagOk (premul t o h).2 := by
  rcases premul_spec t ht o h with ⟨-, h2⟩ | ⟨-, h2, h3⟩
  · rw [h2]; exact hf
  · rw [h3]; intro _; exact divAll_22 _ h2

theorem inverse_flag (t : Thr K) (ht : 0 < t.nullDenom) (hd : 0 < t.nullDeter) (h : Hom K) (hf : FlagOk h) :
    FlagOk (inverse t h).2 := by
  rcases inverse_spec t ht hd h with ⟨-, h2⟩ | ⟨-, -, h3⟩
  · rw [h2]; exact hf
  · rcases h3 with ⟨h4, h5⟩ | ⟨-, h4, h5⟩
    · rw [h5]; intro h; cases h
    · rw [h5]; intro _; exact divAll_22 _ h4

theorem refresh_m (t : Thr K) (h : Hom K) : (refresh t h).2.m = h.m ∧ (refresh t h).2.isNorm = h.isNorm := by
  simp only [refresh]
  rcases hh : h.hmt with _ | m0
  · simp only [if_true]; split <;> exact ⟨rfl, rfl⟩
  · simp only; split_ifs
    · split <;> exact ⟨rfl, rfl⟩
    · exact ⟨rfl, rfl⟩

theorem appLineRaw_m (t : Thr K) (h : Hom K) (l : V3 K) : (appLineRaw t h l).2.m = h.m ∧ (appLineRaw t h l).2.isNorm = h.isNorm := by
  have := refresh_m t h
  rcases hr : refresh t h with ⟨r, h'⟩
  rw [hr] at this
  simp only [appLineRaw, hr]
  rcases r with _ | _ | _ <;> exact this

theorem exec_flag (t : Thr K) (ht : 0 < t.nullDenom) (hd : 0 < t.nullDeter) (h : Hom K) (hf : FlagOk h) (op : HOp K)
    (hs : ¬ HOp.breaksFlag op) : FlagOk (op.exec t h) := by
  cases op with
  | init => intro _; simp [HOp.exec, Hom.init, Mat.eye]
  | transpose => intro h; simp [HOp.exec, Hom.transpose] at h
  | write r c v => simp [HOp.breaksFlag] at hs
  | setTranslation x y => intro _; simp [HOp.exec, setTranslation, Mat.translation]
  | setRotation x y => intro _; simp [HOp.exec, setRotation, Mat.rotation]
  | setScale x y => intro _; simp [HOp.exec, setScale, Mat.scale]
  | addTranslation x y => exact premul_flag t ht _ h hf
  | addRotation x y => exact premul_flag t ht _ h hf
  | addScale x y => exact premul_flag t ht _ h hf
  | assign o => intro _; simpa [HOp.breaksFlag, HOp.exec, Hom.assign] using hs
  | inverse => exact inverse_flag t ht hd h hf
  | normalize => exact normalize_flag t ht h hf
  | cmpL o => simp only [HOp.exec, eq_fst]; exact normIfNeeded_flag t ht h hf
  | cmpR o =>
    simp only [HOp.exec]
    rcases eq_snd t o h with h1 | h1 <;> rw [h1]
    · exact hf
    · exact normIfNeeded_flag t ht h hf
  | appLine l =>
    simp only [HOp.exec]
    obtain ⟨h1, h2⟩ := appLineRaw_m t h l
    intro h3; rw [h2] at h3; rw [h1]; exact hf h3
  | appPt p => exact hf

theorem run_flag (t : Thr K) (ht : 0 < t.nullDenom) (hd : 0 < t.nullDeter) (ops : List (HOp K)) (h : Hom K) (hf : FlagOk h)
    (hs : ∀ op ∈ ops, ¬ HOp.breaksFlag op) : FlagOk (homRun t h ops) := by
  induction ops generalizing h with
  | nil => exact hf
  | cons op ops ih =>
    simp only [homRun, List.foldl_cons]
    exact ih _ (exec_flag t ht hd h hf op (hs op (by simp))) (fun o ho => hs o (by simp [ho]))

theorem closeMat_iff (t : Thr K) (a b : Mat K) : closeMat t a b = true ↔ ∀ i j, |a i j - b i j| < t.nullDeter := by
  simp [closeMat, List.all_eq_true]

theorem normIfNeeded_spec (t : Thr K) (ht : 0 < t.nullDenom) (h1' : t.nullDenom ≤ 1) (h : Hom K) (hf : FlagOk h) :
    (|h.m 2 2| < t.nullDenom ∧ normIfNeeded t h = (.throw, h)) ∨
    (t.nullDenom ≤ |h.m 2 2| ∧ h.m 2 2 ≠ 0 ∧ ∃ h', normIfNeeded t h = (.ok (), h') ∧ h'.m = h.m.divAll (h.m 2 2)) := by
  simp only [normIfNeeded]
  by_cases hn : h.isNorm = true
  · right
    have := hf hn
    refine ⟨by rw [this, abs_one]; exact h1', by rw [this]; exact one_ne_zero, h, by simp [hn], ?_⟩
    funext i j; simp [Mat.divAll, this]
  · simp only [hn, Bool.false_eq_true, if_false]
    rcases normalize_spec t ht h with ⟨h1, h2⟩ | ⟨h1, h2, h3⟩
    · left; exact ⟨h1, h2⟩
    · right; exact ⟨h1, h2, _, h3, rfl⟩

end Hom

/-! ## Elementary transformations -/

/-- Matrix of an elementary transformation. -/
def elemMat : Elem K → Mat K
  | .translation tx ty => Mat.translation tx ty
  | .rotation c s => Mat.rotation c s
  | .scale kx ky => Mat.scale kx ky

theorem elem_add_eq (t : Thr K) (h : Hom K) (e : Elem K) : ∃ o : Hom K, o.m = elemMat e ∧ e.add t h = Hom.premul t o h := by
  cases e <;> exact ⟨_, rfl, rfl⟩

theorem elemMat_app (e : Elem K) (p : V3 K) (hp : IsFin p) : IsFin ((elemMat e).app p) ∧
    getXY ((elemMat e).app p) = e.act (getXY p) := by
  simp only [IsFin] at hp
  have h2 : (elemMat e).app p 2 = p 2 := by cases e <;> simp [elemMat, Mat.app, Mat.translation, Mat.rotation, Mat.scale]
  refine ⟨by simp only [IsFin, h2]; exact hp, ?_⟩
  simp only [getXY, h2]
  cases e <;> simp [elemMat, Mat.app, Mat.translation, Mat.rotation, Mat.scale, Elem.act] <;> constructor <;> field_simp
  ring

theorem elemMat_mul_22 (e : Elem K) (m : Mat K) : (elemMat e).mul m 2 2 = m 2 2 := by
  cases e <;> simp [elemMat, Mat.mul, Mat.translation, Mat.rotation, Mat.scale]

theorem divAll_sameLoc (m : Mat K) (k : K) (hk : k ≠ 0) (p : V3 K) : SameLoc (m.app p) ((m.divAll k).app p) := by
  rw [Mat.divAll_app]; exact ⟨1 / k, one_div_ne_zero hk, fun i => rfl⟩

end H2d
