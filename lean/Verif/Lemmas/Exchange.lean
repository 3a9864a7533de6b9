import Verif.Spec.Exchange
import Verif.Lemmas.Homogr
import Mathlib.Tactic.FinCases
import Mathlib.Tactic.Linarith

/-! # Lemmas on data exchanged with other libraries -/

namespace H2d

open Spec

variable {K : Type} [Field K] [LinearOrder K]

theorem fillMat_nine (m : Mat K) {l : List K} (hl : l.length = 9) (i j : Fin 3) : l[3 * i.val + j.val]? = some (fillMat m 0 l i j) := by
  obtain ⟨a, b, c, d, e, f, g, h, k, rfl⟩ : ∃ a b c d e f g h k, l = [a, b, c, d, e, f, g, h, k] := by
    match l, hl with
    | [a, b, c, d, e, f, g, h, k], _ => exact ⟨a, b, c, d, e, f, g, h, k, rfl⟩
  fin_cases i <;> fin_cases j <;> simp [fillMat, Mat.write, Fin.ofNat, Fin.ext_iff]

theorem assignCv_ok (h : Hom K) {m : CvMat K} (hm : CvMat.Holds m) : h.assignCv m = (.ok (), { h with m := fillMat h.m 0 m.data }) := by
  obtain ⟨h1, h2, h3, h4⟩ := hm
  unfold Hom.assignCv
  rw [if_neg (by simp [h1, h2]), if_neg (by simp [h3]), if_neg (by rcases h4 with e | e <;> simp [e])]

theorem assignCv_throw (h : Hom K) {m : CvMat K} (hm : ¬ CvMat.Holds m) : h.assignCv m = (.throw, h) := by
  unfold Hom.assignCv
  split
  · rfl
  · split
    · rfl
    · split
      · rfl
      · rename_i h1 h2 h3
        exact absurd ⟨by tauto, by tauto, by tauto, by tauto⟩ hm

theorem copyTo_ok (r32 : K → K) (h : Hom K) (m0 : CvMat K) {ty : CvType} (ht : ty = .f64 ∨ ty = .f32) :
    ∃ m, h.copyTo r32 m0 ty = (.ok (), m) ∧ CvMat.Holds m ∧ m.type = ty ∧ CvMat.Ok m ∧ ∀ i j : Fin 3, CvMat.at m i j = some (ty.store r32 (h.m i j)) := by
  refine ⟨_, if_neg (by rcases ht with e | e <;> simp [e]), ⟨rfl, rfl, rfl, ht⟩, rfl, by simp [CvMat.Ok], fun i j => ?_⟩
  fin_cases i <;> fin_cases j <;> simp [CvMat.at, Fin.ofNat] <;> rfl

theorem holds_length {m : CvMat K} (hm : CvMat.Holds m) (ho : CvMat.Ok m) : m.data.length = 9 := by
  obtain ⟨h1, h2, h3, -⟩ := hm
  rw [ho, h1, h2, h3]

theorem assignCv_at (h : Hom K) {m : CvMat K} (hm : CvMat.Holds m) (ho : CvMat.Ok m) (i j : Fin 3) : CvMat.at m i j = some ((h.assignCv m).2.m i j) := by
  rw [assignCv_ok h hm]
  have := fillMat_nine h.m (holds_length hm ho) i j
  unfold CvMat.at
  rw [hm.2.1, mul_comm]
  exact this

theorem toInt_ok {x : ℝ} {n : ℤ} (h : toInt x = .ok n) : |(n : ℝ)| ≤ |x| ∧ |(n : ℝ) - x| < 1 ∧ 0 ≤ (n : ℝ) * x := by
  have key : ∀ {m : ℤ}, (if -2 ^ 31 ≤ m ∧ m < 2 ^ 31 then Res.ok m else .ub) = .ok n → n = m := by
    intro m h
    split at h
    · simp only [Res.ok.injEq] at h; exact h.symm
    · cases h
  by_cases hx : 0 ≤ x
  · rw [toInt, if_pos hx] at h
    rw [key h]
    have h1 := Int.floor_le x
    have h2 := Int.lt_floor_add_one x
    have h3 : (0 : ℝ) ≤ (⌊x⌋ : ℝ) := by exact_mod_cast Int.floor_nonneg.2 hx
    rw [abs_of_nonneg h3, abs_of_nonneg hx, abs_lt]
    exact ⟨h1, ⟨by linarith, by linarith⟩, mul_nonneg h3 hx⟩
  · rw [toInt, if_neg hx] at h
    rw [key h]
    rw [not_le] at hx
    have h1 := Int.le_ceil x
    have h2 := Int.ceil_lt_add_one x
    have h3 : (⌈x⌉ : ℝ) ≤ 0 := by exact_mod_cast Int.ceil_le.2 (by simpa using hx.le)
    rw [abs_of_nonpos h3, abs_of_neg hx, abs_lt]
    exact ⟨by linarith, ⟨by linarith, by linarith⟩, mul_nonneg_of_nonpos_of_nonpos h3 hx.le⟩

theorem toInt_int {n : ℤ} (h1 : -2 ^ 31 ≤ n) (h2 : n < 2 ^ 31) : toInt n = .ok n := by
  unfold toInt
  simp only [Int.floor_intCast, Int.ceil_intCast, ite_self]
  rw [if_pos ⟨h1, h2⟩]

theorem roundsHalf_int {f : ℝ → ℤ} (hf : RoundsHalf f) (n : ℤ) : f n = n := by
  have := hf n
  rw [← Int.cast_sub, ← Int.cast_abs] at this
  have h2 : ((|f n - n| : ℤ) : ℝ) < 1 := by linarith
  have h3 : |f n - n| < 1 := by exact_mod_cast h2
  have := Int.abs_lt_one_iff.1 h3
  omega

end H2d
