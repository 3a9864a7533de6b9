import Verif.Lemmas.Colors
import Verif.Lemmas.Float

/-!
# C137: random colours
-/

namespace H2d.Props
open H2d H2d.Spec

variable {F : Arith} {u v : ℝ} {M : ℕ} {rand : ℕ → ℕ → ℕ}

/-- C137. Whatever `std::rand()` gives, with `0 ≤ minval < maxval ≤ 255` there are `nb` colours, each component between `minval` and `maxval`, without undefined conversion. -/
theorem C137_range (hF : FlOk F u v) (hrep : ∀ n : ℕ, n < 256 → Rep F n) (hM : 0 < M) (hr : ∀ s i, rand s i ≤ M) (time nb a b : ℕ) (hab : a < b) (hb : b ≤ 255) :
    ∃ l, Fl.genRandomColors F M rand time nb a b = .ok l ∧ l.length = nb ∧ ∀ c ∈ l, (a ≤ c.1 ∧ c.1 ≤ b) ∧ (a ≤ c.2.1 ∧ c.2.1 ≤ b) ∧ (a ≤ c.2.2 ∧ c.2.2 ≤ b) := by
  obtain ⟨l, e, h⟩ := Fl.colorLoop_ok hF hrep hM hab (by omega) (hr time) nb 0
  refine ⟨l, ?_, h⟩
  unfold Fl.genRandomColors
  rw [if_neg (by omega)]
  exact e

/-- `double` meets the hypotheses, with the default arguments. -/
example : FlOk (Fl.binary 53) ((2 : ℝ) ^ (- ((53 : ℕ) : ℤ))) ((2 : ℝ) ^ (- ((53 : ℕ) : ℤ))) ∧ (∀ n : ℕ, n < 256 → Rep (Fl.binary 53) n) ∧ (20 : ℕ) < 250 := by
  refine ⟨Fl.binary_ok (by norm_num), fun n hn => ?_, by norm_num⟩
  have := Fl.roundTo_int (p := 53) (by norm_num) (m := n) (by rw [abs_of_nonneg (by omega)]; omega)
  exact_mod_cast this

/-- C137. There is an exception exactly when `maxval ≤ minval`. -/
theorem C137_throw (time nb : ℕ) (a b : ℤ) : Fl.genRandomColors F M rand time nb a b = .throw ↔ b ≤ a := by
  unfold Fl.genRandomColors
  by_cases k : b ≤ a
  · rw [if_pos k]; exact ⟨fun _ => k, fun _ => rfl⟩
  · rw [if_neg k]; exact ⟨fun h => absurd h (Fl.colorLoop_no_throw M a b _ nb 0), fun h => absurd h k⟩

/-- C137. Two calls in the same second give the same colours: the shorter list is the beginning of the other one. -/
theorem C137_same_second (time n m : ℕ) (a b : ℤ) (l l' : List (ℕ × ℕ × ℕ)) (hnm : n ≤ m) (h : Fl.genRandomColors F M rand time n a b = .ok l)
    (h' : Fl.genRandomColors F M rand time m a b = .ok l') : l <+: l' := by
  unfold Fl.genRandomColors at h h'
  by_cases k : b ≤ a
  · rw [if_pos k] at h; cases h
  · rw [if_neg k] at h h'
    exact Fl.colorLoop_prefix n m 0 hnm h h'

/-- C137: the arguments are not checked. With a value above 255 or below 0 a conversion can be undefined: when `std::rand()` gives `RAND_MAX`, or 0. -/
theorem C137_sharp (hF : FlOk F u v) (h0 : Rep F 0) (h1 : Rep F 1) (hM : 0 < M) (time : ℕ) (a b : ℤ) (hab : a < b) (ha : Rep F a) (hb : Rep F b) (hd : Rep F (b - a)) :
    (256 ≤ b → rand time 0 = M → Fl.genRandomColors F M rand time 1 a b = .ub) ∧ (a < 0 → rand time 0 = 0 → Fl.genRandomColors F M rand time 1 a b = .ub) := by
  have r0 : F.rnd 0 = 0 := h0
  have r1 : F.rnd 1 = 1 := h1
  have ra : F.rnd (a : ℝ) = a := ha
  have rb : F.rnd (b : ℝ) = b := hb
  have rd : F.rnd ((b : ℝ) - a) = b - a := hd
  have pM : F.rnd (M : ℝ) ≠ 0 := by
    have k : (1 : ℝ) ≤ M := by exact_mod_cast hM
    have := hF.mono k
    rw [r1] at this
    linarith
  constructor
  · intro h256 hr
    refine Fl.gen_ub hab (Fl.comp_ub (n := b) (Or.inr h256) ?_)
    rw [hr, one_mul, hF.idem, div_self pM, r1, one_mul, hF.idem, rd, ra, sub_add_cancel, rb]
  · intro hneg hr
    refine Fl.gen_ub hab (Fl.comp_ub (n := a) (Or.inl hneg) ?_)
    rw [hr, one_mul, hF.idem, Nat.cast_zero, r0, zero_div, r0, zero_mul, r0, zero_add, hF.idem, ra]

/-- The hypotheses hold for `genRandomColors( 1, 20, 300 )` with `double`. -/
example : Rep (Fl.binary 53) 0 ∧ Rep (Fl.binary 53) 1 ∧ Rep (Fl.binary 53) ((20 : ℤ) : ℝ) ∧ Rep (Fl.binary 53) ((300 : ℤ) : ℝ) ∧ Rep (Fl.binary 53) (((300 : ℤ) : ℝ) - ((20 : ℤ) : ℝ)) := by
  have k : ∀ m : ℤ, |m| ≤ 300 → Rep (Fl.binary 53) (m : ℝ) := fun m hm => Fl.roundTo_int (by norm_num) (le_trans hm (by norm_num))
  refine ⟨by simpa using k 0 (by norm_num), by simpa using k 1 (by norm_num), k 20 (by norm_num), k 300 (by norm_num), ?_⟩
  rw [← Int.cast_sub]
  exact k _ (by norm_num)

end H2d.Props
