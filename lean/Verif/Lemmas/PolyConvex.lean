import Verif.Lemmas.PolyNorm
import Verif.Model.PolyReal
import Mathlib.Analysis.SpecialFunctions.Trigonometric.Bounds

set_option linter.unusedSectionVars false

namespace H2d

open H2d.Spec

section tri
variable {P : Type}

theorem drop_dropLast_eq_rotate (l : List P) : l.drop (l.length - 1) ++ l.dropLast = l.rotate (l.length - 1) := by
  rw [List.rotate_eq_drop_append_take (by omega), List.dropLast_eq_take]

theorem mem_cycTriples (l : List P) (a b c : P) : (a, b, c) ∈ cycTriples l ↔ ∃ i, Neighbours l i a b c := by
  rw [cycTriples, drop_dropLast_eq_rotate, tail_take_eq_rotate, List.mem_iff_getElem?]
  constructor
  · rintro ⟨i, hi⟩
    have hlt : i < l.length := by
      by_contra hc
      have : (((l.rotate (l.length - 1)).zip (l.zip (l.rotate 1)))[i]?) = none := by
        rw [List.getElem?_eq_none_iff]; simp; omega
      rw [this] at hi; cases hi
    rw [List.getElem?_zip_eq_some, List.getElem?_zip_eq_some, List.getElem?_rotate hlt, List.getElem?_rotate hlt] at hi
    refine ⟨i, hi.2.1, hi.2.2, ?_⟩
    rw [show i + l.length - 1 = i + (l.length - 1) by omega]
    exact hi.1
  · rintro ⟨i, h1, h2, h3⟩
    have hlt : i < l.length := (List.getElem?_eq_some_iff.1 h1).1
    refine ⟨i, ?_⟩
    rw [List.getElem?_zip_eq_some, List.getElem?_zip_eq_some, List.getElem?_rotate hlt, List.getElem?_rotate hlt]
    rw [show i + l.length - 1 = i + (l.length - 1) by omega] at h3
    exact ⟨h3, h1, h2⟩

theorem Neighbours.rotate {l : List P} {k i : Nat} {a b c : P} (h : Neighbours (l.rotate k) i a b c) :
    Neighbours l ((i + k) % l.length) a b c := by
  obtain ⟨h1, h2, h3⟩ := h
  have hlt : i < l.length := by simpa using (List.getElem?_eq_some_iff.1 h1).1
  have hp : 0 < l.length := by omega
  rw [List.length_rotate] at h2 h3
  rw [List.getElem?_rotate hlt] at h1
  rw [List.getElem?_rotate (Nat.mod_lt _ hp)] at h2 h3
  refine ⟨h1, ?_, ?_⟩
  · rw [Nat.mod_add_mod] at h2 ⊢
    rw [show i + k + 1 = i + 1 + k by omega]; exact h2
  · rw [Nat.mod_add_mod] at h3
    rw [Nat.add_sub_assoc hp, Nat.mod_add_mod, show i + k + (l.length - 1) = i + l.length - 1 + k by omega]; exact h3

theorem Neighbours.reverse {l : List P} {i : Nat} {a b c : P} (h : Neighbours l.reverse i a b c) :
    Neighbours l (l.length - 1 - i) c b a := by
  obtain ⟨h1, h2, h3⟩ := h
  have hlt : i < l.length := by simpa using (List.getElem?_eq_some_iff.1 h1).1
  have hp : 0 < l.length := by omega
  rw [List.length_reverse] at h2 h3
  rw [List.getElem?_reverse hlt] at h1
  rw [List.getElem?_reverse (Nat.mod_lt _ hp)] at h2 h3
  have eq1 : (i + 1) % l.length = if i + 1 = l.length then 0 else i + 1 := by
    split_ifs with hc
    · rw [hc, Nat.mod_self]
    · exact Nat.mod_eq_of_lt (by omega)
  have eq2 : (i + l.length - 1) % l.length = if i = 0 then l.length - 1 else i - 1 := by
    split_ifs with hc
    · rw [hc, Nat.zero_add]; exact Nat.mod_eq_of_lt (by omega)
    · rw [show i + l.length - 1 = i - 1 + l.length by omega, Nat.add_mod_right]; exact Nat.mod_eq_of_lt (by omega)
  have eq3 : (l.length - 1 - i + 1) % l.length = if i = 0 then 0 else l.length - i := by
    split_ifs with hc
    · rw [hc, show l.length - 1 - 0 + 1 = l.length by omega, Nat.mod_self]
    · rw [show l.length - 1 - i + 1 = l.length - i by omega]; exact Nat.mod_eq_of_lt (by omega)
  have eq4 : (l.length - 1 - i + l.length - 1) % l.length = if i + 1 = l.length then l.length - 1 else l.length - 2 - i := by
    split_ifs with hc
    · rw [show l.length - 1 - i + l.length - 1 = l.length - 1 by omega]; exact Nat.mod_eq_of_lt (by omega)
    · rw [show l.length - 1 - i + l.length - 1 = l.length - 2 - i + l.length by omega, Nat.add_mod_right]; exact Nat.mod_eq_of_lt (by omega)
  rw [eq1] at h2
  rw [eq2] at h3
  refine ⟨h1, ?_, ?_⟩
  · rw [eq3]
    split_ifs at h3 ⊢ with hc
    · rw [← h3]; congr 1; omega
    · rw [← h3]; congr 1; omega
  · rw [eq4]
    split_ifs at h2 ⊢ with hc
    · rw [← h2]; congr 1
    · rw [← h2]; congr 1; omega

end tri

section conv
variable {K : Type} [Field K] [LinearOrder K] [IsStrictOrderedRing K]

theorem convexLoop_sign (s : Int) (hs : s ≠ 0) (cs : List K) :
    convexLoop s cs = true ↔ ∀ c ∈ cs, s = if c > 0 then 1 else -1 := by
  induction cs with
  | nil => simp [convexLoop]
  | cons c cs ih =>
    rw [convexLoop, if_neg hs]
    by_cases h : s = if c > 0 then 1 else -1
    · rw [if_neg (by simpa using h), ih]
      constructor
      · intro hc x hx
        rcases List.mem_cons.1 hx with rfl | hx
        · exact h
        · exact hc x hx
      · intro hc x hx; exact hc x (List.mem_cons_of_mem _ hx)
    · rw [if_pos h]
      constructor
      · intro hc; cases hc
      · intro hc; exact absurd (hc c (by simp)) h

theorem convexLoop_zero (cs : List K) : convexLoop 0 cs = true ↔ (∀ c ∈ cs, 0 < c) ∨ (∀ c ∈ cs, c ≤ 0) := by
  cases cs with
  | nil => simp [convexLoop]
  | cons c cs =>
    rw [convexLoop, if_pos rfl]
    by_cases h : c > 0
    · rw [if_pos h, convexLoop_sign _ (by decide)]
      constructor
      · intro hc
        left
        intro x hx
        rcases List.mem_cons.1 hx with rfl | hx
        · exact h
        · have := hc x hx
          by_contra hn
          rw [if_neg hn] at this
          exact absurd this (by decide)
      · rintro (hc | hc) x hx
        · rw [if_pos (hc x (List.mem_cons_of_mem _ hx))]
        · exact absurd (hc c (by simp)) (not_le.2 h)
    · rw [if_neg h, convexLoop_sign _ (by decide)]
      constructor
      · intro hc
        right
        intro x hx
        rcases List.mem_cons.1 hx with rfl | hx
        · exact not_lt.1 h
        · have := hc x hx
          by_contra hn
          rw [if_pos (not_le.1 hn)] at this
          exact absurd this (by decide)
      · rintro (hc | hc) x hx
        · exact absurd (hc c (by simp)) h
        · rw [if_neg (not_lt.2 (hc x (List.mem_cons_of_mem _ hx)))]

theorem isConvex_iff (simple : Bool) (l : List (Pt K)) :
    isConvex simple l = true ↔ simple = true ∧ (l.length = 3 ∨
      (∀ i a b c, Neighbours l i a b c → 0 < turnAt a b c) ∨ (∀ i a b c, Neighbours l i a b c → turnAt a b c ≤ 0)) := by
  have hmem : ∀ Q : K → Prop, (∀ c ∈ (cycTriples l).map (fun t => crossAt t.1 t.2.1 t.2.2), Q c) ↔
      ∀ i a b c, Neighbours l i a b c → Q (turnAt a b c) := by
    intro Q
    constructor
    · intro h i a b c hn
      exact h _ (List.mem_map.2 ⟨(a, b, c), (mem_cycTriples l a b c).2 ⟨i, hn⟩, rfl⟩)
    · intro h c hc
      obtain ⟨⟨x, y, z⟩, ht, rfl⟩ := List.mem_map.1 hc
      obtain ⟨i, hi⟩ := (mem_cycTriples l x y z).1 ht
      exact h i x y z hi
  cases simple
  · simp [isConvex]
  · by_cases h3 : l.length = 3
    · simp [isConvex, h3]
    · simp only [isConvex, Bool.not_true, Bool.false_eq_true, if_false, h3, convexLoop_zero, true_and, false_or]
      rw [hmem (fun c => 0 < c), hmem (fun c => c ≤ 0)]

end conv

/-- Collinear neighbours at the vertex with the smallest coordinates are on the same side. -/
theorem turnsBack_of_min {K : Type} [Field K] [LinearOrder K] [IsStrictOrderedRing K] (l : List (Pt K)) (hd : l.Nodup) (h3 : 3 ≤ l.length)
    (i : Nat) (a b c : Pt K) (hn : Neighbours l i a b c) (hm : ∀ q ∈ l, ¬ LexLt q b) (hcol : Collinear3 a b c) : TurnsBack a b c := by
  obtain ⟨h1, h2, h3'⟩ := hn
  have hlt : i < l.length := (List.getElem?_eq_some_iff.1 h1).1
  have hne : ∀ j x, j ≠ i → l[j]? = some x → x ≠ b := by
    rintro j x hj hx rfl
    obtain ⟨hj', hx⟩ := List.getElem?_eq_some_iff.1 hx
    obtain ⟨hi', hb⟩ := List.getElem?_eq_some_iff.1 h1
    exact hj ((List.Nodup.getElem_inj_iff hd).1 (hx.trans hb.symm))
  have e1 : (i + 1) % l.length ≠ i := by
    by_cases hc : i + 1 = l.length
    · rw [hc, Nat.mod_self]; omega
    · rw [Nat.mod_eq_of_lt (by omega)]; omega
  have e2 : (i + l.length - 1) % l.length ≠ i := by
    by_cases hc : i = 0
    · rw [hc, Nat.zero_add, Nat.mod_eq_of_lt (by omega)]; omega
    · rw [show i + l.length - 1 = i - 1 + l.length by omega, Nat.add_mod_right, Nat.mod_eq_of_lt (by omega)]; omega
  have hcb := hne _ c e1 h2
  have hab := hne _ a e2 h3'
  have hpos : ∀ x, x ∈ l → x ≠ b → b.1 < x.1 ∨ (b.1 = x.1 ∧ b.2 < x.2) := by
    intro x hx hxb
    have := hm x hx
    simp only [LexLt] at this
    rcases lt_trichotomy b.1 x.1 with h | h | h
    · exact Or.inl h
    · refine Or.inr ⟨h, ?_⟩
      rcases lt_trichotomy b.2 x.2 with h' | h' | h'
      · exact h'
      · exact absurd (Prod.ext h.symm h'.symm) hxb
      · exact absurd (Or.inr ⟨h.symm, h'⟩) this
    · exact absurd (Or.inl h) this
  have pa := hpos a (List.mem_of_getElem? h3') hab
  have pc := hpos c (List.mem_of_getElem? h2) hcb
  simp only [Collinear3] at hcol
  have hx : (a.1 - b.1) * (c.2 - b.2) = (a.2 - b.2) * (c.1 - b.1) := by linarith
  rcases pa with pa | ⟨pa1, pa2⟩
  · have ha : 0 < a.1 - b.1 := by linarith
    rcases pc with pc | ⟨pc1, pc2⟩
    · have hc : 0 < c.1 - b.1 := by linarith
      refine ⟨(c.1 - b.1) / (a.1 - b.1), div_pos hc ha, by field_simp, ?_⟩
      rw [div_mul_eq_mul_div, eq_div_iff ha.ne']
      linarith
    · have : (a.1 - b.1) * (c.2 - b.2) = 0 := by rw [hx, ← pc1]; ring
      have := mul_pos ha (show 0 < c.2 - b.2 by linarith)
      linarith
  · have ha : 0 < a.2 - b.2 := by linarith
    have h0 : (a.2 - b.2) * (c.1 - b.1) = 0 := by rw [← hx, ← pa1]; ring
    have h0 : c.1 - b.1 = 0 := by
      rcases mul_eq_zero.1 h0 with h | h
      · linarith
      · exact h
    rcases pc with pc | ⟨pc1, pc2⟩
    · linarith
    · refine ⟨(c.2 - b.2) / (a.2 - b.2), div_pos (by linarith) ha, ?_, by field_simp⟩
      rw [h0, ← pa1]; ring

/-! ### minimize -/

section mini
variable {P : Type}

theorem addPoints_ok (same : P → P → Bool) (l acc r : List P) (h : addPoints same acc l = .ok r) : r = acc.reverse ++ l := by
  induction l generalizing acc with
  | nil => cases acc <;> simp [addPoints] at h <;> simp [h]
  | cons p ps ih =>
    cases acc with
    | nil => have := ih [p] (by simpa [addPoints] using h); simpa using this
    | cons b acc =>
      rw [addPoints] at h
      split_ifs at h with hs
      have := ih (p :: b :: acc) h
      simpa using this

theorem addPoints_not_ub (same : P → P → Bool) (l acc : List P) : addPoints same acc l ≠ .ub := by
  induction l generalizing acc with
  | nil => cases acc <;> simp [addPoints]
  | cons p ps ih =>
    cases acc with
    | nil => rw [addPoints]; exact ih _
    | cons b acc =>
      rw [addPoints]
      split_ifs
      · simp
      · exact ih _

theorem dropMarked_eq (l : List P) : ∀ (i : Nat) (marks : List Nat), marks.Pairwise (· < ·) → (∀ k ∈ marks, i ≤ k) →
    (dropMarked i marks l).map some = ((List.range' i l.length).filter (fun j => j ∉ marks)).map (fun j => l[j - i]?) := by
  induction l with
  | nil => intro i marks _ _; cases marks <;> simp [dropMarked]
  | cons p ps ih =>
    intro i marks hp hge
    have hshift : ∀ m : List Nat, ((List.range' (i+1) ps.length).filter (fun j => j ∉ m)).map (fun j => (p :: ps)[j - i]?) =
        ((List.range' (i+1) ps.length).filter (fun j => j ∉ m)).map (fun j => ps[j - (i+1)]?) := by
      intro m
      apply List.map_congr_left
      intro j hj
      have : i + 1 ≤ j := by have := List.mem_of_mem_filter hj; rw [List.mem_range'_1] at this; exact this.1
      rw [show j - i = (j - (i+1)) + 1 by omega, List.getElem?_cons_succ]
    rw [List.length_cons, List.range'_succ]
    cases marks with
    | nil =>
      have := ih (i+1) [] List.Pairwise.nil (by simp)
      rw [dropMarked, List.map_cons, this, ← hshift]
      simp
    | cons k ks =>
      rw [dropMarked]
      by_cases hk : k = i
      · subst hk
        have hks : ∀ x ∈ ks, k + 1 ≤ x := fun x hx => List.rel_of_pairwise_cons hp hx
        rw [if_neg (by simp), ih (k+1) ks hp.of_cons hks, ← hshift, List.filter_cons_of_neg (by simp)]
        congr 1
        apply List.filter_congr
        intro j hj
        rw [List.mem_range'_1] at hj
        have : j ≠ k := by omega
        simp [this]
      · have hki : i < k := lt_of_le_of_ne (hge k (by simp)) (Ne.symm hk)
        have hall : ∀ x ∈ k :: ks, i + 1 ≤ x := by
          intro x hx
          rcases List.mem_cons.1 hx with rfl | hx
          · omega
          · have := List.rel_of_pairwise_cons hp hx; omega
        have hnot : i ∉ k :: ks := fun hm => by have := hall i hm; omega
        rw [if_pos hk, List.map_cons, ih (i+1) (k :: ks) hp hall, ← hshift, List.filter_cons_of_pos (by simpa using hnot)]
        simp

theorem minimizeMark_sorted (mid : P → P → P → Bool) (l : List P) (s e : Nat) : (minimizeMark mid l s e).Pairwise (· < ·) :=
  (List.pairwise_lt_range' (s := s) (n := e - s)).filter _

theorem mem_minimizeMark (mid : P → P → P → Bool) (l : List P) (s e i : Nat) (he : e ≤ l.length) :
    i ∈ minimizeMark mid l s e ↔ s ≤ i ∧ i < e ∧ ∃ a b c, Neighbours l i a b c ∧ mid a b c = true := by
  rw [minimizeMark, List.mem_filter, List.mem_range'_1]
  by_cases hs : s ≤ i ∧ i < e
  · have hlt : i < l.length := by omega
    have e1 : (i + 1) % l.length = if i = l.length - 1 then 0 else i + 1 := by
      split_ifs with hc
      · rw [show i + 1 = l.length by omega, Nat.mod_self]
      · exact Nat.mod_eq_of_lt (by omega)
    have e2 : (i + l.length - 1) % l.length = if i = 0 then l.length - 1 else i - 1 := by
      split_ifs with hc
      · rw [hc, Nat.zero_add]; exact Nat.mod_eq_of_lt (by omega)
      · rw [show i + l.length - 1 = i - 1 + l.length by omega, Nat.add_mod_right]; exact Nat.mod_eq_of_lt (by omega)
    have hp : (if i = 0 then l.length - 1 else i - 1) < l.length := by split_ifs <;> omega
    have hn : (if i = l.length - 1 then 0 else i + 1) < l.length := by split_ifs <;> omega
    simp only [Neighbours, e1, e2]
    rw [List.getElem?_eq_getElem hp, List.getElem?_eq_getElem hlt, List.getElem?_eq_getElem hn]
    constructor
    · rintro ⟨_, h⟩
      exact ⟨hs.1, hs.2, _, _, _, ⟨rfl, rfl, rfl⟩, h⟩
    · rintro ⟨_, _, a, b, c, ⟨h1, h2, h3⟩, h⟩
      refine ⟨by omega, ?_⟩
      simp only [Option.some_inj] at h1 h2 h3
      simp only [h1, h2, h3, h]
  · constructor
    · rintro ⟨⟨h1, h2⟩, -⟩; omega
    · rintro ⟨h1, h2, -⟩; omega

end mini

/-! ### the angle test -/

theorem sameAngle_of_sameDirection (thr : ℝ) (h : 0 < thr) (a b c : Pt ℝ) (hd : SameDirection a b c) : sameAngle thr a b c = true := by
  obtain ⟨k, hk, h1, h2⟩ := hd
  have : atan2 (c.1 - b.1) (c.2 - b.2) = atan2 (b.1 - a.1) (b.2 - a.2) := by
    rw [atan2, atan2, h1, h2]
    have : (⟨k * (b.2 - a.2), k * (b.1 - a.1)⟩ : ℂ) = (k : ℂ) * ⟨b.2 - a.2, b.1 - a.1⟩ := by
      apply Complex.ext <;> simp
    rw [this, Complex.arg_real_mul _ hk]
  simp [sameAngle, this, h]

/-- For `0 < y`, `0 < x` the angle is below `y/x`. -/
theorem atan2_lt (x y : ℝ) (hx : 0 < x) (hy : 0 < y) : 0 < atan2 y x ∧ atan2 y x < y / x := by
  have h1 : Complex.arg ⟨x, y⟩ < Real.pi / 2 := (abs_lt.1 (Complex.abs_arg_lt_pi_div_two_iff.2 (Or.inl hx))).2
  have h0 : 0 < Complex.arg ⟨x, y⟩ := by
    rcases lt_or_eq_of_le (Complex.arg_nonneg_iff.2 (show 0 ≤ (⟨x, y⟩ : ℂ).im from hy.le)) with h | h
    · exact h
    · have := (Complex.arg_eq_zero_iff.1 h.symm).2
      simp at this; linarith
  have := Real.lt_tan h0 h1
  rw [Complex.tan_arg] at this
  exact ⟨h0, this⟩

theorem atan2_zero (x : ℝ) (hx : 0 ≤ x) : atan2 0 x = 0 := by
  rw [atan2, Complex.arg_eq_zero_iff]; exact ⟨hx, rfl⟩

end H2d
