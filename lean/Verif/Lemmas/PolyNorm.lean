import Verif.Lemmas.Polyline

set_option linter.unusedSectionVars false

namespace H2d

open H2d.Spec

section order
variable {K : Type} [LinearOrder K]

theorem ptLt_iff (p q : Pt K) : ptLt p q = true ↔ LexLt p q := by
  simp only [ptLt, LexLt]
  split_ifs <;> simp <;> grind

theorem ptLt_swo : IsSWO (ptLt (K := K)) := by
  refine ⟨?_, ?_, ?_⟩
  · intro a; simp [ptLt]
  · intro a b c h1 h2
    rw [ptLt_iff] at *
    simp only [LexLt] at *; grind
  · intro a b c h1 h2
    have h2' : ¬ LexLt b c := by rw [← ptLt_iff]; simpa using h2
    rw [ptLt_iff] at h1 ⊢
    simp only [LexLt] at *; grind

theorem ptLt_total {p q : Pt K} (h1 : ptLt p q = false) (h2 : ptLt q p = false) : p = q := by
  have h1' : ¬ LexLt p q := by rw [← ptLt_iff]; simpa using h1
  have h2' : ¬ LexLt q p := by rw [← ptLt_iff]; simpa using h2
  simp only [LexLt] at *
  ext <;> grind

theorem minIdx_spec (l : List (Pt K)) (hne : l ≠ []) :
    ∃ m, l[minIdx l]? = some m ∧ ∀ q ∈ l, ptLt q m = false := by
  match l, hne with
  | x :: xs, _ =>
    obtain ⟨p, k, h1, h2, h3, -⟩ := minElemLoop_cons (ptLt_swo (K := K)) x xs
    exact ⟨p, by simp [minIdx, h1, h2], h3⟩

theorem rotateToMin_rot (l : List (Pt K)) : ∃ k, rotateToMin l = l.rotate k := by
  by_cases hne : l = []
  · subst hne; exact ⟨0, by simp [rotateToMin, stdRotate]⟩
  · obtain ⟨m, hm, -⟩ := minIdx_spec l hne
    exact ⟨_, stdRotate_eq _ _ (List.getElem?_eq_some_iff.1 hm).1.le⟩

theorem rotateToMin_head (l : List (Pt K)) (hne : l ≠ []) :
    ∃ m, (rotateToMin l)[0]? = some m ∧ m ∈ l ∧ ∀ q ∈ l, ptLt q m = false := by
  obtain ⟨m, hm, hmin⟩ := minIdx_spec l hne
  have hlt := (List.getElem?_eq_some_iff.1 hm).1
  refine ⟨m, ?_, List.mem_of_getElem? hm, hmin⟩
  rw [rotateToMin, stdRotate_eq _ _ hlt.le, List.getElem?_rotate (by omega), Nat.zero_add, Nat.mod_eq_of_lt hlt, hm]

theorem rotate_eq_of_head {P : Type} (l : List P) (hd : l.Nodup) (k : Nat) (h : (l.rotate k)[0]? = l[0]?) : l.rotate k = l := by
  by_cases hne : l.length = 0
  · have : l = [] := List.length_eq_zero_iff.1 hne
    subst this; simp
  · have hpos : 0 < l.length := by omega
    rw [List.getElem?_rotate (by omega), Nat.zero_add] at h
    have hk : k % l.length < l.length := Nat.mod_lt _ hpos
    rw [List.getElem?_eq_getElem hk, List.getElem?_eq_getElem hpos] at h
    have := (List.Nodup.getElem_inj_iff hd).1 (Option.some_inj.1 h)
    rw [← List.rotate_mod, this, List.rotate_zero]

/-- The normal form does not depend on the starting vertex when all vertices are different. -/
theorem rotateToMin_rotate (l : List (Pt K)) (hd : l.Nodup) (k : Nat) : rotateToMin (l.rotate k) = rotateToMin l := by
  by_cases hne : l = []
  · subst hne; simp
  · obtain ⟨a, ha⟩ := rotateToMin_rot l
    obtain ⟨b, hb⟩ := rotateToMin_rot (l.rotate k)
    obtain ⟨m, hm1, hm2, hm3⟩ := rotateToMin_head l hne
    obtain ⟨m', hm1', hm2', hm3'⟩ := rotateToMin_head (l.rotate k) (by simpa using hne)
    have hmm : m = m' := ptLt_total (hm3' m (by simpa using hm2)) (hm3 m' (by simpa using hm2'))
    subst hmm
    have hd' : (rotateToMin l).Nodup := by rw [ha]; simpa using hd
    -- both are rotations of `rotateToMin l`
    have : ∃ c, rotateToMin (l.rotate k) = (rotateToMin l).rotate c := by
      refine ⟨l.length * a - a + (k + b), ?_⟩
      rw [ha, hb, List.rotate_rotate, List.rotate_rotate]
      have hl : 0 < l.length := List.length_pos_iff.2 hne
      have : a ≤ l.length * a := Nat.le_mul_of_pos_left a hl
      have e : a + (l.length * a - a + (k + b)) = l.length * a + (k + b) := by omega
      rw [e, ← List.rotate_rotate l (l.length * a), List.rotate_length_mul]
    obtain ⟨c, hc⟩ := this
    rw [hc]
    exact rotate_eq_of_head _ hd' c (by rw [← hc, hm1, hm1'])

theorem rotateToMin_fix (l : List (Pt K)) (hd : l.Nodup) : rotateToMin (rotateToMin l) = rotateToMin l := by
  obtain ⟨k, hk⟩ := rotateToMin_rot l
  conv_lhs => rw [hk]
  rw [rotateToMin_rotate _ hd]

/-- A list that already begins with its smallest point is not changed. -/
theorem rotateToMin_of_head (l : List (Pt K)) (hd : l.Nodup) (m : Pt K) (h0 : l[0]? = some m) (hm : ∀ q ∈ l, ptLt q m = false) :
    rotateToMin l = l := by
  have hne : l ≠ [] := by rintro rfl; simp at h0
  obtain ⟨k, hk⟩ := rotateToMin_rot l
  obtain ⟨m', h1, h2, h3⟩ := rotateToMin_head l hne
  have : m = m' := ptLt_total (h3 m (List.mem_of_getElem? h0)) (hm m' h2)
  subst this
  rw [hk]
  exact rotate_eq_of_head _ hd k (by rw [← hk, h1, h0])

end order

section norm
variable {K : Type} [Field K] [LinearOrder K] [IsStrictOrderedRing K]

theorem sameCycle_rotate {P : Type} (l : List P) (k : Nat) : SameCycle l (l.rotate k) := ⟨k, Or.inl rfl⟩

theorem sameCycle_refl {P : Type} (l : List P) : SameCycle l l := ⟨0, by simp⟩

theorem isRotated_rev {P : Type} {l l' : List P} (h : l ~r l'.reverse) : SameCycle l' l := by
  obtain ⟨n, hn⟩ := h.symm
  exact ⟨n, Or.inr hn.symm⟩

theorem sameCycle_rev_rotate {P : Type} (l : List P) (a b : Nat) : SameCycle l ((l.rotate a).reverse.rotate b) :=
  isRotated_rev (((List.IsRotated.forall _ b).trans (List.IsRotated.forall l a).reverse))

theorem rotateToMin_isRotated (l : List (Pt K)) : rotateToMin l ~r l := by
  obtain ⟨k, hk⟩ := rotateToMin_rot l
  rw [hk]; exact List.IsRotated.forall l k

theorem rotateToMin_congr {l l' : List (Pt K)} (hd : l.Nodup) (h : l ~r l') : rotateToMin l' = rotateToMin l := by
  obtain ⟨n, hn⟩ := h
  rw [← hn, rotateToMin_rotate _ hd]

/-- `normalizePoly` on a closed polyline with two points or more. -/
theorem normalizePoly_closed (l : List (Pt K)) (h2 : 2 ≤ l.length) :
    ∃ b a rest, rotateToMin l = b :: a :: rest ∧
      normalizePoly true l = .ok (if orientDet a b (rest.getLastD a) < 0 then rotateToMin (b :: a :: rest).reverse else b :: a :: rest) := by
  obtain ⟨k, hk⟩ := rotateToMin_rot l
  have hlen : (rotateToMin l).length = l.length := by rw [hk]; simp
  match l, h2 with
  | p :: ps, h2 =>
    match hv : rotateToMin (p :: ps), hlen with
    | [], hl => simp at hl
    | [x], hl => simp at hl; subst hl; simp at h2
    | b :: a :: rest, _ =>
      refine ⟨b, a, rest, rfl, ?_⟩
      simp only [normalizePoly, if_true, hv]
      split_ifs <;> rfl

theorem normalizePoly_cycle (l l' : List (Pt K)) (h : normalizePoly true l = .ok l') : SameCycle l l' := by
  by_cases h2 : 2 ≤ l.length
  · obtain ⟨b, a, rest, e1, e2⟩ := normalizePoly_closed l h2
    obtain ⟨k, hk⟩ := rotateToMin_rot l
    rw [e2] at h
    injection h with h
    rw [← e1] at h
    split_ifs at h with hc
    · obtain ⟨c, hc⟩ := rotateToMin_rot (rotateToMin l).reverse
      rw [← h, hc, hk]
      exact sameCycle_rev_rotate l k c
    · rw [← h, hk]; exact sameCycle_rotate l k
  · match l with
    | [] => simp [normalizePoly] at h; subst h; exact sameCycle_refl _
    | [x] => simp [normalizePoly, rotateToMin, stdRotate, minIdx, minElemLoop] at h
    | _ :: _ :: _ => simp at h2

theorem normalizePoly_rotate (l : List (Pt K)) (hd : l.Nodup) (h2 : 2 ≤ l.length) (k : Nat) :
    normalizePoly true (l.rotate k) = normalizePoly true l := by
  obtain ⟨b, a, rest, e1, e2⟩ := normalizePoly_closed l h2
  obtain ⟨b', a', rest', e1', e2'⟩ := normalizePoly_closed (l.rotate k) (by simpa using h2)
  rw [rotateToMin_rotate _ hd, e1] at e1'
  injection e1' with h1 h2
  injection h2 with h2 h3
  subst h1 h2 h3
  rw [e2, e2']

theorem orientDet_swap (a b c : Pt K) : orientDet c b a = - orientDet a b c := by
  simp only [orientDet]; ring

theorem orientDet_zero_iff (a b c : Pt K) : orientDet a b c = 0 ↔ Collinear3 a b c := by
  simp only [orientDet, Collinear3, sub_eq_zero]

theorem reverse_shape (b a : Pt K) (rest : List (Pt K)) (hrest : rest ≠ []) :
    ∃ mid, rest = mid ++ [rest.getLastD a] ∧ (b :: a :: rest).reverse.rotate (rest.length + 1) = b :: rest.getLastD a :: (mid.reverse ++ [a]) := by
  refine ⟨rest.dropLast, ?_, ?_⟩
  · rw [List.getLastD_eq_getLast?, List.getLast?_eq_getLast_of_ne_nil hrest]
    simp [List.dropLast_append_getLast hrest]
  · have h1 : (b :: a :: rest).reverse = (rest.reverse ++ [a]) ++ [b] := by simp
    have h2 : (rest.reverse ++ [a]).length = rest.length + 1 := by simp
    rw [h1, ← h2, List.rotate_append_length_eq]
    have h3 : rest.reverse = rest.getLastD a :: rest.dropLast.reverse := by
      rw [List.getLastD_eq_getLast?, List.getLast?_eq_getLast_of_ne_nil hrest]
      conv_lhs => rw [← List.dropLast_append_getLast hrest]
      simp
    rw [h3]; simp

/-- The vertex with the smallest coordinates of `rotateToMin l`, with its neighbours in `l`. -/
theorem neighbours_min (l rest : List (Pt K)) (b a : Pt K) (e : rotateToMin l = b :: a :: rest) :
    ∃ i, Neighbours l i (rest.getLastD a) b a ∧ ∀ q ∈ l, ¬ LexLt q b := by
  obtain ⟨k, hk⟩ := rotateToMin_rot l
  have hlen : l.length = rest.length + 2 := by
    have : (rotateToMin l).length = l.length := by rw [hk]; simp
    rw [e] at this; simpa using this.symm
  have hlp : 0 < l.length := by omega
  have hget : ∀ j, j < l.length → ∀ x, (b :: a :: rest)[j]? = some x → l[(j + k) % l.length]? = some x := by
    intro j hj x hx
    rw [← e, hk, List.getElem?_rotate hj] at hx
    exact hx
  have hx1 : l[(0 + k) % l.length]? = some b := hget 0 hlp b (by simp)
  have hx2 : l[(1 + k) % l.length]? = some a := hget 1 (by omega) a (by simp)
  have hx3 : l[(l.length - 1 + k) % l.length]? = some (rest.getLastD a) := by
    refine hget (l.length - 1) (by omega) _ ?_
    rw [show l.length - 1 = rest.length + 1 by omega]
    cases rest with
    | nil => simp
    | cons r rs => simp [List.getLastD_eq_getLast?, List.getLast?_eq_getElem?]
  refine ⟨k % l.length, ⟨by simpa using hx1, ?_, ?_⟩, ?_⟩
  · rw [Nat.mod_add_mod, Nat.add_comm k 1]; exact hx2
  · have : (k % l.length + l.length - 1) % l.length = (l.length - 1 + k) % l.length := by
      rw [Nat.add_sub_assoc hlp, Nat.mod_add_mod, Nat.add_comm]
    rw [this]; exact hx3
  · obtain ⟨m, hm0, hml, hm⟩ := rotateToMin_head l (by rintro rfl; simp at hlp)
    rw [e] at hm0
    simp at hm0
    subst hm0
    intro q hq hlt
    have := hm q hq
    rw [← Bool.not_eq_true, ptLt_iff] at this
    exact this hlt

/-- The normal form of the reversed sequence, when the vertex with the smallest coordinates is a real corner. -/
theorem normalizePoly_reverse (l : List (Pt K)) (hd : l.Nodup) (h2 : 2 ≤ l.length)
    (hc : 3 ≤ l.length → ∀ i a b c, Neighbours l i a b c → (∀ q ∈ l, ¬ LexLt q b) → ¬ Collinear3 a b c) :
    normalizePoly true l.reverse = normalizePoly true l := by
  obtain ⟨b, a, rest, e1, e2⟩ := normalizePoly_closed l h2
  have hrot : (b :: a :: rest) ~r l := by rw [← e1]; exact rotateToMin_isRotated l
  have hdv : (b :: a :: rest).Nodup := hrot.nodup_iff.2 hd
  have hlen : l.length = rest.length + 2 := by
    have := hrot.perm.length_eq
    simpa using this.symm
  by_cases hrest : rest = []
  · -- two points
    subst hrest
    obtain ⟨k', hk'⟩ : ∃ k, l.reverse = l.rotate k := by
      match l, hlen with
      | [x, y], _ => exact ⟨1, by simp⟩
    rw [hk', normalizePoly_rotate l hd h2]
  · obtain ⟨i, hN, hmin⟩ := neighbours_min l rest b a e1
    have hne : orientDet a b (rest.getLastD a) ≠ 0 := by
      rw [Ne, orientDet_zero_iff]
      have := hc (by have := List.length_pos_iff.2 hrest; omega) _ _ _ _ hN hmin
      intro hcol
      apply this
      simp only [Collinear3] at hcol ⊢
      linarith
    obtain ⟨mid, hmid, hrev⟩ := reverse_shape b a rest hrest
    have hdr : l.reverse.Nodup := List.nodup_reverse.2 hd
    have hmin' : ∀ v : List (Pt K), v.Perm l → ∀ q ∈ v, ptLt q b = false := by
      intro v hv q hq
      rw [← Bool.not_eq_true, ptLt_iff]
      exact hmin q (hv.mem_iff.1 hq)
    -- the two cycles, starting at the smallest vertex
    have hrot2 : (b :: rest.getLastD a :: (mid.reverse ++ [a])) ~r l.reverse := by
      rw [← hrev]
      exact (List.IsRotated.forall _ _).trans hrot.reverse
    have hrr : rotateToMin l.reverse = b :: rest.getLastD a :: (mid.reverse ++ [a]) := by
      rw [← rotateToMin_congr hdr hrot2.symm]
      exact rotateToMin_of_head _ (hrot2.nodup_iff.2 hdr) b (by simp) (hmin' _ (hrot2.perm.trans (List.reverse_perm l)))
    have hback : rotateToMin (b :: rest.getLastD a :: (mid.reverse ++ [a])).reverse = b :: a :: rest := by
      have h3 : (b :: rest.getLastD a :: (mid.reverse ++ [a])).reverse ~r (b :: a :: rest) := by
        have := hrot2.reverse
        rw [List.reverse_reverse] at this
        exact this.trans hrot.symm
      rw [rotateToMin_congr hdv h3.symm]
      exact rotateToMin_of_head _ hdv b (by simp) (hmin' _ hrot.perm)
    have hforth : rotateToMin (b :: a :: rest).reverse = b :: rest.getLastD a :: (mid.reverse ++ [a]) := by
      rw [← hrr]
      exact rotateToMin_congr hdr hrot.reverse.symm
    obtain ⟨b', a', rest', e1', e2'⟩ := normalizePoly_closed l.reverse (by simpa using h2)
    rw [hrr] at e1'
    injection e1' with q1 q2
    injection q2 with q2 q3
    have hlast : rest'.getLastD a' = a := by rw [← q3]; simp [List.getLastD_eq_getLast?]
    rw [e2, e2', hlast, ← q1, ← q2, ← q3, orientDet_swap, hback, hforth]
    rcases lt_or_gt_of_ne hne with h | h
    · rw [if_pos h, if_neg (by linarith)]
    · rw [if_pos (by linarith), if_neg (by linarith)]

end norm
end H2d
