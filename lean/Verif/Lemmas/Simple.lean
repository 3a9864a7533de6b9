import Verif.Model.Simple
import Verif.Spec.Simple
import Verif.Lemmas.Inside
import Verif.Lemmas.Polyline
import Verif.Props.SegmentInter

/-! # Lemmas for simple polygons -/

namespace H2d.Simple
open H2d.Spec

variable {P S : Type} {mk : P → P → Res S} {inter : S → S → Res (Option P)} {pts : List P}

theorem edge_lt {i : ℕ} {e : P × P} (h : Edge pts i e) : i < pts.length := (List.getElem?_eq_some_iff.1 h.1).1

theorem edge_exists {i : ℕ} (h : i < pts.length) : ∃ e, Edge pts i e := by
  have h' : (i + 1) % pts.length < pts.length := Nat.mod_lt _ (by omega)
  exact ⟨(pts[i], pts[(i + 1) % pts.length]), by simp [h], by simp [h']⟩

theorem edge_unique {i : ℕ} {e e' : P × P} (h : Edge pts i e) (h' : Edge pts i e') : e = e' := by
  have h1 := h.1.symm.trans h'.1
  have h2 := h.2.symm.trans h'.2
  simp only [Option.some.injEq] at h1 h2
  exact Prod.ext h1 h2

theorem edgeSeg_eq (h2 : 2 ≤ pts.length) {i : ℕ} {e : P × P} (h : Edge pts i e) : edgeSeg mk pts i = mk e.1 e.2 := by
  have hi := edge_lt h
  have hn : nbSegs true pts = pts.length := by unfold nbSegs; simp; omega
  unfold edgeSeg
  rw [hn, if_neg (by omega), h.1]
  have : (if i + 1 == pts.length then 0 else i + 1) = (i + 1) % pts.length := by
    by_cases c : i + 1 = pts.length
    · simp [c]
    · rw [Nat.mod_eq_of_lt (by omega)]; simp [c]
  rw [this, h.2]

theorem cyc_edge {i : ℕ} {e : P × P} : (cycPairs pts)[i]? = some e ↔ Edge pts i e := by
  rw [cycPairs_eq, List.getElem?_zip_eq_some]
  unfold Edge
  refine ⟨fun h => ?_, fun h => ?_⟩
  · have hi := (List.getElem?_eq_some_iff.1 h.1).1
    rw [List.getElem?_rotate hi] at h
    exact h
  · rw [List.getElem?_rotate (edge_lt h)]
    exact h

theorem notN_iff' {n i j : ℕ} (hi : i < n) (hj : j < n) : NotNeighbours n i j ↔ i ≠ j ∧ i + 1 ≠ j ∧ j + 1 ≠ i ∧ ¬ (i = 0 ∧ j + 1 = n) ∧ ¬ (j = 0 ∧ i + 1 = n) := by
  unfold NotNeighbours
  by_cases c : j + 1 = n
  · by_cases c' : i + 1 = n
    · omega
    · rw [c, Nat.mod_self, Nat.mod_eq_of_lt (by omega : i + 1 < n)]; omega
  · rw [Nat.mod_eq_of_lt (by omega : j + 1 < n)]
    by_cases c' : i + 1 = n
    · rw [c', Nat.mod_self]; omega
    · rw [Nat.mod_eq_of_lt (by omega : i + 1 < n)]; omega

theorem notN_iff {n i j : ℕ} (hi : i < n) (hj : j < n) (h : i < j) : NotNeighbours n i j ↔ i + 2 ≤ j ∧ ¬ (i = 0 ∧ j + 1 = n) := by
  have : (i + 1) % n = i + 1 := Nat.mod_eq_of_lt (by omega)
  unfold NotNeighbours
  rw [this]
  by_cases c : j + 1 = n
  · rw [c, Nat.mod_self]; omega
  · rw [Nat.mod_eq_of_lt (by omega : j + 1 < n)]; omega

theorem notN_symm {n i j : ℕ} (h : NotNeighbours n i j) : NotNeighbours n j i := ⟨h.1.symm, h.2.2, h.2.1⟩

section
variable {g : P × P → S} {c : P × P → P × P → Option P}

theorem innerLoop_eq (h2 : 2 ≤ pts.length) (hmk : ∀ i e, Edge pts i e → mk e.1 e.2 = .ok (g e)) {e : P × P} : ∀ js : List ℕ,
    (∀ j ∈ js, ∃ e', Edge pts j e' ∧ inter (g e') (g e) = .ok (c e' e)) →
    ∃ b, innerLoop mk inter pts (g e) js = .ok b ∧ (b = true ↔ ∃ j ∈ js, ∃ e', Edge pts j e' ∧ (c e' e).isSome)
  | [], _ => ⟨false, rfl, by simp⟩
  | j :: js, h => by
    obtain ⟨e', he', hc⟩ := h j (by simp)
    obtain ⟨b, hb, hb'⟩ := innerLoop_eq h2 hmk js fun k hk => h k (by simp [hk])
    unfold innerLoop
    rw [edgeSeg_eq h2 he', hmk j e' he', Res.bind_ok, hc, Res.bind_ok]
    rcases hs : c e' e with _ | x
    · refine ⟨b, hb, hb'.trans ⟨fun ⟨k, hk, y⟩ => ⟨k, by simp [hk], y⟩, ?_⟩⟩
      rintro ⟨k, hk, e'', he'', y⟩
      rcases List.mem_cons.1 hk with rfl | hk
      · rw [edge_unique he'' he', hs] at y; cases y
      · exact ⟨k, hk, e'', he'', y⟩
    · exact ⟨true, rfl, by simp only [true_iff]; exact ⟨j, by simp, e', he', by simp [hs]⟩⟩

theorem outerLoop_eq (h2 : 2 ≤ pts.length) (hmk : ∀ i e, Edge pts i e → mk e.1 e.2 = .ok (g e))
    (hint : ∀ i j e e', Edge pts i e → Edge pts j e' → NotNeighbours pts.length i j → inter (g e) (g e') = .ok (c e e')) : ∀ is : List ℕ, (∀ i ∈ is, i < pts.length) →
    ∃ b, outerLoop mk inter pts is = .ok b ∧
      (b = true ↔ ∃ i ∈ is, ∃ j e e', Edge pts i e ∧ Edge pts j e' ∧ i < j ∧ NotNeighbours pts.length i j ∧ (c e' e).isSome)
  | [], _ => ⟨false, rfl, by simp⟩
  | i :: is, h => by
    have hi := h i (by simp)
    obtain ⟨e, he⟩ := edge_exists hi
    obtain ⟨b, hb, hb'⟩ := outerLoop_eq h2 hmk hint is fun k hk => h k (by simp [hk])
    have hn : nbSegs true pts = pts.length := by unfold nbSegs; simp; omega
    unfold outerLoop
    rw [edgeSeg_eq h2 he, hmk i e he, Res.bind_ok]
    simp only [hn]
    generalize hL : List.range' (i + 2) ((if i = 0 then pts.length - 1 else pts.length) - (i + 2)) = L
    have hmem : ∀ j, j ∈ L ↔ j < pts.length ∧ i < j ∧ NotNeighbours pts.length i j := by
      intro j
      rw [← hL, List.mem_range'_1]
      constructor
      · intro hj
        have h1 : j < pts.length := by split_ifs at hj <;> omega
        have h3 : i < j := by omega
        refine ⟨h1, h3, (notN_iff hi h1 h3).2 ⟨hj.1, ?_⟩⟩
        rintro ⟨rfl, h4⟩
        simp at hj
        omega
      · rintro ⟨h1, h3, h4⟩
        rw [notN_iff hi h1 h3] at h4
        split_ifs with h0 <;> omega
    obtain ⟨b1, hb1, hb1'⟩ := innerLoop_eq (c := c) (inter := inter) h2 hmk (e := e) L fun j hj => by
      obtain ⟨h1, h3, h4⟩ := (hmem j).1 hj
      obtain ⟨e', he'⟩ := edge_exists h1
      exact ⟨e', he', hint j i e' e he' he (notN_symm h4)⟩
    rw [hb1, Res.bind_ok]
    cases b1 with
    | true =>
      refine ⟨true, rfl, ?_⟩
      simp only [true_iff] at hb1' ⊢
      obtain ⟨j, hj, e', he', y⟩ := hb1'
      obtain ⟨h1, h3, h4⟩ := (hmem j).1 hj
      exact ⟨i, by simp, j, e, e', he, he', h3, h4, y⟩
    | false =>
      refine ⟨b, by simpa using hb, hb'.trans ⟨fun ⟨k, hk, y⟩ => ⟨k, by simp [hk], y⟩, ?_⟩⟩
      rintro ⟨k, hk, j, e1, e', he1, he', h3, h4, y⟩
      rcases List.mem_cons.1 hk with rfl | hk
      · rw [edge_unique he1 he] at y
        have := hb1'.2 ⟨j, (hmem j).2 ⟨edge_lt he', h3, h4⟩, e', he', y⟩
        cases this
      · exact ⟨k, hk, j, e1, e', he1, he', h3, h4, y⟩

/-- What `isSimple()` computes when no exception is thrown by the segments and their intersections. -/
theorem run_eq (hmk : ∀ i e, Edge pts i e → mk e.1 e.2 = .ok (g e))
    (hint : ∀ i j e e', Edge pts i e → Edge pts j e' → NotNeighbours pts.length i j → inter (g e) (g e') = .ok (c e e'))
    (hsym : ∀ i j e e', Edge pts i e → Edge pts j e' → NotNeighbours pts.length i j → (c e e').isSome → (c e' e).isSome) (closed : Bool) :
    ∃ b, run mk inter closed pts = .ok b ∧ (b = true ↔ 3 ≤ pts.length ∧ closed = true ∧ ∀ i j e e', Edge pts i e → Edge pts j e' → NotNeighbours pts.length i j → c e e' = none) := by
  unfold run
  split_ifs with h3 hc
  · exact ⟨false, rfl, by simp; omega⟩
  · exact ⟨false, rfl, by simp at hc; simp [hc]⟩
  · have hn : nbSegs true pts = pts.length := by unfold nbSegs; simp; omega
    obtain ⟨b, hb, hb'⟩ := outerLoop_eq (c := c) (by omega) hmk hint (List.range (nbSegs true pts)) fun i hi => by rw [hn] at hi; simpa using hi
    rw [hb]
    refine ⟨!b, rfl, ?_⟩
    have hc' : closed = true := by simpa using hc
    rw [Bool.not_eq_true', ← Bool.not_eq_true, hb']
    refine ⟨fun k => ⟨by omega, hc', fun i j e e' he he' hij => ?_⟩, ?_⟩
    · rw [← Option.not_isSome_iff_eq_none]
      intro y
      rcases Nat.lt_or_ge i j with hlt | hge
      · exact k ⟨i, by rw [hn, List.mem_range]; exact edge_lt he, j, e, e', he, he', hlt, hij, hsym i j e e' he he' hij y⟩
      · exact k ⟨j, by rw [hn, List.mem_range]; exact edge_lt he', i, e', e, he', he, lt_of_le_of_ne hge (Ne.symm hij.1), notN_symm hij, y⟩
    · rintro ⟨-, -, k⟩ ⟨i, -, j, e, e', he, he', -, hij, y⟩
      rw [k j i e' e he' he (notN_symm hij)] at y
      cases y

end

/-! ### Real numbers -/

theorem segInter_ok {t : Thr ℝ} (h1 : dblEps < t.nullDistance) {s s' : Seg} (hs : t.nullDistance ≤ eucl s.1 s.2) (hs' : t.nullDistance ≤ eucl s'.1 s'.2) : ∃ o, segInter t s s' = .ok o := by
  obtain ⟨l, e1, -⟩ := segLine_spec h1 hs
  obtain ⟨m, f1, -⟩ := segLine_spec h1 hs'
  unfold segInter
  split_ifs with h0
  · exact ⟨_, rfl⟩
  · rw [show segLine t s = .ok l from e1, Res.bind_ok, show segLine t s' = .ok m from f1, Res.bind_ok]
    split_ifs with hp
    · exact ⟨_, rfl⟩
    · unfold lineInter
      rw [if_neg hp, Res.bind_ok]
      simp only
      split_ifs <;> exact ⟨_, rfl⟩

theorem fix_len (e : Seg) : eucl (fixOrder e.1 e.2).1 (fixOrder e.1 e.2).2 = eucl e.1 e.2 := by
  rcases Pip.fixOrder_cases e.1 e.2 with h | h <;> rw [h]
  exact eucl_comm _ _

/-- The answer of the intersection of two edges. -/
noncomputable def answer (t : Thr ℝ) (e e' : Seg) : Option (Pt ℝ) :=
  match segInter t (fixOrder e.1 e.2) (fixOrder e'.1 e'.2) with
  | .ok o => o
  | _ => none

theorem answer_eq {t : Thr ℝ} (h1 : dblEps < t.nullDistance) {e e' : Seg} (he : t.nullDistance ≤ eucl e.1 e.2) (he' : t.nullDistance ≤ eucl e'.1 e'.2) :
    segInter t (fixOrder e.1 e.2) (fixOrder e'.1 e'.2) = .ok (answer t e e') := by
  obtain ⟨o, ho⟩ := segInter_ok h1 (s := fixOrder e.1 e.2) (s' := fixOrder e'.1 e'.2) (by rw [fix_len]; exact he) (by rw [fix_len]; exact he')
  unfold answer
  rw [ho]

theorem answer_comm (t : Thr ℝ) (e e' : Seg) : answer t e e' = answer t e' e := by
  unfold answer
  rw [Props.C22_symmetric]

/-- `isSimple()` with real numbers, for polylines whose edges are accepted. -/
theorem simpleR_eq {t : Thr ℝ} (h1 : dblEps < t.nullDistance) {pts : List (Pt ℝ)} (hl : ∀ i e, Edge pts i e → t.nullDistance ≤ eucl e.1 e.2) (closed : Bool) :
    ∃ b, simpleR t closed pts = .ok b ∧ (b = true ↔ 3 ≤ pts.length ∧ closed = true ∧ ∀ i j e e', Edge pts i e → Edge pts j e' → NotNeighbours pts.length i j → answer t e e' = none) := by
  refine run_eq (g := fun e => fixOrder e.1 e.2) (c := answer t) (fun i e he => ?_) (fun i j e e' he he' _ => answer_eq h1 (hl i e he) (hl j e' he')) (fun i j e e' _ _ _ y => ?_) closed
  · rw [segMake_eq false (hl i e he)]; rfl
  · rw [answer_comm]; exact y

theorem segInterB_eq (t : Thr ℝ) (e e' : Seg) : segInterB t e e' = (answer t e e').isSome := by
  unfold segInterB answer
  rcases segInter t (fixOrder e.1 e.2) (fixOrder e'.1 e'.2) with (_ | _) | _ | _ <;> rfl

theorem simpleR_isSimple {t : Thr ℝ} (h1 : dblEps < t.nullDistance) {pts : List (Pt ℝ)} (hl : ∀ i e, Edge pts i e → t.nullDistance ≤ eucl e.1 e.2) (closed : Bool) :
    simpleR t closed pts = .ok (isSimple (segInterB t) closed pts) := by
  obtain ⟨b, hb, hb'⟩ := simpleR_eq h1 hl closed
  rw [hb]
  congr 1
  cases closed with
  | false =>
    have : isSimple (segInterB t) false pts = false := by unfold isSimple; split_ifs <;> simp_all
    rw [this, ← Bool.not_eq_true, hb']
    simp
  | true =>
    rw [Bool.eq_iff_iff, hb', isSimple_eq, Bool.and_eq_true, decide_eq_true_eq, noCross_iff _ (Props.C22_interSymm t).comm]
    refine ⟨fun ⟨k1, _, k2⟩ => ⟨k1, ?_⟩, fun ⟨k1, k2⟩ => ⟨k1, rfl, ?_⟩⟩
    · intro i j e e' he he' a1 a2 a3 a4 a5
      rw [cyc_edge] at he he'
      rw [cycPairs_length] at a4 a5
      rw [segInterB_eq, k2 i j e e' he he' ((notN_iff' (edge_lt he) (edge_lt he')).2 ⟨a1, a2, a3, a4, a5⟩)]
      rfl
    · intro i j e e' he he' hij
      rw [notN_iff' (edge_lt he) (edge_lt he')] at hij
      have := k2 i j e e' (cyc_edge.2 he) (cyc_edge.2 he') hij.1 hij.2.1 hij.2.2.1 (by rw [cycPairs_length]; exact hij.2.2.2.1) (by rw [cycPairs_length]; exact hij.2.2.2.2)
      rw [segInterB_eq] at this
      simpa using this

theorem answer_some {t : Thr ℝ} (h1 : dblEps < t.nullDistance) (h2 : 0 < t.nullAngleValue) {e e' : Seg} (he : GoodSeg t e) (he' : GoodSeg t e')
    (hne : t.nullDistance ≤ eucl e.1 e'.1 ∨ t.nullDistance ≤ eucl e.2 e'.2) (hne' : t.nullDistance ≤ eucl e.1 e'.2 ∨ t.nullDistance ≤ eucl e.2 e'.1)
    (ha : t.nullAngleValue ≤ segAngle e e') {q : Pt ℝ} (hq : OnSeg e.1 e.2 q) (hq' : OnSeg e'.1 e'.2 q) : answer t e e' = some q := by
  unfold answer
  rw [Props.C22_complete_partial t h1 h2 _ _ (Inside.goodSeg_fix he) (Inside.goodSeg_fix he') ?_ (by rw [Pip.segAngle_fix]; exact ha) q (Pip.onSeg_fix.2 hq) (Pip.onSeg_fix.2 hq')]
  simp only [SegEq, PtEq, ptDist_eucl]
  rintro ⟨k1, k2⟩
  rcases Pip.fixOrder_cases e.1 e.2 with h | h <;> rcases Pip.fixOrder_cases e'.1 e'.2 with h' | h' <;> rw [h, h'] at k1 k2 <;> simp only [Prod.swap] at k1 k2
  · rcases hne with x | x <;> linarith
  · rcases hne' with x | x <;> linarith
  · rcases hne' with x | x <;> linarith
  · rcases hne with x | x <;> linarith

theorem answer_apart {t : Thr ℝ} (h1 : dblEps < t.nullDistance) (h2 : 0 < t.nullAngleValue) {e e' : Seg} (he : GoodSeg t e) (he' : GoodSeg t e')
    (ha : ∀ q q', OnSeg e.1 e.2 q → OnSeg e'.1 e'.2 q' → t.nullDistance ≤ eucl q q') : answer t e e' = none := by
  have := answer_eq h1 he.1 he'.1
  rcases hc : answer t e e' with _ | p
  · rfl
  · rw [hc] at this
    obtain ⟨-, ⟨q, hq, k⟩, q', hq', k'⟩ := Props.C22_sound_partial t h1 h2 _ _ (Inside.goodSeg_fix he) (Inside.goodSeg_fix he') p this
    have h3 := ha q q' (Pip.onSeg_fix.1 hq) (Pip.onSeg_fix.1 hq')
    have h4 := eucl_triangle q p q'
    rw [eucl_comm q p] at h4
    linarith

/-- Enough conditions for a polyline to be said simple. -/
theorem simpleR_true {t : Thr ℝ} (h1 : dblEps < t.nullDistance) {pts : List (Pt ℝ)} (h3 : 3 ≤ pts.length) (hl : ∀ i e, Edge pts i e → t.nullDistance ≤ eucl e.1 e.2)
    (ha : ∀ i j e e', Edge pts i e → Edge pts j e' → i < j → NotNeighbours pts.length i j → answer t e e' = none) : simpleR t true pts = .ok true := by
  obtain ⟨b, hb, hb'⟩ := simpleR_eq h1 hl true
  rw [hb, hb'.2 ⟨h3, rfl, fun i j e e' he he' hij => ?_⟩]
  rcases Nat.lt_or_ge i j with h | h
  · exact ha i j e e' he he' h hij
  · rw [answer_comm]; exact ha j i e' e he' he (lt_of_le_of_ne h (Ne.symm hij.1)) (notN_symm hij)

theorem answer_flat {t : Thr ℝ} (h1 : dblEps < t.nullDistance) {e e' : Seg} (he : GoodSeg t e) (he' : GoodSeg t e') (ha : segAngle e e' < t.nullAngleValue) : answer t e e' = none := by
  have hp := dblEps_pos
  have g := Inside.goodSeg_fix he
  have g' := Inside.goodSeg_fix he'
  rw [← Pip.segAngle_fix] at ha
  unfold answer
  generalize fixOrder e.1 e.2 = s at *
  generalize fixOrder e'.1 e'.2 = s' at *
  obtain ⟨l, e1, e2, -, e3⟩ := segLine_spec h1 g.1
  obtain ⟨m, f1, f2, -, f3⟩ := segLine_spec h1 g'.1
  obtain ⟨a1, a2⟩ := e3 g.2
  obtain ⟨b1, b2⟩ := f3 g'.2
  unfold segInter
  split_ifs with h0
  · rfl
  · rw [show segLine t s = .ok l from e1, Res.bind_ok, show segLine t s' = .ok m from f1, Res.bind_ok,
      if_pos (by rw [IsParallel, lineAngle_seg e2.1 f2.1 (by linarith [g.1]) (by linarith [g'.1]) a1 a2 b1 b2]; exact ha)]
    rfl

theorem angle_ge_std {s s' : Seg} {c : ℝ} (h : |(s.2.1 - s.1.1) * (s'.2.1 - s'.1.1) + (s.2.2 - s.1.2) * (s'.2.2 - s'.1.2)| / (eucl s.1 s.2 * eucl s'.1 s'.2) ≤ c) (hc : c ≤ 999999 / 1000000) :
    stdR.nullAngleValue ≤ segAngle s s' := by
  unfold segAngle
  have hpi := Real.two_le_pi
  have h1 : (1 : ℝ) / 1000 ≤ Real.arccos c := by
    rw [← Real.arccos_cos (x := 1 / 1000) (by norm_num) (by linarith)]
    apply Real.arccos_le_arccos
    have := Real.one_sub_sq_div_two_le_cos (x := 1 / 1000)
    linarith
  exact h1.trans (Real.arccos_le_arccos h)

theorem angle_lt_std {s s' : Seg} {c : ℝ} (h : |(s.2.1 - s.1.1) * (s'.2.1 - s'.1.1) + (s.2.2 - s.1.2) * (s'.2.2 - s'.1.2)| / (eucl s.1 s.2 * eucl s'.1 s'.2) = c) (hc : 0.9999995001 < c) (hc1 : c ≤ 1) :
    segAngle s s' < stdR.nullAngleValue := by
  unfold segAngle
  rw [h]
  have hpi := Real.two_le_pi
  have : stdR.nullAngleValue = 1 / 1000 := rfl
  rw [this, ← Real.arccos_cos (x := 1 / 1000) (by norm_num) (by linarith)]
  apply Real.arccos_lt_arccos
  · exact Real.neg_one_le_cos (1 / 1000)
  · have hb := Real.cos_bound (x := 1 / 1000) (by norm_num [abs_le])
    rw [abs_le] at hb
    have hb2 := hb.2
    norm_num at hb2
    linarith
  · exact hc1

end H2d.Simple
