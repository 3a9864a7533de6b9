import Verif.Lemmas.PolyNorm
import Verif.Spec.PolyState

set_option linter.unusedSectionVars false

namespace H2d

open H2d.Spec

variable {K : Type} [Field K] [LinearOrder K] [IsStrictOrderedRing K]

/-! ### centroid -/

theorem centroidRaw_rotate (l : List (Pt K)) (k : Nat) : centroidRaw (l.rotate k) = centroidRaw l := by
  simp only [centroidRaw, cycPairs_rotate, sum_map_rotate, signedArea_rotate]

theorem centroidRaw_reverse (l : List (Pt K)) : centroidRaw l.reverse = centroidRaw l := by
  simp only [centroidRaw, signedArea_reverse]
  have h1 : ((cycPairs l.reverse).map (fun s : Pt K × Pt K => (s.1.1 + s.2.1) * (s.1.1 * s.2.2 - s.2.1 * s.1.2))).sum =
      -((cycPairs l).map (fun s : Pt K × Pt K => (s.1.1 + s.2.1) * (s.1.1 * s.2.2 - s.2.1 * s.1.2))).sum := by
    rw [((cycPairs_reverse_perm l).map _).sum_eq, List.map_map, ← sum_map_neg']
    congr 1
    apply List.map_congr_left
    intro s _; simp; ring
  have h2 : ((cycPairs l.reverse).map (fun s : Pt K × Pt K => (s.1.2 + s.2.2) * (s.1.1 * s.2.2 - s.2.1 * s.1.2))).sum =
      -((cycPairs l).map (fun s : Pt K × Pt K => (s.1.2 + s.2.2) * (s.1.1 * s.2.2 - s.2.1 * s.1.2))).sum := by
    rw [((cycPairs_reverse_perm l).map _).sum_eq, List.map_map, ← sum_map_neg']
    congr 1
    apply List.map_congr_left
    intro s _; simp; ring
  rw [h1, h2]
  simp only [mul_neg, neg_div_neg_eq]

/-! ### invariance of the computations -/

theorem any_perm {S : Type} {l m : List S} (h : l.Perm m) (f : S → Bool) : l.any f = m.any f := by
  rw [Bool.eq_iff_iff, List.any_eq_true, List.any_eq_true]
  constructor
  · rintro ⟨x, hx, hf⟩; exact ⟨x, h.mem_iff.1 hx, hf⟩
  · rintro ⟨x, hx, hf⟩; exact ⟨x, h.mem_iff.2 hx, hf⟩

theorem segPairs_rotate (l : List (Pt K)) (k : Nat) : (segPairs true (l.rotate k)).Perm (segPairs true l) := by
  simp only [segPairs, List.length_rotate]
  split_ifs
  · exact List.Perm.refl _
  · rw [cycPairs_rotate]; exact List.rotate_perm _ _

theorem segPairs_reverse (closed : Bool) (l : List (Pt K)) : (segPairs closed l.reverse).Perm ((segPairs closed l).map Prod.swap) := by
  simp only [segPairs, List.length_reverse]
  split_ifs
  · exact List.Perm.refl _
  · exact cycPairs_reverse_perm l
  · rw [openPairs_reverse]; exact List.reverse_perm _

theorem segPairs_map (closed : Bool) (f : Pt K → Pt K) (l : List (Pt K)) : segPairs closed (l.map f) = (segPairs closed l).map (Prod.map f f) := by
  simp only [segPairs, List.length_map]
  split_ifs
  · rfl
  · exact cycPairs_map f l
  · exact openPairs_map f l

/-- What a comparison does to the points. -/
def SamePoly (closed : Bool) (l l' : List (Pt K)) : Prop :=
  if closed then SameCycle l l' else (l' = l ∨ l' = l.reverse)

theorem normalizePoly_samePoly (closed : Bool) (l l' : List (Pt K)) (h : normalizePoly closed l = .ok l') : SamePoly closed l l' := by
  cases closed
  · cases l with
    | nil => simp [normalizePoly] at h; simp [SamePoly, h]
    | cons p ps =>
      rw [normalizePoly, if_neg (by simp)] at h
      simp only [SamePoly, Bool.false_eq_true, if_false]
      split_ifs at h
      · right; exact (Res.ok.inj h).symm
      · left; exact (Res.ok.inj h).symm
  · simp only [SamePoly, if_true]; exact normalizePoly_cycle l l' h

variable (e : Env K)

theorem freshLen_rev (he : GoodEnv e) (closed : Bool) (l : List (Pt K)) : freshLen e closed l.reverse = freshLen e closed l := by
  have h1 : (segPairs closed l.reverse).any (fun s => e.same s.1 s.2) = (segPairs closed l).any (fun s => e.same s.1 s.2) := by
    rw [any_perm (segPairs_reverse closed l), List.any_map]
    congr 1; funext s; simp [he.same_symm s.2 s.1]
  have h2 : polyLength e.segLen closed l.reverse = polyLength e.segLen closed l := by
    simp only [polyLength]
    rw [((segPairs_reverse closed l).map _).sum_eq, List.map_map]
    congr 1
    apply List.map_congr_left
    intro s _; simp [he.len_symm s.2 s.1]
  rw [freshLen, freshLen, h1, h2]

theorem freshLen_rot (l : List (Pt K)) (k : Nat) : freshLen e true (l.rotate k) = freshLen e true l := by
  have h2 : polyLength e.segLen true (l.rotate k) = polyLength e.segLen true l := by
    simp only [polyLength]
    rw [((segPairs_rotate l k).map _).sum_eq]
  rw [freshLen, freshLen, any_perm (segPairs_rotate l k), h2]

theorem freshSimple_rev (he : GoodEnv e) (closed : Bool) (l : List (Pt K)) : freshSimple e closed l.reverse = freshSimple e closed l := by
  have h1 : (segPairs closed l.reverse).any (fun s => e.same s.1 s.2) = (segPairs closed l).any (fun s => e.same s.1 s.2) := by
    rw [any_perm (segPairs_reverse closed l), List.any_map]
    congr 1; funext s; simp [he.same_symm s.2 s.1]
  rw [freshSimple, freshSimple, h1, isSimple_reverse _ he.inter_symm, List.length_reverse]

theorem freshSimple_rot (he : GoodEnv e) (l : List (Pt K)) (k : Nat) : freshSimple e true (l.rotate k) = freshSimple e true l := by
  rw [freshSimple, freshSimple, any_perm (segPairs_rotate l k), isSimple_rotate _ he.inter_symm, List.length_rotate]

theorem freshLen_trans (he : GoodEnv e) (closed : Bool) (dx dy : K) (l : List (Pt K)) :
    freshLen e closed (polyTranslate dx dy l) = freshLen e closed l := by
  have h1 : (segPairs closed (polyTranslate dx dy l)).any (fun s => e.same s.1 s.2) = (segPairs closed l).any (fun s => e.same s.1 s.2) := by
    rw [polyTranslate, segPairs_map, List.any_map]
    congr 1; funext s; simp [he.same_trans]
  have h2 : polyLength e.segLen closed (polyTranslate dx dy l) = polyLength e.segLen closed l := by
    simp only [polyLength]
    rw [polyTranslate, segPairs_map, List.map_map]
    congr 1
    apply List.map_congr_left
    intro s _; simp [he.len_trans]
  rw [freshLen, freshLen, h1, h2]

theorem freshSimple_trans (he : GoodEnv e) (closed : Bool) (dx dy : K) (l : List (Pt K)) :
    freshSimple e closed (polyTranslate dx dy l) = freshSimple e closed l := by
  have h1 : (segPairs closed (polyTranslate dx dy l)).any (fun s => e.same s.1 s.2) = (segPairs closed l).any (fun s => e.same s.1 s.2) := by
    rw [polyTranslate, segPairs_map, List.any_map]
    congr 1; funext s; simp [he.same_trans]
  have h2 : isSimple e.inter closed (polyTranslate dx dy l) = isSimple e.inter closed l :=
    isSimple_map _ _ he.inter_symm.comm (he.inter_trans dx dy) closed l
  rw [freshSimple, freshSimple, h1, h2]
  simp [polyTranslate]

/-! ### the invariant -/

/-- Cached values are those of the current points; the one of the centroid only if `c`. -/
structure PInv (closed : Bool) (c : Bool) (s : PState K) : Prop where
  len : ∀ v, s.len = some v → freshLen e closed s.pts = .ok v
  simple : ∀ v, s.simple = some v → freshSimple e closed s.pts = .ok v
  area : ∀ v, s.area = some v → |signedArea s.pts| = v
  cent : c = true → ∀ v, s.cent = some v → centroidRaw s.pts = v

variable {e}

theorem PInv.reset {closed c : Bool} (pts : List (Pt K)) : PInv e closed c (.reset pts) :=
  ⟨by simp [PState.reset], by simp [PState.reset], by simp [PState.reset], by simp [PState.reset]⟩

theorem PInv.translate (he : GoodEnv e) {closed c : Bool} {s : PState K} (h : PInv e closed c s) (dx dy : K) :
    PInv e closed false (s.translate dx dy) := by
  refine ⟨?_, ?_, ?_, by simp⟩
  · intro v hv; simp only [PState.translate]; rw [freshLen_trans e he]; exact h.len v hv
  · intro v hv; simp only [PState.translate]; rw [freshSimple_trans e he]; exact h.simple v hv
  · intro v hv; simp only [PState.translate]; rw [signedArea_translate]; exact h.area v hv

theorem PInv.samePoly (he : GoodEnv e) {closed c : Bool} {s : PState K} (h : PInv e closed c s) (pts : List (Pt K)) (b : Bool)
    (hs : SamePoly closed s.pts pts) : PInv e closed c { s with pts := pts, norm := b } := by
  have key : freshLen e closed pts = freshLen e closed s.pts ∧ freshSimple e closed pts = freshSimple e closed s.pts ∧
      |signedArea pts| = |signedArea s.pts| ∧ centroidRaw pts = centroidRaw s.pts := by
    cases closed
    · simp only [SamePoly, Bool.false_eq_true, if_false] at hs
      rcases hs with rfl | rfl
      · exact ⟨rfl, rfl, rfl, rfl⟩
      · exact ⟨freshLen_rev e he _ _, freshSimple_rev e he _ _, by rw [signedArea_reverse, abs_neg], centroidRaw_reverse _⟩
    · simp only [SamePoly, if_true] at hs
      obtain ⟨k, rfl | rfl⟩ := hs
      · exact ⟨freshLen_rot e _ _, freshSimple_rot e he _ _, by rw [signedArea_rotate], centroidRaw_rotate _ _⟩
      · refine ⟨?_, ?_, ?_, ?_⟩
        · rw [freshLen_rot, freshLen_rev e he]
        · rw [freshSimple_rot e he, freshSimple_rev e he]
        · rw [signedArea_rotate, signedArea_reverse, abs_neg]
        · rw [centroidRaw_rotate, centroidRaw_reverse]
  obtain ⟨k1, k2, k3, k4⟩ := key
  refine ⟨?_, ?_, ?_, ?_⟩
  · intro v hv; simp only; rw [k1]; exact h.len v hv
  · intro v hv; simp only; rw [k2]; exact h.simple v hv
  · intro v hv; simp only; rw [k3]; exact h.area v hv
  · intro hc v hv; simp only; rw [k4]; exact h.cent hc v hv

theorem freshLen_not_ub (closed : Bool) (l : List (Pt K)) : freshLen e closed l ≠ .ub := by
  rw [freshLen]; split_ifs <;> simp

theorem freshSimple_not_ub (closed : Bool) (l : List (Pt K)) : freshSimple e closed l ≠ .ub := by
  rw [freshSimple]; split_ifs <;> simp

theorem qLength_spec {closed c : Bool} {s : PState K} (h : PInv e closed c s) :
    (qLength e closed s).1 = freshLen e closed s.pts ∧ PInv e closed c (qLength e closed s).2 ∧ (qLength e closed s).2.pts = s.pts := by
  rw [qLength]
  cases hl : s.len with
  | some v => exact ⟨(h.len v hl).symm, h, rfl⟩
  | none =>
    cases hf : freshLen e closed s.pts with
    | ok v => exact ⟨rfl, ⟨fun w hw => by simp only at hw ⊢; rw [hf]; congr 1; exact Option.some_inj.1 hw, h.simple, h.area, h.cent⟩, rfl⟩
    | throw => exact ⟨rfl, h, rfl⟩
    | ub => exact ⟨rfl, h, rfl⟩

theorem qSimple_spec {closed c : Bool} {s : PState K} (h : PInv e closed c s) :
    (qSimple e closed s).1 = freshSimple e closed s.pts ∧ PInv e closed c (qSimple e closed s).2 ∧ (qSimple e closed s).2.pts = s.pts := by
  rw [qSimple]
  split_ifs with h1 h2
  · exact ⟨by rw [freshSimple, if_pos h1], h, rfl⟩
  · exact ⟨by rw [freshSimple, if_neg h1, if_pos h2], h, rfl⟩
  · cases hl : s.simple with
    | some v => exact ⟨(h.simple v hl).symm, h, rfl⟩
    | none =>
      cases hf : freshSimple e closed s.pts with
      | ok v => exact ⟨rfl, ⟨h.len, fun w hw => by simp only at hw ⊢; rw [hf]; congr 1; exact Option.some_inj.1 hw, h.area, h.cent⟩, rfl⟩
      | throw => exact ⟨rfl, h, rfl⟩
      | ub => exact ⟨rfl, h, rfl⟩

theorem qArea_spec {closed c : Bool} {s : PState K} (h : PInv e closed c s) :
    (qArea e closed s).1 = freshArea e closed s.pts ∧ PInv e closed c (qArea e closed s).2 ∧ (qArea e closed s).2.pts = s.pts := by
  obtain ⟨h1, h2, h3⟩ := qSimple_spec h
  rw [qArea, freshArea, ← h1]
  generalize hq : qSimple e closed s = q at h1 h2 h3
  obtain ⟨r, s1⟩ := q
  simp only at h1 h2 h3
  cases r with
  | ok b =>
    cases b
    · exact ⟨rfl, h2, h3⟩
    · simp only
      cases ha : s1.area with
      | some v =>
        refine ⟨?_, h2, h3⟩
        have := h2.area v ha
        rw [h3] at this
        simp only [← this]; rfl
      | none =>
        refine ⟨by rw [h3]; rfl, ⟨h2.len, h2.simple, fun w hw => Option.some_inj.1 hw, h2.cent⟩, h3⟩
  | throw => exact ⟨rfl, h2, h3⟩
  | ub => exact ⟨rfl, h2, h3⟩

theorem qCentroid_inv {closed c : Bool} {s : PState K} (h : PInv e closed c s) :
    PInv e closed c (qCentroid e closed s).2 ∧ (qCentroid e closed s).2.pts = s.pts := by
  obtain ⟨h1, h2, h3⟩ := qSimple_spec h
  rw [qCentroid]
  generalize hq : qSimple e closed s = q at h1 h2 h3
  obtain ⟨r, s1⟩ := q
  simp only at h1 h2 h3
  cases r with
  | ok b =>
    cases b
    · exact ⟨h2, h3⟩
    · simp only
      cases ha : s1.cent with
      | some v => exact ⟨h2, h3⟩
      | none => exact ⟨⟨h2.len, h2.simple, h2.area, fun _ w hw => Option.some_inj.1 hw⟩, h3⟩
  | throw => exact ⟨h2, h3⟩
  | ub => exact ⟨h2, h3⟩

theorem qCentroid_val {closed : Bool} {s : PState K} (h : PInv e closed true s) :
    (qCentroid e closed s).1 = freshCentroid e closed s.pts := by
  obtain ⟨h1, h2, h3⟩ := qSimple_spec h
  rw [qCentroid, freshCentroid, ← h1]
  generalize hq : qSimple e closed s = q at h1 h2 h3
  obtain ⟨r, s1⟩ := q
  simp only at h1 h2 h3
  cases r with
  | ok b =>
    cases b
    · rfl
    · simp only
      cases ha : s1.cent with
      | some v =>
        have := h2.cent rfl v ha
        rw [h3] at this
        simp only [← this]; rfl
      | none => rw [h3]; rfl
  | throw => rfl
  | ub => rfl

theorem PInv.weaken {closed c : Bool} {s : PState K} (h : PInv e closed c s) : PInv e closed false s :=
  ⟨h.len, h.simple, h.area, by simp⟩

/-- One call keeps the invariant. -/
theorem exec_inv (he : GoodEnv e) {closed c : Bool} {s s' : PState K} (h : PInv e closed c s) (op : POp K) (hr : POp.isRetained op = false)
    (hx : op.exec e closed s = some s') : PInv e closed (c && !POp.isMove op) s' := by
  cases op with
  | set pts =>
    simp only [POp.exec, Option.some_inj] at hx
    subst hx
    simp only [POp.isMove, Bool.not_false, Bool.and_true]
    split_ifs
    · exact PInv.reset _
    · exact h
  | clear => simp only [POp.exec, Option.some_inj] at hx; subst hx; exact PInv.reset _
  | translate dx dy =>
    simp only [POp.exec, Option.some_inj] at hx; subst hx
    simp only [POp.isMove, Bool.not_true, Bool.and_false]; exact h.translate he _ _
  | moveTo p =>
    simp only [POp.isMove, Bool.not_true, Bool.and_false]
    simp only [POp.exec] at hx
    split at hx
    · simp at hx; subst hx; exact h.weaken
    · simp at hx; subst hx; exact h.translate he _ _
  | rotate rot => simp only [POp.exec, Option.some_inj] at hx; subst hx; exact PInv.reset _
  | rotateRef rot ref =>
    simp only [POp.exec, Option.some_inj] at hx; subst hx
    exact ⟨by simp [PState.reset, PState.translate], by simp [PState.reset, PState.translate], by simp [PState.reset, PState.translate],
      by simp [PState.reset, PState.translate]⟩
  | minimize =>
    simp only [POp.isMove, Bool.not_false, Bool.and_true]
    simp only [POp.exec] at hx
    by_cases h3 : s.pts.length < 3
    · rw [if_pos h3] at hx; simp at hx; subst hx; exact h
    · rw [if_neg h3] at hx
      generalize (if closed = true then minimizeMark e.mid s.pts 0 s.pts.length else minimizeMark e.mid s.pts 1 (s.pts.length - 1)) = marks at hx
      split_ifs at hx
      · simp at hx; subst hx; exact h
      · split at hx
        · simp at hx; subst hx; exact PInv.reset _
        · simp at hx; subst hx; exact h
        · cases hx
  | edit pts => simp only [POp.exec, Option.some_inj] at hx; subst hx; exact PInv.reset _
  | retained pts => simp [POp.isRetained] at hr
  | length =>
    simp only [POp.exec, Option.some_inj] at hx; subst hx
    simp only [POp.isMove, Bool.not_false, Bool.and_true]; exact (qLength_spec h).2.1
  | area =>
    simp only [POp.exec, Option.some_inj] at hx; subst hx
    simp only [POp.isMove, Bool.not_false, Bool.and_true]; exact (qArea_spec h).2.1
  | isSimple =>
    simp only [POp.exec, Option.some_inj] at hx; subst hx
    simp only [POp.isMove, Bool.not_false, Bool.and_true]; exact (qSimple_spec h).2.1
  | isConvex =>
    simp only [POp.exec, Option.some_inj] at hx; subst hx
    simp only [POp.isMove, Bool.not_false, Bool.and_true]; exact (qSimple_spec h).2.1
  | centroid =>
    simp only [POp.exec, Option.some_inj] at hx; subst hx
    simp only [POp.isMove, Bool.not_false, Bool.and_true]; exact (qCentroid_inv h).1
  | compare =>
    simp only [POp.isMove, Bool.not_false, Bool.and_true]
    simp only [POp.exec] at hx
    split_ifs at hx
    · simp at hx; subst hx; exact h
    · split at hx
      · simp at hx; subst hx; exact h
      · split at hx
        · rename_i pts hn
          simp at hx; subst hx
          exact h.samePoly he _ _ (normalizePoly_samePoly closed _ _ hn)
        · simp at hx; subst hx; exact h
        · cases hx

theorem run_inv (he : GoodEnv e) {closed : Bool} (ops : List (POp K)) : ∀ {c : Bool} {s s' : PState K}, PInv e closed c s →
    (∀ op ∈ ops, POp.isRetained op = false) → polyRun e closed s ops = some s' → PInv e closed (c && !ops.any POp.isMove) s' := by
  induction ops with
  | nil => intro c s s' h _ hx; simp [polyRun] at hx; subst hx; simpa using h
  | cons op ops ih =>
    intro c s s' h hr hx
    simp only [polyRun, Option.bind_eq_some_iff] at hx
    obtain ⟨s1, h1, h2⟩ := hx
    have := ih (exec_inv he h op (hr op (by simp)) h1) (fun o ho => hr o (by simp [ho])) h2
    simpa [Bool.and_assoc] using this

/-- Calls after which no attribute is cached. -/
theorem exec_reset {closed : Bool} {s s' : PState K} (op : POp K) (hop : (∃ r, op = .rotate r) ∨ (∃ r p, op = .rotateRef r p) ∨ (∃ p, op = .edit p) ∨ op = .clear)
    (hx : op.exec e closed s = some s') : PInv e closed true s' := by
  rcases hop with ⟨r, rfl⟩ | ⟨r, p, rfl⟩ | ⟨p, rfl⟩ | rfl
  · simp only [POp.exec, Option.some_inj] at hx; subst hx; exact PInv.reset _
  · simp only [POp.exec, Option.some_inj] at hx; subst hx
    exact ⟨by simp [PState.reset, PState.translate], by simp [PState.reset, PState.translate], by simp [PState.reset, PState.translate],
      by simp [PState.reset, PState.translate]⟩
  · simp only [POp.exec, Option.some_inj] at hx; subst hx; exact PInv.reset _
  · simp only [POp.exec, Option.some_inj] at hx; subst hx; exact PInv.reset _

theorem polyRun_append (closed : Bool) (ops1 ops2 : List (POp K)) (s : PState K) :
    polyRun e closed s (ops1 ++ ops2) = (polyRun e closed s ops1).bind (fun s' => polyRun e closed s' ops2) := by
  induction ops1 generalizing s with
  | nil => simp [polyRun]
  | cons op ops ih =>
    simp only [List.cons_append, polyRun]
    cases op.exec e closed s <;> simp [ih]

end H2d
