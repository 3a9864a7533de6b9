import Verif.Lemmas.PolyState
import Verif.Lemmas.Homogr
import Verif.Spec.PolyMoves

set_option linter.unusedSectionVars false

namespace H2d

open H2d.Spec

variable {K : Type} [Field K] [LinearOrder K] [IsStrictOrderedRing K]

theorem rotPt_quarter (r : Rotate) (p : Pt K) : rotPt r p = quarter r p := by cases r <;> rfl

theorem openPairs_all_chain (same : Pt K → Pt K → Bool) : ∀ (l : List (Pt K)) (a : Pt K),
    (openPairs (a :: l)).all (fun s => !(same s.1 s.2)) = true ↔ (a :: l).IsChain (fun p q => same p q = false)
  | [], a => by simp [openPairs]
  | b :: l, a => by
    have := openPairs_all_chain same l b
    simp only [openPairs, List.tail_cons, List.zip_cons_cons, List.all_cons, Bool.and_eq_true, Bool.not_eq_true', List.isChain_cons_cons] at this ⊢
    rw [this]

theorem checkInput_accept (same : Pt K → Pt K → Bool) (l : List (Pt K)) : checkInput same l = true ↔ AcceptPts same l := by
  match l with
  | [] => simp [checkInput, AcceptPts]
  | [a] => simp [checkInput, AcceptPts]
  | a :: b :: l =>
    have h := openPairs_all_chain same (b :: l) a
    simp only [checkInput, Bool.and_eq_true, AcceptPts, h]
    simp [List.getLast?_cons, List.getLastD_eq_getLast?]

theorem dropMarked_sublist : ∀ (l : List (Pt K)) (i : Nat) (ks : List Nat), (dropMarked i ks l).Sublist l
  | [], i, ks => by simp [dropMarked]
  | p :: ps, i, [] => by simp only [dropMarked]; exact (dropMarked_sublist ps _ _).cons_cons _
  | p :: ps, i, k :: ks => by
    simp only [dropMarked]
    split_ifs
    · exact (dropMarked_sublist ps _ _).cons_cons _
    · exact (dropMarked_sublist ps _ _).cons _

theorem addPoints_value (same : Pt K → Pt K → Bool) (l pts : List (Pt K)) (h : addPoints same [] l = .ok pts) : pts = l := by
  cases l with
  | nil => simpa [addPoints] using h.symm
  | cons b l =>
    rw [addPoints] at h
    rcases addPoints_cons_spec same l b [] with ⟨e, -⟩ | ⟨e, -⟩
    · rw [e] at h; simpa using h.symm
    · rw [e] at h; cases h

theorem qSimple_pts (e : Env K) (closed : Bool) (s : PState K) : (qSimple e closed s).2.pts = s.pts := by
  unfold qSimple; split_ifs <;> try rfl
  split <;> try rfl
  split <;> rfl

theorem qLength_pts (e : Env K) (closed : Bool) (s : PState K) : (qLength e closed s).2.pts = s.pts := by
  unfold qLength; split <;> try rfl
  split <;> rfl

theorem qArea_pts (e : Env K) (closed : Bool) (s : PState K) : (qArea e closed s).2.pts = s.pts := by
  have := qSimple_pts e closed s
  unfold qArea
  split <;> rename_i h <;> rw [h] at this <;> try exact this
  split <;> exact this

theorem qCentroid_pts (e : Env K) (closed : Bool) (s : PState K) : (qCentroid e closed s).2.pts = s.pts := by
  have := qSimple_pts e closed s
  unfold qCentroid
  split <;> rename_i h <;> rw [h] at this <;> try exact this
  split <;> exact this

theorem normalize_pts (closed : Bool) (l pts : List (Pt K)) (h : normalizePoly closed l = .ok pts) :
    pts = l ∨ pts = l.reverse ∨ (closed = true ∧ ∃ k, pts = l.rotate k ∨ pts = l.reverse.rotate k) := by
  cases l with
  | nil => left; simpa [normalizePoly] using h.symm
  | cons p ps =>
    cases closed with
    | false =>
      simp only [normalizePoly, Bool.false_eq_true, if_false] at h
      split_ifs at h
      · right; left; cases h; rfl
      · left; cases h; rfl
    | true => exact .inr (.inr ⟨rfl, normalizePoly_cycle _ _ h⟩)

theorem exec_pts (e : Env K) (closed : Bool) (s s' : PState K) (op : POp K) (h : op.exec e closed s = some s') :
    PtsAfter e.same closed s.pts s'.pts op := by
  cases op with
  | set pts =>
    simp only [POp.exec, Option.some.injEq] at h
    by_cases hc : checkInput e.same pts = true
    · rw [if_pos hc] at h; subst h; exact .inl ⟨(checkInput_accept _ _).1 hc, rfl⟩
    · rw [if_neg hc] at h; subst h; exact .inr ⟨fun h => hc ((checkInput_accept _ _).2 h), rfl⟩
  | clear => cases h; rfl
  | translate dx dy => cases h; rfl
  | moveTo p =>
    simp only [POp.exec] at h
    cases hp : s.pts with
    | nil => rw [hp] at h; cases h; simp [PtsAfter, hp]
    | cons a l =>
      rw [hp] at h; cases h
      simp only [PtsAfter, PState.translate, polyTranslate, hp, List.headD_cons]
      apply List.map_congr_left
      intro q _
      exact Prod.ext (by ring) (by ring)
  | rotate r =>
    cases h
    exact List.map_congr_left (fun q _ => rotPt_quarter r q)
  | rotateRef r c =>
    cases h
    simp only [PtsAfter, PState.translate, PState.reset, polyTranslate, polyRotate, List.map_map]
    apply List.map_congr_left
    intro q _
    simp only [Function.comp, rotPt_quarter, ← sub_eq_add_neg]
    exact Prod.ext (add_comm _ _) (add_comm _ _)
  | minimize =>
    simp only [POp.exec] at h
    simp only [PtsAfter]
    split_ifs at h
    all_goals try (cases h; exact List.Sublist.refl _)
    all_goals
      split at h
      · rename_i hq
        cases h
        rw [show (PState.reset _ : PState K).pts = _ from rfl, addPoints_value _ _ _ hq]
        exact dropMarked_sublist _ _ _
      · cases h; exact List.Sublist.refl _
      · cases h
  | edit pts => cases h; rfl
  | retained pts => cases h; rfl
  | length => cases h; exact qLength_pts _ _ _
  | area => cases h; exact qArea_pts _ _ _
  | isSimple => cases h; exact qSimple_pts _ _ _
  | centroid => cases h; exact qCentroid_pts _ _ _
  | isConvex => cases h; exact qSimple_pts _ _ _
  | compare =>
    simp only [POp.exec] at h
    split_ifs at h
    · cases h; exact .inl rfl
    · split at h
      · cases h; exact .inl rfl
      · split at h
        · rename_i hq; cases h; exact normalize_pts _ _ _ hq
        · cases h; exact .inl rfl
        · cases h

theorem congruent_refl (a : List (Pt K)) : Congruent a a := ⟨rfl, fun _ _ _ _ => rfl⟩

theorem congruent_trans {a b c : List (Pt K)} (h1 : Congruent a b) (h2 : Congruent b c) : Congruent a c := by
  obtain ⟨l1, h1⟩ := h1
  obtain ⟨l2, h2⟩ := h2
  exact ⟨l2.trans l1, fun i j hi hj => (h2 i j (l1 ▸ hi) (l1 ▸ hj)).trans (h1 i j hi hj)⟩

theorem congruent_map (a : List (Pt K)) (f : Pt K → Pt K)
    (hf : ∀ p q, ((f p).1 - (f q).1)^2 + ((f p).2 - (f q).2)^2 = (p.1 - q.1)^2 + (p.2 - q.2)^2) : Congruent a (a.map f) := by
  refine ⟨by simp, fun i j hi hj => ?_⟩
  simp only [List.getElem_map]
  exact hf _ _

theorem exec_rigid (e : Env K) (closed : Bool) (s s' : PState K) (op : POp K) (ho : POp.isRigid op = true)
    (h : op.exec e closed s = some s') : Congruent s.pts s'.pts := by
  have := exec_pts e closed s s' op h
  cases op <;> simp only [POp.isRigid, Bool.false_eq_true] at ho <;> simp only [PtsAfter] at this <;> rw [this]
  case translate => exact congruent_map _ _ (fun p q => by simp only; ring)
  case moveTo => exact congruent_map _ _ (fun p q => by simp only; ring)
  case rotate r => exact congruent_map _ _ (fun p q => by cases r <;> simp only [quarter] <;> ring)
  case rotateRef r _ => exact congruent_map _ _ (fun p q => by cases r <;> simp only [quarter] <;> ring)
  all_goals exact congruent_refl _

theorem run_rigid (e : Env K) (closed : Bool) : ∀ (ops : List (POp K)) (s s' : PState K), (∀ op ∈ ops, POp.isRigid op = true) →
    polyRun e closed s ops = some s' → Congruent s.pts s'.pts
  | [], s, s', _, h => by cases h; exact congruent_refl _
  | op :: ops, s, s', ho, h => by
    rw [polyRun, Option.bind_eq_some_iff] at h
    obtain ⟨s1, h1, h2⟩ := h
    exact congruent_trans (exec_rigid e closed s s1 op (ho _ (by simp)) h1) (run_rigid e closed ops s1 s' (fun o hm => ho o (by simp [hm])) h2)

end H2d
