import Verif.Spec.Svg
import Verif.Lemmas.Polyline
import Mathlib.Data.List.TakeWhile

set_option linter.unusedSectionVars false
set_option linter.unusedSimpArgs false

namespace H2d.Svg
open H2d H2d.Spec

/-! ### tokenize -/

theorem tokLoop_no {delim : Char} : ∀ (s item rest : List Char), delim ∉ s → tokenizeLoop delim item (s ++ delim :: rest) = (item.reverse ++ s) :: tokenizeLoop delim [] rest
  | [], item, rest, _ => by simp [tokenizeLoop]
  | c :: s, item, rest, h => by
    have hc : c ≠ delim := fun e => h (by simp [e])
    have := tokLoop_no s (c :: item) rest (fun e => h (List.mem_cons_of_mem _ e))
    simp only [List.cons_append, tokenizeLoop, if_neg hc, this, List.reverse_cons, List.append_assoc, List.nil_append]

theorem tokLoop_end {delim : Char} : ∀ (s item : List Char), delim ∉ s → item ++ s ≠ [] → tokenizeLoop delim item s = [item.reverse ++ s]
  | [], item, _, h => by simp at h; simp [tokenizeLoop, h]
  | c :: s, item, h, _ => by
    have hc : c ≠ delim := fun e => h (by simp [e])
    have := tokLoop_end s (c :: item) (fun e => h (List.mem_cons_of_mem _ e)) (by simp)
    simp only [tokenizeLoop, if_neg hc, this, List.reverse_cons, List.append_assoc, List.singleton_append]

/-- The tokens of a point. -/
theorem tokenize_pt {a b : List Char} (ha : ',' ∉ a) (hb : ',' ∉ b) (hb' : b ≠ []) : tokenize ',' (a ++ [','] ++ b) = [a, b] := by
  unfold tokenize
  rw [List.append_assoc, List.singleton_append, tokLoop_no _ _ _ ha, tokLoop_end _ _ hb (by simpa using hb')]
  simp

variable {K : Type}

theorem tokenize_write (fmt : K → List Char) : ∀ pts : List (Pt K), (∀ p ∈ pts, ' ' ∉ fmt p.1 ∧ ' ' ∉ fmt p.2) →
    tokenize ' ' (writePoints fmt pts) = pts.map (fun p => fmt p.1 ++ [','] ++ fmt p.2)
  | [], _ => by simp [tokenize, writePoints, tokenizeLoop]
  | p :: pts, h => by
    have hp := h p (by simp)
    have ih := tokenize_write fmt pts (fun q hq => h q (List.mem_cons_of_mem _ hq))
    unfold tokenize at ih ⊢
    unfold writePoints at ih ⊢
    rw [List.flatMap_cons, List.append_assoc, List.singleton_append, tokLoop_no, ih]
    · simp
    · simp [hp.1, hp.2]

theorem parsePoints_write (fmt : K → List Char) (stod : List Char → Option K) (rnd : K → K) (pts : List (Pt K))
    (h : ∀ p ∈ pts, ∀ x, x = p.1 ∨ x = p.2 → ' ' ∉ fmt x ∧ ',' ∉ fmt x ∧ fmt x ≠ [] ∧ stod (fmt x) = some (rnd x)) :
    parsePoints stod (writePoints fmt pts) = .ok (pts.map (fun p => (rnd p.1, rnd p.2))) := by
  unfold parsePoints
  rw [tokenize_write fmt pts (fun p hp => ⟨(h p hp _ (Or.inl rfl)).1, (h p hp _ (Or.inr rfl)).1⟩)]
  induction pts with
  | nil => rfl
  | cons p pts ih =>
    have h1 := h p (by simp) p.1 (Or.inl rfl)
    have h2 := h p (by simp) p.2 (Or.inr rfl)
    simp only [List.map_cons, parsePointsLoop, tokenize_pt h1.2.1 h2.2.1 h2.2.2.1, h1.2.2.2, h2.2.2.2, ih (fun q hq => h q (List.mem_cons_of_mem _ hq)), Res.bind_ok, Res.pure_eq]

/-! ### purge -/

theorem purge_sublist {P : Type} (same : P → P → Bool) : ∀ l, (purgeSetDupes same l).Sublist l
  | [] => List.Sublist.refl _
  | [_] => List.Sublist.refl _
  | a :: b :: l => by
    rw [purgeSetDupes]
    split
    · exact (purge_sublist same (b :: l)).cons a
    · exact (purge_sublist same (b :: l)).cons_cons a

theorem purge_ne {P : Type} (same : P → P → Bool) : ∀ l, l ≠ [] → purgeSetDupes same l ≠ []
  | [], h => h
  | [_], _ => by simp [purgeSetDupes]
  | a :: b :: l, _ => by
    rw [purgeSetDupes]
    split
    · exact purge_ne same (b :: l) (by simp)
    · simp

theorem purge_last {P : Type} (same : P → P → Bool) : ∀ l, (purgeSetDupes same l).getLast? = l.getLast?
  | [] => rfl
  | [_] => rfl
  | a :: b :: l => by
    have ih := purge_last same (b :: l)
    rw [purgeSetDupes, List.getLast?_cons_cons]
    split
    · exact ih
    · obtain ⟨x, m, e⟩ := List.exists_cons_of_ne_nil (purge_ne same (b :: l) (by simp))
      rw [e] at ih ⊢
      rw [List.getLast?_cons_cons]; exact ih

theorem purge_head {P : Type} {same : P → P → Bool} (hr : ∀ a, same a a = true) (ht : ∀ a b c, same a b = true → same b c = true → same a c = true) :
    ∀ l, ∀ a ∈ l.head?, ∃ b ∈ (purgeSetDupes same l).head?, same a b = true
  | [], _, h => by simp at h
  | [x], a, h => by
    simp only [List.head?_cons, Option.mem_def, Option.some.injEq] at h
    subst h
    exact ⟨x, rfl, hr x⟩
  | x :: y :: l, a, h => by
    simp only [List.head?_cons, Option.mem_def, Option.some.injEq] at h
    subst h
    rw [purgeSetDupes]
    split
    · rename_i hxy
      obtain ⟨b, hb, hs⟩ := purge_head hr ht (y :: l) y rfl
      exact ⟨b, hb, ht _ _ _ hxy hs⟩
    · exact ⟨x, rfl, hr x⟩

theorem purge_chain {P : Type} {same : P → P → Bool} (hr : ∀ a, same a a = true) (hs : ∀ a b, same a b = true → same b a = true) (ht : ∀ a b c, same a b = true → same b c = true → same a c = true) :
    ∀ l, ∀ s ∈ openPairs (purgeSetDupes same l), same s.1 s.2 = false
  | [], _, h => by simp [purgeSetDupes, openPairs] at h
  | [x], _, h => by simp [purgeSetDupes, openPairs] at h
  | x :: y :: l, s, h => by
    rw [purgeSetDupes] at h
    have ih := purge_chain hr hs ht (y :: l)
    split at h
    · exact ih s h
    · rename_i hxy
      obtain ⟨b, hb, e⟩ := purge_head hr ht (y :: l) y rfl
      obtain ⟨z, m, em⟩ := List.exists_cons_of_ne_nil (purge_ne same (y :: l) (by simp))
      rw [em] at h hb ih
      simp only [List.head?_cons, Option.mem_def, Option.some.injEq] at hb
      subst hb
      simp only [openPairs, List.tail_cons, List.zip_cons_cons, List.mem_cons] at h
      rcases h with rfl | h
      · by_contra hc
        rw [Bool.not_eq_false] at hc
        exact hxy (ht _ _ _ hc (hs _ _ e))
      · exact ih s h

theorem purge_cover {P : Type} {same : P → P → Bool} (hr : ∀ a, same a a = true) (ht : ∀ a b c, same a b = true → same b c = true → same a c = true) :
    ∀ l, ∀ a ∈ l, ∃ b ∈ purgeSetDupes same l, same a b = true
  | [], _, h => by simp at h
  | [x], a, h => by simp only [List.mem_singleton] at h; subst h; exact ⟨a, by simp [purgeSetDupes], hr a⟩
  | x :: y :: l, a, h => by
    have ih := purge_cover hr ht (y :: l)
    rw [purgeSetDupes]
    rcases List.mem_cons.1 h with rfl | h
    · split
      · rename_i hxy
        obtain ⟨b, hb, e⟩ := ih y (by simp)
        exact ⟨b, hb, ht _ _ _ hxy e⟩
      · exact ⟨a, by simp, hr a⟩
    · obtain ⟨b, hb, e⟩ := ih a h
      split
      · exact ⟨b, hb, e⟩
      · exact ⟨b, List.mem_cons_of_mem _ hb, e⟩

/-! ### The elements of a path string -/

theorem isDigit_iff (c : Char) : isDigit c = true ↔ (c.isDigit ∨ c = '.' ∨ c = '-') := by
  unfold isDigit
  simp only [Bool.or_eq_true, Bool.and_eq_true, decide_eq_true_eq, beq_iff_eq, or_assoc]
  unfold Char.isDigit
  simp only [Bool.and_eq_true, decide_eq_true_eq, ge_iff_le]
  rw [UInt32.le_iff_toNat_le, UInt32.le_iff_toNat_le]
  rfl

theorem isSep_iff (c : Char) : isSep c = true ↔ (c = ' ' ∨ c = ',') := by
  unfold isSep; simp

theorem sep_not_digit {c : Char} (h : isSep c = true) : isDigit c = false := by
  rw [isSep_iff] at h
  rcases h with rfl | rfl <;> decide

theorem nextElem_shorter {s : List Char} (h : s ≠ []) : (getNextElem s).2.length < s.length := by
  unfold getNextElem
  have h1 := (List.dropWhile_sublist isSep (l := s)).length_le
  split
  · exact List.length_pos_iff.2 h
  · rename_i c r e
    rw [e] at h1
    simp only [List.length_cons] at h1
    split
    · rename_i hd
      rw [List.dropWhile_cons, if_pos hd]
      have := (List.dropWhile_sublist isDigit (l := r)).length_le
      simp only; omega
    · simp only; omega

/-- The elements that the loop sees. -/
def elems : Nat → List Char → List (List Char)
  | 0, _ => []
  | n + 1, s => if s = [] then [] else (getNextElem s).1 :: elems n (getNextElem s).2

/-- A step for each element. -/
def runSteps [Add K] (stod : List Char → Option K) : List (List Char) → PState K → Res (PState K)
  | [], st => .ok st
  | e :: es, st => do
    let st ← pathStep stod e st
    runSteps stod es st

theorem runSteps_append [Add K] (stod : List Char → Option K) : ∀ (a b : List (List Char)) (st : PState K),
    runSteps stod (a ++ b) st = (runSteps stod a st >>= runSteps stod b)
  | [], b, st => rfl
  | e :: a, b, st => by
    simp only [List.cons_append, runSteps]
    cases pathStep stod e st with
    | ok st' => simp only [Res.bind_ok]; exact runSteps_append stod a b st'
    | throw => rfl
    | ub => rfl

theorem pathLoop_eq [Add K] (stod : List Char → Option K) : ∀ (n : Nat) (s : List Char) (st : PState K), s ≠ [] → s.length ≤ n →
    pathLoop stod n s st = some (runSteps stod (elems n s) st)
  | 0, s, st, h, hn => absurd (List.length_eq_zero_iff.1 (by omega)) h
  | n + 1, s, st, h, hn => by
    have hlt := nextElem_shorter h
    unfold pathLoop elems
    rw [if_neg h]
    simp only [runSteps]
    cases pathStep stod (getNextElem s).1 st with
    | throw => rfl
    | ub => rfl
    | ok st' =>
      simp only [Res.bind_ok]
      split
      · rename_i e
        rw [e]
        cases n <;> simp [elems, runSteps]
      · rename_i e
        exact pathLoop_eq stod n _ st' e (by omega)

/-- The initial state. -/
def pInit [Zero K] : PState K := ⟨{}, [], [], [], (0, 0)⟩

theorem parsePath_eq [Add K] [Zero K] [DecidableEq K] (stod : List Char → Option K) (same : Pt K → Pt K → Bool) {s : List Char} (h : s ≠ []) :
    parsePath stod same s = (runSteps stod (elems s.length s) pInit >>= pathEnd same) := by
  unfold parsePath
  rw [if_neg h, pathLoop_eq stod _ _ _ h le_rfl]
  show (match some (runSteps stod (elems s.length s) pInit) with
    | some (.ok st) => pathEnd same st
    | some .throw => .throw
    | some .ub => .ub
    | none => .ub) = _
  cases runSteps stod (elems s.length s) (pInit : PState K) <;> rfl

/-! ### Spelling -/

/-- Words: a number, or a letter. -/
def IsWord (w : List Char) : Prop := IsNumWord w ∨ ∃ c, w = [c] ∧ isDigit c = false ∧ isSep c = false

theorem isNumWord_iff {w : List Char} : IsNumWord w ↔ w ≠ [] ∧ ∀ c ∈ w, isDigit c = true := by
  unfold IsNumWord
  simp only [isDigit_iff]

theorem digit_not_sep {c : Char} (h : isDigit c = true) : isSep c = false := by
  by_contra hc
  rw [Bool.not_eq_false] at hc
  rw [sep_not_digit hc] at h
  simp at h

theorem spells_head {ws : List (List Char)} {str : List Char} (h : Spells True ws str) (hw : ∀ w ∈ ws, IsWord w) : str = [] ∨ ∃ c r, str = c :: r ∧ isDigit c = false := by
  cases h with
  | nil => exact Or.inl rfl
  | cons h1 h2 h3 =>
    rename_i w ws sep str
    right
    match sep with
    | c :: sep => exact ⟨c, sep ++ w ++ str, rfl, sep_not_digit ((isSep_iff c).2 (h1 c (by simp)))⟩
    | [] =>
      rcases hw w (by simp) with hn | ⟨c, rfl, hc, _⟩
      · exact absurd rfl (h2 trivial hn)
      · exact ⟨c, str, rfl, hc⟩

theorem dropWhile_all_append {α : Type} (p : α → Bool) : ∀ (l m : List α), (∀ x ∈ l, p x = true) → (l ++ m).dropWhile p = m.dropWhile p
  | [], _, _ => rfl
  | a :: l, m, h => by
    rw [List.cons_append, List.dropWhile_cons, if_pos (h a (by simp))]
    exact dropWhile_all_append p l m (fun x hx => h x (List.mem_cons_of_mem _ hx))

theorem takeWhile_all_append {α : Type} (p : α → Bool) : ∀ (l m : List α), (∀ x ∈ l, p x = true) → (l ++ m).takeWhile p = l ++ m.takeWhile p
  | [], _, _ => rfl
  | a :: l, m, h => by
    rw [List.cons_append, List.takeWhile_cons, if_pos (h a (by simp)), takeWhile_all_append p l m (fun x hx => h x (List.mem_cons_of_mem _ hx))]
    rfl

theorem nextElem_word {sep w str : List Char} (hs : ∀ c ∈ sep, isSep c = true) (hw : IsWord w) (hstr : IsNumWord w → str = [] ∨ ∃ c r, str = c :: r ∧ isDigit c = false) :
    getNextElem (sep ++ w ++ str) = (w, str) := by
  unfold getNextElem
  rw [List.append_assoc, dropWhile_all_append _ _ _ hs]
  rcases hw with hn | ⟨c, rfl, hc, hc'⟩
  · obtain ⟨h1, h2⟩ := isNumWord_iff.1 hn
    match w, h1, h2 with
    | c :: w, _, h2 =>
      have hcd := h2 c (by simp)
      rw [List.cons_append, List.dropWhile_cons, digit_not_sep hcd]
      simp only [Bool.false_eq_true, if_false, hcd, if_true]
      have e : c :: (w ++ str) = (c :: w) ++ str := rfl
      rw [e, takeWhile_all_append _ _ _ h2, dropWhile_all_append _ _ _ h2]
      rcases hstr hn with rfl | ⟨d, r, rfl, hd⟩
      · simp
      · simp [List.takeWhile_cons, List.dropWhile_cons, hd]
  · simp [List.dropWhile_cons, hc', hc]

theorem spells_ne {p : Prop} {w : List Char} {ws : List (List Char)} {str : List Char} (h : Spells p (w :: ws) str) (hw : w ≠ []) : str ≠ [] := by
  generalize hl : w :: ws = l at h
  cases h with
  | nil => simp at hl
  | cons _ _ _ =>
    obtain ⟨rfl, _⟩ := List.cons.inj hl
    simp [hw]

theorem elems_sep {t : List Char} (ht : ∀ c ∈ t, isSep c = true) (n : Nat) (hn : t.length ≤ n) : elems n t = if t = [] then [] else [[]] := by
  have hd : t.dropWhile isSep = [] := by
    have := dropWhile_all_append isSep t [] ht
    simpa using this
  cases n with
  | zero => simp [List.length_eq_zero_iff.1 (by omega : t.length = 0), elems]
  | succ n =>
    unfold elems
    split
    · rfl
    · have e : getNextElem t = ([], []) := by unfold getNextElem; rw [hd]
      rw [e]
      cases n <;> simp [elems]

theorem elems_spells {p : Prop} {ws : List (List Char)} {str : List Char} (h : Spells p ws str) {t : List Char} (ht : ∀ c ∈ t, isSep c = true) :
    (∀ w ∈ ws, IsWord w) → ∀ n, str.length + t.length ≤ n → elems n (str ++ t) = ws ++ if t = [] then [] else [[]] := by
  induction h with
  | nil p => intro _ n hn; simpa using elems_sep ht n (by simpa using hn)
  | @cons p w ws sep str h1 h2 h3 ih =>
    intro hw n hn
    have hwne : w ≠ [] := by
      rcases hw w (by simp) with h | ⟨c, rfl, _⟩
      · exact h.1
      · simp
    have hl := List.length_pos_iff.2 hwne
    simp only [List.length_append] at hn
    obtain ⟨m, rfl⟩ : ∃ m, n = m + 1 := ⟨n - 1, by omega⟩
    have hne : sep ++ w ++ (str ++ t) ≠ [] := by simp [hwne]
    have hnext := nextElem_word (str := str ++ t) (fun c hc => (isSep_iff c).2 (h1 c hc)) (hw w (by simp)) (fun hnum => by
      have h3' : Spells True ws str := by
        have : IsNumWord w = True := eq_true hnum
        rw [this] at h3; exact h3
      rcases spells_head h3' (fun v hv => hw v (List.mem_cons_of_mem _ hv)) with rfl | ⟨c, r, rfl, hc⟩
      · match t, ht with
        | [], _ => exact Or.inl rfl
        | c :: t, ht => exact Or.inr ⟨c, t, rfl, sep_not_digit (ht c (by simp))⟩
      · exact Or.inr ⟨c, r ++ t, rfl, hc⟩)
    unfold elems
    rw [List.append_assoc, if_neg hne, hnext, ih (fun v hv => hw v (List.mem_cons_of_mem _ hv)) m (by omega)]
    rfl

/-! ### Running the commands -/

section
variable [Add K]

/-- What the state becomes when the pending values are stored. -/
def Flush (st : PState K) (D : List (List (Pt K))) (C : List (Pt K)) (p : Pt K) : Prop :=
  storeIfAny st = .ok ⟨st.mode, D, C, [], p⟩

theorem flush_self (m : PathCmd) (D : List (List (Pt K))) (C : List (Pt K)) (p : Pt K) : Flush ⟨m, D, C, [], p⟩ D C p := by
  unfold Flush storeIfAny; simp

theorem flush_full {m : PathCmd} {D : List (List (Pt K))} {C : List (Pt K)} {p q : Pt K} {xs : List K} (hn : m.nb ≠ 0) (hx : xs.length = m.nb)
    (hg : generateNewPoint m p xs = .ok q) : Flush ⟨m, D, C, xs, p⟩ D (C ++ [q]) q := by
  unfold Flush storeIfAny
  simp only
  rw [if_pos (by omega)]
  unfold storeValues
  simp only
  rw [if_neg (by simpa using hx), hg]
  rfl

theorem step_letter (stod : List Char → Option K) {st : PState K} {D : List (List (Pt K))} {C : List (Pt K)} {p : Pt K} (h : Flush st D C p) {c : Char} {m : PathCmd}
    (hc : isDigit c = false) (hm : getCommand c = .ok m) (ha : cmdAllowed m.cmd = true) (hn : m.isNewPolyline = false) :
    runSteps stod [[c]] st = .ok ⟨m, D, C, [], p⟩ := by
  unfold Flush at h
  simp only [runSteps, pathStep, hc, Bool.false_eq_true, if_false]
  rw [h]
  simp [hm, ha, hn]

theorem step_newpoly (stod : List Char → Option K) {st : PState K} {D : List (List (Pt K))} {C : List (Pt K)} {p : Pt K} (h : Flush st D C p) {c : Char} {m : PathCmd}
    (hc : isDigit c = false) (hm : getCommand c = .ok m) (ha : cmdAllowed m.cmd = true) (hn : m.isNewPolyline = true) :
    runSteps stod [[c]] st = .ok ⟨m, if C = [] then D else D ++ [C], [], [], p⟩ := by
  unfold Flush at h
  simp only [runSteps, pathStep, hc, Bool.false_eq_true, if_false]
  rw [h]
  cases C <;> simp [hm, ha, hn]

theorem step_num (stod : List Char → Option K) (st : PState K) {x : K} {u : List Char} (hu : NumFor stod x u) :
    pathStep stod u st = (do
      let st ← storeIfFull st
      pure { st with values := st.values ++ [x] }) := by
  obtain ⟨h1, h2, h3⟩ := hu
  have e : pathStep stod u st = pathStep.pathValue stod u st := by
    match u, h1 with
    | [c], _ => simp only [pathStep, (isDigit_iff c).2 (h2 c (by simp)), if_true]
    | _ :: _ :: _, _ => rfl
  rw [e]
  unfold pathStep.pathValue
  rw [h3]

theorem step_args (stod : List Char → Option K) {st : PState K} {D : List (List (Pt K))} {C : List (Pt K)} {p : Pt K} (h : Flush st D C p)
    (hv : st.values.length = 0 ∨ st.values.length = st.mode.nb) (hn : st.mode.nb = 1 ∨ st.mode.nb = 2) {xs : List K} {us : List (List Char)}
    (hx : xs.length = st.mode.nb) (hu : List.Forall₂ (NumFor stod) xs us) : runSteps stod us st = .ok ⟨st.mode, D, C, xs, p⟩ := by
  have h1 : storeIfFull st = Res.ok ⟨st.mode, D, C, [], p⟩ := by
    unfold Flush storeIfAny at h
    unfold storeIfFull
    rcases hv with hv | hv
    · rw [if_neg (by omega)] at h ⊢; exact h
    · rw [if_pos (by omega)] at h; rw [if_pos hv]; exact h
  cases hu with
  | nil => simp at hx; omega
  | cons hu1 hu2 =>
    rename_i x u xs us
    simp only [runSteps, step_num stod st hu1]
    rw [h1]
    cases hu2 with
    | nil => simp [runSteps]
    | cons hu2 hu3 =>
      rename_i y v xs us
      cases hu3 with
      | cons _ _ => simp at hx; omega
      | nil =>
        simp only [List.length_cons, List.length_nil] at hx
        simp only [Res.bind_ok, Res.pure_eq, runSteps, step_num stod _ hu2, List.nil_append, List.length_cons, List.length_nil, storeIfFull]
        rw [if_neg (by omega)]
        rfl

end

/-- The command of a drawing letter. -/
def segMode : PathSeg K → PathCmd
  | .line rel _ _ => ⟨rel, 'L', 2⟩
  | .hline rel _ => ⟨rel, 'H', 1⟩
  | .vline rel _ => ⟨rel, 'V', 1⟩

theorem segMode_spec (s : PathSeg K) : isDigit s.letter = false ∧ isSep s.letter = false ∧ getCommand s.letter = .ok (segMode s) ∧ cmdAllowed (segMode s).cmd = true ∧ (segMode s).isNewPolyline = false ∧
    ((segMode s).nb = 1 ∨ (segMode s).nb = 2) ∧ s.args.length = (segMode s).nb := by
  cases s with
  | line rel x y => cases rel <;> simp only [PathSeg.letter, segMode, PathSeg.args] <;> exact ⟨by decide, by decide, by decide, by decide, by decide, by simp, rfl⟩
  | hline rel x => cases rel <;> simp only [PathSeg.letter, segMode, PathSeg.args] <;> exact ⟨by decide, by decide, by decide, by decide, by decide, by simp, rfl⟩
  | vline rel x => cases rel <;> simp only [PathSeg.letter, segMode, PathSeg.args] <;> exact ⟨by decide, by decide, by decide, by decide, by decide, by simp, rfl⟩

theorem segMode_letter {s s' : PathSeg K} (h : s.letter = s'.letter) : segMode s = segMode s' := by
  have h1 := (segMode_spec s).2.2.1
  have h2 := (segMode_spec s').2.2.1
  rw [h, h2] at h1
  exact (Res.ok.inj h1).symm

/-- Modes that read the same points: equal, or M for L. -/
def Fits (m : PathCmd) (c : Char) : Prop :=
  m.nb ≠ 0 ∧ m.cmd ≠ 'Z' ∧ ∀ s : PathSeg K, s.letter = c → m = segMode s ∨ (m.cmd = 'M' ∧ ∃ rel x y, s = .line rel x y ∧ m = ⟨rel, 'M', 2⟩)

theorem fits_self (s : PathSeg K) : Fits (K := K) (segMode s) s.letter := by
  refine ⟨by rcases (segMode_spec s).2.2.2.2.2.1 with h | h <;> omega, ?_, fun s' h => Or.inl (segMode_letter h.symm)⟩
  cases s <;> simp [segMode]

theorem fits_move (rel : Bool) : Fits (K := K) ⟨rel, 'M', 2⟩ (if rel then 'l' else 'L') := by
  refine ⟨by simp, by simp, ?_⟩
  intro s hs
  right
  refine ⟨rfl, ?_⟩
  cases s with
  | line r x y => cases rel <;> cases r <;> simp_all [PathSeg.letter]
  | hline r x => cases rel <;> cases r <;> simp_all [PathSeg.letter]
  | vline r x => cases rel <;> cases r <;> simp_all [PathSeg.letter]

section
variable [AddCommMonoid K]

theorem gen_seg (s : PathSeg K) (p : Pt K) : generateNewPoint (segMode s) p s.args = .ok (s.target p) := by
  cases s with
  | line rel x y => cases rel <;> simp [segMode, generateNewPoint, PathSeg.args, PathSeg.target]
  | hline rel x => cases rel <;> simp [segMode, generateNewPoint, PathSeg.args, PathSeg.target, add_comm]
  | vline rel x => cases rel <;> simp [segMode, generateNewPoint, PathSeg.args, PathSeg.target, add_comm]

theorem getLastD_cons' {α : Type} (a b : α) (l : List α) : (b :: l).getLastD a = l.getLastD b := by
  cases l <;> rfl

theorem run_segs (stod : List Char → Option K) {c : Char} {l : List (PathSeg K)} {ws : List (List Char)} (h : WritesSegs stod c l ws) :
    ∀ (st : PState K) (D : List (List (Pt K))) (C : List (Pt K)) (p : Pt K), Flush st D C p → (st.values.length = 0 ∨ st.values.length = st.mode.nb) → Fits (K := K) st.mode c →
      ∃ st', runSteps stod ws st = .ok st' ∧ Flush st' D (C ++ trace p l) ((trace p l).getLastD p) ∧ st'.mode.cmd ≠ 'Z' := by
  induction h with
  | nil c => intro st D C p hf _ hm; exact ⟨st, rfl, by simpa [trace] using hf, hm.2.1⟩
  | @letter c s l ws us hu hw ih =>
    intro st D C p hf hv hm
    obtain ⟨s1, _, s2, s3, s4, s5, s6⟩ := segMode_spec s
    have e1 := step_letter stod hf s1 s2 s3 s4
    have e2 := step_args stod (flush_self (segMode s) D C p) (Or.inl rfl) s5 s6 hu
    have hf' := flush_full (D := D) (C := C) (by rcases s5 with h | h <;> omega) s6 (gen_seg s p)
    obtain ⟨st', h1, h2, h3⟩ := ih _ _ _ _ hf' (Or.inr s6) (fits_self s)
    refine ⟨st', ?_, ?_, h3⟩
    · have : [s.letter] :: us ++ ws = [[s.letter]] ++ (us ++ ws) := rfl
      rw [this, runSteps_append, e1, Res.bind_ok, runSteps_append, e2, Res.bind_ok, h1]
    · rw [trace, getLastD_cons']
      simpa using h2
  | @implied s l ws us hu hw ih =>
    intro st D C p hf hv hm
    obtain ⟨s1, _, s2, s3, s4, s5, s6⟩ := segMode_spec s
    obtain ⟨m0, m1, m2⟩ := hm
    have key : s.args.length = st.mode.nb ∧ (st.mode.nb = 1 ∨ st.mode.nb = 2) ∧ generateNewPoint st.mode p s.args = .ok (s.target p) ∧ Fits (K := K) st.mode s.letter := by
      rcases m2 s rfl with e | ⟨_, rel, x, y, rfl, e⟩
      · rw [e]; exact ⟨s6, s5, gen_seg s p, fits_self s⟩
      · rw [e]
        refine ⟨rfl, Or.inr rfl, ?_, ?_⟩
        · cases rel <;> simp [generateNewPoint, PathSeg.args, PathSeg.target]
        · cases rel
          · exact fits_move false
          · exact fits_move true
    obtain ⟨k1, k2, k3, k4⟩ := key
    have e2 := step_args stod hf hv k2 k1 hu
    have hf' := flush_full (D := D) (C := C) m0 k1 k3
    obtain ⟨st', h1, h2, h3⟩ := ih _ _ _ _ hf' (Or.inr k1) k4
    refine ⟨st', ?_, ?_, h3⟩
    · rw [runSteps_append, e2, Res.bind_ok, h1]
    · rw [trace, getLastD_cons']
      simpa using h2

/-- The vectors of points, without the empty last one. -/
def vo (D : List (List (Pt K))) (C : List (Pt K)) : List (List (Pt K)) := if C = [] then D else D ++ [C]

theorem run_sub (stod : List Char → Option K) {s : SubPath K} {ws : List (List Char)} (h : WritesSub stod s ws) (st : PState K) (D : List (List (Pt K))) (C : List (Pt K)) (p : Pt K)
    (hf : Flush st D C p) : ∃ st' D' C' p', runSteps stod ws st = .ok st' ∧ Flush st' D' C' p' ∧ vo D' C' = vo D C ++ [s.vertices p] ∧ (st'.mode.cmd == 'Z') = s.closed ∧
      (s.closed = false → p' = s.after p) := by
  obtain ⟨ux, uy, us, zs, hx, hy, hs, hz, rfl⟩ := h
  have hM : getCommand (if s.rel then 'm' else 'M') = .ok ⟨s.rel, 'M', 2⟩ ∧ isDigit (if s.rel then 'm' else 'M') = false := by cases s.rel <;> decide
  have e1 := step_newpoly stod hf hM.2 hM.1 (by simp [cmdAllowed]) (by simp [PathCmd.isNewPolyline])
  have e2 := step_args stod (flush_self ⟨s.rel, 'M', 2⟩ (vo D C) [] p) (Or.inl rfl) (Or.inr rfl) (xs := [s.x, s.y]) rfl (List.Forall₂.cons hx (List.Forall₂.cons hy List.Forall₂.nil))
  have hf' := flush_full (m := ⟨s.rel, 'M', 2⟩) (D := vo D C) (C := []) (p := p) (q := s.start p) (xs := [s.x, s.y]) (by simp) rfl (by
    cases hr : s.rel <;> simp [generateNewPoint, SubPath.start, hr])
  obtain ⟨st', h1, h2, h3⟩ := run_segs stod hs _ _ _ _ hf' (Or.inr rfl) (fits_move s.rel)
  have hrun : runSteps stod ([if s.rel then 'm' else 'M'] :: ux :: uy :: us) st = .ok st' := by
    have : [if s.rel then 'm' else 'M'] :: ux :: uy :: us = [[if s.rel then 'm' else 'M']] ++ ([ux, uy] ++ us) := rfl
    rw [this, runSteps_append, e1, Res.bind_ok, runSteps_append]
    show (runSteps stod [ux, uy] ⟨_, vo D C, [], [], p⟩ >>= _) = _
    rw [e2, Res.bind_ok, h1]
  have hvs : [] ++ [s.start p] ++ trace (s.start p) s.segs = s.vertices p := rfl
  rw [hvs] at h2
  have hvne : s.vertices p ≠ [] := by simp [SubPath.vertices]
  cases hc : s.closed with
  | false =>
    rw [hc] at hz
    simp only [Bool.false_eq_true, if_false] at hz
    subst hz
    refine ⟨st', _, _, _, by rw [List.append_nil]; exact hrun, h2, ?_, ?_, ?_⟩
    · rw [vo, if_neg hvne]
    · simp [h3]
    · intro _; simp [SubPath.after, hc]
  | true =>
    rw [hc] at hz
    simp only [if_true] at hz
    have hz' : ∃ c rel, zs = [[c]] ∧ isDigit c = false ∧ getCommand c = .ok ⟨rel, 'Z', 0⟩ := by
      rcases hz with rfl | rfl
      · exact ⟨'Z', false, rfl, by decide, by decide⟩
      · exact ⟨'z', true, rfl, by decide, by decide⟩
    obtain ⟨c, rel, rfl, hc1, hc2⟩ := hz'
    have e3 := step_newpoly stod h2 hc1 hc2 (by simp [cmdAllowed]) (by simp [PathCmd.isNewPolyline])
    refine ⟨_, _, _, _, by rw [runSteps_append, hrun, Res.bind_ok, e3], flush_self _ _ _ _, ?_, by simp, by simp⟩
    rw [vo, if_pos rfl, if_neg hvne]

theorem run_path (stod : List Char → Option K) {l : List (SubPath K)} {ws : List (List Char)} (h : WritesPath stod l ws) :
    ∀ (st : PState K) (D : List (List (Pt K))) (C : List (Pt K)) (p cur : Pt K), Flush st D C p → (∀ s ∈ l.head?, s.rel = true → cur = p) →
      (∀ s ∈ l.zip l.tail, s.1.closed = true → s.2.rel = false) →
      ∃ st' D' C' p', runSteps stod ws st = .ok st' ∧ Flush st' D' C' p' ∧ vo D' C' = vo D C ++ pathMeaning cur l ∧
        (st'.mode.cmd == 'Z') = (l.getLast?.map (·.closed)).getD (st.mode.cmd == 'Z') := by
  induction h with
  | nil => intro st D C p cur hf _ _; exact ⟨st, D, C, p, rfl, hf, by simp [pathMeaning], rfl⟩
  | @cons s l ws us hs hw ih =>
    intro st D C p cur hf hcur hcl
    obtain ⟨st1, D1, C1, p1, r1, f1, v1, m1, a1⟩ := run_sub stod hs st D C p hf
    have hstart : s.start cur = s.start p := by
      unfold SubPath.start
      cases hr : s.rel with
      | false => simp
      | true => rw [hcur s rfl hr]
    have hvert : s.vertices cur = s.vertices p := by unfold SubPath.vertices; rw [hstart]
    have hafter : s.after cur = s.after p := by unfold SubPath.after; rw [hstart]
    have hnext : ∀ s' ∈ l.head?, s'.rel = true → s.after cur = p1 := by
      intro s' hs' hr
      cases hc : s.closed with
      | false => rw [hafter, a1 hc]
      | true =>
        match l, hs' with
        | s'' :: l, hs' =>
          simp only [List.head?_cons, Option.mem_def, Option.some.injEq] at hs'
          subst hs'
          have := hcl (s, s'') (by simp) hc
          simp only at this
          rw [this] at hr
          simp at hr
    have htail : ∀ q ∈ l.zip l.tail, q.1.closed = true → q.2.rel = false := by
      intro q hq
      refine hcl q ?_
      match l, hq with
      | s'' :: l, hq => simp only [List.tail_cons, List.zip_cons_cons, List.mem_cons] at hq ⊢; exact Or.inr hq
    obtain ⟨st2, D2, C2, p2, r2, f2, v2, m2⟩ := ih st1 D1 C1 p1 (s.after cur) f1 hnext htail
    refine ⟨st2, D2, C2, p2, by rw [runSteps_append, r1, Res.bind_ok, r2], f2, ?_, ?_⟩
    · rw [v2, v1, pathMeaning, hvert]; simp
    · rw [m2]
      cases l with
      | nil => simp [m1]
      | cons s' l =>
        rw [List.getLast?_cons_cons]
        have : (s' :: l).getLast? = some ((s' :: l).getLast (by simp)) := List.getLast?_eq_some_getLast _
        rw [this]; rfl

end

theorem pathEnd_flush [Add K] (same : Pt K → Pt K → Bool) {st : PState K} {D : List (List (Pt K))} {C : List (Pt K)} {p : Pt K} (h : Flush st D C p) :
    pathEnd same st = .ok ((if C = [] then D else D ++ [C]).map (purgeSetDupes same), st.mode.cmd == 'Z') := by
  unfold Flush at h
  unfold pathEnd
  rw [h]
  simp only [Res.bind_ok, Res.pure_eq, Res.ok.injEq, Prod.mk.injEq, and_true]
  have e : ∀ v : List (Pt K), (if v = [] then v else purgeSetDupes same v) = purgeSetDupes same v := by
    intro v; split
    · rename_i h; rw [h]; rfl
    · rfl
  simp only [e]
  cases C with
  | nil => simp [purgeSetDupes]
  | cons a C =>
    have hne := purge_ne same (a :: C) (by simp)
    simp [hne]

/-! ### No abort -/

/-- States in which the number of values is right for the command, and no value is pending after Z. -/
def Safe (st : PState K) : Prop :=
  ((st.mode.cmd = 'M' ∨ st.mode.cmd = 'L') ∧ st.mode.nb = 2) ∨ ((st.mode.cmd = 'H' ∨ st.mode.cmd = 'V') ∧ st.mode.nb = 1) ∨ (st.mode.cmd = 'Z' ∧ st.mode.nb = 0 ∧ st.values = [])

section
variable [Add K]

theorem store_safe {st : PState K} (h : Safe st) (hz : st.mode.cmd ≠ 'Z') : storeValues st ≠ .ub ∧ ∀ st', storeValues st = .ok st' → st'.mode = st.mode ∧ st'.values = [] := by
  unfold storeValues
  split
  · simp
  · rename_i hl
    rw [not_not] at hl
    have hg : ∃ p, generateNewPoint st.mode st.prev st.values = .ok p := by
      unfold generateNewPoint
      rcases h with ⟨h1, h2⟩ | ⟨h1, h2⟩ | ⟨h1, _⟩
      · rw [if_pos h1]
        rw [h2] at hl
        match hv : st.values, hl with
        | [x, y], _ => exact ⟨_, rfl⟩
      · have hne : ¬ (st.mode.cmd = 'M' ∨ st.mode.cmd = 'L') := by rcases h1 with h1 | h1 <;> rw [h1] <;> decide
        rw [if_neg hne]
        rw [h2] at hl
        match hv : st.values, hl with
        | [x], _ =>
          rcases h1 with h1 | h1
          · rw [if_pos h1]; exact ⟨_, rfl⟩
          · rw [if_neg (by rw [h1]; decide), if_pos h1]; exact ⟨_, rfl⟩
      · exact absurd h1 hz
    obtain ⟨p, hp⟩ := hg
    rw [hp]
    simp only [Res.bind_ok, Res.pure_eq, ne_eq, reduceCtorEq, not_false_eq_true, Res.ok.injEq, true_and]
    rintro st' rfl
    exact ⟨rfl, rfl⟩

theorem storeAny_safe {st : PState K} (h : Safe st) : storeIfAny st ≠ .ub ∧ ∀ st', storeIfAny st = .ok st' → st'.mode = st.mode ∧ st'.values = [] := by
  unfold storeIfAny
  split
  · rename_i hv
    have hz : st.mode.cmd ≠ 'Z' := by
      intro hz
      rcases h with ⟨h1 | h1, _⟩ | ⟨h1 | h1, _⟩ | ⟨_, _, h1⟩
      all_goals first | (rw [hz] at h1; exact absurd h1 (by decide)) | skip
      rw [h1] at hv
      exact hv rfl
    exact store_safe h hz
  · rename_i hv
    rw [not_not] at hv
    refine ⟨by simp, ?_⟩
    rintro st' h
    obtain rfl := Res.ok.inj h
    exact ⟨rfl, List.length_eq_zero_iff.1 hv⟩

end

theorem numberValues_allowed {c : Char} {n : Nat} (h : numberValues c = some n) (ha : cmdAllowed c = true) :
    ((c = 'M' ∨ c = 'L') ∧ n = 2) ∨ ((c = 'H' ∨ c = 'V') ∧ n = 1) ∨ (c = 'Z' ∧ n = 0) := by
  unfold cmdAllowed at ha
  simp only [Bool.or_eq_true, beq_iff_eq] at ha
  rcases ha with (((rfl | rfl) | rfl) | rfl) | rfl <;> simp [numberValues] at h <;> subst h <;> simp

theorem getCommand_spec {c : Char} {m : PathCmd} (h : getCommand c = .ok m) (ha : cmdAllowed m.cmd = true) :
    (((m.cmd = 'M' ∨ m.cmd = 'L') ∧ m.nb = 2) ∨ ((m.cmd = 'H' ∨ m.cmd = 'V') ∧ m.nb = 1) ∨ (m.cmd = 'Z' ∧ m.nb = 0)) ∧ (m.cmd = 'Z' → c = 'z' ∨ c = 'Z') := by
  unfold getCommand at h
  split at h
  · rename_i n hn
    obtain rfl := Res.ok.inj h
    exact ⟨numberValues_allowed hn ha, fun e => Or.inr e⟩
  · split at h
    · rename_i hc
      split at h
      · rename_i n hn
        obtain rfl := Res.ok.inj h
        refine ⟨numberValues_allowed hn ha, fun e => Or.inl ?_⟩
        simp only at e
        have h1 := congrArg Char.toNat e
        have hv : (c.toNat - 32).isValidChar := by
          left
          have := hc.2
          simp only [show 'z'.toNat = 122 from rfl] at this
          omega
        have h0 : (Char.ofNat (c.toNat - 32)).toNat = c.toNat - 32 := by
          unfold Char.ofNat
          rw [dif_pos hv]
          rfl
        rw [h0] at h1
        apply Char.toNat_inj.1
        have := hc.1
        simp only [show 'a'.toNat = 97 from rfl] at this
        simp only [show 'Z'.toNat = 90 from rfl] at h1
        simp only [show 'z'.toNat = 122 from rfl]
        omega
      · simp at h
    · simp at h

section
variable [Add K]

/-- A letter. -/
def IsLetter (e : List Char) : Prop := ∃ c, e = [c] ∧ isDigit c = false

theorem letter_safe (stod : List Char → Option K) {st : PState K} (h : Safe st) {c : Char} (hc : isDigit c = false) :
    pathStep stod [c] st ≠ .ub ∧ ∀ st', pathStep stod [c] st = .ok st' → Safe st' ∧ (st'.mode.cmd = 'Z' → c = 'z' ∨ c = 'Z') ∧ st'.values = [] := by
  simp only [pathStep, hc, Bool.false_eq_true, if_false]
  obtain ⟨h1, h2⟩ := storeAny_safe h
  cases hs : storeIfAny st with
  | throw => simp
  | ub => exact absurd hs h1
  | ok st1 =>
    obtain ⟨_, h3⟩ := h2 st1 hs
    simp only [Res.bind_ok]
    cases hg : getCommand c with
    | throw => simp
    | ub =>
      exfalso
      unfold getCommand at hg
      split at hg
      · simp at hg
      · split at hg
        · split at hg <;> simp at hg
        · simp at hg
    | ok m =>
      simp only [Res.bind_ok, Res.pure_eq]
      cases ha : cmdAllowed m.cmd with
      | false => simp
      | true =>
        obtain ⟨g1, g2⟩ := getCommand_spec hg ha
        have hsafe : ∀ D C, Safe (⟨m, D, C, st1.values, st1.prev⟩ : PState K) := by
          intro D C
          unfold Safe
          simp only [h3, and_true]
          exact g1
        simp only [Bool.not_true, Bool.false_eq_true, if_false]
        split
        · refine ⟨by simp, ?_⟩
          intro st' e
          obtain rfl := Res.ok.inj e
          exact ⟨hsafe _ _, g2, h3⟩
        · refine ⟨by simp, ?_⟩
          intro st' e
          obtain rfl := Res.ok.inj e
          exact ⟨hsafe _ _, g2, h3⟩

theorem value_eq (stod : List Char → Option K) {e : List Char} (he : ¬ IsLetter e) (st : PState K) : pathStep stod e st = pathStep.pathValue stod e st := by
  match e, he with
  | [], _ => rfl
  | [c], he =>
    have : isDigit c = true := by
      by_contra hc
      exact he ⟨c, rfl, by simpa using hc⟩
    simp only [pathStep, this, if_true]
  | _ :: _ :: _, _ => rfl

theorem value_safe (stod : List Char → Option K) {st : PState K} (h : Safe st) (hz : st.mode.cmd ≠ 'Z') {e : List Char} (he : ¬ IsLetter e) :
    pathStep stod e st ≠ .ub ∧ ∀ st', pathStep stod e st = .ok st' → Safe st' ∧ st'.mode.cmd ≠ 'Z' := by
  rw [value_eq stod he]
  unfold pathStep.pathValue
  have h1 : storeIfFull st ≠ .ub ∧ ∀ st', storeIfFull st = .ok st' → st'.mode = st.mode := by
    unfold storeIfFull
    split
    · exact ⟨(store_safe h hz).1, fun st' e => ((store_safe h hz).2 st' e).1⟩
    · refine ⟨by simp, ?_⟩
      intro st' e
      obtain rfl := Res.ok.inj e
      rfl
  cases hs : storeIfFull st with
  | throw => simp
  | ub => exact absurd hs h1.1
  | ok st1 =>
    have hm := h1.2 st1 hs
    simp only [Res.bind_ok]
    cases stod e with
    | none => simp
    | some x =>
      refine ⟨by simp, ?_⟩
      intro st' e
      obtain rfl := Res.ok.inj e
      simp only [hm]
      refine ⟨?_, hz⟩
      rcases h with h | h | h
      · exact Or.inl (by simpa [hm] using h)
      · exact Or.inr (Or.inl (by simpa [hm] using h))
      · exact absurd h.1 hz

theorem run_safe (stod : List Char → Option K) : ∀ (es : List (List Char)) (st : PState K), Safe st → (st.mode.cmd = 'Z' → ∀ e ∈ es.head?, IsLetter e) →
    (∀ q ∈ es.zip es.tail, q.1 = ['z'] ∨ q.1 = ['Z'] → IsLetter q.2) → runSteps stod es st ≠ .ub ∧ ∀ st', runSteps stod es st = .ok st' → Safe st'
  | [], st, h, _, _ => by
    refine ⟨by simp [runSteps], ?_⟩
    intro st' e
    obtain rfl := Res.ok.inj e
    exact h
  | e :: es, st, h, hz, hp => by
    simp only [runSteps]
    have key : pathStep stod e st ≠ .ub ∧ ∀ st', pathStep stod e st = .ok st' → Safe st' ∧ (st'.mode.cmd = 'Z' → e = ['z'] ∨ e = ['Z']) := by
      by_cases he : IsLetter e
      · obtain ⟨c, rfl, hc⟩ := he
        obtain ⟨k1, k2⟩ := letter_safe stod h hc
        refine ⟨k1, fun st' e' => ⟨(k2 st' e').1, fun hz' => ?_⟩⟩
        rcases (k2 st' e').2.1 hz' with rfl | rfl
        · exact Or.inl rfl
        · exact Or.inr rfl
      · have hz' : st.mode.cmd ≠ 'Z' := fun hz' => he (hz hz' e rfl)
        obtain ⟨k1, k2⟩ := value_safe stod h hz' he
        exact ⟨k1, fun st' e' => ⟨(k2 st' e').1, fun hz'' => absurd hz'' (k2 st' e').2⟩⟩
    cases hs : pathStep stod e st with
    | throw => simp
    | ub => exact absurd hs key.1
    | ok st1 =>
      obtain ⟨k1, k2⟩ := key.2 st1 hs
      simp only [Res.bind_ok]
      refine run_safe stod es st1 k1 ?_ ?_
      · intro hz' e' he'
        match es, he' with
        | e'' :: es, he' =>
          simp only [List.head?_cons, Option.mem_def, Option.some.injEq] at he'
          subst he'
          exact hp (e, e'') (by simp) (k2 hz')
      · intro q hq
        refine hp q ?_
        match es, hq with
        | e'' :: es, hq => simp only [List.tail_cons, List.zip_cons_cons, List.mem_cons] at hq ⊢; exact Or.inr hq

end

section
variable [Add K]

/-- The finished vectors are not empty. -/
def DoneOk (st : PState K) : Prop := ∀ v ∈ st.done, v ≠ []

theorem store_done {st st' : PState K} (h : storeValues st = .ok st') : st'.done = st.done := by
  unfold storeValues at h
  split at h
  · simp at h
  · cases hg : generateNewPoint st.mode st.prev st.values with
    | throw => rw [hg] at h; simp at h
    | ub => rw [hg] at h; simp at h
    | ok p =>
      rw [hg] at h
      obtain rfl := Res.ok.inj h
      rfl

theorem storeAny_done {st st' : PState K} (h : storeIfAny st = .ok st') : st'.done = st.done := by
  unfold storeIfAny at h
  split at h
  · exact store_done h
  · obtain rfl := Res.ok.inj h; rfl

theorem step_done (stod : List Char → Option K) {e : List Char} {st st' : PState K} (h : DoneOk st) (hs : pathStep stod e st = .ok st') : DoneOk st' := by
  by_cases he : IsLetter e
  · obtain ⟨c, rfl, hc⟩ := he
    simp only [pathStep, hc, Bool.false_eq_true, if_false] at hs
    cases h1 : storeIfAny st with
    | throw => rw [h1] at hs; simp at hs
    | ub => rw [h1] at hs; simp at hs
    | ok st1 =>
      have hd := storeAny_done h1
      rw [h1, Res.bind_ok] at hs
      cases hg : getCommand c with
      | throw => rw [hg] at hs; simp at hs
      | ub => rw [hg] at hs; simp at hs
      | ok m =>
        rw [hg, Res.bind_ok] at hs
        split at hs
        · simp at hs
        · split at hs
          · rename_i hn
            obtain rfl := Res.ok.inj hs
            intro v hv
            simp only [List.mem_append, List.mem_singleton, hd] at hv
            rcases hv with hv | rfl
            · exact h v hv
            · simp only [Bool.and_eq_true, Bool.not_eq_true'] at hn
              intro e
              rw [e] at hn
              simp at hn
          · obtain rfl := Res.ok.inj hs
            intro v hv
            exact h v (by simpa [hd] using hv)
  · rw [value_eq stod he] at hs
    unfold pathStep.pathValue at hs
    cases h1 : storeIfFull st with
    | throw => rw [h1] at hs; simp at hs
    | ub => rw [h1] at hs; simp at hs
    | ok st1 =>
      have hd : st1.done = st.done := by
        unfold storeIfFull at h1
        split at h1
        · exact store_done h1
        · obtain rfl := Res.ok.inj h1; rfl
      rw [h1, Res.bind_ok] at hs
      cases hx : stod e with
      | none => rw [hx] at hs; simp at hs
      | some x =>
        rw [hx] at hs
        obtain rfl := Res.ok.inj hs
        intro v hv
        exact h v (by simpa [hd] using hv)

theorem run_done (stod : List Char → Option K) : ∀ (es : List (List Char)) (st st' : PState K), DoneOk st → runSteps stod es st = .ok st' → DoneOk st'
  | [], st, st', h, hs => by obtain rfl := Res.ok.inj hs; exact h
  | e :: es, st, st', h, hs => by
    simp only [runSteps] at hs
    cases h1 : pathStep stod e st with
    | throw => rw [h1] at hs; simp at hs
    | ub => rw [h1] at hs; simp at hs
    | ok st1 =>
      rw [h1, Res.bind_ok] at hs
      exact run_done stod es st1 st' (step_done stod h h1) hs

theorem pathEnd_cases (same : Pt K → Pt K → Bool) (st : PState K) : (storeIfAny st = .ub ∧ pathEnd same st = .ub) ∨ (storeIfAny st = .throw ∧ pathEnd same st = .throw) ∨
    ∃ st', storeIfAny st = .ok st' ∧ pathEnd same st = .ok ((if st'.cur = [] then st'.done else st'.done ++ [st'.cur]).map (purgeSetDupes same), st'.mode.cmd == 'Z') := by
  cases h : storeIfAny st with
  | throw => right; left; exact ⟨rfl, by unfold pathEnd; rw [h]; rfl⟩
  | ub => left; exact ⟨rfl, by unfold pathEnd; rw [h]; rfl⟩
  | ok st' =>
    right; right
    refine ⟨st', rfl, ?_⟩
    have h' : pathEnd same st = pathEnd same ⟨st'.mode, st'.done, st'.cur, [], st'.prev⟩ := by
      unfold pathEnd
      rw [h]
      rfl
    rw [h', pathEnd_flush same (flush_self _ _ _ _)]

theorem vectors_ne [Zero K] [DecidableEq K] (stod : List Char → Option K) (same : Pt K → Pt K → Bool) {s : List Char} {r : List (List (Pt K)) × Bool} (h : parsePath stod same s = .ok r) :
    ∀ v ∈ r.1, v ≠ [] := by
  have hs : s ≠ [] := by rintro rfl; simp [parsePath] at h
  rw [parsePath_eq stod same hs] at h
  cases hr : runSteps stod (elems s.length s) (pInit : PState K) with
  | throw => rw [hr] at h; simp at h
  | ub => rw [hr] at h; simp at h
  | ok st =>
    rw [hr, Res.bind_ok] at h
    have hd : DoneOk st := run_done stod _ _ _ (by intro v hv; simp [pInit] at hv) hr
    rcases pathEnd_cases same st with ⟨_, e⟩ | ⟨_, e⟩ | ⟨st', e1, e2⟩
    · rw [e] at h; simp at h
    · rw [e] at h; simp at h
    · rw [e2] at h
      obtain rfl := Res.ok.inj h
      intro v hv
      obtain ⟨w, hw, rfl⟩ := List.mem_map.1 hv
      apply purge_ne
      have hd' := storeAny_done e1
      split at hw
      · exact hd w (by rw [← hd']; exact hw)
      · rename_i hne
        rcases List.mem_append.1 hw with hw | hw
        · exact hd w (by rw [← hd']; exact hw)
        · simp only [List.mem_singleton] at hw; rw [hw]; exact hne

end

theorem importLoop_ok (same : Pt K → Pt K → Bool) (b : Bool) : ∀ (vs : List (List (Pt K))) (out : List (Bool × List (Pt K))), (∀ v ∈ vs, v ≠ []) → importPathLoop same b vs out ≠ .ub
  | [], out, _ => by simp [importPathLoop]
  | v :: vs, out, h => by
    have hv := h v (by simp)
    obtain ⟨a, l, rfl⟩ := List.exists_cons_of_ne_nil hv
    have hd : ∃ w, dropClosing same (a :: l) = .ok w := by
      unfold dropClosing
      simp only
      split
      · exact ⟨_, rfl⟩
      · exact ⟨_, rfl⟩
    obtain ⟨w, hw⟩ := hd
    unfold importPathLoop
    rw [hw]
    simp only
    unfold polySet
    split
    · rename_i he
      split at he
      · obtain rfl := Res.ok.inj he
        exact importLoop_ok same b vs _ (fun v hv => h v (List.mem_cons_of_mem _ hv))
      · simp at he
    · simp
    · rename_i he
      split at he <;> simp at he

theorem dropClosing_checked {same : Pt K → Pt K → Bool} {v : List (Pt K)} (hv : v ≠ []) (h : checkInput same v = true) : dropClosing same v = .ok v := by
  match v, hv with
  | [a], _ => simp [checkInput] at h
  | a :: b :: l, _ =>
    simp only [checkInput, Bool.and_eq_true, Bool.not_eq_true'] at h
    simp only [dropClosing, h.2, Bool.false_eq_true, if_false]

theorem importLoop_checked (same : Pt K → Pt K → Bool) (b : Bool) : ∀ (vs : List (List (Pt K))) (out : List (Bool × List (Pt K))), (∀ v ∈ vs, v ≠ [] ∧ checkInput same v = true) →
    importPathLoop same b vs out = .ok (out ++ vs.map (fun v => (b, v)))
  | [], out, _ => by simp [importPathLoop]
  | v :: vs, out, h => by
    obtain ⟨h1, h2⟩ := h v (by simp)
    unfold importPathLoop
    rw [dropClosing_checked h1 h2]
    simp only [polySet, h2, if_true]
    rw [importLoop_checked same b vs _ (fun v hv => h v (List.mem_cons_of_mem _ hv))]
    simp

theorem nextElem_split (s : List Char) : ∃ sep, s = sep ++ (getNextElem s).1 ++ (getNextElem s).2 := by
  unfold getNextElem
  have h1 := List.takeWhile_append_dropWhile (p := isSep) (l := s)
  refine ⟨s.takeWhile isSep, ?_⟩
  split
  · rename_i e; rw [e] at h1; simpa using h1.symm
  · rename_i c r e
    rw [e] at h1
    split
    · rw [List.append_assoc, List.takeWhile_append_dropWhile]; exact h1.symm
    · simpa using h1.symm

theorem close_suffix {pre str : List Char} (h : CloseThenLetter (pre ++ str)) : CloseThenLetter str := by
  intro p q z e hz
  exact h (pre ++ p) q z (by rw [e]; simp) hz

theorem elems_close : ∀ (n : Nat) (s : List Char), s.length ≤ n → CloseThenLetter s → ∀ q ∈ (elems n s).zip (elems n s).tail, q.1 = ['z'] ∨ q.1 = ['Z'] → IsLetter q.2
  | 0, s, _, _ => by simp [elems]
  | n + 1, s, hn, hc => by
    intro q hq hz
    unfold elems at hq
    split at hq
    · simp at hq
    · rename_i hs
      have hlt := nextElem_shorter hs
      obtain ⟨sep, hsp⟩ := nextElem_split s
      have hcr : CloseThenLetter (getNextElem s).2 := by rw [hsp] at hc; exact close_suffix hc
      have ih := elems_close n (getNextElem s).2 (by omega) hcr
      cases hel : elems n (getNextElem s).2 with
      | nil => rw [hel] at hq; simp at hq
      | cons e2 es =>
        rw [hel] at hq ih
        simp only [List.tail_cons, List.zip_cons_cons, List.mem_cons] at hq ih
        rcases hq with rfl | hq
        · simp only at hz
          have hz' : ∃ z, (getNextElem s).1 = [z] ∧ (z = 'z' ∨ z = 'Z') := by
            rcases hz with h | h
            · exact ⟨'z', h, Or.inl rfl⟩
            · exact ⟨'Z', h, Or.inr rfl⟩
          obtain ⟨z, hz1, hz2⟩ := hz'
          rcases hc sep (getNextElem s).2 z (by rw [hz1] at hsp; simpa using hsp) hz2 with hnil | ⟨sep', c, post', hp, hs', hc1, hc2, hc3⟩
          · rw [hnil] at hel
            cases n <;> simp [elems] at hel
          · have hcs : isSep c = false := by
              by_contra hcc
              rw [Bool.not_eq_false, isSep_iff] at hcc
              rcases hcc with h | h
              · exact hc1 h
              · exact hc2 h
            have hcd : isDigit c = false := by
              by_contra hcc
              rw [Bool.not_eq_false, isDigit_iff] at hcc
              exact hc3 hcc
            have hnext : getNextElem (getNextElem s).2 = ([c], post') := by
              have := nextElem_word (sep := sep') (w := [c]) (str := post') (fun d hd => (isSep_iff d).2 (hs' d hd)) (Or.inr ⟨c, rfl, hcd, hcs⟩) (by
                intro hnum
                have := (isNumWord_iff.1 hnum).2 c (by simp)
                rw [hcd] at this; simp at this)
              rw [hp]
              simpa using this
            match n, hel with
            | m + 1, hel =>
              unfold elems at hel
              rw [if_neg (by rw [hp]; simp), hnext] at hel
              obtain ⟨rfl, _⟩ := List.cons.inj hel
              exact ⟨c, rfl, hcd⟩
        · exact ih q hq hz

/-- Reading is cut at a letter. -/
theorem elems_letter {z : Char} (hd : isDigit z = false) (hs : isSep z = false) (t : List Char) : ∀ (k : Nat) (s : List Char) (n : Nat), s.length ≤ k → s.length + 1 + t.length ≤ n →
    ∃ a m, t.length ≤ m ∧ elems n (s ++ z :: t) = a ++ [z] :: elems m t ∧ ∀ n', s.length + 1 ≤ n' → elems n' (s ++ [z]) = a ++ [[z]]
  | 0, s, n, hk, hn => by
    obtain rfl : s = [] := List.length_eq_zero_iff.1 (by omega)
    have e : ∀ t, getNextElem (z :: t) = ([z], t) := by
      intro t; unfold getNextElem; rw [List.dropWhile_cons, hs]; simp [hd]
    obtain ⟨m, rfl⟩ : ∃ m, n = m + 1 := ⟨n - 1, by omega⟩
    refine ⟨[], m, by simp only [List.length_nil] at hn; omega, ?_, ?_⟩
    · rw [List.nil_append, elems, if_neg (by simp), e]; rfl
    · intro n' hn'
      obtain ⟨m', rfl⟩ : ∃ m, n' = m + 1 := ⟨n' - 1, by simp only [List.length_nil] at hn'; omega⟩
      rw [List.nil_append, elems, if_neg (by simp), e]
      cases m' <;> simp [elems]
  | k + 1, s, n, hk, hn => by
    by_cases hsn : s.dropWhile isSep = []
    · -- only separators before the letter
      have hall : ∀ c ∈ s, isSep c = true := List.dropWhile_eq_nil_iff.1 hsn
      have e : ∀ t, getNextElem (s ++ z :: t) = ([z], t) := by
        intro t
        have := nextElem_word (sep := s) (w := [z]) (str := t) hall (Or.inr ⟨z, rfl, hd, hs⟩) (by
          intro hnum
          have := (isNumWord_iff.1 hnum).2 z (by simp)
          rw [hd] at this; simp at this)
        simpa using this
      obtain ⟨m, rfl⟩ : ∃ m, n = m + 1 := ⟨n - 1, by omega⟩
      refine ⟨[], m, by omega, ?_, ?_⟩
      · rw [elems, if_neg (by simp), e]; rfl
      · intro n' hn'
        obtain ⟨m', rfl⟩ : ∃ m, n' = m + 1 := ⟨n' - 1, by omega⟩
        rw [elems, if_neg (by simp), e]
        cases m' <;> simp [elems]
    · have hsne : s ≠ [] := by rintro rfl; simp at hsn
      have hlt := nextElem_shorter hsne
      have e : ∀ t, getNextElem (s ++ z :: t) = ((getNextElem s).1, (getNextElem s).2 ++ z :: t) := by
        intro t
        unfold getNextElem
        obtain ⟨c, r, hcr⟩ := List.exists_cons_of_ne_nil hsn
        have hdw : (s ++ z :: t).dropWhile isSep = c :: (r ++ z :: t) := by
          rw [List.dropWhile_append, hcr]; simp
        rw [hcr, hdw]
        simp only
        split
        · rename_i hcd
          have : ∀ l : List Char, (l ++ z :: t).takeWhile isDigit = l.takeWhile isDigit ∧ (l ++ z :: t).dropWhile isDigit = l.dropWhile isDigit ++ z :: t := by
            intro l
            induction l with
            | nil => simp [List.takeWhile_cons, List.dropWhile_cons, hd]
            | cons x l ih =>
              rw [List.cons_append, List.takeWhile_cons, List.dropWhile_cons, List.takeWhile_cons, List.dropWhile_cons]
              cases isDigit x <;> simp [ih.1, ih.2]
          have h' := this (c :: r)
          simp only [List.cons_append] at h'
          rw [h'.1, h'.2]
        · rfl
      obtain ⟨n1, rfl⟩ : ∃ m, n = m + 1 := ⟨n - 1, by omega⟩
      obtain ⟨a, m, hm, h1, h2⟩ := elems_letter hd hs t k (getNextElem s).2 n1 (by omega) (by omega)
      refine ⟨(getNextElem s).1 :: a, m, hm, ?_, ?_⟩
      · rw [elems, if_neg (by simp), e, h1]; rfl
      · intro n' hn'
        obtain ⟨m', rfl⟩ : ∃ m, n' = m + 1 := ⟨n' - 1, by omega⟩
        rw [elems, if_neg (by simp), e, h2 m' (by omega)]; rfl

theorem elems_head_nonletter {t : List Char} (ht : t ≠ []) {n : Nat} (hn : t.length ≤ n) (h : ¬ IsLetter (getNextElem t).1) : ∃ e es, elems n t = e :: es ∧ ¬ IsLetter e := by
  have := List.length_pos_iff.2 ht
  obtain ⟨m, rfl⟩ : ∃ m, n = m + 1 := ⟨n - 1, by omega⟩
  exact ⟨_, _, by rw [elems, if_neg ht], h⟩

theorem writes_words {stod : List Char → Option K} {l : List (SubPath K)} {ws : List (List Char)} (h : WritesPath stod l ws) : ∀ w ∈ ws, IsWord w := by
  have hnum : ∀ {xs us}, List.Forall₂ (NumFor stod) xs us → ∀ w ∈ us, IsWord w := by
    intro xs us hu
    induction hu with
    | nil => simp
    | cons h1 _ ih =>
      intro w hw
      rcases List.mem_cons.1 hw with rfl | hw
      · exact Or.inl ⟨h1.1, h1.2.1⟩
      · exact ih w hw
  have hsegs : ∀ {c l ws}, WritesSegs stod c l ws → ∀ w ∈ ws, IsWord w := by
    intro c l ws hs
    induction hs with
    | nil => simp
    | @letter c s l ws us hu _ ih =>
      intro w hw
      rcases List.mem_append.1 hw with hw | hw
      · rcases List.mem_cons.1 hw with rfl | hw
        · exact Or.inr ⟨_, rfl, (segMode_spec s).1, (segMode_spec s).2.1⟩
        · exact hnum hu w hw
      · exact ih w hw
    | @implied s l ws us hu _ ih =>
      intro w hw
      rcases List.mem_append.1 hw with hw | hw
      · exact hnum hu w hw
      · exact ih w hw
  induction h with
  | nil => simp
  | @cons s l ws us hs _ ih =>
    intro w hw
    rcases List.mem_append.1 hw with hw | hw
    · obtain ⟨ux, uy, us', zs, hx, hy, hs', hz, rfl⟩ := hs
      rcases List.mem_append.1 hw with hw | hw
      · rcases List.mem_cons.1 hw with rfl | hw
        · right; cases s.rel
          · exact ⟨'M', rfl, by decide, by decide⟩
          · exact ⟨'m', rfl, by decide, by decide⟩
        · rcases List.mem_cons.1 hw with rfl | hw
          · exact Or.inl ⟨hx.1, hx.2.1⟩
          · rcases List.mem_cons.1 hw with rfl | hw
            · exact Or.inl ⟨hy.1, hy.2.1⟩
            · exact hsegs hs' w hw
      · cases hc : s.closed with
        | false => rw [hc] at hz; simp at hz; rw [hz] at hw; simp at hw
        | true =>
          rw [hc] at hz
          simp only [if_true] at hz
          rcases hz with rfl | rfl
          · simp only [List.mem_singleton] at hw; exact Or.inr ⟨'Z', hw, by decide, by decide⟩
          · simp only [List.mem_singleton] at hw; exact Or.inr ⟨'z', hw, by decide, by decide⟩
    · exact ih w hw

theorem run_safe_ok [Add K] (stod : List Char → Option K) : ∀ (es : List (List Char)) (st st' : PState K), Safe st → runSteps stod es st = .ok st' → Safe st'
  | [], st, st', h, e => by obtain rfl := Res.ok.inj e; exact h
  | w :: es, st, st', h, e => by
    simp only [runSteps] at e
    cases h1 : pathStep stod w st with
    | throw => rw [h1] at e; simp at e
    | ub => rw [h1] at e; simp at e
    | ok st1 =>
      rw [h1, Res.bind_ok] at e
      refine run_safe_ok stod es st1 st' ?_ e
      by_cases hw : IsLetter w
      · obtain ⟨c, rfl, hc⟩ := hw
        exact ((letter_safe stod h hc).2 st1 h1).1
      · by_cases hz : st.mode.cmd = 'Z'
        · exfalso
          rcases h with h | h | ⟨_, h, h'⟩
          · rw [hz] at h; exact absurd h.1 (by decide)
          · rw [hz] at h; exact absurd h.1 (by decide)
          · rw [value_eq stod hw] at h1
            unfold pathStep.pathValue storeIfFull at h1
            rw [if_pos (by rw [h, h']; rfl)] at h1
            have : storeValues st = .ub := by
              unfold storeValues
              rw [if_neg (by rw [h, h']; simp)]
              have : generateNewPoint st.mode st.prev st.values = .ub := by
                unfold generateNewPoint
                rw [hz]; rfl
              rw [this]; rfl
            rw [this] at h1
            simp at h1
        · exact ((value_safe stod h hz hw).2 st1 h1).1

theorem safe_init [Zero K] : Safe (pInit : PState K) := Or.inl ⟨Or.inl rfl, rfl⟩

theorem after_close [Add K] [Zero K] (stod : List Char → Option K) {z : Char} (hz : z = 'z' ∨ z = 'Z') {a : List (List Char)} {st : PState K}
    (h : runSteps stod (a ++ [[z]]) pInit = .ok st) : st.mode.cmd = 'Z' ∧ st.mode.nb = 0 ∧ st.values = [] := by
  rw [runSteps_append] at h
  cases h0 : runSteps stod a (pInit : PState K) with
  | throw => rw [h0] at h; simp at h
  | ub => rw [h0] at h; simp at h
  | ok st0 =>
    rw [h0, Res.bind_ok] at h
    have hs := run_safe_ok stod a _ _ safe_init h0
    have hzd : isDigit z = false := by rcases hz with rfl | rfl <;> decide
    have hg : ∃ rel, getCommand z = .ok ⟨rel, 'Z', 0⟩ := by
      rcases hz with rfl | rfl
      · exact ⟨true, by decide⟩
      · exact ⟨false, by decide⟩
    obtain ⟨rel, hg⟩ := hg
    obtain ⟨k1, k2⟩ := storeAny_safe hs
    cases h1 : storeIfAny st0 with
    | ub => exact absurd h1 k1
    | throw =>
      simp only [runSteps, pathStep, hzd, Bool.false_eq_true, if_false] at h
      rw [h1] at h; simp at h
    | ok st1 =>
      obtain ⟨_, hv⟩ := k2 st1 h1
      have hf : Flush st0 st1.done st1.cur st1.prev := by
        unfold Flush
        rw [h1]
        have := (k2 st1 h1).1
        cases st1
        simp only at hv this
        simp [hv, this]
      rw [step_newpoly stod hf hzd hg (by simp [cmdAllowed]) (by simp [PathCmd.isNewPolyline])] at h
      obtain rfl := Res.ok.inj h
      exact ⟨rfl, rfl, rfl⟩

end H2d.Svg
