import Verif.Lemmas.Svg
import Mathlib.Algebra.Order.Group.Int

/-!
# C51 - C54: SVG

`stod` reads a number (`none` when it throws), `fmt` writes one, `same` is the equality of points.
-/

set_option linter.unusedSectionVars false

namespace H2d.Props

open H2d.Spec H2d.Svg

/-! ## C51 -/

/-- **C51, points.** Whatever the number of points: the attribute is parsed back to the same number of points in the same order, each coordinate being what the number parser makes of its text
(`rnd` is the effect of the limited number of digits). The text of a number has no space and no comma. -/
theorem C51_points {K : Type} (fmt : K → List Char) (stod : List Char → Option K) (rnd : K → K) (pts : List (Pt K))
    (h : ∀ p ∈ pts, ∀ x, x = p.1 ∨ x = p.2 → ' ' ∉ fmt x ∧ ',' ∉ fmt x ∧ fmt x ≠ [] ∧ stod (fmt x) = some (rnd x)) :
    parsePoints stod (writePoints fmt pts) = .ok (pts.map (fun p => (rnd p.1, rnd p.2))) :=
  parsePoints_write fmt stod rnd pts h

/-- **C51, round trip.** A polyline whose coordinates are written exactly is imported as it was. -/
theorem C51_roundtrip {K : Type} (fmt : K → List Char) (stod : List Char → Option K) (same : Pt K → Pt K → Bool) (pts : List (Pt K)) (hne : pts ≠ []) (hchk : polySet same pts = .ok pts)
    (h : ∀ p ∈ pts, ∀ x, x = p.1 ∨ x = p.2 → ' ' ∉ fmt x ∧ ',' ∉ fmt x ∧ fmt x ≠ [] ∧ stod (fmt x) = some x) :
    importPoints stod same (writePoints fmt pts) = .ok pts := by
  have hc : checkInput same pts = true := by
    unfold polySet at hchk
    split at hchk
    · assumption
    · simp at hchk
  have h1 := parsePoints_write fmt stod id pts h
  simp only [id_eq, Prod.mk.eta, List.map_id'] at h1
  unfold importPoints
  rw [h1, Res.bind_ok, dropClosing_checked hne hc, Res.bind_ok, hchk]

example : writePoints (fun x : Int => (toString x).toList) [(1, 2), (3, 4)] = ['1', ',', '2', ' ', '3', ',', '4', ' '] := by decide +kernel
example : importPoints readInt (fun a b => decide (a = b)) ['1', ',', '2', ' ', '3', ',', '4', ' '] = .ok [(1, 2), (3, 4)] := by decide +kernel

/-- **C51, limited digits.** The round trip needs exact numbers: if two consecutive points are written with the same text (and the first and last ones are not), there is no import but an exception. -/
theorem C51_collapse {K : Type} (fmt : K → List Char) (stod : List Char → Option K) (rnd : K → K) (same : Pt K → Pt K → Bool) (hrefl : ∀ p, same p p = true) (pts : List (Pt K))
    (h : ∀ p ∈ pts, ∀ x, x = p.1 ∨ x = p.2 → ' ' ∉ fmt x ∧ ',' ∉ fmt x ∧ fmt x ≠ [] ∧ stod (fmt x) = some (rnd x))
    (pre post : List (Pt K)) (a b : Pt K) (hp : pts = pre ++ a :: b :: post) (h1 : fmt a.1 = fmt b.1) (h2 : fmt a.2 = fmt b.2)
    (hcl : ∀ f ∈ pts.head?, ∀ l ∈ pts.getLast?, same (rnd f.1, rnd f.2) (rnd l.1, rnd l.2) = false) :
    importPoints stod same (writePoints fmt pts) = .throw := by
  have ha : a ∈ pts := by rw [hp]; simp
  have hb : b ∈ pts := by rw [hp]; simp
  have e1 : rnd a.1 = rnd b.1 := by
    have := (h a ha _ (Or.inl rfl)).2.2.2
    rw [h1, (h b hb _ (Or.inl rfl)).2.2.2] at this
    exact (Option.some.inj this).symm
  have e2 : rnd a.2 = rnd b.2 := by
    have := (h a ha _ (Or.inr rfl)).2.2.2
    rw [h2, (h b hb _ (Or.inr rfl)).2.2.2] at this
    exact (Option.some.inj this).symm
  unfold importPoints
  rw [parsePoints_write fmt stod rnd pts h, Res.bind_ok]
  have hchk : checkInput same (pts.map (fun p => (rnd p.1, rnd p.2))) = false := by
    obtain ⟨x, m, hm⟩ : ∃ x m, pts = x :: m := List.exists_cons_of_ne_nil (by rw [hp]; simp)
    have hmem : ((rnd a.1, rnd a.2), (rnd b.1, rnd b.2)) ∈ openPairs (pts.map (fun p => (rnd p.1, rnd p.2))) := by
      rw [hp, List.map_append, List.map_cons, List.map_cons, H2d.openPairs_append]
      exact List.mem_append_right _ (by simp [openPairs])
    rw [e1, e2] at hmem
    cases hl : pts.map (fun p => (rnd p.1, rnd p.2)) with
    | nil => rw [hm] at hl; simp at hl
    | cons y n =>
      cases n with
      | nil => rfl
      | cons z n =>
        rw [hl] at hmem
        unfold checkInput
        simp only
        rw [Bool.and_eq_false_iff]
        left
        rw [List.all_eq_false]
        exact ⟨_, hmem, by simp [hrefl]⟩
  have hdc : dropClosing same (pts.map (fun p => (rnd p.1, rnd p.2))) = .ok (pts.map (fun p => (rnd p.1, rnd p.2))) := by
    obtain ⟨x, m, hm⟩ : ∃ x m, pts = x :: m := List.exists_cons_of_ne_nil (by rw [hp]; simp)
    have hlast : (x :: m).getLast? = some ((x :: m).getLast (by simp)) := List.getLast?_eq_some_getLast _
    have := hcl x (by rw [hm]; rfl) _ (by rw [hm, hlast]; rfl)
    rw [hm, List.map_cons]
    unfold dropClosing
    simp only
    rw [if_neg]
    have e : (m.map (fun p : Pt K => (rnd p.1, rnd p.2))).getLastD (rnd x.1, rnd x.2) = (rnd ((x :: m).getLast (by simp)).1, rnd ((x :: m).getLast (by simp)).2) := by
      cases m with
      | nil => rfl
      | cons y m =>
        rw [List.getLastD_eq_getLast?, List.getLast?_map, List.getLast?_eq_some_getLast (by simp)]
        simp
    rw [e, this]
    simp
  rw [hdc, Res.bind_ok]
  unfold polySet
  rw [hchk]
  simp

/-- The numbers are written with three digits: the points (1234,0) and (1235,0) are merged. -/
example : importPoints readInt (fun a b => decide (a = b)) (writePoints (fun x : Int => ((toString x).toList.take 3)) [(1234, 0), (1235, 0), (0, 7)]) = .throw := by decide +kernel

/-- **C51 is false of the code** for the attribute of an empty polyline: the vector of points is empty and its first element is read (undefined behaviour). -/
theorem C51_empty_false {K : Type} (stod : List Char → Option K) (same : Pt K → Pt K → Bool) : importPoints stod same [] = .ub := rfl

/-! ## C52 -/

section
variable {K : Type} [AddCommGroup K] [DecidableEq K]

/-- **C52 (partial), meaning of a path.** Any number of sub-paths and commands, absolute or relative, letters left out or not, any layout with spaces and commas:
the vectors of points are the vertices of the sub-paths (without consecutive duplicates), and the path is said to be closed when the last sub-path is.
Missing: a relative "move to" after a "close path" (`hrel`), see `C52_relative_false`. -/
theorem C52_meaning_partial (stod : List Char → Option K) (same : Pt K → Pt K → Bool) (l : List (SubPath K)) (hl : l ≠ []) (str : List Char) (h : IsPathString stod l str)
    (hrel : ∀ s ∈ l.zip l.tail, s.1.closed = true → s.2.rel = false) :
    parsePath stod same str = .ok ((pathMeaning (0, 0) l).map (purgeSetDupes same), (l.getLast hl).closed) := by
  obtain ⟨ws, hw, hs⟩ := h
  have hwords := writes_words hw
  have hne : str ≠ [] := by
    cases hw with
    | nil => exact absurd rfl hl
    | cons h1 h2 =>
      obtain ⟨ux, uy, us, zs, hx, _, _, _, rfl⟩ := h1
      exact spells_ne hs (by simp)
  obtain ⟨st', D', C', p', r1, f1, v1, m1⟩ := run_path stod hw (pInit : PState K) [] [] (0, 0) (0, 0) (flush_self _ _ _ _) (fun _ _ _ => rfl) hrel
  have hel := elems_spells hs (t := []) (by simp) hwords str.length (by simp)
  simp only [List.append_nil, if_true] at hel
  rw [parsePath_eq stod same hne, hel, r1, Res.bind_ok, pathEnd_flush same f1]
  have e : (if C' = [] then D' else D' ++ [C']) = pathMeaning (0, 0) l := by
    have := v1
    unfold vo at this
    simpa using this
  rw [e, m1, List.getLast?_eq_some_getLast hl]
  rfl

end

/-- A path with a relative and an absolute sub-path, implied commands and shortcuts. -/
example : parsePath readInt (fun a b => decide (a = b)) "m 1,2 3 4 H9v-1 -2Z M0 0L5 5,6 6".toList
    = .ok ([[(1, 2), (4, 6), (9, 6), (9, 5), (9, 3)], [(0, 0), (5, 5), (6, 6)]], false) := by decide +kernel

example : IsPathString readInt [⟨true, 1, 2, [.hline false 9, .vline true (-1)], true⟩] "m 1,2H9 v-1Z".toList := by
  refine ⟨[['m'], ['1'], ['2'], ['H'], ['9'], ['v'], ['-', '1'], ['Z']], ?_, ?_⟩
  · refine WritesPath.cons (us := [['m'], ['1'], ['2'], ['H'], ['9'], ['v'], ['-', '1'], ['Z']]) (ws := []) ?_ WritesPath.nil
    refine ⟨['1'], ['2'], [['H'], ['9'], ['v'], ['-', '1']], [['Z']], ⟨by decide, by decide, by decide +kernel⟩, ⟨by decide, by decide, by decide +kernel⟩, ?_, by simp, rfl⟩
    refine WritesSegs.letter (s := .hline false 9) (us := [['9']]) (ws := [['v'], ['-', '1']]) _ (List.Forall₂.cons ⟨by decide, by decide, by decide +kernel⟩ List.Forall₂.nil) ?_
    exact WritesSegs.letter (s := .vline true (-1)) (us := [['-', '1']]) (ws := []) _ (List.Forall₂.cons ⟨by decide, by decide, by decide +kernel⟩ List.Forall₂.nil) (WritesSegs.nil _)
  · have e : "m 1,2H9 v-1Z".toList = [] ++ ['m'] ++ ([' '] ++ ['1'] ++ ([','] ++ ['2'] ++ ([] ++ ['H'] ++ ([] ++ ['9'] ++ ([' '] ++ ['v'] ++ ([] ++ ['-', '1'] ++ ([] ++ ['Z'] ++ []))))))) := by decide +kernel
    rw [e]
    refine Spells.cons (by simp) (by simp) (Spells.cons (by simp) (by simp) (Spells.cons (by simp) (by simp) (Spells.cons (by simp) ?_ (Spells.cons (by simp) ?_ (Spells.cons (by simp) (by simp) (Spells.cons (by simp) ?_ (Spells.cons (by simp) ?_ (Spells.nil _))))))))
    · intro _ h; exact absurd (h.2 'H' (by simp)) (by decide)
    · intro h _; exact absurd (h.2 'H' (by simp)) (by decide)
    · intro h _; exact absurd (h.2 'v' (by simp)) (by decide)
    · intro _ h; exact absurd (h.2 'Z' (by simp)) (by decide)

section
variable {K : Type} [AddCommGroup K] [DecidableEq K]

/-- The absolute and relative commands for the same vertices. -/
theorem C52_rel_abs (stod : List Char → Option K) (same : Pt K → Pt K → Bool) (p0 : Pt K) (pts : List (Pt K)) (closed : Bool) (s1 s2 : List Char)
    (h1 : IsPathString stod [⟨false, p0.1, p0.2, pts.map (fun p => .line false p.1 p.2), closed⟩] s1)
    (h2 : IsPathString stod [⟨true, p0.1, p0.2, (openPairs (p0 :: pts)).map (fun s => .line true (s.2.1 - s.1.1) (s.2.2 - s.1.2)), closed⟩] s2) :
    parsePath stod same s1 = parsePath stod same s2 ∧ parsePath stod same s1 = .ok ([purgeSetDupes same (p0 :: pts)], closed) := by
  have t1 : ∀ (q : Pt K) (pts : List (Pt K)), trace q (pts.map (fun p => .line false p.1 p.2)) = pts := by
    intro q pts
    induction pts generalizing q with
    | nil => rfl
    | cons p pts ih => simp only [List.map_cons, trace, PathSeg.target, ih]
  have t2 : ∀ (q : Pt K) (pts : List (Pt K)), trace q ((openPairs (q :: pts)).map (fun s => .line true (s.2.1 - s.1.1) (s.2.2 - s.1.2))) = pts := by
    intro q pts
    induction pts generalizing q with
    | nil => rfl
    | cons p pts ih =>
      have e : openPairs (q :: p :: pts) = (q, p) :: openPairs (p :: pts) := rfl
      rw [e, List.map_cons, trace]
      have e2 : PathSeg.target q (.line true (p.1 - q.1) (p.2 - q.2)) = p := by simp [PathSeg.target]
      simp only [e2, ih]
  have a1 := C52_meaning_partial stod same _ (by simp) s1 h1 (by simp)
  have a2 := C52_meaning_partial stod same _ (by simp) s2 h2 (by simp)
  simp only [pathMeaning, SubPath.vertices, SubPath.start, Bool.false_eq_true, if_false, if_true, t1, List.getLast_singleton, List.map_cons, List.map_nil, zero_add] at a1 a2
  rw [t2] at a2
  exact ⟨a1.trans a2.symm, a1⟩

/-- **C52 (partial), import.** When the sub-paths are all closed, or all open, and have no other duplicates, one polyline is made of each. Missing: mixed paths, see `C52_closed_false`. -/
theorem C52_import_partial (stod : List Char → Option K) (same : Pt K → Pt K → Bool) (l : List (SubPath K)) (hl : l ≠ []) (str : List Char) (h : IsPathString stod l str)
    (hrel : ∀ s ∈ l.zip l.tail, s.1.closed = true → s.2.rel = false) (b : Bool) (hb : ∀ s ∈ l, s.closed = b)
    (hchk : ∀ v ∈ pathMeaning (0, 0) l, polySet same (purgeSetDupes same v) = .ok (purgeSetDupes same v)) :
    importPath stod same str = .ok ((pathMeaning (0, 0) l).map (fun v => (b, purgeSetDupes same v))) := by
  unfold importPath
  have hp := C52_meaning_partial stod same l hl str h hrel
  rw [hp]
  simp only
  rw [importLoop_checked, hb _ (List.getLast_mem hl)]
  · simp
  · intro v hv
    refine ⟨vectors_ne stod same hp v hv, ?_⟩
    obtain ⟨w, hw, rfl⟩ := List.mem_map.1 hv
    have := hchk w hw
    unfold polySet at this
    split at this
    · assumption
    · simp at this

end

example : importPath readInt (fun a b => decide (a = b)) "M 0,0 H 2 V 2 z M 5 5 l 1 0 0 1 z".toList = .ok [(true, [(0, 0), (2, 0), (2, 2)]), (true, [(5, 5), (6, 5), (6, 6)])] := by decide +kernel

/-- **C52 is false of the code**: after "close path" the current point must be the start of the sub-path, the code keeps the last vertex. Here the second sub-path must start at (1,1). -/
theorem C52_relative_false : ∃ r, parsePath readInt (fun a b => decide (a = b)) "M 0 0 L 2 0 L 2 2 z m 1 1 L 5 5".toList = .ok r ∧
    r.1 = [[(0, 0), (2, 0), (2, 2)], [(3, 3), (5, 5)]] ∧
    pathMeaning (0, 0) [⟨false, 0, 0, [.line false 2 0, .line false 2 2], true⟩, ⟨true, 1, 1, [.line false 5 5], false⟩] = [[((0 : Int), 0), (2, 0), (2, 2)], [(1, 1), (5, 5)]] :=
  ⟨([[(0, 0), (2, 0), (2, 2)], [(3, 3), (5, 5)]], false), by decide +kernel, rfl, by decide +kernel⟩

/-- **C52 is false of the code**: a closed sub-path followed by an open one is imported as open. -/
theorem C52_closed_false : importPath readInt (fun a b => decide (a = b)) "M 0 0 L 2 0 L 2 2 Z M 5 5 L 6 6".toList = .ok [(false, [(0, 0), (2, 0), (2, 2)]), (false, [(5, 5), (6, 6)])] := by decide +kernel

/-- **C52 is false of the code**: minus is a separator in SVG, "10-20" is two numbers; here it is taken as one word. -/
theorem C52_minus_false : (getNextElem "10-20".toList).1 = "10-20".toList := by decide +kernel

/-- **C52 is false of the code**: any valid path whose last sub-path is open, followed by a space (or comma), is refused. -/
theorem C52_trailing_false {K : Type} [AddCommGroup K] [DecidableEq K] (stod : List Char → Option K) (hstod : stod [] = none) (same : Pt K → Pt K → Bool) (l : List (SubPath K)) (hl : l ≠ [])
    (str sep : List Char) (h : IsPathString stod l str) (hrel : ∀ s ∈ l.zip l.tail, s.1.closed = true → s.2.rel = false) (hopen : (l.getLast hl).closed = false)
    (hsep : sep ≠ []) (hsep' : ∀ c ∈ sep, c = ' ' ∨ c = ',') : parsePath stod same (str ++ sep) = .throw := by
  obtain ⟨ws, hw, hs⟩ := h
  have hwords := writes_words hw
  obtain ⟨st', D', C', p', r1, f1, v1, m1⟩ := run_path stod hw (pInit : PState K) [] [] (0, 0) (0, 0) (flush_self _ _ _ _) (fun _ _ _ => rfl) hrel
  have hel := elems_spells hs (t := sep) (fun c hc => (isSep_iff c).2 (hsep' c hc)) hwords (str ++ sep).length (by simp)
  rw [if_neg hsep] at hel
  rw [parsePath_eq stod same (by simp [hsep]), hel, runSteps_append, r1, Res.bind_ok]
  have hz : (st'.mode.cmd == 'Z') = false := by rw [m1, List.getLast?_eq_some_getLast hl]; exact hopen
  have hz' : st'.mode.cmd ≠ 'Z' := by simpa using hz
  have hrun0 : runSteps stod ws pInit ≠ .ub := by rw [r1]; simp
  -- the state is safe
  have hnl : ¬ IsLetter ([] : List Char) := by rintro ⟨c, h, _⟩; simp at h
  have hsafe : Safe st' := run_safe_ok stod _ _ _ safe_init r1
  simp only [runSteps]
  rw [value_eq stod hnl]
  unfold pathStep.pathValue
  have h1 : storeIfFull st' ≠ .ub := by
    unfold storeIfFull
    split
    · exact (store_safe hsafe hz').1
    · simp
  cases hsf : storeIfFull st' with
  | ub => exact absurd hsf h1
  | throw => rfl
  | ok st2 => simp [hstod]

example : parsePath readInt (fun a b => decide (a = b)) "M 1 2 L 3 4".toList = .ok ([[(1, 2), (3, 4)]], false) ∧ parsePath readInt (fun a b => decide (a = b)) "M 1 2 L 3 4 ".toList = .throw := by decide +kernel

/-! ## C53 -/

/-- **C53 (partial).** Every string in which each "close path" letter is the last character or is followed by another letter (after spaces and commas): the parser ends, by returning or by an exception. -/
theorem C53_noabort_partial {K : Type} [Add K] [Zero K] [DecidableEq K] (stod : List Char → Option K) (same : Pt K → Pt K → Bool) (str : List Char) (h : CloseThenLetter str) :
    parsePath stod same str ≠ .ub ∧ importPath stod same str ≠ .ub := by
  have h1 : parsePath stod same str ≠ .ub := by
    by_cases hne : str = []
    · subst hne; simp [parsePath]
    · rw [parsePath_eq stod same hne]
      have hsafe : Safe (pInit : PState K) := Or.inl ⟨Or.inl rfl, rfl⟩
      obtain ⟨k1, k2⟩ := run_safe stod (elems str.length str) pInit hsafe (by simp [pInit]) (elems_close _ _ le_rfl h)
      cases hr : runSteps stod (elems str.length str) (pInit : PState K) with
      | ub => exact absurd hr k1
      | throw => simp
      | ok st =>
        rw [Res.bind_ok]
        rcases pathEnd_cases same st with ⟨e, _⟩ | ⟨_, e⟩ | ⟨_, _, e⟩
        · exact absurd e (storeAny_safe (k2 st hr)).1
        · rw [e]; simp
        · rw [e]; simp
  refine ⟨h1, ?_⟩
  unfold importPath
  cases hp : parsePath stod same str with
  | ub => exact absurd hp h1
  | throw => simp
  | ok r => exact importLoop_ok same r.2 r.1 [] (vectors_ne stod same hp)

example : CloseThenLetter "M0,0L1,1z m5".toList := by
  intro pre post z e hz
  have hlen : "M0,0L1,1z m5".toList = ['M', '0', ',', '0', 'L', '1', ',', '1', 'z', ' ', 'm', '5'] := by decide +kernel
  rw [hlen] at e
  have hi : ∃ i, i < 12 ∧ pre.length = i := ⟨pre.length, by have := congrArg List.length e; simp at this; omega, rfl⟩
  obtain ⟨i, hi, hpre⟩ := hi
  have hz1 : ['M', '0', ',', '0', 'L', '1', ',', '1', 'z', ' ', 'm', '5'][i]? = some z := by rw [e, ← hpre]; simp
  have hz2 : ['M', '0', ',', '0', 'L', '1', ',', '1', 'z', ' ', 'm', '5'].drop (i + 1) = post := by rw [e, ← hpre]; simp
  rw [← hz2]
  have hi8 : i = 8 := by
    by_contra hne
    have : i = 0 ∨ i = 1 ∨ i = 2 ∨ i = 3 ∨ i = 4 ∨ i = 5 ∨ i = 6 ∨ i = 7 ∨ i = 9 ∨ i = 10 ∨ i = 11 := by omega
    rcases this with rfl | rfl | rfl | rfl | rfl | rfl | rfl | rfl | rfl | rfl | rfl <;> simp at hz1 <;> subst hz1 <;> simp at hz
  subst hi8
  right
  exact ⟨[' '], 'm', ['5'], rfl, by simp, by decide, by decide, by decide⟩

/-- **C53 is false of the code**: take any string that ends with "close path" and is parsed without error, and add a space, a comma, or a number: the program is aborted (failed `assert`). -/
theorem C53_abort_false {K : Type} [Add K] [Zero K] [DecidableEq K] (stod : List Char → Option K) (same : Pt K → Pt K → Bool) (s : List Char) (z : Char) (hz : z = 'z' ∨ z = 'Z') (r : List (List (Pt K)) × Bool)
    (h : parsePath stod same (s ++ [z]) = .ok r) (t : List Char) (ht : t ≠ []) (hnl : ∀ c, (getNextElem t).1 = [c] → (c.isDigit ∨ c = '.' ∨ c = '-')) :
    parsePath stod same (s ++ z :: t) = .ub := by
  have hzd : isDigit z = false ∧ isSep z = false := by rcases hz with rfl | rfl <;> decide
  have hnl' : ¬ IsLetter (getNextElem t).1 := by
    rintro ⟨c, e, hc⟩
    have := (isDigit_iff c).2 (hnl c e)
    rw [hc] at this; simp at this
  rw [parsePath_eq stod same (by simp)] at h ⊢
  obtain ⟨a, m, hm, h1, h2⟩ := elems_letter hzd.1 hzd.2 t s.length s (s ++ z :: t).length le_rfl (by simp; omega)
  rw [h2 _ (by simp)] at h
  obtain ⟨e, es, he, hel⟩ := elems_head_nonletter ht hm hnl'
  rw [h1, he]
  have : a ++ [z] :: e :: es = (a ++ [[z]]) ++ (e :: es) := by simp
  rw [this, runSteps_append]
  cases hr : runSteps stod (a ++ [[z]]) (pInit : PState K) with
  | ub => rw [hr] at h; simp at h
  | throw => rw [hr] at h; simp at h
  | ok st =>
    obtain ⟨hc, hn, hv⟩ := after_close stod hz hr
    simp only [Res.bind_ok, runSteps]
    rw [value_eq stod hel]
    unfold pathStep.pathValue storeIfFull
    rw [if_pos (by rw [hv, hn]; rfl)]
    have : storeValues st = .ub := by
      unfold storeValues
      rw [if_neg (by rw [hv, hn]; simp)]
      have : generateNewPoint st.mode st.prev st.values = .ub := by
        unfold generateNewPoint
        rw [hc]; rfl
      rw [this]; rfl
    rw [this]; rfl

example : (∃ r, parsePath readInt (fun a b => decide (a = b)) "M 0 0 L 1 0 L 1 1 Z".toList = .ok r) ∧ parsePath readInt (fun a b => decide (a = b)) "M 0 0 L 1 0 L 1 1 Z ".toList = .ub ∧
    parsePath readInt (fun a b => decide (a = b)) "M 0 0 L 1 0 L 1 1 Z 5".toList = .ub := ⟨⟨([[(0, 0), (1, 0), (1, 1)]], true), by decide +kernel⟩, by decide +kernel, by decide +kernel⟩

/-! ## C54 -/

/-- **C54.** When the equality of points is an equivalence relation: no two consecutive points of the result are the same, every location is kept, as well as the last point and the first location, and the order.
(The last two facts hold for any relation.) -/
theorem C54_purge_partial {P : Type} (same : P → P → Bool) (l : List P) :
    (purgeSetDupes same l).Sublist l ∧ (purgeSetDupes same l).getLast? = l.getLast? ∧
    ((∀ a, same a a = true) → (∀ a b, same a b = true → same b a = true) → (∀ a b c, same a b = true → same b c = true → same a c = true) →
      (∀ s ∈ openPairs (purgeSetDupes same l), same s.1 s.2 = false) ∧ (∀ a ∈ l, ∃ b ∈ purgeSetDupes same l, same a b = true) ∧
      (∀ a ∈ l.head?, ∃ b ∈ (purgeSetDupes same l).head?, same a b = true)) :=
  ⟨purge_sublist same l, purge_last same l, fun hr hs ht => ⟨purge_chain hr hs ht l, purge_cover hr ht l, purge_head hr ht l⟩⟩

/-- The points are kept when there are no duplicates. -/
theorem C54_nodup {P : Type} (same : P → P → Bool) : ∀ l : List P, (∀ s ∈ openPairs l, same s.1 s.2 = false) → purgeSetDupes same l = l
  | [], _ => rfl
  | [_], _ => rfl
  | a :: b :: l, h => by
    have h1 : same a b = false := h (a, b) (by simp [openPairs])
    rw [purgeSetDupes, h1, C54_nodup same (b :: l) (fun s hs => h s (by simp only [openPairs, List.tail_cons, List.zip_cons_cons, List.mem_cons] at hs ⊢; exact Or.inr hs))]
    simp

example : purgeSetDupes (fun a b => decide (a = b)) [1, 1, 2, 2, 2, 3, 1, 1] = [1, 2, 3, 1] := by decide +kernel

/-- **C54 is false of the code**: the equality of points has a tolerance, and two consecutive points of the result can be the same for it (the polyline constructor then throws).
Points on a line at 0, 12, 5, with tolerance 10. -/
theorem C54_false : ∃ l : List Int, ∃ s ∈ openPairs (purgeSetDupes (fun a b => decide (|a - b| < 10)) l), |s.1 - s.2| < 10 :=
  ⟨[0, 12, 5], (0, 5), by decide +kernel, by decide +kernel⟩

end H2d.Props
