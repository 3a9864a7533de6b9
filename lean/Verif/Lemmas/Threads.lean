import Verif.Spec.Threads
import Verif.Lemmas.PolyNorm
import Mathlib.Tactic.Linarith
import Mathlib.Tactic.IntervalCases

/-! # Schedules: rely and guarantee -/

namespace H2d

open Spec

/-- Rely and guarantee: an invariant of the memory, an invariant of each thread kept by its own accesses and by those of the others. -/
theorem runThreads_inv {M T : Type} (step : M → T → M × T) (I : M → Prop) (J : ℕ → M → T → Prop)
    (hI : ∀ i m t, I m → J i m t → I (step m t).1) (hJ : ∀ i m t, I m → J i m t → J i (step m t).1 (step m t).2)
    (hS : ∀ i k m t t', I m → J i m t → J k m t' → J k (step m t).1 t') :
    ∀ (s : List ℕ) (c : M × (ℕ → T)), I c.1 → (∀ i, J i c.1 (c.2 i)) →
      I (runThreads step s c).1 ∧ ∀ i, J i (runThreads step s c).1 ((runThreads step s c).2 i) := by
  intro s
  induction s with
  | nil => intro c h1 h2; exact ⟨h1, h2⟩
  | cons i is ih =>
    intro c h1 h2
    apply ih
    · exact hI i _ _ h1 (h2 i)
    · intro k
      by_cases hk : k = i
      · subst hk; simp only [if_true]; exact hJ k _ _ h1 (h2 k)
      · simp only [hk, if_false]; exact hS i k _ _ _ h1 (h2 i) (h2 k)

/-- Each turn of a thread lowers its rank, the turns of the others do not raise it. -/
theorem runThreads_rank {M T : Type} (step : M → T → M × T) (I : M → Prop) (J : ℕ → M → T → Prop) (rank : T → ℕ)
    (hI : ∀ i m t, I m → J i m t → I (step m t).1) (hJ : ∀ i m t, I m → J i m t → J i (step m t).1 (step m t).2)
    (hS : ∀ i k m t t', I m → J i m t → J k m t' → J k (step m t).1 t')
    (hR : ∀ i m t, I m → J i m t → rank (step m t).2 ≤ rank t - 1) (k : ℕ) :
    ∀ (s : List ℕ) (c : M × (ℕ → T)), I c.1 → (∀ i, J i c.1 (c.2 i)) →
      rank ((runThreads step s c).2 k) ≤ rank (c.2 k) - s.count k := by
  intro s
  induction s with
  | nil => intro c h1 h2; simp [runThreads]
  | cons i is ih =>
    intro c h1 h2
    have := ih ((step c.1 (c.2 i)).1, fun j => if j = i then (step c.1 (c.2 i)).2 else c.2 j) (hI i _ _ h1 (h2 i)) (by
      intro k
      by_cases hk : k = i
      · subst hk; simp only [if_true]; exact hJ k _ _ h1 (h2 k)
      · simp only [hk, if_false]; exact hS i k _ _ _ h1 (h2 i) (h2 k))
    simp only [runThreads]
    refine le_trans this ?_
    by_cases hk : k = i
    · subst hk
      simp only [if_true, List.count_cons_self]
      have := hR k _ _ h1 (h2 k)
      omega
    · simp only [hk, if_false]
      rw [List.count_cons_of_ne (by simpa using fun h => hk h.symm)]

namespace Threads

variable {K : Type} [Field K] [LinearOrder K]

theorem compute_width (e : Env K) (closed : Bool) (pts : List (Pt K)) (a : Attr) (ws : List (Word K))
    (h : a.compute e closed pts = .ok ws) : ws.length = a.width := by
  cases a
  · rcases hx : freshLen e closed pts with v | _ | _ <;> simp [Attr.compute, hx, Res.bind] at h
    subst h; rfl
  · rcases hx : freshSimple e closed pts with v | _ | _ <;> simp [Attr.compute, hx, Res.bind] at h
    subst h; rfl
  · simp [Attr.compute] at h; subst h; rfl
  · simp [Attr.compute] at h; subst h; rfl

/-- Word `j` of attribute `a` is the right one. -/
def Right (e : Env K) (closed : Bool) (pts : List (Pt K)) (m : PMem K) (a : Attr) (j : ℕ) : Prop :=
  ∀ ws, a.compute e closed pts = .ok ws → ws[j]? = some (m.cell a j)

/-- Attribute `a` is known, and all its words are right. -/
def Known (e : Env K) (closed : Bool) (pts : List (Pt K)) (m : PMem K) (a : Attr) : Prop :=
  (∃ ws, a.compute e closed pts = .ok ws) ∧ ∀ j < a.width, Right e closed pts m a j

/-- Invariant of the memory. -/
structure MInv (e : Env K) (closed : Bool) (pts : List (Pt K)) (N : Prop) (m : PMem K) : Prop where
  same : m.pts = pts
  norm : N → m.norm = true
  flag : ∀ a, m.flag a = true → Known e closed pts m a

/-- Attribute `a` is read by the current call. -/
def Serves (e : Env K) (closed : Bool) (pts : List (Pt K)) (todo : List PCall) : Attr → Prop
  | .len => todo.head? = some .length
  | .simple => (todo.head? = some .isSimple ∨ todo.head? = some .area ∨ todo.head? = some .centroid) ∧ ¬ (pts.length < 3 ∨ closed = false)
  | .area => todo.head? = some .area ∧ freshSimple e closed pts = .ok true
  | .cent => todo.head? = some .centroid ∧ freshSimple e closed pts = .ok true

/-- Invariant of the place of a thread. -/
def PcInv (e : Env K) (closed : Bool) (pts : List (Pt K)) (m : PMem K) (todo : List PCall) : PPc K → Prop
  | .idle => True
  | .size => todo.head? = some .isSimple ∨ todo.head? = some .area ∨ todo.head? = some .centroid
  | .test a => Serves e closed pts todo a
  | .scan a acc => Serves e closed pts todo a ∧ acc = pts.take acc.length
  | .store a ws j => Serves e closed pts todo a ∧ a.compute e closed pts = .ok ws ∧ ∀ k < j, Right e closed pts m a k
  | .mark a => Serves e closed pts todo a ∧ Known e closed pts m a
  | .load a acc => Serves e closed pts todo a ∧ Known e closed pts m a ∧ acc.length ≤ a.width ∧ ∀ ws, a.compute e closed pts = .ok ws → acc = ws.take acc.length
  | .norm => todo.head? = some .compare
  | .copy acc => (todo.head? = some .points ∨ todo.head? = some .compare) ∧ acc = pts.take acc.length

/-- Invariant of a thread. -/
structure TInv (e : Env K) (closed : Bool) (pts : List (Pt K)) (N : Prop) (m : PMem K) (th : PThread K) : Prop where
  out : ∀ x ∈ th.out, x.2 = alone e closed pts x.1
  cmp : .compare ∈ th.todo → N
  pc : PcInv e closed pts m th.todo th.pc

variable {e : Env K} {closed : Bool} {pts : List (Pt K)} {N : Prop}

theorem Known.mono {m m' : PMem K} (hm : ∀ a j, Right e closed pts m a j → Right e closed pts m' a j) {a : Attr} (h : Known e closed pts m a) :
    Known e closed pts m' a := ⟨h.1, fun j hj => hm a j (h.2 j hj)⟩

theorem TInv.mono {m m' : PMem K} (hm : ∀ a j, Right e closed pts m a j → Right e closed pts m' a j) {th : PThread K}
    (h : TInv e closed pts N m th) : TInv e closed pts N m' th := by
  refine ⟨h.out, h.cmp, ?_⟩
  have := h.pc
  rcases hp : th.pc with _ | _ | a | ⟨a, acc⟩ | ⟨a, ws, j⟩ | a | ⟨a, acc⟩ | _ | acc <;> rw [hp] at this <;> try exact this
  · exact ⟨this.1, this.2.1, fun k hk => hm _ _ (this.2.2 k hk)⟩
  · exact ⟨this.1, this.2.mono hm⟩
  · exact ⟨this.1, this.2.1.mono hm, this.2.2⟩

theorem TInv.ret {m : PMem K} {th : PThread K} (h : TInv e closed pts N m th) (c : PCall) (r : Res (List (Word K))) (hc : th.todo.head? = some c)
    (hr : r = alone e closed pts c) : TInv e closed pts N m (th.ret r) := by
  unfold PThread.ret
  rcases ht : th.todo with _ | ⟨c', cs⟩
  · rw [ht] at hc; cases hc
  · rw [ht] at hc; cases hc
    refine ⟨?_, fun hx => h.cmp (by rw [ht]; exact List.mem_cons_of_mem _ hx), trivial⟩
    intro x hx
    rcases List.mem_append.1 hx with hx | hx
    · exact h.out x hx
    · simp at hx; subst hx; exact hr

theorem freshSimple_short (h : pts.length < 3 ∨ closed = false) : freshSimple e closed pts = .ok false := by
  unfold freshSimple
  by_cases h3 : pts.length < 3
  · rw [if_pos h3]
  · rw [if_neg h3]
    rcases h with h | h
    · exact absurd h h3
    · subst h; rfl

theorem TInv.afterSimple {m : PMem K} {th : PThread K} (h : TInv e closed pts N m th) (b : Bool)
    (hc : th.todo.head? = some .isSimple ∨ th.todo.head? = some .area ∨ th.todo.head? = some .centroid)
    (hb : freshSimple e closed pts = .ok b) : TInv e closed pts N m (th.afterSimple b) := by
  unfold PThread.afterSimple
  rcases hc with hc | hc | hc <;> simp only [hc]
  · exact h.ret _ _ hc (by simp [alone, hb, Res.bind])
  · cases b
    · simp only [Bool.false_eq_true, if_false]
      exact h.ret _ _ hc (by simp [alone, freshArea, hb, Res.bind])
    · simp only [if_true]; exact ⟨h.out, h.cmp, hc, hb⟩
  · cases b
    · simp only [Bool.false_eq_true, if_false]
      exact h.ret _ _ hc (by simp [alone, freshCentroid, hb, Res.bind])
    · simp only [if_true]; exact ⟨h.out, h.cmp, hc, hb⟩

/-- The outcome of a call whose attribute is not simplicity. -/
theorem alone_of_serves {todo : List PCall} {a : Attr} (ha : a ≠ .simple) (hs : Serves e closed pts todo a) :
    ∃ c, todo.head? = some c ∧ alone e closed pts c = a.compute e closed pts := by
  cases a
  · exact ⟨_, hs, rfl⟩
  · exact absurd rfl ha
  · exact ⟨_, hs.1, by simp [alone, freshArea, hs.2, Attr.compute, Res.bind]⟩
  · exact ⟨_, hs.1, by simp [alone, freshCentroid, hs.2, Attr.compute, Res.bind]⟩

/-- If the computation of the attribute does not succeed, neither does the call. -/
theorem alone_of_fail {todo : List PCall} {a : Attr} (hs : Serves e closed pts todo a) (hr : ∀ ws, a.compute e closed pts ≠ .ok ws) :
    ∃ c, todo.head? = some c ∧ alone e closed pts c = a.compute e closed pts := by
  by_cases ha : a = .simple
  · subst ha
    have hx : ∀ b, freshSimple e closed pts ≠ .ok b := by
      intro b hb; exact hr [.bit b] (by simp [Attr.compute, hb, Res.bind])
    rcases hf : freshSimple e closed pts with b | _ | _
    · exact absurd hf (hx b)
    all_goals
      rcases hs.1 with hc | hc | hc <;> exact ⟨_, hc, by simp [alone, freshArea, freshCentroid, hf, Attr.compute, Res.bind]⟩
  · exact alone_of_serves ha hs

theorem take_snoc {α : Type} (l : List α) (n : ℕ) (x : α) (h : l[n]? = some x) : l.take n ++ [x] = l.take (n + 1) := by
  rw [List.take_add_one, h]; rfl

theorem step_mem {m : PMem K} {th : PThread K} (hm : MInv e closed pts N m) (h : TInv e closed pts N m th) :
    MInv e closed pts N (polyStep e closed m th).1 ∧
      ∀ a j, Right e closed pts m a j → Right e closed pts (polyStep e closed m th).1 a j := by
  have hp := h.pc
  unfold polyStep
  rcases hq : th.pc with _ | _ | a | ⟨a, acc⟩ | ⟨a, ws, j⟩ | a | ⟨a, acc⟩ | _ | acc <;> rw [hq] at hp <;> simp only
  · rcases th.todo with _ | ⟨c, cs⟩ <;> exact ⟨hm, fun _ _ h => h⟩
  · exact ⟨hm, fun _ _ h => h⟩
  · exact ⟨hm, fun _ _ h => h⟩
  · rcases m.pts[acc.length]? with _ | p
    · rcases a.compute e closed acc with _ | _ | _ <;> exact ⟨hm, fun _ _ h => h⟩
    · exact ⟨hm, fun _ _ h => h⟩
  · rcases hw : ws[j]? with _ | w
    · exact ⟨hm, fun _ _ h => h⟩
    · have mono : ∀ a' k, Right e closed pts m a' k →
          Right e closed pts { m with cell := fun a' j' => if a' = a ∧ j' = j then w else m.cell a' j' } a' k := by
        intro a' k hk ws' hws'
        by_cases hx : a' = a ∧ k = j
        · obtain ⟨rfl, rfl⟩ := hx
          rw [hp.2.1] at hws'; cases hws'
          simp [hw]
        · simp only [if_neg hx]; exact hk ws' hws'
      exact ⟨⟨hm.same, hm.norm, fun a' ha' => (hm.flag a' ha').mono mono⟩, mono⟩
  · refine ⟨⟨hm.same, hm.norm, ?_⟩, fun _ _ h => h⟩
    intro a' ha'
    by_cases hx : a' = a
    · subst hx; exact hp.2
    · simp only [if_neg hx] at ha'; exact hm.flag a' ha'
  · by_cases hx : acc.length < a.width
    · rw [if_pos hx]; exact ⟨hm, fun _ _ h => h⟩
    · rw [if_neg hx]; exact ⟨hm, fun _ _ h => h⟩
  · have hn : m.norm = true := hm.norm (h.cmp (List.mem_of_mem_head? (by rw [hp]; rfl)))
    rw [if_pos (Or.inl hn)]
    exact ⟨hm, fun _ _ h => h⟩
  · rcases m.pts[acc.length]? with _ | p <;> exact ⟨hm, fun _ _ h => h⟩

theorem step_thread {m : PMem K} {th : PThread K} (hm : MInv e closed pts N m) (h : TInv e closed pts N m th) :
    TInv e closed pts N (polyStep e closed m th).1 (polyStep e closed m th).2 := by
  have hp := h.pc
  have hmono := (step_mem hm h).2
  have hall := h.mono hmono
  revert hmono hall
  unfold polyStep
  rcases hq : th.pc with _ | _ | a | ⟨a, acc⟩ | ⟨a, ws, j⟩ | a | ⟨a, acc⟩ | _ | acc <;> rw [hq] at hp <;> simp only
  · rcases ht : th.todo with _ | ⟨c, cs⟩ <;> simp only
    · intro _ _; exact h
    · intro _ _
      refine ⟨h.out, fun hx => h.cmp (by rw [ht]; exact hx), ?_⟩
      cases c <;> simp [PCall.entry, PcInv, Serves]
  · intro _ _
    rw [hm.same]
    by_cases hx : pts.length < 3 ∨ closed = false
    · rw [if_pos hx]; exact h.afterSimple false hp (freshSimple_short hx)
    · rw [if_neg hx]; exact ⟨h.out, h.cmp, hp, hx⟩
  · intro _ _
    by_cases hx : m.flag a = true
    · rw [if_pos hx]
      exact ⟨h.out, h.cmp, hp, hm.flag a hx, by simp, by simp⟩
    · rw [if_neg hx]; exact ⟨h.out, h.cmp, hp, by simp⟩
  · rw [hm.same]
    rcases hx : pts[acc.length]? with _ | p <;> simp only
    · have hacc : acc = pts := by
        have := hp.2
        rw [List.take_of_length_le (by simpa using hx)] at this
        exact this
      rw [hacc]
      rcases hc : a.compute e closed pts with ws | _ | _ <;> simp only <;> intro _ _
      · exact ⟨h.out, h.cmp, hp.1, hc, by simp⟩
      · obtain ⟨c, h1, h2⟩ := alone_of_fail hp.1 (by simp [hc])
        exact h.ret c _ h1 (by rw [h2, hc])
      · obtain ⟨c, h1, h2⟩ := alone_of_fail hp.1 (by simp [hc])
        exact h.ret c _ h1 (by rw [h2, hc])
    · intro _ _
      refine ⟨h.out, h.cmp, hp.1, ?_⟩
      rw [List.length_append, List.length_singleton, ← take_snoc _ _ _ hx, ← hp.2]
  · rcases hw : ws[j]? with _ | w <;> simp only <;> intro hmono hall
    · refine ⟨h.out, h.cmp, hp.1, ⟨ws, hp.2.1⟩, ?_⟩
      intro k hk
      apply hp.2.2 k
      have := compute_width e closed pts a ws hp.2.1
      have := List.getElem?_eq_none_iff.1 hw
      omega
    · refine ⟨h.out, h.cmp, hp.1, hp.2.1, ?_⟩
      intro k hk
      by_cases hx : k = j
      · subst hx
        intro ws' hws'
        rw [hp.2.1] at hws'; cases hws'
        simp [hw]
      · exact hmono a k (hp.2.2 k (by omega))
  · intro _ _
    refine ⟨h.out, h.cmp, hp.1, ⟨hp.2.1, fun j hj => hp.2.2 j hj⟩, by simp, by simp⟩
  · by_cases hx : acc.length < a.width
    · rw [if_pos hx]; intro _ _
      refine ⟨h.out, h.cmp, hp.1, hp.2.1, by simp only [List.length_append, List.length_singleton]; omega, ?_⟩
      intro ws hws
      rw [List.length_append, List.length_singleton, ← take_snoc _ _ _ (hp.2.1.2 _ hx ws hws), ← hp.2.2.2 ws hws]
    · rw [if_neg hx]; intro _ _
      obtain ⟨ws, hws⟩ := hp.2.1.1
      have hacc : acc = ws := by
        rw [hp.2.2.2 ws hws, List.take_of_length_le]
        rw [compute_width e closed pts a ws hws]; omega
      rw [hacc]
      by_cases ha : a = .simple
      · subst ha
        rcases hf : freshSimple e closed pts with b | _ | _ <;> simp [Attr.compute, hf, Res.bind] at hws
        subst hws
        exact h.afterSimple b hp.1.1 hf
      · obtain ⟨c, h1, h2⟩ := alone_of_serves ha hp.1
        have : th.gotValue a ws = th.ret (.ok ws) := by
          unfold PThread.gotValue
          cases a <;> first | exact absurd rfl ha | rfl
        simp only [this]
        exact h.ret c _ h1 (by rw [h2, hws])
  · have hn : m.norm = true := hm.norm (h.cmp (List.mem_of_mem_head? (by rw [hp]; rfl)))
    rw [if_pos (Or.inl hn)]
    intro _ _
    exact ⟨h.out, h.cmp, Or.inr hp, by simp⟩
  · rw [hm.same]
    rcases hx : pts[acc.length]? with _ | p <;> simp only <;> intro _ _
    · have hacc : acc = pts := by
        have := hp.2
        rw [List.take_of_length_le (by simpa using hx)] at this
        exact this
      rw [hacc]
      rcases hp.1 with hc | hc <;> exact h.ret _ _ hc rfl
    · refine ⟨h.out, h.cmp, hp.1, ?_⟩
      rw [List.length_append, List.length_singleton, ← take_snoc _ _ _ hx, ← hp.2]

theorem coherent_inv {m : PMem K} (hm : Coherent e closed m) (hN : N → m.norm = true) : MInv e closed m.pts N m := by
  refine ⟨rfl, hN, ?_⟩
  intro a ha
  cases a
  · obtain ⟨v, h1, h2⟩ := hm.len ha
    refine ⟨⟨[.num v], by simp [Attr.compute, h1, Res.bind]⟩, ?_⟩
    intro j hj ws hws
    simp [Attr.compute, h1, Res.bind] at hws
    subst hws
    have : j = 0 := by simp [Attr.width] at hj; exact hj
    subst this; simp [h2]
  · obtain ⟨v, h1, h2⟩ := hm.simple ha
    refine ⟨⟨[.bit v], by simp [Attr.compute, h1, Res.bind]⟩, ?_⟩
    intro j hj ws hws
    simp [Attr.compute, h1, Res.bind] at hws
    subst hws
    have : j = 0 := by simp [Attr.width] at hj; exact hj
    subst this; simp [h2]
  · refine ⟨⟨_, rfl⟩, ?_⟩
    intro j hj ws hws
    simp [Attr.compute] at hws
    subst hws
    have : j = 0 := by simp [Attr.width] at hj; exact hj
    subst this; simp [hm.area ha]
  · refine ⟨⟨_, rfl⟩, ?_⟩
    intro j hj ws hws
    simp [Attr.compute] at hws
    subst hws
    obtain ⟨h1, h2, h3⟩ := hm.cent ha
    have : j < 3 := hj
    interval_cases j <;> simp [*]

theorem inv_coherent {m : PMem K} (h : MInv e closed pts N m) : Coherent e closed m := by
  have hp := h.same
  subst hp
  refine ⟨fun hf => ?_, fun hf => ?_, fun hf => ?_, fun hf => ?_⟩
  · obtain ⟨⟨ws, hws⟩, hr⟩ := h.flag _ hf
    have h0 := hr 0 (by decide) ws hws
    rcases hx : freshLen e closed m.pts with v | _ | _ <;> simp [Attr.compute, hx, Res.bind] at hws
    subst hws
    exact ⟨v, rfl, by simpa using h0.symm⟩
  · obtain ⟨⟨ws, hws⟩, hr⟩ := h.flag _ hf
    have h0 := hr 0 (by decide) ws hws
    rcases hx : freshSimple e closed m.pts with v | _ | _ <;> simp [Attr.compute, hx, Res.bind] at hws
    subst hws
    exact ⟨v, rfl, by simpa using h0.symm⟩
  · have h0 := (h.flag _ hf).2 0 (by decide) _ rfl
    simpa using h0.symm
  · have h0 := (h.flag _ hf).2 0 (by decide) _ rfl
    have h1 := (h.flag _ hf).2 1 (by decide) _ rfl
    have h2 := (h.flag _ hf).2 2 (by decide) _ rfl
    exact ⟨by simpa using h0.symm, by simpa using h1.symm, by simpa using h2.symm⟩

/-! ## Every call returns -/

variable [IsStrictOrderedRing K]

theorem normalizePoly_length (closed : Bool) (l q : List (Pt K)) (h : normalizePoly closed l = .ok q) : q.length = l.length := by
  cases closed
  · rcases l with _ | ⟨p, ps⟩
    · simp [normalizePoly] at h; subst h; rfl
    · simp only [normalizePoly, Bool.false_eq_true, if_false] at h
      by_cases hx : ptLt (ps.getLastD p) p = true
      · rw [if_pos hx] at h; cases h; simp
      · rw [if_neg hx] at h; cases h; rfl
  · obtain ⟨k, hk | hk⟩ := normalizePoly_cycle l q h <;> simp [hk]

/-- Turns that a thread still needs for its current call, `n` being the number of vertices. -/
def inner (n : ℕ) : PPc K → ℕ
  | .idle => 0
  | .size => 2 * n + 24
  | .test a => n + 11 + (if a = .simple then n + 12 else 0)
  | .scan a acc => n - acc.length + 10 + (if a = .simple then n + 12 else 0)
  | .store a ws j => ws.length - j + 6 + (if a = .simple then n + 12 else 0)
  | .mark a => 5 + (if a = .simple then n + 12 else 0)
  | .load a acc => 4 - acc.length + (if a = .simple then n + 12 else 0)
  | .norm => n + 2
  | .copy acc => n - acc.length + 1

/-- Turns that a thread still needs. -/
def rank (n : ℕ) (th : PThread K) : ℕ :=
  match th.pc with
  | .idle => (2 * n + 40) * th.todo.length
  | pc => (2 * n + 40) * (th.todo.length - 1) + inner n pc

/-- Bounds on the place of a thread. -/
def PcBound (n : ℕ) (todo : List PCall) : PPc K → Prop
  | .idle => True
  | .scan _ acc => acc.length ≤ n ∧ todo ≠ []
  | .store _ ws j => ws.length ≤ 3 ∧ j ≤ ws.length ∧ todo ≠ []
  | .load a acc => acc.length ≤ a.width ∧ todo ≠ []
  | .copy acc => acc.length ≤ n ∧ todo ≠ []
  | _ => todo ≠ []

/-- The calls of the thread are those of its program, and its place is within bounds. -/
structure Bounded (n : ℕ) (prog : List PCall) (th : PThread K) : Prop where
  prog : th.out.map Prod.fst ++ th.todo = prog
  pc : PcBound n th.todo th.pc

theorem width_le (a : Attr) : a.width ≤ 3 := by cases a <;> decide

theorem Bounded.ret {n : ℕ} {prog : List PCall} {th : PThread K} (h : Bounded n prog th) (hne : th.todo ≠ []) (r : Res (List (Word K))) :
    Bounded n prog (th.ret r) ∧ rank n (th.ret r) = (2 * n + 40) * (th.todo.length - 1) := by
  unfold PThread.ret
  rcases ht : th.todo with _ | ⟨c, cs⟩
  · exact absurd ht hne
  · refine ⟨⟨?_, trivial⟩, ?_⟩
    · have := h.prog; rw [ht] at this; simpa using this
    · simp [rank]

theorem Bounded.afterSimple {n : ℕ} {prog : List PCall} {th : PThread K} (h : Bounded n prog th) (hne : th.todo ≠ []) (b : Bool) :
    Bounded n prog (th.afterSimple b) ∧ rank n (th.afterSimple b) ≤ (2 * n + 40) * (th.todo.length - 1) + (n + 11) := by
  have hr := fun r => h.ret hne r
  have hs : ∀ a : Attr, a ≠ .simple → Bounded n prog { th with pc := .test a } ∧
      rank n { th with pc := .test a } ≤ (2 * n + 40) * (th.todo.length - 1) + (n + 11) := by
    intro a ha
    exact ⟨⟨h.prog, hne⟩, by simp [rank, inner, ha]⟩
  have hr' := fun r => (⟨(hr r).1, by rw [(hr r).2]; omega⟩ : Bounded n prog (th.ret r) ∧ rank n (th.ret r) ≤ (2 * n + 40) * (th.todo.length - 1) + (n + 11))
  unfold PThread.afterSimple
  rcases th.todo.head? with _ | c
  · exact hr' _
  · cases c <;> simp only <;> first | exact hr' _ | skip
    · cases b
      · simpa using hr' _
      · simpa using hs .area (by decide)
    · cases b
      · simpa using hr' _
      · simpa using hs .cent (by decide)

theorem step_rank {n : ℕ} {prog : List PCall} {m : PMem K} {th : PThread K} (hm : m.pts.length = n) (h : Bounded n prog th) :
    (polyStep e closed m th).1.pts.length = n ∧ Bounded n prog (polyStep e closed m th).2 ∧ rank n (polyStep e closed m th).2 ≤ rank n th - 1 := by
  have hp := h.pc
  have hp1 := h.prog
  have hrk : rank n th = match th.pc with | .idle => (2 * n + 40) * th.todo.length | pc => (2 * n + 40) * (th.todo.length - 1) + inner n pc := rfl
  unfold polyStep
  rcases hq : th.pc with _ | _ | a | ⟨a, acc⟩ | ⟨a, ws, j⟩ | a | ⟨a, acc⟩ | _ | acc <;> rw [hq] at hp hrk <;> simp only at hrk ⊢
  · rcases ht : th.todo with _ | ⟨c, cs⟩ <;> simp only
    · refine ⟨hm, h, ?_⟩; rw [hrk, ht]; simp
    · rw [ht] at hrk hp1
      refine ⟨hm, ⟨hp1, by cases c <;> simp [PCall.entry, PcBound]⟩, ?_⟩
      rw [hrk]
      have : (2 * n + 40) * (c :: cs).length = (2 * n + 40) * cs.length + (2 * n + 40) := by simp [Nat.mul_succ]
      rw [this]
      cases c <;> simp [PCall.entry, rank, inner] <;> omega
  · refine ⟨hm, ?_⟩
    by_cases hx : m.pts.length < 3 ∨ closed = false
    · rw [if_pos hx]
      obtain ⟨h1, h2⟩ := h.afterSimple hp false
      refine ⟨h1, ?_⟩
      rw [hrk]; simp only [inner]; omega
    · rw [if_neg hx]
      refine ⟨⟨hp1, hp⟩, ?_⟩
      rw [hrk]; simp only [rank, inner, if_true]; omega
  · refine ⟨hm, ?_⟩
    by_cases hx : m.flag a = true
    · rw [if_pos hx]
      refine ⟨⟨hp1, by simp, hp⟩, ?_⟩
      rw [hrk]; simp only [rank, inner, List.length_nil]; omega
    · rw [if_neg hx]
      refine ⟨⟨hp1, by simp, hp⟩, ?_⟩
      rw [hrk]; simp only [rank, inner, List.length_nil]; omega
  · rcases hx : m.pts[acc.length]? with _ | p <;> simp only
    · rcases hc : a.compute e closed acc with ws | _ | _ <;> simp only
      · have hw := compute_width e closed acc a ws hc
        have := width_le a
        refine ⟨hm, ⟨hp1, by omega, by omega, hp.2⟩, ?_⟩
        rw [hrk]; simp only [rank, inner]; omega
      all_goals
        obtain ⟨h1, h2⟩ := h.ret hp.2 _
        refine ⟨hm, h1, ?_⟩
        rw [hrk, h2]; simp only [inner]; omega
    · have := (List.getElem?_eq_some_iff.1 hx).1
      refine ⟨hm, ⟨hp1, by simp; omega, hp.2⟩, ?_⟩
      rw [hrk]; simp only [rank, inner, List.length_append, List.length_singleton]; omega
  · rcases hx : ws[j]? with _ | w <;> simp only
    · refine ⟨hm, ⟨hp1, hp.2.2⟩, ?_⟩
      rw [hrk]; simp only [rank, inner]; omega
    · have := (List.getElem?_eq_some_iff.1 hx).1
      refine ⟨hm, ⟨hp1, hp.1, by omega, hp.2.2⟩, ?_⟩
      rw [hrk]; simp only [rank, inner]; omega
  · refine ⟨hm, ⟨hp1, by simp, hp⟩, ?_⟩
    rw [hrk]; simp only [rank, inner, List.length_nil]; omega
  · have hw := width_le a
    by_cases hx : acc.length < a.width
    · rw [if_pos hx]
      refine ⟨hm, ⟨hp1, by simp; omega, hp.2⟩, ?_⟩
      rw [hrk]; simp only [rank, inner, List.length_append, List.length_singleton]; omega
    · rw [if_neg hx]
      refine ⟨hm, ?_⟩
      have hret : ∀ r, Bounded n prog (th.ret r) ∧ rank n (th.ret r) ≤ rank n th - 1 := by
        intro r
        obtain ⟨h1, h2⟩ := h.ret hp.2 r
        refine ⟨h1, ?_⟩
        rw [hrk, h2]; simp only [inner]
        have := hp.1
        omega
      unfold PThread.gotValue
      cases a <;> simp only <;> first | exact hret _ | skip
      rcases acc with _ | ⟨w, acc⟩
      · exact hret _
      · cases w <;> simp only
        · exact hret _
        · rename_i b
          obtain ⟨h1, h2⟩ := h.afterSimple hp.2 b
          refine ⟨h1, ?_⟩
          rw [hrk]; simp only [inner, if_true]
          omega
  · by_cases hx : m.norm = true ∨ m.pts = []
    · rw [if_pos hx]
      refine ⟨hm, ⟨hp1, by simp, hp⟩, ?_⟩
      rw [hrk]; simp only [rank, inner, List.length_nil]; omega
    · rw [if_neg hx]
      rcases hc : normalizePoly closed m.pts with q | _ | _ <;> simp only
      · refine ⟨by rw [normalizePoly_length _ _ _ hc, hm], ⟨hp1, by simp, hp⟩, ?_⟩
        rw [hrk]; simp only [rank, inner, List.length_nil]; omega
      all_goals
        obtain ⟨h1, h2⟩ := h.ret hp _
        refine ⟨hm, h1, ?_⟩
        rw [hrk, h2]; simp only [inner]; omega
  · rcases hx : m.pts[acc.length]? with _ | p <;> simp only
    · obtain ⟨h1, h2⟩ := h.ret hp.2 (.ok (acc.flatMap ptWords))
      refine ⟨hm, h1, ?_⟩
      rw [hrk, h2]; simp only [inner]; omega
    · have := (List.getElem?_eq_some_iff.1 hx).1
      refine ⟨hm, ⟨hp1, by simp; omega, hp.2⟩, ?_⟩
      rw [hrk]; simp only [rank, inner, List.length_append, List.length_singleton]; omega

theorem rank_zero {n : ℕ} {prog : List PCall} {th : PThread K} (h : Bounded n prog th) (hr : rank n th = 0) : th.todo = [] := by
  have hp := h.pc
  unfold rank at hr
  rcases hq : th.pc with _ | _ | a | ⟨a, acc⟩ | ⟨a, ws, j⟩ | a | ⟨a, acc⟩ | _ | acc <;> rw [hq] at hp hr <;> simp only [inner] at hr
  · rcases Nat.mul_eq_zero.1 hr with h0 | h0
    · omega
    · exact List.eq_nil_of_length_eq_zero h0
  all_goals first | omega | skip
  have := width_le a
  have := hp.1
  omega

end Threads

end H2d
