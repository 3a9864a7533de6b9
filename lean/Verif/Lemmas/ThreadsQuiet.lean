import Verif.Lemmas.ThreadsHom
import Verif.Lemmas.ThreadsCircle

/-! # Threads: once the values are known, const calls only read -/

namespace H2d.Threads
open Spec

variable {K : Type} [Field K] [LinearOrder K] {e : Env K} {closed : Bool} {pts : List (Pt K)} {N : Prop}

/-- Nothing that was known is forgotten. -/
structure More (m m' : PMem K) : Prop where
  pts : m'.pts = m.pts
  norm : m.norm = true → m'.norm = true
  flag : ∀ a, m.flag a = true → m'.flag a = true

theorem Ready.more {m m' : PMem K} (h : More m m') {c : PCall} (hr : Ready e closed m c) : Ready e closed m' c := by
  cases c <;> simp only [Ready, h.pts] at hr ⊢
  · exact h.flag _ hr
  · exact hr.imp_right (h.flag _)
  · exact hr.imp_right fun x => ⟨h.flag _ x.1, fun y => h.flag _ (x.2 y)⟩
  · exact hr.imp_right fun x => ⟨h.flag _ x.1, fun y => h.flag _ (x.2 y)⟩
  · exact hr.imp_left h.norm

/-- What the place of a thread tells about the flags. -/
def PcR (m : PMem K) (todo : List PCall) : PPc K → Prop
  | .load a _ => m.flag a = true ∧ (a = .area ∨ a = .cent → m.flag .simple = true)
  | .test a | .scan a _ | .store a _ _ | .mark a => a = .area ∨ a = .cent → m.flag .simple = true
  | .copy _ => todo.head? = some .compare → m.norm = true ∨ m.pts = []
  | .idle | .size | .norm => True

/-- Invariant: the calls that have returned a value have left what they need. -/
structure RInv (e : Env K) (closed : Bool) (m : PMem K) (th : PThread K) : Prop where
  out : ∀ x ∈ th.out, (∃ v, x.2 = .ok v) → Ready e closed m x.1
  pc : PcR m th.todo th.pc

theorem RInv.more {m m' : PMem K} (hm : More m m') {th : PThread K} (h : RInv e closed m th) : RInv e closed m' th := by
  refine ⟨fun x hx hv => Ready.more hm (h.out x hx hv), ?_⟩
  have := h.pc
  rcases hp : th.pc with _ | _ | a | ⟨a, acc⟩ | ⟨a, ws, j⟩ | a | ⟨a, acc⟩ | _ | acc <;> rw [hp] at this <;> try exact this
  · exact fun x => hm.flag _ (this x)
  · exact fun x => hm.flag _ (this x)
  · exact fun x => hm.flag _ (this x)
  · exact fun x => hm.flag _ (this x)
  · exact ⟨hm.flag _ this.1, fun x => hm.flag _ (this.2 x)⟩
  · intro x
    rw [hm.pts]
    exact (this x).imp_left hm.norm

theorem RInv.ret {m : PMem K} {th : PThread K} (h : RInv e closed m th) (r : Res (List (Word K)))
    (hr : ∀ c v, th.todo.head? = some c → r = .ok v → Ready e closed m c) : RInv e closed m (th.ret r) := by
  unfold PThread.ret
  rcases ht : th.todo with _ | ⟨c', cs⟩
  · exact ⟨h.out, trivial⟩
  · refine ⟨?_, trivial⟩
    intro x hx hv
    rcases List.mem_append.1 hx with hx | hx
    · exact h.out x hx hv
    · simp at hx; subst hx
      obtain ⟨v, hv⟩ := hv
      exact hr _ v (by rw [ht]; rfl) hv

theorem step_more {m : PMem K} {th : PThread K} (hm : MInv e closed pts N m) (h : TInv e closed pts N m th) : More m (polyStep e closed m th).1 := by
  have hp := (step_mem hm h).1.same
  have hid : More m m := ⟨rfl, id, fun _ => id⟩
  refine ⟨hp.trans hm.same.symm, ?_, ?_⟩
  all_goals
    unfold polyStep
    rcases hq : th.pc with _ | _ | a | ⟨a, acc⟩ | ⟨a, ws, j⟩ | a | ⟨a, acc⟩ | _ | acc <;> simp only
    all_goals (try split) <;> (try split) <;> (try split) <;> simp_all

theorem RInv.afterSimple {m : PMem K} {th : PThread K} (hpts : m.pts = pts) (h : RInv e closed m th) (b : Bool) (hb : freshSimple e closed pts = .ok b)
    (hc : th.todo.head? = some .isSimple ∨ th.todo.head? = some .area ∨ th.todo.head? = some .centroid)
    (hs : (m.pts.length < 3 ∨ closed = false) ∨ m.flag .simple = true) : RInv e closed m (th.afterSimple b) := by
  have hb' : b = true → m.flag .simple = true := by
    rintro rfl
    refine hs.resolve_left fun hx => ?_
    rw [hpts] at hx
    rw [freshSimple_short hx] at hb; cases hb
  unfold PThread.afterSimple
  rcases hc with hc | hc | hc <;> simp only [hc]
  · refine h.ret _ fun c v hcc _ => ?_
    rw [hc] at hcc; cases hcc; exact hs
  · cases b
    · simp only [Bool.false_eq_true, if_false]
      refine h.ret _ fun c v hcc _ => ?_
      rw [hc] at hcc; cases hcc
      exact hs.imp_right fun x => ⟨x, fun y => by rw [hpts, hb] at y; cases y⟩
    · simp only [if_true]; exact ⟨h.out, fun _ => hb' rfl⟩
  · cases b
    · simp only [Bool.false_eq_true, if_false]
      exact h.ret _ fun c v _ hcc => by cases hcc
    · simp only [if_true]; exact ⟨h.out, fun _ => hb' rfl⟩

/-- The words of simplicity that have been read. -/
theorem simple_words {m : PMem K} {acc : List (Word K)} (hk : Known e closed pts m .simple) (h1 : acc.length ≤ Attr.width .simple)
    (h2 : ∀ ws, Attr.compute e closed pts .simple = .ok ws → acc = ws.take acc.length) (h3 : ¬ acc.length < Attr.width .simple) :
    ∃ b, freshSimple e closed pts = .ok b ∧ acc = [.bit b] := by
  obtain ⟨ws, hw⟩ := hk.1
  have ha := h2 ws hw
  rcases hf : freshSimple e closed pts with b | _ | _ <;> simp [Attr.compute, hf, Res.bind] at hw
  refine ⟨b, rfl, ?_⟩
  subst hw
  have : acc.length = 1 := by simp only [Attr.width] at h1 h3; omega
  rw [ha, this]; rfl

theorem step_ready {m : PMem K} {th : PThread K} (hm : MInv e closed pts N m) (h : TInv e closed pts N m th) (hr : RInv e closed m th) :
    RInv e closed (polyStep e closed m th).1 (polyStep e closed m th).2 := by
  have hmore := step_more hm h
  have hp := h.pc
  have hq0 := hr.pc
  have hall := hr.more hmore
  revert hmore hall
  unfold polyStep
  rcases hq : th.pc with _ | _ | a | ⟨a, acc⟩ | ⟨a, ws, j⟩ | a | ⟨a, acc⟩ | _ | acc <;> rw [hq] at hp hq0 <;> simp only
  · rcases ht : th.todo with _ | ⟨c, cs⟩ <;> simp only <;> intro _ _
    · exact hr
    · exact ⟨hr.out, by cases c <;> simp [PCall.entry, PcR]⟩
  · intro _ _
    by_cases hx : m.pts.length < 3 ∨ closed = false
    · rw [if_pos hx]
      exact hr.afterSimple hm.same false (freshSimple_short (by rwa [hm.same] at hx)) hp (.inl hx)
    · rw [if_neg hx]; exact ⟨hr.out, by simp [PcR]⟩
  · intro _ _
    by_cases hx : m.flag a = true
    · rw [if_pos hx]; exact ⟨hr.out, hx, hq0⟩
    · rw [if_neg hx]; exact ⟨hr.out, hq0⟩
  · rcases m.pts[acc.length]? with _ | p <;> simp only
    · rcases a.compute e closed acc with ws | _ | _ <;> simp only <;> intro _ _
      · exact ⟨hr.out, hq0⟩
      · exact hr.ret _ fun c v _ hx => by cases hx
      · exact hr.ret _ fun c v _ hx => by cases hx
    · intro _ _; exact ⟨hr.out, hq0⟩
  · rcases hw : ws[j]? with _ | w <;> simp only <;> intro _ hall
    · exact ⟨hr.out, hq0⟩
    · exact ⟨hall.out, hq0⟩
  · intro _ hall
    exact ⟨hall.out, by simp, fun x => by simp [hq0 x]⟩
  · by_cases hx : acc.length < a.width
    · rw [if_pos hx]; intro _ _; exact ⟨hr.out, hq0⟩
    · rw [if_neg hx]; intro _ _
      by_cases ha : a = .simple
      · subst ha
        obtain ⟨b, hb, rfl⟩ := simple_words hp.2.1 hp.2.2.1 hp.2.2.2 hx
        exact hr.afterSimple hm.same b hb hp.1.1 (.inr hq0.1)
      · have e1 : th.gotValue a acc = th.ret (.ok acc) := by
          cases a
          · rfl
          · exact absurd rfl ha
          · rfl
          · rfl
        rw [e1]
        refine hr.ret _ fun c v hc _ => ?_
        cases a
        · have := hp.1; rw [Serves, hc] at this; cases this; exact hq0.1
        · exact absurd rfl ha
        · have := hp.1.1; rw [hc] at this; cases this; exact .inr ⟨hq0.2 (.inl rfl), fun _ => hq0.1⟩
        · have := hp.1.1; rw [hc] at this; cases this; exact .inr ⟨hq0.2 (.inr rfl), fun _ => hq0.1⟩
  · by_cases hx : m.norm = true ∨ m.pts = []
    · rw [if_pos hx]; intro _ _; exact ⟨hr.out, fun _ => hx⟩
    · exact absurd (.inl (hm.norm (h.cmp (List.mem_of_mem_head? (by rw [hp]; rfl))))) hx
  · rcases m.pts[acc.length]? with _ | p <;> simp only <;> intro _ _
    · refine hr.ret _ fun c v hc _ => ?_
      rcases hp.1 with h1 | h1 <;> rw [h1] at hc <;> cases hc
      · trivial
      · exact hq0 h1
    · exact ⟨hr.out, hq0⟩

/-- The thread is not computing anything. -/
def PcQ (m : PMem K) : PPc K → Prop
  | .scan _ _ | .store _ _ _ | .mark _ => False
  | .test a => m.flag a = true
  | .idle | .size | .load _ _ | .norm | .copy _ => True

/-- Invariant: all calls find what they need. -/
structure QInv (e : Env K) (closed : Bool) (m : PMem K) (th : PThread K) : Prop where
  todo : ∀ c ∈ th.todo, Ready e closed m c
  pc : PcQ m th.pc

theorem QInv.ret {m : PMem K} {th : PThread K} (h : QInv e closed m th) (r : Res (List (Word K))) : QInv e closed m (th.ret r) := by
  unfold PThread.ret
  rcases ht : th.todo with _ | ⟨c', cs⟩
  · exact ⟨by simpa [ht] using h.todo, trivial⟩
  · exact ⟨fun c hc => h.todo c (by rw [ht]; exact List.mem_cons_of_mem _ hc), trivial⟩

theorem QInv.afterSimple {m : PMem K} {th : PThread K} (hpts : m.pts = pts) (h : QInv e closed m th) (b : Bool) (hb : freshSimple e closed pts = .ok b) :
    QInv e closed m (th.afterSimple b) := by
  have hh : ∀ c, th.todo.head? = some c → c ∈ th.todo := fun c hc => List.mem_of_mem_head? (by rw [hc]; rfl)
  have hs : ∀ c, (c = .area ∨ c = .centroid) → th.todo.head? = some c → b = true → ¬ (m.pts.length < 3 ∨ closed = false) := by
    rintro c - - rfl hx
    rw [hpts] at hx
    rw [freshSimple_short hx] at hb; cases hb
  unfold PThread.afterSimple
  rcases hc : th.todo.head? with _ | c
  · exact h.ret _
  · cases c <;> simp only <;> try exact h.ret _
    · cases b
      · simp only [Bool.false_eq_true, if_false]; exact h.ret _
      · simp only [if_true]
        have := (h.todo _ (hh _ hc)).resolve_left (hs _ (.inl rfl) hc rfl)
        exact ⟨h.todo, this.2 (by rw [hpts, hb])⟩
    · cases b
      · simp only [Bool.false_eq_true, if_false]; exact h.ret _
      · simp only [if_true]
        have := (h.todo _ (hh _ hc)).resolve_left (hs _ (.inr rfl) hc rfl)
        exact ⟨h.todo, this.2 (by rw [hpts, hb])⟩

theorem step_quiet {m : PMem K} {th : PThread K} (hm : MInv e closed pts N m) (h : TInv e closed pts N m th) (hr : QInv e closed m th) :
    (polyStep e closed m th).1 = m ∧ QInv e closed m (polyStep e closed m th).2 := by
  have hp := h.pc
  have hq0 := hr.pc
  have hh : ∀ c, th.todo.head? = some c → c ∈ th.todo := fun c hc => List.mem_of_mem_head? (by rw [hc]; rfl)
  unfold polyStep
  rcases hq : th.pc with _ | _ | a | ⟨a, acc⟩ | ⟨a, ws, j⟩ | a | ⟨a, acc⟩ | _ | acc <;> rw [hq] at hp hq0 <;> simp only
  · rcases ht : th.todo with _ | ⟨c, cs⟩ <;> simp only
    · exact ⟨trivial, hr⟩
    · refine ⟨trivial, fun c' hc' => hr.todo c' (by rwa [ht]), ?_⟩
      have := hr.todo c (by rw [ht]; simp)
      cases c <;> simp only [PCall.entry, PcQ]
      exact this
  · refine ⟨trivial, ?_⟩
    by_cases hx : m.pts.length < 3 ∨ closed = false
    · rw [if_pos hx]
      exact hr.afterSimple hm.same false (freshSimple_short (by rwa [hm.same] at hx))
    · rw [if_neg hx]
      refine ⟨hr.todo, ?_⟩
      rcases hp with hp | hp | hp
      · exact (hr.todo _ (hh _ hp)).resolve_left hx
      · exact ((hr.todo _ (hh _ hp)).resolve_left hx).1
      · exact ((hr.todo _ (hh _ hp)).resolve_left hx).1
  · rw [if_pos (show m.flag a = true from hq0)]; exact ⟨trivial, hr.todo, trivial⟩
  · exact hq0.elim
  · exact hq0.elim
  · exact hq0.elim
  · by_cases hx : acc.length < a.width
    · rw [if_pos hx]; exact ⟨rfl, hr.todo, trivial⟩
    · rw [if_neg hx]
      refine ⟨rfl, ?_⟩
      by_cases ha : a = .simple
      · subst ha
        obtain ⟨b, hb, rfl⟩ := simple_words hp.2.1 hp.2.2.1 hp.2.2.2 hx
        exact hr.afterSimple hm.same b hb
      · have e1 : th.gotValue a acc = th.ret (.ok acc) := by
          cases a
          · rfl
          · exact absurd rfl ha
          · rfl
          · rfl
        rw [e1]; exact hr.ret _
  · have hx : m.norm = true ∨ m.pts = [] := hr.todo _ (hh _ hp)
    rw [if_pos hx]; exact ⟨rfl, hr.todo, trivial⟩
  · rcases m.pts[acc.length]? with _ | p <;> simp only
    · exact ⟨trivial, hr.ret _⟩
    · exact ⟨trivial, hr.todo, trivial⟩

end H2d.Threads

namespace H2d.ThreadsHom
open Spec

variable {K : Type} [Field K] [LinearOrder K] {t : Thr K} {m : Mat K} {id : ℕ}

/-- The thread is not computing the cached matrix. -/
def PcQ : HPc K → Prop
  | .idle | .testNull | .testChanged | .derefProd | .load _ _ => True
  | .alloc | .setPtr _ | .setChanged | .compute | .deref _ | .store _ _ _ | .clear => False

theorem PcQ_ret (th : HThread K) (r : V3 K → Res (V3 K)) : PcQ (th.ret r).pc := by
  unfold HThread.ret
  rcases th.todo with _ | ⟨l, ls⟩ <;> exact trivial

theorem step_quiet {s : HMem K} {th : HThread K} (hp : s.ptr ≠ none) (hc : s.changed = false) (h : PcQ th.pc) :
    (homStep t s th).1 = s ∧ PcQ (homStep t s th).2.pc := by
  unfold homStep
  rcases hq : th.pc with _ | _ | _ | i | _ | _ | _ | mi | ⟨i, mi, j⟩ | _ | _ | ⟨i, acc⟩ <;> rw [hq] at h <;> try exact h.elim
  · rcases th.todo with _ | _
    · exact ⟨rfl, by rw [hq]; trivial⟩
    · exact ⟨rfl, trivial⟩
  · simp only [if_neg hp]; exact ⟨trivial, trivial⟩
  · simp only [hc]; exact ⟨trivial, trivial⟩
  · rcases hs : s.ptr with _ | id
    · exact absurd hs hp
    · exact ⟨rfl, trivial⟩
  · by_cases hx : acc.length < 9
    · simp only [if_pos hx]
      rcases s.heap[i]? with _ | _ | a
      · exact ⟨rfl, PcQ_ret _ _⟩
      · exact ⟨rfl, PcQ_ret _ _⟩
      · exact ⟨rfl, trivial⟩
    · simp only [if_neg hx]; exact ⟨trivial, PcQ_ret _ _⟩

theorem noop (t : Thr K) : ∀ (n : ℕ) (c : HMem K × (ℕ → HThread K)), (c.2 0).pc = .idle → (c.2 0).todo = [] → runThreads (homStep t) (List.replicate n 0) c = c := by
  intro n
  induction n with
  | zero => intro c _ _; rfl
  | succ n ih =>
    intro c h1 h2
    rw [List.replicate_succ, runThreads]
    have e : homStep t c.1 (c.2 0) = (c.1, c.2 0) := by unfold homStep; rw [h1, h2]
    rw [e]
    have e2 : (fun j => if j = 0 then c.2 0 else c.2 j) = c.2 := by funext j; by_cases hj : j = 0 <;> simp [hj]
    rw [e2]
    exact ih c h1 h2

theorem warm_run (t : Thr K) (m mi : Mat K) (hmi : Hom.invTransp t { m := m, isNorm := false, changed := true, hmt := none } = .ok mi) (l : V3 K) (n : ℕ) (hn : 31 ≤ n) :
    let r := runThreads (homStep t) (List.replicate n 0) (HMem.new m, startingH fun i => if i = 0 then [l] else [])
    (r.2 0).out = [(l, .ok (mi.app l))] ∧ r.1.m = m ∧ r.1.ptr = some 0 ∧ r.1.heap[0]? = some (some mi) ∧ r.1.changed = false := by
  have hmi' : ∀ c, Hom.invTransp t { m := m, isNorm := false, changed := c, hmt := none } = .ok mi := fun _ => hmi
  have hw : matOfWords [mi 0 0, mi 0 1, mi 0 2, mi 1 0, mi 1 1, mi 1 2, mi 2 0, mi 2 1, mi 2 2] = mi := by
    apply words_mat _ _ rfl
    intro k hk
    simp only [List.length_cons, List.length_nil] at hk
    interval_cases k <;> rfl
  have hz : (Mat.write (Mat.write (Mat.write (Mat.write (Mat.write (Mat.write (Mat.write (Mat.write (Mat.write (fun _ _ => 0) 0 0 (mi 0 0)) 0 1 (mi 0 1)) 0 2 (mi 0 2)) 1 0 (mi 1 0)) 1 1 (mi 1 1)) 1 2 (mi 1 2)) 2 0 (mi 2 0)) 2 1 (mi 2 1)) 2 2 (mi 2 2)) = mi := by
    funext i j
    fin_cases i <;> fin_cases j <;> simp [Mat.write]
  have hr : runThreads (homStep t) (List.replicate 30 0) (HMem.new m, startingH fun i => if i = 0 then [l] else [])
      = (⟨m, false, some 0, [some mi]⟩, fun j => if j = 0 then ⟨[], .idle, [(l, .ok (mi.app l))]⟩ else HThread.start K []) := by
    have c0 : cellOf 0 = (0, 0) := rfl
    have c1 : cellOf 1 = (0, 1) := rfl
    have c2 : cellOf 2 = (0, 2) := rfl
    have c3 : cellOf 3 = (1, 0) := rfl
    have c4 : cellOf 4 = (1, 1) := rfl
    have c5 : cellOf 5 = (1, 2) := rfl
    have c6 : cellOf 6 = (2, 0) := rfl
    have c7 : cellOf 7 = (2, 1) := rfl
    have c8 : cellOf 8 = (2, 2) := rfl
    simp only [List.replicate, runThreads, homStep, startingH, HThread.start, HMem.new, HThread.ret, hmi', if_true, List.nil_append, List.cons_append, List.length_nil, List.length_cons, List.set_cons_zero, List.getElem?_cons_zero,
      zero_add, Nat.reduceAdd, Nat.reduceLT, Nat.zero_lt_succ, if_false, c0, c1, c2, c3, c4, c5, c6, c7, c8, hz, hw, lt_irrefl]
    refine Prod.ext rfl (funext fun j => ?_)
    by_cases hj : j = 0 <;> simp only [hj, if_true, if_false]
  have e : n = 30 + (n - 30) := by omega
  rw [e, List.replicate_add, ThreadsCirc.runThreads_append, hr, noop t _ _ rfl rfl]
  exact ⟨rfl, rfl, rfl, rfl, rfl⟩

end H2d.ThreadsHom
