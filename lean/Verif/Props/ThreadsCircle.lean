import Verif.Lemmas.ThreadsCircle
import Verif.Lemmas.CircleDemo

/-!
# C144: circles built by several threads

The search of the minimum enclosing circle (containers of four points or more) disables the check of the radius of all circles, by a global flag.
-/

namespace H2d.Props

open H2d H2d.Spec

/-- **C144, without search.** Any number of threads, each building any list of circles, no one searching a minimum enclosing circle, for every schedule: each construction that has ended has
the outcome it has for a single thread. -/
theorem C144_readers (t : Thr ℝ) (flag : Bool) (prog : ℕ → List CircOp) (hp : ∀ i, ∀ op ∈ prog i, ¬ Searches op) (sched : List ℕ) :
    (runThreads (circStep t) sched (flag, startingC prog)).1 = flag ∧
    ∀ i, ∀ x ∈ ((runThreads (circStep t) sched (flag, startingC prog)).2 i).out, x.2 = (x.1.exec t flag).1 := by
  have h := runThreads_inv (circStep t) (fun f => f = flag) (fun _ _ th => ThreadsCirc.Reader t flag th)
    (fun _ f th hf hj => by subst hf; exact (ThreadsCirc.reader_step hj).1) (fun _ f th hf hj => by subst hf; exact (ThreadsCirc.reader_step hj).2)
    (fun _ _ _ _ _ _ _ h => h) sched (flag, startingC prog) rfl (fun i => ⟨hp i, fun p hp => by simp [startingC] at hp, fun x hx => by simp [startingC] at hx⟩)
  exact ⟨h.1, fun i => (h.2 i).out⟩

/-- **C144 (partial).** Any number of threads, for every schedule: if a single one (`w`) searches minimum enclosing circles, and no other one asks for a radius below the null distance, then the outcomes of `w` are, one after the other, those it has
alone, and the outcomes of the others are those they have alone. What is missing: several threads that search, or radii to be refused (`C144_false`). -/
theorem C144_one_partial (t : Thr ℝ) (flag : Bool) (w : ℕ) (prog : ℕ → List CircOp) (hp : ∀ i, i ≠ w → ∀ op ∈ prog i, ¬ Searches op ∧ ¬ TooSmall t op) (sched : List ℕ) :
    ((runThreads (circStep t) sched (flag, startingC prog)).2 w).out = (inOrder t flag (prog w)).take ((runThreads (circStep t) sched (flag, startingC prog)).2 w).out.length ∧
    ∀ i, i ≠ w → ∀ x ∈ ((runThreads (circStep t) sched (flag, startingC prog)).2 i).out, x.2 = (x.1.exec t false).1 := by
  have h := ThreadsCirc.runThreads_inv2 (circStep t) (fun i f th => if i = w then ThreadsCirc.final t f th = inOrder t flag (prog w) else ThreadsCirc.Quiet t th)
    (fun i f th hj => by
      by_cases hi : i = w
      · simp only [hi, if_true] at hj ⊢; rw [ThreadsCirc.final_step, hj]
      · simp only [hi, if_false] at hj ⊢; exact (ThreadsCirc.quiet_step hj f).2)
    (fun i k f th th' hik hj hk => by
      by_cases hkw : k = w
      · have hi : i ≠ w := fun e => hik (e.trans hkw.symm)
        simp only [hi, if_false] at hj
        simp only [hkw, if_true] at hk ⊢
        rw [(ThreadsCirc.quiet_step hj f).1]; exact hk
      · simp only [hkw, if_false] at hk ⊢; exact hk)
    sched (flag, startingC prog) (fun i => by
      by_cases hi : i = w
      · subst hi
        simp only [if_true, startingC, ThreadsCirc.final]
        cases prog i <;> rfl
      · simp only [hi, if_false]
        exact ⟨hp i hi, fun p hp => by simp [startingC] at hp, fun x hx => by simp [startingC] at hx⟩)
  constructor
  · have hw := h w
    simp only [if_true] at hw
    conv_lhs => rw [ThreadsCirc.out_prefix t (runThreads (circStep t) sched (flag, startingC prog)).1 ((runThreads (circStep t) sched (flag, startingC prog)).2 w), hw]
  · intro i hi x hx
    have hq := h i
    simp only [hi, if_false] at hq
    exact hq.out x hx false

/-- **C144, every construction ends.** Whatever the others do, a thread that has had enough turns has done all its operations, in order. The number of turns depends only on its operations. -/
theorem C144_return (t : Thr ℝ) (ops : List CircOp) : ∃ n, ∀ (flag : Bool) (prog : ℕ → List CircOp) (i : ℕ), prog i = ops → ∀ sched : List ℕ, n ≤ sched.count i →
    ((runThreads (circStep t) sched (flag, startingC prog)).2 i).out.map Prod.fst = ops := by
  refine ⟨ThreadsCirc.rank t ⟨ops, none, []⟩, ?_⟩
  intro flag prog i hi sched hn
  have h := runThreads_inv (circStep t) (fun _ => True) (fun k _ th => th.out.map Prod.fst ++ th.todo = prog k)
    (fun _ _ _ _ _ => trivial) (fun k f th _ hj => by rw [ThreadsCirc.done_step, hj]) (fun _ _ _ _ _ _ _ h => h) sched (flag, startingC prog) trivial (fun k => rfl)
  have hr := runThreads_rank (circStep t) (fun _ => True) (fun _ _ _ => True) (ThreadsCirc.rank t)
    (fun _ _ _ _ _ => trivial) (fun _ _ _ _ _ => trivial) (fun _ _ _ _ _ _ _ _ => trivial) (fun _ f th _ _ => ThreadsCirc.rank_step t f th) i sched (flag, startingC prog) trivial (fun _ => trivial)
  have e : ThreadsCirc.rank t ((flag, startingC prog).2 i) = ThreadsCirc.rank t ⟨ops, none, []⟩ := by simp [startingC, hi]
  rw [e] at hr
  have hd := h.2 i
  rw [ThreadsCirc.rank_zero (by omega : ThreadsCirc.rank t ((runThreads (circStep t) sched (flag, startingC prog)).2 i) = 0), List.append_nil, hi] at hd
  exact hd

/-- **C144, negation, two searches.** Whatever the thresholds, the random values and the points (four or more) of two containers: if the search of the second circle succeeds alone, there is a schedule for which it ends while the first search is at its beginning;
the first one then throws, even if it would have succeeded alone. -/
theorem C144_false {t : Thr ℝ} (h0 : 0 < t.nullDistance) {rnd rnd' : ℕ → ℕ} {pts pts' : List (Pt ℝ)} (h4 : 4 ≤ pts.length) (h4' : 4 ≤ pts'.length) {c : Circle} (hc : (circleOfPts t false rnd' pts').1 = .ok c) :
    ∃ sched, ((runThreads (circStep t) sched (false, startingC fun i => if i = 0 then [.container rnd pts] else if i = 1 then [.container rnd' pts'] else [])).2 0).out = [(.container rnd pts, .throw)] ∧
      ((runThreads (circStep t) sched (false, startingC fun i => if i = 0 then [.container rnd pts] else if i = 1 then [.container rnd' pts'] else [])).2 1).out = [(.container rnd' pts', .ok c)] := by
  have hp := ThreadsCirc.prog_four t rnd h4
  generalize hq : ((welzlProg t rnd pts.length 0 pts []).bind fun r =>
      match r.1 with
      | .ok d => (makeProg t d.center d.radius).bind fun
        | .ok c => .write false (.ret (.ok c))
        | r => .ret r
      | r => .ret r) = q at hp
  have hoff : ThreadsCirc.run false q = (.throw, false) := by
    obtain ⟨e1, e2⟩ := ThreadsCirc.welzl_off h0 rnd pts.length 0 pts le_rfl
    rw [← hq, ThreadsCirc.run_bind, e1, e2]
    rfl
  have hc2 : circleOfPts t false rnd' pts' = (.ok c, false) := by
    rw [circleOfPts_four false rnd' h4'] at hc ⊢
    rcases e : (welzl t rnd' pts'.length 0 pts' []).1 with d | _ | _
    · rw [e] at hc
      simp only at hc ⊢
      rcases e' : circleMake t true d.center d.radius with d' | _ | _
      · rw [e'] at hc; simp only at hc ⊢; rw [hc]
      · rw [e'] at hc; simp at hc
      · rw [e'] at hc; simp at hc
    · rw [e] at hc; simp at hc
    · rw [e] at hc; simp at hc
  have s0 : runThreads (circStep t) [0, 0, 1] (false, startingC fun i => if i = 0 then [.container rnd pts] else if i = 1 then [.container rnd' pts'] else []) =
      (true, fun i => if i = 1 then ⟨[.container rnd' pts'], some (containerProg t rnd' pts'), []⟩ else if i = 0 then ⟨[.container rnd pts], some q, []⟩ else ⟨[], none, []⟩) := by
    have e0 : CircOp.prog t (.container rnd pts) = .write true q := hp
    have e1 : CircOp.prog t (.container rnd' pts') = containerProg t rnd' pts' := rfl
    simp only [runThreads, startingC, circStep, if_true, e0, e1, one_ne_zero, if_false, Prod.mk.injEq, true_and]
    funext j
    by_cases j1 : j = 1
    · simp [j1]
    · by_cases j0 : j = 0
      · simp [j0]
      · simp [j1, j0]
  obtain ⟨n, hn⟩ := ThreadsCirc.solo t 1 (.container rnd' pts') [] [] (containerProg t rnd' pts') true
    (fun i => if i = 1 then ⟨[.container rnd' pts'], some (containerProg t rnd' pts'), []⟩ else if i = 0 then ⟨[.container rnd pts], some q, []⟩ else ⟨[], none, []⟩) (by simp)
  have er : ThreadsCirc.run true (containerProg t rnd' pts') = (.ok c, false) := by
    have := ThreadsCirc.run_op t true (.container rnd' pts')
    rw [show CircOp.prog t (.container rnd' pts') = containerProg t rnd' pts' from rfl] at this
    rw [this]
    show circleOfPts t true rnd' pts' = _
    rw [circleOfPts_four true rnd' h4', ← circleOfPts_four false rnd' h4', hc2]
  rw [er] at hn
  obtain ⟨m, hm⟩ := ThreadsCirc.solo t 0 (.container rnd pts) [] [] q false
    (fun j => if j = 1 then ⟨[], none, [] ++ [(.container rnd' pts', .ok c)]⟩ else
      (if j = 1 then ⟨[.container rnd' pts'], some (containerProg t rnd' pts'), []⟩ else if j = 0 then ⟨[.container rnd pts], some q, []⟩ else ⟨[], none, []⟩)) (by simp)
  rw [hoff] at hm
  refine ⟨[0, 0, 1] ++ List.replicate n 1 ++ List.replicate m 0, ?_⟩
  rw [ThreadsCirc.runThreads_append, ThreadsCirc.runThreads_append, s0, hn, hm]
  simp

/-- **C144, negation, null radius.** While a thread searches a minimum enclosing circle, another one may build a circle of radius 0, which is refused otherwise. -/
theorem C144_radius_false {t : Thr ℝ} (h0 : 0 < t.nullDistance) {rnd : ℕ → ℕ} {pts : List (Pt ℝ)} (h4 : 4 ≤ pts.length) (c : Pt ℝ) :
    circleMake t false c 0 = .throw ∧
    ∃ sched, ((runThreads (circStep t) sched (false, startingC fun i => if i = 0 then [.container rnd pts] else if i = 1 then [.make c 0] else [])).2 1).out = [(.make c 0, .ok ⟨c, 0⟩)] := by
  refine ⟨by simp [circleMake, h0], [0, 0, 1, 1, 1], ?_⟩
  have e0 := ThreadsCirc.prog_four t rnd h4
  have e0 : CircOp.prog t (.container rnd pts) = _ := e0
  have e1 : CircOp.prog t (.make c 0) = .read fun flag => if flag then .ret (.ok ⟨c, 0⟩) else .ret .throw := by
    simp [CircOp.prog, makeProg, h0]
  simp [runThreads, startingC, circStep, e0, e1]

/-- Two such containers: the corners of a rectangle. -/
example (rnd : ℕ → ℕ) : ∃ c, ∃ sched, ((runThreads (circStep stdR) sched (false, startingC fun i => if i = 0 then [.container rnd [(0, 0), (3, 4), (3, 0), (0, 4)]] else if i = 1 then [.container rnd [(0, 0), (3, 4), (3, 0), (0, 4)]] else [])).2 0).out
    = [(.container rnd [(0, 0), (3, 4), (3, 0), (0, 4)], .throw)] ∧ (circleOfPts stdR false rnd [(0, 0), (3, 4), (3, 0), (0, 4)]).1 = .ok c := by
  obtain ⟨c, hc, -⟩ := rect_circle false rnd
  obtain ⟨s, hs, -⟩ := C144_false (t := stdR) (by norm_num [stdR]) (rnd := rnd) (pts := [(0, 0), (3, 4), (3, 0), (0, 4)]) (rnd' := rnd) (pts' := [(0, 0), (3, 4), (3, 0), (0, 4)]) (by simp) (by simp) (c := c) (by rw [hc])
  exact ⟨c, s, hs, by rw [hc]⟩

/-- A thread that searches, another one that does not. -/
example (rnd : ℕ → ℕ) : ∀ i, i ≠ 0 → ∀ op ∈ (if i = 0 then [CircOp.container rnd [(0, 0), (3, 4), (3, 0), (0, 4)]] else [.make (0, 0) 3, .two (0, 0) (1, 1)]), ¬ Searches op ∧ ¬ TooSmall stdR op := by
  intro i hi op hop
  simp only [hi, if_false, List.mem_cons, List.not_mem_nil, or_false] at hop
  rcases hop with rfl | rfl
  · refine ⟨fun h => h, ?_⟩
    show ¬ |(3:ℝ)| < stdR.nullDistance
    norm_num [stdR]
  · exact ⟨fun h => h, fun h => h⟩

end H2d.Props
