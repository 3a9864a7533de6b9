import Verif.Lemmas.ThreadsHom
import Verif.Lemmas.ThreadsQuiet
import Verif.Lemmas.PolyState

/-!
# C140, C141: const calls on the same object by several threads
-/

namespace H2d.Props

open Spec

section
variable {K : Type} [Field K] [LinearOrder K]

/-- **C140 (partial).** Any number of threads, each making any list of const calls on the same polyline, for every schedule: each call that has returned has
returned what it returns when a single thread calls it on a new object, and the vertices are unchanged. What is missing: it is proved if the polyline has been compared
before (it is then in its normal form), or if no thread compares it; `C140_false` is what may happen otherwise. -/
theorem C140_schedules_partial (e : Env K) (closed : Bool) (m : PMem K) (hm : Coherent e closed m) (prog : ℕ → List PCall)
    (hc : m.norm = true ∨ ∀ i, PCall.compare ∉ prog i) (sched : List ℕ) :
    (runThreads (polyStep e closed) sched (m, starting K prog)).1.pts = m.pts ∧
    ∀ i, ∀ x ∈ ((runThreads (polyStep e closed) sched (m, starting K prog)).2 i).out, x.2 = alone e closed m.pts x.1 := by
  have h := runThreads_inv (polyStep e closed) (Threads.MInv e closed m.pts (m.norm = true)) (fun _ => Threads.TInv e closed m.pts (m.norm = true))
    (fun _ _ _ h1 h2 => (Threads.step_mem h1 h2).1) (fun _ _ _ h1 h2 => Threads.step_thread h1 h2)
    (fun _ _ _ _ _ h1 h2 h3 => h3.mono (Threads.step_mem h1 h2).2) sched (m, starting K prog) (Threads.coherent_inv hm id)
    (fun i => ⟨by simp [starting, PThread.start], fun hx => hc.resolve_right (fun hy => hy i hx), trivial⟩)
  exact ⟨h.1.same, fun i => (h.2 i).out⟩

/-- **C140 (partial), what is known afterwards.** Whatever the schedule, and wherever it stops, the attributes flagged as known are right:
the calls made later find the right values. -/
theorem C140_after_partial (e : Env K) (closed : Bool) (m : PMem K) (hm : Coherent e closed m) (prog : ℕ → List PCall)
    (hc : m.norm = true ∨ ∀ i, PCall.compare ∉ prog i) (sched : List ℕ) :
    Coherent e closed (runThreads (polyStep e closed) sched (m, starting K prog)).1 := by
  have h := runThreads_inv (polyStep e closed) (Threads.MInv e closed m.pts (m.norm = true)) (fun _ => Threads.TInv e closed m.pts (m.norm = true))
    (fun _ _ _ h1 h2 => (Threads.step_mem h1 h2).1) (fun _ _ _ h1 h2 => Threads.step_thread h1 h2)
    (fun _ _ _ _ _ h1 h2 h3 => h3.mono (Threads.step_mem h1 h2).2) sched (m, starting K prog) (Threads.coherent_inv hm id)
    (fun i => ⟨by simp [starting, PThread.start], fun hx => hc.resolve_right (fun hy => hy i hx), trivial⟩)
  exact Threads.inv_coherent h.1

/-- **C140 (partial), once a value has been returned.** Whatever the schedule, and wherever it stops: what a call that has returned a value needs is known, and calls of the same kind have nothing to
compute any more. Same condition as in `C140_schedules_partial`. -/
theorem C140_ready_partial (e : Env K) (closed : Bool) (m : PMem K) (hm : Coherent e closed m) (prog : ℕ → List PCall)
    (hc : m.norm = true ∨ ∀ i, PCall.compare ∉ prog i) (sched : List ℕ) (i : ℕ) (c : PCall) (v : List (Word K))
    (hx : (c, .ok v) ∈ ((runThreads (polyStep e closed) sched (m, starting K prog)).2 i).out) :
    Ready e closed (runThreads (polyStep e closed) sched (m, starting K prog)).1 c := by
  have h := runThreads_inv (polyStep e closed) (Threads.MInv e closed m.pts (m.norm = true))
    (fun _ m' th => Threads.TInv e closed m.pts (m.norm = true) m' th ∧ Threads.RInv e closed m' th)
    (fun _ _ _ h1 h2 => (Threads.step_mem h1 h2.1).1) (fun _ _ _ h1 h2 => ⟨Threads.step_thread h1 h2.1, Threads.step_ready h1 h2.1 h2.2⟩)
    (fun _ _ _ _ _ h1 h2 h3 => ⟨h3.1.mono (Threads.step_mem h1 h2.1).2, h3.2.more (Threads.step_more h1 h2.1)⟩) sched (m, starting K prog) (Threads.coherent_inv hm id)
    (fun i => ⟨⟨by simp [starting, PThread.start], fun hx => hc.resolve_right (fun hy => hy i hx), trivial⟩, by simp [starting, PThread.start], trivial⟩)
  exact (h.2 i).2.out _ hx ⟨v, rfl⟩

/-- **C140, no race once the values are known.** If what the calls need is known, the threads never write to the polyline: for every schedule, no access is a write, and
there is no race at all. -/
theorem C140_readonly (e : Env K) (closed : Bool) (m : PMem K) (hm : Coherent e closed m) (prog : ℕ → List PCall)
    (hc : m.norm = true ∨ ∀ i, PCall.compare ∉ prog i) (hr : ∀ i, ∀ c ∈ prog i, Ready e closed m c) (sched : List ℕ) :
    (runThreads (polyStep e closed) sched (m, starting K prog)).1 = m := by
  have h := runThreads_inv (polyStep e closed) (fun m' => m' = m)
    (fun _ m' th => Threads.MInv e closed m.pts (m.norm = true) m' ∧ Threads.TInv e closed m.pts (m.norm = true) m' th ∧ Threads.QInv e closed m' th)
    (fun _ _ _ h1 h2 => (Threads.step_quiet h2.1 h2.2.1 h2.2.2).1.trans h1)
    (fun _ _ _ h1 h2 => ⟨(Threads.step_mem h2.1 h2.2.1).1, Threads.step_thread h2.1 h2.2.1, by rw [(Threads.step_quiet h2.1 h2.2.1 h2.2.2).1]; exact (Threads.step_quiet h2.1 h2.2.1 h2.2.2).2⟩)
    (fun _ _ _ _ _ h1 h2 h3 => by rw [(Threads.step_quiet h2.1 h2.2.1 h2.2.2).1]; exact h3) sched (m, starting K prog) rfl
    (fun i => ⟨Threads.coherent_inv hm id, ⟨by simp [starting, PThread.start], fun hx => hc.resolve_right (fun hy => hy i hx), trivial⟩, hr i, trivial⟩)
  exact h.1

/-- **C140 (partial), calls made before.** Some threads make calls on the polyline. Afterwards, any number of threads make calls that have already returned a value to one of the first threads: for every schedule, nothing is
written, and each call returns what it returns when a single thread calls it. Same condition as in `C140_schedules_partial`. -/
theorem C140_again_partial (e : Env K) (closed : Bool) (m : PMem K) (hm : Coherent e closed m) (prog prog' : ℕ → List PCall)
    (hc : m.norm = true ∨ (∀ i, PCall.compare ∉ prog i) ∧ ∀ i, PCall.compare ∉ prog' i) (sched sched' : List ℕ)
    (hx : ∀ i, ∀ c ∈ prog' i, ∃ k v, (c, .ok v) ∈ ((runThreads (polyStep e closed) sched (m, starting K prog)).2 k).out) :
    let m' := (runThreads (polyStep e closed) sched (m, starting K prog)).1
    (runThreads (polyStep e closed) sched' (m', starting K prog')).1 = m' ∧
    ∀ i, ∀ x ∈ ((runThreads (polyStep e closed) sched' (m', starting K prog')).2 i).out, x.2 = alone e closed m.pts x.1 := by
  intro m'
  have h1 : m.norm = true ∨ ∀ i, PCall.compare ∉ prog i := hc.imp_right And.left
  have hco := C140_after_partial e closed m hm prog h1 sched
  have hn : m'.norm = true ∨ ∀ i, PCall.compare ∉ prog' i := by
    refine hc.imp (fun h => ?_) And.right
    have := runThreads_inv (polyStep e closed) (Threads.MInv e closed m.pts (m.norm = true)) (fun _ => Threads.TInv e closed m.pts (m.norm = true))
      (fun _ _ _ h1 h2 => (Threads.step_mem h1 h2).1) (fun _ _ _ h1 h2 => Threads.step_thread h1 h2)
      (fun _ _ _ _ _ h1 h2 h3 => h3.mono (Threads.step_mem h1 h2).2) sched (m, starting K prog) (Threads.coherent_inv hm id)
      (fun i => ⟨by simp [starting, PThread.start], fun hx => h1.resolve_right (fun hy => hy i hx), trivial⟩)
    exact this.1.norm h
  refine ⟨C140_readonly e closed m' hco prog' hn (fun i c hcc => ?_) sched', ?_⟩
  · obtain ⟨k, v, hk⟩ := hx i c hcc
    exact C140_ready_partial e closed m hm prog h1 sched k c v hk
  · have := (C140_schedules_partial e closed m' hco prog' hn sched').2
    rwa [(C140_schedules_partial e closed m hm prog h1 sched).1] at this

/-- **C140, every call returns.** Whatever the others do, a thread that is given `2 n + 40` turns for each of its calls (`n` being the number of vertices) has made
them all, in the order of its program. -/
theorem C140_return [IsStrictOrderedRing K] (e : Env K) (closed : Bool) (m : PMem K) (prog : ℕ → List PCall) (sched : List ℕ) (i : ℕ)
    (hi : (2 * m.pts.length + 40) * (prog i).length ≤ sched.count i) :
    ((runThreads (polyStep e closed) sched (m, starting K prog)).2 i).out.map Prod.fst = prog i := by
  have hI : ∀ k : ℕ, Threads.Bounded m.pts.length (prog k) (starting K prog k) := fun k => ⟨rfl, trivial⟩
  have h := runThreads_inv (polyStep e closed) (fun m' => m'.pts.length = m.pts.length) (fun k _ => Threads.Bounded m.pts.length (prog k))
    (fun _ _ _ h1 h2 => (Threads.step_rank h1 h2).1) (fun _ _ _ h1 h2 => (Threads.step_rank h1 h2).2.1) (fun _ _ _ _ _ _ _ h3 => h3) sched (m, starting K prog) rfl hI
  have hr := runThreads_rank (polyStep e closed) (fun m' => m'.pts.length = m.pts.length) (fun k _ => Threads.Bounded m.pts.length (prog k))
    (Threads.rank m.pts.length)
    (fun _ _ _ h1 h2 => (Threads.step_rank h1 h2).1) (fun _ _ _ h1 h2 => (Threads.step_rank h1 h2).2.1) (fun _ _ _ _ _ _ _ h3 => h3)
    (fun _ _ _ h1 h2 => (Threads.step_rank h1 h2).2.2) i sched (m, starting K prog) rfl hI
  have h0 : Threads.rank m.pts.length (starting K prog i) = (2 * m.pts.length + 40) * (prog i).length := rfl
  have hz := Threads.rank_zero (h.2 i) (by simp only [h0] at hr; omega)
  have := (h.2 i).prog
  rw [hz, List.append_nil] at this
  exact this

/-- **C141 (partial).** Any number of threads, each transforming any list of lines by the same homography, for every schedule: each product is
the one computed by a single thread, no memory is accessed after it has been deleted. What is missing: it is proved if the homography has transformed a line before (it may
have been modified since then); `C141_false` is what may happen otherwise. -/
theorem C141_schedules_partial (t : Thr K) (s : HMem K) (hs : Warm t s) (prog : ℕ → List (V3 K)) (sched : List ℕ) :
    ∀ i, ∀ x ∈ ((runThreads (homStep t) sched (s, startingH prog)).2 i).out, x.2 = lineAlone t s.m x.1 ∧ x.2 ≠ .ub := by
  obtain ⟨id, a, h1, h2, h3⟩ := hs.live
  have h := runThreads_inv (homStep t) (ThreadsHom.MInv t s.m id) (fun _ => ThreadsHom.TInv t s.m id)
    (fun _ _ _ h1 h2 => (ThreadsHom.step_mem h1 h2).1) (fun _ _ _ h1 h2 => ThreadsHom.step_thread h1 h2)
    (fun _ _ _ _ _ h1 h2 h3 => h3.mono (ThreadsHom.step_mem h1 h2).2) sched (s, startingH prog)
    ⟨rfl, h1, ⟨a, h2⟩, fun hc => ⟨⟨a, h3 hc⟩, fun j _ mi hmi => ⟨a, h2, by
      have := h3 hc
      rw [show ThreadsHom.tinv t s.m = .ok a from this] at hmi; cases hmi; rfl⟩⟩⟩
    (fun i => ⟨by simp [startingH, HThread.start], trivial⟩)
  intro i x hx
  have := (h.2 i).out x hx
  refine ⟨this, ?_⟩
  rw [this, ThreadsHom.lineAlone_eq]
  rcases ThreadsHom.tinv t s.m with _ | _ | _ <;> simp

/-- **C141, first line.** A single thread that transforms a line with a new homography (with an inverse): the line is the right one, and the homography is then ready for the other threads, with nothing left to compute. -/
theorem C141_warm (t : Thr K) (m mi : Mat K) (hmi : Hom.invTransp t { m := m, isNorm := false, changed := true, hmt := none } = .ok mi) (l : V3 K) (n : ℕ) (hn : 31 ≤ n) :
    let r := runThreads (homStep t) (List.replicate n 0) (HMem.new m, startingH fun i => if i = 0 then [l] else [])
    (r.2 0).out = [(l, lineAlone t m l)] ∧ r.1.m = m ∧ Warm t r.1 ∧ r.1.changed = false := by
  obtain ⟨h1, h2, h3, h4, h5⟩ := ThreadsHom.warm_run t m mi hmi l n hn
  refine ⟨?_, h2, ⟨0, mi, h3, h4, fun _ => by rw [h2]; exact hmi⟩, h5⟩
  rw [h1, ThreadsHom.lineAlone_eq, show ThreadsHom.tinv t m = .ok mi from hmi]

/-- **C141, no race after the first line.** A homography that has transformed a line, and has not been modified since: the threads never write to it. For every schedule, no access is a write, and
there is no race at all. -/
theorem C141_readonly (t : Thr K) (s : HMem K) (hs : Warm t s) (hc : s.changed = false) (prog : ℕ → List (V3 K)) (sched : List ℕ) :
    (runThreads (homStep t) sched (s, startingH prog)).1 = s := by
  obtain ⟨id, a, h1, -⟩ := hs.live
  have h := runThreads_inv (homStep t) (fun s' => s' = s) (fun _ s' th => s' = s ∧ ThreadsHom.PcQ th.pc)
    (fun _ _ _ h1' h2 => by subst h1'; exact (ThreadsHom.step_quiet (by simp [h1]) hc h2.2).1)
    (fun _ _ _ h1' h2 => by subst h1'; exact ThreadsHom.step_quiet (by simp [h1]) hc h2.2)
    (fun _ _ _ _ _ h1' h2 h3 => by subst h1'; exact ⟨(ThreadsHom.step_quiet (by simp [h1]) hc h2.2).1, h3.2⟩) sched (s, startingH prog) rfl
    (fun i => ⟨rfl, trivial⟩)
  exact h.1

/-- **C141, every call returns.** Whatever the others do, a thread that is given 31 turns for each of its lines has transformed them all. -/
theorem C141_return (t : Thr K) (s : HMem K) (prog : ℕ → List (V3 K)) (sched : List ℕ) (i : ℕ) (hi : 31 * (prog i).length ≤ sched.count i) :
    ((runThreads (homStep t) sched (s, startingH prog)).2 i).out.map Prod.fst = prog i := by
  have hI : ∀ k : ℕ, ThreadsHom.Bounded (prog k) (startingH prog k) := fun k => ⟨rfl, fun _ => rfl⟩
  have h := runThreads_inv (homStep t) (fun _ => True) (fun k _ => ThreadsHom.Bounded (prog k))
    (fun _ _ _ _ _ => trivial) (fun _ _ _ _ h2 => (ThreadsHom.step_rank h2).1) (fun _ _ _ _ _ _ _ h3 => h3) sched (s, startingH prog) trivial hI
  have hr := runThreads_rank (homStep t) (fun _ => True) (fun k _ => ThreadsHom.Bounded (prog k)) ThreadsHom.rank
    (fun _ _ _ _ _ => trivial) (fun _ _ _ _ h2 => (ThreadsHom.step_rank h2).1) (fun _ _ _ _ _ _ _ h3 => h3)
    (fun _ _ _ _ h2 => (ThreadsHom.step_rank h2).2) i sched (s, startingH prog) trivial hI
  have h0 : ThreadsHom.rank (startingH prog i) = 31 * (prog i).length := rfl
  have hz : ((runThreads (homStep t) sched (s, startingH prog)).2 i).todo = [] := ThreadsHom.rank_zero (by simp only [h0] at hr; omega)
  have := (h.2 i).prog
  rw [hz, List.append_nil] at this
  exact this

/-- **C141, negation.** Whatever the homography (with an inverse), the thresholds and the lines, if it has never transformed a line: two threads that both see that the cached matrix is not allocated
both allocate it; the matrix of the first is deleted by the second while the first one reads it. With another schedule, the first one reads the null matrix that the second has just
allocated: its line is transformed into (0,0,0). -/
theorem C141_false (t : Thr K) (m mi : Mat K) (hmi : Hom.invTransp t { m := m, isNorm := false, changed := true, hmt := none } = .ok mi) (l0 l1 : V3 K) :
    ∃ sched1 sched2 : List ℕ,
      ((runThreads (homStep t) sched1 (HMem.new m, startingH fun i => if i = 0 then [l0] else if i = 1 then [l1] else [])).2 0).out = [(l0, .ub)] ∧
      ((runThreads (homStep t) sched2 (HMem.new m, startingH fun i => if i = 0 then [l0] else if i = 1 then [l1] else [])).2 0).out = [(l0, .ok fun _ => 0)] := by
  have hmi' : ∀ c, Hom.invTransp t { m := m, isNorm := false, changed := c, hmt := none } = .ok mi := fun _ => hmi
  refine ⟨[0, 0, 1, 1] ++ List.replicate 18 0 ++ [1, 1, 0], [0, 0, 1, 1] ++ List.replicate 17 0 ++ [1, 1] ++ List.replicate 11 0, ?_, ?_⟩
  · simp [runThreads, homStep, startingH, HThread.start, HMem.new, HThread.ret, hmi', List.replicate]
  · simp [runThreads, homStep, startingH, HThread.start, HMem.new, HThread.ret, hmi', List.replicate]
    funext i
    rcases i with ⟨_ | _ | _ | i, hi⟩
    · simp [Mat.app, matOfWords]
    · simp [Mat.app, matOfWords]
    · simp [Mat.app, matOfWords]
    · omega

end

/-- **C140, negation.** A triangle, that has not been compared before: one thread computes its area, another one compares it with some polyline. Even if the normalisation is done at once, the
area can be 0 instead of 9/2, and it is then the one that is returned by all later calls (thread 2). -/
theorem C140_false (e : Env ℚ) (hs : ∀ p q, e.same p q = decide (p = q)) (cell : Attr → ℕ → Word ℚ) :
    ∃ (pts : List (Pt ℚ)) (sched : List ℕ), alone e true pts .area = .ok [.num (9 / 2)] ∧
      ((runThreads (polyStep e true) sched (PMem.new pts cell, starting ℚ fun i => if i = 0 then [.area] else if i = 1 then [.compare] else if i = 2 then [.area] else [])).2 0).out
        = [(.area, .ok [.num 0])] ∧
      ((runThreads (polyStep e true) sched (PMem.new pts cell, starting ℚ fun i => if i = 0 then [.area] else if i = 1 then [.compare] else if i = 2 then [.area] else [])).2 2).out
        = [(.area, .ok [.num 0])] := by
  obtain ⟨same, segLen, inter, mid⟩ := e
  have : same = fun p q => decide (p = q) := by funext p q; exact hs p q
  subst this
  refine ⟨[(3, 0), (0, 3), (0, 0)], List.replicate 14 0 ++ [1, 1] ++ List.replicate 8 0 ++ List.replicate 9 2, ?_, ?_, ?_⟩
  all_goals
    have h3 : freshSimple ⟨fun p q : Pt ℚ => decide (p = q), segLen, inter, mid⟩ true [(3, 0), (0, 3), (0, 0)] = .ok true := by rfl
    have h1 : |signedArea ([(3, 0), (0, 3), (0, 0)] : List (Pt ℚ))| = 9 / 2 := by decide +kernel
    have h2 : signedArea ([(3, 0), (0, 3), (3, 0)] : List (Pt ℚ)) = 0 := by decide +kernel
    have h4 : normalizePoly true ([(3, 0), (0, 3), (0, 0)] : List (Pt ℚ)) = .ok [(0, 0), (0, 3), (3, 0)] := by
      norm_num [normalizePoly, rotateToMin, stdRotate, minIdx, minElemLoop, ptLt, orientDet]
  · simp [alone, freshArea, h3, h1, Res.bind]
  · simp [runThreads, polyStep, starting, PThread.start, PMem.new, PThread.ret, PThread.gotValue, PThread.afterSimple, PCall.entry, Attr.compute, Attr.width, Res.bind,
      h2, h3, h4, List.replicate]
  · simp [runThreads, polyStep, starting, PThread.start, PMem.new, PThread.ret, PThread.gotValue, PThread.afterSimple, PCall.entry, Attr.compute, Attr.width, Res.bind,
      h2, h3, h4, List.replicate]

/- The hypotheses can be met: a new polyline, and one whose length is known, compared before; any programs. -/
example (e : Env ℚ) (pts : List (Pt ℚ)) (cell : Attr → ℕ → Word ℚ) : Coherent e true (PMem.new pts cell) ∧
    ∀ i : ℕ, PCall.compare ∉ (fun i => if i < 5 then [PCall.area, .centroid, .points] else [.length] : ℕ → List PCall) i := by
  refine ⟨⟨by simp [PMem.new], by simp [PMem.new], by simp [PMem.new], by simp [PMem.new]⟩, ?_⟩
  intro i
  by_cases h : i < 5 <;> simp [h]

example : Coherent (⟨fun p q => decide (p = q), fun _ _ => 1, fun _ _ => false, fun _ _ _ => false⟩ : Env ℚ) true
    ⟨[(0, 0), (0, 3), (3, 0)], true, fun _ _ => .num 3, fun a => decide (a = .len)⟩ := by
  refine ⟨fun _ => ⟨3, by decide +kernel, rfl⟩, by simp, by simp, by simp⟩

/- A schedule that lets each of two threads make its calls. -/
example : (2 * 3 + 40) * ([PCall.area, .length].length) ≤ ((List.replicate 92 [0, 1]).flatten).count 1 := by decide +kernel

/- A triangle all of whose attributes are known: the calls have nothing to compute. -/
example (e : Env ℚ) (pts : List (Pt ℚ)) (cell : Attr → ℕ → Word ℚ) (c : PCall) : Ready e true ⟨pts, true, cell, fun _ => true⟩ c := by
  cases c <;> simp [Ready]

/- A homography that has transformed a line before, and one that has been modified since then. -/
example : Warm (⟨0, 0, 0, 0, 0⟩ : Thr ℚ) ⟨Mat.eye, false, some 0, [some Mat.eye]⟩ ∧ Warm (⟨0, 0, 0, 0, 0⟩ : Thr ℚ) ⟨Mat.eye, true, some 1, [none, some fun _ _ => 0]⟩ := by
  refine ⟨⟨0, Mat.eye, rfl, rfl, fun _ => ?_⟩, ⟨1, _, rfl, rfl, by simp⟩⟩
  exact ThreadsHom.tinv_eye

/- A homography with an inverse. -/
example : Hom.invTransp (⟨0, 0, 0, 0, 0⟩ : Thr ℚ) { m := Mat.eye, isNorm := false, changed := true, hmt := none } = .ok Mat.eye := ThreadsHom.tinv_eye

end H2d.Props
