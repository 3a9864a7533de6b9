import Verif.Spec.ThreadsCircle
import Verif.Lemmas.Threads
import Verif.Lemmas.Circle

/-! # Circles built by several threads: lemmas -/

namespace H2d.ThreadsCirc

open Spec

/-- An operation done without interruption: outcome, and flag afterwards. -/
def run {α : Type} : Bool → FlagProg α → α × Bool
  | f, .ret a => (a, f)
  | f, .read k => run f (k f)
  | _, .write b k => run b k

/-- Number of accesses, at most. -/
def depth {α : Type} : FlagProg α → ℕ
  | .ret _ => 0
  | .read k => max (depth (k true)) (depth (k false)) + 1
  | .write _ k => depth k + 1

theorem run_bind {α β : Type} (p : FlagProg α) (g : α → FlagProg β) : ∀ f, run f (p.bind g) = run (run f p).2 (g (run f p).1) := by
  induction p with
  | ret a => intro f; rfl
  | read k ih => intro f; exact ih f f
  | write b k ih => intro f; exact ih b

theorem run_make (t : Thr ℝ) (f : Bool) (c : Pt ℝ) (r : ℝ) : run f (makeProg t c r) = (circleMake t f c r, f) := by
  unfold makeProg circleMake
  by_cases h : |r| < t.nullDistance <;> by_cases h' : r < 0 <;> cases f <;> simp [run, h, h']

theorem run_trivial (t : Thr ℝ) (R : List (Pt ℝ)) : run true (trivialProg t R) = (minTrivial t R, true) := by
  match R with
  | [] => exact run_make t true _ _
  | [a] => exact run_make t true _ _
  | a :: b :: R => rfl

theorem run_welzl (t : Thr ℝ) (rnd : ℕ → ℕ) : ∀ n k P R, run true (welzlProg t rnd n k P R) = (welzl t rnd n k P R, true) := by
  intro n
  induction n with
  | zero =>
    intro k P R
    unfold welzlProg welzl
    rw [run_bind, run_trivial]; rfl
  | succ n ih =>
    intro k P R
    unfold welzlProg welzl
    by_cases hR : R.length = 3
    · rw [if_pos hR, if_pos hR, run_bind, run_trivial]; rfl
    · rw [if_neg hR, if_neg hR]
      simp only
      rcases h1 : P[rnd k % (n + 1)]? with _ | p
      · rfl
      · rcases h2 : P[n]? with _ | q
        · rfl
        · simp only
          rw [run_bind, ih]
          rcases h3 : welzl t rnd n (k + 1) ((P.set (rnd k % (n + 1)) q).set n p) R with ⟨r, P', k'⟩
          rcases r with d | _ | _
          · simp only
            by_cases hd : PtInCircle p d
            · rw [if_pos hd, if_pos hd]; rfl
            · rw [if_neg hd, if_neg hd]; exact ih _ _ _
          · rfl
          · rfl

theorem prog_four (t : Thr ℝ) (rnd : ℕ → ℕ) {pts : List (Pt ℝ)} (h : 4 ≤ pts.length) :
    containerProg t rnd pts = .write true ((welzlProg t rnd pts.length 0 pts []).bind fun r =>
      match r.1 with
      | .ok d => (makeProg t d.center d.radius).bind fun
        | .ok c => .write false (.ret (.ok c))
        | r => .ret r
      | r => .ret r) := by
  match pts, h with
  | a :: b :: c :: d :: l, _ => rfl

/-- An operation done without interruption has the outcome of the model with one thread. -/
theorem run_op (t : Thr ℝ) (f : Bool) (op : CircOp) : run f (op.prog t) = op.exec t f := by
  cases op with
  | make c r => exact run_make t f c r
  | two p q => rfl
  | three p q r => rfl
  | container rnd pts =>
    show run f (containerProg t rnd pts) = circleOfPts t f rnd pts
    match pts with
    | [] => rfl
    | [_] => rfl
    | [_, _] => rfl
    | [_, _, _] => rfl
    | a :: b :: c :: d :: l =>
      rw [prog_four t rnd (by simp), circleOfPts_four f rnd (by simp)]
      simp only [run]
      rw [run_bind, run_welzl]
      rcases h : (welzl t rnd (a :: b :: c :: d :: l).length 0 (a :: b :: c :: d :: l) []).1 with e | _ | _
      · simp only
        rw [run_bind, run_make]
        rcases h' : circleMake t true e.center e.radius with e' | _ | _ <;> rfl
      · rfl
      · rfl

/-- Rely and guarantee, the accesses of a thread to the memory being forgotten by its own invariant. -/
theorem runThreads_inv2 {M T : Type} (step : M → T → M × T) (J : ℕ → M → T → Prop)
    (hJ : ∀ i m t, J i m t → J i (step m t).1 (step m t).2) (hS : ∀ i k m t t', i ≠ k → J i m t → J k m t' → J k (step m t).1 t') :
    ∀ (s : List ℕ) (c : M × (ℕ → T)), (∀ i, J i c.1 (c.2 i)) → ∀ i, J i (runThreads step s c).1 ((runThreads step s c).2 i) := by
  intro s
  induction s with
  | nil => intro c h2; exact h2
  | cons i is ih =>
    intro c h2
    apply ih
    intro k
    by_cases hk : k = i
    · subst hk; simp only [if_true]; exact hJ k _ _ (h2 k)
    · simp only [hk, if_false]; exact hS i k _ _ _ (fun e => hk e.symm) (h2 i) (h2 k)

/-- What a thread will have done if it is not interrupted. -/
noncomputable def final (t : Thr ℝ) (flag : Bool) (th : CThread) : List (CircOp × Res Circle) :=
  match th.todo, th.cur with
  | [], _ => th.out
  | op :: ops, none => th.out ++ inOrder t flag (op :: ops)
  | op :: ops, some p => th.out ++ (op, (run flag p).1) :: inOrder t (run flag p).2 ops

theorem final_step (t : Thr ℝ) (flag : Bool) (th : CThread) : final t (circStep t flag th).1 (circStep t flag th).2 = final t flag th := by
  obtain ⟨todo, cur, out⟩ := th
  match todo, cur with
  | [], _ => rfl
  | op :: ops, none =>
    show final t flag ⟨op :: ops, some (op.prog t), out⟩ = _
    simp only [final, run_op]
    rfl
  | op :: ops, some (.ret r) =>
    show final t flag ⟨ops, none, out ++ [(op, r)]⟩ = _
    cases ops with
    | nil => simp [final, run, inOrder]
    | cons o os => simp [final, run]
  | op :: ops, some (.read k) => rfl
  | op :: ops, some (.write b k) => rfl

theorem out_prefix (t : Thr ℝ) (flag : Bool) (th : CThread) : th.out = (final t flag th).take th.out.length := by
  obtain ⟨todo, cur, out⟩ := th
  match todo, cur with
  | [], _ => simp [final]
  | op :: ops, none => simp [final]
  | op :: ops, some p => simp [final]

/-- The operations of the threads that never touch the flag. -/
theorem prog_ret {t : Thr ℝ} {op : CircOp} (h1 : ¬ Searches op) (h2 : ¬ TooSmall t op) (f : Bool) : op.prog t = .ret (op.exec t f).1 := by
  cases op with
  | make c r =>
    have h2 : ¬ |r| < t.nullDistance := h2
    show makeProg t c r = .ret (circleMake t f c r)
    unfold makeProg circleMake
    by_cases h' : r < 0 <;> simp [h2, h']
  | two p q => rfl
  | three p q r => rfl
  | container rnd pts =>
    have h1 : ¬ 4 ≤ pts.length := h1
    show containerProg t rnd pts = .ret (circleOfPts t f rnd pts).1
    match pts, h1 with
    | [], _ => rfl
    | [_], _ => rfl
    | [_, _], _ => rfl
    | [_, _, _], _ => rfl
    | a :: b :: c :: d :: l, h => simp at h

/-- A thread that never touches the flag. -/
structure Quiet (t : Thr ℝ) (th : CThread) : Prop where
  ops : ∀ op ∈ th.todo, ¬ Searches op ∧ ¬ TooSmall t op
  cur : ∀ p, th.cur = some p → ∀ op ops, th.todo = op :: ops → ∀ f, p = .ret (op.exec t f).1
  out : ∀ x ∈ th.out, ∀ f, x.2 = (x.1.exec t f).1

theorem quiet_step {t : Thr ℝ} {th : CThread} (h : Quiet t th) (flag : Bool) : (circStep t flag th).1 = flag ∧ Quiet t (circStep t flag th).2 := by
  obtain ⟨todo, cur, out⟩ := th
  obtain ⟨h1, h2, h3⟩ := h
  match todo, cur with
  | [], _ => exact ⟨rfl, h1, h2, h3⟩
  | op :: ops, none =>
    refine ⟨rfl, h1, ?_, h3⟩
    intro p hp op' ops' he f
    obtain rfl : op.prog t = p := by simpa [circStep] using hp
    obtain ⟨rfl, rfl⟩ : op = op' ∧ ops = ops' := by simpa [circStep] using he
    exact prog_ret (h1 op (by simp)).1 (h1 op (by simp)).2 f
  | op :: ops, some (.ret r) =>
    refine ⟨rfl, fun o ho => h1 o (by simp only [circStep] at ho; simp [ho]), fun p hp => by simp [circStep] at hp, ?_⟩
    intro x hx f
    simp only [circStep, List.mem_append, List.mem_singleton] at hx
    rcases hx with hx | rfl
    · exact h3 x hx f
    · have := h2 _ rfl op ops rfl f
      simpa using this
  | op :: ops, some (.read k) =>
    have := h2 _ rfl op ops rfl true
    simp at this
  | op :: ops, some (.write b k) =>
    have := h2 _ rfl op ops rfl true
    simp at this

/-- An operation that does not write the flag. -/
def NoWrite {α : Type} : FlagProg α → Prop
  | .ret _ => True
  | .read k => ∀ b, NoWrite (k b)
  | .write _ _ => False

theorem noWrite_make (t : Thr ℝ) (c : Pt ℝ) (r : ℝ) : NoWrite (makeProg t c r) := by
  unfold makeProg
  by_cases h : |r| < t.nullDistance
  · rw [if_pos h]
    intro b
    cases b
    · trivial
    · by_cases h' : r < 0
      · simp [NoWrite, h']
      · simp [NoWrite, h']
  · rw [if_neg h]
    by_cases h' : r < 0
    · simp [NoWrite, h']
    · simp [NoWrite, h']

theorem noWrite_prog {t : Thr ℝ} {op : CircOp} (h : ¬ Searches op) : NoWrite (op.prog t) := by
  cases op with
  | make c r => exact noWrite_make t c r
  | two p q => trivial
  | three p q r => trivial
  | container rnd pts =>
    rw [prog_ret (op := .container rnd pts) h (fun k => k) true]
    trivial

theorem noWrite_run {α : Type} (p : FlagProg α) : NoWrite p → ∀ f, (run f p).2 = f := by
  induction p with
  | ret a => intro _ f; rfl
  | read k ih => intro h f; exact ih f (h f) f
  | write b k ih => intro h; exact h.elim

/-- A thread that may read the flag but does not write it. -/
structure Reader (t : Thr ℝ) (flag : Bool) (th : CThread) : Prop where
  ops : ∀ op ∈ th.todo, ¬ Searches op
  cur : ∀ p, th.cur = some p → NoWrite p ∧ ∀ op ops, th.todo = op :: ops → (run flag p).1 = (op.exec t flag).1
  out : ∀ x ∈ th.out, x.2 = (x.1.exec t flag).1

theorem reader_step {t : Thr ℝ} {th : CThread} {flag : Bool} (h : Reader t flag th) : (circStep t flag th).1 = flag ∧ Reader t flag (circStep t flag th).2 := by
  obtain ⟨todo, cur, out⟩ := th
  obtain ⟨h1, h2, h3⟩ := h
  match todo, cur with
  | [], _ => exact ⟨rfl, h1, h2, h3⟩
  | op :: ops, none =>
    refine ⟨rfl, h1, ?_, h3⟩
    intro p hp
    obtain rfl : op.prog t = p := by simpa [circStep] using hp
    refine ⟨noWrite_prog (h1 op (by simp)), ?_⟩
    intro op' ops' he
    obtain ⟨rfl, rfl⟩ : op = op' ∧ ops = ops' := by simpa [circStep] using he
    rw [run_op]
  | op :: ops, some (.ret r) =>
    refine ⟨rfl, fun o ho => h1 o (by simp only [circStep] at ho; simp [ho]), fun p hp => by simp [circStep] at hp, ?_⟩
    intro x hx
    simp only [circStep, List.mem_append, List.mem_singleton] at hx
    rcases hx with hx | rfl
    · exact h3 x hx
    · exact (h2 _ rfl).2 op ops rfl
  | op :: ops, some (.read k) =>
    refine ⟨rfl, h1, ?_, h3⟩
    intro p hp
    obtain rfl : k flag = p := by simpa [circStep] using hp
    exact ⟨(h2 _ rfl).1 flag, fun o os he => (h2 _ rfl).2 o os he⟩
  | op :: ops, some (.write b k) => exact ((h2 _ rfl).1).elim

/-- Accesses left to do. -/
noncomputable def rank (t : Thr ℝ) (th : CThread) : ℕ :=
  match th.todo, th.cur with
  | [], _ => 0
  | op :: ops, none => ((op :: ops).map fun o => depth (o.prog t) + 2).sum
  | _ :: ops, some p => depth p + 1 + (ops.map fun o => depth (o.prog t) + 2).sum

theorem rank_step (t : Thr ℝ) (flag : Bool) (th : CThread) : rank t (circStep t flag th).2 ≤ rank t th - 1 := by
  obtain ⟨todo, cur, out⟩ := th
  match todo, cur with
  | [], _ => simp [circStep, rank]
  | op :: ops, none => simp [circStep, rank]
  | op :: ops, some (.ret r) =>
    cases ops with
    | nil => simp [circStep, rank]
    | cons o os => simp [circStep, rank, depth]
  | op :: ops, some (.read k) =>
    have : depth (k flag) ≤ max (depth (k true)) (depth (k false)) := by cases flag <;> simp
    simp only [circStep, rank, depth]; omega
  | op :: ops, some (.write b k) => simp only [circStep, rank, depth]; omega

theorem done_step (t : Thr ℝ) (flag : Bool) (th : CThread) : (circStep t flag th).2.out.map Prod.fst ++ (circStep t flag th).2.todo = th.out.map Prod.fst ++ th.todo := by
  obtain ⟨todo, cur, out⟩ := th
  match todo, cur with
  | [], _ => rfl
  | op :: ops, none => rfl
  | op :: ops, some (.ret r) => simp [circStep]
  | op :: ops, some (.read k) => rfl
  | op :: ops, some (.write b k) => rfl

theorem rank_zero {t : Thr ℝ} {th : CThread} (h : rank t th = 0) : th.todo = [] := by
  obtain ⟨todo, cur, out⟩ := th
  match todo, cur with
  | [], _ => rfl
  | op :: ops, none => simp [rank] at h
  | op :: ops, some p => simp [rank] at h

/-- A thread alone for a while ends its current operation. -/
theorem solo (t : Thr ℝ) (i : ℕ) (op : CircOp) (ops : List CircOp) (out : List (CircOp × Res Circle)) (p : FlagProg (Res Circle)) : ∀ (f : Bool) (ths : ℕ → CThread), ths i = ⟨op :: ops, some p, out⟩ →
    ∃ n, runThreads (circStep t) (List.replicate n i) (f, ths) = ((run f p).2, fun j => if j = i then ⟨ops, none, out ++ [(op, (run f p).1)]⟩ else ths j) := by
  induction p with
  | ret a =>
    intro f ths h
    refine ⟨1, ?_⟩
    simp [runThreads, circStep, h, run]
  | read k ih =>
    intro f ths h
    obtain ⟨n, hn⟩ := ih f f (fun j => if j = i then ⟨op :: ops, some (k f), out⟩ else ths j) (by simp)
    refine ⟨n + 1, ?_⟩
    have e : circStep t f (ths i) = (f, ⟨op :: ops, some (k f), out⟩) := by rw [h]; rfl
    simp only [List.replicate_succ, runThreads, e]
    rw [hn]
    simp only [run, Prod.mk.injEq, true_and]
    funext j
    by_cases hj : j = i <;> simp [hj]
  | write b k ih =>
    intro f ths h
    obtain ⟨n, hn⟩ := ih b (fun j => if j = i then ⟨op :: ops, some k, out⟩ else ths j) (by simp)
    refine ⟨n + 1, ?_⟩
    have e : circStep t f (ths i) = (b, ⟨op :: ops, some k, out⟩) := by rw [h]; rfl
    simp only [List.replicate_succ, runThreads, e]
    rw [hn]
    simp only [run, Prod.mk.injEq, true_and]
    funext j
    by_cases hj : j = i <;> simp [hj]

theorem runThreads_append {M T : Type} (step : M → T → M × T) : ∀ (s s' : List ℕ) (c : M × (ℕ → T)), runThreads step (s ++ s') c = runThreads step s' (runThreads step s c) := by
  intro s
  induction s with
  | nil => intro s' c; rfl
  | cons i is ih => intro s' c; exact ih s' _

/-- With the flag not set, the search fails on its first circle. -/
theorem welzl_off {t : Thr ℝ} (h0 : 0 < t.nullDistance) (rnd : ℕ → ℕ) : ∀ n k P, n ≤ P.length → (run false (welzlProg t rnd n k P [])).1.1 = .throw ∧ (run false (welzlProg t rnd n k P [])).2 = false := by
  have hm : run false (makeProg t (0, 0) 0) = (.throw, false) := by
    rw [run_make]; simp [circleMake, h0]
  intro n
  induction n with
  | zero =>
    intro k P _
    unfold welzlProg
    have e : trivialProg t [] = makeProg t (0, 0) 0 := rfl
    rw [run_bind, e, hm]; exact ⟨rfl, rfl⟩
  | succ n ih =>
    intro k P hP
    unfold welzlProg
    rw [if_neg (by simp)]
    have hi : rnd k % (n + 1) < P.length := lt_of_lt_of_le (Nat.mod_lt _ (Nat.succ_pos n)) hP
    have hn : n < P.length := hP
    simp only [List.getElem?_eq_getElem hi, List.getElem?_eq_getElem hn]
    rw [run_bind]
    obtain ⟨h1, h2⟩ := ih (k + 1) ((P.set (rnd k % (n + 1)) P[n]).set n P[rnd k % (n + 1)]) (by simp; omega)
    rcases h : run false (welzlProg t rnd n (k + 1) ((P.set (rnd k % (n + 1)) P[n]).set n P[rnd k % (n + 1)]) []) with ⟨⟨r, P', k'⟩, f⟩
    rw [h] at h1 h2
    simp only at h1 h2
    subst h1 h2
    exact ⟨rfl, rfl⟩

end H2d.ThreadsCirc
