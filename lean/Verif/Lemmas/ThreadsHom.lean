import Verif.Lemmas.Threads
import Mathlib.Tactic.FinCases
import Mathlib.Data.Fintype.Basic
import Mathlib.Tactic.NormNum

/-! # Schedules: homographies and lines -/

namespace H2d.ThreadsHom

open Spec

variable {K : Type} [Field K] [LinearOrder K]

/-- The transposed inverse of a matrix. -/
def tinv (t : Thr K) (m : Mat K) : Res (Mat K) := Hom.invTransp t { m := m, isNorm := false, changed := true, hmt := none }

theorem tinv_changed (t : Thr K) (m : Mat K) (c : Bool) : Hom.invTransp t { m := m, isNorm := false, changed := c, hmt := none } = tinv t m := rfl

theorem lineAlone_eq (t : Thr K) (m : Mat K) (l : V3 K) : lineAlone t m l = match tinv t m with | .ok mi => .ok (mi.app l) | _ => .throw := by
  have h2 : Hom.invTransp t { m := m, isNorm := false, changed := true, hmt := some fun _ _ => 0 } = tinv t m := rfl
  unfold lineAlone Hom.appLineRaw Hom.refresh
  simp only [if_true, h2]
  rcases tinv t m with mi | _ | _ <;> rfl

theorem tinv_ne_ub (t : Thr K) (m : Mat K) : tinv t m ≠ .ub := by
  unfold tinv Hom.invTransp
  intro h
  split at h <;> cases h

/-- Word `j` of the cached matrix is the right one. -/
def Right (t : Thr K) (m : Mat K) (id : ℕ) (s : HMem K) (j : ℕ) : Prop :=
  ∀ mi, tinv t m = .ok mi → ∃ a : Mat K, s.heap[id]? = some (some a) ∧ a (cellOf j).1 (cellOf j).2 = mi (cellOf j).1 (cellOf j).2

/-- The transposed inverse exists, and the cached matrix is this one. -/
def Known (t : Thr K) (m : Mat K) (id : ℕ) (s : HMem K) : Prop := (∃ mi, tinv t m = .ok mi) ∧ ∀ j < 9, Right t m id s j

/-- Invariant of the memory. -/
structure MInv (t : Thr K) (m : Mat K) (id : ℕ) (s : HMem K) : Prop where
  mat : s.m = m
  ptr : s.ptr = some id
  live : ∃ a : Mat K, s.heap[id]? = some (some a)
  cache : s.changed = false → Known t m id s

/-- Invariant of the place of a thread. -/
def PcInv (t : Thr K) (m : Mat K) (id : ℕ) (s : HMem K) : HPc K → Prop
  | .idle | .testNull | .testChanged | .compute => True
  | .alloc | .setPtr _ | .setChanged => False
  | .deref mi => tinv t m = .ok mi
  | .store id' mi j => id' = id ∧ tinv t m = .ok mi ∧ ∀ k < j, Right t m id s k
  | .clear | .derefProd => Known t m id s
  | .load id' acc => id' = id ∧ Known t m id s ∧ acc.length ≤ 9 ∧
      ∀ mi, tinv t m = .ok mi → ∀ k < acc.length, acc[k]? = some (mi (cellOf k).1 (cellOf k).2)

/-- Invariant of a thread. -/
structure TInv (t : Thr K) (m : Mat K) (id : ℕ) (s : HMem K) (th : HThread K) : Prop where
  out : ∀ x ∈ th.out, x.2 = lineAlone t m x.1
  pc : PcInv t m id s th.pc

variable {t : Thr K} {m : Mat K} {id : ℕ}

theorem TInv.mono {s s' : HMem K} (hm : ∀ j, Right t m id s j → Right t m id s' j) {th : HThread K} (h : TInv t m id s th) : TInv t m id s' th := by
  refine ⟨h.out, ?_⟩
  have hk : Known t m id s → Known t m id s' := fun h => ⟨h.1, fun j hj => hm j (h.2 j hj)⟩
  have := h.pc
  rcases hp : th.pc with _ | _ | _ | i | _ | _ | _ | mi | ⟨i, mi, j⟩ | _ | _ | ⟨i, acc⟩ <;> rw [hp] at this <;> try exact this
  · exact ⟨this.1, this.2.1, fun k hk => hm k (this.2.2 k hk)⟩
  · exact hk this
  · exact hk this
  · exact ⟨this.1, hk this.2.1, this.2.2⟩

theorem TInv.ret {s : HMem K} {th : HThread K} (h : TInv t m id s th) (r : V3 K → Res (V3 K)) (hr : ∀ l, r l = lineAlone t m l) :
    TInv t m id s (th.ret r) := by
  unfold HThread.ret
  rcases ht : th.todo with _ | ⟨l, ls⟩
  · exact ⟨h.out, trivial⟩
  · refine ⟨?_, trivial⟩
    intro x hx
    rcases List.mem_append.1 hx with hx | hx
    · exact h.out x hx
    · simp at hx; subst hx; exact hr l

theorem cellOf_inj {j k : ℕ} (hj : j < 9) (hk : k < 9) (h1 : (cellOf j).1 = (cellOf k).1) (h2 : (cellOf j).2 = (cellOf k).2) : j = k := by
  simp [cellOf] at h1 h2
  omega

theorem words_mat (acc : List K) (mi : Mat K) (hl : acc.length = 9) (h : ∀ k < acc.length, acc[k]? = some (mi (cellOf k).1 (cellOf k).2)) :
    matOfWords acc = mi := by
  funext i j
  have hi := i.2
  have hj := j.2
  have hk : 3 * i.1 + j.1 < acc.length := by omega
  have hc : cellOf (3 * i.1 + j.1) = (i, j) := by
    ext <;> simp [cellOf] <;> omega
  unfold matOfWords
  rw [List.getD_eq_getElem?_getD, h _ hk, hc]
  rfl

theorem step_mem {s : HMem K} {th : HThread K} (hm : MInv t m id s) (h : TInv t m id s th) :
    MInv t m id (homStep t s th).1 ∧ ∀ j, Right t m id s j → Right t m id (homStep t s th).1 j := by
  have hp := h.pc
  unfold homStep
  rcases hq : th.pc with _ | _ | _ | i | _ | _ | _ | mi | ⟨i, mi, j⟩ | _ | _ | ⟨i, acc⟩ <;> rw [hq] at hp <;> simp only
  · rcases th.todo with _ | _ <;> exact ⟨hm, fun _ h => h⟩
  · exact ⟨hm, fun _ h => h⟩
  · exact hp.elim
  · exact hp.elim
  · exact hp.elim
  · exact ⟨hm, fun _ h => h⟩
  · rw [tinv_changed]
    rcases tinv t s.m with _ | _ | _ <;> exact ⟨hm, fun _ h => h⟩
  · rw [hm.ptr]; exact ⟨hm, fun _ h => h⟩
  · obtain ⟨rfl, h1, h2⟩ := hp
    obtain ⟨a, ha⟩ := hm.live
    by_cases hj : j < 9
    · rw [if_pos hj, ha]
      have hlt := (List.getElem?_eq_some_iff.1 ha).1
      have mono : ∀ k, Right t m i s k → Right t m i
          { s with heap := s.heap.set i (some (a.write (cellOf j).1 (cellOf j).2 (mi (cellOf j).1 (cellOf j).2))) } k := by
        intro k hk mi' hmi'
        rw [h1] at hmi'; cases hmi'
        refine ⟨_, List.getElem?_set_self hlt, ?_⟩
        obtain ⟨a', ha', h3⟩ := hk mi h1
        rw [ha] at ha'; cases ha'
        unfold Mat.write
        by_cases hx : (cellOf k).1 = (cellOf j).1 ∧ (cellOf k).2 = (cellOf j).2
        · rw [if_pos hx, hx.1, hx.2]
        · rw [if_neg hx, h3]
      exact ⟨⟨hm.mat, hm.ptr, ⟨_, List.getElem?_set_self hlt⟩, fun hc => ⟨(hm.cache hc).1, fun k hk => mono k ((hm.cache hc).2 k hk)⟩⟩, mono⟩
    · rw [if_neg hj]; exact ⟨hm, fun _ h => h⟩
  · exact ⟨⟨hm.mat, hm.ptr, hm.live, fun _ => hp⟩, fun _ h => h⟩
  · rw [hm.ptr]; exact ⟨hm, fun _ h => h⟩
  · obtain ⟨a, ha⟩ := hm.live
    obtain ⟨rfl, -⟩ := hp
    rw [ha]
    by_cases hj : acc.length < 9
    · rw [if_pos hj]; exact ⟨hm, fun _ h => h⟩
    · rw [if_neg hj]; exact ⟨hm, fun _ h => h⟩

theorem step_thread {s : HMem K} {th : HThread K} (hm : MInv t m id s) (h : TInv t m id s th) :
    TInv t m id (homStep t s th).1 (homStep t s th).2 := by
  have hp := h.pc
  have hmono := (step_mem hm h).2
  revert hmono
  unfold homStep
  rcases hq : th.pc with _ | _ | _ | i | _ | _ | _ | mi | ⟨i, mi, j⟩ | _ | _ | ⟨i, acc⟩ <;> rw [hq] at hp <;> simp only
  · rcases th.todo with _ | _ <;> intro _
    · exact h
    · exact ⟨h.out, trivial⟩
  · intro _
    rw [hm.ptr, if_neg (by simp)]
    exact ⟨h.out, trivial⟩
  · exact hp.elim
  · exact hp.elim
  · exact hp.elim
  · intro _
    by_cases hc : s.changed = true
    · rw [if_pos hc]; exact ⟨h.out, trivial⟩
    · rw [if_neg hc]; exact ⟨h.out, hm.cache (by simpa using hc)⟩
  · rw [tinv_changed, hm.mat]
    rcases hx : tinv t m with mi | _ | _ <;> intro _
    · exact ⟨h.out, hx⟩
    · exact h.ret _ (fun l => by rw [lineAlone_eq, hx])
    · exact absurd hx (tinv_ne_ub t m)
  · rw [hm.ptr]; intro _
    exact ⟨h.out, rfl, hp, by simp⟩
  · obtain ⟨rfl, h1, h2⟩ := hp
    obtain ⟨a, ha⟩ := hm.live
    by_cases hj : j < 9
    · rw [if_pos hj, ha]; intro hmono
      have hlt := (List.getElem?_eq_some_iff.1 ha).1
      refine ⟨h.out, rfl, h1, ?_⟩
      intro k hk
      by_cases hx : k = j
      · subst hx
        intro mi' hmi'
        rw [h1] at hmi'; cases hmi'
        exact ⟨_, List.getElem?_set_self hlt, by simp [Mat.write]⟩
      · exact hmono k (h2 k (by omega))
    · rw [if_neg hj]; intro _
      exact ⟨h.out, ⟨mi, h1⟩, fun k hk => h2 k (by omega)⟩
  · intro _; exact ⟨h.out, hp⟩
  · rw [hm.ptr]; intro _
    exact ⟨h.out, rfl, hp, by simp, by simp⟩
  · obtain ⟨a, ha⟩ := hm.live
    obtain ⟨rfl, hk, hl, hacc⟩ := hp
    rw [ha]
    by_cases hj : acc.length < 9
    · rw [if_pos hj]; intro _
      refine ⟨h.out, rfl, hk, by simp; omega, ?_⟩
      intro mi hmi k hkl
      simp only [List.length_append, List.length_singleton] at hkl
      by_cases hx : k < acc.length
      · rw [List.getElem?_append_left hx]; exact hacc mi hmi k hx
      · have : k = acc.length := by omega
        subst this
        obtain ⟨a', ha', h3⟩ := hk.2 _ hj mi hmi
        rw [ha] at ha'; cases ha'
        simp [h3]
    · rw [if_neg hj]; intro _
      obtain ⟨mi, hmi⟩ := hk.1
      refine h.ret _ ?_
      intro l
      rw [lineAlone_eq, hmi, words_mat acc mi (by omega) (hacc mi hmi)]

end H2d.ThreadsHom

namespace H2d.ThreadsHom

open Spec

variable {K : Type} [Field K] [LinearOrder K]

/-! ## Every product returns -/

/-- Turns that a thread still needs for its current product. -/
def inner : HPc K → ℕ
  | .idle => 0
  | .testNull => 30
  | .alloc => 29
  | .setPtr _ => 28
  | .setChanged => 27
  | .testChanged => 26
  | .compute => 25
  | .deref _ => 24
  | .store _ _ j => 9 - j + 14
  | .clear => 13
  | .derefProd => 12
  | .load _ acc => 9 - acc.length + 1

/-- Turns that a thread still needs. -/
def rank (th : HThread K) : ℕ :=
  match th.pc with
  | .idle => 31 * th.todo.length
  | pc => 31 * (th.todo.length - 1) + inner pc

/-- The lines of the thread are those of its program. -/
structure Bounded (prog : List (V3 K)) (th : HThread K) : Prop where
  prog : th.out.map Prod.fst ++ th.todo = prog
  pc : th.todo = [] → th.pc = .idle

theorem Bounded.ret {prog : List (V3 K)} {th : HThread K} (h : Bounded prog th) (hne : th.todo ≠ []) (r : V3 K → Res (V3 K)) :
    Bounded prog (th.ret r) ∧ rank (th.ret r) = 31 * (th.todo.length - 1) := by
  unfold HThread.ret
  rcases ht : th.todo with _ | ⟨c, cs⟩
  · exact absurd ht hne
  · refine ⟨⟨?_, fun _ => rfl⟩, ?_⟩
    · have := h.prog; rw [ht] at this; simpa using this
    · simp [rank]

theorem step_rank {t : Thr K} {prog : List (V3 K)} {s : HMem K} {th : HThread K} (h : Bounded prog th) :
    Bounded prog (homStep t s th).2 ∧ rank (homStep t s th).2 ≤ rank th - 1 := by
  have hp1 := h.prog
  have hrk : rank th = match th.pc with | .idle => 31 * th.todo.length | pc => 31 * (th.todo.length - 1) + inner pc := rfl
  by_cases hi : th.pc = .idle
  · unfold homStep
    rw [hi] at hrk ⊢
    simp only at hrk ⊢
    rcases ht : th.todo with _ | ⟨c, cs⟩ <;> simp only
    · refine ⟨h, ?_⟩; rw [hrk, ht]; simp
    · rw [ht] at hrk hp1
      refine ⟨⟨hp1, fun hx => by cases hx⟩, ?_⟩
      rw [hrk]; simp [rank, inner]; omega
  · have hne : th.todo ≠ [] := fun hx => hi (h.pc hx)
    have hret : ∀ r, 1 ≤ inner th.pc → Bounded prog (th.ret r) ∧ rank (th.ret r) ≤ rank th - 1 := by
      intro r hr
      obtain ⟨h1, h2⟩ := h.ret hne r
      refine ⟨h1, ?_⟩
      have : rank th = 31 * (th.todo.length - 1) + inner th.pc := by
        rw [hrk]; rcases hq : th.pc with _ | _ | _ | i | _ | _ | _ | mi | ⟨i, mi, j⟩ | _ | _ | ⟨i, acc⟩ <;> first | exact absurd hq hi | rfl
      rw [h2, this]; omega
    have hgo : ∀ pc : HPc K, pc ≠ .idle → inner pc < inner th.pc → Bounded prog { th with pc := pc } ∧ rank { th with pc := pc } ≤ rank th - 1 := by
      intro pc hpc hlt
      refine ⟨⟨hp1, fun hx => absurd hx hne⟩, ?_⟩
      have h1 : rank th = 31 * (th.todo.length - 1) + inner th.pc := by
        rw [hrk]; rcases hq : th.pc with _ | _ | _ | i | _ | _ | _ | mi | ⟨i, mi, j⟩ | _ | _ | ⟨i, acc⟩ <;> first | exact absurd hq hi | rfl
      have h2 : rank { th with pc := pc } = 31 * (th.todo.length - 1) + inner pc := by
        unfold rank
        rcases pc with _ | _ | _ | i | _ | _ | _ | mi | ⟨i, mi, j⟩ | _ | _ | ⟨i, acc⟩ <;> first | exact absurd rfl hpc | rfl
      rw [h1, h2]; omega
    unfold homStep
    rcases hq : th.pc with _ | _ | _ | i | _ | _ | _ | mi | ⟨i, mi, j⟩ | _ | _ | ⟨i, acc⟩ <;> rw [hq] at hret hgo <;> simp only
    · exact absurd hq hi
    · by_cases hx : s.ptr = none
      · rw [if_pos hx]; exact hgo _ (by simp) (by simp [inner])
      · rw [if_neg hx]; exact hgo _ (by simp) (by simp [inner])
    · exact hgo _ (by simp) (by simp [inner])
    · exact hgo _ (by simp) (by simp [inner])
    · exact hgo _ (by simp) (by simp [inner])
    · by_cases hx : s.changed = true
      · rw [if_pos hx]; exact hgo _ (by simp) (by simp [inner])
      · rw [if_neg hx]; exact hgo _ (by simp) (by simp [inner])
    · rw [tinv_changed]
      rcases tinv t s.m with _ | _ | _
      · exact hgo _ (by simp) (by simp [inner])
      · exact hret _ (by simp [inner])
      · exact hret _ (by simp [inner])
    · rcases s.ptr with _ | _
      · exact hret _ (by simp [inner])
      · exact hgo _ (by simp) (by simp [inner])
    · by_cases hx : j < 9
      · rw [if_pos hx]
        rcases s.heap[i]? with _ | _ | _
        · exact hret _ (by simp [inner])
        · exact hret _ (by simp [inner])
        · exact hgo _ (by simp) (by simp [inner]; omega)
      · rw [if_neg hx]; exact hgo _ (by simp) (by simp [inner])
    · exact hgo _ (by simp) (by simp [inner])
    · rcases s.ptr with _ | _
      · exact hret _ (by simp [inner])
      · exact hgo _ (by simp) (by simp [inner])
    · by_cases hx : acc.length < 9
      · rw [if_pos hx]
        rcases s.heap[i]? with _ | _ | _
        · exact hret _ (by simp [inner])
        · exact hret _ (by simp [inner])
        · exact hgo _ (by simp) (by simp [inner]; omega)
      · rw [if_neg hx]; exact hret _ (by simp [inner])

theorem rank_zero {th : HThread K} (hr : rank th = 0) : th.todo = [] := by
  by_contra hne
  have hl : 1 ≤ th.todo.length := by
    rcases ht : th.todo with _ | _
    · exact absurd ht hne
    · simp
  unfold rank at hr
  rcases hq : th.pc with _ | _ | _ | i | _ | _ | _ | mi | ⟨i, mi, j⟩ | _ | _ | ⟨i, acc⟩ <;> rw [hq] at hr <;> simp only [inner] at hr <;> omega

/-- The identity is its own transposed inverse. -/
theorem tinv_eye : tinv (⟨0, 0, 0, 0, 0⟩ : Thr ℚ) Mat.eye = .ok Mat.eye := by
  have hd : (Mat.eye : Mat ℚ).determ = 1 := by decide +kernel
  have ha : (Mat.eye : Mat ℚ).adjugate = Mat.eye := by
    funext i j
    revert i j
    decide +kernel
  have hv : (Mat.eye : Mat ℚ).divAll 1 = Mat.eye := by funext i j; simp [Mat.divAll]
  have ht : (Mat.eye : Mat ℚ).transpose = Mat.eye := by
    funext i j
    revert i j
    decide +kernel
  have h22 : (Mat.eye : Mat ℚ) 2 2 = 1 := rfl
  have h10 : ¬ ((1 : ℚ) < 0) := by norm_num
  simp [tinv, Hom.invTransp, Hom.inverse, Hom.copy, Hom.transpose, Hom.normalize, hd, ha, hv, h22, ht, h10]

end H2d.ThreadsHom
