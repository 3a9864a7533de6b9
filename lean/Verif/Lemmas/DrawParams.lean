import Verif.Spec.DrawParams
import Mathlib.Tactic.FinCases
import Mathlib.Data.List.Basic

/-!
# Lemmas on drawing parameters
-/

namespace H2d.Draw
open H2d.Draw.Spec

theorem run_append (w : World) (a b : List Op) : run w (a ++ b) = (run w a).bind (fun w' => run w' b) := by
  induction a generalizing w with
  | nil => simp [run]
  | cons op ops ih =>
    simp only [List.cons_append, run]
    cases step w op with
    | none => rfl
    | some w' => exact ih w'

/-- What one step does on the default and on an existing object. -/
theorem step_frame (w w' : World) (op : Op) (h : step w op = some w') :
    (Op.touchesDefault op = false → w'.dflt = w.dflt) ∧
    (∀ i v, w.objs[i]? = some v → Op.setsObj i op = false → w'.objs[i]? = some v) := by
  cases op with
  | create =>
    simp only [step, Option.some.injEq] at h; subst h
    refine ⟨fun _ => rfl, fun i v hi _ => ?_⟩
    have := (List.getElem?_eq_some_iff.1 hi).1
    rw [List.getElem?_append_left this]; exact hi
  | copy j =>
    simp only [step] at h
    split at h
    · simp only [Option.some.injEq] at h; subst h
      refine ⟨fun _ => rfl, fun i v hi _ => ?_⟩
      have := (List.getElem?_eq_some_iff.1 hi).1
      rw [List.getElem?_append_left this]; exact hi
    · simp only [Option.some.injEq] at h; subst h
      exact ⟨fun _ => rfl, fun i v hi _ => hi⟩
  | set j s =>
    simp only [step] at h
    split at h
    · split at h
      · simp only [Option.some.injEq] at h; subst h
        refine ⟨fun _ => rfl, fun i v hi hs => ?_⟩
        have hne : j ≠ i := by simpa [Op.setsObj] using hs
        simp only [List.getElem?_set_ne hne]; exact hi
      · simp only [Option.some.injEq] at h; subst h
        exact ⟨fun _ => rfl, fun i v hi _ => hi⟩
      · cases h
    · simp only [Option.some.injEq] at h; subst h
      exact ⟨fun _ => rfl, fun i v hi _ => hi⟩
  | setDefault j =>
    simp only [step] at h
    split at h <;> (simp only [Option.some.injEq] at h; subst h)
    · exact ⟨fun hd => by simp [Op.touchesDefault] at hd, fun i v hi _ => hi⟩
    · exact ⟨fun _ => rfl, fun i v hi _ => hi⟩
  | resetDefault =>
    simp only [step, Option.some.injEq] at h; subst h
    exact ⟨fun hd => by simp [Op.touchesDefault] at hd, fun i v hi _ => hi⟩

theorem run_dflt (ops : List Op) (w w' : World) (h : run w ops = some w') (hn : ∀ op ∈ ops, Op.touchesDefault op = false) :
    w'.dflt = w.dflt := by
  induction ops generalizing w with
  | nil => simp only [run, Option.some.injEq] at h; rw [h]
  | cons op ops ih =>
    simp only [run] at h
    split at h
    · next w1 h1 =>
      rw [ih w1 h (fun o ho => hn o (List.mem_cons_of_mem _ ho)), (step_frame w w1 op h1).1 (hn op List.mem_cons_self)]
    · cases h

theorem run_obj (ops : List Op) (w w' : World) (h : run w ops = some w') (i : Nat) (v : Vals) (hv : w.objs[i]? = some v)
    (hn : ∀ op ∈ ops, Op.setsObj i op = false) : w'.objs[i]? = some v := by
  induction ops generalizing w with
  | nil => simp only [run, Option.some.injEq] at h; rw [← h]; exact hv
  | cons op ops ih =>
    simp only [run] at h
    split at h
    · next w1 h1 =>
      exact ih w1 h ((step_frame w w1 op h1).2 i v hv (hn op List.mem_cons_self)) (fun o ho => hn o (List.mem_cons_of_mem _ ho))
    · cases h

/-- What holds of the values of every object. -/
def Good (v : Vals) : Prop := IsStyle v.style ∧ (v.pointSize = 4 ∨ v.pointSize % 2 = 1) ∧ 1 < v.fontSize ∧ 1 ≤ v.ptDelta ∧ 1 ≤ v.pointSize

theorem good_factory : Good factory := by unfold Good IsStyle; decide +kernel

theorem setter_good (v v' : Vals) (s : Setter) (hv : Good v) (h : s.run v = .ok v') : Good v' := by
  obtain ⟨h1, h2, h3⟩ := hv
  cases s <;> simp only [Setter.run] at h
  case pointStyle s =>
    split at h
    · cases h
    · next hn =>
      simp only [Res.ok.injEq] at h; subst h
      refine ⟨?_, h2, h3⟩
      have : ¬ (5 < s.val) := fun h5 => hn h5
      simp only [IsStyle]; omega
  case pointSize n =>
    split at h
    · cases h
    · next hn => simp only [Res.ok.injEq] at h; subst h; exact ⟨h1, Or.inr (by simp only; omega), h3.1, by simp only; omega, by simp only; omega⟩
  case fontSize n =>
    split at h
    · next hn => simp only [Res.ok.injEq] at h; subst h; exact ⟨h1, h2, hn, h3.2⟩
    · cases h
  all_goals (simp only [Res.ok.injEq] at h; subst h; exact ⟨h1, h2, h3⟩)

/-- Invariant of the world. -/
def GoodW (w : World) : Prop := Good w.dflt ∧ ∀ v ∈ w.objs, Good v

theorem step_good (w w' : World) (op : Op) (hw : GoodW w) (h : step w op = some w') : GoodW w' := by
  obtain ⟨hd, ho⟩ := hw
  have app : ∀ v, Good v → ∀ x ∈ w.objs ++ [v], Good x := by
    intro v hv x hx
    rcases List.mem_append.1 hx with h | h
    · exact ho x h
    · rw [List.mem_singleton.1 h]; exact hv
  cases op with
  | create => simp only [step, Option.some.injEq] at h; subst h; exact ⟨hd, app _ hd⟩
  | copy j =>
    simp only [step] at h
    split at h <;> (simp only [Option.some.injEq] at h; subst h)
    · next v hv => exact ⟨hd, app _ (ho v (List.mem_of_getElem? hv))⟩
    · exact ⟨hd, ho⟩
  | set j s =>
    simp only [step] at h
    split at h
    · next v hv =>
      split at h
      · next v' hr =>
        simp only [Option.some.injEq] at h; subst h
        refine ⟨hd, fun x hx => ?_⟩
        rcases List.mem_or_eq_of_mem_set hx with h | h
        · exact ho x h
        · rw [h]; exact setter_good v v' s (ho v (List.mem_of_getElem? hv)) hr
      · simp only [Option.some.injEq] at h; subst h; exact ⟨hd, ho⟩
      · cases h
    · simp only [Option.some.injEq] at h; subst h; exact ⟨hd, ho⟩
  | setDefault j =>
    simp only [step] at h
    split at h <;> (simp only [Option.some.injEq] at h; subst h)
    · next v hv => exact ⟨ho v (List.mem_of_getElem? hv), ho⟩
    · exact ⟨hd, ho⟩
  | resetDefault => simp only [step, Option.some.injEq] at h; subst h; exact ⟨good_factory, ho⟩

theorem run_good (ops : List Op) (w w' : World) (hw : GoodW w) (h : run w ops = some w') : GoodW w' := by
  induction ops generalizing w with
  | nil => simp only [run, Option.some.injEq] at h; rw [← h]; exact hw
  | cons op ops ih =>
    simp only [run] at h
    split at h
    · next w1 h1 => exact ih w1 (step_good w w1 op hw h1) h
    · cases h

end H2d.Draw
