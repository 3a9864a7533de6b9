import Verif.Lemmas.DrawParams

/-!
# Drawing parameters: property C59
-/

namespace H2d.Props
open H2d.Draw H2d.Draw.Spec

/-- **C59**, existing objects: whatever happens in the program, including `setDefault()` and `resetDefault()` on any object, an object
keeps its values as long as no setter is called on it. -/
theorem C59_frame (w w' : World) (ops : List Op) (i : Nat) (v : Vals) (h : run w ops = some w') (hv : w.objs[i]? = some v)
    (hn : ∀ op ∈ ops, Op.setsObj i op = false) : w'.objs[i]? = some v :=
  run_obj ops w w' h i v hv hn

/-- **C59**, `setDefault()`: an object created later, with no other call of `setDefault()`/`resetDefault()` between, has the values the
object had at the time of the call, whatever became of that object. -/
theorem C59_setDefault (w w1 w2 : World) (ops : List Op) (i : Nat) (v : Vals) (hv : w.objs[i]? = some v)
    (h : run w (.setDefault i :: ops) = some w1) (hn : ∀ op ∈ ops, Op.touchesDefault op = false)
    (hc : step w1 .create = some w2) : w2.objs = w1.objs ++ [v] := by
  simp only [run, step, hv] at h
  have := run_dflt ops _ w1 h hn
  simp only [step, Option.some.injEq] at hc
  subst hc
  simp only [this]

/-- **C59**, `resetDefault()`: an object created later, with no call of `setDefault()` between, has the factory values, whatever happened
before. -/
theorem C59_resetDefault (w w1 w2 : World) (ops : List Op)
    (h : run w (.resetDefault :: ops) = some w1) (hn : ∀ op ∈ ops, Op.touchesDefault op = false)
    (hc : step w1 .create = some w2) :
    w2.objs = w1.objs ++ [{
      color := (80, 80, 80), lineThickness := 1, pointSize := 4, lineType := 1, ptDelta := 5, style := 0,
      enhancePoint := false, showPoints := false, showIndex := false, showAngles := false, fontSize := 20, attr := "" }] := by
  simp only [run, step] at h
  have := run_dflt ops _ w1 h hn
  simp only [step, Option.some.injEq] at hc
  subst hc
  simp only [this]
  rfl

/-- **C59**, the setters: an even point size and an invalid style are refused and nothing is changed; otherwise the value is stored
and the other values are kept. -/
theorem C59_setters (v : Vals) :
    (∀ n : Fin 256, n.val % 2 = 0 → Setter.run v (.pointSize n) = .throw) ∧
    (∀ n : Fin 256, n.val % 2 = 1 → ∃ v', Setter.run v (.pointSize n) = .ok v' ∧ v'.pointSize = n.val ∧
      v' = { v with pointSize := v'.pointSize, ptDelta := v'.ptDelta }) ∧
    (∀ s : Fin 256, ¬ IsStyle s → Setter.run v (.pointStyle s) = .throw) ∧
    (∀ s : Fin 256, IsStyle s → Setter.run v (.pointStyle s) = .ok { v with style := s }) := by
  refine ⟨fun n hn => by simp [Setter.run, hn], fun n hn => ?_, fun s hs => ?_, fun s hs => ?_⟩
  · refine ⟨{ v with pointSize := n.val, ptDelta := n.val }, by simp [Setter.run, hn], rfl, rfl⟩
  · have : dot < s := by simp only [IsStyle, not_le] at hs; exact hs
    simp only [Setter.run, this, if_true]
  · have : ¬ dot < s := fun h => absurd hs (not_le.2 h)
    simp only [Setter.run, this, if_false]

/-- A refused call leaves every object and the default as they were. -/
theorem C59_refused (w : World) (i : Nat) (v : Vals) (s : Setter) (hv : w.objs[i]? = some v) (hs : s.run v = .throw) :
    step w (.set i s) = some w := by
  simp only [step, hv, hs]

/-- **C59**, after any history from the start of the program, every object holds one of the six styles, the point size is 4 (the
initial one) or odd, the sizes of the symbols are at least 1, and the font size is more than 1. -/
theorem C59_invariant (ops : List Op) (w : World) (h : run World.start ops = some w) (v : Vals) (hv : v ∈ w.objs) :
    IsStyle v.style ∧ (v.pointSize = 4 ∨ v.pointSize % 2 = 1) ∧ 1 < v.fontSize ∧ 1 ≤ v.ptDelta ∧ 1 ≤ v.pointSize :=
  (run_good ops _ w ⟨good_factory, fun x hx => by simp [World.start] at hx⟩ h).2 v hv

/-- **C59**, cycling: from any of the six styles, the next one is one of the six styles, and every style is reached in at most
five steps. -/
theorem C59_cycle (s s' : Fin 256) (hs : IsStyle s) (hs' : IsStyle s') :
    IsStyle (nextPointStyle s) ∧ ∃ n, n ≤ 5 ∧ nextPointStyle^[n] s = s' := by
  have key : ∀ a b : Fin 6, (IsStyle (nextPointStyle (Fin.castLE (by decide) a))) ∧
      ∃ n : Fin 6, nextPointStyle^[n.val] (Fin.castLE (by decide) a) = Fin.castLE (by decide) b := by
    unfold IsStyle; decide +kernel
  have hs1 : s.val < 6 := Nat.lt_succ_of_le hs
  have hs2 : s'.val < 6 := Nat.lt_succ_of_le hs'
  obtain ⟨h1, n, h2⟩ := key ⟨s.val, hs1⟩ ⟨s'.val, hs2⟩
  have e1 : (Fin.castLE (by decide) (⟨s.val, hs1⟩ : Fin 6) : Fin 256) = s := rfl
  have e2 : (Fin.castLE (by decide) (⟨s'.val, hs2⟩ : Fin 6) : Fin 256) = s' := rfl
  rw [e1, e2] at h2
  rw [e1] at h1
  exact ⟨h1, n.val, by omega, h2⟩

/-- **C59** does not hold of the initial size: it is one that the setter refuses, so that a program which changed it can't set it back. -/
theorem C59_size_false (v : Vals) (n : Fin 256) (v' : Vals) (h : Setter.run v (.pointSize n) = .ok v') :
    v'.pointSize ≠ factory.pointSize := by
  simp only [Setter.run] at h
  split at h
  · cases h
  · next hn =>
    simp only [Res.ok.injEq] at h; subst h
    show ((n.val : Nat) : Int) ≠ 4
    intro h4
    have : n.val = 4 := by exact_mod_cast h4
    omega

/-- A history: object 0 has thickness 3 and becomes the default, then is changed to 7; the new object has thickness 3. -/
example : ∃ w w2, run World.start [.create, .set 0 (.thickness 3), .setDefault 0, .set 0 (.thickness 7)] = some w ∧
    step w .create = some w2 ∧ w2.objs.map Vals.lineThickness = [7, 3] := ⟨_, _, rfl, rfl, by decide +kernel⟩

/-- A history with a reset: the object created after has the factory thickness, and the first one is kept. -/
example : ∃ w w2, run World.start [.create, .set 0 (.thickness 3), .setDefault 0, .resetDefault, .set 0 (.pointSize 8)] = some w ∧
    step w .create = some w2 ∧ w2.objs.map Vals.lineThickness = [3, 1] := ⟨_, _, rfl, rfl, by decide +kernel⟩

end H2d.Props
