import Verif.Lemmas.ExactArithMore
import Verif.Lemmas.FloatSafe
import Verif.Model.FloatRectLine

/-! # The intersection of a rectangle and a line without rounding, and without undefined behaviour -/

namespace H2d.Exact
open H2d.Spec

local notation "E" => exactArith

theorem unit_dir {l : V3 ℝ} (h : UnitNormal l) : HasDir l := by
  unfold UnitNormal at h
  unfold HasDir
  nlinarith

theorem rectLineLoop_eq {t : Thr ℝ} (ht : ExactThr t) {l : V3 ℝ} (hl : HasDir l) : ∀ (es : List Seg) (pts : List (Pt ℝ)), Fl.rectLineLoop E t Real.arccos l es pts = rectLineLoop t l es pts
  | [], _ => by rw [Fl.rectLineLoop, rectLineLoop]
  | e :: es, pts => by
    rw [Fl.rectLineLoop, rectLineLoop, segLineInter_eq ht e hl]
    rcases segLineInter t e l with (_ | q) | _ | _ <;> try rfl
    · simp only [Res.bind_ok, rectLineLoop_eq ht hl es]
    · simp only [Res.bind_ok, same_iff, rectLineLoop_eq ht hl es]
      rcases pts with _ | ⟨a, _ | ⟨b, l⟩⟩ <;> rfl

theorem rectLineInter_eq {t : Thr ℝ} (ht : ExactThr t) (r : FRect ℝ) {l : V3 ℝ} (hl : HasDir l) : Fl.rectLineInter E t Real.arccos r l = rectLineInter t r l := by
  unfold Fl.rectLineInter rectLineInter
  simp only [rectSegs_eq, rectLineLoop_eq ht hl]

end H2d.Exact

namespace H2d.Fl

theorem segLineInter_safe {F : Arith} {t : Thr ℝ} {ac : ℝ → ℝ} (s : Seg) (li : V3 ℝ) : segLineInter F t ac s li ≠ .ub := by
  unfold segLineInter
  refine Pip.bind_ne_ub (lineOfPts_safe F t _ _) fun m => ?_
  split_ifs
  · simp
  · refine Pip.bind_ne_ub (lineInter_safe F t ac _ _) fun o => ?_
    rcases o with _ | p
    · simp
    · simp only; split_ifs <;> simp

theorem rectLineLoop_safe {F : Arith} {t : Thr ℝ} {ac : ℝ → ℝ} (li : V3 ℝ) : ∀ (es : List Seg) (pts : List (Pt ℝ)), rectLineLoop F t ac li es pts ≠ .ub
  | [], _ => by rw [rectLineLoop]; simp
  | e :: es, pts => by
    rw [rectLineLoop]
    refine Pip.bind_ne_ub (segLineInter_safe _ _) fun o => ?_
    rcases o with _ | p
    · exact rectLineLoop_safe li es pts
    · simp only
      split_ifs
      · simp
      · exact rectLineLoop_safe li es _

theorem rectLineInter_safe {F : Arith} {t : Thr ℝ} {ac : ℝ → ℝ} (r : FRect ℝ) (li : V3 ℝ) : rectLineInter F t ac r li ≠ .ub :=
  Pip.bind_ne_ub (rectSegs_safe F t r) fun es => rectLineLoop_safe li es []

end H2d.Fl
