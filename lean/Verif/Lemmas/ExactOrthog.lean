import Verif.Lemmas.ExactArithMore
import Verif.Lemmas.ExactParallel
import Verif.Model.FloatOrthog
import Verif.Model.FloatMove
import Verif.Model.Edits
import Verif.Model.Rotate

/-! # The rounded operations without rounding: orthogonal lines and segments, histories of a rectangle -/

namespace H2d.Exact
open H2d.Spec

local notation "E" => exactArith

theorem orthogAt_eq (t : Thr ℝ) (l : V3 ℝ) (b : Bool) (x : ℝ) : Fl.orthogLineAt E t l b x = orthogLineAt t l b x := by
  simp only [Fl.orthogLineAt, orthogLineAt, coord_eq, orthog_eq]

theorem orthogSegment_eq {t : Thr ℝ} (ht : ExactThr t) {l : V3 ℝ} (hl : HasDir l) (p : Pt ℝ) : Fl.orthogSegment E t Real.arccos l p = isNum (orthogSegment t l p) := by
  unfold Fl.orthogSegment orthogSegment isNum
  simp only [lineDist_eq, parallelLines_eq, orthog_eq]
  by_cases hd : lineDist l p < t.nullDistance
  · rw [if_pos hd, if_pos hd]; rfl
  · rw [if_neg hd, if_neg hd]
    generalize (if lineDist (parallelLines l (lineDist l p)).2 p < t.nullDistance then (parallelLines l (lineDist l p)).2 else (parallelLines l (lineDist l p)).1) = pl
    rcases ho : orthogLine t pl p with o | _ | _
    · simp only [Res.bind_ok]
      rw [lineInter_eq ht hl (orthog_dir ho)]
      rcases lineInter t l o with q | _ | _
      · simp only [Res.bind_ok]
        by_cases hq : PtEq t (getXY q) p
        · rw [if_pos ((same_iff t _ _).2 hq), if_pos hq]; rfl
        · rw [if_neg (fun c => hq ((same_iff t _ _).1 c)), if_neg hq]; rfl
      · rfl
      · rfl
    · rfl
    · rfl

theorem rectExec_eq {t : Thr ℝ} (ht : ExactThr t) (r : FRect ℝ) (op : RectOp ℝ) : Fl.rectExec E t r op = RectOp.exec t r op := by
  have tr : ∀ (r : FRect ℝ) (a b : ℝ), Fl.rectTranslate E r a b = r.translate a b := fun r a b => rfl
  have ro : ∀ (r : FRect ℝ) (rot : Rotate), Fl.rectRotate E t rot r = r.rotate t rot := fun r rot => polyGetBB_eq ht _
  cases op with
  | set a b => simp only [Fl.rectExec, RectOp.exec, rectOfPts_eq]
  | setCenter p w h => simp only [Fl.rectExec, RectOp.exec, rectOfPts_eq, rnd_eq, FRect.ofCenter]
  | translate a b => rfl
  | rotate rot => simp only [Fl.rectExec, RectOp.exec, ro]
  | rotateRef rot ref => simp only [Fl.rectExec, RectOp.exec, ro, tr]; cases FRect.rotate t rot (r.translate (-ref.1) (-ref.2)) <;> rfl
  | extend => simp only [Fl.rectExec, RectOp.exec, getExtended_eq]

theorem rectRun_eq {t : Thr ℝ} (ht : ExactThr t) (r : FRect ℝ) (ops : List (RectOp ℝ)) : Fl.rectRun E t r ops = rectRun t r ops := by
  unfold Fl.rectRun rectRun
  congr 1
  funext r op
  exact rectExec_eq ht r op

theorem rectValues_eq (r : FRect ℝ) : Fl.rectWidth E r = r.width ∧ Fl.rectHeight E r = r.height ∧ Fl.rectArea E r = r.area ∧ Fl.rectLength E r = r.length :=
  ⟨rfl, rfl, rfl, rfl⟩

end H2d.Exact
