import Verif.Lemmas.ExactArithMore
import Verif.Model.FloatChain
import Verif.Model.Bisect

/-! # The rounded operations without rounding: transformations added to a homography, rotated lines -/

namespace H2d

/-- `addTranslation`, `addRotation`, `addScale` of an object. -/
noncomputable def Exact.addHom (t : Thr ℝ) (h : Hom ℝ) : Fl.Trans → Res Unit × Hom ℝ
  | .translation tx ty => h.addTranslation t tx ty
  | .rotation a => h.addRotation t (Real.cos a) (Real.sin a)
  | .scale kx ky => h.addScale t kx ky

end H2d

namespace H2d.Exact
open H2d.Spec

local notation "E" => exactArith

theorem premul_eq (t : Thr ℝ) (out h : Hom ℝ) : Fl.normalizeMat E t (Fl.mul E out.m h.m) = matOf (Hom.premul t out h) ∧ ((Hom.premul t out h).1 = .ok () → (Hom.premul t out h).2.changed = true) := by
  have e := normalizeMat_eq t { (Hom.default : Hom ℝ) with m := out.m.mul h.m }
  rw [mul_eq]
  simp only at e
  rw [e]
  unfold Hom.premul Hom.mul
  rcases hn : Hom.normalize t { (Hom.default : Hom ℝ) with m := out.m.mul h.m } with ⟨r, h'⟩
  rcases r with _ | _ | _ <;> simp [matOf, Hom.assign]
  unfold Hom.normalize at hn
  split_ifs at hn <;> cases hn

theorem addTrans_eq (t : Thr ℝ) (h : Hom ℝ) (o : Fl.Trans) :
    Fl.addTrans E Real.cos Real.sin t h.m o = matOf (addHom t h o) ∧ ((addHom t h o).1 = .ok () → (addHom t h o).2.changed = true) := by
  cases o with
  | translation tx ty => exact premul_eq t (Hom.default.setTranslation tx ty) h
  | rotation a => exact premul_eq t (Hom.default.setRotation (Real.cos a) (Real.sin a)) h
  | scale kx ky => exact premul_eq t (Hom.default.setScale kx ky) h

theorem call_bind {β : Type} (r : Res Unit × Hom ℝ) (f : Mat ℝ → Res β) (g : Hom ℝ → Res β) (hfg : r.1 = .ok () → f r.2.m = g r.2) : (matOf r >>= f) = (Hom.call r >>= g) := by
  rcases r with ⟨r, h⟩
  rcases r with _ | _ | _
  · exact hfg rfl
  · rfl
  · rfl

theorem rotatedLine_eq (t : Thr ℝ) (l : V3 ℝ) (p : Pt ℝ) (a : ℝ) : Fl.rotatedLine E Real.cos Real.sin t l p a = rotatedLine t l p a := by
  unfold Fl.rotatedLine rotatedLine
  rw [lineDist_eq]
  split_ifs with hd
  · rfl
  · have b1 : (Fl.addAll E Real.cos Real.sin t Mat.eye [.translation (-p.1) (-p.2), .rotation a, .translation p.1 p.2] >>= fun m => Fl.lineImage E t m l)
        = (Fl.addTrans E Real.cos Real.sin t Mat.eye (.translation (-p.1) (-p.2)) >>= fun m1 => Fl.addTrans E Real.cos Real.sin t m1 (.rotation a) >>= fun m2 => Fl.addTrans E Real.cos Real.sin t m2 (.translation p.1 p.2) >>= fun m3 => Fl.lineImage E t m3 l) := by
      unfold Fl.addAll
      rcases Fl.addTrans E Real.cos Real.sin t Mat.eye (.translation (-p.1) (-p.2)) with m1 | _ | _ <;> try rfl
      unfold Fl.addAll
      simp only [Res.bind, Res.bind_ok]
      rcases Fl.addTrans E Real.cos Real.sin t m1 (.rotation a) with m2 | _ | _ <;> try rfl
      unfold Fl.addAll
      simp only [Res.bind, Res.bind_ok]
      rcases Fl.addTrans E Real.cos Real.sin t m2 (.translation p.1 p.2) with m3 | _ | _ <;> rfl
    rw [b1, show (Mat.eye : Mat ℝ) = (Hom.default : Hom ℝ).m from rfl, (addTrans_eq t Hom.default _).1]
    refine call_bind _ _ _ fun _ => ?_
    rw [(addTrans_eq t _ _).1]
    refine call_bind _ _ _ fun _ => ?_
    rw [(addTrans_eq t _ _).1]
    refine call_bind _ _ _ fun ok => ?_
    exact lineImage_eq t _ (.inr ((addTrans_eq t _ (.translation p.1 p.2)).2 ok)) l

end H2d.Exact
