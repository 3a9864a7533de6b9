import Verif.Lemmas.ExactArith
import Verif.Lemmas.Simple

/-! # The rounded operations without rounding: polylines, rectangles, hulls, homographies -/

namespace H2d.Exact
open H2d.Spec

local notation "E" => exactArith

theorem foldl_map_sum {α : Type} (f : α → ℝ) (l : List α) : ∀ s : ℝ, l.foldl (fun s e => s + f e) s = s + (l.map f).sum := by
  induction l with
  | nil => intro s; simp
  | cons e l ih => intro s; simp only [List.foldl_cons, ih, List.map_cons, List.sum_cons]; ring

theorem signedArea_eq (pts : List (Pt ℝ)) : Fl.signedArea E pts = signedArea pts := by
  rw [Fl.signedArea, signedArea]
  simp only [rnd_eq]
  have e : (fun (s : ℝ) (e : Pt ℝ × Pt ℝ) => s + e.1.1 * e.2.2 - e.1.2 * e.2.1) = fun s e => s + (e.1.1 * e.2.2 - e.1.2 * e.2.1) := by funext s e; ring
  rw [e, foldl_map_sum (fun e : Pt ℝ × Pt ℝ => e.1.1 * e.2.2 - e.1.2 * e.2.1), zero_add]

theorem polyLen_eq (closed : Bool) (pts : List (Pt ℝ)) : Fl.polyLen E closed pts = polyLength ptDist closed pts := by
  rw [Fl.polyLen, polyLength]
  simp only [rnd_eq, dist_eq]
  rw [foldl_map_sum (fun e : Pt ℝ × Pt ℝ => ptDist e.1 e.2), zero_add]

theorem centroidRaw_eq (pts : List (Pt ℝ)) : Fl.centroidRaw E pts = if signedArea pts = 0 then none else some (centroidRaw pts) := by
  rw [Fl.centroidRaw, Fl.momentX, Fl.momentY, centroidRaw]
  simp only [rnd_eq, signedArea_eq, Fl.edgeProd]
  rw [foldl_map_sum (fun e : Pt ℝ × Pt ℝ => (e.1.1 + e.2.1) * (e.1.1 * e.2.2 - e.2.1 * e.1.2)), foldl_map_sum (fun e : Pt ℝ × Pt ℝ => (e.1.2 + e.2.2) * (e.1.1 * e.2.2 - e.2.1 * e.1.2)), zero_add, zero_add]
  by_cases h : signedArea pts = 0
  · rw [if_pos h, if_pos (by rw [h, mul_zero])]
  · rw [if_neg h, if_neg (mul_ne_zero (by norm_num) h)]

theorem isConvex_eq (simple : Bool) (pts : List (Pt ℝ)) : Fl.isConvex E simple pts = isConvex simple pts := by
  rw [Fl.isConvex, isConvex]
  simp only [Fl.crossAt, crossAt, rnd_eq]

theorem orientation_eq (thr : ℝ) (p q r : Pt ℝ) : Fl.chOrientation E thr p q r = chOrientation thr p q r := by
  rw [Fl.chOrientation, chOrientation]
  change (if |(q.2 - p.2) * (r.1 - q.1) - (q.1 - p.1) * (r.2 - q.2)| < thr then (0 : ℤ) else if (q.2 - p.2) * (r.1 - q.1) - (q.1 - p.1) * (r.2 - q.2) > 0 then 1 else -1) = _
  congr 1

theorem hullComp_eq (input : List (Pt ℝ)) (piv : ℕ) : Fl.hullComp E input piv = hullComp input piv := by
  funext i j
  rw [Fl.hullComp, hullComp]
  rcases input[piv]? with _ | a <;> rcases input[i]? with _ | b <;> rcases input[j]? with _ | c <;> rfl

theorem sortPoints_eq (srt : (ℕ → ℕ → Bool) → List ℕ → List ℕ) (input : List (Pt ℝ)) (piv : ℕ) : Fl.sortPoints E srt input piv = sortPoints srt input piv := by
  rw [Fl.sortPoints, sortPoints, hullComp_eq]
  rcases hullIota input.length piv with _ | ⟨i, l⟩ <;> rfl

theorem hullLoop_eq (thr : ℝ) (input : List (Pt ℝ)) (v2 : List ℕ) : ∀ (n i j k : ℕ) (hull fp : List ℕ), Fl.hullLoop E thr input v2 n i j k hull fp = hullLoop thr input v2 n i j k hull fp := by
  intro n
  induction n with
  | zero => intros; rfl
  | succ n ih =>
    intro i j k hull fp
    unfold Fl.hullLoop hullLoop
    rcases hullPt input v2 i with p | _ | _ <;> rcases hullPt input v2 j with q | _ | _ <;> rcases hullPt input v2 k with r | _ | _ <;> rcases v2[k]? with _ | k3 <;> try rfl
    simp only [orientation_eq, ih]
    split_ifs <;> rfl

theorem convexHull_eq (srt : (ℕ → ℕ → Bool) → List ℕ → List ℕ) (t : Thr ℝ) (thr : ℝ) (input : List (Pt ℝ)) :
    Fl.convexHull E srt t thr input = convexHull srt thr (fun p q => open Classical in decide (PtEq t p q)) input := by
  unfold Fl.convexHull convexHull
  simp only [same_iff, sortPoints_eq, hullLoop_eq]
  split_ifs <;> rfl

theorem det2_eq (m : Mat ℝ) (a b c d e f g h : Fin 3) : Fl.det2 E m a b c d e f g h = m.det2 a b c d e f g h := by simp only [Fl.det2, rnd_eq, Mat.det2]
theorem determ_eq (m : Mat ℝ) : Fl.determ E m = m.determ := by simp only [Fl.determ, rnd_eq, det2_eq, Mat.determ]
theorem adjugate_eq (m : Mat ℝ) : Fl.adjugate E m = m.adjugate := by simp only [Fl.adjugate, det2_eq, Mat.adjugate]
theorem app_eq (a : Mat ℝ) (v : V3 ℝ) : Fl.app E a v = a.app v := by funext i; simp only [Fl.app, rnd_eq, Mat.app]
theorem mul_eq (a b : Mat ℝ) : Fl.mul E a b = a.mul b := by funext i j; simp only [Fl.mul, rnd_eq, Mat.mul, zero_add]

theorem normalizeMat_eq (t : Thr ℝ) (h : Hom ℝ) : Fl.normalizeMat E t h.m = matOf (h.normalize t) := by
  rw [Fl.normalizeMat, Hom.normalize]
  split_ifs <;> rfl

theorem homInverse_eq (t : Thr ℝ) (h : Hom ℝ) : Fl.homInverse E t h.m = matOf (h.inverse t) := by
  rw [Fl.homInverse, Fl.inverse, Hom.inverse, determ_eq, adjugate_eq]
  split_ifs with h1
  · rfl
  · exact normalizeMat_eq t { h with m := h.m.adjugate.divAll h.m.determ, isNorm := false }

theorem invTransp_eq (t : Thr ℝ) (h : Hom ℝ) : Hom.invTransp t h = (Fl.homInverse E t h.m >>= fun b => .ok b.transpose) := by
  rw [show h.m = h.copy.m from rfl, homInverse_eq, Hom.invTransp, matOf]
  have hu : (Hom.inverse t h.copy).1 ≠ .ub := by
    rw [Hom.inverse]
    split_ifs
    · simp
    · rw [Hom.normalize]; split_ifs <;> simp
  rcases hx : Hom.inverse t h.copy with ⟨a | _ | _, k⟩
  · rfl
  · rfl
  · rw [hx] at hu; exact absurd rfl hu

/-- The image of a line by an object whose stored matrix has to be computed. -/
theorem lineImage_eq (t : Thr ℝ) (h : Hom ℝ) (hc : h.hmt = none ∨ h.changed = true) (l : V3 ℝ) : Fl.lineImage E t h.m l = ((h.appLineRaw t l).1 >>= normalizeLine t) := by
  have hu : Fl.homInverse E t h.m ≠ .ub := by
    rw [Fl.homInverse, Fl.inverse]
    split_ifs
    · intro c; cases c
    · simp only [Res.bind, Fl.normalizeMat]; split_ifs <;> simp
  rw [Fl.lineImage, Hom.appLineRaw, Hom.refresh]
  rcases hm : h.hmt with _ | mi
  · simp only [if_true, invTransp_eq]
    rcases hx : Fl.homInverse E t h.m with b | _ | _
    · simp only [Res.bind_ok, Res.bind, norm_eq, app_eq]
    · rfl
    · exact absurd hx hu
  · have hch : h.changed = true := by
      rcases hc with c | c
      · rw [hm] at c; cases c
      · exact c
    simp only [hch, if_true, invTransp_eq]
    rcases hx : Fl.homInverse E t h.m with b | _ | _
    · simp only [Res.bind_ok, Res.bind, norm_eq, app_eq]
    · rfl
    · exact absurd hx hu

section
variable {t : Thr ℝ} (ht : ExactThr t)

include ht in
theorem ptInsidePoly_eq (h1 : dblEps < t.nullDistance) {pts : List (Pt ℝ)} (hl : Sides t pts) (closed : Bool) (p : Pt ℝ) :
    Fl.ptInsidePoly E t Real.arccos closed pts p = ptInsidePoly t closed pts p := by
  rw [Fl.ptInsidePoly, ptInsidePoly, simple_eq ht, Simple.simpleR_isSimple h1 hl closed]
  simp only [Res.bind_ok, polyGetBB_eq ht, polySegs_eq, nearLine_eq, getExtended_eq, rectSegs_eq, pipLoop_eq ht]
  split_ifs <;> rfl

theorem allRes_congr {α : Type} {f g : α → Res Bool} {l : List α} (h : ∀ a ∈ l, f a = g a) : allRes f l = allRes g l := by
  induction l with
  | nil => rfl
  | cons a l ih =>
    rw [allRes, allRes, h a (by simp), ih (fun b hb => h b (by simp [hb]))]

include ht in
theorem segsInterSeg_eq (s : Seg) : Fl.segsInterSeg E t Real.arccos s = segsInterSeg t s := by
  rw [Fl.segsInterSeg, segsInterSeg]
  congr 1
  funext e
  rw [segInter_eq ht]

include ht in
theorem segsInterSegs_eq (o : List Seg) : Fl.segsInterSegs E t Real.arccos o = segsInterSegs t o := by
  rw [Fl.segsInterSegs, segsInterSegs]
  congr 1
  funext e
  rw [segsInterSeg_eq ht]

include ht in
theorem polyInterSeg_eq (closed : Bool) (pts : List (Pt ℝ)) (s : Seg) : Fl.polyInterSeg E t Real.arccos closed pts s = polyInterSeg t closed pts s := by
  rw [Fl.polyInterSeg, polyInterSeg, polySegs_eq, segsInterSeg_eq ht]

include ht in
theorem polyInterLine_eq (closed : Bool) (pts : List (Pt ℝ)) {li : V3 ℝ} (hl : HasDir li) : Fl.polyInterLine E t Real.arccos closed pts li = polyInterLine t closed pts li := by
  rw [Fl.polyInterLine, polyInterLine, polySegs_eq]
  congr 1
  funext segs
  rw [Fl.segsInterLine, segsInterLine]
  congr 1
  funext e
  rw [segLineInter_eq ht e hl]

include ht in
theorem polyInterPoly_eq (closed : Bool) (pts : List (Pt ℝ)) (closed' : Bool) (pts' : List (Pt ℝ)) :
    Fl.polyInterPoly E t Real.arccos closed pts closed' pts' = polyInterPoly t closed pts closed' pts' := by
  rw [Fl.polyInterPoly, polyInterPoly, polySegs_eq]
  rcases polySegs t (segPairs closed pts) with segs | _ | _ <;> try rfl
  rcases segs with _ | ⟨e, segs⟩
  · rfl
  · simp only [Res.bind_ok, polySegs_eq, segsInterSegs_eq ht]

include ht in
theorem segInPoly_eq (h1 : dblEps < t.nullDistance) {pts : List (Pt ℝ)} (hl : Sides t pts) (s : Seg) : Fl.segInPoly E t Real.arccos pts s = segInPoly t pts s := by
  rw [Fl.segInPoly, segInPoly, allRes_congr (fun a _ => ptInsidePoly_eq ht h1 hl true a)]
  simp only [polySegs_eq, Fl.noInter, noInter, segInter_eq ht]

include ht in
theorem polyInPoly_eq (h1 : dblEps < t.nullDistance) {outer : List (Pt ℝ)} (hl : Sides t outer) (closed : Bool) (pts : List (Pt ℝ)) :
    Fl.polyInPoly E t Real.arccos closed pts outer = polyInPoly t closed pts outer := by
  rw [Fl.polyInPoly, polyInPoly, allRes_congr (fun a _ => ptInsidePoly_eq ht h1 hl true a), polyInterPoly_eq ht]

include ht in
theorem rectInPoly_eq (h1 : dblEps < t.nullDistance) {outer : List (Pt ℝ)} (hl : Sides t outer) (r : FRect ℝ) :
    Fl.rectInPoly E t Real.arccos r outer = rectInPoly t r outer := by
  rw [Fl.rectInPoly, rectInPoly, rectSegs_eq, allRes_congr (fun a _ => ptInsidePoly_eq ht h1 hl true a)]
  simp only [polyInterSeg_eq ht]

theorem rectEqB_eq (a b : FRect ℝ) : Fl.rectEqB E t a b = rectEqB t a b := by simp only [Fl.rectEqB, rectEqB, same_iff]

include ht in
theorem rectSegLoop_eq (seg : Seg) : ∀ (l : List Seg) (out : List (Pt ℝ)), Fl.rectSegLoop E t Real.arccos seg l out = rectSegLoop t seg l out := by
  intro l
  induction l with
  | nil => intro out; rfl
  | cons e l ih =>
    intro out
    rw [Fl.rectSegLoop, rectSegLoop, segInter_eq ht]
    rcases segInter t e seg with o | _ | _ <;> try rfl
    rcases o with _ | pt
    · exact ih out
    · simp only [Res.bind_ok, same_iff, ih]
      rcases out with _ | ⟨q, _ | ⟨r, out⟩⟩ <;> rfl

include ht in
theorem rectSegInter_eq (r : FRect ℝ) (seg : Seg) : Fl.rectSegInter E t Real.arccos r seg = rectSegInter t r seg := by
  rw [Fl.rectSegInter, rectSegInter, rectSegs_eq]
  simp only [rectSegLoop_eq ht]

include ht in
theorem rectLoop_eq (o : FRect ℝ) : ∀ (l : List Seg) (out : List (Pt ℝ)), Fl.rectLoop E t Real.arccos o l out = rectLoop t o l out := by
  intro l
  induction l with
  | nil => intro out; rfl
  | cons e l ih =>
    intro out
    rw [Fl.rectLoop, rectLoop, rectSegInter_eq ht]
    rcases rectSegInter t o e with v | _ | _ <;> try rfl
    rcases v with _ | ⟨a, _ | ⟨b, _ | ⟨c, v⟩⟩⟩ <;> first | exact ih _ | rfl

include ht in
theorem rectInter_eq (a b : FRect ℝ) : Fl.rectInter E t Real.arccos a b = rectInter t a b := by
  rw [Fl.rectInter, rectInter, rectEqB_eq, rectSegs_eq]
  simp only [rectLoop_eq ht]

include ht in
theorem intersectArea_eq (a b : FRect ℝ) : Fl.intersectArea E t Real.arccos a b = intersectArea t a b := by
  rw [Fl.intersectArea, intersectArea, rectEqB_eq, rectInter_eq ht]
  by_cases h : rectEqB t a b = true
  · rw [if_pos h, if_pos h]
  · rw [if_neg h, if_neg h]
    rcases rectInter t a b with v | _ | _ <;> try rfl
    simp only [Res.bind_ok]
    rcases v with _ | ⟨v0, _ | ⟨v1, _ | ⟨v2, _ | ⟨v3, _ | ⟨v4, v⟩⟩⟩⟩⟩ <;> simp only [rectOfPts_eq, rnd_eq]
    · rcases pointsInside a b with _ | ⟨q0, _ | ⟨q1, _ | ⟨q2, q⟩⟩⟩ <;> rcases pointsInside b a with _ | ⟨r0, _ | ⟨r1, _ | ⟨r2, r⟩⟩⟩ <;> rfl

theorem sameB_eq : Fl.ptSameB E t = (stdEnv t).same := by
  funext p q
  simp only [Fl.ptSameB, stdEnv, same_iff]

theorem sameAngle_eq : Fl.sameAngle E atan2 t.nullAngleValue = (stdEnv t).mid := by
  funext a b c
  simp only [Fl.sameAngle, stdEnv, sameAngle, rnd_eq]
  rfl

include ht in
theorem unionArea_eq (a b : FRect ℝ) : Fl.unionArea E t Real.arccos atan2 a b = unionArea t a b := by
  rw [Fl.unionArea, unionArea, rectEqB_eq, rectInter_eq ht, sameB_eq, sameAngle_eq]
  by_cases h : rectEqB t a b = true
  · rw [if_pos h, if_pos h]
  · rw [if_neg h, if_neg h]
    rcases rectInter t a b with v | _ | _ <;> rfl

include ht in
theorem polyArea_eq (h1 : dblEps < t.nullDistance) {pts : List (Pt ℝ)} (hl : Sides t pts) (closed : Bool) :
    Fl.polyArea E t Real.arccos closed pts = .ok (polyArea (segInterB t) closed pts) := by
  rw [Fl.polyArea, simple_eq ht, Simple.simpleR_isSimple h1 hl closed, polyArea, signedArea_eq]
  simp only [Res.bind_ok]
  split_ifs <;> rfl

include ht in
theorem centroid_eq (h1 : dblEps < t.nullDistance) {pts : List (Pt ℝ)} (hl : Sides t pts) (closed : Bool) :
    Fl.centroid E t Real.arccos closed pts = (centroid (segInterB t) closed pts >>= fun c => .ok (if signedArea pts = 0 then none else some c)) := by
  rw [Fl.centroid, simple_eq ht, Simple.simpleR_isSimple h1 hl closed, centroid, centroidRaw_eq]
  simp only [Res.bind_ok]
  by_cases h : isSimple (segInterB t) closed pts = true
  · rw [if_pos h, if_pos h]; rfl
  · rw [if_neg h, if_neg h]; rfl

theorem sameB_real : Fl.sameB E t = fun p q => open Classical in decide (PtEq t p q) := by
  funext p q
  simp only [Fl.sameB, same_iff]

theorem sqDist_fun : Fl.sqDist E = sqDist := by funext p q; exact sqDist_eq p q
theorem dist_fun : Fl.distPt E = ptDist := by funext p q; exact dist_eq p q

theorem stdR_exact : ExactThr stdR where
  dist := by norm_num [stdR]
  pos := by norm_num [stdR]
  le := by
    have := Real.two_le_pi
    have e : stdR.nullAngleValue = 1 / 1000 := rfl
    rw [e]; linarith

theorem sides_demo : Sides stdR [(0, 0), (4, 0), (0, 3)] ∧ dblEps < stdR.nullDistance := by
  have e : stdR.nullDistance = 1 / 10 ^ 10 := rfl
  constructor
  · rintro i ⟨a, b⟩ ⟨h1, h2⟩
    have hi : i < 3 := by
      by_contra c
      rw [List.getElem?_eq_none (by simpa using c)] at h1
      cases h1
    rw [e, eucl]
    apply Real.le_sqrt_of_sq_le
    interval_cases i <;> simp at h1 h2 <;> subst h1 <;> subst h2 <;> norm_num
  · rw [e, dblEps]; norm_num

theorem round_differs : Rep (Fl.binary 53) (2 ^ 53) ∧ Rep (Fl.binary 53) (-1) ∧ Fl.distPt (Fl.binary 53) (2 ^ 53, 0) (-1, 0) ≠ ptDist (2 ^ 53, 0) (-1, 0) := by
  refine ⟨?_, ?_, ?_⟩
  · have := Fl.roundTo_exact (p := 53) (by norm_num) (m := 1) (k := 53) (by norm_num)
    norm_num at this
    rw [Rep, Fl.binary]
    norm_num
    exact this
  · have := Fl.roundTo_exact (p := 53) (by norm_num) (m := -1) (k := 0) (by norm_num)
    norm_num at this
    simpa [Rep, Fl.binary] using this
  · have e : ptDist ((2 : ℝ) ^ 53, 0) (-1, 0) = 2 ^ 53 + 1 := by
      rw [ptDist, show ((2 : ℝ) ^ 53 - -1) * (2 ^ 53 - -1) + (0 - 0) * (0 - 0) = (2 ^ 53 + 1) ^ 2 by norm_num]
      exact Real.sqrt_sq (by norm_num)
    rw [e]
    intro h
    have h2 : Fl.roundTo 53 (2 ^ 53 + 1) = 2 ^ 53 + 1 := by
      rw [← h]
      exact Fl.roundTo_idem (by norm_num) _
    rw [Fl.roundTo_pos (by norm_num), Fl.roundPos, Fl.log_unique (e := 53) (by norm_num) (by norm_num)] at h2
    norm_num at h2
    set n := Fl.nearestEven (9007199254740993 / 2) with hn
    have h3 : n * 2 = (9007199254740993 : ℤ) := by exact_mod_cast h2
    omega

end

end H2d.Exact
