import Verif.Lemmas.RectArea

/-!
# C28, C29, C30: intersection area, union area and IoU of two rectangles

The coordinates of the two rectangles are equal or at least `nullDistance` apart in the `_partial` theorems (what happens below this distance is shown by the `_false` theorems).
-/

namespace H2d.Props
open Spec

/-- C28: the intersection area exists exactly when the open rectangles overlap; it goes from the largest min corner to the smallest max corner,
its inside is what is inside both, and the order of the rectangles does not matter. -/
theorem C28_inter_partial (t : Thr ℝ) (ht : RectThr t) (a b : FRect ℝ) (h : ApartRects t.nullDistance a b) :
    (Overlap a b → intersectArea t a b = .ok (some (commonRect a b)) ∧ ∀ p, StrictlyIn p (commonRect a b) ↔ StrictlyIn p a ∧ StrictlyIn p b) ∧
    (¬ Overlap a b → intersectArea t a b = .ok none) ∧
    intersectArea t b a = intersectArea t a b := by
  have h1 := Rank.interArea_apart ht h
  have h2 := Rank.interArea_apart ht (Rank.apartRects_symm h)
  refine ⟨fun ho => ⟨h1.1 ho, ?_⟩, h1.2, ?_⟩
  · intro p
    simp only [StrictlyIn, commonRect, max_lt_iff, lt_min_iff]
    tauto
  · by_cases ho : Overlap a b
    · rw [h1.1 ho, h2.1 ((Rank.overlap_symm a b).1 ho), Rank.commonRect_symm]
    · rw [h1.2 ho, h2.2 (fun hc => ho ((Rank.overlap_symm b a).1 hc))]

/-- C29: two overlapping rectangles: the walk ends inside the table and gives a simple polygon that has the area of the union. -/
theorem C29_union_partial (t : Thr ℝ) (ht : RectThr t) (a b : FRect ℝ) (h : ApartRects t.nullDistance a b) :
    (Overlap a b → ∃ pts, unionArea t a b = .ok pts ∧ freshSimple (stdEnv t) true pts = .ok true ∧
      freshArea (stdEnv t) true pts = .ok (a.area + b.area - (commonRect a b).area)) ∧
    (Spec.Disjoint a b → unionArea t a b = .ok []) := by
  refine ⟨fun ho => ?_, Rank.unionArea_disjoint ht h⟩
  have hn : 0 < t.nullDistance := dblEps_pos.trans ht.dist
  obtain ⟨pts, h2, h3, h4⟩ := Rank.unionArea_overlap ht h ho
  obtain ⟨k1, k2, k3⟩ := Rank.common_area_le (a := a) (b := b) ⟨by linarith [h.wa], by linarith [h.ha]⟩ ⟨by linarith [h.wb], by linarith [h.hb]⟩ ho
  refine ⟨pts, h2, h3, ?_⟩
  unfold freshArea
  rw [h3, Res.bind_ok, if_pos rfl, h4, abs_neg, abs_of_pos (by unfold unionSize; linarith)]
  rfl

/-- C30: IoU is a value of `[0,1]` that does not depend on the order, 0 exactly when the rectangles do not overlap, 1 exactly when they are the same. -/
theorem C30_iou_partial (t : Thr ℝ) (ht : RectThr t) (a b : FRect ℝ) (h : ApartRects t.nullDistance a b) :
    ∃ v, rectIoU t a b = .ok v ∧ rectIoU t b a = .ok v ∧ 0 ≤ v ∧ v ≤ 1 ∧ (v = 0 ↔ ¬ Overlap a b) ∧ (v = 1 ↔ a = b) ∧
      (Overlap a b → v = (commonRect a b).area / (a.area + b.area - (commonRect a b).area)) := by
  have hn : 0 < t.nullDistance := dblEps_pos.trans ht.dist
  have pa : a.p1.1 < a.p2.1 ∧ a.p1.2 < a.p2.2 := ⟨by linarith [h.wa], by linarith [h.ha]⟩
  have pb : b.p1.1 < b.p2.1 ∧ b.p1.2 < b.p2.2 := ⟨by linarith [h.wb], by linarith [h.hb]⟩
  by_cases ho : Overlap a b
  · obtain ⟨k1, k2, k3⟩ := Rank.common_area_le pa pb ho
    have hpos : 0 < unionSize a b := by unfold unionSize; linarith
    have hsym : unionSize b a = unionSize a b := by unfold unionSize; rw [Rank.commonRect_symm b a]; ring
    refine ⟨_, Rank.rectIoU_overlap ht h ho, ?_, (div_pos k1 hpos).le, ?_, ?_, ?_, fun _ => rfl⟩
    · rw [Rank.rectIoU_overlap ht (Rank.apartRects_symm h) ((Rank.overlap_symm a b).1 ho), hsym, Rank.commonRect_symm]
    · rw [div_le_one hpos]; unfold unionSize; linarith
    · exact iff_of_false (div_pos k1 hpos).ne' (fun hc => hc ho)
    · rw [div_eq_one_iff_eq hpos.ne']
      constructor
      · intro he
        unfold unionSize at he
        have e1 : (commonRect a b).area = a.area := by linarith
        have e2 : (commonRect a b).area = b.area := by linarith
        exact Rank.area_eq_imp pa pb ho e1 e2
      · rintro rfl
        have : commonRect a a = a := by simp [commonRect]
        unfold unionSize; rw [this]; ring
  · refine ⟨0, Rank.rectIoU_no ht h ho, Rank.rectIoU_no ht (Rank.apartRects_symm h) (fun hc => ho ((Rank.overlap_symm b a).1 hc)), le_rfl, zero_le_one, ?_, ?_, fun hc => absurd hc ho⟩
    · exact iff_of_true rfl ho
    · refine iff_of_false zero_ne_one ?_
      rintro rfl
      exact ho ⟨((a.p1.1 + a.p2.1) / 2, (a.p1.2 + a.p2.2) / 2), ⟨by simp only; linarith [pa.1], by simp only; linarith [pa.1], by simp only; linarith [pa.2], by simp only; linarith [pa.2]⟩,
        ⟨by simp only; linarith [pa.1], by simp only; linarith [pa.1], by simp only; linarith [pa.2], by simp only; linarith [pa.2]⟩⟩

/-- The hypotheses are met: default thresholds and two crossing rectangles, that overlap. -/
example : RectThr stdR ∧ ApartRects stdR.nullDistance ⟨(0, 0), (2, 2)⟩ ⟨(1, 1), (3, 3)⟩ ∧ Overlap ⟨(0, 0), (2, 2)⟩ ⟨(1, 1), (3, 3)⟩ := by
  refine ⟨Rank.stdR_thr, ?_, ⟨(3/2, 3/2), by norm_num [StrictlyIn], by norm_num [StrictlyIn]⟩⟩
  constructor <;> norm_num [stdR, Apart]

/-- The hypotheses are met by two disjoint rectangles. -/
example : ApartRects stdR.nullDistance ⟨(0, 0), (1, 1)⟩ ⟨(2, 0), (3, 1)⟩ ∧ Spec.Disjoint ⟨(0, 0), (1, 1)⟩ ⟨(2, 0), (3, 1)⟩ := by
  refine ⟨by constructor <;> norm_num [stdR, Apart], ?_⟩
  rintro p ⟨_, h1, _⟩ ⟨h2, _⟩
  simp only at h1 h2
  linarith

/-- The full C28 is false: two small rectangles (larger than the minimal size of a rectangle) that have no common point, and an intersection area is returned. -/
theorem C28_false : ∃ a b : FRect ℝ, FRect.ofPts stdR.nullOrthogDistance a.p1 a.p2 = .ok a ∧ FRect.ofPts stdR.nullOrthogDistance b.p1 b.p2 = .ok b ∧
    Spec.Disjoint a b ∧ intersectArea stdR a b = .ok (some b) := by
  refine ⟨⟨(0, 0), (1/10^11, 1/10^11)⟩, ⟨(2/10^11, 2/10^11), (3/10^11, 3/10^11)⟩, ?_, ?_, ?_, ?_⟩
  · simp only [FRect.ofPts, getCorrectPoints, shareCommonCoord, stdR]; norm_num
  · simp only [FRect.ofPts, getCorrectPoints, shareCommonCoord, stdR]; norm_num
  · rintro p ⟨_, h1, _⟩ ⟨h2, _⟩
    simp only at h1 h2
    norm_num at h1 h2
    linarith
  · unfold intersectArea
    rw [if_pos]
    simp only [rectEqB, PtEq, ptDist_eucl, Bool.and_eq_true, decide_eq_true_eq]
    constructor <;> rw [eucl_lt_iff (by norm_num [stdR])] <;> norm_num [stdR]

/-- The full C29 is false: two rectangles that share a part of an edge; the walk leaves the table. -/
theorem C29_false : unionArea stdR ⟨(0, 1), (2, 2)⟩ ⟨(1, 0), (3, 1)⟩ = .ub := by
  have h := Rank.unionArea_mp Rank.stdR_thr Rank.emb_cast Rank.emb_cast (a := ⟨(0, 1), (2, 2)⟩) (b := ⟨(1, 0), (3, 1)⟩) ⟨by decide, by decide⟩ ⟨by decide, by decide⟩
    (res := .ub) (by decide +kernel) (by
      intro q l _ pts hp
      have : (if (0 : ℕ) < 1 then Rank.unionRaw ⟨(1, 0), (3, 1)⟩ ⟨(0, 1), (2, 2)⟩ else Rank.unionRaw ⟨(0, 1), (2, 2)⟩ ⟨(1, 0), (3, 1)⟩) = .ub := by decide +kernel
      rw [this] at hp
      simp at hp)
  simpa [Rank.mpR, Rank.mp, Rank.mapRes] using h

/-- The full C29 is false: two unit squares that touch by a corner; the polygon has a null area. -/
theorem C29_corner_false : ∃ pts, unionArea stdR ⟨(0, 0), (1, 1)⟩ ⟨(1, 1), (2, 2)⟩ = .ok pts ∧ freshArea (stdEnv stdR) true pts = .ok 0 := by
  have h := Rank.unionArea_mp Rank.stdR_thr Rank.emb_cast Rank.emb_cast (a := ⟨(0, 0), (1, 1)⟩) (b := ⟨(1, 1), (2, 2)⟩) ⟨by decide, by decide⟩ ⟨by decide, by decide⟩
    (res := .ok [(0, 0), (0, 1), (1, 1), (1, 2), (2, 2), (2, 1), (1, 1), (1, 0)]) (by decide +kernel) (by
      intro q l _ pts hp
      have : (if (0 : ℕ) < 1 then Rank.unionRaw ⟨(1, 1), (2, 2)⟩ ⟨(0, 0), (1, 1)⟩ else Rank.unionRaw ⟨(0, 0), (1, 1)⟩ ⟨(1, 1), (2, 2)⟩) =
        .ok [(0, 0), (0, 1), (1, 1), (1, 2), (2, 2), (2, 1), (1, 1), (1, 0)] := by decide +kernel
      rw [this] at hp
      simp only [Res.ok.injEq] at hp
      subst hp
      decide +kernel)
  refine ⟨[(0, 0), (0, 1), (1, 1), (1, 2), (2, 2), (2, 1), (1, 1), (1, 0)].map (Rank.mp (fun i => (i : ℝ)) (fun i => (i : ℝ))), by simpa [Rank.mpR, Rank.mp, Rank.mapRes] using h, ?_⟩
  exact Rank.freshArea_cross Rank.stdR_thr Rank.emb_cast Rank.emb_cast (by decide) (by decide +kernel) (by decide +kernel)

/-- The full C30 is false: for a small rectangle, IoU with itself throws. -/
theorem C30_false : ∃ a : FRect ℝ, FRect.ofPts stdR.nullOrthogDistance a.p1 a.p2 = .ok a ∧ rectIoU stdR a a = .throw := by
  refine ⟨⟨(0, 0), (1/10^11, 1/10^11)⟩, ?_, ?_⟩
  · simp only [FRect.ofPts, getCorrectPoints, shareCommonCoord, stdR]; norm_num
  · have he : rectEqB stdR ⟨(0, 0), (1/10^11, 1/10^11)⟩ ⟨(0, 0), (1/10^11, 1/10^11)⟩ = true := by
      simp only [rectEqB, PtEq, ptDist_eucl, Bool.and_eq_true, decide_eq_true_eq, eucl_self]
      norm_num [stdR]
    unfold rectIoU intersectArea unionArea
    rw [if_pos he, if_pos he]
    simp only [Res.bind_ok]
    have : freshSimple (stdEnv stdR) true (FRect.get4Pts (K := ℝ) ⟨(0, 0), (1/10^11, 1/10^11)⟩) = .throw := by
      unfold freshSimple
      rw [if_neg (by simp [FRect.get4Pts]), if_neg (by simp), if_pos]
      rw [List.any_eq_true]
      refine ⟨((0, 0), (0, 1/10^11)), by simp [segPairs, cycPairs, FRect.get4Pts], ?_⟩
      simp only [stdEnv, PtEq, ptDist_eucl, decide_eq_true_eq]
      rw [eucl_lt_iff (by norm_num [stdR])]; norm_num [stdR]
    unfold freshArea
    rw [this]
    rfl

end H2d.Props
