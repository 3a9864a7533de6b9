import Verif.Spec.Cycle
import Verif.Model.Inside
import Verif.Lemmas.Polyline
import Verif.Lemmas.PipModel
import Verif.Lemmas.Derived
import Verif.Props.BB
import Verif.Props.SegmentInter

/-! # Polygons read from another vertex or in the other direction -/

namespace H2d.Cycle
open H2d H2d.Spec H2d.Pip

theorem upTo_refl {α : Type} (x : Res (List α)) : UpToOrder x x := by
  cases x
  · exact List.Perm.refl _
  · trivial
  · trivial

theorem upTo_trans {α : Type} {x y z : Res (List α)} (h : UpToOrder x y) (h' : UpToOrder y z) : UpToOrder x z := by
  cases x <;> cases y <;> cases z <;> first | exact h.trans h' | trivial | exact h.elim | exact h'.elim

theorem upTo_bind {α β : Type} {x y : Res (List α)} {k k' : List α → Res (List β)} (h : UpToOrder x y) (hk : ∀ l l', x = .ok l → l.Perm l' → UpToOrder (k l) (k' l')) :
    UpToOrder (x >>= k) (y >>= k') := by
  cases x <;> cases y <;> first | exact hk _ _ rfl h | trivial | exact h.elim

theorem bind_upTo {α β : Type} {x y : Res (List α)} {k k' : List α → Res β} (h : UpToOrder x y) (hk : ∀ l l', x = .ok l → l.Perm l' → k l = k' l') : (x >>= k) = (y >>= k') := by
  cases x <;> cases y <;> first | exact hk _ _ rfl h | rfl | exact h.elim

/-! ### sides -/

theorem segMake_comm (t : Thr ℝ) (p q : Pt ℝ) : segMake t false p q = segMake t false q p := by
  unfold segMake
  rw [fixOrder_comm p q]
  have : PtEq t p q ↔ PtEq t q p := by
    unfold PtEq ptDist
    rw [show (p.1 - q.1) * (p.1 - q.1) + (p.2 - q.2) * (p.2 - q.2) = (q.1 - p.1) * (q.1 - p.1) + (q.2 - p.2) * (q.2 - p.2) by ring]
  exact if_congr this rfl rfl

theorem polySegs_swap (t : Thr ℝ) : ∀ l : List (Pt ℝ × Pt ℝ), polySegs t (l.map Prod.swap) = polySegs t l
  | [] => rfl
  | e :: l => by
    rw [List.map_cons, polySegs, polySegs, polySegs_swap t l]
    rw [show segMake t false e.swap.1 e.swap.2 = segMake t false e.1 e.2 from segMake_comm t _ _]

theorem polySegs_perm (t : Thr ℝ) {l l' : List (Pt ℝ × Pt ℝ)} (h : l.Perm l') : UpToOrder (polySegs t l) (polySegs t l') := by
  induction h with
  | nil => exact upTo_refl _
  | cons x _ ih =>
    rw [polySegs, polySegs]
    cases segMake t false x.1 x.2
    · exact upTo_bind ih fun l l' _ h => h.cons _
    · trivial
    · trivial
  | swap x y l =>
    simp only [polySegs]
    have hx := segMake_ne_ub t false x.1 x.2
    have hy := segMake_ne_ub t false y.1 y.2
    have hl := polySegs_ne_ub t l
    cases hx' : segMake t false x.1 x.2 <;> cases hy' : segMake t false y.1 y.2 <;> cases hl' : polySegs t l <;>
      first
      | exact absurd hx' hx
      | exact absurd hy' hy
      | exact absurd hl' hl
      | exact List.Perm.swap _ _ _
      | trivial
  | trans _ _ ih1 ih2 => exact upTo_trans ih1 ih2

theorem pairs_len {P : Type} (l : List P) (h : ¬ l.length < 2) : segPairs true l = cycPairs l := by
  unfold segPairs
  rw [if_neg h]
  simp

theorem pairs_rot {P : Type} (l : List P) (k : Nat) : (segPairs true (l.rotate k)).Perm (segPairs true l) := by
  by_cases h : l.length < 2
  · have : l.rotate k = l := by
      match l, h with
      | [], _ => simp
      | [a], _ => simp
    rw [this]
  · rw [pairs_len _ h, pairs_len _ (by rwa [List.length_rotate]), cycPairs_rotate]
    exact List.rotate_perm _ _

theorem segs_cycle (t : Thr ℝ) {l l' : List (Pt ℝ)} (h : SameCycle l l') : UpToOrder (polySegs t (segPairs true l)) (polySegs t (segPairs true l')) := by
  have rot : ∀ (l : List (Pt ℝ)) k, UpToOrder (polySegs t (segPairs true l)) (polySegs t (segPairs true (l.rotate k))) := fun l k => polySegs_perm t (pairs_rot l k).symm
  rcases h with ⟨k, rfl | rfl⟩
  · exact rot l k
  · refine upTo_trans ?_ (rot _ k)
    by_cases h : l.length < 2
    · have : l.reverse = l := by
        match l, h with
        | [], _ => rfl
        | [a], _ => rfl
      rw [this]
      exact upTo_refl _
    · rw [pairs_len _ h, pairs_len _ (by rwa [List.length_reverse]), ← polySegs_swap]
      exact polySegs_perm t (cycPairs_reverse_perm l).symm

theorem cycle_perm {P : Type} {l l' : List P} (h : SameCycle l l') : l.Perm l' := by
  rcases h with ⟨k, rfl | rfl⟩
  · exact (List.rotate_perm _ _).symm
  · exact (List.reverse_perm l).symm.trans (List.rotate_perm _ _).symm

/-! ### intersections -/

theorem concat_perm {α β : Type} {f : α → Res (List β)} (hf : ∀ a, f a ≠ .ub) {l l' : List α} (h : l.Perm l') : UpToOrder (concatRes f l) (concatRes f l') := by
  have hn : ∀ l, concatRes f l ≠ .ub := by
    intro l
    induction l with
    | nil => simp [concatRes]
    | cons a l ih => exact bind_ne_ub (hf a) fun _ => bind_ne_ub ih fun _ => by simp
  induction h with
  | nil => exact upTo_refl _
  | cons x _ ih =>
    rw [concatRes, concatRes]
    exact upTo_bind (upTo_refl (f x)) fun a a' _ ha => upTo_bind ih fun l l' _ h => ha.append h
  | swap x y l =>
    simp only [concatRes]
    have hx := hf x
    have hy := hf y
    have hl := hn l
    cases hx' : f x <;> cases hy' : f y <;> cases hl' : concatRes f l <;>
      first
      | exact absurd hx' hx
      | exact absurd hy' hy
      | exact absurd hl' hl
      | (simp only [Res.bind_ok, UpToOrder, Res.pure_eq]
         rw [← List.append_assoc, ← List.append_assoc]
         exact List.perm_append_comm.append_right _)
      | trivial
  | trans _ _ ih1 ih2 => exact upTo_trans ih1 ih2

theorem concat_congr {α β : Type} {f g : α → Res (List β)} (h : ∀ a, UpToOrder (f a) (g a)) : ∀ l, UpToOrder (concatRes f l) (concatRes g l)
  | [] => upTo_refl _
  | a :: l => by
    rw [concatRes, concatRes]
    exact upTo_bind (h a) fun x x' _ hx => upTo_bind (concat_congr h l) fun y y' _ hy => hx.append hy

theorem concat_ne_ub {α β : Type} {f : α → Res (List β)} (hf : ∀ a, f a ≠ .ub) : ∀ l, concatRes f l ≠ .ub
  | [] => by simp [concatRes]
  | a :: l => bind_ne_ub (hf a) fun _ => bind_ne_ub (concat_ne_ub hf l) fun _ => by simp

theorem segCirc_ne_ub (t : Thr ℝ) (s : Seg) (c : Pt ℝ) (r : ℝ) : segCircle t s c r ≠ .ub := by
  unfold segCircle
  dsimp only
  split_ifs
  · simp
  all_goals
    refine bind_ne_ub (segLine_ne_ub t s) fun l => ?_
    cases lineCircle l c r
    · simp
    · simp only
      try split_ifs
      all_goals simp

theorem interSeg_cycle (t : Thr ℝ) {l l' : List (Pt ℝ)} (h : SameCycle l l') (s : Seg) : UpToOrder (polyInterSeg t true l s) (polyInterSeg t true l' s) :=
  upTo_bind (segs_cycle t h) fun _ _ _ hp => concat_perm (fun e => bind_ne_ub (segInter_ne_ub t e s) fun _ => by simp) hp

theorem interLine_cycle (t : Thr ℝ) {l l' : List (Pt ℝ)} (h : SameCycle l l') (li : V3 ℝ) : UpToOrder (polyInterLine t true l li) (polyInterLine t true l' li) :=
  upTo_bind (segs_cycle t h) fun _ _ _ hp => concat_perm (fun e => bind_ne_ub (Axes.segLineInter_ne_ub t e li) fun _ => by simp) hp

theorem interCircle_cycle (t : Thr ℝ) {l l' : List (Pt ℝ)} (h : SameCycle l l') (c : Circle) : UpToOrder (polyInterCircle t true l c) (polyInterCircle t true l' c) :=
  upTo_bind (segs_cycle t h) fun _ _ _ hp => concat_perm (fun e => segCirc_ne_ub t e _ _) hp

theorem segsSegs_perm (t : Thr ℝ) {a a' b b' : List Seg} (ha : a.Perm a') (hb : b.Perm b') : UpToOrder (segsInterSegs t b a) (segsInterSegs t b' a') := by
  have hn : ∀ (b : List Seg) (e : Seg), segsInterSeg t e b ≠ .ub := fun b e => concat_ne_ub (fun x => bind_ne_ub (segInter_ne_ub t x e) fun _ => by simp) b
  refine upTo_trans (concat_perm (hn b) ha) (concat_congr (fun e => ?_) a')
  exact concat_perm (fun x => bind_ne_ub (segInter_ne_ub t x e) fun _ => by simp) hb

theorem interPoly_cycle (t : Thr ℝ) {l l' m m' : List (Pt ℝ)} (h : SameCycle l l') (closed' : Bool) (hm : UpToOrder (polySegs t (segPairs closed' m)) (polySegs t (segPairs closed' m'))) :
    UpToOrder (polyInterPoly t true l closed' m) (polyInterPoly t true l' closed' m') := by
  refine upTo_bind (segs_cycle t h) fun a a' _ ha => ?_
  cases a with
  | nil => rw [List.nil_perm.1 ha]; exact upTo_refl _
  | cons x a =>
    cases a' with
    | nil => exact absurd (List.perm_nil.1 ha) (by simp)
    | cons x' a' => exact upTo_bind hm fun b b' _ hb => segsSegs_perm t ha hb

/-! ### point inside -/

theorem polyBB_perm (t : Thr ℝ) {l l' : List (Pt ℝ)} (h : l.Perm l') : polyGetBB t l = polyGetBB t l' := by
  have key : ∀ l : List (Pt ℝ), polyGetBB t l = getBB_cont t l := by
    intro l
    unfold polyGetBB getBB_cont
    cases l with
    | nil => rfl
    | cons x l =>
      rw [if_neg (show ¬ (x :: l).isEmpty = true by simp)]
      refine if_congr Iff.rfl rfl ?_
      cases hb : getBB_Points t (x :: l) with
      | throw => rfl
      | ub => rfl
      | ok ab =>
        simp only [Res.bind_ok]
        split_ifs with hsh
        · unfold FRect.ofPts getCorrectPoints
          rw [if_pos hsh]
          rfl
        · rfl
  rw [key, key]
  exact Props.C31_perm t l l' h

theorem simple_cycle (t : Thr ℝ) {l l' : List (Pt ℝ)} (h : SameCycle l l') : isSimple (segInterB t) true l = isSimple (segInterB t) true l' := by
  rcases h with ⟨k, rfl | rfl⟩
  · rw [isSimple_rotate _ (Props.C22_interSymm t)]
  · rw [isSimple_rotate _ (Props.C22_interSymm t), isSimple_reverse _ (Props.C22_interSymm t)]

/-- The ends of the segments of a polyline are apart. -/
theorem segs_far {t : Thr ℝ} : ∀ {l : List (Pt ℝ × Pt ℝ)} {segs : List Seg}, polySegs t l = .ok segs → ∀ s ∈ segs, t.nullDistance ≤ eucl s.1 s.2
  | [], segs, h, s, hs => by cases h; cases hs
  | e :: l, segs, h, s, hs => by
    rw [polySegs] at h
    cases h1 : segMake t false e.1 e.2 with
    | throw => rw [h1] at h; cases h
    | ub => rw [h1] at h; cases h
    | ok a =>
      cases h2 : polySegs t l with
      | throw => rw [h1, h2] at h; cases h
      | ub => rw [h1, h2] at h; cases h
      | ok r =>
        rw [h1, h2] at h
        cases h
        rcases List.mem_cons.1 hs with rfl | hs
        · unfold segMake at h1
          by_cases hne : PtEq t e.1 e.2
          · rw [if_pos hne] at h1; cases h1
          · rw [if_neg hne] at h1
            have h1 : s = fixOrder e.1 e.2 := by cases h1; rfl
            rw [h1, Pip.eucl_fix, ← ptDist_eucl]
            exact not_lt.1 hne
        · exact segs_far h2 s hs

theorem segs_line {t : Thr ℝ} (ht : dblEps < t.nullDistance) {l : List (Pt ℝ × Pt ℝ)} {segs : List Seg} (h : polySegs t l = .ok segs) (s : Seg) (hs : s ∈ segs) : ∃ li, segLine t s = .ok li :=
  ⟨_, (segLine_spec ht (segs_far h s hs)).choose_spec.1⟩

theorem nearLine_iff {t : Thr ℝ} (p : Pt ℝ) : ∀ {l : List Seg}, (∀ s ∈ l, ∃ li, segLine t s = .ok li) →
    ∃ b, nearLine t p l = .ok b ∧ (b = true ↔ ∃ s ∈ l, ∃ li, segLine t s = .ok li ∧ lineDist li p < t.nullDistance)
  | [], _ => ⟨false, rfl, by simp⟩
  | s :: l, h => by
    obtain ⟨li, hli⟩ := h s (by simp)
    obtain ⟨b, hb, hb'⟩ := nearLine_iff p (l := l) fun s hs => h s (List.mem_cons_of_mem _ hs)
    rw [nearLine, hli, Res.bind_ok]
    by_cases hd : lineDist li p < t.nullDistance
    · rw [if_pos hd]
      exact ⟨true, rfl, by simp only [true_iff]; exact ⟨s, by simp, li, hli, hd⟩⟩
    · rw [if_neg hd]
      refine ⟨b, hb, hb'.trans ⟨fun ⟨s', h1, h2⟩ => ⟨s', List.mem_cons_of_mem _ h1, h2⟩, ?_⟩⟩
      rintro ⟨s', h1, li', h2, h3⟩
      rcases List.mem_cons.1 h1 with rfl | h1
      · rw [hli] at h2; cases h2; exact absurd h3 hd
      · exact ⟨s', h1, li', h2, h3⟩

theorem nearLine_perm {t : Thr ℝ} (p : Pt ℝ) {l l' : List Seg} (h : l.Perm l') (hl : ∀ s ∈ l, ∃ li, segLine t s = .ok li) : nearLine t p l = nearLine t p l' := by
  obtain ⟨b, hb, h1⟩ := nearLine_iff p hl
  obtain ⟨b', hb', h2⟩ := nearLine_iff p (l := l') fun s hs => hl s (h.mem_iff.2 hs)
  rw [hb, hb']
  congr 1
  rw [Bool.eq_iff_iff, h1, h2]
  simp only [h.mem_iff]

theorem pipCount_perm (t : Thr ℝ) (ref : Seg) {l l' : List Seg} (h : l.Perm l') : pipCount t ref l = pipCount t ref l' := by
  induction h with
  | nil => rfl
  | cons x _ ih => rw [pipCount, pipCount, ih]
  | swap x y l =>
    simp only [pipCount]
    have hx := segInter_ne_ub t x ref
    have hy := segInter_ne_ub t y ref
    have hl := pipCount_ne_ub t ref l
    cases hx' : segInter t x ref <;> cases hy' : segInter t y ref <;> cases hl' : pipCount t ref l <;>
      first
      | exact absurd hx' hx
      | exact absurd hy' hy
      | exact absurd hl' hl
      | (simp only [Res.bind_ok, Res.pure_eq]; rw [Nat.add_right_comm])
      | rfl
  | trans _ _ ih1 ih2 => exact ih1.trans ih2

theorem pipTry_perm (t : Thr ℝ) {pts pts' : List (Pt ℝ)} (hp : pts.Perm pts') {segs segs' : List Seg} (hs : segs.Perm segs') (p : Pt ℝ) : ∀ (l : List Seg) (b : Bool),
    pipTry t pts segs p l b = pipTry t pts' segs' p l b
  | [], _ => rfl
  | s :: l, b => by
    have ha : ∀ f : Pt ℝ → Bool, pts.any f = pts'.any f := fun f => by
      rw [Bool.eq_iff_iff, List.any_eq_true, List.any_eq_true]
      simp only [hp.mem_iff]
    rw [pipTry, pipTry]
    simp only [ha, pipCount_perm t _ hs, pipTry_perm t hp hs p l]

theorem pipLoop_perm (t : Thr ℝ) {pts pts' : List (Pt ℝ)} (hp : pts.Perm pts') {segs segs' : List Seg} (hs : segs.Perm segs') (p : Pt ℝ) : ∀ (n : Nat) (l : List Seg),
    pipLoop t pts segs p n l = pipLoop t pts' segs' p n l
  | 0, _ => rfl
  | n + 1, l => by
    rw [pipLoop, pipLoop, pipTry_perm t hp hs]
    simp only [pipLoop_perm t hp hs p n]

theorem inside_cycle {t : Thr ℝ} (ht : dblEps < t.nullDistance) {l l' : List (Pt ℝ)} (h : SameCycle l l') (p : Pt ℝ) : ptInsidePoly t true l p = ptInsidePoly t true l' p := by
  unfold ptInsidePoly
  rw [simple_cycle t h, polyBB_perm t (cycle_perm h)]
  refine if_congr Iff.rfl rfl ?_
  cases polyGetBB t l' with
  | throw => rfl
  | ub => rfl
  | ok box =>
    simp only [Res.bind_ok]
    refine if_congr Iff.rfl rfl ?_
    refine bind_upTo (segs_cycle t h) fun a a' ha hp => ?_
    rw [nearLine_perm p hp (segs_line ht ha)]
    simp only [pipLoop_perm t (cycle_perm h) hp]

theorem allRes_congr {α : Type} {f g : α → Res Bool} (h : ∀ a, f a = g a) (l : List α) : allRes f l = allRes g l := by rw [funext h]

theorem allRes_perm {α : Type} {f : α → Res Bool} {l l' : List α} (h : l.Perm l') (hf : ∀ a ∈ l, ∃ b, f a = .ok b) : allRes f l = allRes f l' := by
  have key : ∀ l : List α, (∀ a ∈ l, ∃ b, f a = .ok b) → ∃ b, allRes f l = .ok b ∧ (b = true ↔ ∀ a ∈ l, f a = .ok true) := by
    intro l
    induction l with
    | nil => exact fun _ => ⟨true, rfl, by simp⟩
    | cons a l ih =>
      intro h
      obtain ⟨b, hb⟩ := h a (by simp)
      obtain ⟨c, hc, hc'⟩ := ih fun a ha => h a (List.mem_cons_of_mem _ ha)
      rw [allRes, hb, Res.bind_ok]
      cases b
      · exact ⟨false, rfl, by simp [hb]⟩
      · exact ⟨c, hc, by rw [hc']; simp [hb]⟩
  obtain ⟨b, hb, h1⟩ := key l hf
  obtain ⟨b', hb', h2⟩ := key l' fun a ha => hf a (h.mem_iff.2 ha)
  rw [hb, hb']
  congr 1
  rw [Bool.eq_iff_iff, h1, h2]
  simp only [h.mem_iff]

theorem isEmpty_perm {α : Type} {l l' : List α} (h : l.Perm l') : l.isEmpty = l'.isEmpty := by
  rw [Bool.eq_iff_iff, List.isEmpty_iff, List.isEmpty_iff]
  constructor
  · rintro rfl; exact List.nil_perm.1 h
  · rintro rfl; exact List.perm_nil.1 h

theorem segInPoly_cycle {t : Thr ℝ} (ht : dblEps < t.nullDistance) {l l' : List (Pt ℝ)} (h : SameCycle l l') {s : Seg} (hs : t.nullDistance ≤ eucl s.1 s.2) : segInPoly t l s = segInPoly t l' s := by
  unfold segInPoly
  rw [allRes_congr (inside_cycle ht h)]
  cases allRes (ptInsidePoly t true l') [s.1, s.2] with
  | throw => rfl
  | ub => rfl
  | ok b =>
    simp only [Res.bind_ok]
    refine if_congr Iff.rfl ?_ rfl
    refine bind_upTo (segs_cycle t h) fun a a' ha hp => allRes_perm hp fun e he => ?_
    obtain ⟨o, ho⟩ := Pip.segInter_ok ht (segs_far ha e he) hs
    exact ⟨o.isNone, by rw [ho]; rfl⟩

theorem rectInPoly_cycle {t : Thr ℝ} (ht : dblEps < t.nullDistance) {l l' : List (Pt ℝ)} (h : SameCycle l l') (r : FRect ℝ) : rectInPoly t r l = rectInPoly t r l' := by
  unfold rectInPoly
  rw [allRes_congr (inside_cycle ht h)]
  rw [funext fun s => bind_upTo (k := fun i => (pure i.isEmpty : Res Bool)) (k' := fun i => pure i.isEmpty) (interSeg_cycle t h s) fun a b _ hp => by rw [isEmpty_perm hp]]

theorem inner_cycle (t : Thr ℝ) {l l' : List (Pt ℝ)} (h : SameCycle l l') (outer : List (Pt ℝ)) (hok : ∀ p ∈ l, ∃ b, ptInsidePoly t true outer p = .ok b) : polyInPoly t true l outer = polyInPoly t true l' outer := by
  unfold polyInPoly
  rw [isEmpty_perm (cycle_perm h), allRes_perm (cycle_perm h) hok]
  refine if_congr Iff.rfl rfl ?_
  cases allRes (ptInsidePoly t true outer) l' with
  | throw => rfl
  | ub => rfl
  | ok b =>
    simp only [Res.bind_ok]
    exact if_congr Iff.rfl (bind_upTo (interPoly_cycle t h true (upTo_refl _)) fun a b _ hp => by rw [isEmpty_perm hp]) rfl

theorem inShape_cycle (t : Thr ℝ) {l l' : List (Pt ℝ)} (h : SameCycle l l') (sh : Shape) (hok : ∀ p ∈ l, ∃ b, ptInShape t sh p = .ok b) : polyInShape t l sh = polyInShape t l' sh := by
  unfold polyInShape
  rw [isEmpty_perm (cycle_perm h), allRes_perm (cycle_perm h) hok]

/-- Whether something is inside the polygon: outer polygon read otherwise. -/
theorem polyInPoly_cycle {t : Thr ℝ} (ht : dblEps < t.nullDistance) {l l' : List (Pt ℝ)} (h : SameCycle l l') (pts : List (Pt ℝ)) (closed : Bool) :
    polyInPoly t closed pts l = polyInPoly t closed pts l' := by
  unfold polyInPoly
  refine if_congr Iff.rfl rfl ?_
  rw [allRes_congr (inside_cycle ht h)]
  cases allRes (ptInsidePoly t true l') pts with
  | throw => rfl
  | ub => rfl
  | ok b =>
    simp only [Res.bind_ok]
    refine if_congr Iff.rfl ?_ rfl
    have hu : UpToOrder (polyInterPoly t closed pts true l) (polyInterPoly t closed pts true l') := by
      unfold polyInterPoly
      refine upTo_bind (upTo_refl _) fun a a' _ ha => ?_
      cases a with
      | nil => rw [List.nil_perm.1 ha]; exact upTo_refl _
      | cons x a =>
        cases a' with
        | nil => exact absurd (List.perm_nil.1 ha) (by simp)
        | cons x' a' => exact upTo_bind (segs_cycle t h) fun b b' _ hb => segsSegs_perm t ha hb
    exact bind_upTo hu fun x x' _ hx => by rw [isEmpty_perm hx]

/-! ### circle inside -/

theorem segs_ok {t : Thr ℝ} : ∀ {l : List (Pt ℝ × Pt ℝ)}, (∀ e ∈ l, t.nullDistance ≤ eucl e.1 e.2) → polySegs t l = .ok (l.map fun e => fixOrder e.1 e.2)
  | [], _ => rfl
  | e :: l, H => by
    have h : ¬ PtEq t e.1 e.2 := not_lt.2 (by rw [ptDist_eucl]; exact H e (by simp))
    rw [polySegs, segMake, if_neg h, segs_ok fun e he => H e (List.mem_cons_of_mem _ he)]
    rfl

theorem concat_nil {α β : Type} {f : α → Res (List β)} : ∀ {l : List α}, (∀ a ∈ l, ∃ r, f a = .ok r) → ∃ r, concatRes f l = .ok r ∧ (r = [] → ∀ a ∈ l, f a = .ok [])
  | [], _ => ⟨[], rfl, by simp⟩
  | a :: l, h => by
    obtain ⟨r, hr⟩ := h a (by simp)
    obtain ⟨r', hr', hn⟩ := concat_nil (l := l) fun a ha => h a (List.mem_cons_of_mem _ ha)
    refine ⟨r ++ r', by rw [concatRes, hr, hr']; rfl, fun he => ?_⟩
    obtain ⟨h1, h2⟩ := List.append_eq_nil_iff.1 he
    intro b hb
    rcases List.mem_cons.1 hb with rfl | hb
    · rw [hr, h1]
    · exact hn h2 b hb

/-- A side with one end in the circle and the other one not in it meets the circle. -/
theorem side_circle {t : Thr ℝ} (ht : dblEps < t.nullDistance) {s : Seg} (hs : GoodSeg t s) (c : Pt ℝ) (r : ℝ) :
    ∃ res, segCircle t s c r = .ok res ∧ (res = [] → (ptDist s.1 c < r ↔ ptDist s.2 c < r)) := by
  obtain ⟨li, hli, hn, -, hon⟩ := segLine_spec ht hs.1
  obtain ⟨o1, o2⟩ := hon hs.2
  have hP : Proper li := by
    have : li 0 ^ 2 + li 1 ^ 2 = 1 := hn.1
    unfold Proper
    rw [this]
    exact one_ne_zero
  have hsome : ∀ q, On li q → ptDist q c < r → ∃ x, lineCircle li c r = some x := by
    intro q hq hd
    have h1 := lineDist_le hP c q hq
    rw [eucl_comm, ← ptDist_eucl] at h1
    unfold lineCircle
    dsimp only
    rw [if_neg]
    · exact ⟨_, rfl⟩
    · have : |c.1 * li 0 + c.2 * li 1 + li 2| / Real.sqrt (li 0 * li 0 + li 1 * li 1) = lineDist li c := by
        unfold lineDist
        rw [mul_comm c.1, mul_comm c.2]
      rw [this]
      linarith
  unfold segCircle
  dsimp only
  have tin : ∀ q, ptLabel t q c r = .inside ↔ ptDist q c < r := by
    intro q
    unfold ptLabel
    split_ifs <;> simp_all
  by_cases hb : ptLabel t s.1 c r = .inside ∧ ptLabel t s.2 c r = .inside
  · rw [if_pos hb]
    exact ⟨[], rfl, fun _ => by rw [← tin, ← tin, hb.1, hb.2]⟩
  · rw [if_neg hb, hli, Res.bind_ok]
    cases hc : lineCircle li c r with
    | none =>
      refine ⟨[], rfl, fun _ => ⟨fun h => ?_, fun h => ?_⟩⟩
      · obtain ⟨x, hx⟩ := hsome _ o1 h; rw [hc] at hx; cases hx
      · obtain ⟨x, hx⟩ := hsome _ o2 h; rw [hc] at hx; cases hx
    | some x =>
      simp only [Res.pure_eq]
      rw [← tin, ← tin]
      rcases h1 : ptLabel t s.1 c r <;> rcases h2 : ptLabel t s.2 c r <;> simp [h1, h2] at hb ⊢ <;> split_ifs <;> simp

theorem chain {P : Type} {Q : P → Prop} : ∀ {a : P} {l : List P}, (∀ e ∈ openPairs (a :: l), Q e.1 ↔ Q e.2) → ∀ w ∈ l, Q a ↔ Q w
  | _, [], _, w, hw => by cases hw
  | a, b :: l, h, w, hw => by
    have hab : Q a ↔ Q b := h (a, b) (by simp [openPairs])
    rcases List.mem_cons.1 hw with rfl | hw
    · exact hab
    · refine hab.trans (chain (fun e he => h e ?_) w hw)
      have : openPairs (a :: b :: l) = (a, b) :: openPairs (b :: l) := rfl
      rw [this]
      exact List.mem_cons_of_mem _ he

theorem circ_same {t : Thr ℝ} (ht : dblEps < t.nullDistance) {pts : List (Pt ℝ)} (hg : ∀ e ∈ cycPairs pts, GoodSeg t e) (hl : ¬ pts.length < 2) (c : Circle) :
    ∃ r, polyInterCircle t true pts c = .ok r ∧ (r = [] → ∀ v ∈ pts, ∀ w ∈ pts, (PtInCircle v c ↔ PtInCircle w c)) := by
  unfold polyInterCircle
  rw [pairs_len _ hl, segs_ok fun e he => (hg e he).1, Res.bind_ok]
  have hside : ∀ e ∈ cycPairs pts, GoodSeg t (fixOrder e.1 e.2) := fun e he => ⟨by rw [Pip.eucl_fix]; exact (hg e he).1, Pip.goodSlope_fix (hg e he).2⟩
  obtain ⟨r, hr, hn⟩ := concat_nil (f := fun e => segCircle t e c.center c.radius) (l := (cycPairs pts).map fun e => fixOrder e.1 e.2) (by
    intro a ha
    obtain ⟨e, he, rfl⟩ := List.mem_map.1 ha
    obtain ⟨res, h, -⟩ := side_circle ht (hside e he) c.center c.radius
    exact ⟨res, h⟩)
  refine ⟨r, hr, fun h0 => ?_⟩
  have hs : ∀ e ∈ cycPairs pts, (PtInCircle e.1 c ↔ PtInCircle e.2 c) := by
    intro e he
    obtain ⟨res, h, hi⟩ := side_circle ht (hside e he) c.center c.radius
    have h2 := hn h0 _ (List.mem_map.2 ⟨e, he, rfl⟩)
    rw [h] at h2
    have := hi (by cases h2; rfl)
    unfold fixOrder at this
    split_ifs at this
    · exact this.symm
    · exact this
  cases pts with
  | nil => simp
  | cons a l =>
    rw [cycPairs_cons] at hs
    have hc := chain (Q := fun p => PtInCircle p c) (a := a) (l := l ++ [a]) hs
    have ha : ∀ w ∈ a :: l, (PtInCircle a c ↔ PtInCircle w c) := fun w hw => hc w (by simp only [List.mem_append, List.mem_singleton]; rcases List.mem_cons.1 hw with h | h; exact .inr h; exact .inl h)
    exact fun v hv w hw => (ha v hv).symm.trans (ha w hw)

theorem circInPoly_cycle {t : Thr ℝ} (ht : dblEps < t.nullDistance) {l l' : List (Pt ℝ)} (h : SameCycle l l') (hg : ∀ e ∈ cycPairs l, GoodSeg t e) (hl : ¬ l.length < 2) (c : Circle)
    (hok : ∃ b, ptInsidePoly t true l c.center = .ok b) : circInPoly t true l c = circInPoly t true l' c := by
  obtain ⟨b, hb⟩ := hok
  obtain ⟨r, hr, hn⟩ := circ_same ht hg hl c
  have hu := interCircle_cycle t h c
  have hp := cycle_perm h
  cases l with
  | nil => exact absurd (by simp) hl
  | cons v m =>
    cases l' with
    | nil => exact absurd (List.perm_nil.1 hp) (by simp)
    | cons v' m' =>
      have hv : v ∈ v :: m := by simp
      have hv' : v' ∈ v :: m := hp.mem_iff.2 (by simp)
      unfold circInPoly
      rw [simple_cycle t h]
      refine if_congr Iff.rfl rfl ?_
      simp only
      rw [← inside_cycle ht h, hb]
      rw [hr] at hu
      cases hr' : polyInterCircle t true (v' :: m') c with
      | throw => rw [hr'] at hu; exact hu.elim
      | ub => rw [hr'] at hu; exact hu.elim
      | ok r' =>
        rw [hr'] at hu
        rw [hr]
        simp only [Res.bind_ok, Res.pure_eq]
        rw [← isEmpty_perm hu]
        cases b
        · simp
        · cases r with
          | nil =>
            have := hn rfl v hv v' hv'
            exact if_congr this rfl rfl
          | cons x r => simp

end H2d.Cycle
