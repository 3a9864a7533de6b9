import Verif.Lemmas.Cycle
import Verif.Lemmas.FloatSafe
import Verif.Lemmas.FloatPipModel
import Verif.Lemmas.FloatSimple
import Verif.Model.FloatInside
import Verif.Model.FloatSegLine
import Verif.Model.FloatPolyCirc
import Verif.Props.FloatLine

/-! # Polygons read from another vertex or in the other direction, with rounded operations -/

namespace H2d.Cycle
open H2d H2d.Spec

variable {F : Arith} {u v : ℝ}

theorem fsegMake_comm (h : FlOk F u v) (t : Thr ℝ) (p q : Pt ℝ) : Fl.segMake F t p q = Fl.segMake F t q p := by
  unfold Fl.segMake
  rw [fixOrder_comm p q]
  exact if_congr (by unfold Fl.PtSame; rw [Fl.distPt_comm h]) rfl rfl

theorem fpolySegs_swap (h : FlOk F u v) (t : Thr ℝ) : ∀ l : List (Pt ℝ × Pt ℝ), Fl.polySegs F t (l.map Prod.swap) = Fl.polySegs F t l
  | [] => rfl
  | e :: l => by
    rw [List.map_cons, Fl.polySegs, Fl.polySegs, fpolySegs_swap h t l]
    rw [show Fl.segMake F t e.swap.1 e.swap.2 = Fl.segMake F t e.1 e.2 from fsegMake_comm h t _ _]

theorem fpolySegs_perm (t : Thr ℝ) {l l' : List (Pt ℝ × Pt ℝ)} (h : l.Perm l') : UpToOrder (Fl.polySegs F t l) (Fl.polySegs F t l') := by
  induction h with
  | nil => exact upTo_refl _
  | cons x _ ih =>
    rw [Fl.polySegs, Fl.polySegs]
    cases Fl.segMake F t x.1 x.2
    · exact upTo_bind ih fun l l' _ h => h.cons _
    · trivial
    · trivial
  | swap x y l =>
    simp only [Fl.polySegs]
    have hx := Fl.segMake_safe F t x.1 x.2
    have hy := Fl.segMake_safe F t y.1 y.2
    have hl := Fl.polySegs_safe F t l
    cases hx' : Fl.segMake F t x.1 x.2 <;> cases hy' : Fl.segMake F t y.1 y.2 <;> cases hl' : Fl.polySegs F t l <;>
      first
      | exact absurd hx' hx
      | exact absurd hy' hy
      | exact absurd hl' hl
      | exact List.Perm.swap _ _ _
      | trivial
  | trans _ _ ih1 ih2 => exact upTo_trans ih1 ih2

theorem fsegs_cycle (hF : FlOk F u v) (t : Thr ℝ) {l l' : List (Pt ℝ)} (h : SameCycle l l') : UpToOrder (Fl.polySegs F t (segPairs true l)) (Fl.polySegs F t (segPairs true l')) := by
  have rot : ∀ (l : List (Pt ℝ)) k, UpToOrder (Fl.polySegs F t (segPairs true l)) (Fl.polySegs F t (segPairs true (l.rotate k))) := fun l k => fpolySegs_perm t (pairs_rot l k).symm
  rcases h with ⟨k, rfl | rfl⟩
  · exact rot l k
  · refine upTo_trans ?_ (rot _ k)
    by_cases h : l.length < 2
    · have : l.reverse = l := by
        match l, h with
        | [], _ => rfl
        | [a], _ => rfl
      rw [this]
      exact upTo_refl _
    · rw [pairs_len _ h, pairs_len _ (by rwa [List.length_reverse]), ← fpolySegs_swap hF]
      exact fpolySegs_perm t (cycPairs_reverse_perm l).symm

theorem finterSeg_cycle (hF : FlOk F u v) (t : Thr ℝ) (ac : ℝ → ℝ) {l l' : List (Pt ℝ)} (h : SameCycle l l') (s : Seg) : UpToOrder (Fl.polyInterSeg F t ac true l s) (Fl.polyInterSeg F t ac true l' s) :=
  upTo_bind (fsegs_cycle hF t h) fun _ _ _ hp => concat_perm (fun e => Pip.bind_ne_ub (Fl.segInter_safe F t ac e s) fun _ => by simp) hp

theorem fsegLine_safe (t : Thr ℝ) (ac : ℝ → ℝ) (s : Seg) (li : V3 ℝ) : Fl.segLineInter F t ac s li ≠ .ub := by
  unfold Fl.segLineInter
  refine Pip.bind_ne_ub (Fl.lineOfPts_safe F t _ _) fun m => ?_
  split_ifs
  · simp
  · refine Pip.bind_ne_ub (Fl.lineInter_safe F t ac _ _) fun o => ?_
    cases o
    · simp
    · simp only
      split_ifs <;> simp

theorem finterLine_cycle (hF : FlOk F u v) (t : Thr ℝ) (ac : ℝ → ℝ) {l l' : List (Pt ℝ)} (h : SameCycle l l') (li : V3 ℝ) : UpToOrder (Fl.polyInterLine F t ac true l li) (Fl.polyInterLine F t ac true l' li) :=
  upTo_bind (fsegs_cycle hF t h) fun _ _ _ hp => concat_perm (fun e => Pip.bind_ne_ub (fsegLine_safe t ac e li) fun _ => by simp) hp

theorem fsegsSegs_perm (t : Thr ℝ) (ac : ℝ → ℝ) {a a' b b' : List Seg} (ha : a.Perm a') (hb : b.Perm b') : UpToOrder (Fl.segsInterSegs F t ac b a) (Fl.segsInterSegs F t ac b' a') := by
  have hn : ∀ (b : List Seg) (e : Seg), Fl.segsInterSeg F t ac e b ≠ .ub := fun b e => concat_ne_ub (fun x => Pip.bind_ne_ub (Fl.segInter_safe F t ac x e) fun _ => by simp) b
  refine upTo_trans (concat_perm (hn b) ha) (concat_congr (fun e => ?_) a')
  exact concat_perm (fun x => Pip.bind_ne_ub (Fl.segInter_safe F t ac x e) fun _ => by simp) hb

theorem finterPoly_cycle (t : Thr ℝ) (ac : ℝ → ℝ) {l l' m m' : List (Pt ℝ)} {closed closed' : Bool} (hl : UpToOrder (Fl.polySegs F t (segPairs closed l)) (Fl.polySegs F t (segPairs closed l')))
    (hm : UpToOrder (Fl.polySegs F t (segPairs closed' m)) (Fl.polySegs F t (segPairs closed' m'))) :
    UpToOrder (Fl.polyInterPoly F t ac closed l closed' m) (Fl.polyInterPoly F t ac closed l' closed' m') := by
  refine upTo_bind hl fun a a' _ ha => ?_
  cases a with
  | nil => rw [List.nil_perm.1 ha]; exact upTo_refl _
  | cons x a =>
    cases a' with
    | nil => exact absurd (List.perm_nil.1 ha) (by simp)
    | cons x' a' => exact upTo_bind hm fun b b' _ hb => fsegsSegs_perm t ac ha hb

/-! ### edges of a rotated or reversed list -/

theorem edge_lt {P : Type} {pts : List P} {i : ℕ} {e : P × P} (h : Edge pts i e) : i < pts.length := by
  by_contra hc
  have := h.1
  rw [List.getElem?_eq_none (by omega)] at this
  cases this

theorem edge_rot {P : Type} {pts : List P} {k i : ℕ} {e : P × P} (h : Edge (pts.rotate k) i e) : Edge pts ((i + k) % pts.length) e := by
  have hi := edge_lt h
  rw [List.length_rotate] at hi
  have hn : 0 < pts.length := by omega
  obtain ⟨h1, h2⟩ := h
  rw [List.length_rotate] at h2
  rw [List.getElem?_rotate hi] at h1
  rw [List.getElem?_rotate (Nat.mod_lt _ hn)] at h2
  refine ⟨h1, ?_⟩
  rw [← h2]
  congr 1
  rw [Nat.mod_add_mod, Nat.mod_add_mod]
  congr 1
  omega

theorem edge_rev {P : Type} {pts : List P} {i : ℕ} {e : P × P} (h : Edge pts.reverse i e) : Edge pts (pts.length - 1 - (i + 1) % pts.length) e.swap := by
  have hi := edge_lt h
  rw [List.length_reverse] at hi
  have hn : 0 < pts.length := by omega
  have hm := Nat.mod_lt (i + 1) hn
  obtain ⟨h1, h2⟩ := h
  rw [List.length_reverse] at h2
  rw [List.getElem?_reverse hi] at h1
  rw [List.getElem?_reverse hm] at h2
  refine ⟨h2, ?_⟩
  rw [Prod.snd_swap, ← h1]
  congr 1
  by_cases hc : i + 1 < pts.length
  · rw [Nat.mod_eq_of_lt hc, Nat.mod_eq_of_lt (by omega)]; omega
  · have : i + 1 = pts.length := by omega
    rw [this, Nat.mod_self, Nat.sub_zero, Nat.sub_add_cancel hn, Nat.mod_self]; omega

theorem mod_cancel {n a b k : ℕ} (ha : a < n) (hb : b < n) (h : (a + k) % n = (b + k) % n) : a = b := by
  have : a ≡ b [MOD n] := Nat.ModEq.add_right_cancel' k h
  rwa [Nat.ModEq, Nat.mod_eq_of_lt ha, Nat.mod_eq_of_lt hb] at this

theorem nn_rot {n i j k : ℕ} (hi : i < n) (hj : j < n) (h : NotNeighbours n i j) : NotNeighbours n ((i + k) % n) ((j + k) % n) := by
  have hn : 0 < n := by omega
  have key : ∀ a, ((a + k) % n + 1) % n = ((a + 1) % n + k) % n := by
    intro a
    rw [Nat.mod_add_mod, Nat.mod_add_mod]
    congr 1
    omega
  refine ⟨fun e => h.1 (mod_cancel hi hj e), fun e => ?_, fun e => ?_⟩
  · rw [key] at e; exact h.2.1 (mod_cancel (Nat.mod_lt _ hn) hj e)
  · rw [key] at e; exact h.2.2 (mod_cancel (Nat.mod_lt _ hn) hi e)

theorem nn_rev {n i j : ℕ} (hi : i < n) (hj : j < n) (h : NotNeighbours n i j) : NotNeighbours n (n - 1 - (i + 1) % n) (n - 1 - (j + 1) % n) := by
  have hn : 0 < n := by omega
  have succ : ∀ a, a < n → (a + 1) % n = if a + 1 = n then 0 else a + 1 := by
    intro a ha
    split_ifs with hc
    · rw [hc, Nat.mod_self]
    · exact Nat.mod_eq_of_lt (by omega)
  obtain ⟨h1, h2, h3⟩ := h
  rw [succ i hi] at h2
  rw [succ j hj] at h3
  rw [succ i hi, succ j hj]
  have hi' : n - 1 - (if i + 1 = n then 0 else i + 1) < n := by omega
  have hj' : n - 1 - (if j + 1 = n then 0 else j + 1) < n := by omega
  unfold NotNeighbours
  rw [succ _ hi', succ _ hj']
  split_ifs at * <;> omega

/-! ### simple polygons -/

/-- No two edges without common vertex are said to meet. -/
def NoMeet (F : Arith) (t : Thr ℝ) (ac : ℝ → ℝ) (pts : List (Pt ℝ)) : Prop :=
  ∀ i j e e', Edge pts i e → Edge pts j e' → NotNeighbours pts.length i j → Fl.answerF F t ac e e' = none

theorem answerF_swap (t : Thr ℝ) (ac : ℝ → ℝ) (e e' : Seg) : Fl.answerF F t ac e.swap e'.swap = Fl.answerF F t ac e e' := by
  unfold Fl.answerF
  rw [show fixOrder e.swap.1 e.swap.2 = fixOrder e.1 e.2 from fixOrder_comm _ _, show fixOrder e'.swap.1 e'.swap.2 = fixOrder e'.1 e'.2 from fixOrder_comm _ _]

theorem noMeet_rot {t : Thr ℝ} {ac : ℝ → ℝ} {pts : List (Pt ℝ)} (h : NoMeet F t ac pts) (k : ℕ) : NoMeet F t ac (pts.rotate k) := by
  intro i j e e' he he' hn
  have hi := edge_lt he
  have hj := edge_lt he'
  rw [List.length_rotate] at hn hi hj
  exact h _ _ _ _ (edge_rot he) (edge_rot he') (nn_rot hi hj hn)

theorem noMeet_rev {t : Thr ℝ} {ac : ℝ → ℝ} {pts : List (Pt ℝ)} (h : NoMeet F t ac pts) : NoMeet F t ac pts.reverse := by
  intro i j e e' he he' hn
  have hi := edge_lt he
  have hj := edge_lt he'
  rw [List.length_reverse] at hn hi hj
  rw [← answerF_swap]
  exact h _ _ _ _ (edge_rev he) (edge_rev he') (nn_rev hi hj hn)

theorem cycle_symm {P : Type} {l l' : List P} (h : SameCycle l l') : SameCycle l' l := by
  rcases h with ⟨k, rfl | rfl⟩
  · obtain ⟨m, hm⟩ := (List.IsRotated.symm ⟨k, rfl⟩ : (l.rotate k).IsRotated l)
    exact ⟨m, .inl hm.symm⟩
  · have : ((l.reverse.rotate k).reverse).IsRotated l := by
      have := (List.IsRotated.symm ⟨k, rfl⟩ : (l.reverse.rotate k).IsRotated l.reverse).reverse
      rwa [List.reverse_reverse] at this
    obtain ⟨m, hm⟩ := this
    exact ⟨m, .inr hm.symm⟩

theorem noMeet_cycle {t : Thr ℝ} {ac : ℝ → ℝ} {l l' : List (Pt ℝ)} (h : SameCycle l l') (hm : NoMeet F t ac l) : NoMeet F t ac l' := by
  rcases h with ⟨k, rfl | rfl⟩
  · exact noMeet_rot hm k
  · exact noMeet_rot (noMeet_rev hm) k

theorem edgesOk_cycle {t : Thr ℝ} {Λ : ℝ} {l l' : List (Pt ℝ)} (h : SameCycle l l') (hm : EdgesOk F t Λ l) : EdgesOk F t Λ l' := by
  have rot : ∀ l : List (Pt ℝ), EdgesOk F t Λ l → ∀ k, EdgesOk F t Λ (l.rotate k) := fun l hm k =>
    ⟨fun p hp => hm.1 p (List.mem_rotate.1 hp), fun i e he => hm.2 _ _ (edge_rot he)⟩
  rcases h with ⟨k, rfl | rfl⟩
  · exact rot l hm k
  · refine rot _ ⟨fun p hp => hm.1 p (List.mem_reverse.1 hp), fun i e he => ?_⟩ k
    have := hm.2 _ _ (edge_rev he)
    rwa [Prod.fst_swap, Prod.snd_swap, eucl_comm] at this

theorem fsimple_cycle (hF : FlOk F u v) {t : Thr ℝ} (ht : 2 * dblEps ≤ t.nullDistance) (ac : ℝ → ℝ) {Λ : ℝ} {l l' : List (Pt ℝ)} (h : SameCycle l l') (hp : EdgesOk F t Λ l) :
    Fl.simpleF F t ac true l = Fl.simpleF F t ac true l' := by
  obtain ⟨b, hb, hb'⟩ := Fl.simpleF_eq hF ht ac hp true
  obtain ⟨c, hc, hc'⟩ := Fl.simpleF_eq hF ht ac (edgesOk_cycle h hp) true
  rw [hb, hc]
  congr 1
  rw [Bool.eq_iff_iff, hb', hc']
  have : NoMeet F t ac l ↔ NoMeet F t ac l' := ⟨noMeet_cycle h, noMeet_cycle (cycle_symm h)⟩
  exact and_congr (by rw [(cycle_perm h).length_eq]) (and_congr Iff.rfl this)

/-! ### inside -/

theorem fBB_perm (t : Thr ℝ) {l l' : List (Pt ℝ)} (h : l.Perm l') : Fl.polyGetBB F t l = Fl.polyGetBB F t l' := by
  by_cases hl : l.length < 2
  · rw [Fl.polyGetBB.eq_def, Fl.polyGetBB.eq_def, if_pos hl, if_pos (by rwa [← h.length_eq])]
  · obtain ⟨lo, hi, hT, -⟩ := getBB_Points_eq t l (by rintro rfl; simp at hl)
    have hT' : IsTightBox (fun q => q ∈ l') lo hi := by simpa only [h.mem_iff] using hT
    rw [Fl.polyGetBB_form t (by omega) hT, Fl.polyGetBB_form t (by rw [← h.length_eq]; omega) hT']

theorem fnear_perm {t : Thr ℝ} (p : Pt ℝ) {l l' : List Seg} (h : l.Perm l') (hl : ∀ s ∈ l, ∃ li, Fl.lineOfPts F t s.1 s.2 = .ok li) : Fl.nearLine F t p l = Fl.nearLine F t p l' := by
  rcases Fl.nearLine_cases (p := p) hl with ⟨e, h1⟩ | ⟨e, s, hs, li, h1, h2⟩ <;> rcases Fl.nearLine_cases (p := p) (l := l') (fun s hs => hl s (h.mem_iff.2 hs)) with ⟨e', h1'⟩ | ⟨e', s', hs', li', h1', h2'⟩
  · rw [e, e']
  · exact absurd h2' (not_lt.2 (h1 s' (h.mem_iff.2 hs') li' h1'))
  · exact absurd h2 (not_lt.2 (h1' s (h.mem_iff.1 hs) li h1))
  · rw [e, e']

theorem fcount_perm (t : Thr ℝ) (ac : ℝ → ℝ) (ref : Seg) {l l' : List Seg} (h : l.Perm l') : Fl.pipCount F t ac ref l = Fl.pipCount F t ac ref l' := by
  induction h with
  | nil => rfl
  | cons x _ ih => rw [Fl.pipCount, Fl.pipCount, ih]
  | swap x y l =>
    simp only [Fl.pipCount]
    have hx := Fl.segInter_safe F t ac x ref
    have hy := Fl.segInter_safe F t ac y ref
    have hl := Fl.pipCount_safe F t ac ref l
    cases hx' : Fl.segInter F t ac x ref <;> cases hy' : Fl.segInter F t ac y ref <;> cases hl' : Fl.pipCount F t ac ref l <;>
      first
      | exact absurd hx' hx
      | exact absurd hy' hy
      | exact absurd hl' hl
      | (simp only [Res.bind_ok, Res.pure_eq]; rw [Nat.add_right_comm])
      | rfl
  | trans _ _ ih1 ih2 => exact ih1.trans ih2

theorem ftry_perm (t : Thr ℝ) (ac : ℝ → ℝ) {pts pts' : List (Pt ℝ)} (hp : pts.Perm pts') {segs segs' : List Seg} (hs : segs.Perm segs') (p : Pt ℝ) : ∀ (l : List Seg) (b : Bool),
    Fl.pipTry F t ac pts segs p l b = Fl.pipTry F t ac pts' segs' p l b
  | [], _ => rfl
  | s :: l, b => by
    have ha : ∀ f : Pt ℝ → Bool, pts.any f = pts'.any f := fun f => by
      rw [Bool.eq_iff_iff, List.any_eq_true, List.any_eq_true]
      simp only [hp.mem_iff]
    rw [Fl.pipTry, Fl.pipTry]
    simp only [ha, fcount_perm t ac _ hs, ftry_perm t ac hp hs p l]

theorem floop_perm (t : Thr ℝ) (ac : ℝ → ℝ) {pts pts' : List (Pt ℝ)} (hp : pts.Perm pts') {segs segs' : List Seg} (hs : segs.Perm segs') (p : Pt ℝ) : ∀ (n : Nat) (l : List Seg),
    Fl.pipLoop F t ac pts segs p n l = Fl.pipLoop F t ac pts' segs' p n l
  | 0, _ => rfl
  | n + 1, l => by
    rw [Fl.pipLoop, Fl.pipLoop, ftry_perm t ac hp hs]
    simp only [floop_perm t ac hp hs p n]

theorem cyc_edge {P : Type} {pts : List P} {e : P × P} (h : e ∈ cycPairs pts) : ∃ i, Edge pts i e := by
  rw [cycPairs_eq] at h
  obtain ⟨i, hi⟩ := List.mem_iff_getElem?.1 h
  rw [List.getElem?_zip_eq_some] at hi
  refine ⟨i, hi.1, ?_⟩
  have hl : i < pts.length := by
    by_contra hc
    rw [List.getElem?_eq_none (by omega)] at hi
    cases hi.1
  rw [← hi.2, List.getElem?_rotate hl]

theorem fsegs_line (hF : FlOk F u v) {t : Thr ℝ} (ht : 2 * dblEps ≤ t.nullDistance) {Λ : ℝ} {l : List (Pt ℝ)} (hp : EdgesOk F t Λ l) {segs : List Seg} (h : Fl.polySegs F t (segPairs true l) = .ok segs) :
    ∀ s ∈ segs, (Rep F s.1.1 ∧ Rep F s.1.2) ∧ (Rep F s.2.1 ∧ Rep F s.2.2) ∧ ¬ Fl.PtSame F t s.1 s.2 := by
  have h0 := dblEps_pos
  have he : ∀ e ∈ segPairs true l, ∃ i, Edge l i e := by
    intro e he
    by_cases hl : l.length < 2
    · rw [segPairs, if_pos hl] at he; cases he
    · rw [pairs_len _ hl] at he; exact cyc_edge he
  rw [Fl.polySegs_fix hF (by linarith) _ fun e hm => (he e hm).elim fun i hi => (hp.2 i e hi).1] at h
  cases h
  intro s hs
  obtain ⟨e, hm, rfl⟩ := List.mem_map.1 hs
  obtain ⟨i, hi⟩ := he e hm
  have r1 := hp.1 e.1 (List.mem_of_getElem? hi.1)
  have r2 := hp.1 e.2 (List.mem_of_getElem? hi.2)
  have hns : ¬ Fl.PtSame F t e.1 e.2 := Fl.far_not_same hF t (hp.2 i e hi).1 (by linarith)
  obtain ⟨q1, q2⟩ := Fl.fix_rep r1 r2
  refine ⟨q1, q2, ?_⟩
  unfold fixOrder
  split_ifs
  · intro hc
    unfold Fl.PtSame at hc hns
    rw [Fl.distPt_comm hF] at hc
    exact hns hc
  · exact hns

theorem finside_cycle (hF : FlOk F u v) {t : Thr ℝ} (ht : 2 * dblEps ≤ t.nullDistance) (ac : ℝ → ℝ) {Λ : ℝ} {l l' : List (Pt ℝ)} (h : SameCycle l l') (hp : EdgesOk F t Λ l) (p : Pt ℝ) :
    Fl.ptInsidePoly F t ac true l p = Fl.ptInsidePoly F t ac true l' p := by
  have hline : ∀ a, Fl.polySegs F t (segPairs true l) = .ok a → ∀ s ∈ a, ∃ li, Fl.lineOfPts F t s.1 s.2 = .ok li := fun a ha s hs => by
    obtain ⟨r1, r2, hn⟩ := fsegs_line hF ht hp ha s hs
    rcases Props.C106_defined F u v hF t ht s.1 s.2 r1 r2 with hc | hc
    · exact hc
    · exact absurd hc.1 hn
  have hs := fsimple_cycle hF ht ac h hp
  have hb := fBB_perm (F := F) t (cycle_perm h)
  have hu := fsegs_cycle hF t h
  rw [Fl.ptInsidePoly, Fl.ptInsidePoly, hs, hb]
  generalize Fl.simpleF F t ac true l' = x1
  generalize Fl.polyGetBB F t l' = x2
  refine congrArg (x1 >>= ·) (funext fun b => ?_)
  refine if_congr Iff.rfl rfl (congrArg (x2 >>= ·) (funext fun box => if_congr Iff.rfl rfl ?_))
  refine bind_upTo hu fun a a' ha hpm => ?_
  rw [fnear_perm p hpm (hline a ha)]
  refine congrArg (Fl.nearLine F t p a' >>= ·) (funext fun c => if_congr Iff.rfl rfl ?_)
  refine congrArg (Fl.getExtended F t box >>= ·) (funext fun ext => congrArg (Fl.rectSegs F t ext >>= ·) (funext fun bb => ?_))
  exact floop_perm t ac (cycle_perm h) hpm p 5 bb

theorem frectIn_cycle (hF : FlOk F u v) {t : Thr ℝ} (ht : 2 * dblEps ≤ t.nullDistance) (ac : ℝ → ℝ) {Λ : ℝ} {l l' : List (Pt ℝ)} (h : SameCycle l l') (hp : EdgesOk F t Λ l) (r : FRect ℝ) :
    Fl.rectInPoly F t ac r l = Fl.rectInPoly F t ac r l' := by
  unfold Fl.rectInPoly
  rw [allRes_congr (finside_cycle hF ht ac h hp)]
  rw [funext fun s => bind_upTo (k := fun i => (pure i.isEmpty : Res Bool)) (k' := fun i => pure i.isEmpty) (finterSeg_cycle hF t ac h s) fun a b _ hp => by rw [isEmpty_perm hp]]

theorem fpolyIn_cycle (hF : FlOk F u v) {t : Thr ℝ} (ht : 2 * dblEps ≤ t.nullDistance) (ac : ℝ → ℝ) {Λ : ℝ} {l l' : List (Pt ℝ)} (h : SameCycle l l') (hp : EdgesOk F t Λ l) (closed : Bool) (pts : List (Pt ℝ)) :
    Fl.polyInPoly F t ac closed pts l = Fl.polyInPoly F t ac closed pts l' := by
  unfold Fl.polyInPoly
  refine if_congr Iff.rfl rfl ?_
  rw [allRes_congr (finside_cycle hF ht ac h hp)]
  cases allRes (Fl.ptInsidePoly F t ac true l') pts with
  | throw => rfl
  | ub => rfl
  | ok b =>
    simp only [Res.bind_ok]
    exact if_congr Iff.rfl (bind_upTo (finterPoly_cycle t ac (upTo_refl _) (fsegs_cycle hF t h)) fun a b _ hp => by rw [isEmpty_perm hp]) rfl

theorem segInter_def (hF : FlOk F u v) {t : Thr ℝ} (ht : 2 * dblEps ≤ t.nullDistance) (ac : ℝ → ℝ) {s s' : Seg}
    (h : (Rep F s.1.1 ∧ Rep F s.1.2) ∧ (Rep F s.2.1 ∧ Rep F s.2.2) ∧ ¬ Fl.PtSame F t s.1 s.2) (h' : (Rep F s'.1.1 ∧ Rep F s'.1.2) ∧ (Rep F s'.2.1 ∧ Rep F s'.2.2) ∧ ¬ Fl.PtSame F t s'.1 s'.2) :
    ∃ o, Fl.segInter F t ac s s' = .ok o := by
  have key : ∀ s : Seg, (Rep F s.1.1 ∧ Rep F s.1.2) ∧ (Rep F s.2.1 ∧ Rep F s.2.2) ∧ ¬ Fl.PtSame F t s.1 s.2 → ∃ l, Fl.lineOfPts F t s.1 s.2 = .ok l := by
    intro s h
    rcases Props.C106_defined F u v hF t ht s.1 s.2 h.1 h.2.1 with hc | hc
    · exact hc
    · exact absurd hc.1 h.2.2
  obtain ⟨l, hl⟩ := key s h
  obtain ⟨m, hm⟩ := key s' h'
  unfold Fl.segInter
  split_ifs
  · exact ⟨_, rfl⟩
  · rw [hl, hm, Res.bind_ok, Res.bind_ok]
    by_cases hp : Fl.isParallel F t ac l m
    · rw [if_pos hp]; exact ⟨_, rfl⟩
    · rw [if_neg hp, Fl.lineInter, if_neg hp, Res.bind_ok]
      cases Fl.crossXY F l m
      · exact ⟨_, rfl⟩
      · simp only
        split_ifs <;> exact ⟨_, rfl⟩

theorem fsegIn_cycle (hF : FlOk F u v) {t : Thr ℝ} (ht : 2 * dblEps ≤ t.nullDistance) (ac : ℝ → ℝ) {Λ : ℝ} {l l' : List (Pt ℝ)} (h : SameCycle l l') (hp : EdgesOk F t Λ l) {s : Seg}
    (hs : (Rep F s.1.1 ∧ Rep F s.1.2) ∧ (Rep F s.2.1 ∧ Rep F s.2.2) ∧ ¬ Fl.PtSame F t s.1 s.2) : Fl.segInPoly F t ac l s = Fl.segInPoly F t ac l' s := by
  unfold Fl.segInPoly
  rw [allRes_congr (finside_cycle hF ht ac h hp)]
  refine congrArg (allRes (Fl.ptInsidePoly F t ac true l') [s.1, s.2] >>= ·) (funext fun b => if_congr Iff.rfl ?_ rfl)
  refine bind_upTo (fsegs_cycle hF t h) fun a a' ha hpm => allRes_perm hpm fun e he => ?_
  obtain ⟨o, ho⟩ := segInter_def hF ht ac (fsegs_line hF ht hp ha e he) hs
  exact ⟨o.isNone, by rw [ho]; rfl⟩

theorem nan_refl {α : Type} (x : Res (Option (List α))) : UpToOrderNaN x x := by
  rcases x with (_ | l) | _ | _
  · trivial
  · exact List.Perm.refl l
  · trivial
  · trivial

theorem nan_trans {α : Type} {x y z : Res (Option (List α))} (h : UpToOrderNaN x y) (h' : UpToOrderNaN y z) : UpToOrderNaN x z := by
  rcases x with (_ | _) | _ | _ <;> rcases y with (_ | _) | _ | _ <;> rcases z with (_ | _) | _ | _ <;> first | exact h.trans h' | trivial | exact h.elim | exact h'.elim

theorem fcirc_safe (t : Thr ℝ) (s : Seg) (c : Pt ℝ) (r : ℝ) : Fl.segCircle F t s c r ≠ .ub := by
  unfold Fl.segCircle
  dsimp only
  split_ifs
  · simp
  all_goals
    refine Pip.bind_ne_ub (Fl.lineOfPts_safe F t _ _) fun l => ?_
    rcases Fl.lineCircle F l c r with _ | _ | x
    · simp
    · simp
    · simp only
      try split_ifs
      all_goals simp

theorem fcircs_safe (t : Thr ℝ) (c : Pt ℝ) (r : ℝ) : ∀ l : List Seg, Fl.segsInterCircle F t c r l ≠ .ub
  | [] => by simp [Fl.segsInterCircle]
  | e :: l => Pip.bind_ne_ub (fcirc_safe t e c r) fun _ => Pip.bind_ne_ub (fcircs_safe t c r l) fun _ => by simp

theorem fcircs_perm (t : Thr ℝ) (c : Pt ℝ) (r : ℝ) {l l' : List Seg} (h : l.Perm l') : UpToOrderNaN (Fl.segsInterCircle F t c r l) (Fl.segsInterCircle F t c r l') := by
  induction h with
  | nil => exact nan_refl _
  | @cons x l l' _ ih =>
    rw [Fl.segsInterCircle, Fl.segsInterCircle]
    rcases Fl.segCircle F t x c r with (_ | a) | _ | _ <;> rcases h1 : Fl.segsInterCircle F t c r l with (_ | b) | _ | _ <;> rcases h2 : Fl.segsInterCircle F t c r l' with (_ | b') | _ | _ <;>
      rw [h1, h2] at ih <;> first | exact List.Perm.append_left _ ih | trivial | exact ih.elim
  | swap x y l =>
    simp only [Fl.segsInterCircle]
    have hx := fcirc_safe (F := F) t x c r
    have hy := fcirc_safe (F := F) t y c r
    have hl := fcircs_safe (F := F) t c r l
    rcases hx' : Fl.segCircle F t x c r with (_ | a) | _ | _ <;> rcases hy' : Fl.segCircle F t y c r with (_ | b) | _ | _ <;> rcases hl' : Fl.segsInterCircle F t c r l with (_ | d) | _ | _ <;>
      first
      | exact absurd hx' hx
      | exact absurd hy' hy
      | exact absurd hl' hl
      | (simp only [Res.bind_ok, UpToOrderNaN, Res.pure_eq]
         rw [← List.append_assoc, ← List.append_assoc]
         exact List.perm_append_comm.append_right _)
      | trivial
  | trans _ _ ih1 ih2 => exact nan_trans ih1 ih2

theorem finterCircle_cycle (hF : FlOk F u v) (t : Thr ℝ) {l l' : List (Pt ℝ)} (h : SameCycle l l') (c : Pt ℝ) (r : ℝ) : UpToOrderNaN (Fl.polyInterCircle F t true l c r) (Fl.polyInterCircle F t true l' c r) := by
  unfold Fl.polyInterCircle
  have := fsegs_cycle hF t h
  cases h1 : Fl.polySegs F t (segPairs true l) <;> cases h2 : Fl.polySegs F t (segPairs true l') <;> rw [h1, h2] at this <;> first | exact fcircs_perm t c r this | trivial | exact this.elim

end H2d.Cycle
