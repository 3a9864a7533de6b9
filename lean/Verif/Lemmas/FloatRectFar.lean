import Verif.Lemmas.FloatRectRank
import Verif.Lemmas.RectMore

/-! # Two rectangles with rounded operations: from the hypotheses to ranks -/

namespace H2d.Fl

open H2d.Spec H2d.Rank

variable {F : Arith} {u v : ℝ} {t : Thr ℝ} {M L η : ℝ} {f g f' g' : ℕ → ℝ}

theorem sides_of {r : FRect ℕ} (hp : Proper r) (hr : RectRep F M (mpR f g r)) (x1 : axisC F (f r.p1.1) (g r.p1.2) (g r.p2.2) = f' r.p1.1) (x2 : axisC F (f r.p2.1) (g r.p1.2) (g r.p2.2) = f' r.p2.1)
    (y1 : axisC F (g r.p1.2) (f r.p1.1) (f r.p2.1) = g' r.p1.2) (y2 : axisC F (g r.p2.2) (f r.p1.1) (f r.p2.1) = g' r.p2.2) : ∀ s ∈ segs r, Side F M f g f' g' s := by
  obtain ⟨h1, h2⟩ := hp
  have ax := segs_ax (r := r) ⟨h1, h2⟩
  have a1 := hr.x1
  have a2 := hr.y1
  have a3 := hr.x2
  have a4 := hr.y2
  simp only [mpR, mp] at a1 a2 a3 a4
  intro s hs
  have hax := ax s hs
  simp only [segs, List.mem_cons, List.not_mem_nil, or_false] at hs
  rcases hs with rfl | rfl | rfl | rfl
  · exact ⟨hax, a1, a2, a1, a4, fun _ => x1, fun e => absurd e h2.ne⟩
  · exact ⟨hax, a1, a4, a3, a4, fun e => absurd e h1.ne, fun _ => y2⟩
  · exact ⟨hax, a3, a2, a3, a4, fun _ => x2, fun e => absurd e h2.ne⟩
  · exact ⟨hax, a1, a2, a3, a2, fun e => absurd e h1.ne, fun _ => y1⟩

/-- What is known of two rectangles. -/
structure Setting (F : Arith) (t : Thr ℝ) (u v M η : ℝ) (a b : FRect ℝ) (f g f' g' : ℕ → ℝ) (x y : ℕ × ℕ × ℕ × ℕ) : Prop where
  n : Near F t u v M η f g f' g'
  hx : x ∈ allen
  hy : y ∈ allen
  ea : a = mpR f g (rectA x y)
  eb : b = mpR f g (rectB x y)
  sa : ∀ s ∈ segs (rectA x y), Side F M f g f' g' s
  sb : ∀ s ∈ segs (rectB x y), Side F M f g f' g' s
  M0 : 0 ≤ M
  ne : rectA x y ≠ rectB x y

theorem pair_apart {n : ℝ} {a b : FRect ℝ} (h : FarRects n a b) : ApartRects n a b where
  wa := h.sa.1
  ha := h.sa.2
  wb := h.sb.1
  hb := h.sb.2
  x11 := .inr (h.x _ (by simp) _ (by simp))
  x12 := .inr (h.x _ (by simp) _ (by simp))
  x21 := .inr (h.x _ (by simp) _ (by simp))
  x22 := .inr (h.x _ (by simp) _ (by simp))
  y11 := .inr (h.y _ (by simp) _ (by simp))
  y12 := .inr (h.y _ (by simp) _ (by simp))
  y21 := .inr (h.y _ (by simp) _ (by simp))
  y22 := .inr (h.y _ (by simp) _ (by simp))

theorem apart_weak {n m : ℝ} (h : m ≤ n) {a b : FRect ℝ} (ha : ApartRects n a b) : ApartRects m a b := by
  have k : ∀ {x y : ℝ}, Apart n x y → Apart m x y := fun {x y} q => q.imp id h.trans
  exact ⟨by linarith [ha.wa], by linarith [ha.ha], by linarith [ha.wb], by linarith [ha.hb], k ha.x11, k ha.x12, k ha.x21, k ha.x22, k ha.y11, k ha.y12, k ha.y21, k ha.y22⟩

theorem rank_ne {n : ℝ} (hn : 0 < n) {f : ℕ → ℝ} {i j : ℕ} {p q : ℝ} (e1 : p = f i) (e2 : q = f j) (h : n ≤ |p - q|) : i ≠ j := by
  rintro rfl
  rw [e1, e2, sub_self, abs_zero] at h
  linarith

theorem setting (h : FlOk F u v) {a b : FRect ℝ} (hp : RectPair F t u v M L a b) : ∃ f g f' g' x y, Setting F t u v M (9 * (u * M ^ 2 / L)) a b f g f' g' x y := by
  have np : 0 < t.nullDistance := by have := hp.eps; have := dblEps_pos; linarith
  have hn : 0 < 3 * t.nullDistance := by linarith
  have A := pair_apart hp.far
  obtain ⟨f, hf, x, hx, e1, e2, e3, e4⟩ := exists_emb hn A.wa A.wb A.x11 A.x12 A.x21 A.x22
  obtain ⟨g, hg, y, hy, e5, e6, e7, e8⟩ := exists_emb hn A.ha A.hb A.y11 A.y12 A.y21 A.y22
  have fx := hp.far.x
  have fy := hp.far.y
  have x1 : x.1 ≠ x.2.2.1 := rank_ne hn e1 e3 (fx _ (by simp) _ (by simp))
  have x2 : x.1 ≠ x.2.2.2 := rank_ne hn e1 e4 (fx _ (by simp) _ (by simp))
  have x3 : x.2.1 ≠ x.2.2.1 := rank_ne hn e2 e3 (fx _ (by simp) _ (by simp))
  have x4 : x.2.1 ≠ x.2.2.2 := rank_ne hn e2 e4 (fx _ (by simp) _ (by simp))
  have y1 : y.1 ≠ y.2.2.1 := rank_ne hn e5 e7 (fy _ (by simp) _ (by simp))
  have y2 : y.1 ≠ y.2.2.2 := rank_ne hn e5 e8 (fy _ (by simp) _ (by simp))
  have y3 : y.2.1 ≠ y.2.2.1 := rank_ne hn e6 e7 (fy _ (by simp) _ (by simp))
  have y4 : y.2.1 ≠ y.2.2.2 := rank_ne hn e6 e8 (fy _ (by simp) _ (by simp))
  have ea : a = mpR f g (rectA x y) := by
    obtain ⟨⟨_, _⟩, _, _⟩ := a
    simp only at e1 e2 e5 e6
    subst e1 e2 e5 e6; rfl
  have eb : b = mpR f g (rectB x y) := by
    obtain ⟨⟨_, _⟩, _, _⟩ := b
    simp only at e3 e4 e7 e8
    subst e3 e4 e7 e8; rfl
  have M0 : 0 ≤ M := (abs_nonneg _).trans hp.ra.x1.2
  have η0 : 0 ≤ 9 * (u * M ^ 2 / L) := by have := h.u_nonneg; have := hp.L0; positivity
  obtain ⟨pA, pB⟩ := proper_AB hx hy
  obtain ⟨⟨-, a1⟩, ⟨-, a2⟩, ⟨-, a3⟩, ⟨-, a4⟩⟩ := hp.ra
  obtain ⟨⟨-, b1⟩, ⟨-, b2⟩, ⟨-, b3⟩, ⟨-, b4⟩⟩ := hp.rb
  obtain ⟨la1, la2⟩ := hp.la
  obtain ⟨lb1, lb2⟩ := hp.lb
  rw [e1] at a1 la1; rw [e5] at a2 la2; rw [e2] at a3 la1; rw [e6] at a4 la2
  rw [e3] at b1 lb1; rw [e7] at b2 lb2; rw [e4] at b3 lb1; rw [e8] at b4 lb2
  refine ⟨f, g, fun i => if i = x.1 ∨ i = x.2.1 then axisC F (f i) (g y.1) (g y.2.1) else if i = x.2.2.1 ∨ i = x.2.2.2 then axisC F (f i) (g y.2.2.1) (g y.2.2.2) else f i,
    fun i => if i = y.1 ∨ i = y.2.1 then axisC F (g i) (f x.1) (f x.2.1) else if i = y.2.2.1 ∨ i = y.2.2.2 then axisC F (g i) (f x.2.2.1) (f x.2.2.2) else g i, x, y, ?_⟩
  refine ⟨⟨η0, hf, hg, fun i => ?_, fun i => ?_, ?_, hp.eps⟩, hx, hy, ea, eb, ?_, ?_, M0, ?_⟩
  · split_ifs with c1 c2
    · exact axisC_err h (by rcases c1 with rfl | rfl <;> assumption) a2 a4 hp.L0 (by linarith)
    · exact axisC_err h (by rcases c2 with rfl | rfl <;> assumption) b2 b4 hp.L0 (by linarith)
    · exact near_self η0
  · split_ifs with c1 c2
    · exact axisC_err h (by rcases c1 with rfl | rfl <;> assumption) a1 a3 hp.L0 (by linarith)
    · exact axisC_err h (by rcases c2 with rfl | rfl <;> assumption) b1 b3 hp.L0 (by linarith)
    · exact near_self η0
  · have := hp.noise; linarith
  · refine sides_of pA (ea ▸ hp.ra) ?_ ?_ ?_ ?_
    · simp [rectA]
    · simp [rectA]
    · simp [rectA]
    · simp [rectA]
  · refine sides_of pB (eb ▸ hp.rb) ?_ ?_ ?_ ?_
    · simp [rectB, x1.symm, x3.symm]
    · simp [rectB, x2.symm, x4.symm]
    · simp [rectB, y1.symm, y3.symm]
    · simp [rectB, y2.symm, y4.symm]
  · intro e
    have := congrArg (fun r => r.p1.1) e
    exact x1 this

theorem _root_.H2d.Spec.RectPair.symm {a b : FRect ℝ} (hp : RectPair F t u v M L a b) : RectPair F t u v M L b a where
  ra := hp.rb
  rb := hp.ra
  L0 := hp.L0
  la := hp.lb
  lb := hp.la
  far := ⟨hp.far.sb, hp.far.sa, fun p hp' q hq => by rw [abs_sub_comm]; exact hp.far.x q hq p hp', fun p hp' q hq => by rw [abs_sub_comm]; exact hp.far.y q hq p hp'⟩
  eps := hp.eps
  noise := hp.noise

theorem rectArea_pair (h : FlOk F u v) (hA : AxisExact F) {ac : ℝ → ℝ} {w : ℝ} (ha : AcosOk ac w) (ht : RectThr t) {a b : FRect ℝ} (hp : RectPair F t u v M L a b) :
    (Overlap a b → ∃ r, Fl.intersectArea F t ac a b = .ok (some r) ∧ NearRect (9 * (u * M ^ 2 / L)) r (commonRect a b)) ∧ (¬ Overlap a b → Fl.intersectArea F t ac a b = .ok none) := by
  obtain ⟨f, g, f', g', x, y, s⟩ := setting h hp
  obtain ⟨n, hx, hy, rfl, rfl, sa, sb, M0, -⟩ := s
  obtain ⟨pA, pB⟩ := proper_AB hx hy
  have hc := check_all x hx y hy
  unfold check at hc
  simp only [Bool.and_eq_true, decide_eq_true_eq] at hc
  obtain ⟨o, h1, h2⟩ := intersectArea_mp' h hA ha ht n M0 pA pB sa sb hc.1.1
  rw [h1, overlap_mp n.f1 n.g1, mpR_common n.f1 n.g1]
  constructor
  · intro ho
    rw [if_pos ho] at h2
    obtain ⟨r, rfl, h2⟩ := h2
    exact ⟨r, rfl, h2⟩
  · intro ho
    rw [if_neg ho] at h2
    have h2 : o = none := h2
    rw [h2]

theorem rectInter_pair (h : FlOk F u v) (hA : AxisExact F) {ac : ℝ → ℝ} {w : ℝ} (ha : AcosOk ac w) (ht : RectThr t) {a b : FRect ℝ} (hp : RectPair F t u v M L a b) :
    ∃ pts pts', H2d.rectInter t a b = .ok pts ∧ Fl.rectInter F t ac a b = .ok pts' ∧ SortedPts pts' ∧ List.Forall₂ (NearPt2 (9 * (u * M ^ 2 / L))) pts' pts := by
  obtain ⟨f, g, f', g', x, y, s⟩ := setting h hp
  obtain ⟨n, hx, hy, rfl, rfl, sa, sb, M0, ne⟩ := s
  obtain ⟨pA, pB⟩ := proper_AB hx hy
  obtain ⟨res, r1, r2, r3, r4⟩ := RectM.inter_ranks x hx y hy ne
  have np := n.pos
  have f1 : Emb t.nullDistance f' := emb_weak np (by linarith) (n.f2 M0 h)
  have g1 : Emb t.nullDistance g' := emb_weak np (by linarith) (n.g2 M0 h)
  refine ⟨_, _, Rank.rectInter_mp ht n.f1 n.g1 pA pB r1, rectInter_mp' h hA ha ht n M0 pA pB sa sb r1, RectM.sortedN_map f1 g1 res r2, ?_⟩
  rw [List.forall₂_map_left_iff, List.forall₂_map_right_iff, List.forall₂_same]
  exact fun p _ => ⟨n.ef _, n.eg _⟩

end H2d.Fl
