import Verif.Model.Inside
import Verif.Spec.Inside
import Verif.Lemmas.PipModel
import Verif.Props.SegmentInter
import Verif.Props.SegmentMore
import Verif.Props.Pip
import Mathlib.Topology.Order.IntermediateValue
import Mathlib.Topology.Instances.Real.Lemmas

/-! # Lemmas on containment -/

set_option linter.unusedSectionVars false
set_option linter.unusedSimpArgs false

namespace H2d.Inside
open H2d H2d.Spec

section parity
variable {K : Type} [Field K] [LinearOrder K] [IsStrictOrderedRing K]

/-- Side of `v` with respect to the line from `p` up to `q`: negative on the right. -/
def sideOf (p q v : K × K) : K := (q.1 - p.1) * (v.2 - p.2) - (q.2 - p.2) * (v.1 - p.1)

theorem onSeg_trans {a b u w r : K × K} (hu : OnSeg a b u) (hw : OnSeg a b w) (hr : OnSeg u w r) : OnSeg a b r := by
  obtain ⟨j, j0, j1, rfl⟩ := hu
  obtain ⟨k, k0, k1, rfl⟩ := hw
  obtain ⟨m, m0, m1, rfl⟩ := hr
  refine ⟨j + m * (k - j), ?_, ?_, ?_⟩
  · nlinarith [mul_nonneg m0 k0, mul_nonneg (sub_nonneg.2 m1) j0]
  · nlinarith [mul_nonneg m0 (sub_nonneg.2 k1), mul_nonneg (sub_nonneg.2 m1) (sub_nonneg.2 j1)]
  · apply Prod.ext <;> (simp only; ring)

theorem onSeg_left (a b : K × K) : OnSeg a b a := ⟨0, le_refl _, zero_le_one, by apply Prod.ext <;> simp⟩
theorem onSeg_right (a b : K × K) : OnSeg a b b := ⟨1, zero_le_one, le_refl _, by apply Prod.ext <;> simp⟩

theorem onSeg_comm {a b r : K × K} (h : OnSeg a b r) : OnSeg b a r := by
  obtain ⟨k, k0, k1, rfl⟩ := h
  exact ⟨1 - k, by linarith, by linarith, by apply Prod.ext <;> (simp only; ring)⟩

/-- A point of the line `pq`, at a height between those of `p` and `q`, is on the segment. -/
theorem onSeg_of_side {p q v : K × K} (hpq : p.2 < q.2) (h1 : p.2 ≤ v.2) (h2 : v.2 ≤ q.2) (h : sideOf p q v = 0) : OnSeg p q v := by
  have hd : 0 < q.2 - p.2 := by linarith
  refine ⟨(v.2 - p.2) / (q.2 - p.2), div_nonneg (by linarith) hd.le, (div_le_one hd).2 (by linarith), ?_⟩
  unfold sideOf at h
  have hd' := hd.ne'
  apply Prod.ext
  · simp only
    have : v.1 - p.1 = (v.2 - p.2) / (q.2 - p.2) * (q.1 - p.1) := by field_simp; linarith
    linarith
  · simp only; field_simp; ring

/-- Two points of a segment that misses `pq`, at heights between those of `p` and `q`, are on the same side. -/
theorem side_iff {p q u w : K × K} (hpq : p.2 < q.2) (hu1 : p.2 ≤ u.2) (hu2 : u.2 ≤ q.2) (hw1 : p.2 ≤ w.2) (hw2 : w.2 ≤ q.2)
    (hm : ∀ r, OnSeg p q r → ¬ OnSeg u w r) : sideOf p q u < 0 ↔ sideOf p q w < 0 := by
  have aux : ∀ u w : K × K, p.2 ≤ u.2 → u.2 ≤ q.2 → p.2 ≤ w.2 → w.2 ≤ q.2 → (∀ r, OnSeg p q r → ¬ OnSeg u w r) →
      sideOf p q u < 0 → sideOf p q w < 0 := by
    intro u w hu1 hu2 hw1 hw2 hm h
    by_contra hc
    have hc : 0 ≤ sideOf p q w := not_lt.1 hc
    have hd : 0 < sideOf p q w - sideOf p q u := by linarith
    set k := - sideOf p q u / (sideOf p q w - sideOf p q u) with hk
    have k0 : 0 ≤ k := div_nonneg (by linarith) hd.le
    have k1 : k ≤ 1 := (div_le_one hd).2 (by linarith)
    have hs : sideOf p q (u.1 + k * (w.1 - u.1), u.2 + k * (w.2 - u.2)) = 0 := by
      have e1 : sideOf p q (u.1 + k * (w.1 - u.1), u.2 + k * (w.2 - u.2)) = sideOf p q u + k * (sideOf p q w - sideOf p q u) := by
        unfold sideOf; simp only; ring
      rw [e1, hk, div_mul_cancel₀ _ hd.ne']; ring
    refine hm (u.1 + k * (w.1 - u.1), u.2 + k * (w.2 - u.2)) (onSeg_of_side hpq ?_ ?_ hs) ⟨k, k0, k1, rfl⟩
    · simp only; nlinarith [mul_nonneg k0 (sub_nonneg.2 hw1), mul_nonneg (sub_nonneg.2 k1) (sub_nonneg.2 hu1)]
    · simp only; nlinarith [mul_nonneg k0 (sub_nonneg.2 hw2), mul_nonneg (sub_nonneg.2 k1) (sub_nonneg.2 hu2)]
  exact ⟨aux u w hu1 hu2 hw1 hw2 hm, aux w u hw1 hw2 hu1 hu2 (fun r h1 h2 => hm r h1 (onSeg_comm h2))⟩

/-- The point of the line `ab` at height `y`. -/
def atH (a b : K × K) (y : K) : K × K := (a.1 + (y - a.2) / (b.2 - a.2) * (b.1 - a.1), y)

theorem atH_on {a b : K × K} {y : K} (h : (y < a.2 ∧ b.2 ≤ y) ∨ (y < b.2 ∧ a.2 ≤ y)) : OnSeg a b (atH a b y) := by
  have hne : b.2 - a.2 ≠ 0 := by rcases h with h | h <;> intro e <;> linarith
  refine ⟨(y - a.2) / (b.2 - a.2), ?_, ?_, ?_⟩
  · rcases h with h | h
    · exact div_nonneg_of_nonpos (by linarith) (by linarith)
    · exact div_nonneg (by linarith) (by linarith)
  · rcases h with h | h
    · rw [div_le_one_of_neg (by linarith)]; linarith
    · rw [div_le_one (by linarith)]; linarith
  · unfold atH; apply Prod.ext
    · rfl
    · simp only; field_simp; ring

theorem cross_iff {p a b : K × K} : CrossesRay p a b ↔ ((p.2 < a.2 ∧ b.2 ≤ p.2) ∨ (p.2 < b.2 ∧ a.2 ≤ p.2)) ∧ p.1 < (atH a b p.2).1 := by
  unfold CrossesRay atH; simp only [not_lt]

/-- The vertex is in the half strip at the right of the segment `pq`. -/
def InStrip (p q v : K × K) : Prop := p.2 < v.2 ∧ v.2 ≤ q.2 ∧ sideOf p q v < 0

theorem atLow {p q a b : K × K} (hpq : p.2 < q.2) : p.1 < (atH a b p.2).1 ↔ sideOf p q (atH a b p.2) < 0 := by
  unfold sideOf atH; simp only
  constructor <;> intro h <;> nlinarith

theorem atHigh {p q a b : K × K} (hpq : p.2 < q.2) : q.1 < (atH a b q.2).1 ↔ sideOf p q (atH a b q.2) < 0 := by
  unfold sideOf atH; simp only
  constructor <;> intro h <;> nlinarith

theorem strip_edge {p q a b : K × K} (hpq : p.2 < q.2) (hm : ∀ r, OnSeg p q r → ¬ OnSeg a b r) :
    (CrossesRay p a b ↔ CrossesRay q a b) ↔ (InStrip p q a ↔ InStrip p q b) := by
  have hs : ∀ u w, OnSeg a b u → OnSeg a b w → p.2 ≤ u.2 → u.2 ≤ q.2 → p.2 ≤ w.2 → w.2 ≤ q.2 → (sideOf p q u < 0 ↔ sideOf p q w < 0) :=
    fun u w hu hw h1 h2 h3 h4 => side_iff hpq h1 h2 h3 h4 (fun r hr h => hm r hr (onSeg_trans hu hw h))
  have ha := onSeg_left a b
  have hb := onSeg_right a b
  rw [cross_iff, cross_iff, atLow hpq, atHigh hpq]
  unfold InStrip
  have lowp : ((p.2 < a.2 ∧ b.2 ≤ p.2) ∨ (p.2 < b.2 ∧ a.2 ≤ p.2)) → OnSeg a b (atH a b p.2) := atH_on
  have lowq : ((q.2 < a.2 ∧ b.2 ≤ q.2) ∨ (q.2 < b.2 ∧ a.2 ≤ q.2)) → OnSeg a b (atH a b q.2) := atH_on
  have ep : (atH a b p.2).2 = p.2 := rfl
  have eq : (atH a b q.2).2 = q.2 := rfl
  have h1 : ((p.2 < a.2 ∧ b.2 ≤ p.2) ∨ (p.2 < b.2 ∧ a.2 ≤ p.2)) → ((q.2 < a.2 ∧ b.2 ≤ q.2) ∨ (q.2 < b.2 ∧ a.2 ≤ q.2)) →
      (sideOf p q (atH a b p.2) < 0 ↔ sideOf p q (atH a b q.2) < 0) := fun x y =>
    hs _ _ (lowp x) (lowq y) (by rw [ep]) (by rw [ep]; exact hpq.le) (by rw [eq]; exact hpq.le) (by rw [eq])
  have h2 : ∀ v, OnSeg a b v → p.2 ≤ v.2 → v.2 ≤ q.2 → ((p.2 < a.2 ∧ b.2 ≤ p.2) ∨ (p.2 < b.2 ∧ a.2 ≤ p.2)) →
      (sideOf p q (atH a b p.2) < 0 ↔ sideOf p q v < 0) := fun v hv u w x =>
    hs _ _ (lowp x) hv (by rw [ep]) (by rw [ep]; exact hpq.le) u w
  have h3 : ∀ v, OnSeg a b v → p.2 ≤ v.2 → v.2 ≤ q.2 → ((q.2 < a.2 ∧ b.2 ≤ q.2) ∨ (q.2 < b.2 ∧ a.2 ≤ q.2)) →
      (sideOf p q (atH a b q.2) < 0 ↔ sideOf p q v < 0) := fun v hv u w x =>
    hs _ _ (lowq x) hv (by rw [eq]; exact hpq.le) (by rw [eq]) u w
  have h4 : p.2 ≤ a.2 → a.2 ≤ q.2 → p.2 ≤ b.2 → b.2 ≤ q.2 → (sideOf p q a < 0 ↔ sideOf p q b < 0) := hs a b ha hb
  have h2a := h2 a ha
  have h2b := h2 b hb
  have h3a := h3 a ha
  have h3b := h3 b hb
  clear h2 h3 lowp lowq ep eq hs hm
  rcases le_or_gt a.2 p.2 with xa | xa <;> rcases le_or_gt b.2 p.2 with xb | xb <;>
    rcases le_or_gt a.2 q.2 with ya | ya <;> rcases le_or_gt b.2 q.2 with yb | yb <;> grind

theorem parity_lt {pts : List (K × K)} {p q : K × K} (hpq : p.2 < q.2)
    (hm : ∀ e ∈ polyEdges pts, ∀ r, OnSeg p q r → ¬ OnSeg e.1 e.2 r) : EvenOdd pts p ↔ EvenOdd pts q := by
  classical
  have h := Pip.parity_sum (polyEdges pts) (fun e => decide (CrossesRay p e.1 e.2)) (fun e => decide (CrossesRay q e.1 e.2))
    (fun v => decide (InStrip p q v)) (by
      intro e he
      simp only [decide_eq_decide]
      exact strip_edge hpq (hm e he))
  have hc := Pip.countP_cyc pts (fun v => decide (InStrip p q v))
  rw [hc] at h
  unfold EvenOdd
  rw [Nat.odd_iff, Nat.odd_iff]
  have e1 : ∀ v : K × K, (polyEdges pts).countP (fun e => @decide (CrossesRay v e.1 e.2) (Classical.propDecidable _)) =
    (polyEdges pts).countP (fun e => decide (CrossesRay v e.1 e.2)) := fun v => rfl
  omega

/-- **The even-odd rule gives the same answer at both ends of a segment that misses the contour.** -/
theorem parity_const {pts : List (K × K)} {p q : K × K} (hm : ∀ e ∈ polyEdges pts, ∀ r, OnSeg p q r → ¬ OnSeg e.1 e.2 r) :
    EvenOdd pts p ↔ EvenOdd pts q := by
  rcases lt_trichotomy p.2 q.2 with h | h | h
  · exact parity_lt h hm
  · unfold EvenOdd
    have : ∀ e ∈ polyEdges pts, (CrossesRay p e.1 e.2 ↔ CrossesRay q e.1 e.2) := by
      intro e he
      rw [cross_iff, cross_iff, ← h]
      apply and_congr_right
      intro hx
      have hon := atH_on hx
      have hno := fun hr => hm e he _ hr hon
      set x := (atH e.1 e.2 p.2).1 with hxx
      have key : ∀ u v : K × K, u.2 = p.2 → v.2 = p.2 → u.1 < x → x ≤ v.1 → OnSeg u v (atH e.1 e.2 p.2) := by
        intro u v hu hv h1 h2
        have hd : 0 < v.1 - u.1 := by linarith
        refine ⟨(x - u.1) / (v.1 - u.1), div_nonneg (by linarith) hd.le, (div_le_one hd).2 (by linarith), ?_⟩
        apply Prod.ext
        · simp only; rw [← hxx]; field_simp; ring
        · simp only; rw [hu, hv]; show p.2 = _; ring
      constructor
      · intro h1
        by_contra h2
        exact hno (key p q rfl h.symm h1 (not_lt.1 h2))
      · intro h1
        by_contra h2
        exact hno (onSeg_comm (key q p h.symm rfl h1 (not_lt.1 h2)))
    have hc : (polyEdges pts).countP (fun e => @decide (CrossesRay p e.1 e.2) (Classical.propDecidable _)) =
        (polyEdges pts).countP (fun e => @decide (CrossesRay q e.1 e.2) (Classical.propDecidable _)) :=
      List.countP_congr (fun e he => by simp only [decide_eq_true_eq]; exact this e he)
    rw [hc]
  · exact (parity_lt h (fun e he r hr => hm e he r (onSeg_comm hr))).symm

end parity

/-! ### Convex sets -/

/-- With two points, the set holds the segment between them. -/
def ConvexSet (S : Pt ℝ → Prop) : Prop := ∀ p q r, S p → S q → OnSeg p q r → S r

theorem convex_disk (c : Circle) : ConvexSet (fun p => InDisk p c) := by
  rintro p q r hp hq ⟨k, k0, k1, rfl⟩
  unfold InDisk at *
  have hr : 0 < c.radius := lt_of_le_of_lt (eucl_nonneg _ _) hp
  rw [eucl_lt_iff hr] at *
  have := mul_nonneg k0 (sub_nonneg.2 k1)
  have e : (p.1 + k * (q.1 - p.1) - c.center.1) ^ 2 + (p.2 + k * (q.2 - p.2) - c.center.2) ^ 2 =
      (1 - k) * ((p.1 - c.center.1) ^ 2 + (p.2 - c.center.2) ^ 2) + k * ((q.1 - c.center.1) ^ 2 + (q.2 - c.center.2) ^ 2)
        - k * (1 - k) * ((p.1 - q.1) ^ 2 + (p.2 - q.2) ^ 2) := by ring
  simp only
  rw [e]
  have h3 : 0 ≤ k * (1 - k) * ((p.1 - q.1) ^ 2 + (p.2 - q.2) ^ 2) := mul_nonneg this (by positivity)
  rcases eq_or_lt_of_le k0 with h | h
  · subst h; linarith
  · nlinarith [mul_lt_mul_of_pos_left hq h, mul_le_mul_of_nonneg_left hp.le (sub_nonneg.2 k1)]

theorem convex_box (b : FRect ℝ) : ConvexSet (InBox b) := by
  rintro p q r ⟨p1, p2, p3, p4⟩ ⟨q1, q2, q3, q4⟩ ⟨k, k0, k1, rfl⟩
  have aux : ∀ a x y : ℝ, a < x → a < y → a < x + k * (y - x) := by
    intro a x y h1 h2
    rcases eq_or_lt_of_le k0 with h | h
    · subst h; linarith
    · nlinarith [mul_lt_mul_of_pos_left h2 h, mul_le_mul_of_nonneg_left h1.le (sub_nonneg.2 k1)]
  have aux' : ∀ a x y : ℝ, x < a → y < a → x + k * (y - x) < a := by
    intro a x y h1 h2
    have := aux (-a) (-x) (-y) (by linarith) (by linarith)
    nlinarith
  exact ⟨aux _ _ _ p1 q1, aux' _ _ _ p2 q2, aux _ _ _ p3 q3, aux' _ _ _ p4 q4⟩

theorem convex_ell (x y a b th : ℝ) : ConvexSet (InsideEll x y a b th) := by
  rintro p q r hp hq ⟨k, k0, k1, rfl⟩
  unfold InsideEll ellVal at *
  simp only
  set u1 := (p.1 - x) * Real.cos th + (p.2 - y) * Real.sin th
  set u2 := (q.1 - x) * Real.cos th + (q.2 - y) * Real.sin th
  set v1 := -(p.1 - x) * Real.sin th + (p.2 - y) * Real.cos th
  set v2 := -(q.1 - x) * Real.sin th + (q.2 - y) * Real.cos th
  have e1 : (p.1 + k * (q.1 - p.1) - x) * Real.cos th + (p.2 + k * (q.2 - p.2) - y) * Real.sin th = (1 - k) * u1 + k * u2 := by
    simp only [u1, u2]; ring
  have e2 : -(p.1 + k * (q.1 - p.1) - x) * Real.sin th + (p.2 + k * (q.2 - p.2) - y) * Real.cos th = (1 - k) * v1 + k * v2 := by
    simp only [v1, v2]; ring
  rw [e1, e2]
  have kk := mul_nonneg k0 (sub_nonneg.2 k1)
  have key : ∀ z w m : ℝ, ((1 - k) * z + k * w) ^ 2 / m ^ 2 ≤ (1 - k) * (z ^ 2 / m ^ 2) + k * (w ^ 2 / m ^ 2) := by
    intro z w m
    have h : ((1 - k) * z + k * w) ^ 2 ≤ (1 - k) * z ^ 2 + k * w ^ 2 := by
      nlinarith [mul_nonneg kk (sq_nonneg (z - w))]
    calc ((1 - k) * z + k * w) ^ 2 / m ^ 2 ≤ ((1 - k) * z ^ 2 + k * w ^ 2) / m ^ 2 := div_le_div_of_nonneg_right h (sq_nonneg m)
      _ = _ := by ring
  have ha := key u1 u2 a
  have hb := key v1 v2 b
  rcases eq_or_lt_of_le k0 with h | h
  · subst h; linarith
  · nlinarith [mul_lt_mul_of_pos_left hq h, mul_le_mul_of_nonneg_left hp.le (sub_nonneg.2 k1)]

theorem within_seg {S : Pt ℝ → Prop} (hS : ConvexSet S) (a b : Pt ℝ) : Within (.seg a b) S ↔ S a ∧ S b := by
  constructor
  · intro h; exact ⟨h a (onSeg_left a b), h b (onSeg_right a b)⟩
  · rintro ⟨h1, h2⟩ q hq; exact hS a b q h1 h2 hq

theorem within_poly {S : Pt ℝ → Prop} (hS : ConvexSet S) (closed : Bool) (pts : List (Pt ℝ)) :
    Within (.poly closed pts) S ↔ ∀ p ∈ pts, S p := by
  constructor
  · intro h p hp; exact h p (Or.inl hp)
  · rintro h q (hq | ⟨a, b, hab, hq⟩)
    · exact h q hq
    · have := List.of_mem_zip hab
      refine hS a b q (h a this.1) (h b ?_) hq
      rcases List.mem_append.1 this.2 with h3 | h3
      · exact List.mem_of_mem_tail h3
      · cases closed
        · simp at h3
        · exact List.mem_of_mem_head? (by simpa using h3)

theorem onSeg_horiz {x1 x2 x y : ℝ} (h1 : x1 ≤ x) (h2 : x ≤ x2) : OnSeg (x1, y) (x2, y) (x, y) := by
  rcases eq_or_lt_of_le (le_trans h1 h2) with h | h
  · subst h
    have : x = x1 := le_antisymm h2 h1
    subst this; exact onSeg_left _ _
  · have hd : 0 < x2 - x1 := by linarith
    refine ⟨(x - x1) / (x2 - x1), div_nonneg (by linarith) hd.le, (div_le_one hd).2 (by linarith), ?_⟩
    have := hd.ne'
    apply Prod.ext
    · simp only; field_simp; ring
    · simp only; ring

theorem onSeg_vert {y1 y2 x y : ℝ} (h1 : y1 ≤ y) (h2 : y ≤ y2) : OnSeg (x, y1) (x, y2) (x, y) := by
  obtain ⟨k, k0, k1, e⟩ := onSeg_horiz (y := x) h1 h2
  have := congrArg Prod.fst e
  exact ⟨k, k0, k1, Prod.ext (by simp only; ring) (by simpa using this)⟩

theorem within_rect {S : Pt ℝ → Prop} (hS : ConvexSet S) (r : FRect ℝ) (hr : r.p1.1 ≤ r.p2.1 ∧ r.p1.2 ≤ r.p2.2) :
    Within (.rect r) S ↔ ∀ p ∈ r.get4Pts, S p := by
  constructor
  · intro h p hp
    unfold FRect.get4Pts at hp
    simp only [List.mem_cons, List.not_mem_nil, or_false] at hp
    rcases hp with rfl | rfl | rfl | rfl <;> apply h <;> simp [Extent, hr.1, hr.2]
  · rintro h ⟨x, y⟩ ⟨h1, h2, h3, h4⟩
    unfold FRect.get4Pts at h
    simp only [List.forall_mem_cons, List.not_mem_nil, false_imp_iff, implies_true, and_true] at h
    obtain ⟨c1, c2, c3, c4⟩ := h
    have lo : S (x, r.p1.2) := hS _ _ _ c1 c4 (onSeg_horiz h1 h2)
    have hi : S (x, r.p2.2) := hS _ _ _ c2 c3 (onSeg_horiz h1 h2)
    exact hS _ _ _ lo hi (onSeg_vert h3 h4)

/-! ### Loops -/

theorem allRes_spec {α : Type} {f : α → Res Bool} {P : α → Prop} : ∀ (l : List α), (∀ a ∈ l, ∃ b, f a = .ok b ∧ (b = true ↔ P a)) →
    ∃ b, allRes f l = .ok b ∧ (b = true ↔ ∀ a ∈ l, P a)
  | [], _ => ⟨true, rfl, by simp⟩
  | a :: l, h => by
    obtain ⟨b, hb, hP⟩ := h a (by simp)
    obtain ⟨b', hb', hP'⟩ := allRes_spec l (fun x hx => h x (by simp [hx]))
    unfold allRes
    rw [hb]
    cases b
    · refine ⟨false, rfl, ?_⟩
      have : ¬ P a := fun hh => by simpa using hP.2 hh
      simp [this]
    · refine ⟨b', by simpa using hb', ?_⟩
      rw [hP']
      simp [hP.1 rfl]

theorem allRes_true {α : Type} {f : α → Res Bool} : ∀ (l : List α), allRes f l = .ok true ↔ ∀ a ∈ l, f a = .ok true
  | [] => by simp [allRes]
  | a :: l => by
    unfold allRes
    have ih := allRes_true (f := f) l
    rcases h : f a with b | _ | _
    · cases b
      · simp [h]
      · simp [h, ih]
    · simp [h]
    · simp [h]

/-- Answers for all the objects whose containment is decided on some points. -/
theorem inShape_spec {t : Thr ℝ} {sh : Shape} {S : Pt ℝ → Prop} (hS : ConvexSet S) (h : ∀ p, ∃ b, ptInShape t sh p = .ok b ∧ (b = true ↔ S p)) :
    (∀ s : Seg, ∃ b, segInShape t s sh = .ok b ∧ (b = true ↔ Within (.seg s.1 s.2) S)) ∧
    (∀ closed pts, pts ≠ [] → ∃ b, polyInShape t pts sh = .ok b ∧ (b = true ↔ Within (.poly closed pts) S)) ∧
    (∀ r : FRect ℝ, r.p1.1 ≤ r.p2.1 ∧ r.p1.2 ≤ r.p2.2 → ∃ b, rectInShape t r sh = .ok b ∧ (b = true ↔ Within (.rect r) S)) := by
  refine ⟨fun s => ?_, fun closed pts hp => ?_, fun r hr => ?_⟩
  · obtain ⟨b, hb, hP⟩ := allRes_spec [s.1, s.2] (fun a _ => h a)
    exact ⟨b, hb, by rw [hP, within_seg hS]; simp⟩
  · obtain ⟨b, hb, hP⟩ := allRes_spec pts (fun a _ => h a)
    refine ⟨b, ?_, by rw [hP, within_poly hS]⟩
    unfold polyInShape
    rw [if_neg (by simpa using hp)]; exact hb
  · obtain ⟨b, hb, hP⟩ := allRes_spec r.get4Pts (fun a _ => h a)
    exact ⟨b, hb, by rw [hP, within_rect hS r hr]⟩

theorem concatRes_ok {α β : Type} {f : α → Res (List β)} : ∀ (l : List α) (r : List β), concatRes f l = .ok r →
    (∀ a ∈ l, ∃ i, f a = .ok i ∧ ∀ x ∈ i, x ∈ r) ∧ ∀ x ∈ r, ∃ a ∈ l, ∃ i, f a = .ok i ∧ x ∈ i
  | [], r, h => by cases h; simp
  | a :: l, r, h => by
    unfold concatRes at h
    rcases hf : f a with i | _ | _ <;> rw [hf] at h
    · rcases hl : concatRes f l with r' | _ | _ <;> rw [hl] at h
      · cases h
        obtain ⟨h1, h2⟩ := concatRes_ok l r' hl
        refine ⟨?_, ?_⟩
        · intro b hb
          rcases List.mem_cons.1 hb with rfl | hb
          · exact ⟨i, hf, fun x hx => List.mem_append_left _ hx⟩
          · obtain ⟨j, hj, hm⟩ := h1 b hb
            exact ⟨j, hj, fun x hx => List.mem_append_right _ (hm x hx)⟩
        · intro x hx
          rcases List.mem_append.1 hx with hx | hx
          · exact ⟨a, by simp, i, hf, hx⟩
          · obtain ⟨b, hb, j, hj, hm⟩ := h2 x hx
            exact ⟨b, by simp [hb], j, hj, hm⟩
      · cases h
      · cases h
    · cases h
    · cases h

theorem concatRes_spec {α β : Type} {f : α → Res (List β)} : ∀ (l : List α), (∀ a ∈ l, ∃ i, f a = .ok i) → ∃ r, concatRes f l = .ok r
  | [], _ => ⟨[], rfl⟩
  | a :: l, h => by
    obtain ⟨i, hi⟩ := h a (by simp)
    obtain ⟨r, hr⟩ := concatRes_spec l (fun b hb => h b (by simp [hb]))
    exact ⟨i ++ r, by unfold concatRes; rw [hi, Res.bind_ok, hr, Res.bind_ok]; rfl⟩

/-! ### Segments that miss the contour -/

/-- Edges accepted by the library and whose supporting line is computed right. -/
abbrev GoodEdges (t : Thr ℝ) (pts : List (Pt ℝ)) : Prop := ∀ e ∈ polyEdges pts, GoodSeg t e

theorem goodSeg_fix {t : Thr ℝ} {e : Seg} (h : GoodSeg t e) : GoodSeg t (fixOrder e.1 e.2) :=
  ⟨by rw [Pip.eucl_fix]; exact h.1, Pip.goodSlope_fix h.2⟩

theorem segAngle_fix_left (e s : Seg) : segAngle (fixOrder e.1 e.2) s = segAngle e s := by
  rcases Pip.fixOrder_cases e.1 e.2 with h | h <;> rw [h]
  exact Pip.segAngle_swap_left _ _

/-- Segment with an end far from the contour, no intersection found: the segment misses the edge. -/
theorem miss_of_none {t : Thr ℝ} (h1 : dblEps < t.nullDistance) (h2 : 0 < t.nullAngleValue) {e s : Seg} (he : GoodSeg t e) (hs : GoodSeg t s)
    (hfar : ∀ q, OnSeg e.1 e.2 q → t.nullDistance ≤ eucl s.1 q)
    (ha : (∃ q, OnSeg e.1 e.2 q ∧ OnSeg s.1 s.2 q) → t.nullAngleValue ≤ segAngle e s)
    (h : segInter t (fixOrder e.1 e.2) s = .ok none) (q : Pt ℝ) (hq : OnSeg s.1 s.2 q) : ¬ OnSeg e.1 e.2 q := by
  intro hqe
  have hne : ¬ SegEq t (fixOrder e.1 e.2) s := by
    rintro ⟨hh, -⟩
    have hon : OnSeg e.1 e.2 (fixOrder e.1 e.2).1 := Pip.onSeg_fix.1 (onSeg_left _ _)
    have := hfar _ hon
    rw [PtEq, ptDist_eucl, eucl_comm] at hh
    linarith
  have := Props.C22_complete_partial t h1 h2 _ s (goodSeg_fix he) hs hne (by rw [segAngle_fix_left]; exact ha ⟨q, hqe, hq⟩) q
    (Pip.onSeg_fix.2 hqe) hq
  rw [h] at this
  cases this

/-- A found intersection shows a point of the segment close to the contour. -/
theorem near_of_some {t : Thr ℝ} (h1 : dblEps < t.nullDistance) (h2 : 0 < t.nullAngleValue) {e s : Seg} (he : GoodSeg t e) (hs : GoodSeg t s)
    {p : Pt ℝ} (h : segInter t (fixOrder e.1 e.2) s = .ok (some p)) : ∃ q, OnSeg s.1 s.2 q ∧ ∃ q', OnSeg e.1 e.2 q' ∧ eucl q q' < t.nullDistance := by
  obtain ⟨-, ⟨q', a1, a2⟩, q, b1, b2⟩ := Props.C22_sound_partial t h1 h2 _ s (goodSeg_fix he) hs p h
  refine ⟨q, b1, q', Pip.onSeg_fix.1 a1, ?_⟩
  have := eucl_triangle q p q'
  rw [eucl_comm q p] at this
  linarith

theorem segInter_ok' {t : Thr ℝ} (h1 : dblEps < t.nullDistance) {e s : Seg} (he : t.nullDistance ≤ eucl e.1 e.2) (hs : t.nullDistance ≤ eucl s.1 s.2) :
    ∃ i, segInter t (fixOrder e.1 e.2) s = .ok i := Pip.segInter_ok h1 (by rw [Pip.eucl_fix]; exact he) hs

/-! ### Contour outside of a circle -/

theorem edges_chain {P : Type} (pts : List P) (v : P) (l : List P) (hp : pts = v :: l) (Q : P → Prop) (h0 : Q v) (h : ∀ e ∈ polyEdges pts, Q e.1 → Q e.2) :
    ∀ p ∈ pts, Q p := by
  have key : ∀ i (hi : i < pts.length), Q pts[i] := by
    intro i
    induction i with
    | zero => intro hi; subst hp; exact h0
    | succ i ih =>
      intro hi
      have hi' : i < pts.length := by omega
      have hm : (pts[i], pts[i + 1]) ∈ polyEdges pts := by
        unfold polyEdges
        rw [List.mem_iff_getElem]
        refine ⟨i, by simp [hi'], ?_⟩
        simp [List.getElem_rotate, Nat.mod_eq_of_lt hi]
      exact h _ hm (ih hi')
  intro p hp
  obtain ⟨i, hi, rfl⟩ := List.mem_iff_getElem.1 hp
  exact key i hi

/-- A segment that starts outside of a circle and does not meet it stays outside. -/
theorem stays_out {c : Pt ℝ} {r : ℝ} {e : Seg} (h0 : r ≤ eucl e.1 c) (h : ∀ q, OnSeg e.1 e.2 q → eucl q c ≠ r) (q : Pt ℝ) (hq : OnSeg e.1 e.2 q) :
    r < eucl q c := by
  by_contra hc
  obtain ⟨k, k0, k1, rfl⟩ := hq
  have hcont : Continuous (fun m : ℝ => eucl (e.1.1 + m * (e.2.1 - e.1.1), e.1.2 + m * (e.2.2 - e.1.2)) c) := by
    unfold eucl; fun_prop
  have := intermediate_value_Icc' k0 hcont.continuousOn
  obtain ⟨m, ⟨m0, m1⟩, hm⟩ := this ⟨not_lt.1 hc, by simpa using h0⟩
  exact h _ ⟨m, m0, le_trans m1 k1, rfl⟩ hm

theorem contour_out {pts : List (Pt ℝ)} {v : Pt ℝ} {l : List (Pt ℝ)} (hp : pts = v :: l) {c : Pt ℝ} {r : ℝ} (h0 : r ≤ eucl v c)
    (h : ∀ e ∈ polyEdges pts, ∀ q, OnSeg e.1 e.2 q → eucl q c ≠ r) : ∀ e ∈ polyEdges pts, ∀ q, OnSeg e.1 e.2 q → r < eucl q c := by
  have hv := edges_chain pts v l hp (fun p => r ≤ eucl p c) h0 (fun e he hh => (stays_out hh (h e he) _ (onSeg_right _ _)).le)
  intro e he q hq
  exact stays_out (hv _ (Pip.edges_mem he).1) (h e he) q hq

theorem disk_inside {pts : List (Pt ℝ)} {c : Pt ℝ} {r : ℝ} (hc : EvenOdd pts c) (h : ∀ e ∈ polyEdges pts, ∀ q, OnSeg e.1 e.2 q → r < eucl q c)
    (q : Pt ℝ) (hq : eucl q c ≤ r) : EvenOdd pts q := by
  refine (parity_const (p := c) (q := q) ?_).1 hc
  rintro e he x ⟨k, k0, k1, rfl⟩ hx
  have := h e he _ hx
  have h2 : eucl (c.1 + k * (q.1 - c.1), c.2 + k * (q.2 - c.2)) c = k * eucl q c := by
    have hn := mul_nonneg k0 (eucl_nonneg q c)
    rw [eucl_eq_iff hn, mul_pow, eucl_sq]; ring
  rw [h2] at this
  have := mul_le_of_le_one_left (eucl_nonneg q c) k1
  linarith

theorem circInPoly_eq {t : Thr ℝ} {pts l : List (Pt ℝ)} {v : Pt ℝ} {c : Circle} (hs : isSimple (segInterB t) true pts = true) (hp : pts = v :: l) :
    circInPoly t true pts c = (if PtInCircle v c then Res.ok false else do
          if ← ptInsidePoly t true pts c.center then do
            let i ← polyInterCircle t true pts c
            pure i.isEmpty
          else pure false) := by
  subst hp
  unfold circInPoly
  rw [hs]
  simp only [Bool.not_true, Bool.false_eq_true, if_false]

/-! ### Containment in a polygon -/

theorem allRes_false {α : Type} {f : α → Res Bool} : ∀ (l : List α), allRes f l = .ok false → ∃ a ∈ l, f a = .ok false
  | [], h => by cases h
  | a :: l, h => by
    unfold allRes at h
    rcases hf : f a with b | _ | _ <;> rw [hf] at h
    · cases b
      · exact ⟨a, by simp, hf⟩
      · obtain ⟨x, hx, h'⟩ := allRes_false l h
        exact ⟨x, by simp [hx], h'⟩
    · cases h
    · cases h

theorem inside_facts {t : Thr ℝ} (h1 : dblEps < t.nullDistance) (h2 : 0 < t.nullAngleValue) (ho : 0 < t.nullOrthogDistance) {outer : List (Pt ℝ)} {p : Pt ℝ}
    (hg : GoodRefs t outer p) (h : ptInsidePoly t true outer p = .ok true) :
    3 ≤ outer.length ∧ GoodEdges t outer ∧ EvenOdd outer p ∧ FarFromContour t.nullDistance outer p ∧ ∃ lo hi, IsTightBox (fun q => q ∈ outer) lo hi := by
  have hs : isSimple (segInterB t) true outer = true := by
    by_contra hc
    rw [Props.C74_not_simple t true outer p (Or.inr (by simpa using hc))] at h
    cases h
  obtain ⟨a1, -, a3⟩ := Props.C74_sound_partial t h1 h2 ho outer p hg h
  obtain ⟨h3, lo, hi, hT, -, -, hcase⟩ := Pip.answer_cases ho hs h
  rcases hcase with ⟨hb, -⟩ | ⟨-, hlen, -⟩
  · cases hb
  · exact ⟨h3, fun e he => ⟨hlen e he, hg.1 e he⟩, a1, a3, lo, hi, hT⟩

theorem outside_facts {t : Thr ℝ} (h1 : dblEps < t.nullDistance) (h2 : 0 < t.nullAngleValue) (ho : 0 < t.nullOrthogDistance) {outer : List (Pt ℝ)} {p : Pt ℝ}
    (hs : isSimple (segInterB t) true outer = true) (hg : GoodRefs t outer p) (hf : FarFromLines t.nullDistance outer p)
    (h : ptInsidePoly t true outer p = .ok false) : ¬ EvenOdd outer p := by
  intro he
  exact absurd ((Props.C74_partial t h1 h2 ho outer p hs hg hf false h).2 he) (by simp)

theorem clear_fix {t : Thr ℝ} {outer : List (Pt ℝ)} {s : Seg} (h : ClearCrossings t outer s) : ClearCrossings t outer (fixOrder s.1 s.2) := by
  refine ⟨Pip.goodSlope_fix h.1, ?_⟩
  rintro e he ⟨q, a, b⟩
  have := h.2 e he ⟨q, a, Pip.onSeg_fix.1 b⟩
  rcases Pip.fixOrder_cases s.1 s.2 with hx | hx <;> rw [hx]
  · exact this
  · rw [Pip.segAngle_swap_right]; exact this

/-- A segment with its first end inside and far from the contour, for which no intersection is found, is inside. -/
theorem seg_within {t : Thr ℝ} (h1 : dblEps < t.nullDistance) (h2 : 0 < t.nullAngleValue) {outer : List (Pt ℝ)} {s : Seg} (hge : GoodEdges t outer)
    (hl : t.nullDistance ≤ eucl s.1 s.2) (hcl : ClearCrossings t outer s) (hE : EvenOdd outer s.1) (hF : FarFromContour t.nullDistance outer s.1)
    (hn : ∀ e ∈ polyEdges outer, segInter t (fixOrder e.1 e.2) s = .ok none) (q : Pt ℝ) (hq : OnSeg s.1 s.2 q) : InPolygon outer q := by
  have hmiss : ∀ e ∈ polyEdges outer, ∀ x, OnSeg s.1 s.2 x → ¬ OnSeg e.1 e.2 x := fun e he x hx =>
    miss_of_none h1 h2 (hge e he) ⟨hl, hcl.1⟩ (hF e he) (hcl.2 e he) (hn e he) x hx
  refine ⟨?_, ?_⟩
  · refine (parity_const (p := s.1) (q := q) ?_).1 hE
    intro e he x hx
    exact hmiss e he x (onSeg_trans (onSeg_left _ _) hq hx)
  · rintro ⟨e, he, hqe⟩
    exact hmiss e he q hq hqe

theorem near_out {t : Thr ℝ} (h1 : dblEps < t.nullDistance) (h2 : 0 < t.nullAngleValue) {outer : List (Pt ℝ)} {s : Seg} (hge : GoodEdges t outer)
    (hl : t.nullDistance ≤ eucl s.1 s.2) (hg : GoodSlope t s.1 s.2) {e : Seg} (he : e ∈ polyEdges outer) {p : Pt ℝ}
    (h : segInter t (fixOrder e.1 e.2) s = .ok (some p)) : ∃ q, OnSeg s.1 s.2 q ∧ OutOrNear t.nullDistance outer q := by
  obtain ⟨q, a, q', b, c⟩ := near_of_some h1 h2 (hge e he) ⟨hl, hg⟩ h
  exact ⟨q, a, Or.inr ⟨q', ⟨e, he, b⟩, c⟩⟩

theorem polyInterSeg_nil {t : Thr ℝ} {outer : List (Pt ℝ)} (h3 : 3 ≤ outer.length) {s : Seg} (h : polyInterSeg t true outer s = .ok []) :
    ∀ e ∈ polyEdges outer, segInter t (fixOrder e.1 e.2) s = .ok none := by
  unfold polyInterSeg at h
  rw [Pip.segPairs_edges h3] at h
  rcases hp : polySegs t (polyEdges outer) with segs | _ | _ <;> rw [hp] at h
  · obtain ⟨rfl, -⟩ := Pip.polySegs_spec t _ _ hp
    obtain ⟨m1, -⟩ := concatRes_ok _ _ h
    intro e he
    obtain ⟨i, hi, hi'⟩ := m1 _ (List.mem_map_of_mem (f := fun e : Seg => fixOrder e.1 e.2) he)
    rcases hr : segInter t (fixOrder e.1 e.2) s with o | _ | _ <;> rw [hr] at hi
    · cases hi
      cases o
      · rfl
      · simp at hi'
    · cases hi
    · cases hi
  · cases h
  · cases h

theorem polyInterSeg_mem {t : Thr ℝ} {outer : List (Pt ℝ)} (h3 : 3 ≤ outer.length) {s : Seg} {r : List (Pt ℝ)} (h : polyInterSeg t true outer s = .ok r)
    {p : Pt ℝ} (hp : p ∈ r) : ∃ e ∈ polyEdges outer, segInter t (fixOrder e.1 e.2) s = .ok (some p) := by
  unfold polyInterSeg at h
  rw [Pip.segPairs_edges h3] at h
  rcases hp : polySegs t (polyEdges outer) with segs | _ | _ <;> rw [hp] at h
  · obtain ⟨rfl, -⟩ := Pip.polySegs_spec t _ _ hp
    obtain ⟨-, m2⟩ := concatRes_ok _ _ h
    obtain ⟨a, ha, i, hi, hpi⟩ := m2 p ‹_›
    obtain ⟨e, he, rfl⟩ := List.mem_map.1 ha
    refine ⟨e, he, ?_⟩
    rcases hr : segInter t (fixOrder e.1 e.2) s with o | _ | _ <;> rw [hr] at hi
    · cases hi
      cases o with
      | none => simp at hpi
      | some o => simp at hpi; rw [hpi]
    · cases hi
    · cases hi
  · cases h
  · cases h

theorem polyInterPoly_eq {t : Thr ℝ} {closed closed' : Bool} {pts outer : List (Pt ℝ)} {r : List (Pt ℝ)} (h : polyInterPoly t closed pts closed' outer = .ok r) :
    ∃ l, concatRes (fun e : Seg => polyInterSeg t closed' outer e) ((segPairs closed pts).map (fun e => fixOrder e.1 e.2)) = .ok l ∧ l = r := by
  unfold polyInterPoly at h
  rcases hp : polySegs t (segPairs closed pts) with segs | _ | _ <;> rw [hp] at h
  · obtain ⟨rfl, -⟩ := Pip.polySegs_spec t _ _ hp
    simp only [Res.bind_ok] at h
    refine ⟨r, ?_, rfl⟩
    cases hs : (segPairs closed pts).map (fun e => fixOrder e.1 e.2) with
    | nil => rw [hs] at h; simpa [concatRes] using h
    | cons a l =>
      rw [hs] at h
      simp only at h
      rcases hq : polySegs t (segPairs closed' outer) with segs' | _ | _ <;> rw [hq] at h
      · rw [Res.bind_ok] at h
        rw [← h]
        unfold segsInterSegs
        congr 1
        funext e
        unfold polyInterSeg
        rw [hq, Res.bind_ok]
      · cases h
      · cases h
  · cases h
  · cases h

theorem segPairs_edgesOf {P : Type} {closed : Bool} {pts : List P} (h : 2 ≤ pts.length) : segPairs closed pts = edgesOf closed pts := by
  unfold segPairs edgesOf
  rw [if_neg (by omega)]
  cases closed
  · simp [openPairs]
  · simp only [if_true]
    rw [cycPairs_eq]; rfl

theorem extent_poly {closed : Bool} {pts : List (Pt ℝ)} (h : 2 ≤ pts.length) {q : Pt ℝ} (hq : Extent (.poly closed pts) q) :
    ∃ e ∈ edgesOf closed pts, OnSeg e.1 e.2 q := by
  obtain ⟨a, b, l, rfl⟩ : ∃ a b l, pts = a :: b :: l := by
    rcases pts with _ | ⟨a, _ | ⟨b, l⟩⟩
    · simp at h
    · simp at h
    · exact ⟨a, b, l, rfl⟩
  have key : ∀ c d, (c, d) ∈ (a :: b :: l).zip ((a :: b :: l).tail ++ if closed then (a :: b :: l).head?.toList else []) → (c, d) ∈ edgesOf closed (a :: b :: l) := by
    intro c d hcd
    unfold edgesOf polyEdges
    cases closed
    · simpa using hcd
    · simpa using hcd
  have hv : ∀ v ∈ a :: b :: l, ∃ e ∈ edgesOf closed (a :: b :: l), OnSeg e.1 e.2 v := by
    intro v hv
    cases closed
    · unfold edgesOf
      simp only [Bool.false_eq_true, if_false]
      obtain ⟨i, hi, rfl⟩ := List.mem_iff_getElem.1 hv
      by_cases h0 : i = 0
      · subst h0
        exact ⟨(a, b), by simp, onSeg_left _ _⟩
      · obtain ⟨j, rfl⟩ := Nat.exists_eq_succ_of_ne_zero h0
        refine ⟨((a :: b :: l)[j], (a :: b :: l)[j + 1]), ?_, onSeg_right _ _⟩
        rw [List.mem_iff_getElem]
        refine ⟨j, by simp at hi ⊢; omega, ?_⟩
        rw [List.getElem_zip]; rfl
    · obtain ⟨e, he, hh⟩ := Pip.edges_of_mem hv
      exact ⟨e, by simpa [edgesOf] using he, by rw [← hh]; exact onSeg_left _ _⟩
  rcases hq with hq | ⟨c, d, hcd, hq⟩
  · exact hv q hq
  · exact ⟨(c, d), key c d hcd, hq⟩

theorem edgesOf_mem {P : Type} {closed : Bool} {pts : List P} {e : P × P} (h : e ∈ edgesOf closed pts) : e.1 ∈ pts ∧ e.2 ∈ pts := by
  unfold edgesOf at h
  cases closed
  · simp only [Bool.false_eq_true, if_false] at h
    have := List.of_mem_zip h
    exact ⟨this.1, List.mem_of_mem_tail this.2⟩
  · exact Pip.edges_mem h

theorem edgesOf_extent {closed : Bool} {pts : List (Pt ℝ)} {e : Seg} (h : e ∈ edgesOf closed pts) {q : Pt ℝ} (hq : OnSeg e.1 e.2 q) :
    Extent (.poly closed pts) q := by
  refine Or.inr ⟨e.1, e.2, ?_, hq⟩
  unfold edgesOf polyEdges at h
  cases closed
  · simpa using h
  · cases pts with
    | nil => simp at h
    | cons a l => simpa using h

/-! ### Rectangles in a polygon -/

/-- Signed excess of a point over a rectangle: negative strictly inside, null on the border. -/
noncomputable def excess (r : FRect ℝ) (q : Pt ℝ) : ℝ := max (max (r.p1.1 - q.1) (q.1 - r.p2.1)) (max (r.p1.2 - q.2) (q.2 - r.p2.2))

theorem excess_le {r : FRect ℝ} {q : Pt ℝ} : excess r q ≤ 0 ↔ Extent (.rect r) q := by
  unfold excess Extent
  simp only [max_le_iff, sub_nonpos]
  tauto

theorem vert_side {a y y' : ℝ} {q : Pt ℝ} (hx : q.1 = a) (h1 : y ≤ q.2) (h2 : q.2 ≤ y') : OnSeg (a, y) (a, y') q := by
  rcases eq_or_lt_of_le (le_trans h1 h2) with h | h
  · have : q.2 = y := le_antisymm (by linarith) h1
    exact ⟨0, le_rfl, zero_le_one, by apply Prod.ext <;> simp [hx, this]⟩
  · have h3 : 0 < y' - y := by linarith
    refine ⟨(q.2 - y) / (y' - y), div_nonneg (by linarith) h3.le, by rw [div_le_one h3]; linarith, ?_⟩
    apply Prod.ext
    · simp [hx]
    · simp only; field_simp; ring

theorem horiz_side {b x x' : ℝ} {q : Pt ℝ} (hy : q.2 = b) (h1 : x ≤ q.1) (h2 : q.1 ≤ x') : OnSeg (x, b) (x', b) q := by
  rcases eq_or_lt_of_le (le_trans h1 h2) with h | h
  · have : q.1 = x := le_antisymm (by linarith) h1
    exact ⟨0, le_rfl, zero_le_one, by apply Prod.ext <;> simp [hy, this]⟩
  · have h3 : 0 < x' - x := by linarith
    refine ⟨(q.1 - x) / (x' - x), div_nonneg (by linarith) h3.le, by rw [div_le_one h3]; linarith, ?_⟩
    apply Prod.ext
    · simp only; field_simp; ring
    · simp [hy]

theorem excess_zero {r : FRect ℝ} {q : Pt ℝ} (h : excess r q = 0) : ∃ e ∈ rectSides r, OnSeg e.1 e.2 q := by
  obtain ⟨a, b, c, d⟩ := excess_le.1 h.le
  have : r.p1.1 = q.1 ∨ q.1 = r.p2.1 ∨ r.p1.2 = q.2 ∨ q.2 = r.p2.2 := by
    by_contra hc
    push Not at hc
    obtain ⟨c1, c2, c3, c4⟩ := hc
    have : excess r q < 0 := by
      unfold excess
      simp only [max_lt_iff, sub_neg]
      exact ⟨⟨lt_of_le_of_ne a c1, lt_of_le_of_ne b c2⟩, lt_of_le_of_ne c c3, lt_of_le_of_ne d c4⟩
    linarith
  unfold rectSides
  rcases this with h | h | h | h
  · exact ⟨((r.p1.1, r.p1.2), (r.p1.1, r.p2.2)), by simp, vert_side h.symm c d⟩
  · exact ⟨((r.p2.1, r.p2.2), (r.p2.1, r.p1.2)), by simp, onSeg_comm (vert_side h c d)⟩
  · exact ⟨((r.p2.1, r.p1.2), (r.p1.1, r.p1.2)), by simp, onSeg_comm (horiz_side h.symm a b)⟩
  · exact ⟨((r.p1.1, r.p2.2), (r.p2.1, r.p2.2)), by simp, horiz_side h a b⟩

theorem rect_out {r : FRect ℝ} {e : Seg} (h0 : ¬ Extent (.rect r) e.1) (h : ∀ q, OnSeg e.1 e.2 q → ∀ s ∈ rectSides r, ¬ OnSeg s.1 s.2 q) (q : Pt ℝ)
    (hq : OnSeg e.1 e.2 q) : ¬ Extent (.rect r) q := by
  intro hc
  rw [← excess_le] at h0 hc
  obtain ⟨k, k0, k1, rfl⟩ := hq
  have hcont : Continuous (fun m : ℝ => excess r (e.1.1 + m * (e.2.1 - e.1.1), e.1.2 + m * (e.2.2 - e.1.2))) := by
    unfold excess; fun_prop
  obtain ⟨m, ⟨m0, m1⟩, hm⟩ := intermediate_value_Icc' k0 hcont.continuousOn ⟨hc, by simpa using (not_le.1 h0).le⟩
  obtain ⟨s, hs, ho⟩ := excess_zero hm
  exact h _ ⟨m, m0, le_trans m1 k1, rfl⟩ s hs ho

/-- A rectangle whose border misses the contour, with a corner inside, is inside. -/
theorem rect_inside {r : FRect ℝ} {outer : List (Pt ℝ)} {lo hi : Pt ℝ} (hT : IsTightBox (fun q => q ∈ outer) lo hi) (hr : r.p1.1 ≤ r.p2.1 ∧ r.p1.2 ≤ r.p2.2)
    (h : ∀ s ∈ rectSides r, ∀ q, OnSeg s.1 s.2 q → InPolygon outer q) (q : Pt ℝ) (hq : Extent (.rect r) q) : InPolygon outer q := by
  have hcross : ∀ e ∈ polyEdges outer, ∀ q, OnSeg e.1 e.2 q → ∀ s ∈ rectSides r, ¬ OnSeg s.1 s.2 q :=
    fun e he q hq s hs ho => (h s hs q ho).2 ⟨e, he, hq⟩
  have hcorner : InPolygon outer r.p1 := h ((r.p1.1, r.p1.2), (r.p1.1, r.p2.2)) (by simp [rectSides]) _ (onSeg_left _ _)
  have hout : ∀ v ∈ outer, ¬ Extent (.rect r) v := by
    by_contra hc
    push Not at hc
    obtain ⟨v, hv, hin⟩ := hc
    have hall : ∀ v ∈ outer, Extent (.rect r) v := by
      obtain ⟨e0, he0, hev⟩ := Pip.edges_of_mem hv
      obtain ⟨v0, l, hp⟩ : ∃ v0 l, outer = v0 :: l := by
        cases outer with
        | nil => cases hv
        | cons a l => exact ⟨a, l, rfl⟩
      by_contra hc
      by_cases h0 : Extent (.rect r) v0
      · refine hc (edges_chain outer v0 l hp (fun p => Extent (.rect r) p) h0 (fun e he hh => ?_))
        by_contra hx
        exact rect_out (e := (e.2, e.1)) hx (fun q hq => hcross e he q (onSeg_comm hq)) e.1 (onSeg_right _ _) hh
      · exact edges_chain outer v0 l hp (fun p => ¬ Extent (.rect r) p) h0 (fun e he hh => rect_out hh (hcross e he) e.2 (onSeg_right _ _)) v hv hin
    have hnm : r.p1 ∉ outer := fun hm => by
      obtain ⟨e, he, hh⟩ := Pip.edges_of_mem hm
      exact hcorner.2 ⟨e, he, by rw [← hh]; exact onSeg_left _ _⟩
    obtain ⟨b1, -⟩ := Pip.evenOdd_box hT (fun e he ho => hcorner.2 ⟨e, he, ho⟩) hnm hcorner.1
    obtain ⟨w, hw, hw1⟩ := hT.left
    have := (hall w hw).1
    rw [hw1] at this
    linarith
  have hfree : ∀ e ∈ polyEdges outer, ∀ x, OnSeg e.1 e.2 x → ¬ Extent (.rect r) x := fun e he x hx =>
    rect_out (hout _ (Pip.edges_mem he).1) (hcross e he) x hx
  refine ⟨?_, fun ⟨e, he, ho⟩ => hfree e he q ho hq⟩
  refine (parity_const (p := r.p1) (q := q) ?_).1 hcorner.1
  rintro e he x ⟨k, k0, k1, rfl⟩ hx
  refine hfree e he _ hx ?_
  obtain ⟨a, b, c, d⟩ := hq
  have k1' : 0 ≤ 1 - k := by linarith
  refine ⟨?_, ?_, ?_, ?_⟩ <;> simp only <;> nlinarith [mul_nonneg k0 (sub_nonneg.2 a), mul_nonneg k0 (sub_nonneg.2 b), mul_nonneg k0 (sub_nonneg.2 c), mul_nonneg k0 (sub_nonneg.2 d), mul_nonneg k1' (sub_nonneg.2 hr.1), mul_nonneg k1' (sub_nonneg.2 hr.2)]

theorem rectSegs_spec {t : Thr ℝ} {r : FRect ℝ} {rs : List Seg} (h : rectSegs t r = .ok rs) :
    rs = (rectSides r).map (fun e => fixOrder e.1 e.2) ∧ ∀ e ∈ rectSides r, t.nullDistance ≤ eucl e.1 e.2 := by
  have h' : polySegs t (rectSides r) = .ok rs := by
    rw [← h]
    unfold rectSides rectSegs
    simp only [polySegs]
    rcases segMake t false (r.p1.1, r.p1.2) (r.p1.1, r.p2.2) with a | _ | _
    · rcases segMake t false (r.p1.1, r.p2.2) (r.p2.1, r.p2.2) with a | _ | _
      · rcases segMake t false (r.p2.1, r.p2.2) (r.p2.1, r.p1.2) with a | _ | _
        · rcases segMake t false (r.p2.1, r.p1.2) (r.p1.1, r.p1.2) with a | _ | _ <;> rfl
        · rfl
        · rfl
      · rfl
      · rfl
    · rfl
    · rfl
  exact Pip.polySegs_spec t _ _ h'

theorem rectSides_mem {r : FRect ℝ} {e : Seg} (h : e ∈ rectSides r) : e.1 ∈ r.get4Pts ∧ e.2 ∈ r.get4Pts := by
  unfold rectSides at h
  simp only [List.mem_cons, List.not_mem_nil, or_false] at h
  rcases h with rfl | rfl | rfl | rfl <;> simp [FRect.get4Pts]

theorem rectSides_slope {t : Thr ℝ} (ht : t.nullDenom ≤ 1) {r : FRect ℝ} {e : Seg} (h : e ∈ rectSides r) : GoodSlope t e.1 e.2 := by
  have key : ∀ x a b : ℝ, GoodSlope t (x, a) (x, b) := by
    intro x a b
    refine Or.inr ?_
    have : eucl (x, a) (x, b) = |a - b| := by
      rw [eucl_eq_iff (abs_nonneg _), sq_abs]; simp
    rw [this]
    exact mul_le_of_le_one_left (abs_nonneg _) ht
  unfold rectSides at h
  simp only [List.mem_cons, List.not_mem_nil, or_false] at h
  rcases h with rfl | rfl | rfl | rfl
  · exact key _ _ _
  · exact Or.inl rfl
  · exact key _ _ _
  · exact Or.inl rfl

theorem rectSides_extent {r : FRect ℝ} (hr : r.p1.1 ≤ r.p2.1 ∧ r.p1.2 ≤ r.p2.2) {e : Seg} (h : e ∈ rectSides r) {q : Pt ℝ} (hq : OnSeg e.1 e.2 q) :
    Extent (.rect r) q := by
  obtain ⟨k, k0, k1, rfl⟩ := hq
  have a := mul_nonneg k0 (sub_nonneg.2 hr.1)
  have b := mul_nonneg k0 (sub_nonneg.2 hr.2)
  have c := mul_nonneg (sub_nonneg.2 k1) (sub_nonneg.2 hr.1)
  have d := mul_nonneg (sub_nonneg.2 k1) (sub_nonneg.2 hr.2)
  have h1 := hr.1
  have h2 := hr.2
  unfold rectSides at h
  simp only [List.mem_cons, List.not_mem_nil, or_false] at h
  rcases h with rfl | rfl | rfl | rfl <;> (refine ⟨?_, ?_, ?_, ?_⟩ <;> simp only <;> nlinarith)

theorem rectSegs_ok {t : Thr ℝ} {r : FRect ℝ} (h : ∀ e ∈ rectSides r, t.nullDistance ≤ eucl e.1 e.2) :
    rectSegs t r = .ok ((rectSides r).map (fun e => fixOrder e.1 e.2)) := by
  unfold rectSides at h ⊢
  simp only [List.forall_mem_cons, List.not_mem_nil, false_imp_iff, implies_true, and_true] at h
  obtain ⟨a, b, c, d⟩ := h
  unfold rectSegs
  rw [show r.p1 = (r.p1.1, r.p1.2) from rfl, show r.p2 = (r.p2.1, r.p2.2) from rfl]
  simp only [segMake_eq false a, segMake_eq false b, segMake_eq false c, segMake_eq false d, Bool.false_eq_true, if_false, Res.bind_ok, List.map_cons, List.map_nil]
  rfl

theorem polyInterSeg_ok {t : Thr ℝ} (h1 : dblEps < t.nullDistance) {outer : List (Pt ℝ)} (h3 : 3 ≤ outer.length)
    (he : ∀ e ∈ polyEdges outer, t.nullDistance ≤ eucl e.1 e.2) {s : Seg} (hl : t.nullDistance ≤ eucl s.1 s.2) : ∃ i, polyInterSeg t true outer s = .ok i := by
  unfold polyInterSeg
  rw [Pip.segPairs_edges h3, Pip.polySegs_ok t _ he, Res.bind_ok]
  apply concatRes_spec
  intro a ha
  obtain ⟨e, hm, rfl⟩ := List.mem_map.1 ha
  obtain ⟨i, hi⟩ := segInter_ok' h1 (he e hm) hl
  exact ⟨i.toList, by rw [hi]; rfl⟩

end H2d.Inside
