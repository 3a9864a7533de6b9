import Verif.Model.Pip
import Verif.Spec.Pip
import Verif.Lemmas.Polyline
import Verif.Lemmas.BB
import Verif.Props.SegmentInter
import Verif.Props.Segment
import Mathlib.Tactic.Linarith
import Mathlib.Tactic.FieldSimp
import Mathlib.Tactic.LinearCombination

/-! # Lemmas on the even-odd rule -/

set_option linter.unusedSectionVars false
set_option linter.unusedSimpArgs false

namespace H2d.Pip

open H2d.Spec

section parity
variable {K : Type} [Field K] [LinearOrder K] [IsStrictOrderedRing K]

/-- Position of a vertex (relative to `p`) with respect to the path made of the segment from far left to `p`, of direction `(D, m)`, then of the half line. -/
def Above (D m x h : K) : Prop := if x < 0 then 0 < D * h - m * x else 0 < h

/-- The edge meets the segment. -/
def Meets (D m xa ha xb hb : K) : Prop :=
  ∃ k, 0 ≤ k ∧ k ≤ 1 ∧ (1 - k) * (D * ha - m * xa) + k * (D * hb - m * xb) = 0 ∧ (1 - k) * xa + k * xb ≤ 0

/-- The edge meets the half line. -/
def Ray (xa ha xb hb : K) : Prop :=
  (0 < ha ∧ hb ≤ 0 ∧ xa * hb - xb * ha < 0) ∨ (0 < hb ∧ ha ≤ 0 ∧ 0 < xa * hb - xb * ha)

theorem Meets_comm {D m xa ha xb hb : K} : Meets D m xa ha xb hb ↔ Meets D m xb hb xa ha := by
  unfold Meets
  constructor <;> rintro ⟨k, h0, h1, h2, h3⟩ <;>
    exact ⟨1 - k, by linarith, by linarith, by linear_combination h2, by linarith⟩

theorem Ray_comm {xa ha xb hb : K} : Ray xa ha xb hb ↔ Ray xb hb xa ha := by
  unfold Ray
  constructor <;> rintro (⟨h1, h2, h3⟩ | ⟨h1, h2, h3⟩)
  · exact Or.inr ⟨h1, h2, by linarith⟩
  · exact Or.inl ⟨h1, h2, by linarith⟩
  · exact Or.inr ⟨h1, h2, by linarith⟩
  · exact Or.inl ⟨h1, h2, by linarith⟩

theorem meets_of_sign {D m xa ha xb hb fa fb w : K} (hD : 0 < D) (xab : xa < 0) (xb0 : 0 ≤ xb)
    (hid : xb * fa - xa * fb = - (D * w)) (hfa0 : fa ≠ 0) (hfa : fa = D * ha - m * xa := by rfl) (hfb : fb = D * hb - m * xb := by rfl)
    (h : 0 < fa * w) : Meets D m xa ha xb hb := by
  unfold Meets
  rw [← hfa, ← hfb]
  clear hfa hfb
  rcases lt_or_gt_of_ne hfa0 with hf | hf
  · have hw' : w < 0 := by by_contra hh; exact absurd h (not_lt.2 (mul_nonpos_of_nonpos_of_nonneg hf.le (not_lt.1 hh)))
    have hDw : 0 < - (D * w) := by have := mul_pos hD (neg_pos.2 hw'); linarith
    have h2 : 0 ≤ fb := by
      by_contra hh
      have := mul_pos (neg_pos.2 xab) (neg_pos.2 (not_le.1 hh))
      have := mul_nonneg xb0 (neg_nonneg.2 hf.le)
      linarith
    have h1 : fa - fb < 0 := by linarith
    have hne := h1.ne
    refine ⟨fa / (fa - fb), div_nonneg_of_nonpos hf.le h1.le, ?_, ?_, ?_⟩
    · rw [div_le_one_of_neg h1]; linarith
    · field_simp; ring
    · have : (1 - fa / (fa - fb)) * xa + fa / (fa - fb) * xb = (- (D * w)) / (fa - fb) := by
        field_simp; linear_combination hid
      rw [this]
      exact div_nonpos_of_nonneg_of_nonpos hDw.le h1.le
  · have hw' : 0 < w := by by_contra hh; exact absurd h (not_lt.2 (mul_nonpos_of_nonneg_of_nonpos hf.le (not_lt.1 hh)))
    have hDw : 0 < D * w := mul_pos hD hw'
    have h2 : fb ≤ 0 := by
      by_contra hh
      have := mul_pos (neg_pos.2 xab) (not_le.1 hh)
      have := mul_nonneg xb0 hf.le
      linarith
    have h1 : 0 < fa - fb := by linarith
    have hne := h1.ne'
    refine ⟨fa / (fa - fb), div_nonneg hf.le h1.le, ?_, ?_, ?_⟩
    · rw [div_le_one h1]; linarith
    · field_simp; ring
    · have : (1 - fa / (fa - fb)) * xa + fa / (fa - fb) * xb = (- (D * w)) / (fa - fb) := by
        field_simp; linear_combination hid
      rw [this]
      exact div_nonpos_of_nonpos_of_nonneg (by linarith) h1.le

theorem sign_of_meets {D m xa ha xb hb fa fb w : K} (hD : 0 < D)
    (hid : xb * fa - xa * fb = - (D * w)) (hfa0 : fa ≠ 0) (w0 : w ≠ 0) (hfa : fa = D * ha - m * xa := by rfl) (hfb : fb = D * hb - m * xb := by rfl)
    (h : Meets D m xa ha xb hb) : 0 < fa * w := by
  obtain ⟨k, k0, k1, e1, e2⟩ := h
  rw [← hfa, ← hfb] at e1
  clear hfa hfb
  have kp : 0 < k := by
    rcases k0.lt_or_eq with h | h
    · exact h
    · rw [← h] at e1; simp at e1; exact absurd e1 hfa0
  by_contra hc
  have hlt : fa * w < 0 := lt_of_le_of_ne (not_lt.1 hc) (mul_ne_zero hfa0 w0)
  have h3 : fa * fa * ((1 - k) * xa + k * xb) = - (k * (D * (fa * w))) := by linear_combination fa * (k * hid + xa * e1)
  have h4 := mul_pos kp (mul_pos hD (neg_pos.2 hlt))
  have h5 := mul_nonneg (mul_self_nonneg fa) (neg_nonneg.2 e2)
  linarith

theorem edge_parity_aux {D m xa ha xb hb : K} (hD : 0 < D) (xab : xa < 0) (xb0 : 0 ≤ xb)
    (na : xa ≤ 0 → D * ha - m * xa ≠ 0)
    (np : ∀ k, 0 ≤ k → k ≤ 1 → (1 - k) * xa + k * xb = 0 → (1 - k) * ha + k * hb ≠ 0) :
    (Meets D m xa ha xb hb ↔ Ray xa ha xb hb) ↔ (Above D m xa ha ↔ Above D m xb hb) := by
  have hs : 0 < xb - xa := by linarith
  set w := xa * hb - xb * ha with hw
  set fa := D * ha - m * xa with hfa
  set fb := D * hb - m * xb with hfb
  have hid : xb * fa - xa * fb = - (D * w) := by rw [hfa, hfb, hw]; ring
  have hA : Above D m xa ha ↔ 0 < fa := by unfold Above; rw [if_pos xab]
  have hB : Above D m xb hb ↔ 0 < hb := by unfold Above; rw [if_neg (not_lt.2 xb0)]
  have hfa0 := na xab.le
  have w0 : w ≠ 0 := by
    intro h
    apply np (-xa / (xb - xa)) (div_nonneg (by linarith) hs.le) (by rw [div_le_one hs]; linarith)
    · field_simp; ring
    · field_simp; rw [hw] at h; linarith
  rw [hA, hB]
  have root : fa * w > 0 → Meets D m xa ha xb hb := meets_of_sign hD xab xb0 hid hfa0
  have noroot : Meets D m xa ha xb hb → 0 < fa * w := sign_of_meets hD hid hfa0 w0
  have hM : Meets D m xa ha xb hb ↔ 0 < fa * w := ⟨noroot, fun h => root h⟩
  rw [hM]
  rcases lt_or_gt_of_ne w0 with hw' | hw'
  · have hR : Ray xa ha xb hb ↔ hb ≤ 0 := by
      unfold Ray
      constructor
      · rintro (⟨-, h, -⟩ | ⟨-, -, h⟩)
        · exact h
        · linarith
      · intro h
        refine Or.inl ⟨?_, h, hw'⟩
        by_contra hh
        nlinarith [mul_nonneg (neg_nonneg.2 xab.le) (neg_nonneg.2 h), mul_nonneg xb0 (neg_nonneg.2 (not_lt.1 hh))]
    have hM' : 0 < fa * w ↔ fa < 0 := by
      constructor
      · intro h; by_contra hh; nlinarith
      · intro h; exact mul_pos_of_neg_of_neg h hw'
    rw [hR, hM']
    have : fa < 0 ↔ ¬ 0 < fa := by rw [not_lt]; exact ⟨le_of_lt, fun h => lt_of_le_of_ne h hfa0⟩
    rw [this, ← not_lt, not_iff_not]
  · have hR : Ray xa ha xb hb ↔ 0 < hb := by
      unfold Ray
      constructor
      · rintro (⟨-, -, h⟩ | ⟨h, -, -⟩)
        · linarith
        · exact h
      · intro h
        refine Or.inr ⟨h, ?_, hw'⟩
        by_contra hh
        nlinarith [mul_pos (neg_pos.2 xab) h, mul_nonneg xb0 (not_le.1 hh).le]
    have hM' : 0 < fa * w ↔ 0 < fa := by
      constructor
      · intro h; by_contra hh; nlinarith
      · intro h; exact mul_pos h hw'
    rw [hR, hM']

theorem edge_parity {D m xa ha xb hb : K} (hD : 0 < D)
    (na : xa ≤ 0 → D * ha - m * xa ≠ 0) (nb : xb ≤ 0 → D * hb - m * xb ≠ 0)
    (np : ∀ k, 0 ≤ k → k ≤ 1 → (1 - k) * xa + k * xb = 0 → (1 - k) * ha + k * hb ≠ 0) :
    (Meets D m xa ha xb hb ↔ Ray xa ha xb hb) ↔ (Above D m xa ha ↔ Above D m xb hb) := by
  rcases lt_or_ge xa 0 with h1 | h1 <;> rcases lt_or_ge xb 0 with h2 | h2
  · have hA : Above D m xa ha ↔ 0 < D * ha - m * xa := by unfold Above; rw [if_pos h1]
    have hB : Above D m xb hb ↔ 0 < D * hb - m * xb := by unfold Above; rw [if_pos h2]
    have hR : ¬ Ray xa ha xb hb := by
      rintro (⟨a, b, c⟩ | ⟨a, b, c⟩)
      · nlinarith [mul_pos (neg_pos.2 h2) a, mul_nonneg (neg_nonneg.2 h1.le) (neg_nonneg.2 b)]
      · nlinarith [mul_pos (neg_pos.2 h1) a, mul_nonneg (neg_nonneg.2 h2.le) (neg_nonneg.2 b)]
    have na := na h1.le
    have nb := nb h2.le
    rw [hA, hB]
    generalize hfa : D * ha - m * xa = fa at *
    generalize hfb : D * hb - m * xb = fb at *
    have hM : Meets D m xa ha xb hb ↔ fa * fb < 0 := by
      unfold Meets
      rw [hfa, hfb]
      constructor
      · rintro ⟨k, k0, k1, e1, -⟩
        have hne : fa * fb ≠ 0 := mul_ne_zero na nb
        by_contra hc
        have hp : 0 < fa * fb := lt_of_le_of_ne (not_lt.1 hc) hne.symm
        have : (1 - k) * (fa * fa) + k * (fa * fb) = 0 := by linear_combination fa * e1
        have hq := mul_self_pos.2 na
        have i1 := mul_nonneg (sub_nonneg.2 k1) hq.le
        have i2 := mul_nonneg k0 hp.le
        have z1 : (1 - k) * (fa * fa) = 0 := by linarith
        have z2 : k * (fa * fb) = 0 := by linarith
        rcases mul_eq_zero.1 z1 with h | h
        · rcases mul_eq_zero.1 z2 with h' | h'
          · linarith
          · exact hne h'
        · exact hq.ne' h
      · intro h
        rcases lt_or_gt_of_ne na with hf | hf
        · have : 0 < fb := by by_contra hh; nlinarith
          have hd : fa - fb < 0 := by linarith
          have hne := hd.ne
          refine ⟨fa / (fa - fb), div_nonneg_of_nonpos hf.le hd.le, by rw [div_le_one_of_neg hd]; linarith, by field_simp; ring, ?_⟩
          have k0 : 0 ≤ fa / (fa - fb) := div_nonneg_of_nonpos hf.le hd.le
          have k1 : fa / (fa - fb) ≤ 1 := by rw [div_le_one_of_neg hd]; linarith
          nlinarith
        · have : fb < 0 := by by_contra hh; nlinarith
          have hd : 0 < fa - fb := by linarith
          have k0 : 0 ≤ fa / (fa - fb) := div_nonneg hf.le hd.le
          have k1 : fa / (fa - fb) ≤ 1 := by rw [div_le_one hd]; linarith
          refine ⟨fa / (fa - fb), k0, k1, by field_simp; ring, ?_⟩
          nlinarith
    rw [hM]
    rcases lt_or_gt_of_ne na with hf | hf <;> rcases lt_or_gt_of_ne nb with hg | hg
    · have : 0 < fa * fb := mul_pos_of_neg_of_neg hf hg
      simp [hR, not_lt.2 this.le, not_lt.2 hf.le, not_lt.2 hg.le]
    · have : fa * fb < 0 := mul_neg_of_neg_of_pos hf hg
      simp [hR, this, not_lt.2 hf.le, hg]
    · have : fa * fb < 0 := mul_neg_of_pos_of_neg hf hg
      simp [hR, this, hf, not_lt.2 hg.le]
    · have : 0 < fa * fb := mul_pos hf hg
      simp [hR, not_lt.2 this.le, hf, hg]
  · exact edge_parity_aux hD h1 h2 na np
  · rw [Meets_comm, Ray_comm, iff_comm (a := Above D m xa ha)]
    exact edge_parity_aux hD h2 h1 nb (fun k k0 k1 e => by
      have := np (1 - k) (by linarith) (by linarith) (by linear_combination e)
      intro h; apply this; linear_combination h)
  · have hA : Above D m xa ha ↔ 0 < ha := by unfold Above; rw [if_neg (not_lt.2 h1)]
    have hB : Above D m xb hb ↔ 0 < hb := by unfold Above; rw [if_neg (not_lt.2 h2)]
    have hM : ¬ Meets D m xa ha xb hb := by
      rintro ⟨k, k0, k1, e1, e2⟩
      have x0 : (1 - k) * xa + k * xb = 0 :=
        le_antisymm e2 (add_nonneg (mul_nonneg (by linarith) h1) (mul_nonneg k0 h2))
      apply np k k0 k1 x0
      have : D * ((1 - k) * ha + k * hb) = 0 := by linear_combination e1 + m * x0
      exact (mul_eq_zero.1 this).resolve_left hD.ne'
    rw [hA, hB]
    rcases le_or_gt ha 0 with ga | ga <;> rcases le_or_gt hb 0 with gb | gb
    · have hR : ¬ Ray xa ha xb hb := by rintro (⟨a, b, c⟩ | ⟨a, b, c⟩) <;> linarith
      simp [hM, hR, not_lt.2 ga, not_lt.2 gb]
    · have hd : 0 < hb - ha := by linarith
      have hw : 0 ≤ xa * hb - xb * ha := by nlinarith [mul_nonneg h1 gb.le, mul_nonneg h2 (neg_nonneg.2 ga)]
      have hw' : xa * hb - xb * ha ≠ 0 := by
        intro hh
        apply np (- ha / (hb - ha)) (div_nonneg (by linarith) hd.le) (by rw [div_le_one hd]; linarith)
        · field_simp; linear_combination hh
        · field_simp; ring
      have hR : Ray xa ha xb hb := Or.inr ⟨gb, ga, lt_of_le_of_ne hw hw'.symm⟩
      simp [hM, hR, not_lt.2 ga, gb]
    · have hd : 0 < ha - hb := by linarith
      have hw : xa * hb - xb * ha ≤ 0 := by nlinarith [mul_nonneg h2 ga.le, mul_nonneg h1 (neg_nonneg.2 gb)]
      have hw' : xa * hb - xb * ha ≠ 0 := by
        intro hh
        apply np (ha / (ha - hb)) (div_nonneg ga.le hd.le) (by rw [div_le_one hd]; linarith)
        · field_simp; linear_combination -hh
        · field_simp; ring
      have hR : Ray xa ha xb hb := Or.inl ⟨ga, gb, lt_of_le_of_ne hw hw'⟩
      simp [hM, hR, not_lt.2 gb, ga]
    · have hR : ¬ Ray xa ha xb hb := by rintro (⟨a, b, c⟩ | ⟨a, b, c⟩) <;> linarith
      simp [hM, hR, ga, gb]

/-- The relative form of the crossing with the half line. -/
theorem crossesRay_iff (p a b : K × K) : CrossesRay p a b ↔ Ray (a.1 - p.1) (a.2 - p.2) (b.1 - p.1) (b.2 - p.2) := by
  unfold CrossesRay Ray
  have key : ∀ d : K, d ≠ 0 → (b.2 - a.2 = d) → a.1 + (p.2 - a.2) / (b.2 - a.2) * (b.1 - a.1) - p.1 =
      ((a.1 - p.1) * (b.2 - p.2) - (b.1 - p.1) * (a.2 - p.2)) / d := by
    intro d hd e
    rw [e]; field_simp; rw [← e]; ring
  constructor
  · rintro ⟨⟨h1, h2⟩ | ⟨h1, h2⟩, h3⟩
    · left
      have hd : b.2 - a.2 < 0 := by linarith
      have k := key _ hd.ne rfl
      refine ⟨by linarith, by linarith, ?_⟩
      have : 0 < ((a.1 - p.1) * (b.2 - p.2) - (b.1 - p.1) * (a.2 - p.2)) / (b.2 - a.2) := by rw [← k]; linarith
      by_contra hh
      exact absurd this (not_lt.2 (div_nonpos_of_nonneg_of_nonpos (not_lt.1 hh) hd.le))
    · right
      have hd : 0 < b.2 - a.2 := by linarith
      have k := key _ hd.ne' rfl
      refine ⟨by linarith, by linarith, ?_⟩
      have : 0 < ((a.1 - p.1) * (b.2 - p.2) - (b.1 - p.1) * (a.2 - p.2)) / (b.2 - a.2) := by rw [← k]; linarith
      by_contra hh
      exact absurd this (not_lt.2 (div_nonpos_of_nonpos_of_nonneg (not_lt.1 hh) hd.le))
  · rintro (⟨h1, h2, h3⟩ | ⟨h1, h2, h3⟩)
    · have hd : b.2 - a.2 < 0 := by linarith
      have k := key _ hd.ne rfl
      have := div_pos_of_neg_of_neg h3 hd
      exact ⟨Or.inl ⟨by linarith, by linarith⟩, by linarith⟩
    · have hd : 0 < b.2 - a.2 := by linarith
      have k := key _ hd.ne' rfl
      have := div_pos h3 hd
      exact ⟨Or.inr ⟨by linarith, by linarith⟩, by linarith⟩

/-- The relative form of the crossing with the reference segment, whose other end is at the left. -/
theorem meets_iff {p q a b : K × K} (hq : q.1 < p.1) (ha : q.1 < a.1) (hb : q.1 < b.1) :
    (∃ r, OnSeg a b r ∧ OnSeg p q r) ↔ Meets (p.1 - q.1) (p.2 - q.2) (a.1 - p.1) (a.2 - p.2) (b.1 - p.1) (b.2 - p.2) := by
  have hD : 0 < p.1 - q.1 := by linarith
  unfold Meets OnSeg
  constructor
  · rintro ⟨r, ⟨k, k0, k1, rfl⟩, j, j0, j1, e⟩
    obtain ⟨e1, e2⟩ := Prod.mk.inj e
    refine ⟨k, k0, k1, ?_, ?_⟩
    · linear_combination (p.1 - q.1) * e2 - (p.2 - q.2) * e1
    · have := mul_nonneg j0 hD.le
      linarith
  · rintro ⟨k, k0, k1, e1, e2⟩
    refine ⟨_, ⟨k, k0, k1, rfl⟩, - ((1 - k) * (a.1 - p.1) + k * (b.1 - p.1)) / (p.1 - q.1), div_nonneg (by linarith) hD.le, ?_, ?_⟩
    · rw [div_le_one hD]
      have := mul_nonneg (sub_nonneg.2 k1) (sub_pos.2 ha).le
      have := mul_nonneg k0 (sub_pos.2 hb).le
      linarith
    · apply Prod.ext
      · simp only; field_simp; ring
      · simp only; field_simp; linear_combination e1

theorem parity_sum {S : Type} (l : List (S × S)) (f g : S × S → Bool) (h : S → Bool)
    (H : ∀ e ∈ l, (f e = g e) ↔ (h e.1 = h e.2)) :
    (l.countP f + l.countP g + (l.countP (fun e => h e.1) + l.countP (fun e => h e.2))) % 2 = 0 := by
  induction l with
  | nil => simp
  | cons e l ih =>
    have ih := ih (fun e he => H e (List.mem_cons_of_mem _ he))
    have he := H e List.mem_cons_self
    simp only [List.countP_cons]
    rcases hf : f e <;> rcases hg : g e <;> rcases h1 : h e.1 <;> rcases h2 : h e.2 <;> simp [hf, hg, h1, h2] at he ⊢ <;> omega

theorem countP_cyc {S : Type} (l : List S) (h : S → Bool) :
    (polyEdges l).countP (fun e => h e.1) = (polyEdges l).countP (fun e => h e.2) := by
  unfold polyEdges
  have e1 : ((l.zip (l.rotate 1)).map Prod.fst).countP h = (l.zip (l.rotate 1)).countP (fun e => h e.1) := by
    rw [List.countP_map]; rfl
  have e2 : ((l.zip (l.rotate 1)).map Prod.snd).countP h = (l.zip (l.rotate 1)).countP (fun e => h e.2) := by
    rw [List.countP_map]; rfl
  rw [← e1, ← e2, List.map_fst_zip (by simp), List.map_snd_zip (by simp)]
  exact ((List.rotate_perm l 1).countP_eq h).symm

open Classical in
/-- The parity of the number of edges that meet the reference segment is that of the even-odd rule. -/
theorem parity {pts : List (K × K)} {p q : K × K} (hq : q.1 < p.1) (hl : ∀ v ∈ pts, q.1 < v.1)
    (hv : ∀ v ∈ pts, ¬ OnSeg p q v) (hp : ∀ e ∈ polyEdges pts, ¬ OnSeg e.1 e.2 p) :
    (polyEdges pts).countP (fun e => decide (∃ r, OnSeg e.1 e.2 r ∧ OnSeg p q r)) % 2 = 1 ↔ EvenOdd pts p := by
  have hD : 0 < p.1 - q.1 := by linarith
  have mem : ∀ e ∈ polyEdges pts, e.1 ∈ pts ∧ e.2 ∈ pts := by
    intro e he
    have := List.of_mem_zip (show (e.1, e.2) ∈ pts.zip (pts.rotate 1) from he)
    exact ⟨this.1, List.mem_rotate.1 this.2⟩
  have off : ∀ v ∈ pts, v.1 - p.1 ≤ 0 → (p.1 - q.1) * (v.2 - p.2) - (p.2 - q.2) * (v.1 - p.1) ≠ 0 := by
    intro v hv' hx h
    apply hv v hv'
    refine ⟨(p.1 - v.1) / (p.1 - q.1), div_nonneg (by linarith) hD.le, by rw [div_le_one hD]; linarith [hl v hv'], ?_⟩
    apply Prod.ext
    · simp only; field_simp; ring
    · simp only; field_simp; linear_combination h
  have H := parity_sum (polyEdges pts) (fun e => decide (∃ r, OnSeg e.1 e.2 r ∧ OnSeg p q r)) (fun e => decide (CrossesRay p e.1 e.2))
    (fun v => decide (Above (p.1 - q.1) (p.2 - q.2) (v.1 - p.1) (v.2 - p.2))) (by
      intro e he
      obtain ⟨m1, m2⟩ := mem e he
      rw [decide_eq_decide, decide_eq_decide, meets_iff hq (hl _ m1) (hl _ m2), crossesRay_iff]
      apply edge_parity hD (off _ m1) (off _ m2)
      intro k k0 k1 h1 h2
      apply hp e he
      refine ⟨k, k0, k1, Prod.ext ?_ ?_⟩
      · simp only; linear_combination -h1
      · simp only; linear_combination -h2)
  have hc := countP_cyc pts (fun v => decide (Above (p.1 - q.1) (p.2 - q.2) (v.1 - p.1) (v.2 - p.2)))
  unfold EvenOdd
  rw [Nat.odd_iff]
  omega

end parity

end H2d.Pip
