import Verif.Model.Polyline
import Verif.Spec.Polyline
import Verif.Lemmas.BB
import Mathlib.Data.List.Rotate
import Mathlib.Algebra.BigOperators.Group.List.Basic
import Mathlib.Tactic.Ring
import Mathlib.Tactic.Linarith

set_option linter.unusedSectionVars false

namespace H2d

open H2d.Spec

section lists
variable {P Q : Type}

theorem tail_take_eq_rotate (l : List P) : l.tail ++ l.take 1 = l.rotate 1 := by
  cases l with
  | nil => simp
  | cons a t => simp

theorem stdRotate_eq (k : Nat) (l : List P) (hk : k ≤ l.length) : stdRotate k l = l.rotate k := by
  rw [stdRotate, List.rotate_eq_drop_append_take hk]

theorem cycPairs_eq (l : List P) : cycPairs l = l.zip (l.rotate 1) := by
  rw [cycPairs, tail_take_eq_rotate]

@[simp] theorem cycPairs_length (l : List P) : (cycPairs l).length = l.length := by
  simp [cycPairs_eq]

theorem cycPairs_rotate (l : List P) (k : Nat) : cycPairs (l.rotate k) = (cycPairs l).rotate k := by
  rw [cycPairs_eq, cycPairs_eq, List.rotate_rotate, Nat.add_comm, ← List.rotate_rotate]
  simpa [List.zip] using (List.zipWith_rotate_distrib Prod.mk l (l.rotate 1) k (by simp)).symm

theorem cycPairs_map (f : P → Q) (l : List P) : cycPairs (l.map f) = (cycPairs l).map (Prod.map f f) := by
  rw [cycPairs_eq, cycPairs_eq, ← List.map_rotate, List.zip_map]

theorem zip_swap' (l : List P) (m : List Q) : m.zip l = (l.zip m).map Prod.swap := by
  induction l generalizing m with
  | nil => cases m <;> simp
  | cons a t ih => cases m <;> simp [ih]

theorem cycPairs_reverse (l : List P) :
    (cycPairs l.reverse).rotate (l.length - 1) = ((cycPairs l).map Prod.swap).reverse := by
  rw [← cycPairs_rotate]
  by_cases h : l.length = 0
  · have : l = [] := List.length_eq_zero_iff.1 h
    subst this; simp [cycPairs]
  · have h1 : cycPairs (l.reverse.rotate (l.length - 1)) =
        (l.reverse.rotate (l.length - 1)).zip l.reverse := by
      rw [cycPairs_eq, List.rotate_rotate]
      congr 1
      have : l.length - 1 + 1 = l.reverse.length := by simp; omega
      rw [this, List.rotate_length]
    rw [h1]
    have h2 : l.reverse.rotate (l.length - 1) = (l.rotate 1).reverse := by
      rw [List.reverse_rotate]
      by_cases h3 : l.length = 1
      · obtain ⟨a, rfl⟩ := List.length_eq_one_iff.1 h3; simp
      · rw [Nat.mod_eq_of_lt (by omega)]
    rw [h2, cycPairs_eq, ← zip_swap' l (l.rotate 1)]
    have := List.reverse_zipWith (f := (Prod.mk : P → P → P × P)) (l := l.rotate 1) (l' := l) (by simp)
    exact this.symm

theorem cycPairs_reverse_perm (l : List P) : (cycPairs l.reverse).Perm ((cycPairs l).map Prod.swap) :=
  ((List.rotate_perm _ (l.length - 1)).symm.trans (by rw [cycPairs_reverse])).trans (List.reverse_perm _)

theorem cycPairs_cons (a : P) (l : List P) : cycPairs (a :: l) = openPairs (a :: l ++ [a]) := by
  have : ∀ (x : P) (l : List P), (x :: l).zip (l ++ [a]) = (x :: (l ++ [a])).zip (l ++ [a]) := by
    intro x l
    induction l generalizing x with
    | nil => simp
    | cons b t ih => simp only [List.cons_append, List.zip_cons_cons, ih b]
  simpa [cycPairs, openPairs] using this a l

theorem openPairs_append (l m : List P) (x : P) : openPairs (l ++ x :: m) = openPairs (l ++ [x]) ++ openPairs (x :: m) := by
  induction l with
  | nil => simp [openPairs]
  | cons a t ih =>
    cases t with
    | nil => simp [openPairs]
    | cons b u =>
      simp only [openPairs, List.cons_append, List.tail_cons, List.zip_cons_cons] at ih ⊢
      rw [ih]

theorem openPairs_map (f : P → Q) (l : List P) : openPairs (l.map f) = (openPairs l).map (Prod.map f f) := by
  rw [openPairs, openPairs, ← List.map_tail, List.zip_map]

theorem openPairs_reverse (l : List P) : openPairs l.reverse = ((openPairs l).map Prod.swap).reverse := by
  induction l with
  | nil => simp [openPairs]
  | cons a t ih =>
    cases t with
    | nil => simp [openPairs]
    | cons b u =>
      rw [List.reverse_cons, List.reverse_cons, List.append_assoc]
      have h := openPairs_append u.reverse [a] b
      have e : u.reverse ++ ([b] ++ [a]) = u.reverse ++ b :: [a] := by simp
      rw [e, h]
      have e2 : u.reverse ++ [b] = (b :: u).reverse := by simp
      rw [e2, ih]
      simp [openPairs]

end lists

/-! ### Absence of crossings in a cyclic list of segments -/

section cross
variable {S : Type}

/-- No two segments that are not neighbours in the cycle cross. -/
def NoCrossP (R : S → S → Bool) (segs : List S) : Prop :=
  ∀ (i j : Nat) (si sj : S), segs[i]? = some si → segs[j]? = some sj → i ≠ j → i + 1 ≠ j → j + 1 ≠ i →
    ¬(i = 0 ∧ j + 1 = segs.length) → ¬(j = 0 ∧ i + 1 = segs.length) → R si sj = false

theorem noCross_iff (R : S → S → Bool) (hs : ∀ a b, R a b = R b a) (segs : List S) :
    noCross R segs = true ↔ NoCrossP R segs := by
  simp only [noCross, Bool.not_eq_true', List.any_eq_false, List.mem_range]
  constructor
  · intro h i j si sj hi hj h1 h2 h3 h4 h5
    have key : ∀ (i j : Nat) (si sj : S), segs[i]? = some si → segs[j]? = some sj → i + 2 ≤ j →
        ¬(i = 0 ∧ j + 1 = segs.length) → R sj si = false := by
      intro i j si sj hi hj hij h4
      have li : i < segs.length := (List.getElem?_eq_some_iff.1 hi).1
      have lj : j < segs.length := (List.getElem?_eq_some_iff.1 hj).1
      have := h i li
      simp only [Bool.not_eq_true, List.any_eq_false, List.mem_range'_1] at this
      have := this j (by
        refine ⟨hij, ?_⟩
        by_cases c : i = 0
        · rw [if_pos c]; omega
        · rw [if_neg c]; omega)
      simpa [hi, hj] using this
    rcases Nat.lt_or_ge i j with hlt | hge
    · rw [hs]; exact key i j si sj hi hj (by omega) h4
    · exact key j i sj si hj hi (by omega) h5
  · intro h i hi
    simp only [Bool.not_eq_true, List.any_eq_false, List.mem_range'_1]
    intro j hj
    have hj' : i + 2 ≤ j ∧ j < segs.length ∧ ¬(i = 0 ∧ j + 1 = segs.length) := by
      split_ifs at hj <;> omega
    have e1 : segs[i]? = some segs[i] := List.getElem?_eq_getElem hi
    have e2 : segs[j]? = some (segs[j]'hj'.2.1) := List.getElem?_eq_getElem hj'.2.1
    rw [e1, e2]
    simp only
    rw [hs]
    exact h i j _ _ e1 e2 (by omega) (by omega) (by omega) hj'.2.2 (by omega)

theorem NoCrossP_rotate_one (R : S → S → Bool) (segs : List S) (h : NoCrossP R segs) : NoCrossP R (segs.rotate 1) := by
  intro i j si sj hi hj h1 h2 h3 h4 h5
  have li : i < segs.length := by simpa using (List.getElem?_eq_some_iff.1 hi).1
  have lj : j < segs.length := by simpa using (List.getElem?_eq_some_iff.1 hj).1
  rw [List.getElem?_rotate li] at hi
  rw [List.getElem?_rotate lj] at hj
  rw [List.length_rotate] at h4 h5
  have ei : (i + 1) % segs.length = if i + 1 = segs.length then 0 else i + 1 := by
    split_ifs with hc
    · rw [hc, Nat.mod_self]
    · exact Nat.mod_eq_of_lt (by omega)
  have ej : (j + 1) % segs.length = if j + 1 = segs.length then 0 else j + 1 := by
    split_ifs with hc
    · rw [hc, Nat.mod_self]
    · exact Nat.mod_eq_of_lt (by omega)
  rw [ei] at hi
  rw [ej] at hj
  by_cases ci : i + 1 = segs.length <;> by_cases cj : j + 1 = segs.length <;>
    simp only [ci, cj, if_true, if_false] at hi hj <;>
    refine h _ _ si sj hi hj ?_ ?_ ?_ ?_ ?_ <;> omega

theorem NoCrossP_rotate (R : S → S → Bool) (segs : List S) (k : Nat) (h : NoCrossP R segs) : NoCrossP R (segs.rotate k) := by
  induction k with
  | zero => simpa using h
  | succ k ih => rw [← List.rotate_rotate]; exact NoCrossP_rotate_one R _ ih

theorem NoCrossP_rotate_iff (R : S → S → Bool) (segs : List S) (k : Nat) : NoCrossP R (segs.rotate k) ↔ NoCrossP R segs := by
  refine ⟨fun h => ?_, NoCrossP_rotate R segs k⟩
  have := NoCrossP_rotate R _ (segs.length * k - k) h
  rw [List.rotate_rotate] at this
  by_cases h0 : segs.length = 0
  · have : segs = [] := List.length_eq_zero_iff.1 h0
    subst this; intro i j si sj hi; simp at hi
  · have e : k + (segs.length * k - k) = segs.length * k := by
      have : k ≤ segs.length * k := Nat.le_mul_of_pos_left k (by omega)
      omega
    rw [e, List.rotate_length_mul] at this
    exact this

theorem NoCrossP_reverse (R : S → S → Bool) (segs : List S) (h : NoCrossP R segs) : NoCrossP R segs.reverse := by
  intro i j si sj hi hj h1 h2 h3 h4 h5
  have li : i < segs.length := by simpa using (List.getElem?_eq_some_iff.1 hi).1
  have lj : j < segs.length := by simpa using (List.getElem?_eq_some_iff.1 hj).1
  rw [List.getElem?_reverse li] at hi
  rw [List.getElem?_reverse lj] at hj
  rw [List.length_reverse] at h4 h5
  refine h _ _ si sj hi hj ?_ ?_ ?_ ?_ ?_ <;> omega

theorem NoCrossP_reverse_iff (R : S → S → Bool) (segs : List S) : NoCrossP R segs.reverse ↔ NoCrossP R segs :=
  ⟨fun h => by simpa using NoCrossP_reverse R _ h, NoCrossP_reverse R segs⟩

theorem NoCrossP_map {T : Type} (f : S → T) (R : S → S → Bool) (R' : T → T → Bool) (hf : ∀ a b, R' (f a) (f b) = R a b) (segs : List S) :
    NoCrossP R' (segs.map f) ↔ NoCrossP R segs := by
  constructor
  · intro h i j si sj hi hj h1 h2 h3 h4 h5
    rw [← hf]
    exact h i j _ _ (by simp [hi]) (by simp [hj]) h1 h2 h3 (by simpa using h4) (by simpa using h5)
  · intro h i j si sj hi hj h1 h2 h3 h4 h5
    rw [List.getElem?_map, Option.map_eq_some_iff] at hi hj
    obtain ⟨a, ha, rfl⟩ := hi
    obtain ⟨b, hb, rfl⟩ := hj
    rw [hf]
    exact h i j _ _ ha hb h1 h2 h3 (by simpa using h4) (by simpa using h5)

end cross

variable {K : Type} [Field K] [LinearOrder K]

theorem isSimple_eq (inter : Pt K × Pt K → Pt K × Pt K → Bool) (pts : List (Pt K)) :
    isSimple inter true pts = (decide (3 ≤ pts.length) && noCross inter (cycPairs pts)) := by
  by_cases h : pts.length < 3
  · have : ¬ 3 ≤ pts.length := by omega
    simp [isSimple, h]
  · have h3 : 3 ≤ pts.length := by omega
    have h2 : ¬ pts.length < 2 := by omega
    simp only [isSimple, h, if_false, Bool.not_true, Bool.false_eq_true, segPairs, h2, if_true, h3,
      decide_true, Bool.true_and]

theorem isSimple_rotate (inter : Pt K × Pt K → Pt K × Pt K → Bool) (hi : InterSymm inter) (closed : Bool) (pts : List (Pt K)) (k : Nat) :
    isSimple inter closed (pts.rotate k) = isSimple inter closed pts := by
  cases closed
  · simp [isSimple]
  · rw [isSimple_eq, isSimple_eq, cycPairs_rotate, List.length_rotate]
    congr 1
    rw [Bool.eq_iff_iff, noCross_iff _ hi.comm, noCross_iff _ hi.comm, NoCrossP_rotate_iff]

theorem isSimple_reverse (inter : Pt K × Pt K → Pt K × Pt K → Bool) (hi : InterSymm inter) (closed : Bool) (pts : List (Pt K)) :
    isSimple inter closed pts.reverse = isSimple inter closed pts := by
  cases closed
  · simp [isSimple]
  · rw [isSimple_eq, isSimple_eq, List.length_reverse]
    congr 1
    rw [Bool.eq_iff_iff, noCross_iff _ hi.comm, noCross_iff _ hi.comm,
      ← NoCrossP_rotate_iff _ _ (pts.length - 1), cycPairs_reverse, NoCrossP_reverse_iff, NoCrossP_map _ _ _ hi.swap]

theorem isSimple_map (inter : Pt K × Pt K → Pt K × Pt K → Bool) (f : Pt K → Pt K)
    (hcomm : ∀ a b, inter a b = inter b a)
    (hf : ∀ a b, inter (Prod.map f f a) (Prod.map f f b) = inter a b) (closed : Bool) (pts : List (Pt K)) :
    isSimple inter closed (pts.map f) = isSimple inter closed pts := by
  cases closed
  · simp [isSimple]
  · rw [isSimple_eq, isSimple_eq, List.length_map, cycPairs_map]
    congr 1
    rw [Bool.eq_iff_iff, noCross_iff _ hcomm, noCross_iff _ hcomm, NoCrossP_map _ _ _ hf]

/-! ### Shoelace sums -/

theorem sum_map_rotate {S : Type} (f : S → K) (l : List S) (k : Nat) : ((l.rotate k).map f).sum = (l.map f).sum :=
  ((List.rotate_perm l k).map f).sum_eq

theorem signedArea_rotate (pts : List (Pt K)) (k : Nat) : signedArea (pts.rotate k) = signedArea pts := by
  simp only [signedArea, cycPairs_rotate, sum_map_rotate]

theorem sum_map_neg' {S : Type} (f : S → K) (l : List S) : (l.map (fun s => -f s)).sum = -(l.map f).sum := by
  induction l with
  | nil => simp
  | cons a t ih => simp [ih]; ring

theorem signedArea_reverse (pts : List (Pt K)) : signedArea pts.reverse = - signedArea pts := by
  simp only [signedArea]
  rw [((cycPairs_reverse_perm pts).map _).sum_eq, List.map_map]
  have : ((fun s : Pt K × Pt K => s.1.1 * s.2.2 - s.1.2 * s.2.1) ∘ Prod.swap) =
      fun s => -(s.1.1 * s.2.2 - s.1.2 * s.2.1) := by
    funext s; simp; ring
  rw [this, sum_map_neg', neg_div]

theorem sum_map_add' {S : Type} (f g : S → K) (l : List S) : (l.map (fun s => f s + g s)).sum = (l.map f).sum + (l.map g).sum := by
  induction l with
  | nil => simp
  | cons a t ih => simp [ih]; ring

theorem sum_map_mul' {S : Type} (f : S → K) (c : K) (l : List S) : (l.map (fun s => c * f s)).sum = c * (l.map f).sum := by
  induction l with
  | nil => simp
  | cons a t ih => simp [ih]; ring

/-- Telescoping over a cycle. -/
theorem sum_cyc_sub (g : Pt K → K) (pts : List (Pt K)) : ((cycPairs pts).map (fun s => g s.2 - g s.1)).sum = 0 := by
  have h : ∀ l : List (Pt K), ∀ a b : Pt K, ((openPairs (a :: l ++ [b])).map (fun s => g s.2 - g s.1)).sum = g b - g a := by
    intro l
    induction l with
    | nil => intro a b; simp [openPairs]
    | cons c t ih =>
      intro a b
      have := ih c b
      simp only [openPairs, List.cons_append, List.tail_cons, List.zip_cons_cons, List.map_cons, List.sum_cons] at this ⊢
      rw [this]; ring
  cases pts with
  | nil => simp [cycPairs]
  | cons a t => rw [cycPairs_cons, h]; ring

theorem signedArea_translate (pts : List (Pt K)) (dx dy : K) : signedArea (polyTranslate dx dy pts) = signedArea pts := by
  simp only [signedArea, polyTranslate, cycPairs_map, List.map_map]
  congr 1
  have : ((fun s : Pt K × Pt K => s.1.1 * s.2.2 - s.1.2 * s.2.1) ∘ Prod.map (fun p : Pt K => (p.1 + dx, p.2 + dy)) (fun p : Pt K => (p.1 + dx, p.2 + dy))) =
      fun s => (s.1.1 * s.2.2 - s.1.2 * s.2.1) + ((dx * s.2.2 - dy * s.2.1) - (dx * s.1.2 - dy * s.1.1)) := by
    funext s; simp; ring
  rw [this, sum_map_add', sum_cyc_sub (fun p : Pt K => dx * p.2 - dy * p.1), add_zero]

/-- Image by a linear map. -/
theorem signedArea_linear (a b c d : K) (pts : List (Pt K)) :
    signedArea (pts.map (fun p : Pt K => (a * p.1 + b * p.2, c * p.1 + d * p.2))) = (a * d - b * c) * signedArea pts := by
  simp only [signedArea, cycPairs_map, List.map_map]
  have : ((fun s : Pt K × Pt K => s.1.1 * s.2.2 - s.1.2 * s.2.1) ∘
      Prod.map (fun p : Pt K => (a * p.1 + b * p.2, c * p.1 + d * p.2)) (fun p : Pt K => (a * p.1 + b * p.2, c * p.1 + d * p.2))) =
      fun s => (a * d - b * c) * (s.1.1 * s.2.2 - s.1.2 * s.2.1) := by
    funext s; simp; ring
  rw [this, sum_map_mul', mul_div_assoc]

theorem cycPairs_cut (p q : Pt K) (l m : List (Pt K)) :
    cycPairs (p :: l ++ q :: m) = openPairs (p :: l ++ [q]) ++ openPairs (q :: m ++ [p]) ∧
    cycPairs (p :: l ++ [q]) = openPairs (p :: l ++ [q]) ++ [(q, p)] ∧
    cycPairs (q :: m ++ [p]) = openPairs (q :: m ++ [p]) ++ [(p, q)] := by
  refine ⟨?_, ?_, ?_⟩
  · have := cycPairs_cons p (l ++ q :: m)
    simp only [List.cons_append, List.append_assoc] at this ⊢
    rw [this]
    exact openPairs_append (p :: l) (m ++ [p]) q
  · have := cycPairs_cons p (l ++ [q])
    simp only [List.cons_append, List.append_assoc] at this ⊢
    rw [this]
    have := openPairs_append (p :: l) [p] q
    simp only [List.cons_append] at this ⊢
    simpa [openPairs] using this
  · have := cycPairs_cons q (m ++ [p])
    simp only [List.cons_append, List.append_assoc] at this ⊢
    rw [this]
    have := openPairs_append (q :: m) [q] p
    simp only [List.cons_append] at this ⊢
    simpa [openPairs] using this

/-- Cutting along the diagonal from `p` to `q`. -/
theorem signedArea_cut (p q : Pt K) (l m : List (Pt K)) :
    signedArea (p :: l ++ q :: m) = signedArea (p :: l ++ [q]) + signedArea (q :: m ++ [p]) := by
  obtain ⟨h1, h2, h3⟩ := cycPairs_cut p q l m
  simp only [signedArea, h1, h2, h3, List.map_append, List.sum_append, List.map_cons, List.map_nil, List.sum_cons, List.sum_nil]
  ring

end H2d
