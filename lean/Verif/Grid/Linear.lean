import Verif.Grid.Lemmas
import Mathlib.Algebra.Order.Ring.Int
/- Helper lemmas about linearisation and comparison. -/
namespace Verif.Grid

theorem linAux_snd (b : Rect) (p : Point) (hb : Nonempty b) (hl : b.length = p.length) :
    (linearizeRowMajorAux b p).2 = (Rect.volume b : Int) := by
  induction b generalizing p with
  | nil => simp [linearizeRowMajorAux, Rect.volume]
  | cons lh b ih =>
    obtain ⟨l, h⟩ := lh
    cases p with
    | nil => simp at hl
    | cons x p =>
      have := hb (l, h) (by simp)
      simp only at this
      simp only [linearizeRowMajorAux, Rect.volume, ih p (nonempty_tail hb) (by simpa using hl)]
      rw [Nat.cast_mul, Int.toNat_of_nonneg (by omega)]
      ring

theorem linRM_cons (l h x : Int) (b : Rect) (p : Point) (hb : Nonempty b) (hl : b.length = p.length) :
    linearizeRowMajor ((l, h) :: b) (x :: p) = linearizeRowMajor b p + Rect.volume b * (x - l) := by
  simp only [linearizeRowMajor, linearizeRowMajorAux, linAux_snd b p hb hl]

theorem linRM_bounds (b : Rect) (p : Point) (hp : InBox b p) :
    0 ≤ linearizeRowMajor b p ∧ linearizeRowMajor b p < Rect.volume b := by
  induction hp with
  | nil => simp [linearizeRowMajor, linearizeRowMajorAux, Rect.volume]
  | @cons lh x b p hx hp ih =>
    obtain ⟨l, h⟩ := lh
    simp only at hx
    have hp' : InBox b p := hp
    rw [linRM_cons l h x b p (nonempty_of_inBox hp') hp'.length_eq]
    simp only [Rect.volume, Nat.cast_mul]
    rw [Int.toNat_of_nonneg (by omega)]
    obtain ⟨h0, h1⟩ := ih
    have hv : (0 : Int) ≤ Rect.volume b := by omega
    constructor
    · have : 0 ≤ (Rect.volume b : Int) * (x - l) := mul_nonneg hv (by omega)
      omega
    · have : (Rect.volume b : Int) * (x - l) ≤ (Rect.volume b : Int) * (h - l) :=
        mul_le_mul_of_nonneg_left (by omega) hv
      nlinarith

/-- lexicographic order on lists, unfolded -/
theorem lt_cons_iff (x y : Int) (p q : Point) : (x :: p) < (y :: q) ↔ x < y ∨ (x = y ∧ p < q) := by
  exact List.cons_lt_cons_iff

theorem linRM_lt {b : Rect} {p q : Point} (hp : InBox b p) (hq : InBox b q) (hlt : p < q) :
    linearizeRowMajor b p < linearizeRowMajor b q := by
  induction hp generalizing q with
  | nil => cases hq; exact absurd hlt (by simp)
  | @cons lh x b p hx hp ih =>
    obtain ⟨l, h⟩ := lh
    cases hq with
    | @cons _ y _ q hy hq =>
      have hp' : InBox b p := hp
      have hq' : InBox b q := hq
      have hb := nonempty_of_inBox hp'
      rw [linRM_cons l h x b p hb hp'.length_eq, linRM_cons l h y b q hb hq'.length_eq]
      have b1 := linRM_bounds b p hp'
      have b2 := linRM_bounds b q hq'
      rcases (lt_cons_iff x y p q).1 hlt with h1 | ⟨rfl, h1⟩
      · have : (Rect.volume b : Int) * (x - l + 1) ≤ (Rect.volume b : Int) * (y - l) :=
          mul_le_mul_of_nonneg_left (by omega) (by omega)
        nlinarith
      · have := ih hq' h1
        omega

theorem linRM_lt_iff {b : Rect} {p q : Point} (hp : InBox b p) (hq : InBox b q) :
    linearizeRowMajor b p < linearizeRowMajor b q ↔ p < q := by
  constructor
  · intro h
    by_contra hn
    rcases List.le_iff_lt_or_eq.1 (List.not_lt.1 hn) with h1 | h1
    · have := linRM_lt hq hp h1; omega
    · subst h1; omega
  · exact linRM_lt hp hq

theorem linRM_append (b : Rect) (p : Point) (l h x : Int) (hl : b.length = p.length) :
    linearizeRowMajorAux (b ++ [(l, h)]) (p ++ [x]) =
      ((linearizeRowMajorAux b p).1 * (h - l + 1) + (x - l), (linearizeRowMajorAux b p).2 * (h - l + 1)) := by
  induction b generalizing p with
  | nil =>
    cases p with
    | nil => simp [linearizeRowMajorAux]
    | cons _ _ => simp at hl
  | cons lh b ih =>
    obtain ⟨l', h'⟩ := lh
    cases p with
    | nil => simp at hl
    | cons y p =>
      simp only [List.cons_append, linearizeRowMajorAux, ih p (by simpa using hl), Prod.mk.injEq]
      constructor <;> ring

theorem linCMAux_eq (b : Rect) (p : Point) (r a : Int) (hl : b.length = p.length) :
    linearizeColumnMajorAux (r, a) b p =
      (r + a * (linearizeRowMajorAux b.reverse p.reverse).1, a * (linearizeRowMajorAux b.reverse p.reverse).2) := by
  induction b generalizing p r a with
  | nil =>
    cases p with
    | nil => simp [linearizeRowMajorAux, linearizeColumnMajorAux]
    | cons _ _ => simp at hl
  | cons lh b ih =>
    obtain ⟨l, h⟩ := lh
    cases p with
    | nil => simp at hl
    | cons x p =>
      have hl' : b.length = p.length := by simpa using hl
      have e := linRM_append b.reverse p.reverse l h x (by simpa using hl')
      simp only [List.reverse_cons] at *
      rw [e, linearizeColumnMajorAux, ih p _ _ hl']
      simp only [Prod.mk.injEq]
      constructor <;> ring

theorem linCM_eq (b : Rect) (p : Point) (hl : b.length = p.length) :
    linearizeColumnMajor b p = linearizeRowMajor b.reverse p.reverse := by
  simp [linearizeColumnMajor, linCMAux_eq b p 0 1 hl, linearizeRowMajor]

theorem linearize_bounds (o : IndexOrder) (b : Rect) (p : Point) (hp : InBox b p) :
    0 ≤ linearize o b p ∧ linearize o b p < Rect.volume b := by
  cases o with
  | rowMajor => exact linRM_bounds b p hp
  | columnMajor =>
    simp only [linearize]
    rw [linCM_eq b p hp.length_eq, ← volume_reverse]
    exact linRM_bounds _ _ (inBox_reverse.2 hp)

theorem linearize_lt_iff (o : IndexOrder) {b : Rect} {p q : Point} (hp : InBox b p) (hq : InBox b q) :
    linearize o b p < linearize o b q ↔ Before o p q := by
  cases o with
  | rowMajor => exact linRM_lt_iff hp hq
  | columnMajor =>
    simp only [linearize, Before]
    rw [linCM_eq b p hp.length_eq, linCM_eq b q hq.length_eq]
    exact linRM_lt_iff (inBox_reverse.2 hp) (inBox_reverse.2 hq)

theorem before_irrefl (o : IndexOrder) (p : Point) : ¬ Before o p p := by
  cases o <;> exact List.lt_irrefl _

theorem before_trans (o : IndexOrder) {p q r : Point} (h1 : Before o p q) (h2 : Before o q r) :
    Before o p r := by
  cases o
  · exact List.lt_trans h1 h2
  · exact List.lt_trans (α := Int) h1 h2

theorem before_total (o : IndexOrder) (p q : Point) : Before o p q ∨ p = q ∨ Before o q p := by
  have key : ∀ a b : List Int, a < b ∨ a = b ∨ b < a := by
    intro a b
    by_cases h : a < b
    · exact Or.inl h
    · rcases List.le_iff_lt_or_eq.1 (List.not_lt.1 h) with h1 | h1
      · exact Or.inr (Or.inr h1)
      · exact Or.inr (Or.inl h1.symm)
  cases o with
  | rowMajor => exact key p q
  | columnMajor =>
    rcases key p.reverse q.reverse with h | h | h
    · exact Or.inl h
    · exact Or.inr (Or.inl (List.reverse_injective h))
    · exact Or.inr (Or.inr h)

theorem linearize_inj (o : IndexOrder) {b : Rect} {p q : Point} (hp : InBox b p) (hq : InBox b q)
    (h : linearize o b p = linearize o b q) : p = q := by
  rcases before_total o p q with h1 | h1 | h1
  · have := (linearize_lt_iff o hp hq).2 h1; omega
  · exact h1
  · have := (linearize_lt_iff o hq hp).2 h1; omega

theorem linRM_lo (b : Rect) : linearizeRowMajor b (Rect.lo b) = 0 := by
  induction b with
  | nil => rfl
  | cons lh b ih =>
    obtain ⟨l, h⟩ := lh
    simp only [linearizeRowMajor, Rect.lo] at ih
    simp [linearizeRowMajor, linearizeRowMajorAux, Rect.lo, ih]

/-- a failing increment resets to the low corner and happens only at points that are `≥ hi` everywhere -/
theorem incRM_false {b : Rect} {p q : Point} (hp : InBox b p) (h : incrementRowMajor b p = (false, q)) :
    p = Rect.hi b ∧ q = Rect.lo b := by
  induction hp generalizing q with
  | nil => simp [incrementRowMajor] at h; simp [Rect.hi, Rect.lo, ← h]
  | @cons lh x b p hx hp ih =>
    obtain ⟨l, hh⟩ := lh
    simp only at hx
    rw [incrementRowMajor] at h
    rcases e : incrementRowMajor b p with ⟨r, p'⟩
    rw [e] at h
    cases r with
    | true => simp at h
    | false =>
      obtain ⟨rfl, rfl⟩ := ih e
      simp only at h
      split at h
      · simp only [Prod.mk.injEq, true_and] at h
        subst h
        have : x = hh := by omega
        subst this
        simp [Rect.hi, Rect.lo]
      · simp at h

theorem incRM_true {b : Rect} {p q : Point} (hp : InBox b p) (h : incrementRowMajor b p = (true, q)) :
    InBox b q ∧ linearizeRowMajor b q = linearizeRowMajor b p + 1 := by
  induction hp generalizing q with
  | nil => simp [incrementRowMajor] at h
  | @cons lh x b p hx hp ih =>
    obtain ⟨l, hh⟩ := lh
    simp only at hx
    have hp' : InBox b p := hp
    have hb := nonempty_of_inBox hp'
    rw [incrementRowMajor] at h
    rcases e : incrementRowMajor b p with ⟨r, p'⟩
    rw [e] at h
    cases r with
    | true =>
      simp only [Prod.mk.injEq, true_and] at h
      subst h
      obtain ⟨i1, i2⟩ := ih e
      refine ⟨List.Forall₂.cons hx i1, ?_⟩
      rw [linRM_cons _ _ _ _ _ hb i1.length_eq, linRM_cons _ _ _ _ _ hb hp'.length_eq, i2]
      ring
    | false =>
      obtain ⟨rfl, rfl⟩ := incRM_false hp' e
      simp only at h
      split at h
      · simp at h
      · simp only [Prod.mk.injEq, true_and] at h
        subst h
        have hlo := inBox_lo hb
        refine ⟨List.Forall₂.cons (by simp only; omega) hlo, ?_⟩
        rw [linRM_cons _ _ _ _ _ hb hlo.length_eq, linRM_cons _ _ _ _ _ hb hp'.length_eq, linRM_lo]
        have : linearizeRowMajor b (Rect.hi b) = Rect.volume b - 1 := by
          clear e ih hp hx hp' hlo
          induction b with
          | nil => rfl
          | cons lh b ih2 =>
            obtain ⟨l2, h2⟩ := lh
            have hb' := nonempty_tail hb
            have e2 := ih2 hb'
            have h3 := hb (l2, h2) (by simp)
            simp only at h3
            have : linearizeRowMajor ((l2, h2) :: b) (h2 :: Rect.hi b) =
              linearizeRowMajor b (Rect.hi b) + Rect.volume b * (h2 - l2) :=
              linRM_cons l2 h2 h2 b _ hb' (inBox_hi hb').length_eq
            show linearizeRowMajor ((l2, h2) :: b) (h2 :: Rect.hi b) = _
            rw [this, e2]
            simp only [Rect.volume, Nat.cast_mul]
            rw [Int.toNat_of_nonneg (by omega)]
            ring
        rw [this]
        ring

theorem increment_true (o : IndexOrder) {b : Rect} {p q : Point} (hp : InBox b p)
    (h : increment o b p = (true, q)) : InBox b q ∧ linearize o b q = linearize o b p + 1 := by
  cases o with
  | rowMajor => exact incRM_true hp h
  | columnMajor =>
    simp only [increment] at h
    rw [incCM_eq b p hp.length_eq] at h
    rcases e : incrementRowMajor b.reverse p.reverse with ⟨r, p'⟩
    rw [e] at h
    simp only [Prod.mk.injEq] at h
    obtain ⟨rfl, rfl⟩ := h
    obtain ⟨h1, h2⟩ := incRM_true (inBox_reverse.2 hp) e
    have h3 : InBox b p'.reverse := by rw [← inBox_reverse]; simpa using h1
    refine ⟨h3, ?_⟩
    simp only [linearize]
    rw [linCM_eq _ _ h3.length_eq, linCM_eq _ _ hp.length_eq, List.reverse_reverse, h2]

theorem increment_false (o : IndexOrder) {b : Rect} {p q : Point} (hp : InBox b p)
    (h : increment o b p = (false, q)) : p = Rect.hi b ∧ q = Rect.lo b := by
  cases o with
  | rowMajor => exact incRM_false hp h
  | columnMajor =>
    simp only [increment] at h
    rw [incCM_eq b p hp.length_eq] at h
    rcases e : incrementRowMajor b.reverse p.reverse with ⟨r, p'⟩
    rw [e] at h
    simp only [Prod.mk.injEq] at h
    obtain ⟨rfl, rfl⟩ := h
    obtain ⟨h1, rfl⟩ := incRM_false (inBox_reverse.2 hp) e
    constructor
    · have := congrArg List.reverse h1
      simpa [Rect.hi] using this
    · simp [Rect.lo]

theorem linearize_lo (o : IndexOrder) (b : Rect) : linearize o b (Rect.lo b) = 0 := by
  cases o with
  | rowMajor => exact linRM_lo b
  | columnMajor =>
    simp only [linearize]
    rw [linCM_eq _ _ (by simp [Rect.lo])]
    have := linRM_lo b.reverse
    simpa [Rect.lo] using this

/-- the `i`-th point in traversal order has number `i` -/
theorem linearize_getElem (o : IndexOrder) (b : Rect) (i : Nat) (hi : i < (pointsOf o b).length) :
    linearize o b ((pointsOf o b)[i]) = i := by
  have hb : Nonempty b := by
    have : (pointsOf o b)[i] ∈ pointsOf o b := List.getElem_mem hi
    exact nonempty_of_inBox ((mem_pointsOf o b _).1 this)
  obtain ⟨c, hd, -⟩ := pointsOf_chain o b hb
  induction i with
  | zero =>
    have : (pointsOf o b)[0] = Rect.lo b := by
      rw [List.head?_eq_getElem?, List.getElem?_eq_getElem hi] at hd
      simpa using hd
    rw [this, linearize_lo]; rfl
  | succ i ih =>
    have h1 := List.isChain_iff_getElem.1 c i hi
    have hm : InBox b ((pointsOf o b)[i]) := (mem_pointsOf o b _).1 (List.getElem_mem _)
    have := (increment_true o hm h1).2
    rw [this, ih]
    push_cast; rfl

theorem map_linearize (o : IndexOrder) (b : Rect) :
    (pointsOf o b).map (linearize o b) = (List.range (Rect.volume b)).map (fun i : Nat => (i : Int)) := by
  apply List.ext_getElem
  · simp [length_pointsOf]
  · intro i h1 h2
    simp [linearize_getElem]

theorem pointsOf_pairwise (o : IndexOrder) (b : Rect) : (pointsOf o b).Pairwise (Before o) := by
  rw [List.pairwise_iff_getElem]
  intro i j hi hj hij
  rw [← linearize_lt_iff o ((mem_pointsOf o b _).1 (List.getElem_mem _)) ((mem_pointsOf o b _).1 (List.getElem_mem _)),
    linearize_getElem, linearize_getElem]
  exact_mod_cast hij

theorem pointsOf_nodup (o : IndexOrder) (b : Rect) : (pointsOf o b).Nodup := by
  refine (pointsOf_pairwise o b).imp ?_
  intro p q h e
  subst e
  exact before_irrefl o p h

/-! ### comparisons -/

theorem compareRM_iff (p q : Point) (hl : p.length = q.length) : compareRowMajor p q = true ↔ p < q := by
  induction p generalizing q with
  | nil => cases q with
    | nil => simp [compareRowMajor]
    | cons _ _ => simp at hl
  | cons x p ih =>
    cases q with
    | nil => simp at hl
    | cons y q =>
      rw [lt_cons_iff, ← ih q (by simpa using hl), compareRowMajor]
      split
      · simp; omega
      · split
        · simp; constructor <;> intros <;> omega
        · have : x = y := by omega
          simp [this]

theorem compareCMAux_iff (p q : Point) (hl : p.length = q.length) :
    (compareColumnMajorAux p q = some true ↔ p.reverse < q.reverse) ∧
    (compareColumnMajorAux p q = none ↔ p = q) := by
  have app : ∀ (a c : List Int) (x y : Int), a.length = c.length →
      ((a ++ [x]) < (c ++ [y]) ↔ a < c ∨ (a = c ∧ x < y)) := by
    intro a
    induction a with
    | nil => intro c x y h
             cases c with
             | nil => simp only [List.nil_append, lt_cons_iff]; simp
             | cons _ _ => simp at h
    | cons z a ih =>
      intro c x y h
      cases c with
      | nil => simp at h
      | cons w c =>
        have := ih c x y (by simpa using h)
        simp only [List.cons_append, lt_cons_iff, this, List.cons.injEq]
        constructor
        · rintro (g | ⟨rfl, g | ⟨rfl, g⟩⟩)
          · exact Or.inl (Or.inl g)
          · exact Or.inl (Or.inr ⟨rfl, g⟩)
          · exact Or.inr ⟨⟨rfl, rfl⟩, g⟩
        · rintro ((g | ⟨rfl, g⟩) | ⟨⟨rfl, rfl⟩, g⟩)
          · exact Or.inl g
          · exact Or.inr ⟨rfl, Or.inl g⟩
          · exact Or.inr ⟨rfl, Or.inr ⟨rfl, g⟩⟩
  induction p generalizing q with
  | nil => cases q with
    | nil => simp [compareColumnMajorAux]
    | cons _ _ => simp at hl
  | cons x p ih =>
    cases q with
    | nil => simp at hl
    | cons y q =>
      have hl' : p.length = q.length := by simpa using hl
      obtain ⟨i1, i2⟩ := ih q hl'
      rw [List.reverse_cons, List.reverse_cons, app _ _ _ _ (by simpa using hl'), ← i1, compareColumnMajorAux]
      rcases e : compareColumnMajorAux p q with _ | r
      · have := i2.1 e
        subst this
        simp only [List.cons.injEq, and_true]
        split
        · simp; constructor <;> omega
        · split
          · simp; constructor <;> omega
          · simp; constructor <;> omega
      · have : p ≠ q := fun h => by rw [i2.2 h] at e; simp at e
        simp [this]

theorem compareCM_iff (p q : Point) (hl : p.length = q.length) :
    compareColumnMajor p q = true ↔ p.reverse < q.reverse := by
  rw [← (compareCMAux_iff p q hl).1, compareColumnMajor]
  cases compareColumnMajorAux p q <;> simp

theorem compare_iff (o : IndexOrder) (p q : Point) (hl : p.length = q.length) :
    compare o p q = true ↔ Before o p q := by
  cases o with
  | rowMajor => exact compareRM_iff p q hl
  | columnMajor => exact compareCM_iff p q hl

end Verif.Grid
