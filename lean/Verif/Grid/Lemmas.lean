import Verif.Grid.Spec
import Mathlib.Data.List.Chain
import Mathlib.Tactic.Ring
import Mathlib.Tactic.Linarith
/- Helper lemmas about grid traversal and linearisation. -/
namespace Verif.Grid

/-- consecutive integers starting at `l` -/
def irange : Int → Nat → List Int
  | _, 0 => []
  | l, n + 1 => l :: irange (l + 1) n

/-- all points of a rectangle in row-major order -/
def points : Rect → List Point
  | [] => [[]]
  | (l, h) :: b => (irange l (h - l + 1).toNat).flatMap fun x => (points b).map (x :: ·)

theorem mem_irange (l : Int) (n : Nat) (x : Int) : x ∈ irange l n ↔ l ≤ x ∧ x < l + n := by
  induction n generalizing l with
  | zero => simp [irange]
  | succ n ih => simp only [irange, List.mem_cons, ih]; omega

theorem length_irange (l : Int) (n : Nat) : (irange l n).length = n := by
  induction n generalizing l with
  | zero => rfl
  | succ n ih => simp [irange, ih]

theorem mem_points (b : Rect) (p : Point) : p ∈ points b ↔ InBox b p := by
  induction b generalizing p with
  | nil => simp [points, InBox]
  | cons lh b ih =>
    obtain ⟨l, h⟩ := lh
    simp only [points, List.mem_flatMap, List.mem_map, mem_irange, InBox]
    constructor
    · rintro ⟨x, hx, q, hq, rfl⟩
      exact List.Forall₂.cons (by simp only; omega) ((ih q).1 hq)
    · intro hp
      cases hp with
      | cons hx hq => exact ⟨_, by simp only at hx; omega, _, (ih _).2 hq, rfl⟩

theorem contains_iff (b : Rect) (p : Point) : Rect.contains b p = true ↔ InBox b p := by
  induction b generalizing p with
  | nil => cases p <;> simp [Rect.contains, InBox]
  | cons lh b ih =>
    obtain ⟨l, h⟩ := lh
    cases p with
    | nil => simp [Rect.contains, InBox]
    | cons x p =>
      have := ih p
      simp only [InBox] at this ⊢
      simp [Rect.contains, this]

theorem InBox.length_eq {b : Rect} {p : Point} (h : InBox b p) : b.length = p.length :=
  List.Forall₂.length_eq h

theorem length_points (b : Rect) : (points b).length = (Rect.volume b) := by
  induction b with
  | nil => rfl
  | cons lh b ih =>
    obtain ⟨l, h⟩ := lh
    simp only [points, Rect.volume, List.length_flatMap, List.length_map, ih]
    generalize (h - l + 1).toNat = n
    induction n generalizing l with
    | zero => simp [irange]
    | succ n ihn => simp only [irange, List.map_cons, List.sum_cons, ihn]; ring

theorem nonempty_tail {lh : Int × Int} {b : Rect} (h : Nonempty (lh :: b)) : Nonempty b :=
  fun x hx => h x (List.mem_cons_of_mem _ hx)

theorem inBox_lo {b : Rect} (h : Nonempty b) : InBox b (Rect.lo b) := by
  induction b with
  | nil => exact List.Forall₂.nil
  | cons lh b ih =>
    exact List.Forall₂.cons ⟨le_refl _, h lh (by simp)⟩ (ih (nonempty_tail h))

theorem inBox_hi {b : Rect} (h : Nonempty b) : InBox b (Rect.hi b) := by
  induction b with
  | nil => exact List.Forall₂.nil
  | cons lh b ih =>
    exact List.Forall₂.cons ⟨h lh (by simp), le_refl _⟩ (ih (nonempty_tail h))

theorem nonempty_of_inBox {b : Rect} {p : Point} (h : InBox b p) : Nonempty b := by
  induction h with
  | nil => intro x hx; simp at hx
  | cons hx _ ih =>
    intro y hy
    rcases List.mem_cons.1 hy with rfl | hy
    · omega
    · exact ih y hy

theorem incRM_hi (b : Rect) : incrementRowMajor b (Rect.hi b) = (false, (Rect.lo b)) := by
  induction b with
  | nil => rfl
  | cons lh b ih =>
    obtain ⟨l, h⟩ := lh
    simp only [Rect.hi, Rect.lo] at ih
    simp [Rect.hi, Rect.lo, incrementRowMajor, ih]

/-- row-major successor relation -/
def StepRM (b : Rect) (p q : Point) : Prop := incrementRowMajor b p = (true, q)

/-- the list of points is a chain under `incrementRowMajor`, from the low corner to the high corner -/
theorem points_chain (b : Rect) (hb : Nonempty b) :
    List.IsChain (StepRM b) (points b) ∧ (points b).head? = some (Rect.lo b) ∧
      (points b).getLast? = some (Rect.hi b) := by
  induction b with
  | nil => simp [points, Rect.lo, Rect.hi]
  | cons lh b ih =>
    obtain ⟨l, h⟩ := lh
    obtain ⟨c, hd, tl⟩ := ih (nonempty_tail hb)
    have hlh : l ≤ h := hb (l, h) (by simp)
    simp only [points]
    -- blocks starting at `x`, `n + 1` of them, the last one being `h`
    have key : ∀ (n : Nat) (x : Int), x + n = h →
        List.IsChain (StepRM ((l, h) :: b))
          ((irange x (n + 1)).flatMap fun x => (points b).map (x :: ·)) ∧
        ((irange x (n + 1)).flatMap fun x => (points b).map (x :: ·)).head? = some (x :: (Rect.lo b)) ∧
        ((irange x (n + 1)).flatMap fun x => (points b).map (x :: ·)).getLast? = some (h :: (Rect.hi b)) := by
      intro n
      have blockchain : ∀ x : Int, List.IsChain (StepRM ((l, h) :: b)) ((points b).map (x :: ·)) := by
        intro x
        refine List.isChain_map_of_isChain _ ?_ c
        intro p q hpq
        simp only [StepRM] at hpq
        simp [StepRM, incrementRowMajor, hpq]
      have bhd : ∀ x : Int, ((points b).map (x :: ·)).head? = some (x :: (Rect.lo b)) := by
        intro x; simp [hd]
      have btl : ∀ x : Int, ((points b).map (x :: ·)).getLast? = some (x :: (Rect.hi b)) := by
        intro x; simp [List.getLast?_map, tl]
      induction n with
      | zero =>
        intro x hx
        have : x = h := by omega
        subst this
        simp only [irange, List.flatMap_cons, List.flatMap_nil, List.append_nil]
        exact ⟨blockchain x, bhd x, btl x⟩
      | succ n ihn =>
        intro x hx
        obtain ⟨c2, hd2, tl2⟩ := ihn (x + 1) (by omega)
        rw [irange, List.flatMap_cons]
        refine ⟨?_, ?_, ?_⟩
        · rw [List.isChain_append]
          refine ⟨blockchain x, c2, ?_⟩
          intro p hp q hq
          rw [btl x] at hp
          rw [hd2] at hq
          simp only [Option.mem_def, Option.some.injEq] at hp hq
          subst hp hq
          simp only [StepRM, incrementRowMajor, incRM_hi]
          rw [if_neg (by omega)]
        · rw [List.head?_append, bhd]; rfl
        · rw [List.getLast?_append, tl2]; rfl
    have := key (h - l).toNat l (by omega)
    have e : (h - l + 1).toNat = (h - l).toNat + 1 := by omega
    rw [e]
    simpa [Rect.lo, Rect.hi] using this

/-- running the loop along a chain is a fold over the chain -/
theorem doWhile_chain {S : Type _} (inc : Point → Bool × Point) (body : S → Point → S)
    (l : List Point) (p : Point) (s : S) (fuel : Nat)
    (hc : List.IsChain (fun a b => inc a = (true, b)) (p :: l))
    (hlast : (inc ((p :: l).getLast (by simp))).1 = false) (hf : (p :: l).length ≤ fuel) :
    doWhile inc body fuel s p = some ((p :: l).foldl body s) := by
  induction l generalizing p s fuel with
  | nil =>
    cases fuel with
    | zero => simp at hf
    | succ fuel =>
      simp only [List.getLast_singleton] at hlast
      unfold doWhile
      rcases hi : inc p with ⟨r, p'⟩
      rw [hi] at hlast
      simp only at hlast
      subst hlast
      simp
  | cons q l ih =>
    cases fuel with
    | zero => simp at hf
    | succ fuel =>
      rw [List.isChain_cons_cons] at hc
      unfold doWhile
      rw [hc.1]
      simp only [List.foldl_cons]
      have := ih q (body s p) fuel hc.2 (by simpa using hlast) (by simpa using hf)
      simpa using this

/-! ### reversal: column-major is row-major on reversed lists -/

theorem incRM_append (b : Rect) (p : Point) (l h x : Int) (hl : b.length = p.length) :
    incrementRowMajor (b ++ [(l, h)]) (p ++ [x]) =
      if x ≥ h then ((incrementRowMajor b p).1, (incrementRowMajor b p).2 ++ [l])
      else (true, p ++ [x + 1]) := by
  induction b generalizing p with
  | nil =>
    cases p with
    | nil => simp [incrementRowMajor]
    | cons _ _ => simp at hl
  | cons lh b ih =>
    obtain ⟨l', h'⟩ := lh
    cases p with
    | nil => simp at hl
    | cons y p =>
      have hl' : b.length = p.length := by simpa using hl
      simp only [List.cons_append, incrementRowMajor, ih p hl']
      by_cases hx : x ≥ h
      · simp only [hx, if_true]
        rcases incrementRowMajor b p with ⟨r, q⟩
        cases r
        · by_cases hy : y ≥ h' <;> simp [hy]
        · simp
      · simp [hx]

theorem incCM_eq (b : Rect) (p : Point) (hl : b.length = p.length) :
    incrementColumnMajor b p =
      ((incrementRowMajor b.reverse p.reverse).1, (incrementRowMajor b.reverse p.reverse).2.reverse) := by
  induction b generalizing p with
  | nil =>
    cases p with
    | nil => simp [incrementRowMajor, incrementColumnMajor]
    | cons _ _ => simp at hl
  | cons lh b ih =>
    obtain ⟨l, h⟩ := lh
    cases p with
    | nil => simp at hl
    | cons x p =>
      have hl' : b.length = p.length := by simpa using hl
      have e := incRM_append b.reverse p.reverse l h x (by simpa using hl')
      simp only [List.reverse_cons] at *
      rw [e, incrementColumnMajor, ih p hl']
      by_cases hx : x ≥ h <;> simp [hx]

theorem inBox_reverse {b : Rect} {p : Point} : InBox b.reverse p.reverse ↔ InBox b p := by
  unfold InBox; exact List.forall₂_reverse_iff

theorem nonempty_reverse {b : Rect} (h : Nonempty b) : Nonempty b.reverse := by
  intro x hx; exact h x (by simpa using hx)

/-- all points of a rectangle in the given order -/
def pointsOf : IndexOrder → Rect → List Point
  | .rowMajor, b => points b
  | .columnMajor, b => (points b.reverse).map List.reverse

theorem mem_pointsOf (o : IndexOrder) (b : Rect) (p : Point) : p ∈ pointsOf o b ↔ InBox b p := by
  cases o with
  | rowMajor => exact mem_points b p
  | columnMajor =>
    simp only [pointsOf, List.mem_map, mem_points]
    constructor
    · rintro ⟨q, hq, rfl⟩
      rw [← inBox_reverse]; simpa using hq
    · intro h
      exact ⟨p.reverse, by rw [inBox_reverse]; exact h, by simp⟩

theorem volume_append (b c : Rect) : Rect.volume (b ++ c) = (Rect.volume b) * Rect.volume c := by
  induction b with
  | nil => simp [Rect.volume]
  | cons lh b ih =>
    obtain ⟨l, h⟩ := lh
    rw [List.cons_append]
    simp only [Rect.volume, ih]
    ring

theorem volume_reverse (b : Rect) : (Rect.volume b.reverse) = (Rect.volume b) := by
  induction b with
  | nil => rfl
  | cons lh b ih =>
    obtain ⟨l, h⟩ := lh
    rw [List.reverse_cons, volume_append, ih]
    simp only [Rect.volume]
    ring

theorem length_pointsOf (o : IndexOrder) (b : Rect) : (pointsOf o b).length = (Rect.volume b) := by
  cases o with
  | rowMajor => exact length_points b
  | columnMajor => simp [pointsOf, length_points, volume_reverse]

theorem volume_pos {b : Rect} (h : Nonempty b) : 0 < (Rect.volume b) := by
  induction b with
  | nil => simp [Rect.volume]
  | cons lh b ih =>
    obtain ⟨l, h'⟩ := lh
    have := h (l, h') (by simp)
    simp only at this
    have := ih (nonempty_tail h)
    exact Nat.mul_pos (by omega) this

theorem volume_eq_zero {b : Rect} (h : ¬ Nonempty b) : (Rect.volume b) = 0 := by
  induction b with
  | nil => exact absurd (fun x hx => by simp at hx) h
  | cons lh b ih =>
    obtain ⟨l, h'⟩ := lh
    simp only [Rect.volume]
    by_cases hb : Nonempty b
    · have : ¬ l ≤ h' := by
        intro hle; apply h; intro x hx
        rcases List.mem_cons.1 hx with rfl | hx
        · exact hle
        · exact hb x hx
      have : (h' - l + 1).toNat = 0 := by omega
      simp [this]
    · simp [ih hb]

theorem pointsOf_chain (o : IndexOrder) (b : Rect) (hb : Nonempty b) :
    List.IsChain (fun p q => increment o b p = (true, q)) (pointsOf o b) ∧
      (pointsOf o b).head? = some (Rect.lo b) ∧ (pointsOf o b).getLast? = some (Rect.hi b) := by
  cases o with
  | rowMajor => exact points_chain b hb
  | columnMajor =>
    obtain ⟨c, hd, tl⟩ := points_chain b.reverse (nonempty_reverse hb)
    refine ⟨?_, ?_, ?_⟩
    · have c' : List.IsChain (fun p q => StepRM b.reverse p q ∧ InBox b.reverse p ∧ InBox b.reverse q)
          (points b.reverse) := by
        have : ∀ p ∈ points b.reverse, InBox b.reverse p := fun p hp => (mem_points _ _).1 hp
        exact (List.IsChain.imp_of_mem_imp (fun p q hp hq h => ⟨h, this p hp, this q hq⟩) c)
      refine List.isChain_map_of_isChain _ ?_ c'
      intro p q hpq
      obtain ⟨hs, hp, hq⟩ := hpq
      have hl := hp.length_eq
      simp only [increment]
      rw [incCM_eq _ _ (by simpa using hl), List.reverse_reverse, hs]
    · simp only [pointsOf]
      rw [List.head?_map, hd]
      simp [Rect.lo]
    · simp only [pointsOf, List.getLast?_map]
      rw [tl]
      simp [Rect.hi]

theorem increment_hi (o : IndexOrder) (b : Rect) : increment o b (Rect.hi b) = (false, (Rect.lo b)) := by
  cases o with
  | rowMajor => exact incRM_hi b
  | columnMajor =>
    have e : (Rect.hi b).reverse = (Rect.hi b.reverse) := by simp [Rect.hi]
    simp only [increment]
    rw [incCM_eq _ _ (by simp [Rect.hi]), e, incRM_hi]
    simp [Rect.lo]

/-- Every loop `do body while (increment)` started at the low corner is the fold of the body over the points. -/
theorem doWhile_points {S : Type _} (o : IndexOrder) (b : Rect) (hb : Nonempty b) (body : S → Point → S)
    (s : S) (fuel : Nat) (hf : (Rect.volume b) ≤ fuel) :
    doWhile (increment o b) body fuel s (Rect.lo b) = some ((pointsOf o b).foldl body s) := by
  obtain ⟨c, hd, tl⟩ := pointsOf_chain o b hb
  have hl := length_pointsOf o b
  rcases hp : pointsOf o b with _ | ⟨p, l⟩
  · rw [hp] at hd; simp at hd
  · rw [hp] at c hd tl hl
    have : p = (Rect.lo b) := by simpa using hd
    subst this
    refine doWhile_chain _ body l _ s fuel c ?_ (by omega)
    have h2 : ((Rect.lo b) :: l).getLast (by simp) = (Rect.hi b) := by
      rw [List.getLast?_eq_some_getLast (by simp)] at tl
      simpa using tl
    rw [h2, increment_hi]

end Verif.Grid
