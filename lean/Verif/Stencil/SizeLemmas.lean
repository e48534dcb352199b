import Verif.Stencil.Size
import Verif.Grid.Linear
/- Helper lemmas for `calculate_stencil_size`. -/
namespace Verif.Stencil
open Verif.Grid

variable {E : Type _}

/-- number of in-bounds (point, offset) pairs, points enumerated in row-major order -/
def pairCount (b : Rect) (offs : List (Point × E)) : Nat :=
  ((points b).map fun p => offs.countP fun o => Rect.contains b (addPoint p o.1)).sum

theorem minOffset_aux (offs : List (Point × E)) (m : Int) :
    ∀ x : Int, x ≤ offs.foldl (fun m o => min m (headCoord o.1)) m ↔ x ≤ m ∧ ∀ o ∈ offs, x ≤ headCoord o.1 := by
  induction offs generalizing m with
  | nil => simp
  | cons o os ih => intro x; simp only [List.foldl_cons, ih, List.forall_mem_cons, le_min_iff, and_assoc]

theorem maxOffset_aux (offs : List (Point × E)) (m : Int) :
    ∀ x : Int, offs.foldl (fun m o => max m (headCoord o.1)) m ≤ x ↔ m ≤ x ∧ ∀ o ∈ offs, headCoord o.1 ≤ x := by
  induction offs generalizing m with
  | nil => simp
  | cons o os ih => intro x; simp only [List.foldl_cons, ih, List.forall_mem_cons, max_le_iff, and_assoc]

theorem le_minOffset (offs : List (Point × E)) (x : Int) :
    x ≤ minOffset offs ↔ x ≤ 0 ∧ ∀ o ∈ offs, x ≤ headCoord o.1 := minOffset_aux offs 0 x

theorem maxOffset_le (offs : List (Point × E)) (x : Int) :
    maxOffset offs ≤ x ↔ 0 ≤ x ∧ ∀ o ∈ offs, headCoord o.1 ≤ x := maxOffset_aux offs 0 x

theorem length_filterMap_eq {α β : Type _} (f : α → Option β) (l : List α) :
    (l.filterMap f).length = l.length ↔ ∀ a ∈ l, (f a).isSome := by
  induction l with
  | nil => simp
  | cons a l ih =>
    rcases e : f a with _ | x
    · simp only [List.filterMap_cons_none e, List.length_cons, List.forall_mem_cons, e, Option.isSome_none]
      have := List.length_filterMap_le f l
      simp; omega
    · simp only [List.filterMap_cons_some e, List.length_cons, List.forall_mem_cons, e, Option.isSome_some, true_and]
      rw [← ih]; omega

/-- all offsets are valid at `i` exactly between the look-back and look-ahead margins -/
theorem all_valid_iff (l h i : Int) (offs : List (Point × E)) (h1 : l ≤ i) (h2 : i ≤ h) :
    (subOffsets l h i offs).length = offs.length ↔
      l - minOffset offs ≤ i ∧ i ≤ h - maxOffset offs := by
  unfold subOffsets
  rw [length_filterMap_eq]
  have a := le_minOffset offs (l - i)
  have b := maxOffset_le offs (h - i)
  constructor
  · intro hv
    have hv' : ∀ o ∈ offs, l ≤ i + headCoord o.1 ∧ i + headCoord o.1 ≤ h := by
      intro o ho
      have := hv o ho
      by_contra hc
      simp [hc] at this
    have := a.2 ⟨by omega, fun o ho => by have := hv' o ho; omega⟩
    have := b.2 ⟨by omega, fun o ho => by have := hv' o ho; omega⟩
    omega
  · intro hv o ho
    have a' := (a.1 (by omega)).2 o ho
    have b' := (b.1 (by omega)).2 o ho
    rw [if_pos (by omega)]; rfl

/-- where all offsets are valid, the slice's offsets are the tails of all offsets -/
theorem subOffsets_full (l h i : Int) (offs : List (Point × E))
    (hv : (subOffsets l h i offs).length = offs.length) :
    subOffsets l h i offs = offs.map fun o => (tailPoint o.1, o.2) := by
  unfold subOffsets at *
  rw [length_filterMap_eq] at hv
  induction offs with
  | nil => rfl
  | cons o os ih =>
    have h1 := hv o (by simp)
    have hc : l ≤ i + headCoord o.1 ∧ i + headCoord o.1 ≤ h := by
      by_contra hc; simp [hc] at h1
    rw [List.filterMap_cons_some (by rw [if_pos hc]), List.map_cons, ih (fun a ha => hv a (by simp [ha]))]

/-- loop invariant of `sizeLoop` -/
theorem sizeLoop_eq (sub : List (Point × E) → Option Nat) (f : Int → Nat) (l h : Int) (offs : List (Point × E))
    (hsub : ∀ x, l ≤ x → x ≤ h → sub (subOffsets l h x offs) = some (f x))
    (i : Int) (r : Nat) (hi : l ≤ i) (hinv : i ≤ l - minOffset offs ∨ h - maxOffset offs < i) :
    sizeLoop sub l h offs i r = some (r + ((irange i (h + 1 - i).toNat).map f).sum) := by
  have hmn : minOffset offs ≤ 0 := ((le_minOffset offs _).1 (le_refl _)).1
  have hmx : 0 ≤ maxOffset offs := ((maxOffset_le offs _).1 (le_refl _)).1
  induction hn : (h + 1 - i).toNat using Nat.strongRecOn generalizing i r with
  | ind n ih =>
    unfold sizeLoop
    by_cases hih : i ≤ h
    · rw [if_pos hih]
      simp only []
      by_cases hv : (subOffsets l h i offs).length = offs.length
      · rw [if_pos hv]
        have hr := (all_valid_iff l h i offs hi hih).1 hv
        have hie : i = l - minOffset offs := by omega
        have hin : h - maxOffset offs ≥ i := by omega
        rw [if_pos hie, dif_pos hin, hsub i hi hih]
        simp only []
        rw [ih (h + 1 - (h - maxOffset offs + 1)).toNat (by omega) (h - maxOffset offs + 1) _ (by omega)
          (Or.inr (by omega)) rfl]
        -- f is constant on [i, h - max]
        have hconst : ∀ x, i ≤ x → x ≤ h - maxOffset offs → f x = f i := by
          intro x h1 h2
          have e1 := hsub x (by omega) (by omega)
          have e2 := hsub i hi hih
          rw [subOffsets_full l h x offs ((all_valid_iff l h x offs (by omega) (by omega)).2 (by omega))] at e1
          rw [subOffsets_full l h i offs hv] at e2
          rw [e1] at e2
          simpa using e2
        have split : ∀ (a c : Nat) (s : Int), irange s (a + c) = irange s a ++ irange (s + a) c := by
          intro a
          induction a with
          | zero => intro c s; simp [irange]
          | succ a iha =>
            intro c s
            rw [show a + 1 + c = (a + c) + 1 by omega, irange, irange, iha c (s + 1)]
            simp only [List.cons_append, List.cons.injEq, true_and]
            congr 2
            push_cast; ring
        have hsplit : n = (h - maxOffset offs - i + 1).toNat + (h + 1 - (h - maxOffset offs + 1)).toNat := by omega
        rw [hsplit, split, List.map_append, List.sum_append]
        have hs : i + ((h - maxOffset offs - i + 1).toNat : Int) = h - maxOffset offs + 1 := by omega
        rw [hs]
        have hsum : ((irange i (h - maxOffset offs - i + 1).toNat).map f).sum =
            (h - maxOffset offs - i + 1).toNat * f i := by
          rw [show (irange i (h - maxOffset offs - i + 1).toNat).map f =
              List.replicate (h - maxOffset offs - i + 1).toNat (f i) by
            rw [List.eq_replicate_iff]
            refine ⟨by simp [length_irange], ?_⟩
            intro y hy
            simp only [List.mem_map, mem_irange] at hy
            obtain ⟨x, hx, rfl⟩ := hy
            exact hconst x (by omega) (by omega)]
          simp
        rw [hsum]
        simp only [Option.some.injEq]
        ring
      · rw [if_neg hv, hsub i hi hih]
        simp only []
        have hnv : ¬ (l - minOffset offs ≤ i ∧ i ≤ h - maxOffset offs) := fun hc =>
          hv ((all_valid_iff l h i offs hi hih).2 hc)
        rw [ih (h + 1 - (i + 1)).toNat (by omega) (i + 1) _ (by omega) (by omega) rfl]
        have e : n = (h + 1 - (i + 1)).toNat + 1 := by omega
        rw [e, irange]
        simp only [List.map_cons, List.sum_cons, Option.some.injEq]
        ring
    · rw [if_neg hih]
      have : n = 0 := by omega
      subst this
      simp [irange]

theorem contains_cons (l h x : Int) (b : Rect) (p o : Point) (ho : o.length = b.length + 1) :
    Rect.contains ((l, h) :: b) (addPoint (x :: p) o) =
      (decide (l ≤ x + headCoord o ∧ x + headCoord o ≤ h) && Rect.contains b (addPoint p (tailPoint o))) := by
  cases o with
  | nil => simp at ho
  | cons y o =>
    change (decide (l ≤ x + y) && decide (x + y ≤ h) && Rect.contains b (addPoint p o)) =
      (decide (l ≤ x + y ∧ x + y ≤ h) && Rect.contains b (addPoint p o))
    simp [Bool.decide_and]

theorem countP_cons_sub (l h x : Int) (b : Rect) (p : Point) (offs : List (Point × E))
    (ho : ∀ o ∈ offs, o.1.length = b.length + 1) :
    offs.countP (fun o => Rect.contains ((l, h) :: b) (addPoint (x :: p) o.1)) =
      (subOffsets l h x offs).countP fun o => Rect.contains b (addPoint p o.1) := by
  induction offs with
  | nil => rfl
  | cons o os ih =>
    have ih' := ih (fun a ha => ho a (by simp [ha]))
    have h1 := contains_cons l h x b p o.1 (ho o (by simp))
    unfold subOffsets at *
    rw [List.countP_cons, ih', h1]
    by_cases hc : l ≤ x + headCoord o.1 ∧ x + headCoord o.1 ≤ h
    · rw [List.filterMap_cons_some (by rw [if_pos hc]), List.countP_cons]
      simp [hc]
    · rw [List.filterMap_cons_none (by rw [if_neg hc])]
      simp [hc]

theorem pairCount_cons (l h : Int) (b : Rect) (offs : List (Point × E))
    (ho : ∀ o ∈ offs, o.1.length = b.length + 1) :
    pairCount ((l, h) :: b) offs =
      ((irange l (h + 1 - l).toNat).map fun x => pairCount b (subOffsets l h x offs)).sum := by
  unfold pairCount
  rw [points, show (h - l + 1).toNat = (h + 1 - l).toNat by omega]
  rw [List.map_flatMap, List.flatMap_def, List.sum_flatten]
  rw [List.map_map]
  congr 1
  apply List.map_congr_left
  intro x _
  simp only [Function.comp, List.map_map]
  congr 1
  apply List.map_congr_left
  intro p _
  exact countP_cons_sub l h x b p offs ho

theorem subOffsets_length (l h x : Int) (n : Nat) (offs : List (Point × E))
    (ho : ∀ o ∈ offs, o.1.length = n + 1) : ∀ o ∈ subOffsets l h x offs, o.1.length = n := by
  intro o hm
  unfold subOffsets at hm
  rw [List.mem_filterMap] at hm
  obtain ⟨a, ha, he⟩ := hm
  split at he
  · simp only [Option.some.injEq] at he
    subst he
    simp [tailPoint, ho a ha]
  · simp at he

theorem countP_irange (l : Int) (n : Nat) (a c : Int) :
    (irange l n).countP (fun x => decide (a ≤ x) && decide (x ≤ c)) =
      (min (l + n) (c + 1) - max l a).toNat := by
  induction n generalizing l with
  | zero => simp [irange]; omega
  | succ n ih =>
    rw [irange, List.countP_cons, ih]
    by_cases h1 : a ≤ l <;> by_cases h2 : l ≤ c <;> simp [h1, h2] <;> omega

theorem size1_eq (l h : Int) (offs : List (Point × E)) (ho : ∀ o ∈ offs, o.1.length = 1) :
    size1 l h offs = pairCount [(l, h)] offs := by
  have h1 : ∀ (offs : List (Point × E)) (r : Nat), (∀ o ∈ offs, o.1.length = 1) →
      offs.foldl (fun result o =>
        if (headCoord o.1).natAbs ≤ (h - l + 1).toNat then result + ((h - l + 1).toNat - (headCoord o.1).natAbs)
        else result) r = r + pairCount [(l, h)] offs := by
    intro offs
    induction offs with
    | nil => intro r _; simp [pairCount]
    | cons o os ih =>
      intro r hlen
      rw [List.foldl_cons, ih _ (fun a ha => hlen a (by simp [ha]))]
      have ho1 := hlen o (by simp)
      have key : pairCount [(l, h)] (o :: os) =
          (points [(l, h)]).countP (fun p => Rect.contains [(l, h)] (addPoint p o.1)) + pairCount [(l, h)] os := by
        unfold pairCount
        generalize points [(l, h)] = ps
        induction ps with
        | nil => simp
        | cons p ps ihp =>
          simp only [List.map_cons, List.sum_cons, List.countP_cons] at ihp ⊢
          rw [ihp]; ring
      rw [key]
      obtain ⟨op, oe⟩ := o
      match op, ho1 with
      | [y], _ =>
        have hpts : points [(l, h)] = (irange l (h - l + 1).toNat).map (fun x => [x]) := by
          simp only [points, List.map_cons, List.map_nil]
          generalize irange l (h - l + 1).toNat = xs
          induction xs with
          | nil => rfl
          | cons a xs ihx => simp [ihx]
        rw [hpts, List.countP_map]
        have hpred : ((fun p => Rect.contains [(l, h)] (addPoint p [y])) ∘ fun x : Int => [x]) =
            fun x => decide (l - y ≤ x) && decide (x ≤ h - y) := by
          funext x
          simp only [Function.comp, addPoint, List.zipWith_cons_cons, List.zipWith_nil_left, Rect.contains,
            Bool.and_true]
          congr 1 <;> (apply Bool.decide_congr; omega)
        change (if y.natAbs ≤ (h - l + 1).toNat then r + ((h - l + 1).toNat - y.natAbs) else r) + _ =
          r + (List.countP ((fun p => Rect.contains [(l, h)] (addPoint p [y])) ∘ fun x : Int => [x]) _ + _)
        rw [hpred, countP_irange]
        by_cases hc : y.natAbs ≤ (h - l + 1).toNat
        · rw [if_pos hc]; omega
        · rw [if_neg hc]; omega
  have := h1 offs 0 ho
  simpa [size1] using this

theorem calculateStencilSize_eq (b : Rect) (offs : List (Point × E)) (hb : b ≠ [])
    (ho : ∀ o ∈ offs, o.1.length = b.length) :
    calculateStencilSize b offs = some (pairCount b offs) := by
  have nilcase : ∀ b : Rect, pairCount b ([] : List (Point × E)) = 0 := by
    intro b; unfold pairCount; generalize points b = ps
    induction ps with
    | nil => rfl
    | cons _ _ ih => simp
  induction b generalizing offs with
  | nil => exact absurd rfl hb
  | cons lh b ih =>
    obtain ⟨l, h⟩ := lh
    cases offs with
    | nil => simp [calculateStencilSize, nilcase]
    | cons o os =>
      cases b with
      | nil =>
        rw [calculateStencilSize, size1_eq l h _ (by simpa using ho)]
      | cons b2 b =>
        rw [calculateStencilSize]
        have ho' : ∀ a ∈ o :: os, a.1.length = (b2 :: b).length + 1 := by
          intro a ha; have := ho a ha; simpa using this
        rw [sizeLoop_eq (calculateStencilSize (b2 :: b)) (fun x => pairCount (b2 :: b) (subOffsets l h x (o :: os)))
          l h (o :: os) ?_ l 0 (le_refl _) (Or.inl ?_)]
        · rw [pairCount_cons l h _ _ ho']; simp
        · intro x _ _
          exact ih _ (by simp) (subOffsets_length l h x _ _ ho')
        · have := ((le_minOffset (o :: os) _).1 (le_refl _)).1
          omega

end Verif.Stencil
