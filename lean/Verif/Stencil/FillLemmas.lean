import Verif.Stencil.FillSpec
import Verif.Stencil.SizeLemmas
/- Helper lemmas about the stencil fill tasks. -/
namespace Verif.Stencil
open Verif.Grid

variable {E : Type _}

/-- the values `vs` placed at indices `0, 1, ...` of the piece `D`, over initial contents `init` -/
def place {V : Type _} (init : Int → Option V) (D : Int → Bool) (vs : List V) : Int → Option V :=
  fun j => if D j = true ∧ 0 ≤ j ∧ j < vs.length then vs[j.toNat]? else init j

theorem place_nil {V : Type _} (init : Int → Option V) (D : Int → Bool) : place init D [] = init := by
  funext j
  unfold place
  rw [if_neg]
  simp

theorem place_snoc {V : Type _} (init : Int → Option V) (D : Int → Bool) (vs : List V) (v : V) :
    place init D (vs ++ [v]) =
      if D vs.length then write (place init D vs) (vs.length : Int) v else place init D vs := by
  have key : ∀ j : Int, ¬ j = vs.length →
      place init D (vs ++ [v]) j = place init D vs j := by
    intro j hj
    unfold place
    by_cases hd : D j = true
    · by_cases h0 : 0 ≤ j ∧ j < (vs.length : Int)
      · rw [if_pos ⟨hd, h0.1, by simp; omega⟩, if_pos ⟨hd, h0⟩, List.getElem?_append_left (by omega)]
      · rw [if_neg (by simp; intro _ h1; omega), if_neg (by rintro ⟨_, h1⟩; exact h0 h1)]
    · rw [if_neg (by rintro ⟨h1, _⟩; exact hd h1), if_neg (by rintro ⟨h1, _⟩; exact hd h1)]
  by_cases hD : D vs.length = true
  · rw [if_pos hD]
    funext j
    by_cases hj : j = vs.length
    · subst hj
      simp [write, place, hD]
    · rw [key j hj, write, if_neg hj]
  · rw [if_neg hD]
    funext j
    by_cases hj : j = vs.length
    · subst hj
      unfold place
      rw [if_neg (by rintro ⟨h1, _⟩; exact hD h1), if_neg (by rintro ⟨h1, _⟩; exact hD h1)]
    · exact key j hj

/-- the COO state in which the entries `es` have been placed -/
def cooAt {R C : Type _} (f : Point → R) (g : Point → C) (D : Int → Bool) (row : Int → Option R) (col : Int → Option C)
    (entry : Int → Option E) (es : List (Point × Point × E)) : COOState R C E :=
  ⟨es.length, place row D (es.map fun e => f e.1), place col D (es.map fun e => g e.2.1),
    place entry D (es.map fun e => e.2.2)⟩

theorem rowEntries_cons (b : Rect) (oe : Point × E) (offs : List (Point × E)) (p : Point) :
    rowEntries b (oe :: offs) p =
      (if Rect.contains b (addPoint p oe.1) then [(p, addPoint p oe.1, oe.2)] else []) ++ rowEntries b offs p := by
  unfold rowEntries
  by_cases h : InBox b (addPoint p oe.1)
  · rw [List.filterMap_cons_some (by rw [if_pos h]), if_pos ((contains_iff _ _).2 h)]; rfl
  · rw [List.filterMap_cons_none (by rw [if_neg h]), if_neg (fun hc => h ((contains_iff _ _).1 hc))]; rfl

theorem cooOffsetStep_at (b : Rect) (D : Int → Bool) (p : Point) (row col : Int → Option Point)
    (entry : Int → Option E) (es : List (Point × Point × E)) (oe : Point × E) :
    cooOffsetStep b D p (cooAt id id D row col entry es) oe =
      cooAt id id D row col entry
        (es ++ if Rect.contains b (addPoint p oe.1) then [(p, addPoint p oe.1, oe.2)] else []) := by
  unfold cooOffsetStep
  by_cases h : Rect.contains b (addPoint p oe.1) = true
  · simp only [h, if_true]
    by_cases hD : D es.length = true <;> simp [cooAt, place_snoc, hD]
  · simp only [h]; simp

theorem linCooOffsetStep_at (o : IndexOrder) (b : Rect) (D : Int → Bool) (p : Point) (row col : Int → Option Int)
    (entry : Int → Option E) (es : List (Point × Point × E)) (oe : Point × E) :
    linCooOffsetStep o b D p (cooAt (linearize o b) (linearize o b) D row col entry es) oe =
      cooAt (linearize o b) (linearize o b) D row col entry
        (es ++ if Rect.contains b (addPoint p oe.1) then [(p, addPoint p oe.1, oe.2)] else []) := by
  unfold linCooOffsetStep
  by_cases h : Rect.contains b (addPoint p oe.1) = true
  · simp only [h, if_true]
    by_cases hD : D es.length = true <;> simp [cooAt, place_snoc, hD]
  · simp only [h]; simp

theorem cooRow_at (b : Rect) (D : Int → Bool) (p : Point) (row col : Int → Option Point)
    (entry : Int → Option E) (offs : List (Point × E)) (es : List (Point × Point × E)) :
    offs.foldl (cooOffsetStep b D p) (cooAt id id D row col entry es) =
      cooAt id id D row col entry (es ++ rowEntries b offs p) := by
  induction offs generalizing es with
  | nil => simp [rowEntries]
  | cons oe offs ih => rw [List.foldl_cons, cooOffsetStep_at, ih, rowEntries_cons, List.append_assoc]

theorem linCooRow_at (o : IndexOrder) (b : Rect) (D : Int → Bool) (p : Point) (row col : Int → Option Int)
    (entry : Int → Option E) (offs : List (Point × E)) (es : List (Point × Point × E)) :
    offs.foldl (linCooOffsetStep o b D p) (cooAt (linearize o b) (linearize o b) D row col entry es) =
      cooAt (linearize o b) (linearize o b) D row col entry (es ++ rowEntries b offs p) := by
  induction offs generalizing es with
  | nil => simp [rowEntries]
  | cons oe offs ih => rw [List.foldl_cons, linCooOffsetStep_at, ih, rowEntries_cons, List.append_assoc]

theorem cooRows_at (b : Rect) (D : Int → Bool) (row col : Int → Option Point)
    (entry : Int → Option E) (offs : List (Point × E)) (ps : List Point) (es : List (Point × Point × E)) :
    ps.foldl (fun s p => offs.foldl (cooOffsetStep b D p) s) (cooAt id id D row col entry es) =
      cooAt id id D row col entry (es ++ stencilEntries b offs ps) := by
  induction ps generalizing es with
  | nil => simp [stencilEntries]
  | cons p ps ih =>
    simp only [List.foldl_cons]
    rw [cooRow_at, ih, List.append_assoc]; rfl

theorem linCooRows_at (o : IndexOrder) (b : Rect) (D : Int → Bool) (row col : Int → Option Int)
    (entry : Int → Option E) (offs : List (Point × E)) (ps : List Point) (es : List (Point × Point × E)) :
    ps.foldl (fun s p => offs.foldl (linCooOffsetStep o b D p) s)
        (cooAt (linearize o b) (linearize o b) D row col entry es) =
      cooAt (linearize o b) (linearize o b) D row col entry (es ++ stencilEntries b offs ps) := by
  induction ps generalizing es with
  | nil => simp [stencilEntries]
  | cons p ps ih =>
    simp only [List.foldl_cons]
    rw [linCooRow_at, ih, List.append_assoc]; rfl

theorem cooAt_nil {R C : Type _} (f : Point → R) (g : Point → C) (D : Int → Bool) (row : Int → Option R)
    (col : Int → Option C) (entry : Int → Option E) : cooAt f g D row col entry [] = ⟨0, row, col, entry⟩ := by
  simp [cooAt, place_nil]

/-! ### empty rectangles -/

/-- the rectangle whose empty sides are widened to one point; the loop walks over it -/
def clamp (b : Rect) : Rect := b.map fun lh => (lh.1, max lh.1 lh.2)

theorem clamp_nonempty (b : Rect) : Nonempty (clamp b) := by
  intro x hx
  simp only [clamp, List.mem_map] at hx
  obtain ⟨y, _, rfl⟩ := hx
  exact le_max_left _ _

theorem clamp_lo (b : Rect) : Rect.lo (clamp b) = Rect.lo b := by
  simp [Rect.lo, clamp]

theorem clamp_of_nonempty {b : Rect} (h : Nonempty b) : clamp b = b := by
  unfold clamp
  conv => rhs; rw [← List.map_id b]
  apply List.map_congr_left
  intro lh hlh
  have := h lh hlh
  simp [this]

theorem incRM_clamp (b : Rect) (p : Point) (hp : InBox (clamp b) p) :
    incrementRowMajor b p = incrementRowMajor (clamp b) p := by
  induction b generalizing p with
  | nil => rfl
  | cons lh b ih =>
    obtain ⟨l, h⟩ := lh
    cases hp with
    | @cons _ x _ p hx hp =>
      have hx1 : l ≤ x := hx.1
      rw [incrementRowMajor, ih p hp]
      show _ = incrementRowMajor ((l, max l h) :: clamp b) (x :: p)
      rw [incrementRowMajor]
      have : (x ≥ h) ↔ (x ≥ max l h) := by omega
      simp only [this]

theorem increment_clamp (o : IndexOrder) (b : Rect) (p : Point) (hp : InBox (clamp b) p) :
    increment o b p = increment o (clamp b) p := by
  cases o with
  | rowMajor => exact incRM_clamp b p hp
  | columnMajor =>
    have hl := hp.length_eq
    have hl' : b.length = p.length := by simpa [clamp] using hl
    simp only [increment]
    rw [incCM_eq _ _ hl', incCM_eq _ _ hl]
    have e : (clamp b).reverse = clamp b.reverse := by simp [clamp]
    have : InBox (clamp b.reverse) p.reverse := by rw [← e]; exact inBox_reverse.2 hp
    rw [e, incRM_clamp b.reverse p.reverse this]

/-- the loop over any rectangle, empty or not -/
theorem doWhile_any {S : Type _} (o : IndexOrder) (b : Rect) (body : S → Point → S) (s : S) (fuel : Nat)
    (hf : Rect.volume (clamp b) ≤ fuel) :
    doWhile (increment o b) body fuel s (Rect.lo b) = some ((pointsOf o (clamp b)).foldl body s) := by
  have h := doWhile_points o (clamp b) (clamp_nonempty b) body s fuel hf
  rw [clamp_lo] at h
  rw [← h]
  have gen : ∀ (fuel : Nat) (s : S) (p : Point), InBox (clamp b) p →
      doWhile (increment o b) body fuel s p = doWhile (increment o (clamp b)) body fuel s p := by
    intro fuel
    induction fuel with
    | zero => intros; rfl
    | succ fuel ih =>
      intro s p hp
      unfold doWhile
      rw [increment_clamp o b p hp]
      rcases e : increment o (clamp b) p with ⟨r, q⟩
      cases r with
      | false => rfl
      | true => exact ih _ q (increment_true o hp e).1
  apply gen
  have := inBox_lo (clamp_nonempty b)
  rwa [clamp_lo] at this

theorem rowEntries_empty (b : Rect) (hb : ¬ Nonempty b) (offs : List (Point × E)) (p : Point) :
    rowEntries b offs p = [] := by
  unfold rowEntries
  rw [List.filterMap_eq_nil_iff]
  intro oe _
  rw [if_neg]
  intro h
  exact hb (nonempty_of_inBox h)

theorem stencilEntries_clamp (o : IndexOrder) (b : Rect) (offs : List (Point × E)) :
    stencilEntries b offs (pointsOf o (clamp b)) = stencilEntries b offs (pointsOf o b) := by
  by_cases hb : Nonempty b
  · rw [clamp_of_nonempty hb]
  · have h1 : ∀ ps : List Point, stencilEntries b offs ps = [] := by
      intro ps
      unfold stencilEntries
      rw [List.flatMap_eq_nil_iff]
      intro p _
      exact rowEntries_empty b hb offs p
    rw [h1, h1]

/-! ### counting and ordering -/

theorem rowEntries_length (b : Rect) (offs : List (Point × E)) (p : Point) :
    (rowEntries b offs p).length = offs.countP fun o => Rect.contains b (addPoint p o.1) := by
  induction offs with
  | nil => rfl
  | cons oe offs ih =>
    rw [rowEntries_cons, List.length_append, ih, List.countP_cons]
    by_cases h : Rect.contains b (addPoint p oe.1) = true <;> simp [h, Nat.add_comm]

theorem enum_perm {o o' : IndexOrder} {b : Rect} {ps qs : List Point} (h1 : Enumerates o b ps)
    (h2 : Enumerates o' b qs) : ps.Perm qs :=
  (List.perm_ext_iff_of_nodup h1.nodup h2.nodup).2 fun p => by rw [h1.mem, h2.mem]

theorem enumerates_pointsOf (o : IndexOrder) (b : Rect) : Enumerates o b (pointsOf o b) :=
  ⟨mem_pointsOf o b, pointsOf_nodup o b, pointsOf_pairwise o b⟩

theorem enumerates_unique {o : IndexOrder} {b : Rect} {ps qs : List Point} (h1 : Enumerates o b ps)
    (h2 : Enumerates o b qs) : ps = qs := by
  apply List.Perm.eq_of_pairwise (le := Before o) _ h1.ordered h2.ordered (enum_perm h1 h2)
  intro a c _ _ h3 h4
  exact absurd (before_trans o h3 h4) (before_irrefl o a)

theorem stencilEntries_length (b : Rect) (offs : List (Point × E)) (ps : List Point) :
    (stencilEntries b offs ps).length =
      (ps.map fun p => offs.countP fun o => Rect.contains b (addPoint p o.1)).sum := by
  unfold stencilEntries
  rw [List.length_flatMap]
  congr 1
  apply List.map_congr_left
  intro p _
  exact rowEntries_length b offs p

theorem stencilEntries_length_eq (o : IndexOrder) (b : Rect) (offs offs' : List (Point × E)) (ps : List Point)
    (h : Enumerates o b ps) (hp : offs'.Perm offs) :
    (stencilEntries b offs' ps).length = pairCount b offs := by
  rw [stencilEntries_length, pairCount]
  have hperm : ps.Perm (points b) := enum_perm h (enumerates_pointsOf .rowMajor b)
  have : (fun p => offs'.countP fun o => Rect.contains b (addPoint p o.1)) =
      fun p => offs.countP fun o => Rect.contains b (addPoint p o.1) := by
    funext p; exact hp.countP_eq _
  rw [this]
  exact (hperm.map _).sum_nat

theorem before_add (o : IndexOrder) (p a c : Point) (h1 : p.length = a.length) (h2 : p.length = c.length) :
    Before o (addPoint p a) (addPoint p c) ↔ Before o a c := by
  have row : ∀ p a c : Point, p.length = a.length → p.length = c.length →
      (addPoint p a < addPoint p c ↔ a < c) := by
    intro p
    induction p with
    | nil =>
      intro a c h1 h2
      cases a <;> cases c <;> simp_all [addPoint]
    | cons x p ih =>
      intro a c h1 h2
      cases a with
      | nil => simp at h1
      | cons y a =>
        cases c with
        | nil => simp at h2
        | cons z c =>
          have := ih a c (by simpa using h1) (by simpa using h2)
          change (x + y) :: addPoint p a < (x + z) :: addPoint p c ↔ _
          rw [lt_cons_iff, lt_cons_iff, this]
          constructor
          · rintro (h | ⟨h, h'⟩)
            · left; omega
            · right; exact ⟨by omega, h'⟩
          · rintro (h | ⟨h, h'⟩)
            · left; omega
            · right; exact ⟨by omega, h'⟩
  cases o with
  | rowMajor => exact row p a c h1 h2
  | columnMajor =>
    simp only [Before]
    have e : ∀ a : Point, p.length = a.length → (addPoint p a).reverse = addPoint p.reverse a.reverse := by
      intro a ha
      unfold addPoint
      rw [List.reverse_zipWith ha]
    rw [e a h1, e c h2]
    exact row _ _ _ (by simpa using h1) (by simpa using h2)

end Verif.Stencil
