import Verif.Stencil.MoreLemmas
import Verif.Stencil.ArgBuffer
/-
Property theorems C04-C09 about stencil matrices.
-/
namespace Verif.Stencil
open Verif.Grid

variable {E : Type _}

theorem place_empty {V : Type _} (init : Int → Option V) (D : Int → Bool) (hD : ∀ j, D j = false) (vs : List V) :
    place init D vs = init := by
  funext k
  unfold place
  rw [if_neg (by rintro ⟨h, _⟩; rw [hD] at h; simp at h)]

/-! ## C04: size -/

/-- **C04**: for every rectangle of dimension at least one, every list of offsets of that dimension and every enumeration
`ps` of the grid's points, `calculate_stencil_size` returns (no assertion fails) the number of pairs (point, offset)
with point + offset in the grid. -/
theorem c04_stencil_size (o : IndexOrder) (b : Rect) (offsets : List (Point × E)) (ps : List Point) (hb : b ≠ [])
    (ho : ∀ oe ∈ offsets, oe.1.length = b.length) (hps : Enumerates o b ps) :
    calculateStencilSize b offsets =
      some (ps.map fun p => offsets.countP fun oe => decide (InBox b (addPoint p oe.1))).sum := by
  rw [calculateStencilSize_eq b offsets hb ho, ← stencilEntries_length_eq o b offsets offsets ps hps (List.Perm.refl _),
    stencilEntries_length]
  congr 2
  apply List.map_congr_left
  intro p _
  congr 1
  funext oe
  rw [Bool.eq_iff_iff, decide_eq_true_iff]
  exact contains_iff _ _

/-- **C04**, closed form: the sum over the offsets of the product over the sides of `max 0 (length - |offset|)`. -/
theorem c04_closed_form (b : Rect) (offsets : List (Point × E)) (hb : b ≠ [])
    (ho : ∀ oe ∈ offsets, oe.1.length = b.length) :
    calculateStencilSize b offsets = some (offsets.map fun oe => overlap b oe.1).sum := by
  rw [calculateStencilSize_eq b offsets hb ho]
  congr 1
  induction offsets with
  | nil =>
    unfold pairCount; generalize points b = ps
    induction ps with
    | nil => rfl
    | cons _ _ ih => simp
  | cons oe os ih =>
    rw [pairCount_add, pairCount_single b oe.1 oe.2 (ho oe (by simp)), ih (fun a ha => ho a (by simp [ha]))]
    simp

-- an enumeration exists for every rectangle, so the hypotheses of `c04_stencil_size` can be met
example (o : IndexOrder) (b : Rect) : ∃ ps, Enumerates o b ps := ⟨pointsOf o b, enumerates_pointsOf o b⟩
-- 5-point stencil on a 3 x 4 grid (uses the bulk branch), and offsets larger than the grid
example : calculateStencilSize [(0, 2), (0, 3)]
    [([0, 0], 4), ([0, 1], -1), ([0, -1], -1), ([1, 0], -1), ([-1, 0], (-1 : Int))] = some 46 := by
  rw [c04_closed_form _ _ (by simp) (by decide)]; decide
example : calculateStencilSize [(5, 7), (-1, 0)] [([4, 0], ()), ([2, 1], ()), ([2, 1], ())] = some 2 := by
  rw [c04_closed_form _ _ (by simp) (by decide)]; decide

/-! ## Sorting of the offsets -/

/-- The comparison lambda handed to `std::sort` is a strict weak order on offsets of one dimension whenever `<` on the
entries is one (irreflexive, transitive, and incomparability transitive). -/
theorem c05_sort_comparator (o : IndexOrder) (lt : E → E → Bool) (n : Nat)
    (irrefl : ∀ a, lt a a = false) (trans : ∀ a b c, lt a b = true → lt b c = true → lt a c = true)
    (incomp : ∀ a b c, lt a b = false → lt b a = false → lt b c = false → lt c b = false →
      lt a c = false ∧ lt c a = false) :
    (∀ p : Point × E, offsetLess o lt p p = false) ∧
    (∀ p q r : Point × E, p.1.length = n → q.1.length = n → r.1.length = n →
      offsetLess o lt p q = true → offsetLess o lt q r = true → offsetLess o lt p r = true) ∧
    (∀ p q r : Point × E, p.1.length = n → q.1.length = n → r.1.length = n →
      offsetLess o lt p q = false → offsetLess o lt q p = false →
      offsetLess o lt q r = false → offsetLess o lt r q = false →
      offsetLess o lt p r = false ∧ offsetLess o lt r p = false) := by
  have key : ∀ p q : Point × E, p.1.length = n → q.1.length = n →
      (offsetLess o lt p q = true ↔ Before o p.1 q.1 ∨ (p.1 = q.1 ∧ lt p.2 q.2 = true)) := by
    intro p q hp hq
    unfold offsetLess
    by_cases h1 : compare o p.1 q.1 = true
    · simp [h1, (compare_iff o _ _ (hp.trans hq.symm)).1 h1]
    · have n1 : ¬ Before o p.1 q.1 := fun h => h1 ((compare_iff o _ _ (hp.trans hq.symm)).2 h)
      by_cases h2 : compare o q.1 p.1 = true
      · have b2 := (compare_iff o _ _ (hq.trans hp.symm)).1 h2
        simp only [h1, h2, if_true]
        simp only [Bool.false_eq_true, if_false]
        constructor
        · intro h; simp at h
        · rintro (h | ⟨h, _⟩)
          · exact absurd h n1
          · rw [h] at b2; exact absurd b2 (before_irrefl o _)
      · have n2 : ¬ Before o q.1 p.1 := fun h => h2 ((compare_iff o _ _ (hq.trans hp.symm)).2 h)
        have e : p.1 = q.1 := by
          rcases before_total o p.1 q.1 with h | h | h
          · exact absurd h n1
          · exact h
          · exact absurd h n2
        simp only [h1, h2]
        simp only [Bool.false_eq_true, if_false]
        constructor
        · intro h; exact Or.inr ⟨e, h⟩
        · rintro (h | ⟨_, h⟩)
          · exact absurd h n1
          · exact h
  have keyf : ∀ p q : Point × E, p.1.length = n → q.1.length = n →
      offsetLess o lt p q = false → offsetLess o lt q p = false → p.1 = q.1 ∧ lt p.2 q.2 = false ∧ lt q.2 p.2 = false := by
    intro p q hp hq h1 h2
    have n1 : ¬ (Before o p.1 q.1 ∨ (p.1 = q.1 ∧ lt p.2 q.2 = true)) := by
      rw [← key p q hp hq]; simp [h1]
    have n2 : ¬ (Before o q.1 p.1 ∨ (q.1 = p.1 ∧ lt q.2 p.2 = true)) := by
      rw [← key q p hq hp]; simp [h2]
    have e : p.1 = q.1 := by
      rcases before_total o p.1 q.1 with h | h | h
      · exact absurd (Or.inl h) n1
      · exact h
      · exact absurd (Or.inl h) n2
    refine ⟨e, ?_, ?_⟩
    · by_contra hc; exact n1 (Or.inr ⟨e, by simpa using hc⟩)
    · by_contra hc; exact n2 (Or.inr ⟨e.symm, by simpa using hc⟩)
  refine ⟨?_, ?_, ?_⟩
  · intro p
    unfold offsetLess
    have : compare o p.1 p.1 = false := by
      have := before_irrefl o p.1
      rw [← compare_iff o _ _ rfl] at this
      simpa using this
    simp [this, irrefl]
  · intro p q r hp hq hr h1 h2
    rw [key p q hp hq] at h1
    rw [key q r hq hr] at h2
    rw [key p r hp hr]
    rcases h1 with h1 | ⟨e1, h1⟩
    · rcases h2 with h2 | ⟨e2, _⟩
      · exact Or.inl (before_trans o h1 h2)
      · rw [← e2]; exact Or.inl h1
    · rcases h2 with h2 | ⟨e2, h2⟩
      · rw [e1]; exact Or.inl h2
      · exact Or.inr ⟨e1.trans e2, trans _ _ _ h1 h2⟩
  · intro p q r hp hq hr h1 h2 h3 h4
    obtain ⟨e1, a1, a2⟩ := keyf p q hp hq h1 h2
    obtain ⟨e2, b1, b2⟩ := keyf q r hq hr h3 h4
    obtain ⟨c1, c2⟩ := incomp _ _ _ a1 a2 b1 b2
    constructor
    · by_contra hc
      rcases (key p r hp hr).1 (by simpa using hc) with h | ⟨_, h⟩
      · rw [e1, e2] at h; exact before_irrefl o _ h
      · rw [c1] at h; simp at h
    · by_contra hc
      rcases (key r p hr hp).1 (by simpa using hc) with h | ⟨_, h⟩
      · rw [e1, e2] at h; exact before_irrefl o _ h
      · rw [c2] at h; simp at h

-- integer entries meet the hypotheses
example : (∀ a : Int, decide (a < a) = false) ∧
    (∀ a b c : Int, decide (a < b) = true → decide (b < c) = true → decide (a < c) = true) := by
  constructor
  · simp
  · intro a b c h1 h2; simp at *; omega

/-- The requirement on entries is needed: with a NaN-like entry that is incomparable to everything the lambda is not a
strict weak order (incomparability is not transitive), so `std::sort`'s precondition fails for two equal offsets whose
values differ and a third with value NaN. -/
theorem c05_sort_comparator_nan : ∃ (lt : Option Int → Option Int → Bool) (p q r : Point × Option Int),
    (∀ a b, lt a b = match a, b with | some x, some y => decide (x < y) | _, _ => false) ∧
    offsetLess .rowMajor lt p q = false ∧ offsetLess .rowMajor lt q p = false ∧
    offsetLess .rowMajor lt q r = false ∧ offsetLess .rowMajor lt r q = false ∧
    offsetLess .rowMajor lt p r = true :=
  ⟨fun a b => match a, b with | some x, some y => decide (x < y) | _, _ => false,
    ([0], some 1), ([0], none), ([0], some 2), fun _ _ => rfl, by decide, by decide, by decide, by decide, by decide⟩

/-! ## C05: COO fill -/

/-- A piece's write set after running the COO fill task on it: at the indices of the piece inside `[0, |es|)` the given
entries, elsewhere what was there before. -/
def COOFilled (es : List (Point × Point × E)) (D : Int → Bool) (row col : Int → Option Point) (entry : Int → Option E)
    (row' col' : Int → Option Point) (entry' : Int → Option E) : Prop :=
  ∀ k : Int,
    (D k = true → 0 ≤ k → ∀ hk : k.toNat < es.length,
      row' k = some es[k.toNat].1 ∧ col' k = some es[k.toNat].2.1 ∧ entry' k = some es[k.toNat].2.2) ∧
    ((D k = false ∨ k < 0 ∨ (es.length : Int) ≤ k) → row' k = row k ∧ col' k = col k ∧ entry' k = entry k)

theorem cooFilled_place (es : List (Point × Point × E)) (D : Int → Bool) (row col : Int → Option Point)
    (entry : Int → Option E) :
    COOFilled es D row col entry (cooAt id id D row col entry es).row (cooAt id id D row col entry es).col
      (cooAt id id D row col entry es).entry := by
  intro k
  simp only [cooAt, place_apply]
  constructor
  · intro hD h0 hk
    have hc : D k = true ∧ 0 ≤ k ∧ k < (es.length : Int) := ⟨hD, h0, by omega⟩
    rw [if_pos hc, if_pos hc, if_pos hc, List.getElem?_eq_getElem hk]
    simp
  · intro hn
    have hc : ¬ (D k = true ∧ 0 ≤ k ∧ k < (es.length : Int)) := by
      rintro ⟨h1, h2, h3⟩
      rcases hn with h | h | h
      · rw [h1] at h; simp at h
      · omega
      · omega
    rw [if_neg hc, if_neg hc, if_neg hc]
    exact ⟨rfl, rfl, rfl⟩

/-- **C05**: for every grid (empty or not), offset list, order and every result of `std::sort` there is one list `es` of
`(row, column, value)` triples - of the computed stencil size, and a rearrangement of the specified entries - such that
the fill task run on any piece `D` (any subset of the kernel space) over any previous contents terminates and writes
exactly `es[k]` at every index `k` of the piece and nothing else.  `es` does not depend on the piece. -/
theorem c05_coo_fill (sort : List (Point × E) → List (Point × E)) (lt : E → E → Bool) (o : IndexOrder) (b : Rect)
    (offsets : List (Point × E)) (hb : b ≠ []) (ho : ∀ oe ∈ offsets, oe.1.length = b.length)
    (hsort : IsSort o lt offsets (sort offsets)) :
    ∃ (ps : List Point) (es : List (Point × Point × E)) (N : Nat),
      Enumerates o b ps ∧ es = stencilEntries b (sort offsets) ps ∧
      es.Perm (stencilEntries b offsets ps) ∧
      calculateStencilSize b offsets = some es.length ∧
      ∀ (fuel : Nat), N ≤ fuel → ∀ (D : Int → Bool) (row col : Int → Option Point) (entry : Int → Option E),
        ∃ s, fillCOO sort o b offsets D fuel row col entry = some s ∧
          COOFilled es D row col entry s.row s.col s.entry := by
  refine ⟨pointsOf o b, stencilEntries b (sort offsets) (pointsOf o b), Rect.volume (clamp b),
    enumerates_pointsOf o b, rfl, stencilEntries_perm b hsort.perm _, ?_, ?_⟩
  · rw [calculateStencilSize_eq b offsets hb ho,
      stencilEntries_length_eq o b offsets _ _ (enumerates_pointsOf o b) hsort.perm]
  · intro fuel hf D row col entry
    refine ⟨_, ?_, cooFilled_place _ D row col entry⟩
    unfold fillCOO
    simp only []
    rw [doWhile_any o b _ _ fuel hf, ← cooAt_nil id id D row col entry, cooRows_at, List.nil_append,
      stencilEntries_clamp]

/-- Running the fill task on a sequence of pieces, one after the other. -/
def fillCOOPieces (sort : List (Point × E) → List (Point × E)) (o : IndexOrder) (b : Rect) (offsets : List (Point × E))
    (fuel : Nat) : List (Int → Bool) → COOState Point Point E → Option (COOState Point Point E)
  | [], s => some s
  | D :: Ds, s =>
    match fillCOO sort o b offsets D fuel s.row s.col s.entry with
    | none => none
    | some s' => fillCOOPieces sort o b offsets fuel Ds s'

/-- **C05**, all pieces together: whatever the list of pieces and their order, if they cover the kernel index space then
afterwards every kernel index holds its entry - the result depends on neither the pieces nor the order. -/
theorem c05_coo_all_pieces (sort : List (Point × E) → List (Point × E)) (lt : E → E → Bool) (o : IndexOrder) (b : Rect)
    (offsets : List (Point × E)) (hb : b ≠ []) (ho : ∀ oe ∈ offsets, oe.1.length = b.length)
    (hsort : IsSort o lt offsets (sort offsets)) :
    ∃ (ps : List Point) (es : List (Point × Point × E)) (N : Nat),
      Enumerates o b ps ∧ es = stencilEntries b (sort offsets) ps ∧
      calculateStencilSize b offsets = some es.length ∧
      ∀ (fuel : Nat), N ≤ fuel → ∀ (Ds : List (Int → Bool)) (s0 : COOState Point Point E),
        ∃ s, fillCOOPieces sort o b offsets fuel Ds s0 = some s ∧
          ∀ k : Nat, ∀ hk : k < es.length,
            ((∃ D ∈ Ds, D k = true) →
              s.row k = some es[k].1 ∧ s.col k = some es[k].2.1 ∧ s.entry k = some es[k].2.2) ∧
            ((∀ D ∈ Ds, D k = false) → s.row k = s0.row k ∧ s.col k = s0.col k ∧ s.entry k = s0.entry k) := by
  obtain ⟨ps, es, N, hps, hes, -, hsz, hrun⟩ := c05_coo_fill sort lt o b offsets hb ho hsort
  refine ⟨ps, es, N, hps, hes, hsz, ?_⟩
  intro fuel hf Ds
  induction Ds with
  | nil => intro s0; exact ⟨s0, rfl, fun k hk => ⟨by simp, by simp⟩⟩
  | cons D Ds ih =>
    intro s0
    obtain ⟨s1, h1, h2⟩ := hrun fuel hf D s0.row s0.col s0.entry
    obtain ⟨s2, h3, h4⟩ := ih s1
    refine ⟨s2, by simp only [fillCOOPieces, h1, h3], ?_⟩
    intro k hk
    have hk' : ((k : Int)).toNat < es.length := by simpa using hk
    have h5 := h2 (k : Int)
    have h6 := h4 k hk
    constructor
    · rintro ⟨D', hD', hk1⟩
      by_cases hex : ∃ D ∈ Ds, D k = true
      · exact h6.1 hex
      · have hno : ∀ D ∈ Ds, D k = false := by
          intro D2 h; by_contra hc; exact hex ⟨D2, h, by simpa using hc⟩
        have : D' = D := by
          rcases List.mem_cons.1 hD' with h | h
          · exact h
          · rw [hno D' h] at hk1; simp at hk1
        subst this
        obtain ⟨a1, a2, a3⟩ := h6.2 hno
        obtain ⟨b1, b2, b3⟩ := h5.1 hk1 (by omega) hk'
        rw [a1, a2, a3, b1, b2, b3]
        simp
    · intro hno
      obtain ⟨a1, a2, a3⟩ := h6.2 (fun D' h => hno D' (by simp [h]))
      obtain ⟨b1, b2, b3⟩ := h5.2 (Or.inl (hno D (by simp)))
      exact ⟨a1.trans b1, a2.trans b2, a3.trans b3⟩

-- a sorted list is its own sort result, so the `IsSort` hypothesis is satisfiable; three-point stencil on 4 points
example : IsSort .rowMajor (fun a b : Int => decide (a < b)) [([1], -1), ([-1], -1), ([0], 2)]
    [([-1], -1), ([0], 2), ([1], -1)] := by
  refine ⟨?_, by decide⟩
  decide
-- the task model run on the piece {3,4,5} of that matrix writes row 1 (indices 3,4) and the first entry of row 2
example : ((fillCOO (fun _ => [([-1], -1), ([0], 2), ([1], (-1 : Int))]) .rowMajor [(0, 3)] []
    (fun k => decide (3 ≤ k) && decide (k ≤ 5)) 4 (fun _ => none) (fun _ => none) (fun _ => none)).map fun s =>
      ([2, 3, 4, 5, 6].map s.row, [2, 3, 4, 5, 6].map s.col)) =
    some ([none, some [1], some [1], some [2], none], [none, some [1], some [2], some [1], none]) := by decide

/-! ## C06: CSR fill -/

/-- Order of the entries of a CSR stencil matrix: rows in grid order, and within a row the columns never decrease. -/
theorem c06_entries_sorted (lt : E → E → Bool) (o : IndexOrder) (b : Rect) (offsets sorted : List (Point × E))
    (ps : List Point) (ho : ∀ oe ∈ offsets, oe.1.length = b.length) (hsort : IsSort o lt offsets sorted)
    (hps : Enumerates o b ps) :
    (stencilEntries b sorted ps).Pairwise fun e f =>
      Before o e.1 f.1 ∨ (e.1 = f.1 ∧ ¬ Before o f.2.1 e.2.1) := by
  unfold stencilEntries
  rw [List.pairwise_flatMap]
  constructor
  · intro p hp
    have hlen : b.length = p.length := ((hps.mem p).1 hp).length_eq
    have hlens : ∀ oe ∈ sorted, oe.1.length = b.length := offset_length_of_perm hsort.perm ho
    unfold rowEntries
    rw [List.pairwise_filterMap]
    apply hsort.ordered.imp_of_mem
    intro x y hx hy hxy e he f hf
    split at he
    · split at hf
      · simp only [Option.some.injEq] at he hf
        subst he hf
        refine Or.inr ⟨rfl, ?_⟩
        simp only []
        rw [before_add o p y.1 x.1 (by rw [hlens y hy, hlen]) (by rw [hlens x hx, hlen])]
        intro hb
        have : compare o y.1 x.1 = true := (compare_iff o _ _ (by rw [hlens y hy, hlens x hx])).2 hb
        simp [offsetLess, this] at hxy
      · simp at hf
    · simp at he
  · apply hps.ordered.imp
    intro p q hpq e he f hf
    left
    rw [mem_rowEntries_row he, mem_rowEntries_row hf]
    exact hpq

/-- What the CSR fill task must leave in a row piece: for every row `p` of the piece the range `range p`. -/
def RowsFilled {R : Type _} (range : R → Int × Int) (rdom : R → Bool) (rowptr rowptr' : R → Option (Int × Int)) : Prop :=
  ∀ p, (rdom p = true → rowptr' p = some (range p)) ∧ (rdom p = false → rowptr' p = rowptr p)

/-- What the CSR fill tasks must leave in a kernel piece. -/
def KernelFilled {C : Type _} (es : List (C × E)) (D : Int → Bool) (col : Int → Option C)
    (entry : Int → Option E) (col' : Int → Option C) (entry' : Int → Option E) : Prop :=
  ∀ k : Int,
    (D k = true → 0 ≤ k → ∀ hk : k.toNat < es.length,
      col' k = some es[k.toNat].1 ∧ entry' k = some es[k.toNat].2) ∧
    ((D k = false ∨ k < 0 ∨ (es.length : Int) ≤ k) → col' k = col k ∧ entry' k = entry k)

/-- The ranges tile the kernel space: inside it, in row order, disjoint, and the range of a row is exactly the set of
kernel indices whose entry is in that row (so together they cover `0 .. |es|-1`). -/
structure Tiles (o : IndexOrder) (b : Rect) (es : List (Point × Point × E)) (range : Point → Int × Int) : Prop where
  inside : ∀ p, InBox b p → 0 ≤ (range p).1 ∧ (range p).1 ≤ (range p).2 + 1 ∧ (range p).2 < es.length
  exact : ∀ p, InBox b p → ∀ k : Nat, ∀ hk : k < es.length,
    ((range p).1 ≤ k ∧ (k : Int) ≤ (range p).2 ↔ es[k].1 = p)
  ordered : ∀ p q, InBox b p → InBox b q → Before o p q → (range p).2 < (range q).1

/-- The ranges given by the row starts of an enumeration. -/
def rangeOf (b : Rect) (offs : List (Point × E)) (ps : List Point) (p : Point) : Int × Int :=
  (((stencilEntries b offs (ps.takeWhile (· ≠ p))).length : Int),
    ((stencilEntries b offs (ps.takeWhile (· ≠ p))).length : Int) + (rowEntries b offs p).length - 1)

theorem rangeOf_getElem (b : Rect) (offs : List (Point × E)) (ps : List Point) (hn : ps.Nodup) (i : Nat)
    (hi : i < ps.length) :
    rangeOf b offs ps ps[i] = ((rowStart b offs ps i : Int), (rowStart b offs ps (i + 1) : Int) - 1) := by
  unfold rangeOf
  rw [takeWhile_take ps hn i hi, rowStart_succ b offs ps i hi]
  push_cast
  rfl

theorem tiles_rangeOf (o : IndexOrder) (b : Rect) (offs : List (Point × E)) (ps : List Point)
    (hps : Enumerates o b ps) : Tiles o b (stencilEntries b offs ps) (rangeOf b offs ps) := by
  have idx : ∀ p, InBox b p → ∃ i, ∃ hi : i < ps.length, ps[i] = p := by
    intro p hp
    exact List.getElem_of_mem ((hps.mem p).2 hp)
  constructor
  · intro p hp
    obtain ⟨i, hi, rfl⟩ := idx p hp
    rw [rangeOf_getElem b offs ps hps.nodup i hi]
    have h1 := rowStart_mono b offs ps (Nat.le_succ i)
    have h2 := rowStart_le b offs ps (i + 1)
    refine ⟨by simp, by simp; omega, by simp only; omega⟩
  · intro p hp k hk
    obtain ⟨i, hi, rfl⟩ := idx p hp
    rw [rangeOf_getElem b offs ps hps.nodup i hi, ← rowStart_iff b offs ps hps.nodup i hi k hk]
    simp only []
    omega
  · intro p q hp hq hpq
    obtain ⟨i, hi, rfl⟩ := idx p hp
    obtain ⟨j, hj, rfl⟩ := idx q hq
    have hij : i < j := by
      by_contra hc
      rcases Nat.lt_or_ge j i with h | h
      · have := (List.pairwise_iff_getElem.1 hps.ordered) j i hj hi h
        exact before_irrefl o _ (before_trans o hpq this)
      · have : i = j := by omega
        subst this
        exact before_irrefl o _ hpq
    rw [rangeOf_getElem b offs ps hps.nodup i hi, rangeOf_getElem b offs ps hps.nodup j hj]
    have := rowStart_mono b offs ps (show i + 1 ≤ j from hij)
    simp only []
    omega

/-- **C06**: for every grid, offset list, order and sort result there are one entry list `es` and one family of row ranges
tiling the kernel space, such that the CSR fill task on any kernel piece `D` and any row piece `rdom` (within the grid)
terminates and writes exactly the piece's columns, entries and row ranges. -/
theorem c06_csr_fill (sort : List (Point × E) → List (Point × E)) (lt : E → E → Bool) (o : IndexOrder) (b : Rect)
    (offsets : List (Point × E)) (hb : b ≠ []) (ho : ∀ oe ∈ offsets, oe.1.length = b.length)
    (hsort : IsSort o lt offsets (sort offsets)) :
    ∃ (ps : List Point) (es : List (Point × Point × E)) (range : Point → Int × Int) (N : Nat),
      Enumerates o b ps ∧ es = stencilEntries b (sort offsets) ps ∧ es.Perm (stencilEntries b offsets ps) ∧
      calculateStencilSize b offsets = some es.length ∧
      Tiles o b es range ∧
      ∀ (fuel : Nat), N ≤ fuel → ∀ (D : Int → Bool) (rdom : Point → Bool), (∀ p, rdom p = true → InBox b p) →
        ∀ (col : Int → Option Point) (entry : Int → Option E) (rowptr : Point → Option (Int × Int)),
        ∃ s, fillCSR sort o b offsets D rdom fuel col entry rowptr = some s ∧
          KernelFilled (es.map fun e => e.2) D col entry s.col s.entry ∧
          RowsFilled range rdom rowptr s.rowptr := by
  refine ⟨pointsOf o b, stencilEntries b (sort offsets) (pointsOf o b), rangeOf b (sort offsets) (pointsOf o b),
    Rect.volume (clamp b), enumerates_pointsOf o b, rfl, stencilEntries_perm b hsort.perm _, ?_,
    tiles_rangeOf o b _ _ (enumerates_pointsOf o b), ?_⟩
  · rw [calculateStencilSize_eq b offsets hb ho,
      stencilEntries_length_eq o b offsets _ _ (enumerates_pointsOf o b) hsort.perm]
  · intro fuel hf D rdom hrd col entry rowptr
    refine ⟨csrAt id D col entry (rpAt rdom rowptr b (sort offsets) (pointsOf o (clamp b)))
      (stencilEntries b (sort offsets) (pointsOf o (clamp b))), ?_, ?_, ?_⟩
    · unfold fillCSR
      simp only []
      rw [doWhile_any o b _ _ fuel hf]
      have h0 : (⟨0, col, entry, rowptr⟩ : CSRState Point Point E) =
          csrAt id D col entry (rpAt rdom rowptr b (sort offsets) []) (stencilEntries b (sort offsets) []) := by
        simp only [csrAt, stencilEntries, List.flatMap_nil, List.map_nil, place_nil, List.length_nil, Nat.cast_zero]
        congr 1
        funext p
        simp [rpAt]
      rw [h0, csrRows_at _ _ _ _ _ _ _ _ [] (by simpa using pointsOf_nodup o (clamp b))]
      simp
    · intro k
      rw [stencilEntries_clamp]
      simp only [csrAt, place_apply]
      constructor
      · intro hD h0 hk
        rw [List.length_map] at hk
        have hc : D k = true ∧ 0 ≤ k ∧ k < ((stencilEntries b (sort offsets) (pointsOf o b)).length : Int) :=
          ⟨hD, h0, by omega⟩
        rw [if_pos hc, if_pos hc, List.getElem?_eq_getElem hk]
        simp
      · intro hn
        rw [List.length_map] at hn
        have hc : ¬ (D k = true ∧ 0 ≤ k ∧ k < ((stencilEntries b (sort offsets) (pointsOf o b)).length : Int)) := by
          rintro ⟨h1, h2, h3⟩
          rcases hn with h | h | h
          · rw [h1] at h; simp at h
          · omega
          · omega
        rw [if_neg hc, if_neg hc]
        exact ⟨rfl, rfl⟩
    · intro p
      simp only [csrAt]
      constructor
      · intro hr
        have hin := hrd p hr
        have hne := nonempty_of_inBox hin
        rw [clamp_of_nonempty hne]
        unfold rpAt
        rw [if_pos ⟨hr, (mem_pointsOf o b p).2 hin⟩]
        rfl
      · intro hr
        unfold rpAt
        rw [if_neg (by rintro ⟨h, _⟩; rw [hr] at h; simp at h)]

-- the CSR task model on the 4-point three-point stencil: kernel piece {5,6}, row piece {[0],[3]}
example : ((fillCSR (fun _ => [([-1], -1), ([0], 2), ([1], (-1 : Int))]) .columnMajor [(0, 3)] []
    (fun k => decide (5 ≤ k) && decide (k ≤ 6)) (fun p => p == [0] || p == [3]) 4
    (fun _ => none) (fun _ => none) (fun _ => none)).map fun s =>
      ([4, 5, 6].map fun k => (s.col k, s.entry k), [[0], [1], [3]].map s.rowptr)) =
    some ([(none, none), (some [1], some (-1)), (some [2], some 2)], [some (0, 1), none, some (8, 9)]) := by decide

/-! ## C07: the fast-forward path -/

/-- The linearised CSR fill without fast-forwarding and early exit: plain enumeration of all grid points. -/
def plainLinCSR (sort : List (Point × E) → List (Point × E)) (o : IndexOrder) (b : Rect) (offsets : List (Point × E))
    (dom rdom : Dom1) (fuel : Nat) (col : Int → Option Int) (entry : Int → Option E)
    (rowptr : Int → Option (Int × Int)) : Option (CSRState Int Int E) :=
  doWhile (increment o b) (linCsrRowStep o b (sort offsets) dom rdom) fuel ⟨0, col, entry, rowptr⟩ (Rect.lo b)

/-- loop iterations that always suffice when the pieces are empty -/
def emptyFuel : Rect → Nat
  | [] => 0
  | (l, h) :: b => (max l h - l + 2).toNat * Rect.volume (clamp b)

/-- with empty pieces neither loop writes anything, on any grid -/
theorem fillLinCSR_nothing (sort : List (Point × E) → List (Point × E)) (o : IndexOrder) (l h : Int) (b : Rect)
    (offsets : List (Point × E)) (dom rdom : Dom1) (hd0 : ∀ j, dom.contains j = false)
    (hr0 : ∀ j, rdom.contains j = false) (fuel : Nat)
    (hf : (max l h - l + 2).toNat * Rect.volume (clamp b) ≤ fuel) (col : Int → Option Int) (entry : Int → Option E)
    (rowptr : Int → Option (Int × Int)) :
    ∃ s s', fillLinCSR sort o ((l, h) :: b) offsets dom rdom fuel col entry rowptr = some s ∧
      plainLinCSR sort o ((l, h) :: b) offsets dom rdom fuel col entry rowptr = some s' ∧
      (s.col = col ∧ s.entry = entry ∧ s.rowptr = rowptr) ∧
      (s'.col = col ∧ s'.entry = entry ∧ s'.rowptr = rowptr) := by
  have hvolle : Rect.volume (clamp ((l, h) :: b)) ≤ fuel := by
    refine le_trans ?_ hf
    show (max l h - l + 1).toNat * Rect.volume (clamp b) ≤ _
    exact Nat.mul_le_mul_right _ (by omega)
  have hplain : ∃ s', plainLinCSR sort o ((l, h) :: b) offsets dom rdom fuel col entry rowptr = some s' ∧
      (s'.col = col ∧ s'.entry = entry ∧ s'.rowptr = rowptr) := by
    unfold plainLinCSR
    rw [doWhile_any o _ _ _ fuel hvolle]
    refine ⟨_, rfl, ?_⟩
    generalize pointsOf o (clamp ((l, h) :: b)) = ps
    have gen : ∀ (ps : List Point) (s : CSRState Int Int E),
        SameFields (ps.foldl (linCsrRowStep o ((l, h) :: b) (sort offsets) dom rdom) s) s := by
      intro ps
      induction ps with
      | nil => intro s; exact ⟨rfl, rfl, rfl⟩
      | cons p ps ih =>
        intro s
        have h1 := ih (linCsrRowStep o ((l, h) :: b) (sort offsets) dom rdom s p)
        have h2 : SameFields (linCsrRowStep o ((l, h) :: b) (sort offsets) dom rdom s p) s := by
          unfold linCsrRowStep SameFields
          simp only [hr0]
          exact csrOffset_fold_nothing ((l, h) :: b) dom.contains hd0 (linearize o ((l, h) :: b)) p (sort offsets) s
        exact ⟨h1.1.trans h2.1, h1.2.1.trans h2.2.1, h1.2.2.trans h2.2.2⟩
    exact gen ps _
  obtain ⟨s', hp1, hp2⟩ := hplain
  cases o with
  | columnMajor => exact ⟨s', s', by rw [← hp1]; rfl, hp1, hp2, hp2⟩
  | rowMajor =>
    have hmx : 0 ≤ maxOffset (sort offsets) := ((maxOffset_le (sort offsets) _).1 (le_refl _)).1
    have hlo : Rect.lo ((l, h) :: b) = l :: Rect.lo b := by simp [Rect.lo]
    obtain ⟨s1, h1⟩ := bulkLoop_terminates l h (max l h) (le_max_right _ _) b (sort offsets) (minOffset (sort offsets))
      (maxOffset (sort offsets)) hmx dom rdom fuel
      (⟨⟨0, col, entry, rowptr⟩, 0, false⟩ : BulkState E) l (Rect.lo b)
      (by rw [← clamp_lo]; exact inBox_lo (clamp_nonempty b)) (by omega)
      (by
        rw [← clamp_lo, linRM_lo]
        have : (((max l h - l + 2).toNat * Rect.volume (clamp b) : Nat) : Int) ≤ fuel := by exact_mod_cast hf
        push_cast at this
        rw [Int.toNat_of_nonneg (by omega)] at this
        have e : (max l h + 2 - l) = (max l h - l + 2) := by ring
        rw [e, sub_zero]; exact this)
    have h2 := bulkLoop_nothing l h b (sort offsets) (minOffset (sort offsets)) (maxOffset (sort offsets)) hmx
      dom rdom hd0 hr0 fuel _ s1 _ _ h1
    refine ⟨s1.st, s', ?_, hp1, h2, hp2⟩
    unfold fillLinCSR
    simp only [leadingDimensionBounds_eq]
    rw [hlo, h1]
    rfl

/-- **C07**: on every grid of every dimension `≥ 1`, also one with empty sides, for every kernel piece inside `[0, size)` and row piece
inside `[0, volume)` - arbitrary subsets, with any bounds `lo`, `hi` enclosing them, also empty pieces with arbitrary
bounds - the fast-forwarding linearised CSR fill terminates and leaves the same columns, entries and row pointers as
plain enumeration. -/
theorem c07_fast_forward_is_plain (sort : List (Point × E) → List (Point × E)) (lt : E → E → Bool) (o : IndexOrder)
    (b : Rect) (offsets : List (Point × E)) (hb : b ≠ [])
    (ho : ∀ oe ∈ offsets, oe.1.length = b.length) (hsort : IsSort o lt offsets (sort offsets)) (size : Nat)
    (hsize : calculateStencilSize b offsets = some size) :
    ∃ N : Nat, ∀ fuel, N ≤ fuel → ∀ dom rdom : Dom1,
      (∀ j, dom.contains j = true → dom.lo ≤ j ∧ j ≤ dom.hi ∧ 0 ≤ j ∧ j < size) →
      (∀ j, rdom.contains j = true → rdom.lo ≤ j ∧ j ≤ rdom.hi ∧ 0 ≤ j ∧ j < Rect.volume b) →
      ∀ (col : Int → Option Int) (entry : Int → Option E) (rowptr : Int → Option (Int × Int)),
        ∃ s s', fillLinCSR sort o b offsets dom rdom fuel col entry rowptr = some s ∧
          plainLinCSR sort o b offsets dom rdom fuel col entry rowptr = some s' ∧
          s.col = s'.col ∧ s.entry = s'.entry ∧ s.rowptr = s'.rowptr := by
  have ho' := offset_length_of_perm hsort.perm ho
  cases b with
  | nil => exact absurd rfl hb
  | cons lh b =>
  obtain ⟨l, h⟩ := lh
  refine ⟨(max l h - l + 2).toNat * Rect.volume (clamp b), ?_⟩
  intro fuel hf dom rdom hd hr col entry rowptr
  by_cases hcase : (∃ j, dom.contains j = true) ∨ (∃ j, rdom.contains j = true)
  swap
  · have hd0 : ∀ j, dom.contains j = false := by
      intro j; by_contra hc; exact hcase (Or.inl ⟨j, by simpa using hc⟩)
    have hr0 : ∀ j, rdom.contains j = false := by
      intro j; by_contra hc; exact hcase (Or.inr ⟨j, by simpa using hc⟩)
    obtain ⟨s, s', h1, h2, h3, h4⟩ := fillLinCSR_nothing sort o l h b offsets dom rdom hd0 hr0 fuel hf col entry rowptr
    exact ⟨s, s', h1, h2, h3.1.trans h4.1.symm, h3.2.1.trans h4.2.1.symm, h3.2.2.trans h4.2.2.symm⟩
  -- a point of a piece lies in the grid, so the grid is not empty
  have hsz : size = sliceK l h b (sort offsets) (h - l + 1).toNat := by
    rw [calculateStencilSize_eq _ offsets hb ho] at hsize
    simp only [Option.some.injEq] at hsize
    rw [← hsize, ← stencilEntries_length_eq .rowMajor _ offsets (sort offsets) _
      (enumerates_pointsOf .rowMajor _) hsort.perm]
    rfl
  have hne : Nonempty ((l, h) :: b) := by
    by_contra hc
    have hv0 := volume_eq_zero hc
    have hp0 : pointsOf .rowMajor ((l, h) :: b) = [] := by
      apply List.eq_nil_of_length_eq_zero
      rw [length_pointsOf, hv0]
    rcases hcase with ⟨j, hj⟩ | ⟨j, hj⟩
    · have := hd j hj
      have hs0 : sliceK l h b (sort offsets) (h - l + 1).toNat =
          (stencilEntries ((l, h) :: b) (sort offsets) (pointsOf .rowMajor ((l, h) :: b))).length := rfl
      rw [hsz, hs0, hp0] at this
      simp [stencilEntries] at this
      omega
    · have := hr j hj
      rw [hv0] at this
      omega
  have hlh : l ≤ h := hne (l, h) (by simp)
  have hbne : Nonempty b := nonempty_tail hne
  rw [clamp_of_nonempty hbne, max_eq_right hlh] at hf
  have hvolle : Rect.volume ((l, h) :: b) ≤ fuel := by
    refine le_trans ?_ hf
    simp only [Rect.volume]
    exact Nat.mul_le_mul_right _ (by omega)
  have hplain : plainLinCSR sort o ((l, h) :: b) offsets dom rdom fuel col entry rowptr =
      some (linAt o ((l, h) :: b) (sort offsets) dom.contains rdom.contains col entry rowptr
        (pointsOf o ((l, h) :: b))) := by
    unfold plainLinCSR
    rw [doWhile_points o _ hne _ _ fuel hvolle, ← linAt_nil o ((l, h) :: b) (sort offsets) dom.contains rdom.contains,
      linCsrRows_at _ _ _ _ _ _ _ _ _ [] (by simp)]
  cases o with
  | columnMajor =>
    refine ⟨_, _, ?_, hplain, rfl, rfl, rfl⟩
    rw [← hplain]
    rfl
  | rowMajor =>
    unfold fillLinCSR
    simp only [leadingDimensionBounds_eq]
    have hlo : Rect.lo ((l, h) :: b) = (l + ((0 : Nat) : Int)) :: Rect.lo b := by simp [Rect.lo]
    have hmx : 0 ≤ maxOffset (sort offsets) := ((maxOffset_le (sort offsets) _).1 (le_refl _)).1
    have hend : dom.lo ≤ sliceK l h b (sort offsets) (h - l + 1).toNat ∨
        rdom.lo ≤ ((h - l + 1).toNat * Rect.volume b : Nat) := by
      rcases hcase with ⟨j, hj⟩ | ⟨j, hj⟩
      · left; have := hd j hj; omega
      · right; have := hr j hj; simp only [Rect.volume] at this; omega
    obtain ⟨s', h1, h2⟩ := bulkLoop_spec l h b (sort offsets) dom rdom col entry rowptr hbne
      (by intro oe hoe; simpa using ho' oe hoe)
      (fun j hj => ⟨(hd j hj).1, (hd j hj).2.1⟩) (fun j hj => ⟨(hr j hj).1, (hr j hj).2.1⟩) hend
      fuel ⟨⟨0, col, entry, rowptr⟩, 0, false⟩ 0 (Rect.lo b) (inBox_lo hbne) (by simpa using hlh)
      (by
        rw [lin_slice l h b 0 _ (inBox_lo hbne), linRM_lo]
        simp only [Rect.volume] at hvolle
        push_cast
        have : (((h - l + 1).toNat * Rect.volume b : Nat) : Int) ≤ fuel := by exact_mod_cast hvolle
        push_cast at this
        linarith)
      (by
        rw [lin_slice l h b 0 _ (inBox_lo hbne), linRM_lo]
        simp only [plainAt, Nat.zero_mul, Nat.cast_zero, add_zero, Int.toNat_zero, List.take_zero]
        rw [linAt_nil])
      (by intro hc; simp at hc)
    rw [hlo, h1]
    refine ⟨s'.st, _, rfl, hplain, ?_⟩
    exact h2

-- 5 x 2 grid, five-point stencil: kernel piece [29, 31] and row piece [8, 9] lie behind several bulk slices; the
-- fast-forward loop runs with less fuel than plain enumeration needs, so it really skips
example :
    let offs : List (Point × Int) := [([-1, 0], -1), ([0, -1], -1), ([0, 0], 4), ([0, 1], -1), ([1, 0], -1)]
    let dom : Dom1 := ⟨fun k => decide (29 ≤ k) && decide (k ≤ 31), 29, 31⟩
    let rdom : Dom1 := ⟨fun k => decide (8 ≤ k) && decide (k ≤ 9), 8, 9⟩
    ((fillLinCSR (fun _ => offs) .rowMajor [(0, 4), (0, 1)] offs dom rdom 8
        (fun _ => none) (fun _ => none) (fun _ => none)).map fun s =>
          ([28, 29, 30, 31].map fun k => (s.col k, s.entry k), [7, 8, 9].map s.rowptr)) =
      some ([(none, none), (some 9, some (-1)), (some 6, some (-1)), (some 8, some 4)],
        [none, some (30, 32), some (33, 35)]) ∧
    (plainLinCSR (fun _ => offs) .rowMajor [(0, 4), (0, 1)] offs dom rdom 8
        (fun _ => none) (fun _ => none) (fun _ => none)).isNone = true := by
  refine ⟨?_, by decide⟩
  simp [fillLinCSR, bulkLoop, bulkPrologue, bulkSkip, linCsrRowStep, csrOffsetStep, inBulk, leadingDimensionBounds,
    leadingStep, headCoord, tailEqual, Rect.lo, Rect.hi, linearize, linearizeRowMajor, linearizeRowMajorAux, addPoint,
    Rect.contains, incrementRowMajor, incrementHead, write]

-- a grid with an empty side meets the hypotheses: nothing is written, and the loop still ends
example :
    let offs : List (Point × Int) := [([0, 0], 4), ([1, 0], -1)]
    calculateStencilSize [(0, 4), (0, -1)] offs = some 0 ∧
    ((fillLinCSR (fun _ => offs) .columnMajor [(0, 4), (0, -1)] offs ⟨fun _ => false, 0, -1⟩ ⟨fun _ => false, 0, -1⟩ 5
        (fun _ => none) (fun _ => none) (fun _ => none)).map fun s =>
          ([0, 1].map fun k => (s.col k, s.entry k), [0, 1].map s.rowptr)) =
      some ([(none, none), (none, none)], [none, none]) := by
  refine ⟨?_, by decide⟩
  rw [calculateStencilSize_eq _ _ (by simp) (by simp)]
  rfl

/-! ## C08: linearised matrices -/

/-- **C08** (COO): starting from unwritten fields, the linearised COO fill of a piece writes at every kernel index the
linear numbers of the row and column the plain COO fill writes there, and the same entry. -/
theorem c08_linearized_coo (sort : List (Point × E) → List (Point × E)) (o : IndexOrder) (b : Rect)
    (offsets : List (Point × E)) :
    ∃ N : Nat, ∀ fuel, N ≤ fuel → ∀ D : Int → Bool,
      ∃ s s', fillCOO sort o b offsets D fuel (fun _ => none) (fun _ => none) (fun _ => none) = some s ∧
        fillLinCOO sort o b offsets D fuel (fun _ => none) (fun _ => none) (fun _ => none) = some s' ∧
        ∀ k, s'.row k = (s.row k).map (linearize o b) ∧ s'.col k = (s.col k).map (linearize o b) ∧
          s'.entry k = s.entry k := by
  refine ⟨Rect.volume (clamp b), ?_⟩
  intro fuel hf D
  refine ⟨cooAt id id D (fun _ => none) (fun _ => none) (fun _ => none)
      (stencilEntries b (sort offsets) (pointsOf o (clamp b))),
    cooAt (linearize o b) (linearize o b) D (fun _ => none) (fun _ => none) (fun _ => none)
      (stencilEntries b (sort offsets) (pointsOf o (clamp b))), ?_, ?_, ?_⟩
  · unfold fillCOO
    simp only []
    rw [doWhile_any o b _ _ fuel hf, ← cooAt_nil id id D, cooRows_at, List.nil_append]
  · unfold fillLinCOO
    simp only []
    rw [doWhile_any o b _ _ fuel hf, ← cooAt_nil (linearize o b) (linearize o b) D, linCooRows_at, List.nil_append]
  · intro k
    simp only [cooAt, place_apply, id]
    by_cases hc : D k = true ∧ 0 ≤ k ∧ k < ((stencilEntries b (sort offsets) (pointsOf o (clamp b))).length : Int)
    · simp only [if_pos hc, Option.map_map]
      exact ⟨rfl, rfl, trivial⟩
    · simp only [if_neg hc]
      exact ⟨rfl, rfl, trivial⟩

/-- **C08** (CSR): on every grid, also one with empty sides, the linearised CSR fill (including its fast-forward path) writes at every kernel
index of a piece the linear number of the column the plain CSR fill writes there and the same entry, and at the linear
number of every grid point the same row range as the plain fill at the point. -/
theorem c08_linearized_csr (sort : List (Point × E) → List (Point × E)) (lt : E → E → Bool) (o : IndexOrder) (b : Rect)
    (offsets : List (Point × E)) (hb : b ≠ [])
    (ho : ∀ oe ∈ offsets, oe.1.length = b.length) (hsort : IsSort o lt offsets (sort offsets)) (size : Nat)
    (hsize : calculateStencilSize b offsets = some size) :
    ∃ N : Nat, ∀ fuel, N ≤ fuel → ∀ dom rdom : Dom1,
      (∀ j, dom.contains j = true → dom.lo ≤ j ∧ j ≤ dom.hi ∧ 0 ≤ j ∧ j < size) →
      (∀ j, rdom.contains j = true → rdom.lo ≤ j ∧ j ≤ rdom.hi ∧ 0 ≤ j ∧ j < Rect.volume b) →
      ∃ s s',
        fillCSR sort o b offsets dom.contains (fun p => decide (InBox b p) && rdom.contains (linearize o b p)) fuel
          (fun _ => none) (fun _ => none) (fun _ => none) = some s ∧
        fillLinCSR sort o b offsets dom rdom fuel (fun _ => none) (fun _ => none) (fun _ => none) = some s' ∧
        (∀ k, s'.col k = (s.col k).map (linearize o b) ∧ s'.entry k = s.entry k) ∧
        (∀ p, InBox b p → s'.rowptr (linearize o b p) = s.rowptr p) := by
  obtain ⟨N, hN⟩ := c07_fast_forward_is_plain sort lt o b offsets hb ho hsort size hsize
  refine ⟨max (max N (emptyFuel b)) (Rect.volume (clamp b)), ?_⟩
  intro fuel hf dom rdom hd hr
  have hvc : Rect.volume (clamp b) ≤ fuel := le_trans (le_max_right _ _) hf
  have hef : emptyFuel b ≤ fuel := le_trans (le_trans (le_max_right _ _) (le_max_left _ _)) hf
  have hf : N ≤ fuel := le_trans (le_trans (le_max_left _ _) (le_max_left _ _)) hf
  by_cases hne : Nonempty b
  swap
  · have hv0 := volume_eq_zero hne
    have hnp : ∀ p, ¬ InBox b p := fun p hp => by
      have h1 := (mem_pointsOf o b p).2 hp
      have h2 : (pointsOf o b).length = 0 := by rw [length_pointsOf, hv0]
      rw [List.eq_nil_of_length_eq_zero h2] at h1
      exact absurd h1 (by simp)
    have hr0 : ∀ j, rdom.contains j = false := by
      intro j
      by_contra hc
      have := hr j (by simpa using hc)
      rw [hv0] at this
      omega
    have hz : size = 0 := by
      rw [calculateStencilSize_eq _ offsets hb ho, ← stencilEntries_length_eq .rowMajor _ offsets (sort offsets) _
        (enumerates_pointsOf .rowMajor _) hsort.perm] at hsize
      have h2 : (pointsOf .rowMajor b).length = 0 := by rw [length_pointsOf, hv0]
      rw [List.eq_nil_of_length_eq_zero h2] at hsize
      simpa [stencilEntries] using hsize.symm
    have hd0 : ∀ j, dom.contains j = false := by
      intro j
      by_contra hc
      have := hd j (by simpa using hc)
      rw [hz] at this
      omega
    have hr1 : ∀ p, (fun p => decide (InBox b p) && rdom.contains (linearize o b p)) p = false := by
      intro p; simp [hr0]
    cases b with
    | nil => exact absurd rfl hb
    | cons lh b =>
    obtain ⟨l, h⟩ := lh
    obtain ⟨s', -, q1, -, q2, -⟩ := fillLinCSR_nothing sort o l h b offsets dom rdom hd0 hr0 fuel hef
      (fun _ => none) (fun _ => none) (fun _ => none)
    refine ⟨(pointsOf o (clamp ((l, h) :: b))).foldl (csrRowStep ((l, h) :: b) (sort offsets) dom.contains
      (fun p => decide (InBox ((l, h) :: b) p) && rdom.contains (linearize o ((l, h) :: b) p)))
      ⟨0, fun _ => none, fun _ => none, fun _ => none⟩, s', ?_, q1, ?_, fun p hp => absurd hp (hnp p)⟩
    · unfold fillCSR
      exact doWhile_any o _ _ _ fuel hvc
    · intro k
      generalize pointsOf o (clamp ((l, h) :: b)) = ps
      have gen : ∀ (ps : List Point) (s : CSRState Point Point E),
          (ps.foldl (csrRowStep ((l, h) :: b) (sort offsets) dom.contains
            (fun p => decide (InBox ((l, h) :: b) p) && rdom.contains (linearize o ((l, h) :: b) p))) s).col = s.col ∧
          (ps.foldl (csrRowStep ((l, h) :: b) (sort offsets) dom.contains
            (fun p => decide (InBox ((l, h) :: b) p) && rdom.contains (linearize o ((l, h) :: b) p))) s).entry =
            s.entry := by
        intro ps
        induction ps with
        | nil => intro s; exact ⟨rfl, rfl⟩
        | cons p ps ih =>
          intro s
          obtain ⟨a1, a2⟩ := ih (csrRowStep ((l, h) :: b) (sort offsets) dom.contains
            (fun p => decide (InBox ((l, h) :: b) p) && rdom.contains (linearize o ((l, h) :: b) p)) s p)
          obtain ⟨b1, b2, -⟩ := csrOffset_fold_nothing ((l, h) :: b) dom.contains hd0 id p (sort offsets) s
          rw [List.foldl_cons, a1, a2]
          unfold csrRowStep
          simp only [hr0, Bool.and_false]
          exact ⟨b1, b2⟩
      obtain ⟨a1, a2⟩ := gen ps ⟨0, fun _ => none, fun _ => none, fun _ => none⟩
      rw [q2.1, q2.2.1]
      exact ⟨by rw [a1]; rfl, by rw [a2]⟩
  obtain ⟨s1, s2, h1, h2, e1, e2, e3⟩ := hN fuel hf dom rdom hd hr
    (fun _ => none) (fun _ => none) (fun _ => none)
  have hvf : Rect.volume b ≤ fuel := by rw [clamp_of_nonempty hne] at hvc; exact hvc
  have hs2 : s2 = linAt o b (sort offsets) dom.contains rdom.contains (fun _ => none) (fun _ => none) (fun _ => none)
      (pointsOf o b) := by
    unfold plainLinCSR at h2
    rw [doWhile_points o _ hne _ _ fuel hvf, ← linAt_nil o b (sort offsets) dom.contains rdom.contains,
      linCsrRows_at _ _ _ _ _ _ _ _ _ [] (by simp)] at h2
    simpa using h2.symm
  refine ⟨csrAt id dom.contains (fun _ => none) (fun _ => none)
      (rpAt (fun p => decide (InBox b p) && rdom.contains (linearize o b p)) (fun _ => none) b (sort offsets)
        (pointsOf o b)) (stencilEntries b (sort offsets) (pointsOf o b)), s1, ?_, h1, ?_, ?_⟩
  · unfold fillCSR
    simp only []
    rw [doWhile_points o b hne _ _ fuel hvf]
    have h0 : (⟨0, fun _ => none, fun _ => none, fun _ => none⟩ : CSRState Point Point E) =
        csrAt id dom.contains (fun _ => none) (fun _ => none)
          (rpAt (fun p => decide (InBox b p) && rdom.contains (linearize o b p)) (fun _ => none) b (sort offsets) [])
          (stencilEntries b (sort offsets) []) := by
      simp only [csrAt, stencilEntries, List.flatMap_nil, List.map_nil, place_nil, List.length_nil, Nat.cast_zero]
      congr 1
      funext p
      simp [rpAt]
    rw [h0, csrRows_at _ _ _ _ _ _ _ _ [] (by simpa using pointsOf_nodup o b)]
    simp
  · intro k
    rw [e1, e2, hs2]
    simp only [linAt, csrAt, place_apply, id]
    by_cases hc : dom.contains k = true ∧ 0 ≤ k ∧ k < ((stencilEntries b (sort offsets) (pointsOf o b)).length : Int)
    · simp only [if_pos hc, Option.map_map]
      exact ⟨rfl, trivial⟩
    · simp only [if_neg hc]
      exact ⟨rfl, trivial⟩
  · intro p hp
    rw [e3, hs2]
    obtain ⟨i, hi, rfl⟩ := List.getElem_of_mem ((mem_pointsOf o b p).2 hp)
    simp only [linAt, csrAt, rpAt, place, hp, decide_true, Bool.true_and, rangesFrom_length]
    rw [linearize_getElem]
    by_cases hc : rdom.contains (i : Int) = true
    · rw [if_pos ⟨hc, by omega, by exact_mod_cast hi⟩, if_pos ⟨hc, List.getElem_mem _⟩]
      rw [Int.toNat_natCast, rangesFrom_getElem _ _ _ i hi]
      have h3 := rangeOf_getElem b (sort offsets) (pointsOf o b) (pointsOf_nodup o b) i hi
      unfold rangeOf at h3
      rw [h3]
      rfl
    · rw [if_neg (fun h => hc h.1), if_neg (fun h => hc h.1)]

example : IsSort .rowMajor (fun a b : Int => decide (a < b)) [([-1, 0], -1), ([0, 0], 4)] [([-1, 0], -1), ([0, 0], 4)] ∧
    Nonempty [(0, 4), (0, 1)] ∧
    calculateStencilSize [(0, 4), (0, 1)] [([-1, 0], -1), ([0, 0], (4 : Int))] = some 18 := by
  refine ⟨⟨List.Perm.refl _, by decide⟩, by decide, ?_⟩
  rw [c04_closed_form _ _ (by simp) (by decide)]; decide

/-! ## C09: argument buffer -/

/-- **C09**: decoding the packed argument buffer succeeds (no assertion fails) and returns the header and the same
sequence of records, for every header and record list, whenever header and records have fixed byte sizes (record size
positive) and reading bytes back inverts storing them. -/
theorem c09_argument_round_trip {H R : Type _} (encH : H → List UInt8) (decH : List UInt8 → H)
    (encR : R → List UInt8) (decR : List UInt8 → R) (sizeH sizeR : Nat)
    (hH : ∀ h, (encH h).length = sizeH) (hR : ∀ r, (encR r).length = sizeR) (hpos : 0 < sizeR)
    (hdH : ∀ h, decH (encH h) = h) (hdR : ∀ r, decR (encR r) = r) (hdr : H) (recs : List R) :
    unpackArgs sizeH sizeR decH decR (packArgs encH encR hdr recs) = some (hdr, recs) := by
  have hlen : ((recs.map encR).flatten).length = recs.length * sizeR := by
    induction recs with
    | nil => simp
    | cons r rs ih => simp [ih, hR]; ring
  have hrec : ∀ i, ∀ hi : i < recs.length, recordBytes sizeR (recs.map encR).flatten i = encR recs[i] := by
    clear hlen
    induction recs with
    | nil => intro i hi; simp at hi
    | cons r rs ih =>
      intro i hi
      cases i with
      | zero =>
        simp only [recordBytes, Nat.zero_mul, List.drop_zero, List.map_cons, List.flatten_cons, List.getElem_cons_zero]
        rw [List.take_append_of_le_length (by rw [hR]), List.take_of_length_le (by rw [hR])]
      | succ i =>
        have := ih i (by simpa using hi)
        simp only [List.getElem_cons_succ]
        rw [← this]
        unfold recordBytes
        simp only [List.map_cons, List.flatten_cons]
        rw [List.drop_append, hR, List.drop_eq_nil_of_le (by rw [hR]; nlinarith), List.nil_append]
        congr 2
        rw [Nat.succ_mul]; omega
  unfold unpackArgs packArgs
  simp only [List.length_append, hH, hlen]
  rw [if_pos (by omega), if_pos (by simp)]
  simp only [Nat.add_sub_cancel_left, Nat.mul_div_cancel _ hpos]
  rw [List.take_append_of_le_length (by rw [hH]), List.take_of_length_le (by rw [hH]), hdH,
    List.drop_append, List.drop_eq_nil_of_le (by rw [hH]), hH, Nat.sub_self, List.drop_zero, List.nil_append]
  simp only [Option.some.injEq, Prod.mk.injEq, true_and]
  apply List.ext_getElem
  · simp
  · intro i h1 h2
    simp only [List.getElem_map, List.getElem_range]
    rw [hrec i h2, hdR]

-- one-byte header, two-byte little-endian records
example : unpackArgs 1 2 (fun l => l.headD 0) (fun l => (l.headD 0, l.getLastD 0))
    (packArgs (fun h : UInt8 => [h]) (fun r : UInt8 × UInt8 => [r.1, r.2]) 7 [(1, 2), (3, 4)]) =
    some (7, [(1, 2), (3, 4)]) := by decide

end Verif.Stencil
