import Verif.Laplacian.Model
import Verif.Stencil.Props
import Mathlib.Algebra.BigOperators.Group.Finset.Basic
import Mathlib.Order.Interval.Finset.Basic
import Mathlib.Data.Int.Interval
/-
Property theorems C10-C12 about the example Laplacian matrices.
-/
namespace Verif.Laplacian
open Verif.Grid Verif.Stencil

/-! ## C10 -/

/-- **C10**: for an `h` by `w` grid (at least 1 by 1) the kernel size equals the number of (point, offset) pairs of the
five-point stencil with point + offset in the grid, for every enumeration `ps` of the grid. -/
theorem c10_kernel_size_2d (h w : Int) (hh : 1 ≤ h) (hw : 1 ≤ w) (ps : List Point)
    (hps : Enumerates .rowMajor [(0, h - 1), (0, w - 1)] ps) :
    laplacian2dKernelSize h w =
      ((ps.map fun p => ([[0, 0], [0, 1], [0, -1], [1, 0], [-1, 0]] : List Point).countP fun o =>
        decide (InBox [(0, h - 1), (0, w - 1)] (addPoint p o))).sum : Nat) := by
  have h1 := c04_stencil_size .rowMajor [(0, h - 1), (0, w - 1)]
    [([0, 0], ()), ([0, 1], ()), ([0, -1], ()), ([1, 0], ()), ([-1, 0], ())] ps (by simp) (by simp) hps
  rw [c04_closed_form _ _ (by simp) (by simp), Option.some.injEq] at h1
  have h2 : (ps.map fun p => ([[0, 0], [0, 1], [0, -1], [1, 0], [-1, 0]] : List Point).countP fun o =>
        decide (InBox [(0, h - 1), (0, w - 1)] (addPoint p o))) =
      (ps.map fun p => ([([0, 0], ()), ([0, 1], ()), ([0, -1], ()), ([1, 0], ()), ([-1, 0], ())] :
        List (Point × Unit)).countP fun oe => decide (InBox [(0, h - 1), (0, w - 1)] (addPoint p oe.1))) := by
    apply List.map_congr_left
    intro p _
    simp [List.countP_cons]
  rw [h2, ← h1]
  obtain ⟨a, rfl⟩ : ∃ a : Nat, h = a + 1 := ⟨(h - 1).toNat, by omega⟩
  obtain ⟨c, rfl⟩ : ∃ c : Nat, w = c + 1 := ⟨(w - 1).toNat, by omega⟩
  simp [overlap, laplacian2dKernelSize]
  ring

-- on a line (h = 1) the formula still counts correctly: 3 w - 2 entries
example : laplacian2dKernelSize 1 7 = 19 ∧ laplacian2dKernelSize 3 4 = 46 ∧ laplacian2dKernelSize 1 1 = 1 := by decide
-- with an empty grid it does not (the hypothesis `1 ≤ h` is needed)
example : laplacian2dKernelSize 0 3 = -6 := by decide

/-! ## Writing fields piece by piece -/

theorem fold_write {V : Type _} (v : Int → V) (piece : List Int) (f : Int → Option V) (k : Int) :
    piece.foldl (fun f k => write f k (v k)) f k = if k ∈ piece then some (v k) else f k := by
  induction piece generalizing f with
  | nil => simp
  | cons a as ih =>
    rw [List.foldl_cons, ih]
    by_cases h : k ∈ as
    · simp [h]
    · by_cases h2 : k = a
      · subst h2; simp [write, h]
      · simp [write, h, h2]

theorem fold_pieces {V : Type _} (v : Int → V) (pieces : List (List Int)) (f : Int → Option V) (k : Int) :
    pieces.foldl (fun f piece => piece.foldl (fun f k => write f k (v k)) f) f k =
      if ∃ piece ∈ pieces, k ∈ piece then some (v k) else f k := by
  induction pieces generalizing f with
  | nil => simp
  | cons a as ih =>
    rw [List.foldl_cons, ih, fold_write]
    by_cases h : ∃ piece ∈ as, k ∈ piece
    · simp [h]
    · by_cases h2 : k ∈ a <;> simp [h, h2]

theorem fillCOOTask_eq (piece : List Int) (f : COOFields) :
    fillCOOTask piece f = ⟨piece.foldl (fun f k => write f k (rowOf k)) f.row,
      piece.foldl (fun f k => write f k (colOf k)) f.col,
      piece.foldl (fun f k => write f k (entryOf k)) f.entry⟩ := by
  unfold fillCOOTask
  induction piece generalizing f with
  | nil => rfl
  | cons a as ih => simp only [List.foldl_cons]; rw [ih]

theorem cooLaplacian_eq (pieces : List (List Int)) :
    cooLaplacian pieces =
      ⟨pieces.foldl (fun f piece => piece.foldl (fun f k => write f k (rowOf k)) f) (fun _ => none),
       pieces.foldl (fun f piece => piece.foldl (fun f k => write f k (colOf k)) f) (fun _ => none),
       pieces.foldl (fun f piece => piece.foldl (fun f k => write f k (entryOf k)) f) (fun _ => none)⟩ := by
  have : ∀ (f : COOFields), pieces.foldl (fun f piece => fillCOOTask piece f) f =
      ⟨pieces.foldl (fun f piece => piece.foldl (fun f k => write f k (rowOf k)) f) f.row,
       pieces.foldl (fun f piece => piece.foldl (fun f k => write f k (colOf k)) f) f.col,
       pieces.foldl (fun f piece => piece.foldl (fun f k => write f k (entryOf k)) f) f.entry⟩ := by
    induction pieces with
    | nil => intro f; rfl
    | cons a as ih => intro f; simp only [List.foldl_cons]; rw [ih, fillCOOTask_eq]
  exact this _

theorem fillCSRTask_eq (piece : List Int) (f : CSRFields) :
    fillCSRTask piece f = ⟨piece.foldl (fun f k => write f k (colOf k)) f.col,
      piece.foldl (fun f k => write f k (entryOf k)) f.entry⟩ := by
  unfold fillCSRTask
  induction piece generalizing f with
  | nil => rfl
  | cons a as ih => simp only [List.foldl_cons]; rw [ih]

theorem csrLaplacian_eq (n : Int) (pieces rowPieces : List (List Int)) :
    csrLaplacian n pieces rowPieces =
      (⟨pieces.foldl (fun f piece => piece.foldl (fun f k => write f k (colOf k)) f) (fun _ => none),
       pieces.foldl (fun f piece => piece.foldl (fun f k => write f k (entryOf k)) f) (fun _ => none)⟩,
       rowPieces.foldl (fun f piece => piece.foldl (fun f k => write f k (rowptrOf n k)) f) (fun _ => none)) := by
  have : ∀ (f : CSRFields), pieces.foldl (fun f piece => fillCSRTask piece f) f =
      ⟨pieces.foldl (fun f piece => piece.foldl (fun f k => write f k (colOf k)) f) f.col,
       pieces.foldl (fun f piece => piece.foldl (fun f k => write f k (entryOf k)) f) f.entry⟩ := by
    induction pieces with
    | nil => intro f; rfl
    | cons a as ih => intro f; simp only [List.foldl_cons]; rw [ih, fillCSRTask_eq]
  unfold csrLaplacian
  rw [this]; rfl

/-! ## Specification -/

/-- The pieces cover exactly the interval `[0, size - 1]` (overlaps allowed). -/
def Covers (pieces : List (List Int)) (size : Int) : Prop :=
  ∀ k, (∃ piece ∈ pieces, k ∈ piece) ↔ 0 ≤ k ∧ k < size

/-- The one-dimensional negative Laplacian: 2 on the diagonal, -1 next to it, 0 elsewhere. -/
def laplacian (i j : Int) : Int := if i = j then 2 else if i = j + 1 ∨ j = i + 1 then -1 else 0

/-- Matrix element represented by stored triples at kernel indices `[0, size - 1]`: the sum of the entries stored for
that row and column. -/
def represented (row col : Int → Option Int) (entry : Int → Option Int) (size i j : Int) : Int :=
  ∑ k ∈ (Finset.Ico 0 size).filter (fun k => row k = some i ∧ col k = some j), (entry k).getD 0

theorem rowOf_eq {k : Int} (hk : 0 ≤ k) : rowOf k = (k + 1) / 3 := by
  unfold rowOf; rw [Int.tdiv_eq_ediv_of_nonneg (by omega)]
theorem colOf_eq {k : Int} (hk : 0 ≤ k) : colOf k = k - 2 * ((k + 1) / 3) := by
  unfold colOf; rw [Int.tdiv_eq_ediv_of_nonneg (by omega)]
theorem entryOf_eq {k : Int} (hk : 0 ≤ k) : entryOf k = if k % 3 = 0 then 2 else -1 := by
  unfold entryOf; rw [Int.tmod_eq_emod_of_nonneg hk]; by_cases h : k % 3 = 0 <;> simp [h]

/-- The kernel index of element `(i, j)`, `|i - j| ≤ 1`, is `2 i + j`. -/
theorem index_iff {k i j : Int} (hk : 0 ≤ k) :
    (rowOf k = i ∧ colOf k = j) ↔ (k = 2 * i + j ∧ (i = j ∨ i = j + 1 ∨ j = i + 1)) := by
  rw [rowOf_eq hk, colOf_eq hk]; omega

theorem entryOf_at {k i j : Int} (hk : 0 ≤ k) (h : rowOf k = i ∧ colOf k = j) : entryOf k = laplacian i j := by
  have := (index_iff hk).1 h
  rw [entryOf_eq hk]; unfold laplacian
  split <;> split <;> try split
  all_goals omega

/-! ## C11 -/

/-- **C11**: for every grid size `n` (no kernel indices if `n < 1`), every way of cutting the kernel space into pieces and every order of running
them: (1) exactly the kernel indices are written, each with an in-range row and column; (2) each nonzero position is
stored exactly once; (3) the represented matrix is the tridiagonal Laplacian. -/
theorem c11_coo_laplacian (n : Int) (pieces : List (List Int)) (hp : Covers pieces (kernelSize n)) :
    let m := cooLaplacian pieces
    (∀ k, if 0 ≤ k ∧ k < kernelSize n then
        ∃ i j e, m.row k = some i ∧ m.col k = some j ∧ m.entry k = some e ∧ 0 ≤ i ∧ i < n ∧ 0 ≤ j ∧ j < n ∧ e ≠ 0
      else m.row k = none ∧ m.col k = none ∧ m.entry k = none) ∧
    (∀ i j, 0 ≤ i → i < n → 0 ≤ j → j < n → laplacian i j ≠ 0 →
      ∃! k, m.row k = some i ∧ m.col k = some j) ∧
    (∀ i j, 0 ≤ i → i < n → 0 ≤ j → j < n → represented m.row m.col m.entry (kernelSize n) i j = laplacian i j) := by
  intro m
  have hrow : ∀ k, m.row k = if 0 ≤ k ∧ k < kernelSize n then some (rowOf k) else none := by
    intro k; simp only [m, cooLaplacian_eq, fold_pieces, hp k]
  have hcol : ∀ k, m.col k = if 0 ≤ k ∧ k < kernelSize n then some (colOf k) else none := by
    intro k; simp only [m, cooLaplacian_eq, fold_pieces, hp k]
  have hent : ∀ k, m.entry k = if 0 ≤ k ∧ k < kernelSize n then some (entryOf k) else none := by
    intro k; simp only [m, cooLaplacian_eq, fold_pieces, hp k]
  have hiff : ∀ i j, 0 ≤ i → i < n → 0 ≤ j → j < n → ∀ k, (m.row k = some i ∧ m.col k = some j) ↔
      (k = 2 * i + j ∧ (i = j ∨ i = j + 1 ∨ j = i + 1)) := by
    intro i j h1 h2 h3 h4 k
    rw [hrow, hcol]
    by_cases hk : 0 ≤ k ∧ k < kernelSize n
    · rw [if_pos hk, if_pos hk, Option.some.injEq, Option.some.injEq, index_iff hk.1]
    · rw [if_neg hk, if_neg hk]
      unfold kernelSize at hk
      simp only [reduceCtorEq, false_and, false_iff]
      omega
  refine ⟨?_, ?_, ?_⟩
  · intro k
    split
    · rename_i hk
      refine ⟨rowOf k, colOf k, entryOf k, by rw [hrow, if_pos hk], by rw [hcol, if_pos hk], by rw [hent, if_pos hk], ?_⟩
      rw [rowOf_eq hk.1, colOf_eq hk.1, entryOf_eq hk.1]
      unfold kernelSize at hk
      refine ⟨by omega, by omega, by omega, by omega, ?_⟩
      split <;> simp
    · rename_i hk
      rw [hrow, hcol, hent, if_neg hk, if_neg hk, if_neg hk]
      exact ⟨rfl, rfl, rfl⟩
  · intro i j h1 h2 h3 h4 hl
    refine ⟨2 * i + j, ?_, ?_⟩
    · simp only []
      rw [hiff i j h1 h2 h3 h4]
      refine ⟨rfl, ?_⟩
      unfold laplacian at hl
      by_contra hc
      push Not at hc
      rw [if_neg hc.1, if_neg (by rintro (h | h) <;> [exact hc.2.1 h; exact hc.2.2 h])] at hl
      exact hl rfl
    · intro k hk
      exact ((hiff i j h1 h2 h3 h4 k).1 hk).1
  · intro i j h1 h2 h3 h4
    unfold represented
    by_cases hb : i = j ∨ i = j + 1 ∨ j = i + 1
    · have : (Finset.Ico 0 (kernelSize n)).filter (fun k => m.row k = some i ∧ m.col k = some j) = {2 * i + j} := by
        ext k
        rw [Finset.mem_filter, hiff i j h1 h2 h3 h4, Finset.mem_Ico, Finset.mem_singleton]
        unfold kernelSize
        constructor
        · intro h; exact h.2.1
        · intro h; exact ⟨by omega, h, hb⟩
      rw [this, Finset.sum_singleton, hent, if_pos (by unfold kernelSize; omega), Option.getD_some]
      exact entryOf_at (by omega) ((index_iff (by omega)).2 ⟨rfl, hb⟩)
    · have : (Finset.Ico 0 (kernelSize n)).filter (fun k => m.row k = some i ∧ m.col k = some j) = ∅ := by
        ext k
        rw [Finset.mem_filter, hiff i j h1 h2 h3 h4]
        simp only [Finset.notMem_empty, iff_false]
        intro h; exact hb h.2.2
      rw [this, Finset.sum_empty]
      unfold laplacian
      rw [if_neg (by omega), if_neg (by omega)]

-- the 4-point matrix cut into three pieces (one of them empty), filled out of order
example : Covers [[7, 8, 9], [], [0, 1, 2, 3, 4, 5, 6]] (kernelSize 4) := by
  intro k
  have e : (∃ piece ∈ [[7, 8, 9], ([] : List Int), [0, 1, 2, 3, 4, 5, 6]], k ∈ piece) ↔
    (k = 7 ∨ k = 8 ∨ k = 9) ∨ (k = 0 ∨ k = 1 ∨ k = 2 ∨ k = 3 ∨ k = 4 ∨ k = 5 ∨ k = 6) := by simp
  rw [e, kernelSize]; omega

/-! ## C12 -/

/-- A CSR structure is well formed: every row's range lies in the kernel space and every kernel index lies in exactly one
row's range; ranges increase with the rows. -/
def WellFormedRanges (rowptr : Int → Option (Int × Int)) (rows size : Int) : Prop :=
  (∀ r, 0 ≤ r → r < rows → ∃ lo hi, rowptr r = some (lo, hi) ∧ lo ≤ hi ∧ 0 ≤ lo ∧ hi < size) ∧
  (∀ k, 0 ≤ k → k < size → ∃! r, 0 ≤ r ∧ r < rows ∧ ∃ lo hi, rowptr r = some (lo, hi) ∧ lo ≤ k ∧ k ≤ hi) ∧
  (∀ r s, 0 ≤ r → r < s → s < rows → ∀ a b c d, rowptr r = some (a, b) → rowptr s = some (c, d) → b < c)

theorem rowptr_written (n : Int) (pieces rowPieces : List (List Int)) (hr : Covers rowPieces n) (r : Int)
    (h0 : 0 ≤ r) (h1 : r < n) : (csrLaplacian n pieces rowPieces).2 r = some (rowptrOf n r) := by
  simp only [csrLaplacian_eq, fold_pieces]
  rw [if_pos ((hr r).2 ⟨h0, h1⟩)]

/-- **C12**, the part that holds (grid size at least 2): the CSR matrix stores the same columns and entries as the COO
one, its row ranges are well formed, and a kernel index lies in row `r`'s range exactly if the COO matrix stores row `r`
there.  The full property also claims this for `n = 1`; see `c12_violated_single_point`. -/
theorem c12_csr_laplacian_partial (n : Int) (hn : 2 ≤ n) (pieces rowPieces cooPieces : List (List Int))
    (hp : Covers pieces (kernelSize n)) (hr : Covers rowPieces n) (hc : Covers cooPieces (kernelSize n)) :
    let m := csrLaplacian n pieces rowPieces
    let c := cooLaplacian cooPieces
    m.1.col = c.col ∧ m.1.entry = c.entry ∧ WellFormedRanges m.2 n (kernelSize n) ∧
    (∀ r, 0 ≤ r → r < n → ∀ k, (∃ lo hi, m.2 r = some (lo, hi) ∧ lo ≤ k ∧ k ≤ hi) ↔ c.row k = some r) := by
  intro m c
  have hrp : ∀ r, 0 ≤ r → r < n → m.2 r = some (rowptrOf n r) := fun r h0 h1 => rowptr_written n pieces rowPieces hr r h0 h1
  have hrow : ∀ k, c.row k = if 0 ≤ k ∧ k < kernelSize n then some (rowOf k) else none := by
    intro k; simp only [c, cooLaplacian_eq, fold_pieces, hc k]
  have hmem : ∀ r, 0 ≤ r → r < n → ∀ k, ((rowptrOf n r).1 ≤ k ∧ k ≤ (rowptrOf n r).2) ↔
      (0 ≤ k ∧ k < kernelSize n ∧ (k + 1) / 3 = r) := by
    intro r h0 h1 k
    unfold rowptrOf kernelSize
    split
    · subst_vars; simp only []; omega
    · split
      · simp only []; omega
      · simp only []; omega
  have hmem' : ∀ r, 0 ≤ r → r < n → ∀ k, (∃ lo hi, m.2 r = some (lo, hi) ∧ lo ≤ k ∧ k ≤ hi) ↔
      (0 ≤ k ∧ k < kernelSize n ∧ (k + 1) / 3 = r) := by
    intro r h0 h1 k
    rw [← hmem r h0 h1, hrp r h0 h1]
    constructor
    · rintro ⟨lo, hi, h, h2⟩
      rw [Option.some.injEq] at h; rw [h]; exact h2
    · intro h; exact ⟨_, _, rfl, h⟩
  refine ⟨?_, ?_, ⟨?_, ?_, ?_⟩, ?_⟩
  · funext k; simp only [m, c, csrLaplacian_eq, cooLaplacian_eq, fold_pieces, hp k, hc k]
  · funext k; simp only [m, c, csrLaplacian_eq, cooLaplacian_eq, fold_pieces, hp k, hc k]
  · intro r h0 h1
    refine ⟨(rowptrOf n r).1, (rowptrOf n r).2, hrp r h0 h1, ?_⟩
    unfold rowptrOf kernelSize
    split
    · simp only []; omega
    · split <;> simp only [] <;> omega
  · intro k h0 h1
    refine ⟨(k + 1) / 3, ⟨by omega, by unfold kernelSize at h1; omega,
      (hmem' _ (by omega) (by unfold kernelSize at h1; omega) k).2 ⟨h0, h1, rfl⟩⟩, ?_⟩
    rintro r ⟨h2, h3, h4⟩
    exact (((hmem' r h2 h3 k).1 h4).2.2).symm
  · intro r s h0 h1 h2 a b c' d ha hb
    rw [hrp r h0 (by omega), Option.some.injEq] at ha
    rw [hrp s (by omega) h2, Option.some.injEq] at hb
    unfold rowptrOf at ha hb
    split at ha <;> split at hb <;> (try split at ha) <;> (try split at hb) <;>
      simp only [Prod.mk.injEq] at ha hb <;> omega
  · intro r h0 h1 k
    rw [hmem' r h0 h1, hrow]
    by_cases hk : 0 ≤ k ∧ k < kernelSize n
    · rw [if_pos hk, Option.some.injEq, rowOf_eq hk.1]; tauto
    · rw [if_neg hk]; simp only [reduceCtorEq, iff_false]; tauto

example : Covers [[0, 1, 2], [3]] (kernelSize 2) ∧ Covers [[1], [0]] 2 := by
  constructor
  · intro k
    have e : (∃ piece ∈ [[0, 1, 2], [(3 : Int)]], k ∈ piece) ↔ (k = 0 ∨ k = 1 ∨ k = 2) ∨ k = 3 := by simp
    rw [e, kernelSize]; omega
  · intro k
    have e : (∃ piece ∈ [[1], [(0 : Int)]], k ∈ piece) ↔ k = 1 ∨ k = 0 := by simp
    rw [e]; omega

/-- **C12 is violated for a one-point grid**: the kernel space is `[0, 0]`, but the row range written for row 0 is
`[0, 1]`, whatever the pieces, so it is not within the kernel space. -/
theorem c12_violated_single_point (pieces rowPieces : List (List Int)) (hr : Covers rowPieces 1) :
    kernelSize 1 = 1 ∧ (csrLaplacian 1 pieces rowPieces).2 0 = some (0, 1) ∧
    ¬ WellFormedRanges (csrLaplacian 1 pieces rowPieces).2 1 (kernelSize 1) := by
  have h := rowptr_written 1 pieces rowPieces hr 0 (by omega) (by omega)
  refine ⟨rfl, h, ?_⟩
  rintro ⟨h1, -⟩
  obtain ⟨lo, hi, h2, -, -, h3⟩ := h1 0 (by omega) (by omega)
  rw [h] at h2
  unfold rowptrOf at h2
  simp only [if_true, Option.some.injEq, Prod.mk.injEq] at h2
  unfold kernelSize at h3
  omega

example : Covers [[0]] 1 := by intro k; simp; omega

end Verif.Laplacian
