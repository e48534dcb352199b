import Verif.Print.Props
import Verif.EndToEnd.Line

/-!
# C75: the two programs that print partitions

Models the top-level tasks of `test/Test03COOPartitioning.cpp` (20-77) and `test/Test04CSRPartitioning.cpp` (20-75).

Simplifications: the grid size (`constexpr` 20) and the pieces of `create_equal_partition` (four) are parameters; the pieces are any lists of
rows (Legion's contract: consecutive blocks); resource clean-up is in `Verif.Ownership`.  The header lines are written by the top-level task
itself, the other lines by the point tasks, which run whenever the runtime likes; a line is not split.  A replicated top-level task would
write its headers once per shard: one shard is modelled.
-/
set_option linter.dupNamespace false
set_option linter.unusedSectionVars false
namespace Verif.Programs
open Verif.Grid Verif.Tasks Verif.Matrix Verif.Print Verif.EndToEnd Verif.Laplacian

variable {V : Type}

/-! ## Model -/

/-- The characters of a C++ string literal. -/
def bytes (s : String) : List UInt8 := s.toList.map fun ch => UInt8.ofNat ch.toNat

/-- A partition of a one-dimensional index space with `Legion::coord_t` coordinates over the colour space
`VectorColorRect{0, num_range_pieces - 1}` (`Test03COOPartitioning.cpp` 31-32, `Test04CSRPartitioning.cpp` 31-32). -/
def partitionOf (pieces : List (List Int)) : Partition where
  colorTy := (1, .longlong)
  parentTy := (1, .longlong)
  colors := (List.range pieces.length).map fun c : Nat => [(c : Int)]
  piece col := (pieces[(col.headD 0).toNat]?.getD []).map fun p => [p]

/-- What one call of `print_index_partition` leaves to print: the name in the header, the number in the header, the lines of each task. -/
abbrev Printout := List UInt8 × Nat × List (List Line)

/-- `print_index_partition(ctx, rt, name, partition)`. -/
def printPieces (c : Config) (name : List UInt8) (pieces : List (List Int)) : Option Printout :=
  (printIndexPartition c name (partitionOf pieces)).map fun r => (name, r)

/-- `top_level_task` of `Test03COOPartitioning.cpp` (31-67): build, print the row partition, the partition of the stored entries derived
from it, and the partition of the columns derived from that. -/
def test03 (c : Config) (ofInt : Int → V) (n : Int) (fill : List (List Int)) (junk : COO Int Int V) (rows : List (List Int)) :
    Option (List Printout) := do
  let m := createCOOLaplacian ofInt n fill junk
  let out0 ← printPieces c (bytes "range_partition") rows
  let kp := m.kernelFromRange rows
  let out1 ← printPieces c (bytes "matrix_partition") kp
  let dp := m.domainFromKernel (indices n.toNat) kp
  let out2 ← printPieces c (bytes "domain_partition") dp
  pure [out0, out1, out2]

/-- `top_level_task` of `Test04CSRPartitioning.cpp` (31-67); the rows are the index space of the row pointers. -/
def test04 (c : Config) (ofInt : Int → V) (n : Int) (fill fillRows : List (List Int)) (junk : CSR Int Int V) (rows : List (List Int)) :
    Option (List Printout) := do
  let m := createCSRLaplacian ofInt n fill fillRows junk
  let out0 ← printPieces c (bytes "range_partition") rows
  let kp := m.kernelFromRange rows
  let out1 ← printPieces c (bytes "matrix_partition") kp
  let dp := m.domainFromKernel (indices n.toNat) kp
  let out2 ← printPieces c (bytes "domain_partition") dp
  pure [out0, out1, out2]

/-! ## Specification -/

/-- A line on the screen. -/
inductive Item
  | header (name : List UInt8) (count : Nat)
  | line (l : Line)
deriving DecidableEq

/-- The header of a line, if it is one. -/
def Item.asHeader : Item → Option (List UInt8 × Nat)
  | .header n c => some (n, c)
  | .line _ => none

/-- A possible screen: the headers in the order of the calls, the lines of every task in order, interleaved anyhow. -/
def Screen (outs : List Printout) (screen : List Item) : Prop :=
  Interleave ((outs.map fun o => Item.header o.1 o.2.1) :: outs.flatMap fun o => o.2.2.map fun l => l.map Item.line) screen

/-- The lines on the screen that carry a name and a colour. -/
def linesOf (screen : List Item) (name : List UInt8) (col : Int) : List Item :=
  screen.filter fun
    | .line l => decide (l.name = some name ∧ l.color = [col])
    | .header _ _ => false

/-- The lines `name colour point` for the points of a list, in this order. -/
def showPoints (name : List UInt8) (col : Int) (points : List Int) : List Item := points.map fun p => .line ⟨some name, [col], [p]⟩

/-- What the two programs promise for a grid of `n` points and a partition of the rows: three headers with the number of pieces; for every
colour the rows of its piece as given, the stored entries of these rows (`3 i - 1`, `3 i`, `3 i + 1` as far as they exist), and the unknowns
that occur in them (the rows and their neighbours on the grid), the last two in increasing order; nothing else. -/
structure ShowsPartitions (n : Int) (rows : List (List Int)) (screen : List Item) : Prop where
  headers : screen.filterMap Item.asHeader = [(bytes "range_partition", rows.length), (bytes "matrix_partition", rows.length),
    (bytes "domain_partition", rows.length)]
  own_rows : ∀ c : Nat, ∀ hc : c < rows.length, linesOf screen (bytes "range_partition") c = showPoints (bytes "range_partition") c rows[c]
  entries : ∀ c : Nat, ∀ hc : c < rows.length, ∃ ks : List Int,
    linesOf screen (bytes "matrix_partition") c = showPoints (bytes "matrix_partition") c ks ∧ ks.Pairwise (· < ·) ∧
    ∀ k, k ∈ ks ↔ 0 ≤ k ∧ k ≤ 3 * n - 3 ∧ ∃ i ∈ rows[c], 3 * i - 1 ≤ k ∧ k ≤ 3 * i + 1
  unknowns : ∀ c : Nat, ∀ hc : c < rows.length, ∃ js : List Int,
    linesOf screen (bytes "domain_partition") c = showPoints (bytes "domain_partition") c js ∧ js.Pairwise (· < ·) ∧
    ∀ j, j ∈ js ↔ 0 ≤ j ∧ j < n ∧ ∃ i ∈ rows[c], i - 1 ≤ j ∧ j ≤ i + 1
  nothing_else : ∀ l, Item.line l ∈ screen → ∃ name ∈ [bytes "range_partition", bytes "matrix_partition", bytes "domain_partition"],
    ∃ c : Nat, c < rows.length ∧ l.name = some name ∧ l.color = [(c : Int)]

/-- The integers from `lo` to `hi`. -/
def fromTo (lo hi : Int) : List Int := (List.range (hi + 1 - lo).toNat).map fun t : Nat => lo + t

/-! ## The pieces -/

/-- The entries of some rows: kernel indices in increasing order. -/
def entriesOf (n : Int) (piece : List Int) : List Int := (indices (kernelSize n).toNat).filter fun k => decide ((k + 1) / 3 ∈ piece)

/-- The unknowns of some rows. -/
def unknownsOf (n : Int) (piece : List Int) : List Int :=
  (indices n.toNat).filter fun j => decide (j ∈ (entriesOf n piece).map fun k => k - 2 * ((k + 1) / 3))

theorem indices_pairwise (N : Nat) : (indices N).Pairwise (· < ·) := by
  unfold indices
  rw [List.pairwise_map]
  exact List.pairwise_lt_range.imp (fun h => by simpa using h)

theorem mem_entriesOf {n : Int} {piece : List Int} {k : Int} :
    k ∈ entriesOf n piece ↔ 0 ≤ k ∧ k ≤ 3 * n - 3 ∧ ∃ i ∈ piece, 3 * i - 1 ≤ k ∧ k ≤ 3 * i + 1 := by
  unfold entriesOf
  rw [List.mem_filter, EndToEnd.mem_indices, decide_eq_true_iff]
  unfold kernelSize
  constructor
  · rintro ⟨⟨h0, h1⟩, h⟩
    exact ⟨h0, by omega, _, h, by omega, by omega⟩
  · rintro ⟨h0, h1, i, hi, h2, h3⟩
    refine ⟨⟨h0, by omega⟩, ?_⟩
    have : (k + 1) / 3 = i := by omega
    rw [this]; exact hi

theorem mem_unknownsOf {n : Int} {piece : List Int} (hp : ∀ i ∈ piece, 0 ≤ i ∧ i < n) {j : Int} :
    j ∈ unknownsOf n piece ↔ 0 ≤ j ∧ j < n ∧ ∃ i ∈ piece, i - 1 ≤ j ∧ j ≤ i + 1 := by
  unfold unknownsOf
  rw [List.mem_filter, EndToEnd.mem_indices, decide_eq_true_iff, List.mem_map]
  constructor
  · rintro ⟨⟨h0, h1⟩, k, hk, rfl⟩
    obtain ⟨h2, h3, i, hi, h4, h5⟩ := mem_entriesOf.1 hk
    have := hp i hi
    exact ⟨h0, by omega, i, hi, by omega, by omega⟩
  · rintro ⟨h0, h1, i, hi, h2, h3⟩
    have := hp i hi
    refine ⟨⟨h0, by omega⟩, j + 2 * i, mem_entriesOf.2 ⟨by omega, by omega, i, hi, by omega, by omega⟩, ?_⟩
    omega

theorem coo_entries (ofInt : Int → V) (n : Int) (fill : List (List Int)) (junk : COO Int Int V) (hf : Covers fill (kernelSize n))
    (rows : List (List Int)) : (createCOOLaplacian ofInt n fill junk).kernelFromRange rows = rows.map (entriesOf n) := by
  unfold COO.kernelFromRange byPreimage
  apply List.map_congr_left
  intro piece _
  show (indices (kernelSize n).toNat).filter _ = _
  unfold entriesOf
  apply List.filter_congr
  intro k hk
  rw [EndToEnd.mem_indices] at hk
  have hex := (hf k).2 ⟨hk.1, by omega⟩
  have : (createCOOLaplacian ofInt n fill junk).row k = (k + 1) / 3 := by
    rw [← rowOf_eq hk.1]
    simp only [createCOOLaplacian, cooLaplacian_eq, fold_pieces, stored, hex, if_true, Option.getD_some]
  rw [this]

theorem map_col {m : List Int} {n : Int} {f : Int → Int} (hm : ∀ k ∈ m, 0 ≤ k ∧ k < kernelSize n)
    (hf : ∀ k, 0 ≤ k → k < kernelSize n → f k = colOf k) : m.map f = m.map fun k => k - 2 * ((k + 1) / 3) := by
  apply List.map_congr_left
  intro k hk
  rw [hf k (hm k hk).1 (hm k hk).2, colOf_eq (hm k hk).1]

theorem entriesOf_bounds {n : Int} {piece : List Int} : ∀ k ∈ entriesOf n piece, 0 ≤ k ∧ k < kernelSize n := by
  intro k hk
  obtain ⟨h0, h1, -⟩ := mem_entriesOf.1 hk
  unfold kernelSize
  exact ⟨h0, by omega⟩

theorem coo_unknowns (ofInt : Int → V) (n : Int) (fill : List (List Int)) (junk : COO Int Int V) (hf : Covers fill (kernelSize n))
    (rows : List (List Int)) :
    (createCOOLaplacian ofInt n fill junk).domainFromKernel (indices n.toNat) (rows.map (entriesOf n)) = rows.map (unknownsOf n) := by
  unfold COO.domainFromKernel byImage
  rw [List.map_map]
  apply List.map_congr_left
  intro piece _
  show (indices n.toNat).filter _ = _
  unfold unknownsOf
  rw [map_col entriesOf_bounds]
  intro k h0 h1
  have hex := (hf k).2 ⟨h0, h1⟩
  simp only [createCOOLaplacian, cooLaplacian_eq, fold_pieces, stored, hex, if_true, Option.getD_some]

theorem csr_entries (ofInt : Int → V) (n : Int) (fill fillRows : List (List Int)) (junk : CSR Int Int V) (hr : Covers fillRows n)
    (rows : List (List Int)) (hrows : ∀ piece ∈ rows, ∀ i ∈ piece, 0 ≤ i ∧ i < n) :
    (createCSRLaplacian ofInt n fill fillRows junk).kernelFromRange rows = rows.map (entriesOf n) := by
  unfold CSR.kernelFromRange byImageRange
  apply List.map_congr_left
  intro piece hpc
  show (indices (kernelSize n).toNat).filter _ = _
  unfold entriesOf
  apply List.filter_congr
  intro k hk
  rw [EndToEnd.mem_indices] at hk
  unfold kernelSize at hk
  rw [Bool.eq_iff_iff, List.any_eq_true, decide_eq_true_iff]
  have key : ∀ i ∈ piece, ((createCSRLaplacian ofInt n fill fillRows junk).range i k = true ↔ (k + 1) / 3 = i) := by
    intro i hi
    have hb := hrows piece hpc i hi
    show storedRange (csrLaplacian n fill fillRows).2 junk.range i k = true ↔ _
    unfold storedRange
    rw [rowptr_written n fill fillRows hr i hb.1 hb.2]
    simp only [Bool.and_eq_true, decide_eq_true_eq]
    unfold rowptrOf
    split
    · simp only []; omega
    · split
      · simp only []; omega
      · simp only []; omega
  constructor
  · rintro ⟨i, hi, h⟩
    rw [(key i hi).1 h]; exact hi
  · intro h
    exact ⟨_, h, (key _ h).2 rfl⟩

theorem csr_unknowns (ofInt : Int → V) (n : Int) (fill fillRows : List (List Int)) (junk : CSR Int Int V) (hf : Covers fill (kernelSize n))
    (rows : List (List Int)) :
    (createCSRLaplacian ofInt n fill fillRows junk).domainFromKernel (indices n.toNat) (rows.map (entriesOf n)) = rows.map (unknownsOf n) := by
  unfold CSR.domainFromKernel byImage
  rw [List.map_map]
  apply List.map_congr_left
  intro piece _
  show (indices n.toNat).filter _ = _
  unfold unknownsOf
  rw [map_col entriesOf_bounds]
  intro k h0 h1
  have hex := (hf k).2 ⟨h0, h1⟩
  simp only [createCSRLaplacian, csrLaplacian_eq, fold_pieces, stored, hex, if_true, Option.getD_some]

/-! ## What is printed -/

/-- The lines of a call. -/
def linesFor (name : List UInt8) (pieces : List (List Int)) : Printout :=
  (name, pieces.length, (List.range pieces.length).map fun c : Nat => (pieces[c]?.getD []).map fun p => ⟨some name, [(c : Int)], [p]⟩)

theorem printPieces_eq (c : Config) (hs : Supported c (1, .longlong)) (name : List UInt8) (hn : (0 : UInt8) ∉ name) (pieces : List (List Int)) :
    printPieces c name pieces = some (linesFor name pieces) := by
  unfold printPieces
  rw [printIndexPartition_eq c name hn (partitionOf pieces) hs]
  simp only [partitionOf, iterate, if_true, Option.map_some]
  have : ∀ (cs : List Point) (f : Point → List Line), cs.mapM (fun col => some (f col)) = some (cs.map f) := by
    intro cs f
    induction cs with
    | nil => rfl
    | cons a cs ih => rw [List.mapM_cons, ih]; rfl
  rw [this, List.length_map, List.length_range, List.map_map]
  simp only [linesFor, Option.map_some, Option.some.injEq, Prod.mk.injEq, true_and]
  apply List.map_congr_left
  intro a _
  simp [Function.comp_def]

theorem names_ok : (0 : UInt8) ∉ bytes "range_partition" ∧ (0 : UInt8) ∉ bytes "matrix_partition" ∧ (0 : UInt8) ∉ bytes "domain_partition" := by
  decide

theorem names_differ : bytes "range_partition" ≠ bytes "matrix_partition" ∧ bytes "range_partition" ≠ bytes "domain_partition" ∧
    bytes "matrix_partition" ≠ bytes "domain_partition" := by decide

/-- All three print-outs. -/
def allLines (n : Int) (rows : List (List Int)) : List Printout :=
  [linesFor (bytes "range_partition") rows, linesFor (bytes "matrix_partition") (rows.map (entriesOf n)),
    linesFor (bytes "domain_partition") (rows.map (unknownsOf n))]

theorem test03_eq (c : Config) (hs : Supported c (1, .longlong)) (ofInt : Int → V) (n : Int) (fill : List (List Int)) (junk : COO Int Int V)
    (hf : Covers fill (kernelSize n)) (rows : List (List Int)) : test03 c ofInt n fill junk rows = some (allLines n rows) := by
  unfold test03
  simp only [coo_entries ofInt n fill junk hf, coo_unknowns ofInt n fill junk hf, printPieces_eq c hs _ names_ok.1,
    printPieces_eq c hs _ names_ok.2.1, printPieces_eq c hs _ names_ok.2.2]
  rfl

theorem test04_eq (c : Config) (hs : Supported c (1, .longlong)) (ofInt : Int → V) (n : Int) (fill fillRows : List (List Int))
    (junk : CSR Int Int V) (hf : Covers fill (kernelSize n)) (hr : Covers fillRows n) (rows : List (List Int))
    (hrows : ∀ piece ∈ rows, ∀ i ∈ piece, 0 ≤ i ∧ i < n) : test04 c ofInt n fill fillRows junk rows = some (allLines n rows) := by
  unfold test04
  simp only [csr_entries ofInt n fill fillRows junk hr rows hrows, csr_unknowns ofInt n fill fillRows junk hf,
    printPieces_eq c hs _ names_ok.1, printPieces_eq c hs _ names_ok.2.1, printPieces_eq c hs _ names_ok.2.2]
  rfl

/-! ## Screens -/

/-- The tasks of a call, as items. -/
def tasksFor (name : List UInt8) (pieces : List (List Int)) : List (List Item) := (linesFor name pieces).2.2.map fun l => l.map Item.line

theorem tasksFor_eq (name : List UInt8) (pieces : List (List Int)) :
    tasksFor name pieces = (List.range pieces.length).map fun c : Nat => showPoints name c (pieces[c]?.getD []) := by
  simp [tasksFor, linesFor, showPoints, Function.comp_def]

theorem range_split {c N : Nat} (h : c < N) : ∃ A B, List.range N = A ++ c :: B ∧ ∀ a, (a ∈ A ∨ a ∈ B) → a ≠ c := by
  obtain ⟨A, B, e⟩ := List.append_of_mem (List.mem_range.2 h)
  refine ⟨A, B, e, ?_⟩
  have hn : (A ++ c :: B).Nodup := e ▸ List.nodup_range
  have h2 := List.nodup_append.1 hn
  rintro a (ha | ha) rfl
  · exact h2.2.2 a ha a (by simp) rfl
  · exact (List.nodup_cons.1 h2.2.1).1 ha

/-- The predicate of `linesOf`. -/
def isLine (name : List UInt8) (col : Int) : Item → Bool
  | .line l => decide (l.name = some name ∧ l.color = [col])
  | .header _ _ => false

theorem linesOf_eq (screen : List Item) (name : List UInt8) (col : Int) : linesOf screen name col = screen.filter (isLine name col) := rfl

theorem isLine_show {name name' : List UInt8} {col col' : Int} {ps : List Int} {x : Item} (hx : x ∈ showPoints name' col' ps) :
    isLine name col x = decide (name' = name ∧ col' = col) := by
  obtain ⟨p, -, rfl⟩ := List.mem_map.1 hx
  simp [isLine]

theorem linesOf_task {outs : List (List Item)} {screen : List Item} (h : Interleave outs screen) (A B : List (List Item))
    (name : List UInt8) (pieces : List (List Int)) (e : outs = A ++ tasksFor name pieces ++ B)
    (hA : ∀ l ∈ A, ∀ x ∈ l, ∀ col, isLine name col x = false) (hB : ∀ l ∈ B, ∀ x ∈ l, ∀ col, isLine name col x = false)
    (c : Nat) (hc : c < pieces.length) : linesOf screen name c = showPoints name c pieces[c] := by
  obtain ⟨C, D, e1, hne⟩ := range_split hc
  rw [tasksFor_eq, e1, List.map_append, List.map_cons] at e
  rw [linesOf_eq]
  refine h.filter _ (A ++ C.map fun c : Nat => showPoints name c (pieces[c]?.getD [])) _
    ((D.map fun c : Nat => showPoints name c (pieces[c]?.getD [])) ++ B) ?_ ?_ ?_ ?_
  · rw [e]; simp [List.getElem?_eq_getElem hc]
  · intro l hl x hx
    rcases List.mem_append.1 hl with hl | hl
    · exact hA l hl x hx _
    · obtain ⟨a, ha, rfl⟩ := List.mem_map.1 hl
      rw [isLine_show hx]
      have := hne a (Or.inl ha)
      simpa using fun h => this (by exact_mod_cast h)
  · intro l hl x hx
    rcases List.mem_append.1 hl with hl | hl
    · obtain ⟨a, ha, rfl⟩ := List.mem_map.1 hl
      rw [isLine_show hx]
      have := hne a (Or.inr ha)
      simpa using fun h => this (by exact_mod_cast h)
    · exact hB l hl x hx _
  · intro x hx
    rw [isLine_show hx]
    simp

theorem tasksFor_other {name name' : List UInt8} (h : name' ≠ name) (pieces : List (List Int)) :
    ∀ l ∈ tasksFor name' pieces, ∀ x ∈ l, ∀ col, isLine name col x = false := by
  intro l hl x hx col
  rw [tasksFor_eq] at hl
  obtain ⟨a, -, rfl⟩ := List.mem_map.1 hl
  rw [isLine_show hx]
  simp [h]

theorem header_other {hs : List (List UInt8 × Nat)} (name : List UInt8) :
    ∀ l ∈ [hs.map fun h => Item.header h.1 h.2], ∀ x ∈ l, ∀ col, isLine name col x = false := by
  intro l hl x hx col
  rw [List.mem_singleton] at hl
  subst hl
  obtain ⟨a, -, rfl⟩ := List.mem_map.1 hx
  rfl

theorem mem_append2 {α : Type} {A B : List (List α)} {q : α → Prop} (hA : ∀ l ∈ A, ∀ x ∈ l, q x) (hB : ∀ l ∈ B, ∀ x ∈ l, q x) :
    ∀ l ∈ A ++ B, ∀ x ∈ l, q x := by
  intro l hl
  rcases List.mem_append.1 hl with h | h
  · exact hA l h
  · exact hB l h

theorem shows {n : Int} {rows : List (List Int)} (hrows : ∀ piece ∈ rows, ∀ i ∈ piece, 0 ≤ i ∧ i < n) {screen : List Item}
    (h : Screen (allLines n rows) screen) : ShowsPartitions n rows screen := by
  let hdr : List Item := [(bytes "range_partition", rows.length), (bytes "matrix_partition", rows.length),
    (bytes "domain_partition", rows.length)].map fun h => Item.header h.1 h.2
  let T0 := tasksFor (bytes "range_partition") rows
  let T1 := tasksFor (bytes "matrix_partition") (rows.map (entriesOf n))
  let T2 := tasksFor (bytes "domain_partition") (rows.map (unknownsOf n))
  have h' : Interleave (hdr :: (T0 ++ T1 ++ T2)) screen := by
    unfold Screen allLines at h
    simpa [hdr, T0, T1, T2, tasksFor, linesFor] using h
  obtain ⟨d1, d2, d3⟩ := names_differ
  have hdr0 := fun name => header_other (hs := [(bytes "range_partition", rows.length), (bytes "matrix_partition", rows.length),
    (bytes "domain_partition", rows.length)]) name
  refine ⟨?_, ?_, ?_, ?_, ?_⟩
  · have hfilter := h'.filter (fun x => x.asHeader.isSome) [] hdr (T0 ++ T1 ++ T2) rfl (by simp) ?_ ?_
    · have : ∀ l : List Item, l.filterMap Item.asHeader = (l.filter fun x => x.asHeader.isSome).filterMap Item.asHeader := by
        intro l
        induction l with
        | nil => rfl
        | cons a l ih =>
          cases a with
          | header x y =>
            rw [List.filter_cons_of_pos (by rfl)]
            exact congrArg ((x, y) :: ·) ih
          | line x => rw [List.filter_cons_of_neg (by simp [Item.asHeader]), List.filterMap_cons_none rfl, ih]
      rw [this, hfilter]
      rfl
    · have hl : ∀ name pieces, ∀ l ∈ tasksFor name pieces, ∀ x ∈ l, x.asHeader.isSome = false := by
        intro name pieces l hl x hx
        rw [tasksFor_eq] at hl
        obtain ⟨a, -, rfl⟩ := List.mem_map.1 hl
        obtain ⟨p, -, rfl⟩ := List.mem_map.1 hx
        rfl
      exact mem_append2 (mem_append2 (hl _ _) (hl _ _)) (hl _ _)
    · intro x hx
      obtain ⟨p, -, rfl⟩ := List.mem_map.1 hx
      rfl
  · intro c hc
    exact linesOf_task h' [hdr] (T1 ++ T2) _ rows (by simp [T0]) (hdr0 _)
      (mem_append2 (tasksFor_other d1.symm _) (tasksFor_other d2.symm _)) c hc
  · intro c hc
    have := linesOf_task h' ([hdr] ++ T0) T2 _ (rows.map (entriesOf n)) (by simp [T1])
      (mem_append2 (hdr0 _) (tasksFor_other d1 _)) (tasksFor_other d3.symm _) c (by simpa using hc)
    rw [List.getElem_map] at this
    exact ⟨_, this, (indices_pairwise _).filter _, fun k => mem_entriesOf⟩
  · intro c hc
    have := linesOf_task h' ([hdr] ++ T0 ++ T1) [] _ (rows.map (unknownsOf n)) (by simp [T2])
      (mem_append2 (mem_append2 (hdr0 _) (tasksFor_other d2 _)) (tasksFor_other d3 _)) (by simp) c (by simpa using hc)
    rw [List.getElem_map] at this
    exact ⟨_, this, (indices_pairwise _).filter _, fun k => mem_unknownsOf (hrows _ (List.getElem_mem hc))⟩
  · intro l hl
    obtain ⟨t, ht, hlt⟩ := (h'.mem _).1 hl
    have key : ∀ name pieces, t ∈ tasksFor name pieces → ∃ c : Nat, c < pieces.length ∧ l.name = some name ∧ l.color = [(c : Int)] := by
      intro name pieces ht
      rw [tasksFor_eq] at ht
      obtain ⟨c, hc, rfl⟩ := List.mem_map.1 ht
      obtain ⟨p, -, e⟩ := List.mem_map.1 hlt
      cases e
      exact ⟨c, List.mem_range.1 hc, rfl, rfl⟩
    rcases List.mem_cons.1 ht with rfl | ht
    · obtain ⟨p, -, e⟩ := List.mem_map.1 hlt
      cases e
    · rcases List.mem_append.1 ht with ht | ht
      · rcases List.mem_append.1 ht with ht | ht
        · obtain ⟨c, hc, h1, h2⟩ := key _ _ ht
          exact ⟨_, by simp, c, hc, h1, h2⟩
        · obtain ⟨c, hc, h1, h2⟩ := key _ _ ht
          exact ⟨_, by simp, c, by simpa using hc, h1, h2⟩
      · obtain ⟨c, hc, h1, h2⟩ := key _ _ ht
        exact ⟨_, by simp, c, by simpa using hc, h1, h2⟩

/-! ## Theorems -/

/-- **C75** for `Test03COOPartitioning`: for every grid size, every way the fill tasks were cut and every partition of the rows, the program
runs to its end, and every screen it can produce shows the three partitions. -/
theorem c75_coo (c : Config) (hs : Supported c (1, .longlong)) (ofInt : Int → V) (n : Int) (fill : List (List Int)) (junk : COO Int Int V)
    (hf : Covers fill (kernelSize n)) (rows : List (List Int)) (hrows : ∀ piece ∈ rows, ∀ i ∈ piece, 0 ≤ i ∧ i < n) :
    ∃ outs, test03 c ofInt n fill junk rows = some outs ∧ ∀ screen, Screen outs screen → ShowsPartitions n rows screen :=
  ⟨_, test03_eq c hs ofInt n fill junk hf rows, fun _ h => shows hrows h⟩

/-- **C75** for `Test04CSRPartitioning`: the same, and the two programs print exactly the same (also for a grid of one point, whose row
range is too long: the runtime cuts it off). -/
theorem c75_csr (c : Config) (hs : Supported c (1, .longlong)) (ofInt : Int → V) (n : Int) (fill fill' fillRows : List (List Int))
    (junk : CSR Int Int V) (junk' : COO Int Int V) (hf : Covers fill (kernelSize n)) (hf' : Covers fill' (kernelSize n))
    (hr : Covers fillRows n) (rows : List (List Int)) (hrows : ∀ piece ∈ rows, ∀ i ∈ piece, 0 ≤ i ∧ i < n) :
    test04 c ofInt n fill fillRows junk rows = test03 c ofInt n fill' junk' rows ∧
    ∃ outs, test04 c ofInt n fill fillRows junk rows = some outs ∧ ∀ screen, Screen outs screen → ShowsPartitions n rows screen := by
  have e := test04_eq c hs ofInt n fill fillRows junk hf hr rows hrows
  exact ⟨by rw [e, test03_eq c hs ofInt n fill' junk' hf' rows], _, e, fun _ h => shows hrows h⟩

theorem mem_fromTo {lo hi k : Int} : k ∈ fromTo lo hi ↔ lo ≤ k ∧ k ≤ hi := by
  unfold fromTo
  rw [List.mem_map]
  constructor
  · rintro ⟨t, ht, rfl⟩
    rw [List.mem_range] at ht
    omega
  · rintro ⟨h0, h1⟩
    exact ⟨(k - lo).toNat, List.mem_range.2 (by omega), by omega⟩

theorem fromTo_pairwise (lo hi : Int) : (fromTo lo hi).Pairwise (· < ·) := by
  unfold fromTo
  rw [List.pairwise_map]
  exact List.pairwise_lt_range.imp (fun h => by omega)

theorem increasing_ext {l l' : List Int} (h : l.Pairwise (· < ·)) (h' : l'.Pairwise (· < ·)) (e : ∀ k, k ∈ l ↔ k ∈ l') : l = l' := by
  have hp : l.Perm l' := (List.perm_ext_iff_of_nodup (h.imp fun h => by omega) (h'.imp fun h => by omega)).2 e
  exact hp.eq_of_pairwise (fun a b _ _ h1 h2 => by omega) h h'

/-- **C75** for a piece that is a block of rows `lo … hi` (what `create_equal_partition` makes): its entries are printed as the block
`3 lo - 1 … 3 hi + 1` and its unknowns as the block `lo - 1 … hi + 1`, both cut off at the ends of the grid; an empty piece prints nothing. -/
theorem c75_blocks {n : Int} {rows : List (List Int)} {screen : List Item} (h : ShowsPartitions n rows screen) (c : Nat) (hc : c < rows.length)
    (lo hi : Int) (hpiece : rows[c] = fromTo lo hi) (h0 : 0 ≤ lo) (h1 : hi < n) :
    linesOf screen (bytes "range_partition") c = showPoints (bytes "range_partition") c (fromTo lo hi) ∧
    (lo ≤ hi →
      linesOf screen (bytes "matrix_partition") c =
        showPoints (bytes "matrix_partition") c (fromTo (max 0 (3 * lo - 1)) (min (3 * n - 3) (3 * hi + 1))) ∧
      linesOf screen (bytes "domain_partition") c =
        showPoints (bytes "domain_partition") c (fromTo (max 0 (lo - 1)) (min (n - 1) (hi + 1)))) ∧
    (hi < lo → linesOf screen (bytes "matrix_partition") c = [] ∧ linesOf screen (bytes "domain_partition") c = []) := by
  obtain ⟨ks, e1, p1, m1⟩ := h.entries c hc
  obtain ⟨js, e2, p2, m2⟩ := h.unknowns c hc
  rw [hpiece] at m1 m2
  refine ⟨by rw [h.own_rows c hc, hpiece], fun hle => ⟨?_, ?_⟩, fun hlt => ⟨?_, ?_⟩⟩
  · rw [e1, increasing_ext p1 (fromTo_pairwise _ _)]
    intro k
    rw [m1, mem_fromTo]
    constructor
    · rintro ⟨a, b, i, hi', d, e⟩
      rw [mem_fromTo] at hi'
      omega
    · rintro ⟨a, b⟩
      refine ⟨by omega, by omega, (k + 1) / 3, mem_fromTo.2 (by omega), by omega, by omega⟩
  · rw [e2, increasing_ext p2 (fromTo_pairwise _ _)]
    intro k
    rw [m2, mem_fromTo]
    constructor
    · rintro ⟨a, b, i, hi', d, e⟩
      rw [mem_fromTo] at hi'
      omega
    · rintro ⟨a, b⟩
      refine ⟨by omega, by omega, max lo (min hi k), mem_fromTo.2 (by omega), by omega, by omega⟩
  · rw [e1]
    have : ks = [] := List.eq_nil_iff_forall_not_mem.2 fun k hk => by
      obtain ⟨_, _, i, hi', _⟩ := (m1 k).1 hk
      rw [mem_fromTo] at hi'
      omega
    rw [this]; rfl
  · rw [e2]
    have : js = [] := List.eq_nil_iff_forall_not_mem.2 fun k hk => by
      obtain ⟨_, _, i, hi', _⟩ := (m2 k).1 hk
      rw [mem_fromTo] at hi'
      omega
    rw [this]; rfl

/-- **C75** for a disjoint and complete partition of the rows: every stored entry is shown with exactly one colour, every unknown with at
least one. -/
theorem c75_once {n : Int} {rows : List (List Int)} {screen : List Item} (h : ShowsPartitions n rows screen) (hcover : Covers rows n)
    (hdisj : ∀ c d : Nat, ∀ hc : c < rows.length, ∀ hd : d < rows.length, ∀ i, i ∈ rows[c] → i ∈ rows[d] → c = d) :
    (∀ k, 0 ≤ k → k ≤ 3 * n - 3 → ∃! c : Nat, Item.line ⟨some (bytes "matrix_partition"), [(c : Int)], [k]⟩ ∈ screen) ∧
    (∀ j, 0 ≤ j → j < n → ∃ c : Nat, Item.line ⟨some (bytes "domain_partition"), [(c : Int)], [j]⟩ ∈ screen) := by
  have onscreen : ∀ name (c : Nat) (ps : List Int) (p : Int), linesOf screen name c = showPoints name c ps →
      (Item.line ⟨some name, [(c : Int)], [p]⟩ ∈ screen ↔ p ∈ ps) := by
    intro name c ps p e
    have h1 : Item.line ⟨some name, [(c : Int)], [p]⟩ ∈ screen ↔ Item.line ⟨some name, [(c : Int)], [p]⟩ ∈ linesOf screen name c := by
      rw [linesOf_eq, List.mem_filter]; simp [isLine]
    rw [h1, e]
    simp [showPoints]
  have find : ∀ i, 0 ≤ i → i < n → ∃ c : Nat, ∃ hc : c < rows.length, i ∈ rows[c] := by
    intro i h0 h1
    obtain ⟨piece, hp, hi⟩ := (hcover i).2 ⟨h0, h1⟩
    obtain ⟨c, hc, e⟩ := List.getElem_of_mem hp
    exact ⟨c, hc, e ▸ hi⟩
  constructor
  · intro k h0 h1
    obtain ⟨c, hc, hi⟩ := find ((k + 1) / 3) (by omega) (by omega)
    obtain ⟨ks, e, -, m⟩ := h.entries c hc
    refine ⟨c, (onscreen _ _ _ _ e).2 ((m k).2 ⟨h0, h1, _, hi, by omega, by omega⟩), ?_⟩
    intro d hd
    obtain ⟨name, -, d', hd', -, e'⟩ := h.nothing_else _ hd
    have hdd : d = d' := by simpa using e'
    subst hdd
    obtain ⟨ks', e2, -, m'⟩ := h.entries d hd'
    obtain ⟨-, -, i, hi', h2, h3⟩ := (m' k).1 ((onscreen _ _ _ _ e2).1 hd)
    have : i = (k + 1) / 3 := by omega
    exact hdisj d c hd' hc i hi' (this ▸ hi)
  · intro j h0 h1
    obtain ⟨c, hc, hi⟩ := find j h0 h1
    obtain ⟨js, e, -, m⟩ := h.unknowns c hc
    exact ⟨c, (onscreen _ _ _ _ e).2 ((m j).2 ⟨h0, h1, j, hi, by omega, by omega⟩)⟩

/-- **C75**: a screen exists (one task after the other), so the statements are not vacuous. -/
theorem c75_some_screen (outs : List Printout) : ∃ screen, Screen outs screen := ⟨_, Interleave.flatten _⟩

/-- The shipped parameters: 20 points, four blocks of five rows. -/
def shippedRows : List (List Int) := [fromTo 0 4, fromTo 5 9, fromTo 10 14, fromTo 15 19]

example : Supported Config.default (1, .longlong) ∧ Covers [fromTo 0 30, fromTo 31 57] (kernelSize 20) ∧ Covers shippedRows 20 ∧
    (∀ piece ∈ shippedRows, ∀ i ∈ piece, 0 ≤ i ∧ i < 20) := by
  refine ⟨⟨rfl, by decide, by decide, rfl⟩, ?_, ?_, ?_⟩
  · intro k
    simp [mem_fromTo, kernelSize]; omega
  · intro k
    simp [mem_fromTo, shippedRows]; omega
  · intro piece hp i hi
    simp [shippedRows] at hp
    rcases hp with rfl | rfl | rfl | rfl <;> rw [mem_fromTo] at hi <;> omega

/-- **C75** for the shipped parameters: both programs print the entries 0-13, 14-28, 29-43, 44-57 and the unknowns 0-5, 4-10, 9-15, 14-19. -/
theorem c75_shipped {screen : List Item} (h : ShowsPartitions 20 shippedRows screen) :
    linesOf screen (bytes "matrix_partition") 0 = showPoints (bytes "matrix_partition") 0 (fromTo 0 13) ∧
    linesOf screen (bytes "matrix_partition") 1 = showPoints (bytes "matrix_partition") 1 (fromTo 14 28) ∧
    linesOf screen (bytes "matrix_partition") 2 = showPoints (bytes "matrix_partition") 2 (fromTo 29 43) ∧
    linesOf screen (bytes "matrix_partition") 3 = showPoints (bytes "matrix_partition") 3 (fromTo 44 57) ∧
    linesOf screen (bytes "domain_partition") 0 = showPoints (bytes "domain_partition") 0 (fromTo 0 5) ∧
    linesOf screen (bytes "domain_partition") 1 = showPoints (bytes "domain_partition") 1 (fromTo 4 10) ∧
    linesOf screen (bytes "domain_partition") 2 = showPoints (bytes "domain_partition") 2 (fromTo 9 15) ∧
    linesOf screen (bytes "domain_partition") 3 = showPoints (bytes "domain_partition") 3 (fromTo 14 19) := by
  have a0 := (c75_blocks h 0 (by decide) 0 4 rfl (by decide) (by decide)).2.1 (by decide)
  have a1 := (c75_blocks h 1 (by decide) 5 9 rfl (by decide) (by decide)).2.1 (by decide)
  have a2 := (c75_blocks h 2 (by decide) 10 14 rfl (by decide) (by decide)).2.1 (by decide)
  have a3 := (c75_blocks h 3 (by decide) 15 19 rfl (by decide) (by decide)).2.1 (by decide)
  exact ⟨a0.1, a1.1, a2.1, a3.1, a0.2, a1.2, a2.2, a3.2⟩

end Verif.Programs
