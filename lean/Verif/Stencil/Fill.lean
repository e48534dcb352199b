import Verif.Grid.Model
import Verif.Stencil.Size
/-
Model of the four stencil fill tasks, /repo/src/StencilGenerator.cpp.

A region field is a partial map from index to value (`none`: not yet written).  The piece of the region a point task
may write is given by its membership test `matrix_domain.contains` (and, for the linearised CSR task, its bounds
`lo()`/`hi()`).  `std::sort` is a parameter: a function from lists to lists (its contract, `IsSort`, is in
`Verif/Stencil/FillSpec.lean`).  Kernel indices and coordinates are mathematical integers.
-/
namespace Verif.Stencil
open Verif.Grid

variable {E : Type _}

/-- Writing through a region accessor: `writer[k] = v`. -/
def write {K V : Type _} [DecidableEq K] (m : K → Option V) (k : K) (v : V) : K → Option V :=
  fun j => if j = k then some v else m j

/-- The comparison lambda given to `std::sort`, StencilGenerator.cpp:44-49 (and 56-61, and its copies in the other
tasks): first by point, then by entry; `lt` is `<` of the entry type. -/
def offsetLess (o : IndexOrder) (lt : E → E → Bool) (p q : Point × E) : Bool :=
  if compare o p.1 q.1 then true else if compare o q.1 p.1 then false else lt p.2 q.2

/-! ### COO fill -/

/-- Loop state of `FillCOOStencilTask::task_body`: `kernel_index` and the three fields. -/
structure COOState (R C E : Type _) where
  kernelIndex : Int
  row : Int → Option R
  col : Int → Option C
  entry : Int → Option E

/-- Body of the loop over offsets, StencilGenerator.cpp:97-107 (row-major copy) and 112-122 (column-major copy). -/
def cooOffsetStep (b : Rect) (dom : Int → Bool) (point : Point) (s : COOState Point Point E) (oe : Point × E) :
    COOState Point Point E :=
  let shifted := addPoint point oe.1
  if Rect.contains b shifted then
    let s' := if dom s.kernelIndex then
        { s with row := write s.row s.kernelIndex point,
                 col := write s.col s.kernelIndex shifted,
                 entry := write s.entry s.kernelIndex oe.2 }
      else s
    { s' with kernelIndex := s.kernelIndex + 1 }
  else s

/-- `FillCOOStencilTask::task_body`, StencilGenerator.cpp:11-126, after decoding the arguments: sort, then the
do-while loop over all grid points. -/
def fillCOO (sort : List (Point × E) → List (Point × E)) (o : IndexOrder) (b : Rect) (offsets : List (Point × E))
    (dom : Int → Bool) (fuel : Nat) (row col : Int → Option Point) (entry : Int → Option E) :
    Option (COOState Point Point E) :=
  let sorted := sort offsets
  doWhile (increment o b) (fun s p => sorted.foldl (cooOffsetStep b dom p) s) fuel ⟨0, row, col, entry⟩ (Rect.lo b)

/-- Body of the loop over offsets of the linearised COO task, StencilGenerator.cpp:209-221 and 226-238. -/
def linCooOffsetStep (o : IndexOrder) (b : Rect) (dom : Int → Bool) (point : Point) (s : COOState Int Int E)
    (oe : Point × E) : COOState Int Int E :=
  let shifted := addPoint point oe.1
  if Rect.contains b shifted then
    let s' := if dom s.kernelIndex then
        { s with row := write s.row s.kernelIndex (linearize o b point),
                 col := write s.col s.kernelIndex (linearize o b shifted),
                 entry := write s.entry s.kernelIndex oe.2 }
      else s
    { s' with kernelIndex := s.kernelIndex + 1 }
  else s

/-- `FillLinearizedCOOStencilTask::task_body`, StencilGenerator.cpp:129-242. -/
def fillLinCOO (sort : List (Point × E) → List (Point × E)) (o : IndexOrder) (b : Rect) (offsets : List (Point × E))
    (dom : Int → Bool) (fuel : Nat) (row col : Int → Option Int) (entry : Int → Option E) :
    Option (COOState Int Int E) :=
  let sorted := sort offsets
  doWhile (increment o b) (fun s p => sorted.foldl (linCooOffsetStep o b dom p) s) fuel ⟨0, row, col, entry⟩
    (Rect.lo b)

/-! ### CSR fill -/

/-- Loop state of the CSR tasks: `kernel_index`, the kernel fields and the row pointer field; `R` is the type of row
indices, `C` of column indices. -/
structure CSRState (R C E : Type _) where
  kernelIndex : Int
  col : Int → Option C
  entry : Int → Option E
  rowptr : R → Option (Int × Int)

/-- Body of the loop over offsets, StencilGenerator.cpp:338-347 and 358-367 (and, with linearised columns, 495-505 and
523-533); `colOf` is the stored form of the column point. -/
def csrOffsetStep {R C : Type _} (b : Rect) (dom : Int → Bool) (colOf : Point → C) (point : Point)
    (s : CSRState R C E) (oe : Point × E) : CSRState R C E :=
  let shifted := addPoint point oe.1
  if Rect.contains b shifted then
    let s' := if dom s.kernelIndex then
        { s with col := write s.col s.kernelIndex (colOf shifted), entry := write s.entry s.kernelIndex oe.2 }
      else s
    { s' with kernelIndex := s.kernelIndex + 1 }
  else s

/-- One iteration of the loop of `FillCSRStencilTask`, StencilGenerator.cpp:337-352 and 357-372. -/
def csrRowStep (b : Rect) (sorted : List (Point × E)) (dom : Int → Bool) (rdom : Point → Bool)
    (s : CSRState Point Point E) (point : Point) : CSRState Point Point E :=
  let rowBegin := s.kernelIndex
  let s1 := sorted.foldl (csrOffsetStep b dom id point) s
  let rowEnd := s1.kernelIndex - 1
  if rdom point then { s1 with rowptr := write s1.rowptr point (rowBegin, rowEnd) } else s1

/-- `FillCSRStencilTask::task_body`, StencilGenerator.cpp:245-376. -/
def fillCSR (sort : List (Point × E) → List (Point × E)) (o : IndexOrder) (b : Rect) (offsets : List (Point × E))
    (dom : Int → Bool) (rdom : Point → Bool) (fuel : Nat) (col : Int → Option Point) (entry : Int → Option E)
    (rowptr : Point → Option (Int × Int)) : Option (CSRState Point Point E) :=
  let sorted := sort offsets
  doWhile (increment o b) (csrRowStep b sorted dom rdom) fuel ⟨0, col, entry, rowptr⟩ (Rect.lo b)

/-- A one-dimensional `Legion::Domain`: membership and the bounds `lo()[0]`, `hi()[0]`. -/
structure Dom1 where
  contains : Int → Bool
  lo : Int
  hi : Int

/-- The row part of an iteration of the linearised CSR task: StencilGenerator.cpp:493-511 (row-major) and 520-539
(column-major), up to the early `break`. -/
def linCsrRowStep (o : IndexOrder) (b : Rect) (sorted : List (Point × E)) (dom rdom : Dom1)
    (s : CSRState Int Int E) (point : Point) : CSRState Int Int E :=
  let pointLin := linearize o b point
  let rowBegin := s.kernelIndex
  let s1 := sorted.foldl (csrOffsetStep b dom.contains (linearize o b) point) s
  let rowEnd := s1.kernelIndex - 1
  if rdom.contains pointLin then { s1 with rowptr := write s1.rowptr pointLin (rowBegin, rowEnd) } else s1

/-- The condition `(point[0] + lower_bound >= lo[0]) && (point[0] + upper_bound <= hi[0])`,
StencilGenerator.cpp:475-476 and 487-488. -/
def inBulk (b : Rect) (lower upper : Int) (point : Point) : Bool :=
  decide (headCoord point + lower ≥ headCoord (Rect.lo b)) && decide (headCoord point + upper ≤ headCoord (Rect.hi b))

/-- The inner `while` loop that skips bulk slices, StencilGenerator.cpp:475-484.  Returns the new `point` and
`kernel_index`. -/
def bulkSkip (b : Rect) (lower upper size matLo rowLo : Int) : Point → Int → Point × Int
  | [], k => ([], k)
  | x :: t, k =>
    if inBulk b lower upper (x :: t) = true ∧ k + size < matLo ∧
        linearizeRowMajor b (incrementHead (x :: t)) < rowLo then
      bulkSkip b lower upper size matLo rowLo ((x + 1) :: t) (k + size)
    else (x :: t, k)
termination_by p _ => (headCoord (Rect.hi b) - upper + 1 - headCoord p).toNat
decreasing_by
  rename_i h
  have h1 := h.1
  rw [inBulk, Bool.and_eq_true] at h1
  have h2 := of_decide_eq_true h1.2
  change x + upper ≤ _ at h2
  change (headCoord (Rect.hi b) - upper + 1 - (x + 1)).toNat < (headCoord (Rect.hi b) - upper + 1 - x).toNat
  omega

/-- State of the row-major loop of `FillLinearizedCSRStencilTask`: fields plus `bulk_slice_origin` and
`found_bulk_slice`. -/
structure BulkState (E : Type _) where
  st : CSRState Int Int E
  origin : Int
  found : Bool

/-- The part of the row-major loop before the row is processed, StencilGenerator.cpp:471-492. -/
def bulkPrologue (b : Rect) (lower upper : Int) (dom rdom : Dom1) (s : BulkState E) (point : Point) :
    BulkState E × Point :=
  if tailEqual point (Rect.lo b) then
    let r := if s.found then
        bulkSkip b lower upper (s.st.kernelIndex - s.origin) dom.lo rdom.lo point s.st.kernelIndex
      else (point, s.st.kernelIndex)
    let s1 := { s with st := { s.st with kernelIndex := r.2 } }
    if !s1.found && inBulk b lower upper r.1 then
      ({ s1 with found := true, origin := s1.st.kernelIndex }, r.1)
    else (s1, r.1)
  else (s, point)

/-- The row-major do-while loop with early `break`, StencilGenerator.cpp:470-516. -/
def bulkLoop (b : Rect) (sorted : List (Point × E)) (lower upper : Int) (dom rdom : Dom1) :
    Nat → BulkState E → Point → Option (BulkState E)
  | 0, _, _ => none
  | fuel + 1, s, point =>
    let r := bulkPrologue b lower upper dom rdom s point
    let s1 := { r.1 with st := linCsrRowStep .rowMajor b sorted dom rdom r.1.st r.2 }
    if s1.st.kernelIndex > dom.hi ∧ linearizeRowMajor b r.2 > rdom.hi then some s1
    else
      match incrementRowMajor b r.2 with
      | (true, p') => bulkLoop b sorted lower upper dom rdom fuel s1 p'
      | (false, _) => some s1

/-- `FillLinearizedCSRStencilTask::task_body`, StencilGenerator.cpp:379-543. -/
def fillLinCSR (sort : List (Point × E) → List (Point × E)) (o : IndexOrder) (b : Rect) (offsets : List (Point × E))
    (dom rdom : Dom1) (fuel : Nat) (col : Int → Option Int) (entry : Int → Option E)
    (rowptr : Int → Option (Int × Int)) : Option (CSRState Int Int E) :=
  let sorted := sort offsets
  let lb := leadingDimensionBounds sorted
  match o with
  | .rowMajor =>
    (bulkLoop b sorted lb.1 lb.2 dom rdom fuel ⟨⟨0, col, entry, rowptr⟩, 0, false⟩ (Rect.lo b)).map BulkState.st
  | .columnMajor =>
    doWhile (increment .columnMajor b) (linCsrRowStep .columnMajor b sorted dom rdom) fuel ⟨0, col, entry, rowptr⟩
      (Rect.lo b)

end Verif.Stencil
