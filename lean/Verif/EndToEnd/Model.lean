import Verif.Stencil.Props
import Verif.Laplacian.Model
import Verif.Planner.Model

/-!
# Matrices built by the library

Models the functions that build a matrix and return it: `create_coo_stencil_matrix`, `create_csr_stencil_matrix`,
`create_linearized_csr_stencil_matrix` (`StencilGenerator.hpp` 326-643), `coo_negative_laplacian_1d` and
`csr_negative_laplacian_1d` (`ExampleSystems.cpp` 12-249).  They connect the fill tasks of `Verif.Stencil` and
`Verif.Laplacian` with the matrix objects of `Verif.Matrix`.

Simplifications: the point tasks of the fill launch run one after the other, in an arbitrary order (they write disjoint
pieces); the matrix object reads the regions after the fill (Legion orders the two by their region requirements).  A field
nobody wrote holds an arbitrary value: the `junk` arguments.  Ownership of the regions is in `Verif.Ownership`.
-/
set_option linter.dupNamespace false
namespace Verif.EndToEnd
open Verif.Grid Verif.Stencil Verif.Matrix

variable {E : Type}

/-- The points of `Rect<1>(0, size - 1)` in iteration order. -/
def indices (size : Nat) : List Int := (List.range size).map Int.ofNat

/-- Reading a field: what was written, or whatever the memory held before. -/
def stored {I α : Type} (f : I → Option α) (junk : I → α) (k : I) : α := (f k).getD (junk k)

/-- Reading the row-pointer field as a rectangle: does the rectangle of row `p` contain `k`? -/
def storedRange {R : Type} (rowptr : R → Option (Int × Int)) (junk : R → Int → Bool) (p : R) (k : Int) : Bool :=
  match rowptr p with
  | some (lo, hi) => decide (lo ≤ k) && decide (k ≤ hi)
  | none => junk p k

/-- The point tasks of the CSR fill launch (`StencilGenerator.hpp` 494-522), one after the other: each has a piece of the
kernel region and the piece of the row-pointer region with the same colour. -/
def fillCSRPieces (sort : List (Point × E) → List (Point × E)) (o : IndexOrder) (b : Rect) (offsets : List (Point × E))
    (fuel : Nat) : List ((Int → Bool) × (Point → Bool)) → CSRState Point Point E → Option (CSRState Point Point E)
  | [], s => some s
  | D :: Ds, s =>
    match fillCSR sort o b offsets D.1 D.2 fuel s.col s.entry s.rowptr with
    | none => none
    | some s' => fillCSRPieces sort o b offsets fuel Ds s'

/-- The point tasks of the linearised CSR fill launch (`StencilGenerator.hpp` 607-635). -/
def fillLinCSRPieces (sort : List (Point × E) → List (Point × E)) (o : IndexOrder) (b : Rect) (offsets : List (Point × E))
    (fuel : Nat) : List (Dom1 × Dom1) → CSRState Int Int E → Option (CSRState Int Int E)
  | [], s => some s
  | D :: Ds, s =>
    match fillLinCSR sort o b offsets D.1 D.2 fuel s.col s.entry s.rowptr with
    | none => none
    | some s' => fillLinCSRPieces sort o b offsets fuel Ds s'

/-- `create_coo_stencil_matrix` (`StencilGenerator.hpp` 326-416); `pieces`: the pieces of the equal partition of the kernel
space, in the order their tasks run. -/
def createCOOStencil (sort : List (Point × E) → List (Point × E)) (o : IndexOrder) (b : Rect) (offsets : List (Point × E))
    (pieces : List (Int → Bool)) (fuel : Nat) (junk : COO Int Point E) : Option (COO Int Point E) :=
  (calculateStencilSize b offsets).bind fun size =>
  (fillCOOPieces sort o b offsets fuel pieces ⟨0, fun _ => none, fun _ => none, fun _ => none⟩).map fun s =>
    { kernel := indices size, row := stored s.row junk.row, col := stored s.col junk.col,
      entry := stored s.entry junk.entry }

/-- `create_csr_stencil_matrix` (`StencilGenerator.hpp` 419-530); `rows`: the points of the range space `bounds`. -/
def createCSRStencil (sort : List (Point × E) → List (Point × E)) (o : IndexOrder) (b : Rect) (offsets : List (Point × E))
    (rows : List Point) (pieces : List ((Int → Bool) × (Point → Bool))) (fuel : Nat) (junk : CSR Int Point E) :
    Option (CSR Int Point E) :=
  (calculateStencilSize b offsets).bind fun size =>
  (fillCSRPieces sort o b offsets fuel pieces ⟨0, fun _ => none, fun _ => none, fun _ => none⟩).map fun s =>
    { kernel := indices size, rows := rows, range := storedRange s.rowptr junk.range, col := stored s.col junk.col,
      entry := stored s.entry junk.entry }

/-- `create_linearized_csr_stencil_matrix` (`StencilGenerator.hpp` 533-643): range space `Rect<1>(0, volume - 1)`. -/
def createLinCSRStencil (sort : List (Point × E) → List (Point × E)) (o : IndexOrder) (b : Rect)
    (offsets : List (Point × E)) (pieces : List (Dom1 × Dom1)) (fuel : Nat) (junk : CSR Int Int E) :
    Option (CSR Int Int E) :=
  (calculateStencilSize b offsets).bind fun size =>
  (fillLinCSRPieces sort o b offsets fuel pieces ⟨0, fun _ => none, fun _ => none, fun _ => none⟩).map fun s =>
    { kernel := indices size, rows := indices (Rect.volume b), range := storedRange s.rowptr junk.range,
      col := stored s.col junk.col, entry := stored s.entry junk.entry }

/-- `coo_negative_laplacian_1d` (`ExampleSystems.cpp` 12-105); the entries, the literals -1.0 and 2.0, converted to the
entry type. -/
def createCOOLaplacian {V : Type} (ofInt : Int → V) (n : Int) (pieces : List (List Int)) (junk : COO Int Int V) :
    COO Int Int V :=
  let f := Verif.Laplacian.cooLaplacian pieces
  { kernel := indices (Verif.Laplacian.kernelSize n).toNat, row := stored f.row junk.row, col := stored f.col junk.col,
    entry := stored (fun k => (f.entry k).map ofInt) junk.entry }

/-- `csr_negative_laplacian_1d` (`ExampleSystems.cpp` 108-249); range space `Rect<1>(0, grid_size - 1)`. -/
def createCSRLaplacian {V : Type} (ofInt : Int → V) (n : Int) (pieces rowPieces : List (List Int)) (junk : CSR Int Int V) :
    CSR Int Int V :=
  let f := Verif.Laplacian.csrLaplacian n pieces rowPieces
  { kernel := indices (Verif.Laplacian.kernelSize n).toNat, rows := indices n.toNat,
    range := storedRange f.2 junk.range, col := stored f.1.col junk.col,
    entry := stored (fun k => (f.1.entry k).map ofInt) junk.entry }

end Verif.EndToEnd
