import Verif.Vector.Model

/-!
# COO and CSR matrices

Models `src/COOMatrix.cpp`, `src/COOMatrixTasks.cpp`, `src/CSRMatrix.cpp`, `src/CSRMatrixTasks.cpp`,
`src/AbstractMatrix.cpp`.

Simplifications: the matrix fields are constants, not memory cells (no task of the library writes them once the matrix
exists; they are filled before, see `Verif.Stencil`, `Verif.Laplacian`).  An index space is the list of its points in
iteration order; a partition is the list of its pieces, by colour.  Points of all dimensions share one type `P` (rows,
columns) and one type `K` (kernel).
-/
namespace Verif.Matrix
open Verif.Runtime Verif.Vector

variable {K P V : Type} [DecidableEq P] [DecidableEq K]

/-! ## Dependent partitioning (Legion's contract) -/

/-- `create_partition_by_preimage`: piece `c` has the points of `space` that `f` maps into piece `c` of `pieces`. -/
def byPreimage (space : List K) (f : K → P) (pieces : List (List P)) : List (List K) :=
  pieces.map fun pc => space.filter fun k => decide (f k ∈ pc)

/-- `create_partition_by_image`: piece `c` has the points of `space` that are images of points of piece `c`. -/
def byImage (space : List P) (f : K → P) (kpieces : List (List K)) : List (List P) :=
  kpieces.map fun kp => space.filter fun p => decide (p ∈ kp.map f)

/-- `create_partition_by_image_range`: piece `c` has the points of `space` that lie in the range of some point of piece
`c`. -/
def byImageRange (space : List K) (range : P → K → Bool) (pieces : List (List P)) : List (List K) :=
  pieces.map fun pc => space.filter fun k => pc.any fun p => range p k

/-- `create_partition_by_preimage_range`: piece `c` has the points of `space` whose range meets piece `c`. -/
def byPreimageRange (space : List P) (range : P → K → Bool) (kpieces : List (List K)) : List (List P) :=
  kpieces.map fun kp => space.filter fun p => kp.any fun k => range p k

/-! ## COO -/

/-- `COOMatrix` (`COOMatrix.hpp`): kernel points with fields row, col, entry. -/
structure COO (K P V : Type) where
  kernel : List K
  row : K → P
  col : K → P
  entry : K → V

/-- `create_kernel_partition_from_domain_partition` (`COOMatrix.cpp` 56-74). -/
def COO.kernelFromDomain (m : COO K P V) (pieces : List (List P)) : List (List K) := byPreimage m.kernel m.col pieces
/-- `create_kernel_partition_from_range_partition` (`COOMatrix.cpp` 77-95). -/
def COO.kernelFromRange (m : COO K P V) (pieces : List (List P)) : List (List K) := byPreimage m.kernel m.row pieces
/-- `create_domain_partition_from_kernel_partition` (`COOMatrix.cpp` 98-118). -/
def COO.domainFromKernel (m : COO K P V) (domainSpace : List P) (kp : List (List K)) : List (List P) :=
  byImage domainSpace m.col kp
/-- `create_range_partition_from_kernel_partition` (`COOMatrix.cpp` 121-141). -/
def COO.rangeFromKernel (m : COO K P V) (rangeSpace : List P) (kp : List (List K)) : List (List P) :=
  byImage rangeSpace m.row kp
/-- `AbstractMatrix::domain_partition_from_range_partition` (`AbstractMatrix.cpp` 8-17). -/
def COO.domainFromRange (m : COO K P V) (domainSpace : List P) (pieces : List (List P)) : List (List P) :=
  m.domainFromKernel domainSpace (m.kernelFromRange pieces)
/-- `AbstractMatrix::range_partition_from_domain_partition` (`AbstractMatrix.cpp` 20-29). -/
def COO.rangeFromDomain (m : COO K P V) (rangeSpace : List P) (pieces : List (List P)) : List (List P) :=
  m.rangeFromKernel rangeSpace (m.kernelFromDomain pieces)

/-- `output_writer[row] <<= entry * input_reader[col]` (`COOMatrixTasks.cpp` 71, `CSRMatrixTasks.cpp` 89). -/
def accumulate (A : Arith V) (dst src : Vec) (r c : P) (e : V) : Update (Cell P) V :=
  ⟨.elem dst.data r, fun s => A.add (s (.elem dst.data r)) (A.mul e (s (.elem src.data c)))⟩

/-- `COOMatvecTask::task_body` (`COOMatrixTasks.cpp` 10-75) for one colour: output piece READ_WRITE, ghost piece of the
input READ_ONLY (`COOMatrix.cpp` 169-188). -/
def cooTask (A : Arith V) (m : COO K P V) (dst src : Vec) (out : List P) (kp : List K) (inp : List P) :
    Task (Cell P) V where
  reads c := inPiece dst out c ∨ inPiece src inp c
  writes c := inPiece dst out c
  body := kp.filterMap fun k =>
    if m.col k ∈ inp ∧ m.row k ∈ out then some (accumulate A dst src (m.row k) (m.col k) (m.entry k)) else none

/-- `COOMatrix::matvec` (`COOMatrix.cpp` 144-191): one point task per colour of the destination. -/
def COO.matvec (A : Arith V) (E : Env P) (m : COO K P V) (dst src : Vec) (kpieces : List (List K))
    (ghost : List (List P)) : M P V Unit :=
  launch (List.zipWith (fun out ki => cooTask A m dst src out ki.1 ki.2) (E.pieces dst.part) (kpieces.zip ghost))

/-! ## CSR -/

/-- `CSRMatrix` (`CSRMatrix.hpp`): kernel points with fields col, entry; row points with a rectangle of kernel points
(`range p k`: the rectangle of row `p` contains `k`). -/
structure CSR (K P V : Type) where
  kernel : List K
  rows : List P
  range : P → K → Bool
  col : K → P
  entry : K → V

/-- `create_kernel_partition_from_domain_partition` (`CSRMatrix.cpp` 68-86). -/
def CSR.kernelFromDomain (m : CSR K P V) (pieces : List (List P)) : List (List K) := byPreimage m.kernel m.col pieces
/-- `create_kernel_partition_from_range_partition` (`CSRMatrix.cpp` 89-109). -/
def CSR.kernelFromRange (m : CSR K P V) (pieces : List (List P)) : List (List K) := byImageRange m.kernel m.range pieces
/-- `create_domain_partition_from_kernel_partition` (`CSRMatrix.cpp` 112-132). -/
def CSR.domainFromKernel (m : CSR K P V) (domainSpace : List P) (kp : List (List K)) : List (List P) :=
  byImage domainSpace m.col kp
/-- `create_range_partition_from_kernel_partition` (`CSRMatrix.cpp` 135-155); `none`: the assertion that the requested
space is the row space fails. -/
def CSR.rangeFromKernel (m : CSR K P V) (rangeSpace : List P) (kp : List (List K)) : Option (List (List P)) :=
  if rangeSpace = m.rows then some (byPreimageRange m.rows m.range kp) else none
/-- `AbstractMatrix.cpp` 8-17. -/
def CSR.domainFromRange (m : CSR K P V) (domainSpace : List P) (pieces : List (List P)) : List (List P) :=
  m.domainFromKernel domainSpace (m.kernelFromRange pieces)
/-- `AbstractMatrix.cpp` 20-29. -/
def CSR.rangeFromDomain (m : CSR K P V) (rangeSpace : List P) (pieces : List (List P)) : Option (List (List P)) :=
  m.rangeFromKernel rangeSpace (m.kernelFromDomain pieces)

/-- The row search (`CSRMatrixTasks.cpp` 74-85): the last row of the piece whose rectangle contains `k`. -/
def CSR.findRow (m : CSR K P V) (rowPts : List P) (k : K) : Option P :=
  rowPts.foldl (fun found p => if m.range p k then some p else found) none

/-- `CSRMatvecTask::task_body` (`CSRMatrixTasks.cpp` 10-92) for one colour; the row-pointer region is partitioned like the
output (`CSRMatrix.cpp` 190-199).  `none`: `assert(row_found)` fails (86). -/
def csrTask (A : Arith V) (m : CSR K P V) (dst src : Vec) (out : List P) (kp : List K) (inp : List P) :
    Option (Task (Cell P) V) :=
  if kp.all fun k => (m.findRow out k).isSome then
    some {
      reads := fun c => inPiece dst out c ∨ inPiece src inp c
      writes := fun c => inPiece dst out c
      body := kp.filterMap fun k =>
        match m.findRow out k with
        | some row => if m.col k ∈ inp ∧ row ∈ out then some (accumulate A dst src row (m.col k) (m.entry k)) else none
        | none => none }
  else none

/-- `CSRMatrix::matvec` (`CSRMatrix.cpp` 158-214).  (A task whose assertion fails aborts the program; the model aborts at
the launch.) -/
def CSR.matvec (A : Arith V) (E : Env P) (m : CSR K P V) (dst src : Vec) (kpieces : List (List K))
    (ghost : List (List P)) : M P V Unit := fun e =>
  ((List.zipWith (fun out ki => csrTask A m dst src out ki.1 ki.2) (E.pieces dst.part) (kpieces.zip ghost)).mapM id).bind
    fun ts => launch ts e

/-- The COO matrix with the same entries, given each entry's row. -/
def CSR.toCOO (m : CSR K P V) (row : K → P) : COO K P V := ⟨m.kernel, row, m.col, m.entry⟩

/-! The transposed products `COORmatvecTask`, `CSRRmatvecTask` (`COOMatrixTasks.cpp` 78-83, `CSRMatrixTasks.cpp` 95-100) are
`assert(false)`. -/

/-- Well-formed row pointers: a kernel point belongs to at most one row. -/
def CSR.RowsDisjoint (m : CSR K P V) : Prop :=
  ∀ k ∈ m.kernel, ∀ p q, p ∈ m.rows → q ∈ m.rows → m.range p k = true → m.range q k = true → p = q

end Verif.Matrix
