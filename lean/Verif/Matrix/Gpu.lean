import Verif.Matrix.Model
import Mathlib.Algebra.Field.Defs
import Mathlib.Algebra.BigOperators.Group.List.Defs

/-!
# GPU matrix-vector products (cuSPARSE)

Models `src/CuSPARSEHelpers.hpp`, `CSRMatvecTask::cuda_task_body` (`src/CSRMatrixTasks.cu` 14-156) and
`COOMatvecTask::cuda_task_body` (`src/COOMatrixTasks.cu` 13-146): one point task.  Everything is one-dimensional (the code
asserts it).  cuSPARSE itself is modelled by its documented contract `y := alpha * A * x + beta * y` in exact arithmetic.
Coordinates are mathematical integers; a field's memory is a function of the coordinate, an array starting at a pointer is
that function shifted.
-/
namespace Verif.Matrix

/-- Row pointer rectangles `[lo p, hi p]` of kernel coordinates, and the kernel fields, by coordinate. -/
structure Csr1 (V : Type) where
  lo : Int → Int
  hi : Int → Int
  col : Int → Int
  entry : Int → V

/-- `convertGlobalRowptrToLocalIndPtr` (`CuSPARSEHelpers.hpp` 9-31): thread `idx < rows` writes `indptr[idx]`, thread 0 also
`indptr[rows]`; `first` is the first row of the piece. -/
def indptr {V : Type} (m : Csr1 V) (rows : Nat) (first : Int) (idx : Nat) : Int :=
  if idx = rows then m.hi ((rows : Int) - 1 + first) + 1 - m.lo first else m.lo (idx + first) - m.lo first

/-- `cusparseSpMV` on a CSR matrix with zero-based local row pointer array: value of `y[i]` afterwards. -/
def spmvCsr {V : Type} [Field V] (alpha beta : V) (ptr : Nat → Int) (cols : Int → Int) (vals : Int → V) (x : Int → V)
    (y : V) (i : Nat) : V :=
  alpha * ((List.range (ptr (i + 1) - ptr i).toNat).map fun (j : Nat) =>
    vals (ptr i + (j : Int)) * x (cols (ptr i + (j : Int)))).sum + beta * y

/-- `CSRMatvecTask::cuda_task_body` (`CSRMatrixTasks.cu` 14-156): the value of output element `p` afterwards, for a piece
with rows `first … first + rows - 1`; `kLo` is the lower bound of the kernel piece, where the column and entry arrays start;
the input vector is shifted so that index = coordinate.  `alpha = 1`, `beta = 0` (lines 117-118).  Zero rows: return (65). -/
def gpuCsr {V : Type} [Field V] (m : Csr1 V) (rows : Nat) (first kLo : Int) (x y : Int → V) (p : Int) : V :=
  if first ≤ p ∧ p < first + rows then
    spmvCsr 1 0 (indptr m rows first) (fun j => m.col (kLo + j)) (fun j => m.entry (kLo + j)) x (y p) (p - first).toNat
  else y p

/-- `COOMatvecTask::cuda_task_body` (`COOMatrixTasks.cu` 13-146): the value of output element `p` afterwards; `kp` is the
kernel piece (its points), `kLo` its lower bound; the arrays given to cuSPARSE are the `kp.length` (= volume) consecutive
elements starting at `kLo`.  `alpha = 1`, `beta = 1` (lines 101-108).  Empty kernel piece: return (72). -/
def gpuCoo {V : Type} [Field V] (m : COO Int Int V) (kp : List Int) (kLo : Int) (x y : Int → V) (p : Int) : V :=
  if kp = [] then y p
  else 1 * (((List.range kp.length).filter fun (j : Nat) => decide (m.row (kLo + (j : Int)) = p)).map fun (j : Nat) =>
    m.entry (kLo + (j : Int)) * x (m.col (kLo + (j : Int)))).sum + 1 * y p

end Verif.Matrix
