import Verif.Tasks.Model
import Verif.Matrix.Model
import Verif.Grid.Model
/-
Printing: `print_index_partition` with its task, and `print` of the two matrix formats with their tasks.

The text format is abstracted to records (one per printed line).  A dynamic check of Legion (the template arguments of an
iterator or accessor must be the type of the region, otherwise the runtime stops with an error) is outcome `none`.
-/
namespace Verif.Print
open Verif.Grid Verif.Tasks Verif.Matrix

/-- Dimension and coordinate type of an index space. -/
abbrev SpaceTy := Nat × IndexTy

/-- An index partition: type and points of the colour space, type of the partitioned space, the points of each piece in the
order Legion iterates over them. -/
structure Partition where
  colorTy : SpaceTy
  parentTy : SpaceTy
  colors : List Point
  piece : Point → List Point

/-- A line printed by `PrintIndexTask` (`UtilityTasks.cpp` 115, 121). -/
structure Line where
  name : Option (List UInt8)
  color : Point
  point : Point
deriving DecidableEq

/-- `name.c_str()` with `name.size() + 1` bytes (`LegionUtilities.cpp` 51). -/
def argBytes (name : List UInt8) : List UInt8 := name ++ [0]

/-- `std::string(reinterpret_cast<const char *>(args))`: the bytes before the first zero byte (`UtilityTasks.cpp` 118). -/
def cString (args : List UInt8) : List UInt8 := args.takeWhile (· ≠ 0)

/-- `PointInDomainIterator<DIM, COORD_T> iter(region)` (`UtilityTasks.cpp` 113, 119): the points of the region; a region of
another type is a dynamic type mismatch. -/
def iterate (iterTy regionTy : SpaceTy) (points : List Point) : Option (List Point) :=
  if iterTy = regionTy then some points else none

/-- `PrintIndexTask<DIM, COORD_T>::task_body` (`UtilityTasks.cpp` 102-126) for one colour. -/
def printIndexBody (ty : SpaceTy) (args : List UInt8) (color : Point) (regionTy : SpaceTy) (points : List Point) :
    Option (List Line) := do
  if args.length = 0 then
    let ps ← iterate ty regionTy points
    pure (ps.map fun p => ⟨none, color, p⟩)
  else
    let name := cString args
    let ps ← iterate ty regionTy points
    pure (ps.map fun p => ⟨some name, color, p⟩)

/-- The registered task with an identifier (`Initialize.cpp`). -/
def findTask (c : Config) (id : Nat) : Option Inst := c.registered.find? fun a => c.staticId a = some id

/-- `print_index_partition` (`LegionUtilities.cpp` 24-69): the number of pieces in the header line and the lines printed by each
point task, in the order of the colours.  The scratch region, its fill and its destruction are in `Verif.Ownership`. -/
def printIndexPartition (c : Config) (name : List UInt8) (P : Partition) : Option (Nat × List (List Line)) := do
  let id ← c.launchedId (.printPartition P.colorTy)
  match (← findTask c id) with
  | .printIndex n i => do
      let out ← P.colors.mapM fun col => printIndexBody (n, i) (argBytes name) col P.parentTy (P.piece col)
      pure (P.colors.length, out)
  | _ => none

/-- A line printed by `COOPrintTask`, `CSRPrintTask` (`COOMatrixTasks.cpp` 121-122, `CSRMatrixTasks.cpp` 151-152). -/
structure EntryLine (K P V : Type) where
  index : K
  entry : V
  row : P
  col : P

variable {K P V : Type}

/-- `COOPrintTask::task_body`, the loop (`COOMatrixTasks.cpp` 117-123). -/
def cooPrint (m : COO K P V) : List (EntryLine K P V) := m.kernel.map fun k => ⟨k, m.entry k, m.row k, m.col k⟩

/-- `CSRPrintTask::task_body`, the loops (`CSRMatrixTasks.cpp` 135-153): for every stored entry all rows are searched, the last
one whose range contains the entry is printed; `none` is the assertion that some row was found. -/
def csrPrint (m : CSR K P V) : Option (List (EntryLine K P V)) :=
  m.kernel.mapM fun k => (m.findRow m.rows k).map fun row => ⟨k, m.entry k, row, m.col k⟩

/-- `COOMatrix::print` (`COOMatrix.cpp` 194-217) and `CSRMatrix::print` (`CSRMatrix.cpp` 217-243) called with an index space of type
`space`: the task is chosen by the types of the kernel space and of the given space (used for rows and for columns), its body
iterates over the kernel region (and, for CSR, the row region), which must have the types of the task's template arguments.
`rowTy` and `colTy` are the types of the stored row and column points (for CSR `rowTy` is the type of the row region); Legion's check
of the field sizes is sharpened to equality of the types.  `body` is `cooPrint` or `csrPrint`. -/
def printMatrix {α : Type} (c : Config) (csr : Bool) (t : EntryTy) (kernelTy rowTy colTy space : SpaceTy) (body : Option α) : Option α := do
  let id ← c.launchedId (.printMatrix csr t kernelTy space)
  match (← findTask c id) with
  | .mat k t' n₁ n₂ n₃ i₁ i₂ i₃ =>
      if k = (if csr then MatTask.csrPrint else .cooPrint) ∧ t' = t ∧ (n₁, i₁) = kernelTy ∧ (n₂, i₂) = colTy ∧ (n₃, i₃) = rowTy
      then body else none
  | _ => none

end Verif.Print
