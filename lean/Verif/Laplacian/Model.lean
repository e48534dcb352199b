import Verif.Stencil.Fill
/-
Model of the example matrices, /repo/src/ExampleSystems.{hpp,cpp}.
Simplifications: coordinates are mathematical integers with C++ truncating division (`Int.tdiv`, `Int.tmod`); a piece of
a region is the list of its points in iteration order (`PointInDomainIterator`); a field is a partial map (`none`: not
written); entries are integers (the values -1 and 2 are exact in every entry type of the library).
-/
namespace Verif.Laplacian
open Verif.Stencil (write)

/-- `laplacian_2d_kernel_size`, ExampleSystems.hpp:33-42. -/
def laplacian2dKernelSize (height width : Int) : Int :=
  4 * 2 + (height - 2) * 2 * 3 + (width - 2) * 2 * 3 + (height - 2) * (width - 2) * 4 + width * height

/-- `kernel_size = 3 * grid_size - 2`, ExampleSystems.cpp:36 and 131; the kernel space is `[0, kernel_size - 1]`. -/
def kernelSize (n : Int) : Int := 3 * n - 2

/-- Row written at kernel index `k`, ExampleSystems.cpp:314-316. -/
def rowOf (k : Int) : Int := (k + 1).tdiv 3

/-- Column written at kernel index `k`, ExampleSystems.cpp:317-319 and 384-386. -/
def colOf (k : Int) : Int := k - 2 * (k + 1).tdiv 3

/-- Entry written at kernel index `k`: `(k % 3) ? -1.0 : +2.0`, ExampleSystems.cpp:320 and 387. -/
def entryOf (k : Int) : Int := if k.tmod 3 ≠ 0 then -1 else 2

/-- The three fields of the COO kernel region. -/
structure COOFields where
  row : Int → Option Int
  col : Int → Option Int
  entry : Int → Option Int

/-- `FillCOONegativeLaplacianTask::task_body` on one piece, ExampleSystems.cpp:260-325 (the loop is 311-321). -/
def fillCOOTask (piece : List Int) (f : COOFields) : COOFields :=
  piece.foldl (fun f k =>
    { row := write f.row k (rowOf k), col := write f.col k (colOf k), entry := write f.entry k (entryOf k) }) f

/-- The two fields of the CSR kernel region. -/
structure CSRFields where
  col : Int → Option Int
  entry : Int → Option Int

/-- `FillCSRNegativeLaplacianTask::task_body` on one piece, ExampleSystems.cpp:336-393 (the loop is 381-388). -/
def fillCSRTask (piece : List Int) (f : CSRFields) : CSRFields :=
  piece.foldl (fun f k => { col := write f.col k (colOf k), entry := write f.entry k (entryOf k) }) f

/-- Row range written for row `k` of an `n`-point grid, ExampleSystems.cpp:448-464. -/
def rowptrOf (n k : Int) : Int × Int :=
  if k = 0 then (0, 1) else if k = n - 1 then (3 * n - 4, 3 * n - 3) else (3 * k - 1, 3 * k + 1)

/-- `FillCSRNegativeLaplacianRowptrTask::task_body` on one piece, ExampleSystems.cpp:404-470. -/
def fillRowptrTask (n : Int) (piece : List Int) (f : Int → Option (Int × Int)) : Int → Option (Int × Int) :=
  piece.foldl (fun f k => write f k (rowptrOf n k)) f

/-- `coo_negative_laplacian_1d`, ExampleSystems.cpp:12-105: an index launch of the fill task over the pieces of the
kernel space (in the order in which the point tasks happen to run), on fresh fields. -/
def cooLaplacian (pieces : List (List Int)) : COOFields :=
  pieces.foldl (fun f piece => fillCOOTask piece f) ⟨fun _ => none, fun _ => none, fun _ => none⟩

/-- `csr_negative_laplacian_1d`, ExampleSystems.cpp:108-249: two index launches. -/
def csrLaplacian (n : Int) (pieces rowPieces : List (List Int)) : CSRFields × (Int → Option (Int × Int)) :=
  (pieces.foldl (fun f piece => fillCSRTask piece f) ⟨fun _ => none, fun _ => none⟩,
   rowPieces.foldl (fun f piece => fillRowptrTask n piece f) (fun _ => none))

end Verif.Laplacian
