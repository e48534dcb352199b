import Verif.Machine.Model

/-!
# Vector operations on the GPU through cuBLAS

Models `ScalTask::cuda_task_body`, `AxpyTask::cuda_task_body`, `DotTask::cuda_task_body` (`src/LinearAlgebraTasks.cu` 15-53,
56-107, 179-240) and the `cublas_*` wrappers of `src/CUDAUtilities.hpp` 104-117.  (`XpayTask` uses accessors, not cuBLAS: it is
in `Verif.Gpu`.)

A vector piece lives in a physical instance: memory for the points of a rectangle that contains the piece (Legion may give a
task an instance larger than its piece), laid out in row-major or column-major order.  The accessor's `ptr(point)` is the
address of one element; cuBLAS is given that address for the piece's lower corner, and a number of elements.

Simplifications: addresses count elements; one field per instance (the layout the default mapper chooses, structure of
arrays); cuBLAS follows its documentation (the reference BLAS loops, nothing for `n ≤ 0`) with the element operations as
parameters.
-/
namespace Verif.Blas
open Verif.Grid

/-- A physical instance: the rectangle it holds, its dimension order and the address of its first element. -/
structure Inst where
  bounds : Rect
  order : IndexOrder
  base : Int

/-- `accessor.ptr(point)` (Legion): the address of the element. -/
def Inst.ptr (I : Inst) (p : Point) : Int := I.base + linearize I.order I.bounds p

/-- Assignment of one memory cell. -/
def store {E : Type} (mem : Int → E) (a : Int) (v : E) : Int → E := fun b => if b = a then v else mem b

/-- The conversion of `x_domain.get_volume()` (`size_t`) to the wrappers' parameter `int n` (`CUDAUtilities.hpp` 107-117). -/
def intArg (volume : Nat) : Int := Verif.Machine.int32.conv volume

/-- `cublasSscal`/`cublasDscal`: `x[i * incx] = alpha * x[i * incx]` for `0 ≤ i < n`. -/
def cublasScal {E : Type} (mul : E → E → E) (n : Int) (alpha : E) (x incx : Int) (mem : Int → E) : Int → E :=
  (List.range n.toNat).foldl (fun m (i : Nat) => store m (x + i * incx) (mul alpha (m (x + i * incx)))) mem

/-- `cublasSaxpy`/`cublasDaxpy`: `y[i * incy] = alpha * x[i * incx] + y[i * incy]` for `0 ≤ i < n`; `fma a b c` is the
element operation `a * b + c`. -/
def cublasAxpy {E : Type} (fma : E → E → E → E) (n : Int) (alpha : E) (x incx y incy : Int) (mem : Int → E) : Int → E :=
  (List.range n.toNat).foldl (fun m (i : Nat) => store m (y + i * incy) (fma alpha (m (x + i * incx)) (m (y + i * incy)))) mem

/-- `cublasSdot`/`cublasDdot`: the sum of `x[i * incx] * y[i * incy]` for `0 ≤ i < n`, added up in some order (given by the
list `order`, a permutation of `0 .. n-1`). -/
def cublasDot {E : Type} (zero : E) (add mul : E → E → E) (order : List Nat) (x incx y incy : Int) (mem : Int → E) : E :=
  order.foldl (fun s (i : Nat) => add s (mul (mem (x + i * incx)) (mem (y + i * incy)))) zero

/-- `ScalTask::cuda_task_body` (`LinearAlgebraTasks.cu` 15-53) on the piece `P` in instance `I`; the assertion
`x_domain.dense()` is the fact that the piece is a rectangle. -/
def scalGpu {E : Type} (mul : E → E → E) (alpha : E) (I : Inst) (P : Rect) (mem : Int → E) : Int → E :=
  if Rect.volume P = 0 then mem
  else cublasScal mul (intArg (Rect.volume P)) alpha (I.ptr (Rect.lo P)) 1 mem

/-- `AxpyTask::cuda_task_body` (`LinearAlgebraTasks.cu` 56-107); the domains of `y` and `x` agree (assertion, line 89). -/
def axpyGpu {E : Type} (fma : E → E → E → E) (alpha : E) (Y X : Inst) (P : Rect) (mem : Int → E) : Int → E :=
  if Rect.volume P = 0 then mem
  else cublasAxpy fma (intArg (Rect.volume P)) alpha (X.ptr (Rect.lo P)) 1 (Y.ptr (Rect.lo P)) 1 mem

/-- `DotTask::cuda_task_body` (`LinearAlgebraTasks.cu` 179-240): `order` is the order in which cuBLAS adds. -/
def dotGpu {E : Type} (zero : E) (add mul : E → E → E) (order : Int → List Nat) (V W : Inst) (P : Rect) (mem : Int → E) : E :=
  if Rect.volume P = 0 then zero
  else cublasDot zero add mul (order (intArg (Rect.volume P))) (V.ptr (Rect.lo P)) 1 (W.ptr (Rect.lo P)) 1 mem

/-- `ScalTask::task_body` (`LinearAlgebraTasks.cpp` 13-44) on the same instance; `pts`: the points of the piece in the order
the two nested Legion iterators give them. -/
def scalCpu {E : Type} (mul : E → E → E) (alpha : E) (I : Inst) (pts : List Point) (mem : Int → E) : Int → E :=
  pts.foldl (fun m p => store m (I.ptr p) (mul alpha (m (I.ptr p)))) mem

/-- `AxpyTask::task_body` (`LinearAlgebraTasks.cpp` 47-88). -/
def axpyCpu {E : Type} (fma : E → E → E → E) (alpha : E) (Y X : Inst) (pts : List Point) (mem : Int → E) : Int → E :=
  pts.foldl (fun m p => store m (Y.ptr p) (fma alpha (m (X.ptr p)) (m (Y.ptr p)))) mem

/-- `DotTask::task_body` (`LinearAlgebraTasks.cpp` 135-174). -/
def dotCpu {E : Type} (zero : E) (add mul : E → E → E) (V W : Inst) (pts : List Point) (mem : Int → E) : E :=
  pts.foldl (fun s p => add s (mul (mem (V.ptr p)) (mem (W.ptr p)))) zero

end Verif.Blas
