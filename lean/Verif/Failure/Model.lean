import Mathlib.Data.List.Basic
import Mathlib.Tactic.Basic

/-!
# C97: GPU tasks and failures reported by CUDA

Models the use of CUDA, cuBLAS and cuSPARSE by the GPU variants of the tasks: `src/CUDAUtilities.hpp` 18-41, 73-97, 111-120,
`src/CUDAUtilities.cpp` 13-61 (what is done with the status of a call), 76-89 (handles made on first use), 108-121 (the destructor of a
stream view), `src/LinearAlgebraTasks.cu` 14-238, `src/CSRMatrixTasks.cu` 15-156, `src/COOMatrixTasks.cu` 13-146,
`src/CuSPARSEHelpers.hpp` 50-201 and `src/CudaLibs.cu` 10-20.

Simplifications: one GPU; the assertions about regions and domains, accessors and buffers made by Legion (`DeferredBuffer`) are left out;
what the calls compute is C52's subject, which handle is used C63's.  An assertion that fails in a debug build ends the program.
A library call that reports success has put its work on the task's stream; one that reports a failure has put nothing there.
-/
namespace Verif.Failure

/-- `NDEBUG` not defined, or defined. -/
inductive Build
  | debug
  | release
  deriving DecidableEq

/-- Who reports a status. -/
inductive Lib
  | cuda
  | blas
  | sparse
  deriving DecidableEq

/-- `__FILE__` (without directory) and `__LINE__`. -/
structure Site where
  file : String
  line : Nat
  deriving DecidableEq

/-- A checked call and the status it returned; also the contents of the line printed by `check_cuda`, `check_cublas`, `check_cusparse`. -/
structure Call where
  lib : Lib
  status : Nat
  site : Site
  deriving DecidableEq

/-- What becomes of a piece of work for the GPU: done, not even started (bad launch), or failed while running. -/
inductive Outcome
  | ok
  | refused
  | failed
  deriving DecidableEq

/-- The variable `result` of the inner product: as initialised, the inner product, or anything. -/
inductive Value
  | zero
  | dot
  | unknown
  deriving DecidableEq

/-- The build, what CUDA will do (status of the n-th checked call, what becomes of the n-th piece of work), the checked calls made, the
lines printed to `stderr`, the work launched so far, that not known to be finished (with: does it write `result`?), CUDA's last error, the handles
made, the descriptors in existence and made, whether a descriptor that does not exist was used, and `result`. -/
structure World where
  build : Build
  status : Nat → Nat
  outcome : Nat → Outcome
  calls : List Call
  lines : List Call
  launched : Nat
  pending : List (Nat × Bool)
  lastError : Bool
  handles : Lib → Bool
  live : List Nat
  made : Nat
  misused : Bool
  result : Value

/-- Part of a task: a result and the world afterwards; `none`: the program was ended by an assertion. -/
def G (α : Type) : Type := World → Option α × World

instance : Monad G where
  pure a := fun w => (some a, w)
  bind m f := fun w =>
    match m w with
    | (none, w') => (none, w')
    | (some a, w') => f a w'

/-- A change of the world that cannot fail. -/
def act (f : World → World) : G Unit := fun w => (some (), f w)

/-- What is known about the world. -/
def look {α : Type} (f : World → α) : G α := fun w => (some (f w), w)

/-- A call in one of the macros `CHECK_CUDA`, `CHECK_CUBLAS`, `CHECK_CUSPARSE` (`CUDAUtilities.hpp` 24-41) with the function it passes the status
to (`CUDAUtilities.cpp` 13-61).  `must`: the status of a call that cannot succeed, otherwise 0. -/
def call (lib : Lib) (site : Site) (must : Nat) : G Nat := fun w =>
  let st := if w.status w.calls.length = 0 then must else w.status w.calls.length
  let w := { w with calls := w.calls ++ [(⟨lib, st, site⟩ : Call)] }
  if st = 0 then (some 0, w)
  else
    let w := { w with lines := w.lines ++ [(⟨lib, st, site⟩ : Call)] }
    match w.build with
    | .debug => (none, w)
    | .release => (some st, w)

/-- `CHECK_CUDA(cudaStreamSynchronize(stream))`: waits for the work on the stream; its status is not 0 if some of that failed
(719: `cudaErrorLaunchFailure`). -/
def sync (site : Site) : G Unit := fun w =>
  (do let _ ← call .cuda site (if w.pending.any fun p => decide (w.outcome p.1 ≠ Outcome.ok) then 719 else 0)
      pure ())
    { w with pending := [], result := if w.pending.any fun p => p.2 && decide (w.outcome p.1 = Outcome.ok) then .dot else w.result }

/-- `CHECK_CUDA(cudaPeekAtLastError())` (98: `cudaErrorInvalidDeviceFunction`, a launch that was refused). -/
def peek (site : Site) : G Unit := fun w =>
  (do let _ ← call .cuda site (if w.lastError then 98 else 0)
      pure ()) w

/-- The destructor of a stream view (`CUDAUtilities.cpp` 110-121, `CHECK_CUDA_STREAM` of `CUDAUtilities.hpp` 30-34). -/
def endView : G Unit := do
  match ← look World.build with
  | .debug => sync ⟨"CUDAUtilities.cpp", 115⟩; peek ⟨"CUDAUtilities.cpp", 115⟩
  | .release => pure ()

/-- Where a handle is made. -/
def handleSite : Lib → Site
  | .blas => ⟨"CUDAUtilities.cpp", 80⟩
  | _ => ⟨"CUDAUtilities.cpp", 88⟩

/-- `get_cublas_handle`, `get_cusparse_handle` (`CUDAUtilities.cpp` 76-89): does the handle exist afterwards? -/
def getHandle (l : Lib) : G Bool := do
  if ← look (World.handles · l) then pure true
  else
    let st ← call l (handleSite l) 0
    if st = 0 then act (fun w => { w with handles := fun l' => if l' = l then true else w.handles l' })
    look (World.handles · l)

/-- `SetStream`: fails for a null handle. -/
def setStream (l : Lib) (handle : Bool) (site : Site) : G Unit := do
  let _ ← call l site (if handle then 0 else 1)

/-- A descriptor is passed to a call. -/
def use (d : Option Nat) : G Unit := act fun w => { w with misused := w.misused || !(d.any fun n => w.live.contains n) }

/-- A library call that puts work on the stream. -/
def work (l : Lib) (handle : Bool) (site : Site) (writes : Bool) : G Unit := do
  let st ← call l site (if handle then 0 else 1)
  act fun w => if st = 0 then { w with launched := w.launched + 1, pending := w.pending ++ [(w.launched, writes)] } else w

/-- A kernel launch `<<<...>>>`; nothing is checked. -/
def launch : G Unit := act fun w =>
  if w.outcome w.launched = .refused then { w with launched := w.launched + 1, lastError := true }
  else { w with launched := w.launched + 1, pending := w.pending ++ [(w.launched, false)] }

/-- `CHECK_CUSPARSE(cusparseCreate...(&descr, ...)); return descr;`: undefined if the call failed. -/
def create (site : Site) : G (Option Nat) := do
  let st ← call .sparse site 0
  if st = 0 then
    let d ← look World.made
    act fun w => { w with made := w.made + 1, live := w.live ++ [d] }
    pure (some d)
  else pure none

/-- `CHECK_CUSPARSE(cusparseDestroy...(descr))`. -/
def destroy (d : Option Nat) (site : Site) : G Unit := do
  use d
  let st ← call .sparse site 0
  act fun w => if st = 0 then { w with live := w.live.filter fun n => some n ≠ d } else w

/-- `float` or `double`. -/
inductive Entry
  | f32
  | f64
  deriving DecidableEq

/-- `ScalTask::cuda_task_body` (`LinearAlgebraTasks.cu` 15-56) and `cublas_scal` (`CUDAUtilities.hpp` 119-120). -/
def scal (e : Entry) (empty : Bool) : G Unit := do
  let h ← getHandle .blas
  setStream .blas h ⟨"LinearAlgebraTasks.cu", 20⟩
  if empty then endView
  else
    work .blas h ⟨"CUDAUtilities.hpp", match e with | .f32 => 119 | .f64 => 120⟩ false
    endView

/-- `AxpyTask::cuda_task_body` (`LinearAlgebraTasks.cu` 59-114) and `cublas_axpy` (`CUDAUtilities.hpp` 111-112). -/
def axpy (e : Entry) (empty : Bool) : G Unit := do
  let h ← getHandle .blas
  setStream .blas h ⟨"LinearAlgebraTasks.cu", 65⟩
  if empty then endView
  else
    work .blas h ⟨"CUDAUtilities.hpp", match e with | .f32 => 111 | .f64 => 112⟩ false
    endView

/-- `XpayTask::cuda_task_body` (`LinearAlgebraTasks.cu` 135-176): the view is made after the empty case. -/
def xpay (empty : Bool) : G Unit := do
  if empty then pure ()
  else
    launch
    endView

/-- `DotTask::cuda_task_body` (`LinearAlgebraTasks.cu` 180-238) and `cublas_dot` (`CUDAUtilities.hpp` 115-116): the value returned.  The
view is destroyed after the value has been taken. -/
def dot (e : Entry) (empty : Bool) : G Value := do
  let h ← getHandle .blas
  setStream .blas h ⟨"LinearAlgebraTasks.cu", 185⟩
  act fun w => { w with result := .zero }
  if empty then
    let r ← look World.result
    endView
    pure r
  else
    act fun w => { w with result := .unknown }
    work .blas h ⟨"CUDAUtilities.hpp", match e with | .f32 => 115 | .f64 => 116⟩ true
    sync ⟨"LinearAlgebraTasks.cu", 235⟩
    let r ← look World.result
    endView
    pure r

/-- `CSRMatvecTask::cuda_task_body` (`CSRMatrixTasks.cu` 15-156) with `makeCuSparseCSR`, `makeShiftedCuSparseDnVec`, `makeCuSparseDnVec`
(`CuSPARSEHelpers.hpp` 50-101, 163-201): no view is made if there are no rows. -/
def csrMatvec (noRows : Bool) : G Unit := do
  if noRows then pure ()
  else
    let h ← getHandle .sparse
    setStream .sparse h ⟨"CSRMatrixTasks.cu", 86⟩
    launch
    let a ← create ⟨"CuSPARSEHelpers.hpp", 84⟩
    let x ← create ⟨"CuSPARSEHelpers.hpp", 192⟩
    let y ← create ⟨"CuSPARSEHelpers.hpp", 166⟩
    use a
    use x
    use y
    let _ ← call .sparse ⟨"CSRMatrixTasks.cu", 120⟩ (if h then 0 else 1)
    use a
    use x
    use y
    work .sparse h ⟨"CSRMatrixTasks.cu", 139⟩ false
    destroy x ⟨"CSRMatrixTasks.cu", 153⟩
    destroy y ⟨"CSRMatrixTasks.cu", 154⟩
    destroy a ⟨"CSRMatrixTasks.cu", 155⟩
    endView

/-- `COOMatvecTask::cuda_task_body` (`COOMatrixTasks.cu` 13-146) with `makeCuSparseCOO` and `makeShiftedCuSparseDnVec`
(`CuSPARSEHelpers.hpp` 105-155, 186-201). -/
def cooMatvec (noEntries : Bool) : G Unit := do
  let h ← getHandle .sparse
  setStream .sparse h ⟨"COOMatrixTasks.cu", 68⟩
  if noEntries then endView
  else
    let a ← create ⟨"CuSPARSEHelpers.hpp", 142⟩
    let x ← create ⟨"CuSPARSEHelpers.hpp", 192⟩
    let y ← create ⟨"CuSPARSEHelpers.hpp", 192⟩
    use a
    use x
    use y
    let _ ← call .sparse ⟨"COOMatrixTasks.cu", 110⟩ (if h then 0 else 1)
    use a
    use x
    use y
    work .sparse h ⟨"COOMatrixTasks.cu", 129⟩ false
    destroy x ⟨"COOMatrixTasks.cu", 143⟩
    destroy y ⟨"COOMatrixTasks.cu", 144⟩
    destroy a ⟨"COOMatrixTasks.cu", 145⟩
    endView

/-- `LoadCUDALibsTask::task_body` (`CudaLibs.cu` 11-20): the view is destroyed at the end of the first statement. -/
def loadLibs : G Unit := do
  endView
  let _ ← getHandle .blas
  let _ ← getHandle .sparse

/-- The GPU variants that do something (`CSRRmatvecTask` and `COORmatvecTask` only contain `assert(false)`). -/
inductive Task
  | scal (e : Entry) (empty : Bool)
  | axpy (e : Entry) (empty : Bool)
  | xpay (empty : Bool)
  | dot (e : Entry) (empty : Bool)
  | csrMatvec (noRows : Bool)
  | cooMatvec (noEntries : Bool)
  | loadLibs

/-- The value a task delivers (`none`: a task without value). -/
def Task.body : Task → G (Option Value)
  | scal e b => do Failure.scal e b; pure none
  | axpy e b => do Failure.axpy e b; pure none
  | xpay b => do Failure.xpay b; pure none
  | dot e b => do pure (some (← Failure.dot e b))
  | csrMatvec b => do Failure.csrMatvec b; pure none
  | cooMatvec b => do Failure.cooMatvec b; pure none
  | loadLibs => do Failure.loadLibs; pure none

/-- Tasks one after the other on a GPU: the values delivered. -/
def runAll : List Task → G (List (Option Value))
  | [] => pure []
  | t :: ts => do
    let v ← t.body
    let vs ← runAll ts
    pure (v :: vs)

end Verif.Failure
