/-!
# Library handles and streams on GPUs

Models `src/CUDAUtilities.cpp` 64-145 (the table of library contexts, one per processor, with handles of cuBLAS and cuSPARSE made on
first use), the way every GPU task uses it (`LinearAlgebraTasks.cu` 18-20, 63-65, 183-185, `CSRMatrixTasks.cu` 84-86,
`COOMatrixTasks.cu` 66-68: take the task's stream, get the handle, `SetStream`, then library calls) and `LoadCUDALibsTask`
(`CudaLibs.cu` 10-20, which gets both handles and calls nothing).

A processor runs one task at a time; tasks on different processors interleave step by step.  A handle belongs to the GPU on which
it was made (CUDA's contract); `cublasCreate` and `cusparseCreate` make a new handle and store it in the table in one step and do
not fail.
-/
namespace Verif.Cuda

/-- The libraries. -/
inductive Lib
  | blas
  | sparse
  deriving DecidableEq

/-- `CUDA_LIBRARY_CONTEXTS[proc.id & (LEGION_MAX_NUM_PROCS - 1)]` (`CUDAUtilities.cpp` 124-129). -/
def slot (maxProcs id : Nat) : Nat := id &&& (maxProcs - 1)

/-- Where the task running on a processor is; `st` is the task's stream. -/
inductive Pc
  | idle
  /-- before `if (handle == nullptr)` -/
  | check (l : Lib) (st : Nat)
  /-- before `Create(&handle)` -/
  | create (l : Lib) (st : Nat)
  /-- before `return handle` -/
  | ret (l : Lib) (st : Nat)
  /-- before `SetStream(handle, stream)` -/
  | setStream (l : Lib) (st h : Nat)
  /-- ready for library calls -/
  | ready (l : Lib) (st h : Nat)

/-- A library call: the processor and stream of the task, the handle passed and the stream this handle was set to at that moment. -/
structure Call where
  proc : Nat
  lib : Lib
  stream : Nat
  handle : Nat
  handleStream : Option Nat

/-- The table, the handles made so far (number `h` is `made[h]`: library and processor on which it was made), the stream of each
handle, where each processor is, which handles were returned to whom, and the library calls made. -/
structure State where
  table : Nat → Lib → Option Nat
  made : List (Lib × Nat)
  stream : Nat → Option Nat
  pc : Nat → Pc
  got : List (Nat × Lib × Nat)
  calls : List Call

/-- All pointers are null (`CUDAUtilities.hpp` 50-53). -/
def init : State := ⟨fun _ _ => none, [], fun _ => none, fun _ => .idle, [], []⟩

/-- `f` changed at `a`. -/
def upd {α β : Type} [DecidableEq α] (f : α → β) (a : α) (b : β) : α → β := fun x => if x = a then b else f x

/-- One step of the task on processor `p`; `gpu` are the processors of kind `TOC_PROC` (the assertion of `CUDAUtilities.cpp` 127). -/
inductive Step (maxProcs : Nat) (gpu : Nat → Prop) : State → State → Prop
  /-- a task begins, takes its stream and asks for a handle (`CUDAUtilities.cpp` 64-73, 132-145) -/
  | start (s : State) (p : Nat) (l : Lib) (st : Nat) : gpu p → s.pc p = .idle →
      Step maxProcs gpu s { s with pc := upd s.pc p (.check l st) }
  /-- `handle == nullptr` (`CUDAUtilities.cpp` 77, 85) -/
  | null (s : State) (p : Nat) (l : Lib) (st : Nat) : s.pc p = .check l st → s.table (slot maxProcs p) l = none →
      Step maxProcs gpu s { s with pc := upd s.pc p (.create l st) }
  | notNull (s : State) (p : Nat) (l : Lib) (st h : Nat) : s.pc p = .check l st → s.table (slot maxProcs p) l = some h →
      Step maxProcs gpu s { s with pc := upd s.pc p (.ret l st) }
  /-- `Create(&handle)` (`CUDAUtilities.cpp` 78, 86) -/
  | create (s : State) (p : Nat) (l : Lib) (st : Nat) : s.pc p = .create l st →
      Step maxProcs gpu s { s with
        table := upd s.table (slot maxProcs p) (upd (s.table (slot maxProcs p)) l (some s.made.length))
        made := s.made ++ [(l, p)]
        pc := upd s.pc p (.ret l st) }
  /-- `return handle` (`CUDAUtilities.cpp` 80, 88) -/
  | ret (s : State) (p : Nat) (l : Lib) (st h : Nat) : s.pc p = .ret l st → s.table (slot maxProcs p) l = some h →
      Step maxProcs gpu s { s with pc := upd s.pc p (.setStream l st h), got := (p, l, h) :: s.got }
  /-- `SetStream(handle, stream)` -/
  | setStream (s : State) (p : Nat) (l : Lib) (st h : Nat) : s.pc p = .setStream l st h →
      Step maxProcs gpu s { s with stream := upd s.stream h (some st), pc := upd s.pc p (.ready l st h) }
  /-- a library call with the handle -/
  | call (s : State) (p : Nat) (l : Lib) (st h : Nat) : s.pc p = .ready l st h →
      Step maxProcs gpu s { s with calls := ⟨p, l, st, h, s.stream h⟩ :: s.calls }
  /-- the task ends (also `LoadCUDALibsTask`, which only gets the handle, and tasks that return early) -/
  | finish (s : State) (p : Nat) (l : Lib) (st h : Nat) : s.pc p = .ready l st h ∨ s.pc p = .setStream l st h →
      Step maxProcs gpu s { s with pc := upd s.pc p .idle }

/-- Any number of steps. -/
inductive Steps (maxProcs : Nat) (gpu : Nat → Prop) : State → State → Prop
  | refl (s : State) : Steps maxProcs gpu s s
  | tail {s s' s'' : State} : Steps maxProcs gpu s s' → Step maxProcs gpu s' s'' → Steps maxProcs gpu s s''

end Verif.Cuda
