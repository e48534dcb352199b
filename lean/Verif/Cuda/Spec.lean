import Verif.Cuda.Model

/-! # What a user of several GPUs relies on -/
namespace Verif.Cuda

/-- Every library call is made with a handle of that library made on the GPU of the calling task, and runs on the task's stream. -/
def CallsRight (s : State) : Prop :=
  ∀ c ∈ s.calls, s.made[c.handle]? = some (c.lib, c.proc) ∧ c.handleStream = some c.stream

/-- No GPU makes two handles of a library: nothing is lost, and all requests on a GPU get the same handle. -/
def MadeOnce (s : State) : Prop :=
  s.made.Nodup ∧ ∀ p l h h', (p, l, h) ∈ s.got → (p, l, h') ∈ s.got → h = h'

/-- Different GPUs have different entries of the table. -/
def OwnSlots (maxProcs : Nat) (gpu : Nat → Prop) : Prop := ∀ p q, gpu p → gpu q → slot maxProcs p = slot maxProcs q → p = q

/-- Every GPU has got both handles (what `loadCUDALibs` is for, `CudaLibs.cu` 39-66). -/
def Loaded (gpu : Nat → Prop) (s : State) : Prop := ∀ p, gpu p → ∀ l, ∃ h, (p, l, h) ∈ s.got

end Verif.Cuda
