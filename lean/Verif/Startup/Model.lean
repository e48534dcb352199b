import Verif.Driver.Model
import Verif.Tasks.Model

/-!
# Start-up

Models `LegionSolvers::initialize` (`Initialize.cpp` 20-487): the information it prints, the task variants it registers with their names and
identifiers, in the order of the source, and the line it prints for each of them in verbose mode.  Text is modelled byte for byte, a line
without its final `std::endl`.  Not modelled: the registration of the mapper and of the sharding functor (`Initialize.cpp` 68-75), what Legion does
with a registered variant.
-/
set_option linter.dupNamespace false
namespace Verif.Startup
open Verif.Tasks Verif.Driver Verif.Programs

/-- A build: the library's options and the two macros of Legion and Realm that `Initialize.cpp` 25-35 and `TaskBaseClasses.hpp` 211, 304 look at
(`LEGION_USE_CUDA`, `REALM_USE_KOKKOS`). -/
structure Build where
  cfg : Config
  cuda : Bool
  kokkos : Bool

/-! ## Names -/

/-- `ToString<float>`, `ToString<double>` (`MetaprogrammingUtilities.hpp` 25-33). -/
def entryText : EntryTy → Text
  | .float => bytes "float"
  | .double => bytes "double"

/-- `ToString<int>`, `ToString<unsigned>`, `ToString<long long>` (`MetaprogrammingUtilities.hpp` 40-53). -/
def indexText : IndexTy → Text
  | .int => bytes "int"
  | .unsigned => bytes "unsigned"
  | .longlong => bytes "longlong"

/-- `task_base_name` of the scalar tasks (`UtilityTasks.hpp` 16, 25, 35, 45, 55, 65, 75, 85, 94). -/
def scalarBase : ScalarTask → Text
  | .print => bytes "print_scalar"
  | .negate => bytes "negate_scalar"
  | .add => bytes "add_scalar"
  | .subtract => bytes "subtract_scalar"
  | .multiply => bytes "multiply_scalar"
  | .divide => bytes "divide_scalar"
  | .sqrt => bytes "sqrt_scalar"
  | .rsqrt => bytes "rsqrt_scalar"
  | .dummy => bytes "dummy"

/-- `PrintIndexTask::task_base_name` (`UtilityTasks.hpp` 104). -/
def printIndexBase : Text := bytes "print_index"

/-- `task_base_name` of the element-wise tasks (`UtilityTasks.hpp` 117, `LinearAlgebraTasks.hpp` 14, 25, 36, 47, `StencilGenerator.hpp` 37, 65, 92,
120). -/
def vecBase : VecTask → Text
  | .randomFill => bytes "random_fill"
  | .scal => bytes "scal"
  | .axpy => bytes "axpy"
  | .xpay => bytes "xpay"
  | .dot => bytes "dot_product"
  | .fillCoo => bytes "fill_coo_stencil"
  | .fillCsr => bytes "fill_csr_stencil"
  | .fillLinCoo => bytes "fill_linearized_coo_stencil"
  | .fillLinCsr => bytes "fill_linearized_csr_stencil"

/-- `task_base_name` of the matrix tasks (`COOMatrixTasks.hpp` 16, 34, 52, `CSRMatrixTasks.hpp` 16, 33, 50, `ExampleSystems.hpp` 65, 102, 138-139). -/
def matBase : MatTask → Text
  | .cooMatvec => bytes "coo_matvec"
  | .cooRmatvec => bytes "coo_rmatvec"
  | .cooPrint => bytes "coo_print"
  | .csrMatvec => bytes "csr_matvec"
  | .csrRmatvec => bytes "csr_rmatvec"
  | .csrPrint => bytes "csr_print"
  | .cooLaplacian => bytes "fill_coo_negative_laplacian"
  | .csrLaplacian => bytes "fill_csr_negative_laplacian"
  | .csrLaplacianRowptr => bytes "fill_csr_negative_laplacian_rowptr"

/-- `task_name()` (`TaskBaseClasses.hpp` 105-108, 138-141, 194-198, 284-291); 95 is `'_'`, `std::to_string` writes decimal.  The three dimensions
of a matrix task are written without separators. -/
def taskName : Inst → Text
  | .scalar k t => scalarBase k ++ 95 :: entryText t
  | .printIndex n i => printIndexBase ++ 95 :: showNat n ++ 95 :: indexText i
  | .vec k t n i => vecBase k ++ 95 :: entryText t ++ 95 :: showNat n ++ 95 :: indexText i
  | .mat k t n₁ n₂ n₃ i₁ i₂ i₃ =>
      matBase k ++ 95 :: entryText t ++ 95 :: (showNat n₁ ++ showNat n₂ ++ showNat n₃) ++ 95 :: indexText i₁ ++ 95 :: indexText i₂ ++ 95 :: indexText i₃

/-- `LoadCUDALibsTask::task_name` (`CudaLibs.hpp` 37). -/
def loadCudaLibsName : Text := bytes "load_cuda_libs"

/-! ## Variants -/

/-- The two kinds of processors that variants are registered for: `LOC_PROC`, `TOC_PROC`. -/
inductive Proc | loc | toc
deriving DecidableEq, Repr

/-- What a variant is a variant of. -/
inductive Task
  | inst (a : Inst)
  | loadCudaLibs
deriving DecidableEq

/-- One call of `Runtime::preregister_task_variant`: the code, the identifier and name in the registrar, the processor constraint and the options
(`LegionUtilities.hpp` 191-206, `CudaLibs.cu` 29-36). -/
structure Variant where
  task : Task
  id : Nat
  name : Text
  proc : Proc
  options : Registrar
deriving DecidableEq

/-- `HasCUDAVariant<TaskClass<…>>::value` (`MetaprogrammingUtilities.hpp` 123-143): the class declares `cuda_task_body`
(`LEGION_SOLVERS_DECLARE_CUDA_TASK` in `LinearAlgebraTasks.hpp` 18, 29, 40, 51, `COOMatrixTasks.hpp` 25, 43, `CSRMatrixTasks.hpp` 24, 41).  Only the two
larger base classes look at it. -/
def hasCudaBody : Inst → Bool
  | .vec .scal _ _ _ | .vec .axpy _ _ _ | .vec .xpay _ _ _ | .vec .dot _ _ _ => true
  | .mat .cooMatvec _ _ _ _ _ _ _ | .mat .cooRmatvec _ _ _ _ _ _ _ | .mat .csrMatvec _ _ _ _ _ _ _ | .mat .csrRmatvec _ _ _ _ _ _ _ => true
  | _ => false

/-- `TaskT::preregister`, `TaskDI::preregister` (`TaskBaseClasses.hpp` 110-120, 143-153), `TaskTDI::preregister`, `TaskTDDDIII::preregister`
(200-225, 293-320): the variant for the CPU, then, in builds with CUDA and without Kokkos, the one for the GPU.  `none`: the identifier does not
compile. -/
def preregister (b : Build) (a : Inst) : Option (List Variant) := do
  let id ← b.cfg.staticId a
  let cpu : Variant := ⟨.inst a, id, taskName a, .loc, registrarOf a.block.flags⟩
  let gpu : Variant := ⟨.inst a, id, taskName a, .toc, registrarOf a.block.flags⟩
  pure (if b.cuda && !b.kokkos && hasCudaBody a then [cpu, gpu] else [cpu])

/-- `LoadCUDALibsTask::preregister` (`CudaLibs.cu` 22-37): only `set_leaf`. -/
def loadCudaLibs (b : Build) : Variant := ⟨.loadCudaLibs, b.cfg.loadCudaLibsId, loadCudaLibsName, .toc, ⟨true, false, false, false⟩⟩

/-- The classes of the group "LinearAlgebraTasks.hpp" (`Initialize.cpp` 204-328). -/
def linearAlgebra : List VecTask := [.scal, .axpy, .xpay, .dot]

/-- The classes of the group "StencilGenerator.hpp" (`Initialize.cpp` 330-454). -/
def stencils : List VecTask := [.fillCoo, .fillCsr, .fillLinCoo, .fillLinCsr]

/-- One group of element-wise classes: for every enabled entry type, coordinate type and dimension (`Initialize.cpp` 140-202, 205-328, 331-454). -/
def group (c : Config) (ks : List VecTask) : List Inst :=
  c.enabledEntries.flatMap fun t => c.enabledIndices.flatMap fun i => c.registeredDims.flatMap fun n => ks.map fun k => .vec k t n i

/-- A matrix task with 64-bit coordinates (`Legion::coord_t` and `long long` are the same type). -/
def mat64 (k : MatTask) (t : EntryTy) (n₁ n₂ n₃ : Nat) : Inst := .mat k t n₁ n₂ n₃ .longlong .longlong .longlong

/-- The registrations without guards (`Initialize.cpp` 456-482), in their order. -/
def unguarded : List Inst :=
  [mat64 .cooLaplacian .float 1 1 1, mat64 .cooLaplacian .double 1 1 1, mat64 .csrLaplacian .float 1 1 1, mat64 .csrLaplacian .double 1 1 1,
   mat64 .csrLaplacianRowptr .float 1 1 1, mat64 .csrLaplacianRowptr .double 1 1 1,
   mat64 .cooMatvec .float 1 1 1, mat64 .cooRmatvec .float 1 1 1, mat64 .cooPrint .float 1 1 1, mat64 .cooPrint .float 1 2 2, mat64 .cooPrint .float 1 3 3,
   mat64 .cooMatvec .double 1 1 1, mat64 .cooRmatvec .double 1 1 1, mat64 .cooPrint .double 1 1 1, mat64 .cooPrint .double 1 2 2,
   mat64 .cooPrint .double 1 3 3,
   mat64 .csrMatvec .float 1 1 1, mat64 .csrRmatvec .float 1 1 1, mat64 .csrPrint .float 1 1 1, mat64 .csrPrint .float 1 2 2, mat64 .csrPrint .float 1 3 3,
   mat64 .csrMatvec .double 1 1 1, mat64 .csrRmatvec .double 1 1 1, mat64 .csrPrint .double 1 1 1, mat64 .csrPrint .double 1 2 2,
   mat64 .csrPrint .double 1 3 3]

/-- The calls of `preregister` in `initialize` (`Initialize.cpp` 78-482), in their order. -/
def calls (c : Config) : List Inst :=
  (c.enabledEntries.flatMap fun t => scalarTasks.map fun k => .scalar k t) ++
  (c.enabledIndices.flatMap fun i => c.registeredDims.map fun n => .printIndex n i) ++
  group c [.randomFill] ++ group c linearAlgebra ++ group c stencils ++ unguarded

/-- Everything that is registered (`Initialize.cpp` 78-486). -/
def variants (b : Build) : Option (List Variant) := do
  let vss ← (calls b.cfg).mapM (preregister b)
  pure (vss.flatten ++ if b.cuda && !b.kokkos then [loadCudaLibs b] else [])

/-! ## Output -/

/-- What `initialize(true, …)` prints first (`Initialize.cpp` 22-67). -/
def infoLines (b : Build) : List Text :=
  [bytes "[LegionSolvers] Initializing library..."] ++
  [if b.cuda then bytes "[LegionSolvers] CUDA support enabled." else bytes "[LegionSolvers] CUDA support disabled."] ++
  [if b.kokkos then bytes "[LegionSolvers] Kokkos support enabled." else bytes "[LegionSolvers] Kokkos support disabled."] ++
  [bytes "[LegionSolvers] Supported entry types:"] ++
  (if b.cfg.useF32 then [bytes "[LegionSolvers]   * 32-bit floating-point"] else []) ++
  (if b.cfg.useF64 then [bytes "[LegionSolvers]   * 64-bit floating-point"] else []) ++
  [bytes "[LegionSolvers] Supported index types:"] ++
  (if b.cfg.useS32 then [bytes "[LegionSolvers]   * signed 32-bit integer"] else []) ++
  (if b.cfg.useU32 then [bytes "[LegionSolvers]   * unsigned 32-bit integer"] else []) ++
  (if b.cfg.useS64 then [bytes "[LegionSolvers]   * signed 64-bit integer"] else []) ++
  [bytes "[LegionSolvers] Supported dimensions:"] ++
  (if b.cfg.maxDim ≥ 1 then [bytes "[LegionSolvers]   * 1"] else []) ++
  (if b.cfg.maxDim ≥ 2 then [bytes "[LegionSolvers]   * 2"] else []) ++
  (if b.cfg.maxDim ≥ 3 then [bytes "[LegionSolvers]   * 3"] else [])

/-- The line of `preregister_task` in verbose mode (`LegionUtilities.hpp` 187-190, `CudaLibs.cu` 24-28). -/
def registerLine (v : Variant) : Text :=
  bytes "[LegionSolvers] Registering task " ++ (v.name ++ (bytes " with ID " ++ (showNat v.id ++ bytes ".")))

/-- `LegionSolvers::initialize(print_info, verbose)` (`Initialize.cpp` 20-487): the lines printed and the variants registered, `none` if it does not
compile. -/
def initLib (b : Build) (printInfo verbose : Bool) : Option (List Text × List Variant) := do
  let vs ← variants b
  pure ((if printInfo then infoLines b else []) ++ (if verbose then vs.map registerLine else []), vs)

end Verif.Startup
