/-!
# Task identifiers, registration, dispatch, sharding, flags

Models `src/TaskBaseClasses.hpp`, `src/TaskIDs.hpp`, `src/MetaprogrammingUtilities.hpp` (type lists),
`src/LibraryOptions.hpp`, `src/Initialize.cpp`, and parts of `src/LegionSolversMapper.cpp`, `src/LegionUtilities.hpp`.
Identifiers are mathematical naturals here; that the 32-bit `Legion::TaskID` arithmetic gives the same number is part of
the statements in `Props.lean`.
-/
namespace Verif.Tasks

/-- The entry types a task can be instantiated with (`LibraryOptions.hpp` 10-11). -/
inductive EntryTy | float | double
deriving DecidableEq, Repr

/-- The coordinate types (`LibraryOptions.hpp` 12-14). -/
inductive IndexTy | int | unsigned | longlong
deriving DecidableEq, Repr

/-- Build options: `LibraryOptions.hpp` 10-14 (enabled types), 24-26 (origin), 44-46 (maximum dimension). -/
structure Config where
  useF32 : Bool
  useF64 : Bool
  useS32 : Bool
  useU32 : Bool
  useS64 : Bool
  maxDim : Nat
  origin : Nat

/-- The options as committed in `LibraryOptions.hpp` 10-46. -/
def Config.default : Config := ⟨true, true, true, true, true, 3, 500000⟩

/-- `ListLength` (`MetaprogrammingUtilities.hpp` 85-106). -/
def listLength {α : Type} : List α → Nat
  | [] => 0
  | _ :: l => 1 + listLength l

/-- `ListIndex` (`MetaprogrammingUtilities.hpp` 109-120): position of the first occurrence; `none` is a compile error
(no specialisation for the empty list). -/
def listIndex {α : Type} [DecidableEq α] : List α → α → Option Nat
  | [], _ => none
  | a :: l, x => if a = x then some 0 else (listIndex l x).map (1 + ·)

/-- `LEGION_SOLVERS_SUPPORTED_INDEX_TYPES` (`TaskBaseClasses.hpp` 16-39); `none` is `void`.  A disabled type leaves a
`void` placeholder, so positions never shift. -/
def Config.indexTypes (c : Config) : List (Option IndexTy) :=
  [if c.useS32 then some .int else none,
   if c.useU32 then some .unsigned else none,
   if c.useS64 then some .longlong else none,
   none]

/-- `LEGION_SOLVERS_SUPPORTED_ENTRY_TYPES` (`TaskBaseClasses.hpp` 43-55); disabled types are left out. -/
def Config.entryTypes (c : Config) : List (Option EntryTy) :=
  (if c.useF32 then [some .float] else []) ++ (if c.useF64 then [some .double] else []) ++ [none]

/-- `LEGION_SOLVERS_INDEX_TYPE_INDEX`, `LEGION_SOLVERS_ENTRY_TYPE_INDEX` (`TaskBaseClasses.hpp` 58-64). -/
def Config.indexTypeIndex (c : Config) (i : IndexTy) : Option Nat := listIndex c.indexTypes (some i)
@[inherit_doc Config.indexTypeIndex]
def Config.entryTypeIndex (c : Config) (t : EntryTy) : Option Nat := listIndex c.entryTypes (some t)

/-- `LEGION_SOLVERS_NUM_INDEX_TYPES`, `LEGION_SOLVERS_NUM_ENTRY_TYPES` (`TaskBaseClasses.hpp` 66-70). -/
def Config.numIndexTypes (c : Config) : Nat := listLength c.indexTypes
@[inherit_doc Config.numIndexTypes]
def Config.numEntryTypes (c : Config) : Nat := listLength c.entryTypes

/-- `LEGION_SOLVERS_TASK_BLOCK_SIZE` (`TaskBaseClasses.hpp` 72-90). -/
def Config.blockSize (c : Config) : Nat := c.numEntryTypes * c.maxDim ^ 3 * c.numIndexTypes ^ 3

/-- `NUM_META_TASK_IDS` (`TaskIDs.hpp` 9-14); the only meta task has number 0. -/
def numMetaTaskIds : Nat := 1

/-- `LoadCUDALibsTask`'s identifier: origin + `LOAD_CUDA_LIBS_META_TASK_ID` (`CudaLibs.hpp`, `TaskIDs.hpp` 11). -/
def Config.loadCudaLibsId (c : Config) : Nat := c.origin + 0

/-- `TaskBlockID` (`TaskIDs.hpp` 17-54), in declaration order; the enumerator's value is its position. -/
inductive Block
  | printScalar | negateScalar | addScalar | subtractScalar | multiplyScalar | divideScalar | sqrtScalar | rsqrtScalar
  | dummy | printIndex | randomFill | scal | axpy | xpay | dot
  | cooMatvec | cooRmatvec | cooPrint | csrMatvec | csrRmatvec | csrPrint
  | fillCooLaplacian | fillCsrLaplacian | fillCsrLaplacianRowptr
  | fillCooStencil | fillCsrStencil | fillLinCooStencil | fillLinCsrStencil
deriving DecidableEq, Repr

/-- The numeric value of an enumerator of `TaskBlockID` (`TaskIDs.hpp` 17-54). -/
def Block.val : Block → Nat
  | .printScalar => 0 | .negateScalar => 1 | .addScalar => 2 | .subtractScalar => 3 | .multiplyScalar => 4
  | .divideScalar => 5 | .sqrtScalar => 6 | .rsqrtScalar => 7 | .dummy => 8 | .printIndex => 9 | .randomFill => 10
  | .scal => 11 | .axpy => 12 | .xpay => 13 | .dot => 14
  | .cooMatvec => 15 | .cooRmatvec => 16 | .cooPrint => 17
  | .csrMatvec => 18 | .csrRmatvec => 19 | .csrPrint => 20
  | .fillCooLaplacian => 21 | .fillCsrLaplacian => 22 | .fillCsrLaplacianRowptr => 23
  | .fillCooStencil => 24 | .fillCsrStencil => 25 | .fillLinCooStencil => 26 | .fillLinCsrStencil => 27

/-- Task classes with one entry-type parameter (`UtilityTasks.hpp` 13-98). -/
inductive ScalarTask
  | print | negate | add | subtract | multiply | divide | sqrt | rsqrt | dummy
deriving DecidableEq, Repr

/-- Task classes with entry type, dimension and coordinate type
(`UtilityTasks.hpp` 110-120, `LinearAlgebraTasks.hpp` 11-55, `StencilGenerator.hpp` 27-140). -/
inductive VecTask
  | randomFill | scal | axpy | xpay | dot | fillCoo | fillCsr | fillLinCoo | fillLinCsr
deriving DecidableEq, Repr

/-- Task classes with entry type, three dimensions and three coordinate types
(`COOMatrixTasks.hpp` 11-62, `CSRMatrixTasks.hpp` 11-60, `ExampleSystems.hpp` 45-150). -/
inductive MatTask
  | cooMatvec | cooRmatvec | cooPrint | csrMatvec | csrRmatvec | csrPrint
  | cooLaplacian | csrLaplacian | csrLaplacianRowptr
deriving DecidableEq, Repr

/-- The block id each class passes to its base class (`UtilityTasks.hpp` 15-93). -/
def ScalarTask.block : ScalarTask → Block
  | .print => .printScalar | .negate => .negateScalar | .add => .addScalar | .subtract => .subtractScalar
  | .multiply => .multiplyScalar | .divide => .divideScalar | .sqrt => .sqrtScalar | .rsqrt => .rsqrtScalar
  | .dummy => .dummy

/-- `UtilityTasks.hpp` 112, `LinearAlgebraTasks.hpp` 13, 24, 35, 46, `StencilGenerator.hpp` 31, 59, 86, 114. -/
def VecTask.block : VecTask → Block
  | .randomFill => .randomFill | .scal => .scal | .axpy => .axpy | .xpay => .xpay | .dot => .dot
  | .fillCoo => .fillCooStencil | .fillCsr => .fillCsrStencil
  | .fillLinCoo => .fillLinCooStencil | .fillLinCsr => .fillLinCsrStencil

/-- `COOMatrixTasks.hpp` 13, 31, 49, `CSRMatrixTasks.hpp` 13, 30, 47, `ExampleSystems.hpp` 55, 92, 128. -/
def MatTask.block : MatTask → Block
  | .cooMatvec => .cooMatvec | .cooRmatvec => .cooRmatvec | .cooPrint => .cooPrint
  | .csrMatvec => .csrMatvec | .csrRmatvec => .csrRmatvec | .csrPrint => .csrPrint
  | .cooLaplacian => .fillCooLaplacian | .csrLaplacian => .fillCsrLaplacian
  | .csrLaplacianRowptr => .fillCsrLaplacianRowptr

/-- A fully instantiated task class.  `printIndex` is the only class of shape (dimension, coordinate type)
(`UtilityTasks.hpp` 101-108). -/
inductive Inst
  | scalar (k : ScalarTask) (t : EntryTy)
  | printIndex (n : Nat) (i : IndexTy)
  | vec (k : VecTask) (t : EntryTy) (n : Nat) (i : IndexTy)
  | mat (k : MatTask) (t : EntryTy) (n₁ n₂ n₃ : Nat) (i₁ i₂ i₃ : IndexTy)
deriving DecidableEq, Repr

/-- The kind of an instantiated task. -/
def Inst.block : Inst → Block
  | .scalar k _ => k.block
  | .printIndex _ _ => .printIndex
  | .vec k _ _ _ => k.block
  | .mat k _ _ _ _ _ _ _ => k.block

/-- First identifier of a block (the common prefix of all `task_id` formulas, e.g. `TaskBaseClasses.hpp` 100-102). -/
def Config.blockOrigin (c : Config) (b : Block) : Nat := c.origin + numMetaTaskIds + c.blockSize * b.val

/-- `TaskT::task_id` (`TaskBaseClasses.hpp` 100-103), given the entry type's index. -/
def Config.idT (c : Config) (b : Block) (t : Nat) : Nat := c.blockOrigin b + t

/-- `TaskDI::task_id(N, I)` (`TaskBaseClasses.hpp` 133-136, 163-167).  Dimensions are at least 1, so `N - 1` never
truncates in the theorems. -/
def Config.idDI (c : Config) (b : Block) (n i : Nat) : Nat := c.blockOrigin b + c.maxDim * i + (n - 1)

/-- `TaskTDI::task_id` (`TaskBaseClasses.hpp` 186-192, 236-242). -/
def Config.idTDI (c : Config) (b : Block) (t n i : Nat) : Nat :=
  c.blockOrigin b + c.numEntryTypes * c.maxDim * i + c.numEntryTypes * (n - 1) + t

/-- `TaskTDDDIII::task_id` (`TaskBaseClasses.hpp` 267-282, 330-349). -/
def Config.idTDDDIII (c : Config) (b : Block) (t n₁ n₂ n₃ i₁ i₂ i₃ : Nat) : Nat :=
  c.blockOrigin b +
  c.numIndexTypes ^ 3 * c.numEntryTypes * c.maxDim ^ 2 * (n₁ - 1) +
  c.numIndexTypes ^ 3 * c.numEntryTypes * c.maxDim ^ 1 * (n₂ - 1) +
  c.numIndexTypes ^ 3 * c.numEntryTypes * c.maxDim ^ 0 * (n₃ - 1) +
  c.numIndexTypes ^ 2 * c.numEntryTypes * i₁ +
  c.numIndexTypes ^ 1 * c.numEntryTypes * i₂ +
  c.numIndexTypes ^ 0 * c.numEntryTypes * i₃ + t

/-- The compile-time identifier of an instantiation; `none`: does not compile (type not enabled). -/
def Config.staticId (c : Config) : Inst → Option Nat
  | .scalar k t => do
      let t ← c.entryTypeIndex t
      pure (c.idT k.block t)
  | .printIndex n i => do
      let i ← c.indexTypeIndex i
      pure (c.idDI .printIndex n i)
  | .vec k t n i => do
      let t ← c.entryTypeIndex t
      let i ← c.indexTypeIndex i
      pure (c.idTDI k.block t n i)
  | .mat k t n₁ n₂ n₃ i₁ i₂ i₃ => do
      let t ← c.entryTypeIndex t
      let i₁ ← c.indexTypeIndex i₁
      let i₂ ← c.indexTypeIndex i₂
      let i₃ ← c.indexTypeIndex i₃
      pure (c.idTDDDIII k.block t n₁ n₂ n₃ i₁ i₂ i₃)

/-- What the library sees of a run-time index space: `get_dim()` and `get_type_tag()`. -/
structure SpaceInfo where
  dim : Nat
  typeTag : Nat

/-- Legion's type-tag encoding (the run-time contract the dispatch relies on): dimension in the high byte, the
coordinate type's number (0, 1, 2 for `int`, `unsigned`, `long long`) in the low byte. -/
def legionSpace (n : Nat) (i : IndexTy) : SpaceInfo :=
  ⟨n, 256 * n + (match i with | .int => 0 | .unsigned => 1 | .longlong => 2)⟩

/-- `get_type_tag() - 256 * get_dim()` (`TaskBaseClasses.hpp` 169-170). -/
def SpaceInfo.code (s : SpaceInfo) : Nat := s.typeTag - 256 * s.dim

/-- `TaskDI<…,0,void>::task_id(index_space)` (`TaskBaseClasses.hpp` 167-172). -/
def Config.dynDI (c : Config) (b : Block) (s : SpaceInfo) : Nat := c.idDI b s.dim s.code

/-- `TaskTDI<…,T,0,void>::task_id(index_space)` (`TaskBaseClasses.hpp` 244-249). -/
def Config.dynTDI (c : Config) (b : Block) (t : EntryTy) (s : SpaceInfo) : Option Nat := do
  let t ← c.entryTypeIndex t
  pure (c.idTDI b t s.dim s.code)

/-- `TaskTDDDIII<…,T,0,0,0,void,void,void>::task_id(kernel, domain, range)` (`TaskBaseClasses.hpp` 351-365). -/
def Config.dynTDDDIII (c : Config) (b : Block) (t : EntryTy) (k d r : SpaceInfo) : Option Nat := do
  let t ← c.entryTypeIndex t
  pure (c.idTDDDIII b t k.dim d.dim r.dim k.code d.code r.code)

/-! ## Registration -/

/-- Entry types enabled (`#ifdef LEGION_SOLVERS_USE_F32 / F64` in `Initialize.cpp`). -/
def Config.enabledEntries (c : Config) : List EntryTy :=
  (if c.useF32 then [.float] else []) ++ (if c.useF64 then [.double] else [])

/-- Coordinate types enabled (`#ifdef LEGION_SOLVERS_USE_S32/U32/S64_INDICES` in `Initialize.cpp`). -/
def Config.enabledIndices (c : Config) : List IndexTy :=
  (if c.useS32 then [.int] else []) ++ (if c.useU32 then [.unsigned] else []) ++
  (if c.useS64 then [.longlong] else [])

/-- Dimensions with `#if LEGION_SOLVERS_MAX_DIM >= d` blocks, d = 1, 2, 3 (`Initialize.cpp`). -/
def Config.registeredDims (c : Config) : List Nat := [1, 2, 3].filter (· ≤ c.maxDim)

/-- The scalar task classes registered (`Initialize.cpp` 78-99). -/
def scalarTasks : List ScalarTask := [.print, .negate, .add, .subtract, .multiply, .divide, .sqrt, .rsqrt, .dummy]

/-- The element-wise and stencil classes registered for all enabled types (`Initialize.cpp` 134-454). -/
def vecTasks : List VecTask := [.randomFill, .scal, .axpy, .xpay, .dot, .fillCoo, .fillCsr, .fillLinCoo, .fillLinCsr]

/-- The unconditional registrations (`Initialize.cpp` 456-481; `Legion::coord_t` is `long long`). -/
def matTasks : List (MatTask × Nat × Nat × Nat) :=
  [(.cooLaplacian, 1, 1, 1), (.csrLaplacian, 1, 1, 1), (.csrLaplacianRowptr, 1, 1, 1),
   (.cooMatvec, 1, 1, 1), (.cooRmatvec, 1, 1, 1), (.cooPrint, 1, 1, 1), (.cooPrint, 1, 2, 2), (.cooPrint, 1, 3, 3),
   (.csrMatvec, 1, 1, 1), (.csrRmatvec, 1, 1, 1), (.csrPrint, 1, 1, 1), (.csrPrint, 1, 2, 2), (.csrPrint, 1, 3, 3)]

/-- Everything `LegionSolvers::initialize` registers (`Initialize.cpp` 78-481), except the CUDA meta task. -/
def Config.registered (c : Config) : List Inst :=
  (c.enabledEntries.flatMap fun t => scalarTasks.map fun k => .scalar k t) ++
  (c.enabledIndices.flatMap fun i => c.registeredDims.map fun n => .printIndex n i) ++
  (c.enabledEntries.flatMap fun t => c.enabledIndices.flatMap fun i => c.registeredDims.flatMap fun n =>
    vecTasks.map fun k => .vec k t n i) ++
  (matTasks.flatMap fun m => [EntryTy.float, EntryTy.double].map fun t =>
    .mat m.1 t m.2.1 m.2.2.1 m.2.2.2 .longlong .longlong .longlong)

/-- The public operations that launch tasks, with the index spaces that decide which task is launched
(`PartitionedVector.cpp` 194-358, `COOMatrix.cpp` 144-217, `CSRMatrix.cpp` 158-241, `Scalar.cpp` 14-118,
`LegionUtilities.cpp` 46-52, `ExampleSystems.cpp` 60-221, `StencilGenerator.hpp` 389-394, 496-501, 609-614,
`GMRESSolver.hpp` 108-113). -/
inductive Operation
  /-- negate, add, …, print of a scalar, and the coefficient task of GMRES -/
  | scalar (k : ScalarTask) (t : EntryTy)
  /-- scal, axpy, xpay, dot on a vector over an index space of dimension `n` and coordinate type `i` -/
  | vector (k : VecTask) (t : EntryTy) (n : Nat) (i : IndexTy)
  /-- `matvec` of a COO (`false`) or CSR (`true`) matrix: kernel, source and destination spaces -/
  | matvec (csr : Bool) (t : EntryTy) (kernel src dst : Nat × IndexTy)
  /-- `print(index_space)` of a COO/CSR matrix: kernel space and the given index space -/
  | printMatrix (csr : Bool) (t : EntryTy) (kernel space : Nat × IndexTy)
  /-- `print_index_partition`: colour space -/
  | printPartition (color : Nat × IndexTy)
  /-- Laplacian builders (static `long long`, 1-D) -/
  | laplacian (k : MatTask) (t : EntryTy)
  /-- stencil builders (static types) -/
  | stencil (k : VecTask) (t : EntryTy) (n : Nat) (i : IndexTy)

/-- The identifier of the task an operation launches (same source lines as `Operation`). -/
def Config.launchedId (c : Config) : Operation → Option Nat
  | .scalar k t => c.staticId (.scalar k t)
  | .vector k t n i => c.dynTDI k.block t (legionSpace n i)
  | .matvec csr t k s d =>
      c.dynTDDDIII (if csr then Block.csrMatvec else Block.cooMatvec) t
        (legionSpace k.1 k.2) (legionSpace s.1 s.2) (legionSpace d.1 d.2)
  | .printMatrix csr t k s =>
      c.dynTDDDIII (if csr then Block.csrPrint else Block.cooPrint) t
        (legionSpace k.1 k.2) (legionSpace s.1 s.2) (legionSpace s.1 s.2)
  | .printPartition s => some (c.dynDI .printIndex (legionSpace s.1 s.2))
  | .laplacian k t => c.staticId (.mat k t 1 1 1 .longlong .longlong .longlong)
  | .stencil k t n i => c.staticId (.vec k t n i)

/-- Identifiers with a registered task (`preregister_task(task_id, …)`, `TaskBaseClasses.hpp` 110-120 etc.). -/
def Config.registeredIds (c : Config) : List (Option Nat) := c.registered.map c.staticId

/-! ## Mapper -/

/-- `LegionSolversMapper::is_task` (`LegionSolversMapper.cpp` 114-122). -/
def Config.isTask (c : Config) (taskId blockId : Nat) : Bool :=
  let origin := c.origin + numMetaTaskIds + c.blockSize * blockId
  decide (origin ≤ taskId) && decide (taskId < origin + c.blockSize)

/-- `BlockingShardingFunctor::shard` (`LegionSolversMapper.cpp` 140-151) for a one-dimensional dense domain
`[lo, hi]`; `none` is an assertion failure.  Coordinates are integers, the division is on `size_t`. -/
def shard (point lo hi : Int) (dim : Nat) (dense : Bool) (totalShards : Nat) : Option Nat :=
  if dim = 1 ∧ dense ∧ lo = 0 then
    let volume := (hi + 1 - lo).toNat
    let pointsPerShard := (volume + totalShards - 1) / totalShards
    some (point.toNat / pointsPerShard)
  else none

/-! ## Flags -/

/-- `enum class TaskFlags : std::uint8_t` (`LegionUtilities.hpp` 37-42). -/
inductive Flag | leaf | inner | idempotent | replicable
deriving DecidableEq, Repr

/-- The enumerator values (`LegionUtilities.hpp` 38-41). -/
def Flag.bits : Flag → BitVec 8
  | .leaf => 0x01 | .inner => 0x02 | .idempotent => 0x04 | .replicable => 0x08

/-- `operator|` (`LegionUtilities.hpp` 44-48). -/
def flagOr (a b : BitVec 8) : BitVec 8 := a ||| b

/-- `operator&` (`LegionUtilities.hpp` 50-54): true if the bitwise and is non-zero. -/
def flagAnd (a b : BitVec 8) : Bool := (a &&& b) != 0

/-- The options `preregister_task` sets on the registrar (`LegionUtilities.hpp` 143-148, 192-197). -/
structure Registrar where
  leaf : Bool
  inner : Bool
  idempotent : Bool
  replicable : Bool
deriving DecidableEq, Repr

@[inherit_doc Registrar]
def registrarOf (flags : BitVec 8) : Registrar :=
  ⟨flagAnd flags Flag.leaf.bits, flagAnd flags Flag.inner.bits, flagAnd flags Flag.idempotent.bits,
   flagAnd flags Flag.replicable.bits⟩

/-- `static constexpr TaskFlags flags` of every task class: `LEAF` alone for the printing tasks and random fill
(`UtilityTasks.hpp` 17, 105, 118, `COOMatrixTasks.hpp` 53, `CSRMatrixTasks.hpp` 51), `LEAF | IDEMPOTENT | REPLICABLE` for
all others (`UtilityTasks.hpp` 26-96, `LinearAlgebraTasks.hpp` 15-49, `COOMatrixTasks.hpp` 17, 35, `CSRMatrixTasks.hpp`
17, 34, `ExampleSystems.hpp` 67, 104, 141, `StencilGenerator.hpp` 39, 67, 94, 122). -/
def Block.flags : Block → BitVec 8
  | .printScalar | .printIndex | .randomFill | .cooPrint | .csrPrint => Flag.leaf.bits
  | _ => flagOr (flagOr Flag.leaf.bits Flag.idempotent.bits) Flag.replicable.bits

end Verif.Tasks
