import Verif.Solver.Model

/-!
# Index launches and region requirements

The other models describe a launched task by the memory it may read and write.  Here the launches are described as the library
hands them to Legion: a launch space, and a list of region requirements, each with a privilege, a region (its index space and the
field), and a partition whose colours are matched with the launch points (projection 0, identity).

Models `PartitionedVector::get_requirement` and the launches of `src/PartitionedVector.cpp`, `src/COOMatrix.cpp`,
`src/CSRMatrix.cpp`, the builders in `src/ExampleSystems.cpp` and `src/StencilGenerator.hpp`, and the launches made by every
operation of `src/SquarePlanner.hpp`.

Simplifications: the fields of a matrix region (entry, row, column), always requested together, count as one field; futures and
task arguments are left out (`Verif.Vector`).
-/
namespace Verif.Launch
open Verif.Runtime Verif.Vector Verif.Matrix Verif.Planner Verif.Solver

/-- `LEGION_READ_ONLY`, `LEGION_READ_WRITE`, `LEGION_WRITE_DISCARD`: the privileges the library uses. -/
inductive Priv
  | readOnly
  | readWrite
  | writeDiscard
deriving DecidableEq

/-- What a requirement gives access to: a vector's field, a matrix's kernel fields, a CSR matrix's row pointers. -/
inductive Field
  | vector (data : Nat)
  | kernel (matrix : Nat)
  | rowptr (matrix : Nat)
deriving DecidableEq

/-- An index partition: the space it partitions, its colour space, and the pieces by colour. -/
structure Part (X : Type) where
  parent : Nat
  colors : Nat
  pieces : List (List X)

/-- The piece of a colour. -/
def Part.piece {X : Type} (p : Part X) (c : Nat) : List X := p.pieces.getD c []

/-- `Legion::RegionRequirement(logical_partition, 0, …, privilege, EXCLUSIVE, region)`: `space` is the region's index space. -/
structure Requirement (X : Type) where
  priv : Priv
  field : Field
  space : Nat
  part : Part X

/-- An index launch: the launch space, its number of points, the requirements. -/
structure IndexLaunch (X : Type) where
  domain : Nat
  size : Nat
  reqs : List (Requirement X)

variable {K P V : Type} [DecidableEq P] [DecidableEq K]

/-- The partition of a vector; vector points are the right-hand points of `K ⊕ P`. -/
def vectorPart (G : Geometry P) (part : Nat) : Part (K ⊕ P) :=
  ⟨G.parent part, G.colorSpace part, (G.pieces part).map fun l => l.map .inr⟩

/-- `get_requirement` (`PartitionedVector.cpp` 131-147). -/
def requirement (G : Geometry P) (priv : Priv) (v : Vec) : Requirement (K ⊕ P) :=
  ⟨priv, .vector v.data, v.space, vectorPart G v.part⟩

/-- A launch over the vector's own colour space. -/
def over (G : Geometry P) (v : Vec) (reqs : List (Requirement (K ⊕ P))) : IndexLaunch (K ⊕ P) :=
  ⟨v.colors, (G.pieces v.part).length, reqs⟩

/-- `constant_fill` (`PartitionedVector.cpp` 150-172): an index fill. -/
def fillLaunch (G : Geometry P) (v : Vec) : IndexLaunch (K ⊕ P) := over G v [requirement G .writeDiscard v]
/-- `operator=` (`PartitionedVector.cpp` 183-189). -/
def copyLaunch (G : Geometry P) (dst src : Vec) : IndexLaunch (K ⊕ P) :=
  over G dst [requirement G .readOnly src, requirement G .writeDiscard dst]
/-- `scal` (`PartitionedVector.cpp` 195-206). -/
def scalLaunch (G : Geometry P) (x : Vec) : IndexLaunch (K ⊕ P) := over G x [requirement G .readWrite x]
/-- `axpy`, all overloads (`PartitionedVector.cpp` 210-284). -/
def axpyLaunch (G : Geometry P) (y x : Vec) : IndexLaunch (K ⊕ P) :=
  over G y [requirement G .readWrite y, requirement G .readOnly x]
/-- `xpay`, all overloads (`PartitionedVector.cpp` 287-333). -/
def xpayLaunch (G : Geometry P) (y x : Vec) : IndexLaunch (K ⊕ P) :=
  over G y [requirement G .readWrite y, requirement G .readOnly x]
/-- `dot` (`PartitionedVector.cpp` 336-358). -/
def dotLaunch (G : Geometry P) (v w : Vec) : IndexLaunch (K ⊕ P) :=
  over G v [requirement G .readOnly v, requirement G .readOnly w]

/-- The regions of a matrix: an identity for the fields, the kernel's index space, the row pointers' index space (CSR). -/
structure Handles where
  id : Nat
  kernelSpace : Nat
  rowSpace : Nat

/-- The kernel partition of a registered matrix: `create_kernel_partition_from_range_partition`
(`COOMatrix.cpp` 77-95, `CSRMatrix.cpp` 89-109): a partition of the kernel's index space, coloured like the range partition. -/
def kernelPart (G : Geometry P) (h : Handles) (rangePart : Nat) (kernel : List (List K)) : Part (K ⊕ P) :=
  ⟨h.kernelSpace, G.colorSpace rangePart, kernel.map fun l => l.map .inl⟩

/-- The ghost partition: `create_domain_partition_from_kernel_partition` (`COOMatrix.cpp` 98-118, `CSRMatrix.cpp` 112-132): a
partition of the given domain space, coloured like the kernel partition. -/
def ghostPart (domainSpace : Nat) (kp : Part (K ⊕ P)) (ghost : List (List P)) : Part (K ⊕ P) :=
  ⟨domainSpace, kp.colors, ghost.map fun l => l.map .inr⟩

/-- `COOMatrix::matvec` (`COOMatrix.cpp` 144-191). -/
def cooLaunch (G : Geometry P) (h : Handles) (dst src : Vec) (kp gp : Part (K ⊕ P)) : IndexLaunch (K ⊕ P) :=
  over G dst [requirement G .readWrite dst, ⟨.readOnly, .kernel h.id, h.kernelSpace, kp⟩,
    ⟨.readOnly, .vector src.data, src.space, gp⟩]

/-- `CSRMatrix::matvec` (`CSRMatrix.cpp` 158-214): the row pointers are partitioned by the destination's partition. -/
def csrLaunch (G : Geometry P) (h : Handles) (dst src : Vec) (kp gp : Part (K ⊕ P)) : IndexLaunch (K ⊕ P) :=
  over G dst [requirement G .readWrite dst, ⟨.readOnly, .kernel h.id, h.kernelSpace, kp⟩,
    ⟨.readOnly, .rowptr h.id, h.rowSpace, vectorPart G dst.part⟩, ⟨.readOnly, .vector src.data, src.space, gp⟩]

/-- Virtual call of `matvec`. -/
def opLaunch (G : Geometry P) (h : Handles) : Op K P V → Vec → Vec → Part (K ⊕ P) → Part (K ⊕ P) → IndexLaunch (K ⊕ P)
  | .coo _ => cooLaunch G h
  | .csr _ => csrLaunch G h

/-! ## The planner -/

/-- The launch of one registered matrix in `matvec` (`SquarePlanner.hpp` 343-356) with the partitions made when it was registered
(`SquarePlanner.hpp` 217-234). -/
def registeredLaunch (G : Geometry P) (pl : Planner K P V) (h : Handles) (r : Registered K P V) (dst src : Nat) :
    IndexLaunch (K ⊕ P) :=
  let kp := kernelPart G h (pl.parts.getD r.rng 0) r.kernel
  opLaunch G h r.matrix ((pl.lookup dst r.rng).getD ⟨0, 0, 0, 0⟩) ((pl.lookup src r.dom).getD ⟨0, 0, 0, 0⟩) kp
    (ghostPart (pl.spaces.getD r.dom 0) kp r.ghost)

/-- One launch for every block. -/
def perBlock (pl : Planner K P V) (f : Nat → IndexLaunch (K ⊕ P)) : List (IndexLaunch (K ⊕ P)) :=
  (List.range pl.spaces.length).map f

/-- The launches of a planner operation (`SquarePlanner.hpp` 248-357); `H i` are the regions of the `i`-th registered matrix. -/
def launches (G : Geometry P) (pl : Planner K P V) (H : Nat → Handles) : Call → List (IndexLaunch (K ⊕ P))
  | .zeroFill d => ((pl.blocksOf d).getD []).map (fillLaunch G)
  | .copy d x => perBlock pl fun i =>
      copyLaunch G ((pl.lookup d i).getD ⟨0, 0, 0, 0⟩) ((pl.lookup x i).getD ⟨0, 0, 0, 0⟩)
  | .scal d => perBlock pl fun i => scalLaunch G ((pl.lookup d i).getD ⟨0, 0, 0, 0⟩)
  | .axpy d x => perBlock pl fun i =>
      axpyLaunch G ((pl.lookup d i).getD ⟨0, 0, 0, 0⟩) ((pl.lookup x i).getD ⟨0, 0, 0, 0⟩)
  | .xpay d x => perBlock pl fun i =>
      xpayLaunch G ((pl.lookup d i).getD ⟨0, 0, 0, 0⟩) ((pl.lookup x i).getD ⟨0, 0, 0, 0⟩)
  | .dot v w => perBlock pl fun i =>
      dotLaunch G ((pl.lookup v i).getD ⟨0, 0, 0, 0⟩) ((pl.lookup w i).getD ⟨0, 0, 0, 0⟩)
  | .matvec d x => ((pl.blocksOf d).getD []).map (fillLaunch G) ++
      pl.ops.mapIdx fun i r => registeredLaunch G pl (H i) r d x

/-! ## Registration and construction of matrices -/

/-- The logical partitions (`get_logical_partition(region, partition)`) formed when a matrix is registered: for CSR the row
pointers with the range partition (`CSRMatrix.cpp` 96-97), then the kernel with the kernel partition (`COOMatrix.cpp` 103-104,
`CSRMatrix.cpp` 117-118). -/
def registrationPartitions (G : Geometry P) (h : Handles) (rangePart : Nat) (m : Op K P V) (kernel : List (List K)) :
    List (Nat × Part (K ⊕ P)) :=
  (match m with | .coo _ => [] | .csr _ => [(h.rowSpace, vectorPart G rangePart)]) ++
    [(h.kernelSpace, kernelPart G h rangePart kernel)]

/-- The launches filling a COO matrix (`StencilGenerator.hpp` 363-410, `ExampleSystems.cpp` 51-91): one index launch over the
colour space, the kernel discarded and written by equal pieces. -/
def cooFill (X : Type) (colors n : Nat) (h : Handles) (pieces : List (List X)) : List (IndexLaunch X) :=
  [⟨colors, n, [⟨.writeDiscard, .kernel h.id, h.kernelSpace, ⟨h.kernelSpace, colors, pieces⟩⟩]⟩]

/-- The launch filling a CSR stencil matrix (`StencilGenerator.hpp` 464-524, 577-637). -/
def csrFill (X : Type) (colors n : Nat) (h : Handles) (pieces rowPieces : List (List X)) : List (IndexLaunch X) :=
  [⟨colors, n, [⟨.writeDiscard, .kernel h.id, h.kernelSpace, ⟨h.kernelSpace, colors, pieces⟩⟩,
    ⟨.writeDiscard, .rowptr h.id, h.rowSpace, ⟨h.rowSpace, colors, rowPieces⟩⟩]⟩]

/-- The two launches filling a CSR Laplacian (`ExampleSystems.cpp` 143-230). -/
def csrLaplacianFill (X : Type) (colors n : Nat) (h : Handles) (pieces rowPieces : List (List X)) : List (IndexLaunch X) :=
  [⟨colors, n, [⟨.writeDiscard, .kernel h.id, h.kernelSpace, ⟨h.kernelSpace, colors, pieces⟩⟩]⟩,
   ⟨colors, n, [⟨.writeDiscard, .rowptr h.id, h.rowSpace, ⟨h.rowSpace, colors, rowPieces⟩⟩]⟩]

/-- Index spaces are created by the runtime one after the other: the builders of CSR matrices (`ExampleSystems.cpp` 133-134, 184-185;
`StencilGenerator.hpp` 433-436, 547-552) create a kernel and a row space of their own. -/
def newHandles (next : Nat) : Handles × Nat := (⟨next, next, next + 1⟩, next + 2)

end Verif.Launch
