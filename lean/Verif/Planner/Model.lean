import Verif.Matrix.Model

/-!
# The planner

Models `src/SquarePlanner.hpp`.  Set-up calls are functions on the planner object that may abort (`none`: failed assertion);
vector operations and products are launch programs in the monad of `Verif.Vector.Model`.

Simplifications: matrices are COO or CSR with one kernel point type; `get_vector` with an index outside the allocated vectors,
which is undefined behaviour in C++, stops the model (`none`); `tile_partitioned_matrices`, never used by the code, is
omitted; ownership of handles is in `Verif.Ownership`.
-/
namespace Verif.Planner
open Verif.Runtime Verif.Vector Verif.Matrix

/-- What the runtime knows about index spaces and partitions: in addition to the pieces of a partition, the points of an
index space, a partition's parent space and its colour space. -/
structure Geometry (P : Type) extends Env P where
  points : Nat → List P
  parent : Nat → Nat
  colorSpace : Nat → Nat

variable {K P V : Type} [DecidableEq P] [DecidableEq K]

/-- `is_index_partition_complete`. -/
def Geometry.complete (G : Geometry P) (part : Nat) : Bool :=
  (G.points (G.parent part)).all fun p => decide (p ∈ (G.pieces part).flatten)

/-- `is_index_partition_disjoint`. -/
def Geometry.disjoint (G : Geometry P) (part : Nat) : Bool := decide (G.pieces part).flatten.Nodup

/-- The vector constructors (`PartitionedVector.cpp` 26-60 and 63-95); `data` is the region and field. -/
def newVector (G : Geometry P) (part data : Nat) : Option Vec :=
  if G.disjoint part && G.complete part then some ⟨data, G.parent part, G.colorSpace part, part⟩ else none

/-- A matrix given to the planner (`AbstractMatrix.hpp`). -/
inductive Op (K P V : Type)
  | coo (m : COO K P V)
  | csr (m : CSR K P V)

/-- Virtual call of `create_kernel_partition_from_range_partition`. -/
def Op.kernelFromRange : Op K P V → List (List P) → List (List K)
  | .coo m, pieces => m.kernelFromRange pieces
  | .csr m, pieces => m.kernelFromRange pieces

/-- Virtual call of `create_domain_partition_from_kernel_partition`. -/
def Op.domainFromKernel : Op K P V → List P → List (List K) → List (List P)
  | .coo m, space, kp => m.domainFromKernel space kp
  | .csr m, space, kp => m.domainFromKernel space kp

/-- Virtual call of `matvec`. -/
def Op.matvec (A : Arith V) (E : Env P) : Op K P V → Vec → Vec → List (List K) → List (List P) → M P V Unit
  | .coo m, dst, src, kp, ghost => m.matvec A E dst src kp ghost
  | .csr m, dst, src, kp, ghost => m.matvec A E dst src kp ghost

/-- An element of `row_partitioned_matrices` (`SquarePlanner.hpp` 34-42). -/
structure Registered (K P V : Type) where
  matrix : Op K P V
  dom : Nat
  rng : Nat
  kernel : List (List K)
  ghost : List (List P)

/-- The planner object (`SquarePlanner.hpp` 19-51). -/
structure Planner (K P V : Type) where
  /-- `canonical_index_spaces` -/
  spaces : List Nat
  /-- `canonical_index_partitions` -/
  parts : List Nat
  /-- `workspace_fields != NO_SPACE` -/
  hasFields : Bool
  /-- `workspace_regions` -/
  wRegions : List Nat
  /-- `workspace_partitions` -/
  wParts : List (Nat × Nat)
  sol : List Vec
  rhs : List Vec
  workspace : List (List Vec)
  ops : List (Registered K P V)

/-- Constructor (`SquarePlanner.hpp` 55-67). -/
def Planner.empty : Planner K P V := ⟨[], [], false, [], [], [], [], [], []⟩

/-- The four assertions that no workspace exists (`SquarePlanner.hpp` 100-103, 127-130, 154-157). -/
def Planner.noWorkspace (pl : Planner K P V) : Bool :=
  !pl.hasFields && pl.wRegions.isEmpty && pl.wParts.isEmpty && pl.workspace.isEmpty

/-- The part common to `add_sol_vector` and `add_rhs_vector` (`SquarePlanner.hpp` 104-121, 131-148): compare with or extend
the canonical spaces and partitions at position `idx`. -/
def Planner.admit (G : Geometry P) (pl : Planner K P V) (idx : Nat) (v : Vec) : Option (Planner K P V) :=
  (if idx < pl.spaces.length then (if pl.spaces[idx]? = some v.space then some pl.spaces else none)
    else (if pl.spaces.length = idx then some (pl.spaces ++ [v.space]) else none)).bind fun spaces =>
  (if idx < pl.parts.length then (if pl.parts[idx]? = some v.part then some pl.parts else none)
    else (if pl.parts.length = idx && G.complete v.part && G.disjoint v.part then some (pl.parts ++ [v.part])
      else none)).bind fun parts =>
  some { pl with spaces := spaces, parts := parts }

/-- `add_sol_vector` (`SquarePlanner.hpp` 99-124). -/
def Planner.addSol (G : Geometry P) (pl : Planner K P V) (v : Vec) : Option (Planner K P V) :=
  if pl.noWorkspace then (pl.admit G pl.sol.length v).map fun pl' => { pl' with sol := pl.sol ++ [copyConstruct v] } else none

/-- `add_rhs_vector` (`SquarePlanner.hpp` 126-151). -/
def Planner.addRhs (G : Geometry P) (pl : Planner K P V) (v : Vec) : Option (Planner K P V) :=
  if pl.noWorkspace then (pl.admit G pl.rhs.length v).map fun pl' => { pl' with rhs := pl.rhs ++ [copyConstruct v] } else none

/-- `allocate_workspace` (`SquarePlanner.hpp` 153-188).  The runtime returns new regions: region `i` is `base + i * n`, its
field `j` is data `base + i * n + j`. -/
def Planner.allocateWorkspace (G : Geometry P) (pl : Planner K P V) (base n : Nat) : Option (Planner K P V) := do
  if pl.noWorkspace && pl.spaces.length = pl.parts.length then
    let regions := (List.range pl.spaces.length).map fun i => base + i * n
    let wparts := List.zipWith Prod.mk regions pl.parts
    let workspace ← (List.range n).mapM fun j => wparts.mapM fun rp => newVector G rp.2 (rp.1 + j)
    some { pl with hasFields := true, wRegions := regions, wParts := wparts, workspace := workspace }
  else none

/-- The assertions of `get_num_spaces` (`SquarePlanner.hpp` 190-207). -/
def Planner.sizesAgree (pl : Planner K P V) : Bool :=
  decide (pl.spaces.length = pl.parts.length) &&
  (pl.wRegions.isEmpty || decide (pl.spaces.length = pl.wRegions.length)) &&
  (pl.wParts.isEmpty || decide (pl.spaces.length = pl.wParts.length)) &&
  decide (pl.spaces.length = pl.sol.length) && decide (pl.spaces.length = pl.rhs.length) &&
  pl.workspace.all fun v => decide (pl.spaces.length = v.length)

/-- `add_row_partitioned_matrix` (`SquarePlanner.hpp` 209-235). -/
def Planner.addMatrix (G : Geometry P) (pl : Planner K P V) (m : Op K P V) (dom rng : Nat) : Option (Planner K P V) :=
  if pl.sizesAgree && decide (dom < pl.spaces.length) && decide (rng < pl.spaces.length) then
    let kernel := m.kernelFromRange (G.pieces (pl.parts.getD rng 0))
    let ghost := m.domainFromKernel (G.points (pl.spaces.getD dom 0)) kernel
    some { pl with ops := pl.ops ++ [⟨m, dom, rng, kernel, ghost⟩] }
  else none

/-- Set-up calls of a client program. -/
inductive Setup (K P V : Type)
  | addSol (v : Vec)
  | addRhs (v : Vec)
  | allocate (base n : Nat)
  | addMatrix (m : Op K P V) (dom rng : Nat)

/-- One set-up call. -/
def Planner.setup (G : Geometry P) (pl : Planner K P V) : Setup K P V → Option (Planner K P V)
  | .addSol v => pl.addSol G v
  | .addRhs v => pl.addRhs G v
  | .allocate base n => pl.allocateWorkspace G base n
  | .addMatrix m dom rng => pl.addMatrix G m dom rng

/-- Set-up calls one after the other. -/
def Planner.setupAll (G : Geometry P) : Planner K P V → List (Setup K P V) → Option (Planner K P V)
  | pl, [] => some pl
  | pl, c :: cs => (pl.setup G c).bind fun pl' => pl'.setupAll G cs

/-! ## Vector operations -/

/-- `get_vector` (`SquarePlanner.hpp` 237-246). -/
def Planner.lookup (pl : Planner K P V) (k i : Nat) : Option Vec :=
  if k = 0 then pl.sol[i]? else if k = 1 then pl.rhs[i]? else pl.workspace[k - 2]?.bind fun l => l[i]?

/-- The vectors `zero_fill` iterates over (`SquarePlanner.hpp` 249-257). -/
def Planner.blocksOf (pl : Planner K P V) (k : Nat) : Option (List Vec) :=
  if k = 0 then some pl.sol else if k = 1 then some pl.rhs else pl.workspace[k - 2]?

/-- `get_vector` in a launch program. -/
def Planner.getVector (pl : Planner K P V) (k i : Nat) : M P V Vec := fun e => (pl.lookup k i).map fun v => (v, e)

/-- `get_num_spaces`. -/
def Planner.numSpaces (pl : Planner K P V) : M P V Nat := do
  require pl.sizesAgree
  pure pl.spaces.length

/-- A counted loop. -/
def loop {ι : Type} : List ι → (ι → M P V Unit) → M P V Unit
  | [], _ => pure ()
  | i :: l, f => do f i; loop l f

/-- `zero_fill` (`SquarePlanner.hpp` 248-259). -/
def Planner.zeroFill (A : Arith V) (E : Env P) (pl : Planner K P V) (k : Nat) : M P V Unit := fun e =>
  (pl.blocksOf k).bind fun l => loop l (fun v => Verif.Vector.zeroFill A E v) e

/-- `copy` (`SquarePlanner.hpp` 261-266). -/
def Planner.copy (E : Env P) (pl : Planner K P V) (dst src : Nat) : M P V Unit := do
  let ns ← pl.numSpaces
  loop (List.range ns) fun i => do
    let y ← pl.getVector dst i; let x ← pl.getVector src i
    assign E y x

/-- `scal` (`SquarePlanner.hpp` 268-273). -/
def Planner.scal (A : Arith V) (E : Env P) (pl : Planner K P V) (dst : Nat) (alpha : Scalar) : M P V Unit := do
  let ns ← pl.numSpaces
  loop (List.range ns) fun i => do
    let y ← pl.getVector dst i
    Verif.Vector.scal A E y alpha

/-- `axpy(dst, alpha, src)` (`SquarePlanner.hpp` 275-281). -/
def Planner.axpy (A : Arith V) (E : Env P) (pl : Planner K P V) (dst : Nat) (alpha : Scalar) (src : Nat) : M P V Unit := do
  let ns ← pl.numSpaces
  loop (List.range ns) fun i => do
    let y ← pl.getVector dst i; let x ← pl.getVector src i
    Verif.Vector.axpy A E y alpha x

/-- `axpy(dst, numer, denom, src)` (`SquarePlanner.hpp` 283-294). -/
def Planner.axpy2 (A : Arith V) (E : Env P) (pl : Planner K P V) (dst : Nat) (numer denom : Scalar) (src : Nat) :
    M P V Unit := do
  let ns ← pl.numSpaces
  loop (List.range ns) fun i => do
    let y ← pl.getVector dst i; let x ← pl.getVector src i
    Verif.Vector.axpy2 A E y numer denom x

/-- `axpy(dst, numer1, numer2, denom, src)` (`SquarePlanner.hpp` 296-308). -/
def Planner.axpy3 (A : Arith V) (E : Env P) (pl : Planner K P V) (dst : Nat) (numer1 numer2 denom : Scalar) (src : Nat) :
    M P V Unit := do
  let ns ← pl.numSpaces
  loop (List.range ns) fun i => do
    let y ← pl.getVector dst i; let x ← pl.getVector src i
    Verif.Vector.axpy3 A E y numer1 numer2 denom x

/-- `xpay(dst, alpha, src)` (`SquarePlanner.hpp` 310-316). -/
def Planner.xpay (A : Arith V) (E : Env P) (pl : Planner K P V) (dst : Nat) (alpha : Scalar) (src : Nat) : M P V Unit := do
  let ns ← pl.numSpaces
  loop (List.range ns) fun i => do
    let y ← pl.getVector dst i; let x ← pl.getVector src i
    Verif.Vector.xpay A E y alpha x

/-- `xpay(dst, numer, denom, src)` (`SquarePlanner.hpp` 318-329). -/
def Planner.xpay2 (A : Arith V) (E : Env P) (pl : Planner K P V) (dst : Nat) (numer denom : Scalar) (src : Nat) :
    M P V Unit := do
  let ns ← pl.numSpaces
  loop (List.range ns) fun i => do
    let y ← pl.getVector dst i; let x ← pl.getVector src i
    Verif.Vector.xpay2 A E y numer denom x

/-- The loop of `dot` (`SquarePlanner.hpp` 334-336): `result = result + v_i.dot(w_i)`. -/
def Planner.dotLoop (A : Arith V) (E : Env P) (pl : Planner K P V) (v w : Nat) : List Nat → Scalar → M P V Scalar
  | [], result => pure result
  | i :: l, result => do
    let x ← pl.getVector v i; let y ← pl.getVector w i
    let d ← Verif.Vector.dot A E x y
    let result' ← sAdd A result d
    pl.dotLoop A E v w l result'

/-- `dot` (`SquarePlanner.hpp` 331-338). -/
def Planner.dot (A : Arith V) (E : Env P) (pl : Planner K P V) (v w : Nat) : M P V Scalar := do
  let ns ← pl.numSpaces
  let x ← pl.getVector v 0; let y ← pl.getVector w 0
  let result ← Verif.Vector.dot A E x y
  pl.dotLoop A E v w (List.range' 1 (ns - 1)) result

/-- `matvec` (`SquarePlanner.hpp` 340-357). -/
def Planner.matvec (A : Arith V) (E : Env P) (pl : Planner K P V) (dst src : Nat) : M P V Unit := do
  pl.zeroFill A E dst
  loop pl.ops fun r => do
    let y ← pl.getVector dst r.rng; let x ← pl.getVector src r.dom
    r.matrix.matvec A E y x r.kernel r.ghost

end Verif.Planner
