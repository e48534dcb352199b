/-!
# Ownership of runtime resources

Models the constructors, copy constructors and destructors of `PartitionedVector`, `COOMatrix`, `CSRMatrix`, `SquarePlanner`, the
Laplacian builders and the stencil builders as far as they create, share and destroy Legion resources.

Legion's contract as modelled: every `create_*` returns a new handle holding one reference; `create_shared_ownership` adds a
reference; `destroy_*` removes one; a handle whose last reference is gone is released.  Using a released handle in any way
is an error (`.resource`).  Simplification, stricter than Legion: destroying a partition or region whose index space (or
colour space, or field space) has been released before is also an error.  Logical partitions are not owned by anybody.
A failed C++ assertion ends the program (`.assertion`).  The macro `LEGION_SOLVERS_DISABLE_CLEANUP` is not defined.
-/
namespace Verif.Ownership

/-- What a handle is. -/
inductive Kind
  | space
  | fields
  | part (parent colors : Nat)
  | region (space fields : Nat)
deriving DecidableEq

/-- The handles a handle depends on. -/
def Kind.deps : Kind → List Nat
  | .space => []
  | .fields => []
  | .part p c => [p, c]
  | .region s f => [s, f]

/-- The runtime's table: reference counts.  Handles from `next` on have not been created. -/
structure Heap where
  next : Nat
  kind : Nat → Kind
  count : Nat → Nat

/-- How a program can end early. -/
inductive Err
  /-- use of a released resource -/
  | resource
  /-- failed assertion -/
  | assertion
deriving DecidableEq

/-- Programs acting on the table. -/
abbrev R (α : Type) := StateT Heap (Except Err) α

/-- Any use of a handle. -/
def need (h : Nat) : R Unit := fun hp => if 0 < hp.count h then .ok ((), hp) else .error .resource

/-- `assert`. -/
def check (b : Bool) : R Unit := fun hp => if b then .ok ((), hp) else .error .assertion

/-- A new handle with one reference. -/
def alloc (k : Kind) : R Nat := fun hp =>
  .ok (hp.next, ⟨hp.next + 1, fun h => if h = hp.next then k else hp.kind h, fun h => if h = hp.next then 1 else hp.count h⟩)

/-- `create_index_space`. -/
def createSpace : R Nat := alloc .space
/-- `create_field_space` (`LegionUtilities.cpp` 10-21). -/
def createFields : R Nat := alloc .fields
/-- `create_logical_region`. -/
def createRegion (s f : Nat) : R Nat := do need s; need f; alloc (.region s f)
/-- `create_equal_partition`, `create_partition_by_*`. -/
def createPart (p c : Nat) : R Nat := do need p; need c; alloc (.part p c)

/-- `create_shared_ownership`. -/
def share (h : Nat) : R Unit := do
  need h
  fun hp => .ok ((), { hp with count := fun i => if i = h then hp.count i + 1 else hp.count i })

/-- All handles are usable. -/
def needAll : List Nat → R Unit
  | [] => pure ()
  | h :: l => do need h; needAll l

/-- What a handle is. -/
def kindOf (h : Nat) : R Kind := fun hp => .ok (hp.kind h, hp)

/-- `destroy_index_space`, `destroy_index_partition`, `destroy_field_space`, `destroy_logical_region`. -/
def destroy (h : Nat) : R Unit := do
  need h
  let k ← kindOf h
  needAll k.deps
  fun hp => .ok ((), { hp with count := fun i => if i = h then hp.count i - 1 else hp.count i })

/-- `get_parent_index_space`, `get_index_partition_color_space_name`. -/
def partInfo (p : Nat) : R (Nat × Nat) := do
  need p
  match (← kindOf p) with
  | .part a c => pure (a, c)
  | _ => fun _ => .error .assertion

/-- `get_index_space`, `get_field_space` of a region. -/
def regionInfo (r : Nat) : R (Nat × Nat) := do
  need r
  match (← kindOf r) with
  | .region s f => pure (s, f)
  | _ => fun _ => .error .assertion

/-- A list of actions. -/
def each {α : Type} (f : α → R Unit) : List α → R Unit
  | [] => pure ()
  | a :: l => do f a; each f l

/-! ## Vectors -/

/-- The handles in a `PartitionedVector` (`PartitionedVector.hpp` 20-40). -/
structure VecO where
  space : Nat
  fields : Nat
  region : Nat
  colors : Nat
  part : Nat
deriving DecidableEq

/-- Constructor from an index partition (`PartitionedVector.cpp` 26-60).  `good` says which partitions are disjoint and complete. -/
def vecNew (good : Nat → Bool) (part : Nat) : R VecO := do
  let (sp, co) ← partInfo part
  let fs ← createFields
  let rg ← createRegion sp fs
  check (good part)
  share sp
  share co
  share part
  pure ⟨sp, fs, rg, co, part⟩

/-- The five `create_shared_ownership` calls (`PartitionedVector.cpp` 90-94, 111-115). -/
def vecShare (v : VecO) : R Unit := do
  share v.space
  share v.fields
  share v.region
  share v.colors
  share v.part

/-- Constructor from a logical partition, i.e. a region and a partition of its index space (`PartitionedVector.cpp` 63-95). -/
def vecNewOn (good : Nat → Bool) (region part : Nat) : R VecO := do
  let (sp, co) ← partInfo part
  let (rs, fs) ← regionInfo region
  check (rs == sp)
  check (good part)
  vecShare ⟨sp, fs, region, co, part⟩
  pure ⟨sp, fs, region, co, part⟩

/-- Copy constructor (`PartitionedVector.cpp` 98-116). -/
def vecCopy (v : VecO) : R VecO := do
  vecShare v
  pure v

/-- Destructor (`PartitionedVector.cpp` 119-128). -/
def vecDrop (v : VecO) : R Unit := do
  destroy v.part
  destroy v.colors
  destroy v.region
  destroy v.fields
  destroy v.space

/-- Append a newly constructed vector to a `std::vector`, which may move its buffer: the vectors in it are then copied and the
originals destroyed (`PartitionedVector` has no move constructor). -/
def vecPush (moves : Bool) (l : List VecO) (mk : R VecO) : R (List VecO) := do
  let v ← mk
  if moves then do
    each vecShare l
    each vecDrop l
  else pure ()
  pure (l ++ [v])

/-! ## Matrices -/

/-- The regions of a matrix: `COOMatrix` has the kernel region, `CSRMatrix` also the row-pointer region. -/
structure MatO where
  kernel : Nat
  rowptr : Option Nat
deriving DecidableEq

/-- A region with its index space and field space: the three shares (`COOMatrix.cpp` 24-26, 40-42; `CSRMatrix.cpp` 26-31, 45-50). -/
def regionShare (r : Nat) : R Unit := do
  let (s, f) ← regionInfo r
  share s
  share f
  share r

/-- The three destroys (`COOMatrix.cpp` 49-51; `CSRMatrix.cpp` 57-62). -/
def regionDrop (r : Nat) : R Unit := do
  let (s, f) ← regionInfo r
  destroy r
  destroy f
  destroy s

/-- Constructors (`COOMatrix.cpp` 9-27, `CSRMatrix.cpp` 9-32). -/
def matNew (m : MatO) : R MatO := do
  regionShare m.kernel
  each regionShare m.rowptr.toList
  pure m

/-- Copy constructors (`COOMatrix.cpp` 30-43, `CSRMatrix.cpp` 35-51). -/
def matCopy (m : MatO) : R MatO := matNew m

/-- Destructors (`COOMatrix.cpp` 46-53, `CSRMatrix.cpp` 54-65). -/
def matDrop (m : MatO) : R Unit := do
  regionDrop m.kernel
  each regionDrop m.rowptr.toList

/-- `coo_negative_laplacian_1d` (`ExampleSystems.cpp` 12-105); launching the fill task only uses handles. -/
def laplacianCOO (launch : Nat) : R MatO := do
  let ks ← createSpace
  let fs ← createFields
  let kr ← createRegion ks fs
  let kp ← createPart ks launch
  needAll [launch, kr, kp]
  let m ← matNew ⟨kr, none⟩
  destroy kp
  destroy kr
  destroy fs
  destroy ks
  pure m

/-- `csr_negative_laplacian_1d` (`ExampleSystems.cpp` 108-249). -/
def laplacianCSR (launch : Nat) : R MatO := do
  let ks ← createSpace
  let kf ← createFields
  let kr ← createRegion ks kf
  let kp ← createPart ks launch
  needAll [launch, kr, kp]
  let rs ← createSpace
  let rf ← createFields
  let rr ← createRegion rs rf
  let rp ← createPart rs launch
  needAll [launch, rr, rp]
  let m ← matNew ⟨kr, some rr⟩
  destroy rp
  destroy rr
  destroy rf
  destroy rs
  destroy kp
  destroy kr
  destroy kf
  destroy ks
  pure m

/-- `create_coo_stencil_matrix` (`StencilGenerator.hpp` 326-416): nothing is destroyed at the end. -/
def stencilCOO : R MatO := do
  let ks ← createSpace
  let fs ← createFields
  let kr ← createRegion ks fs
  let cs ← createSpace
  let kp ← createPart ks cs
  needAll [cs, kr, kp]
  matNew ⟨kr, none⟩

/-- `create_csr_stencil_matrix`, `create_linearized_csr_stencil_matrix` (`StencilGenerator.hpp` 419-530, 533-643). -/
def stencilCSR : R MatO := do
  let ks ← createSpace
  let rs ← createSpace
  let kf ← createFields
  let rf ← createFields
  let kr ← createRegion ks kf
  let rr ← createRegion rs rf
  let cs ← createSpace
  let kp ← createPart ks cs
  let rp ← createPart rs cs
  needAll [cs, kr, kp, rr, rp]
  matNew ⟨kr, some rr⟩

/-- `create_kernel_partition_from_range_partition` (`COOMatrix.cpp` 78-96: preimage along the kernel region; `CSRMatrix.cpp` 87-107: image of
the row-pointer region's logical partition, which must be a partition of its index space). -/
def kernelPart (m : MatO) (range : Nat) : R Nat := do
  let (rsp, co) ← partInfo range
  let (ks, _) ← regionInfo m.kernel
  match m.rowptr with
  | none => createPart ks co
  | some r => do
    let (rs, _) ← regionInfo r
    check (rs == rsp)
    createPart ks co

/-- `create_domain_partition_from_kernel_partition` (`COOMatrix.cpp` 99-119, `CSRMatrix.cpp` 110-130). -/
def ghostPart (m : MatO) (dspace kernel : Nat) : R Nat := do
  need m.kernel
  let (_, co) ← partInfo kernel
  createPart dspace co

/-- `domain_partition_from_range_partition` (`AbstractMatrix.cpp` 8-17): the kernel partition in between is not destroyed. -/
def derivePart (m : MatO) (dspace range : Nat) : R Nat := do
  let k ← kernelPart m range
  ghostPart m dspace k

/-- `print_index_partition` (`LegionUtilities.cpp` 24-69). -/
def printPart (part : Nat) : R Unit := do
  let (sp, co) ← partInfo part
  need co
  let fs ← createFields
  let rg ← createRegion sp fs
  needAll [rg, part]
  destroy rg
  destroy fs

/-! ## Planner -/

/-- A registered matrix: the two partitions made for it, and which matrix object the raw pointer refers to. -/
structure Reg where
  kernel : Nat
  ghost : Nat
  mat : Nat
deriving DecidableEq

/-- The handles in a `SquarePlanner` (`SquarePlanner.hpp` 19-51). -/
structure PlanO where
  spaces : List Nat
  parts : List Nat
  fields : Option Nat
  regions : List Nat
  sol : List VecO
  rhs : List VecO
  work : List (List VecO)
  mats : List Reg
deriving DecidableEq

/-- Constructor (`SquarePlanner.hpp` 55-67). -/
def planEmpty : PlanO := ⟨[], [], none, [], [], [], [], []⟩

/-- No workspace yet (`SquarePlanner.hpp` 100-103). -/
def PlanO.noWork (p : PlanO) : Bool := p.fields.isNone && p.regions.isEmpty && p.work.isEmpty

/-- The part common to `add_sol_vector` and `add_rhs_vector` (`SquarePlanner.hpp` 104-121, 131-148). -/
def planAdmit (good : Nat → Bool) (p : PlanO) (idx : Nat) (v : VecO) : R PlanO := do
  check p.noWork
  let spaces ← if idx < p.spaces.length then do
      check (p.spaces[idx]? == some v.space)
      pure p.spaces
    else do
      check (p.spaces.length == idx)
      share v.space
      pure (p.spaces ++ [v.space])
  let parts ← if idx < p.parts.length then do
      check (p.parts[idx]? == some v.part)
      pure p.parts
    else do
      check (p.parts.length == idx)
      check (good v.part)
      share v.part
      pure (p.parts ++ [v.part])
  pure { p with spaces := spaces, parts := parts }

/-- `add_sol_vector` (`SquarePlanner.hpp` 99-124). -/
def planAddSol (good : Nat → Bool) (moves : Bool) (p : PlanO) (v : VecO) : R PlanO := do
  let p ← planAdmit good p p.sol.length v
  let sol ← vecPush moves p.sol (vecCopy v)
  pure { p with sol := sol }

/-- `add_rhs_vector` (`SquarePlanner.hpp` 126-151). -/
def planAddRhs (good : Nat → Bool) (moves : Bool) (p : PlanO) (v : VecO) : R PlanO := do
  let p ← planAdmit good p p.rhs.length v
  let rhs ← vecPush moves p.rhs (vecCopy v)
  pure { p with rhs := rhs }

/-- The inner loop of `allocate_workspace` (`SquarePlanner.hpp` 177-186): one new vector at the end of each row. -/
def planRow (good : Nat → Bool) (moves : Bool) (region part : Nat) : List (List VecO) → R (List (List VecO))
  | [] => pure []
  | l :: ls => do
    let l' ← vecPush moves l (vecNewOn good region part)
    let ls' ← planRow good moves region part ls
    pure (l' :: ls')

/-- The outer loop (`SquarePlanner.hpp` 170-187). -/
def planRegions (good : Nat → Bool) (moves : Bool) (fs : Nat) : List (Nat × Nat) → List (List VecO) →
    R (List Nat × List (List VecO))
  | [], work => pure ([], work)
  | (sp, part) :: l, work => do
    let rg ← createRegion sp fs
    let work ← planRow good moves rg part work
    let (rgs, work) ← planRegions good moves fs l work
    pure (rg :: rgs, work)

/-- `allocate_workspace` (`SquarePlanner.hpp` 153-188).  The rows of `workspace_vectors` are moved, not copied, when its buffer moves. -/
def planAllocate (good : Nat → Bool) (moves : Bool) (p : PlanO) (n : Nat) : R PlanO := do
  check p.noWork
  check (p.spaces.length == p.parts.length)
  let fs ← createFields
  let (rgs, work) ← planRegions good moves fs (p.spaces.zip p.parts) (List.replicate n [])
  pure { p with fields := some fs, regions := rgs, work := work }

/-- `add_row_partitioned_matrix` (`SquarePlanner.hpp` 209-235); the assertions of `get_num_spaces` (190-207). -/
def planAddMat (p : PlanO) (name : Nat) (m : MatO) (dom rng : Nat) : R PlanO := do
  check (p.spaces.length == p.parts.length && p.spaces.length == p.sol.length && p.spaces.length == p.rhs.length &&
    p.work.all (fun l => l.length == p.spaces.length))
  check (decide (dom < p.spaces.length) && decide (rng < p.spaces.length))
  let k ← kernelPart m (p.parts.getD rng 0)
  let g ← ghostPart m (p.spaces.getD dom 0) k
  pure { p with mats := p.mats ++ [⟨k, g, name⟩] }

/-- Destructor (`SquarePlanner.hpp` 69-94); then the members are destroyed, in reverse order of declaration. -/
def planDrop (p : PlanO) : R Unit := do
  each (fun r => do destroy r.kernel; destroy r.ghost) p.mats
  each destroy p.regions
  each destroy p.fields.toList
  each destroy p.parts
  each destroy p.spaces
  each vecDrop p.work.flatten
  each vecDrop p.rhs
  each vecDrop p.sol

/-- The implicit copy constructor of `SquarePlanner` (a destructor is declared, a copy constructor is not): the handles are copied,
the vectors are copied with their copy constructor. -/
def planCopy (p : PlanO) : R PlanO := do
  each vecShare p.sol
  each vecShare p.rhs
  each vecShare p.work.flatten
  pure p

/-! ## Client programs -/

/-- A library object held by the client. -/
inductive Obj
  | vec (v : VecO)
  | mat (m : MatO)
  | plan (p : PlanO)
deriving DecidableEq

/-- A client program's state: the runtime's table, the references the client itself holds (from its own `create_*` calls), and
its live library objects, with names. -/
structure World where
  heap : Heap
  mine : List Nat
  objs : List (Nat × Obj)

/-- Nothing exists. -/
def World.empty : World := ⟨⟨0, fun _ => .space, fun _ => 0⟩, [], []⟩

/-- The object named `i`. -/
def World.get (w : World) (i : Nat) : Option Obj := (w.objs.find? fun x => x.1 == i).map (·.2)

/-- All objects except the one named `i`. -/
def World.rest (w : World) (i : Nat) : List (Nat × Obj) := w.objs.eraseP fun x => x.1 == i

/-- What a client program can do.  `i`, `j` are names of objects; new objects get a name chosen by the client. -/
inductive Action
  | space
  | fields
  | part (parent colors : Nat)
  | region (space fields : Nat)
  | destroy (h : Nat)
  | print (part : Nat)
  | vec (i part : Nat)
  | vecOn (i region part : Nat)
  | coo (i region : Nat)
  | csr (i region rowptr : Nat)
  | laplacianCOO (i launch : Nat)
  | laplacianCSR (i launch : Nat)
  /-- copy construction, of vectors and matrices -/
  | copy (i j : Nat)
  | plan (i : Nat)
  | addSol (moves : Bool) (i v : Nat)
  | addRhs (moves : Bool) (i v : Nat)
  /-- `allocate_workspace`, also through the constructors of the solvers -/
  | allocate (moves : Bool) (i n : Nat)
  | addMat (i m dom rng : Nat)
  /-- end of life of an object -/
  | drop (i : Nat)

/-- Run a library call and put its result into the world. -/
def World.run {α : Type} (w : World) (m : R α) (f : α → List Nat × List (Nat × Obj)) : Except Err World :=
  match m w.heap with
  | .ok (a, hp) => .ok ⟨hp, (f a).1, (f a).2⟩
  | .error e => .error e

/-- One action.  An action naming an object of the wrong type is not a C++ program; it is treated as a failed assertion. -/
def World.step (good : Nat → Bool) (w : World) : Action → Except Err World
  | .space => w.run createSpace fun h => (h :: w.mine, w.objs)
  | .fields => w.run createFields fun h => (h :: w.mine, w.objs)
  | .part p c => w.run (createPart p c) fun h => (h :: w.mine, w.objs)
  | .region s f => w.run (createRegion s f) fun h => (h :: w.mine, w.objs)
  | .destroy h => w.run (Ownership.destroy h) fun _ => (w.mine.erase h, w.objs)
  | .print p => w.run (printPart p) fun _ => (w.mine, w.objs)
  | .vec i p => w.run (vecNew good p) fun v => (w.mine, (i, .vec v) :: w.objs)
  | .vecOn i r p => w.run (vecNewOn good r p) fun v => (w.mine, (i, .vec v) :: w.objs)
  | .coo i r => w.run (matNew ⟨r, none⟩) fun m => (w.mine, (i, .mat m) :: w.objs)
  | .csr i r q => w.run (matNew ⟨r, some q⟩) fun m => (w.mine, (i, .mat m) :: w.objs)
  | .laplacianCOO i l => w.run (Ownership.laplacianCOO l) fun m => (w.mine, (i, .mat m) :: w.objs)
  | .laplacianCSR i l => w.run (Ownership.laplacianCSR l) fun m => (w.mine, (i, .mat m) :: w.objs)
  | .copy i j => match w.get j with
    | some (.vec v) => w.run (vecCopy v) fun v => (w.mine, (i, .vec v) :: w.objs)
    | some (.mat m) => w.run (matCopy m) fun m => (w.mine, (i, .mat m) :: w.objs)
    | _ => .error .assertion
  | .plan i => .ok ⟨w.heap, w.mine, (i, .plan planEmpty) :: w.objs⟩
  | .addSol b i v => match w.get i, w.get v with
    | some (.plan p), some (.vec v) => w.run (planAddSol good b p v) fun p => (w.mine, (i, .plan p) :: w.rest i)
    | _, _ => .error .assertion
  | .addRhs b i v => match w.get i, w.get v with
    | some (.plan p), some (.vec v) => w.run (planAddRhs good b p v) fun p => (w.mine, (i, .plan p) :: w.rest i)
    | _, _ => .error .assertion
  | .allocate b i n => match w.get i with
    | some (.plan p) => w.run (planAllocate good b p n) fun p => (w.mine, (i, .plan p) :: w.rest i)
    | _ => .error .assertion
  | .addMat i m d r => match w.get i, w.get m with
    | some (.plan p), some (.mat mo) => w.run (planAddMat p m mo d r) fun p => (w.mine, (i, .plan p) :: w.rest i)
    | _, _ => .error .assertion
  | .drop i => match w.get i with
    | some (.vec v) => w.run (vecDrop v) fun _ => (w.mine, w.rest i)
    | some (.mat m) => w.run (matDrop m) fun _ => (w.mine, w.rest i)
    | some (.plan p) => w.run (planDrop p) fun _ => (w.mine, w.rest i)
    | none => .error .assertion

/-- A sequence of actions. -/
def World.steps (good : Nat → Bool) : World → List Action → Except Err World
  | w, [] => .ok w
  | w, a :: l => match w.step good a with
    | .ok w' => w'.steps good l
    | .error e => .error e

end Verif.Ownership
