import Verif.Solver.Determinism
import Verif.Programs.Model

/-!
# The library built without assertions

`build_legion.py` 41-44 lists two build types, `Debug` and `RelWithDebInfo`; the second defines `NDEBUG`, so every `assert` of the sources
is removed, as are the bounds checks of the accessors (`LibraryOptions.hpp` 19-23).  The other models are of the debug build.  Here: the
calls with assertions once more, without them.  `none` now stands only for undefined behaviour (an element outside a `std::vector` or
outside a task's piece) and for requests the runtime refuses (a field that does not exist, a colour that does not exist).
-/
namespace Verif.Release
open Verif.Runtime Verif.Vector Verif.Matrix Verif.Planner Verif.Solver Verif.Programs
variable {K P V : Type} [DecidableEq P] [DecidableEq K]

/-! ## Vectors -/

/-- What an operation on two vectors needs without its assertions: for every colour of `y` the runtime finds a piece of `x`, and the task,
which visits the points of `y`'s piece, finds them in `x`'s piece. -/
def covers (E : Env P) (y x : Vec) : Bool :=
  decide ((E.pieces y.part).length ≤ (E.pieces x.part).length) &&
    ((E.pieces y.part).zip (E.pieces x.part)).all fun yx => yx.1.all fun p => decide (p ∈ yx.2)

/-- `AxpyTask` (`LinearAlgebraTasks.cpp` 47-88) on pieces of its two vectors. -/
def axpyTask (A : Arith V) (y x : Vec) (futs : List Nat) (ypts xpts : List P) : Task (Cell P) V where
  reads c := inPiece y ypts c ∨ inPiece x xpts c ∨ ∃ f ∈ futs, c = .fut f
  writes c := inPiece y ypts c
  body := ypts.map fun p => ⟨.elem y.data p, fun s => A.fma (alphaOf A futs s) (s (.elem x.data p)) (s (.elem y.data p))⟩

/-- `XpayTask` (`LinearAlgebraTasks.cpp` 91-132). -/
def xpayTask (A : Arith V) (y x : Vec) (futs : List Nat) (ypts xpts : List P) : Task (Cell P) V where
  reads c := inPiece y ypts c ∨ inPiece x xpts c ∨ ∃ f ∈ futs, c = .fut f
  writes c := inPiece y ypts c
  body := ypts.map fun p => ⟨.elem y.data p, fun s => A.fma (alphaOf A futs s) (s (.elem y.data p)) (s (.elem x.data p))⟩

/-- One piece of an index copy (`PartitionedVector.cpp` 183-189). -/
def copyTask (dst src : Vec) (dpts spts : List P) : Task (Cell P) V where
  reads c := inPiece src spts c
  writes c := inPiece dst dpts c
  body := dpts.map fun p => ⟨.elem dst.data p, fun s => s (.elem src.data p)⟩

/-- `DotTask` (`LinearAlgebraTasks.cpp` 135-175). -/
def dotTask (A : Arith V) (v w : Vec) (f color : Nat) (vpts wpts : List P) : Task (Cell P) V where
  reads c := inPiece v vpts c ∨ inPiece w wpts c ∨ c = .part f color
  writes c := c = .part f color
  body := ⟨.part f color, fun _ => A.zero⟩ :: vpts.map fun p => ⟨.part f color, fun s =>
    A.add (s (.part f color)) (A.mul (s (.elem v.data p)) (s (.elem w.data p)))⟩

/-- `operator=(const PartitionedVector &)` (`PartitionedVector.cpp` 175-191) without 179-181. -/
def assign (E : Env P) (dst src : Vec) : M P V Unit := do
  require (covers E dst src)
  launch (List.zipWith (copyTask dst src) (E.pieces dst.part) (E.pieces src.part))

/-- The overloads of `axpy` (`PartitionedVector.cpp` 210-284) without 214-216, 239-241, 266-268. -/
def axpyGen (A : Arith V) (E : Env P) (y x : Vec) (futs : List Nat) : M P V Unit := do
  require (covers E y x)
  launch (List.zipWith (axpyTask A y x futs) (E.pieces y.part) (E.pieces x.part))

/-- The overloads of `xpay` (`PartitionedVector.cpp` 287-333) without 291-293, 316-318. -/
def xpayGen (A : Arith V) (E : Env P) (y x : Vec) (futs : List Nat) : M P V Unit := do
  require (covers E y x)
  launch (List.zipWith (xpayTask A y x futs) (E.pieces y.part) (E.pieces x.part))

/-- `dot` (`PartitionedVector.cpp` 336-358) without 339-341. -/
def dot (A : Arith V) (E : Env P) (v w : Vec) : M P V Scalar := do
  require (covers E v w)
  let f ← fresh
  launch (((E.pieces v.part).zip (E.pieces w.part)).mapIdx fun k p => dotTask A v w f k p.1 p.2)
  launch [reduceTask A f (E.redOrder f (List.range (E.pieces v.part).length))]
  pure ⟨f⟩

/-- The vector constructors (`PartitionedVector.cpp` 26-60, 63-95) without 47-48, 87-88. -/
def newVector (G : Geometry P) (part data : Nat) : Vec := ⟨data, G.parent part, G.colorSpace part, part⟩

/-! ## Set-up of planners -/

/-- The planner object, with what the runtime knows about its regions: the number of fields of each of `workspace_regions`. -/
structure RPlanner (K P V : Type) where
  pl : Planner K P V
  fields : List Nat

/-- Constructor. -/
def RPlanner.empty : RPlanner K P V := ⟨.empty, []⟩

/-- The part common to `add_sol_vector` and `add_rhs_vector` (`SquarePlanner.hpp` 104-121, 131-148): a vector beyond the canonical spaces
extends them. -/
def admit (pl : Planner K P V) (idx : Nat) (v : Vec) : Planner K P V :=
  { pl with
    spaces := if idx < pl.spaces.length then pl.spaces else pl.spaces ++ [v.space]
    parts := if idx < pl.parts.length then pl.parts else pl.parts ++ [v.part] }

/-- `add_sol_vector` (`SquarePlanner.hpp` 99-124). -/
def RPlanner.addSol (rp : RPlanner K P V) (v : Vec) : RPlanner K P V :=
  { rp with pl := { admit rp.pl rp.pl.sol.length v with sol := rp.pl.sol ++ [copyConstruct v] } }

/-- `add_rhs_vector` (`SquarePlanner.hpp` 126-151). -/
def RPlanner.addRhs (rp : RPlanner K P V) (v : Vec) : RPlanner K P V :=
  { rp with pl := { admit rp.pl rp.pl.rhs.length v with rhs := rp.pl.rhs ++ [copyConstruct v] } }

/-- The handle pushed in the inner loop of `allocate_workspace` (`SquarePlanner.hpp` 177-185): made from `workspace_partitions[i]` (not
from the partition just pushed) and field `j`; the runtime refuses a field the region does not have.  (Simplification: at once instead of
at the first use.) -/
def workVector (G : Geometry P) (wparts : List (Nat × Nat)) (fields : List Nat) (j i : Nat) : Option Vec :=
  wparts[i]?.bind fun rp => if j < fields.getD i 0 then some (newVector G rp.2 (rp.1 + j)) else none

/-- `allocate_workspace` (`SquarePlanner.hpp` 153-188): `num_vectors` empty vectors are appended to `workspace_vectors`, regions and
partitions are appended; the handles are appended to the *first* `num_vectors` elements.  The runtime returns new regions as in
`Planner.allocateWorkspace`.  `none` also if there are fewer canonical partitions than spaces (174). -/
def RPlanner.allocateWorkspace (G : Geometry P) (rp : RPlanner K P V) (base n : Nat) : Option (RPlanner K P V) := do
  if rp.pl.spaces.length ≤ rp.pl.parts.length then
    let ns := rp.pl.spaces.length
    let regions := (List.range ns).map fun i => base + i * n
    let wparts := rp.pl.wParts ++ List.zipWith Prod.mk regions rp.pl.parts
    let fields := rp.fields ++ List.replicate ns n
    let handles ← (List.range n).mapM fun j => (List.range ns).mapM fun i => workVector G wparts fields j i
    let workspace := (rp.pl.workspace ++ List.replicate n []).mapIdx fun j l => l ++ handles.getD j []
    some ⟨{ rp.pl with hasFields := true, wRegions := rp.pl.wRegions ++ regions, wParts := wparts, workspace := workspace }, fields⟩
  else none

/-- `add_row_partitioned_matrix` (`SquarePlanner.hpp` 209-235); `none`: 218 or 222 accesses outside the vector. -/
def RPlanner.addMatrix (G : Geometry P) (rp : RPlanner K P V) (m : Op K P V) (dom rng : Nat) : Option (RPlanner K P V) :=
  if rng < rp.pl.parts.length ∧ dom < rp.pl.spaces.length then
    let kernel := m.kernelFromRange (G.pieces (rp.pl.parts.getD rng 0))
    let ghost := m.domainFromKernel (G.points (rp.pl.spaces.getD dom 0)) kernel
    some { rp with pl := { rp.pl with ops := rp.pl.ops ++ [⟨m, dom, rng, kernel, ghost⟩] } }
  else none

/-! ## Operations of planners -/

/-- An operation on the blocks of two vectors (`SquarePlanner.hpp` 261-329): `get_num_spaces` only counts. -/
def blocks2 (pl : Planner K P V) (dst src : Nat) (f : Vec → Vec → M P V Unit) : M P V Unit :=
  loop (List.range pl.spaces.length) fun i => do
    let y ← pl.getVector dst i; let x ← pl.getVector src i
    f y x

/-- `scal` (`SquarePlanner.hpp` 268-273). -/
def pScal (A : Arith V) (E : Env P) (pl : Planner K P V) (dst : Nat) (alpha : Scalar) : M P V Unit :=
  loop (List.range pl.spaces.length) fun i => do
    let y ← pl.getVector dst i
    Verif.Vector.scal A E y alpha

/-- The loop of `dot` (`SquarePlanner.hpp` 334-336). -/
def pDotLoop (A : Arith V) (E : Env P) (pl : Planner K P V) (v w : Nat) : List Nat → Scalar → M P V Scalar
  | [], result => pure result
  | i :: l, result => do
    let x ← pl.getVector v i; let y ← pl.getVector w i
    let d ← dot A E x y
    let result' ← sAdd A result d
    pDotLoop A E pl v w l result'

/-- `dot` (`SquarePlanner.hpp` 331-338). -/
def pDot (A : Arith V) (E : Env P) (pl : Planner K P V) (v w : Nat) : M P V Scalar := do
  let x ← pl.getVector v 0; let y ← pl.getVector w 0
  let result ← dot A E x y
  pDotLoop A E pl v w (List.range' 1 (pl.spaces.length - 1)) result

/-- The operations the solvers call.  `zero_fill`, `matvec` and the scalars' operations contain no assertions (for the assertion that a
row is found, `CSRMatrixTasks.cpp` 86: without it the row is an uninitialised variable, so the model still stops there). -/
def releaseOps (A : Arith V) (E : Env P) (pl : Planner K P V) : Ops (M P V) Scalar where
  negOne := scalarOf (A.neg A.one)
  zero := scalarOf A.zero
  one := scalarOf A.one
  neg := sNeg A
  mul := sMul A
  div := sDiv A
  sqrt := sSqrt A
  rsqrt := sRsqrt A
  zeroFill := pl.zeroFill A E
  copy d x := blocks2 pl d x (assign E)
  scal := pScal A E pl
  axpy d a x := blocks2 pl d x fun y x => axpyGen A E y x [a.fut]
  axpy2 d a b x := blocks2 pl d x fun y x => axpyGen A E y x [a.fut, b.fut]
  axpy3 d a b c x := blocks2 pl d x fun y x => axpyGen A E y x [a.fut, b.fut, c.fut]
  xpay d a x := blocks2 pl d x fun y x => xpayGen A E y x [a.fut]
  xpay2 d a b x := blocks2 pl d x fun y x => xpayGen A E y x [a.fut, b.fut]
  dot := pDot A E pl
  matvec := pl.matvec A E
  dummy := dummyTask A

/-- `allocate_workspace` inside a program. -/
def allocate (G : Geometry P) (rp : RPlanner K P V) (base n : Nat) : M P V (RPlanner K P V) := lift (rp.allocateWorkspace G base n)

/-- Construct a `CGSolver` on the planner and call `step` `k` times; the planner lives on. -/
def cg (A : Arith V) (G : Geometry P) (rp : RPlanner K P V) (base k : Nat) : M P V (RPlanner K P V × CG Scalar) := do
  let rp' ← allocate G rp base 3
  let c ← CG.solve (releaseOps A G.toEnv rp'.pl) k
  pure (rp', c)

/-- The same with a `BiCGStabSolver`. -/
def biCGStab (A : Arith V) (G : Geometry P) (rp : RPlanner K P V) (base k : Nat) : M P V (RPlanner K P V × BiCGStab Scalar) := do
  let rp' ← allocate G rp base 5
  let c ← BiCGStab.solve (releaseOps A G.toEnv rp'.pl) k
  pure (rp', c)

/-- The same with a `GMRESSolver`. -/
def gmres (A : Arith V) (G : Geometry P) (rp : RPlanner K P V) (base restart k : Nat) : M P V (RPlanner K P V × GMRES Scalar) := do
  let rp' ← allocate G rp base (restart + 1)
  let c ← GMRES.solve (releaseOps A G.toEnv rp'.pl) restart k
  pure (rp', c)

/-! ## The same source in the two builds -/

/-- The two builds' planner objects that stand for each other. -/
def Matches (pl : Planner K P V) (rp : RPlanner K P V) : Prop := rp.pl = pl ∧ rp.fields.length = pl.wParts.length

/-- Programs compiled twice: `m` is the debug build's behaviour, `m'` the release build's, of the same sequence of library calls, later
calls depending in any way on the handles returned by earlier ones.  `R` relates the two results (equal handles; planner objects that stand
for each other). -/
inductive SameSource (K : Type) [DecidableEq K] (A : Arith V) (G : Geometry P) :
    {α β : Type} → (α → β → Prop) → M P V α → M P V β → Prop
  | done {α β : Type} {R : α → β → Prop} (a : α) (b : β) : R a b → SameSource K A G R (pure a) (pure b)
  | andThen {α β γ δ : Type} {R : α → β → Prop} {S : γ → δ → Prop} {m : M P V α} {m' : M P V β} {f : α → M P V γ} {f' : β → M P V δ} :
      SameSource K A G R m m' → (∀ a b, R a b → SameSource K A G S (f a) (f' b)) → SameSource K A G S (m >>= f) (m' >>= f')
  -- calls without assertions: the same code in both builds
  | scalarOf (a : V) : SameSource K A G Eq (scalarOf a) (scalarOf a)
  | sNeg (a : Scalar) : SameSource K A G Eq (sNeg A a) (sNeg A a)
  | sAdd (a b : Scalar) : SameSource K A G Eq (sAdd A a b) (sAdd A a b)
  | sSub (a b : Scalar) : SameSource K A G Eq (sSub A a b) (sSub A a b)
  | sMul (a b : Scalar) : SameSource K A G Eq (sMul A a b) (sMul A a b)
  | sDiv (a b : Scalar) : SameSource K A G Eq (sDiv A a b) (sDiv A a b)
  | sSqrt (a : Scalar) : SameSource K A G Eq (sSqrt A a) (sSqrt A a)
  | sRsqrt (a : Scalar) : SameSource K A G Eq (sRsqrt A a) (sRsqrt A a)
  | fill (v : Vec) (a : V) : SameSource K A G Eq (constantFill G.toEnv v a) (constantFill G.toEnv v a)
  | fillScalar (v : Vec) (a : Scalar) : SameSource K A G Eq (constantFillScalar G.toEnv v a) (constantFillScalar G.toEnv v a)
  | scal (x : Vec) (a : Scalar) : SameSource K A G Eq (Vector.scal A G.toEnv x a) (Vector.scal A G.toEnv x a)
  | matvec (o : Op K P V) (d x : Vec) (kp : List (List K)) (ghost : List (List P)) :
      SameSource K A G Eq (o.matvec A G.toEnv d x kp ghost) (o.matvec A G.toEnv d x kp ghost)
  -- vectors
  | newVector (part data : Nat) : SameSource K A G Eq (lift (Planner.newVector G part data)) (pure (newVector G part data))
  | assign (d x : Vec) : SameSource K A G Eq (Vector.assign G.toEnv d x) (assign G.toEnv d x)
  | axpy (y : Vec) (a : Scalar) (x : Vec) : SameSource K A G Eq (Vector.axpy A G.toEnv y a x) (axpyGen A G.toEnv y x [a.fut])
  | axpy2 (y : Vec) (a b : Scalar) (x : Vec) :
      SameSource K A G Eq (Vector.axpy2 A G.toEnv y a b x) (axpyGen A G.toEnv y x [a.fut, b.fut])
  | axpy3 (y : Vec) (a b c : Scalar) (x : Vec) :
      SameSource K A G Eq (Vector.axpy3 A G.toEnv y a b c x) (axpyGen A G.toEnv y x [a.fut, b.fut, c.fut])
  | xpay (y : Vec) (a : Scalar) (x : Vec) : SameSource K A G Eq (Vector.xpay A G.toEnv y a x) (xpayGen A G.toEnv y x [a.fut])
  | xpay2 (y : Vec) (a b : Scalar) (x : Vec) :
      SameSource K A G Eq (Vector.xpay2 A G.toEnv y a b x) (xpayGen A G.toEnv y x [a.fut, b.fut])
  | dot (v w : Vec) : SameSource K A G Eq (Vector.dot A G.toEnv v w) (dot A G.toEnv v w)
  -- planners
  | addSol (pl : Planner K P V) (rp : RPlanner K P V) (v : Vec) : Matches pl rp →
      SameSource K A G Matches (lift (pl.addSol G v)) (pure (rp.addSol v))
  | addRhs (pl : Planner K P V) (rp : RPlanner K P V) (v : Vec) : Matches pl rp →
      SameSource K A G Matches (lift (pl.addRhs G v)) (pure (rp.addRhs v))
  | allocate (pl : Planner K P V) (rp : RPlanner K P V) (base n : Nat) : Matches pl rp →
      SameSource K A G Matches (Solver.allocate G pl base n) (allocate G rp base n)
  | addMatrix (pl : Planner K P V) (rp : RPlanner K P V) (o : Op K P V) (dom rng : Nat) : Matches pl rp →
      SameSource K A G Matches (lift (pl.addMatrix G o dom rng)) (lift (rp.addMatrix G o dom rng))
  | numSpaces (pl : Planner K P V) : SameSource K A G Eq pl.numSpaces (pure pl.spaces.length)
  | zeroFill (pl : Planner K P V) (d : Nat) :
      SameSource K A G Eq ((plannerOps A G.toEnv pl).zeroFill d) ((releaseOps A G.toEnv pl).zeroFill d)
  | copy (pl : Planner K P V) (d x : Nat) :
      SameSource K A G Eq ((plannerOps A G.toEnv pl).copy d x) ((releaseOps A G.toEnv pl).copy d x)
  | pScal (pl : Planner K P V) (d : Nat) (a : Scalar) :
      SameSource K A G Eq ((plannerOps A G.toEnv pl).scal d a) ((releaseOps A G.toEnv pl).scal d a)
  | pAxpy (pl : Planner K P V) (d : Nat) (a : Scalar) (x : Nat) :
      SameSource K A G Eq ((plannerOps A G.toEnv pl).axpy d a x) ((releaseOps A G.toEnv pl).axpy d a x)
  | pAxpy2 (pl : Planner K P V) (d : Nat) (a b : Scalar) (x : Nat) :
      SameSource K A G Eq ((plannerOps A G.toEnv pl).axpy2 d a b x) ((releaseOps A G.toEnv pl).axpy2 d a b x)
  | pAxpy3 (pl : Planner K P V) (d : Nat) (a b c : Scalar) (x : Nat) :
      SameSource K A G Eq ((plannerOps A G.toEnv pl).axpy3 d a b c x) ((releaseOps A G.toEnv pl).axpy3 d a b c x)
  | pXpay (pl : Planner K P V) (d : Nat) (a : Scalar) (x : Nat) :
      SameSource K A G Eq ((plannerOps A G.toEnv pl).xpay d a x) ((releaseOps A G.toEnv pl).xpay d a x)
  | pXpay2 (pl : Planner K P V) (d : Nat) (a b : Scalar) (x : Nat) :
      SameSource K A G Eq ((plannerOps A G.toEnv pl).xpay2 d a b x) ((releaseOps A G.toEnv pl).xpay2 d a b x)
  | pDot (pl : Planner K P V) (v w : Nat) :
      SameSource K A G Eq ((plannerOps A G.toEnv pl).dot v w) ((releaseOps A G.toEnv pl).dot v w)
  | pMatvec (pl : Planner K P V) (d x : Nat) :
      SameSource K A G Eq ((plannerOps A G.toEnv pl).matvec d x) ((releaseOps A G.toEnv pl).matvec d x)
  -- solvers: constructors (after the allocation) and steps
  | cgInit (pl : Planner K P V) : SameSource K A G Eq (CG.init (plannerOps A G.toEnv pl)) (CG.init (releaseOps A G.toEnv pl))
  | cgStep (pl : Planner K P V) (c : CG Scalar) :
      SameSource K A G Eq (CG.step (plannerOps A G.toEnv pl) c) (CG.step (releaseOps A G.toEnv pl) c)
  | biCGStabInit (pl : Planner K P V) :
      SameSource K A G Eq (BiCGStab.init (plannerOps A G.toEnv pl)) (BiCGStab.init (releaseOps A G.toEnv pl))
  | biCGStabStep (pl : Planner K P V) (c : BiCGStab Scalar) :
      SameSource K A G Eq (BiCGStab.step (plannerOps A G.toEnv pl) c) (BiCGStab.step (releaseOps A G.toEnv pl) c)
  | gmresInit (pl : Planner K P V) (restart : Nat) :
      SameSource K A G Eq (GMRES.init (plannerOps A G.toEnv pl) restart) (GMRES.init (releaseOps A G.toEnv pl) restart)
  | gmresStep (pl : Planner K P V) (c : GMRES Scalar) :
      SameSource K A G Eq (GMRES.step (plannerOps A G.toEnv pl) c) (GMRES.step (releaseOps A G.toEnv pl) c)

end Verif.Release
