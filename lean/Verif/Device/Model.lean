import Verif.Solver.Model
import Verif.Matrix.Gpu
import Verif.Blas.Model

/-!
# Programs whose tasks may run on GPUs

Every vector and matrix task of the library is registered with a CPU and a GPU variant (`TaskBaseClasses.hpp`,
`LegionSolversMapper.cpp`); the mapper decides for each point task where it runs.  This file models the programs of
`Verif.Vector`, `Verif.Matrix`, `Verif.Planner` and `Verif.Solver` with such a decision: the `i`-th point task launched runs on a
CPU (the task bodies of those files) or on a GPU (`src/LinearAlgebraTasks.cu`, `src/COOMatrixTasks.cu`, `src/CSRMatrixTasks.cu`).

Everything is one-dimensional (the sparse GPU tasks exist for no other dimension).  A GPU task has the same region requirements
as the CPU task (they belong to the launch).  Simplifications: a piece's elements are contiguous in memory (one dimension; for more
see `Verif.Blas`); cuBLAS and cuSPARSE follow their documentation, adding up in an order and with a bracketing of their own and
writing elements in an order of their own; cuSPARSE does not touch rows of the output outside the piece; products in place (`dst`
and `src` the same vector), undefined in cuSPARSE, stay on the CPU.
-/
namespace Verif.Device
open Verif.Runtime Verif.Vector Verif.Matrix Verif.Planner Verif.Solver

/-- The shape in which a GPU adds up terms `0 … n-1`: any order, any bracketing. -/
inductive Tree
  | leaf (i : Nat)
  | node (l r : Tree)

/-- The indices that occur in the sum. -/
def Tree.leaves : Tree → List Nat
  | .leaf i => [i]
  | .node l r => l.leaves ++ r.leaves

/-- The sum of the terms `f i`. -/
def Tree.sum {V : Type} (A : Arith V) (f : Nat → V) : Tree → V
  | .leaf i => f i
  | .node l r => A.add (l.sum A f) (r.sum A f)

/-- What is left open about one execution on a GPU. -/
structure Gpu where
  /-- the order in which the elements of a vector are written -/
  elems : List Int → List Int
  /-- the order in which the threads of a kernel get to run -/
  threads : List (Nat × Nat) → List (Nat × Nat)
  /-- the shape of a sum of `n` terms -/
  tree : Nat → Tree

/-- Nothing is left out or done twice. -/
structure Gpu.Ok (g : Gpu) : Prop where
  elems : ∀ l, (g.elems l).Perm l
  threads : ∀ l, (g.threads l).Perm l
  tree : ∀ n, 0 < n → (g.tree n).leaves.Perm (List.range n)

/-- Where the `i`-th point task launched by the program runs: `none` on a CPU, `some g` on a GPU that behaves like `g`. -/
abbrev Devices := Nat → Option Gpu

variable {V : Type}

/-- The task with its registered variants: the CPU body and, for each behaviour of the GPU, the GPU body.  `none`: the variant
stops with a failed assertion. -/
structure PointTask (V : Type) where
  cpu : Option (Task (Cell Int) V)
  gpu : Gpu → Option (Task (Cell Int) V)

/-- The variant chosen by the mapper. -/
def PointTask.on (t : PointTask V) : Option Gpu → Option (Task (Cell Int) V)
  | none => t.cpu
  | some g => t.gpu g

/-- An index launch: the `j`-th point task is number `j` after all tasks launched before. -/
def launchOn (dev : Devices) (l : List (PointTask V)) : M Int V Unit := fun e =>
  ((l.mapIdx fun j (t : PointTask V) => t.on (dev (e.out.length + j))).mapM id).bind fun ts => launch ts e

/-! ## GPU variants -/

/-- `domain.dense()`: the piece is an interval (its points are visited in increasing order). -/
def dense (pts : List Int) : Bool := decide (pts = (List.range pts.length).map fun (j : Nat) => pts.headD 0 + (j : Int))

/-- The elements cuBLAS is told to process: `n` elements from the first element of the piece, `n` being the volume converted to
`int` (`CUDAUtilities.hpp` 104-117). -/
def blasElems (pts : List Int) : List Int :=
  (List.range (Verif.Blas.intArg pts.length).toNat).map fun (j : Nat) => pts.headD 0 + (j : Int)

/-- `ScalTask::cuda_task_body` (`LinearAlgebraTasks.cu` 14-53). -/
def scalGpu (A : Arith V) (x : Vec) (futs : List Nat) (pts : List Int) (g : Gpu) : Option (Task (Cell Int) V) :=
  if dense pts then some { scalTask A x futs pts with
    body := if pts = [] then [] else (g.elems (blasElems pts)).map fun p =>
      ⟨.elem x.data p, fun s => A.mul (alphaOf A futs s) (s (.elem x.data p))⟩ }
  else none

/-- `AxpyTask::cuda_task_body` (`LinearAlgebraTasks.cu` 56-107): `y := alpha * x + y`. -/
def axpyGpu (A : Arith V) (y x : Vec) (futs : List Nat) (pts : List Int) (g : Gpu) : Option (Task (Cell Int) V) :=
  if dense pts then some { axpyTask A y x futs pts with
    body := if pts = [] then [] else (g.elems (blasElems pts)).map fun p =>
      ⟨.elem y.data p, fun s => A.fma (alphaOf A futs s) (s (.elem x.data p)) (s (.elem y.data p))⟩ }
  else none

/-- `XpayTask::cuda_task_body` and `xpay_kernel` (`LinearAlgebraTasks.cu` 110-176): one thread per element. -/
def xpayGpu (A : Arith V) (y x : Vec) (futs : List Nat) (pts : List Int) (g : Gpu) : Option (Task (Cell Int) V) :=
  if dense pts then some { xpayTask A y x futs pts with
    body := if pts = [] then [] else (g.threads (Verif.Gpu.launchGrid pts.length)).filterMap fun t =>
      if Verif.Gpu.globalTid t ≥ pts.length then none
      else some ⟨.elem y.data (Verif.Gpu.unflatten0 (Verif.Gpu.globalTid t) (pts.headD 0)), fun s =>
        A.fma (alphaOf A futs s) (s (.elem y.data (Verif.Gpu.unflatten0 (Verif.Gpu.globalTid t) (pts.headD 0))))
          (s (.elem x.data (Verif.Gpu.unflatten0 (Verif.Gpu.globalTid t) (pts.headD 0))))⟩ }
  else none

/-- `DotTask::cuda_task_body` (`LinearAlgebraTasks.cu` 179-240): the result is 0 unless cuBLAS has something to add up. -/
def dotGpu (A : Arith V) (v w : Vec) (f color : Nat) (pts : List Int) (g : Gpu) : Option (Task (Cell Int) V) :=
  if dense pts then some { dotTask A v w f color pts with
    body := [⟨.part f color, fun s =>
      if pts = [] ∨ Verif.Blas.intArg pts.length ≤ 0 then A.zero
      else (g.tree (Verif.Blas.intArg pts.length).toNat).sum A fun i =>
        A.mul (s (.elem v.data (pts.headD 0 + (i : Int)))) (s (.elem w.data (pts.headD 0 + (i : Int))))⟩] }
  else none

/-- The lower bound of a set of kernel points (`bounds.lo`). -/
def lowest : List Int → Int
  | [] => 0
  | k :: l => l.foldl min k

/-- `COOMatvecTask::cuda_task_body` (`COOMatrixTasks.cu` 13-146): `gpuCoo` gives the new value of an output element. -/
def cooGpu [Field V] (A : Arith V) (m : COO Int Int V) (dst src : Vec) (out kp inp : List Int) (g : Gpu) :
    Option (Task (Cell Int) V) :=
  some { cooTask A m dst src out kp inp with
    body := if kp = [] then [] else (g.elems out).map fun p =>
      ⟨.elem dst.data p, fun s => gpuCoo m kp (lowest kp) (fun q => s (.elem src.data q)) (fun q => s (.elem dst.data q)) p⟩ }

/-- `CSRMatvecTask::cuda_task_body` (`CSRMatrixTasks.cu` 14-156): `gpuCsr` gives the new value of an output element; `rp` are the
rectangles stored in the row-pointer region.  The CPU task's assertion that every entry has a row (`CSRMatrixTasks.cpp` 86) is
not made. -/
def csrGpu [Field V] (rp : Csr1 V) (dst src : Vec) (out kp inp : List Int) (g : Gpu) : Option (Task (Cell Int) V) :=
  if dense out then some {
    reads := fun c => inPiece dst out c ∨ inPiece src inp c
    writes := fun c => inPiece dst out c
    body := if out = [] then [] else (g.elems out).map fun p => ⟨.elem dst.data p, fun s =>
      gpuCsr rp out.length (out.headD 0) (lowest kp) (fun q => s (.elem src.data q)) (fun q => s (.elem dst.data q)) p⟩ }
  else none

/-! ## Vector operations (`PartitionedVector.cpp` 194-358) -/

/-- `scal` (`PartitionedVector.cpp` 194-207). -/
def scal (dev : Devices) (A : Arith V) (E : Env Int) (x : Vec) (alpha : Scalar) : M Int V Unit :=
  launchOn dev ((E.pieces x.part).map fun pts => ⟨some (scalTask A x [alpha.fut] pts), scalGpu A x [alpha.fut] pts⟩)

/-- The three `axpy` functions (`PartitionedVector.cpp` 210-284), which differ in the futures they pass. -/
def axpyWith (dev : Devices) (A : Arith V) (E : Env Int) (y : Vec) (futs : List Nat) (x : Vec) : M Int V Unit := do
  checkCompatible y x
  launchOn dev ((E.pieces y.part).map fun pts => ⟨some (axpyTask A y x futs pts), axpyGpu A y x futs pts⟩)

/-- The two `xpay` functions (`PartitionedVector.cpp` 287-333). -/
def xpayWith (dev : Devices) (A : Arith V) (E : Env Int) (y : Vec) (futs : List Nat) (x : Vec) : M Int V Unit := do
  checkCompatible y x
  launchOn dev ((E.pieces y.part).map fun pts => ⟨some (xpayTask A y x futs pts), xpayGpu A y x futs pts⟩)

/-- `dot` (`PartitionedVector.cpp` 336-358); the reduction of the results is the runtime's. -/
def dot (dev : Devices) (A : Arith V) (E : Env Int) (v w : Vec) : M Int V Scalar := do
  checkCompatible v w
  let f ← fresh
  launchOn dev ((E.pieces v.part).mapIdx fun k pts => ⟨some (dotTask A v w f k pts), dotGpu A v w f k pts⟩)
  launch [reduceTask A f (E.redOrder f (List.range (E.pieces v.part).length))]
  pure ⟨f⟩

/-! ## Matrices -/

/-- The rectangles stored in the row-pointer region of each CSR matrix (the model of `CSR` keeps only which kernel points they
contain). -/
abbrev RowPtr (V : Type) := CSR Int Int V → Csr1 V

/-- `COOMatrix::matvec` and `CSRMatrix::matvec` (`COOMatrix.cpp` 144-191, `CSRMatrix.cpp` 158-214). -/
def opMatvec [Field V] (dev : Devices) (rp : RowPtr V) (A : Arith V) (E : Env Int) : Op Int Int V → Vec → Vec → List (List Int) →
    List (List Int) → M Int V Unit
  | .coo m, dst, src, kp, ghost => launchOn dev (List.zipWith (fun out ki =>
      ⟨some (cooTask A m dst src out ki.1 ki.2), cooGpu A m dst src out ki.1 ki.2⟩) (E.pieces dst.part) (kp.zip ghost))
  | .csr m, dst, src, kp, ghost => launchOn dev (List.zipWith (fun out ki =>
      ⟨csrTask A m dst src out ki.1 ki.2, csrGpu (rp m) dst src out ki.1 ki.2⟩) (E.pieces dst.part) (kp.zip ghost))

/-! ## The planner (`SquarePlanner.hpp` 268-357) -/

/-- `scal` (`SquarePlanner.hpp` 268-273). -/
def pScal (dev : Devices) (A : Arith V) (E : Env Int) (pl : Planner Int Int V) (dst : Nat) (alpha : Scalar) : M Int V Unit := do
  let ns ← pl.numSpaces
  loop (List.range ns) fun i => do
    let y ← pl.getVector dst i
    scal dev A E y alpha

/-- The three `axpy` functions (`SquarePlanner.hpp` 275-308). -/
def pAxpyWith (dev : Devices) (A : Arith V) (E : Env Int) (pl : Planner Int Int V) (dst : Nat) (futs : List Nat) (src : Nat) :
    M Int V Unit := do
  let ns ← pl.numSpaces
  loop (List.range ns) fun i => do
    let y ← pl.getVector dst i; let x ← pl.getVector src i
    axpyWith dev A E y futs x

/-- The two `xpay` functions (`SquarePlanner.hpp` 310-329). -/
def pXpayWith (dev : Devices) (A : Arith V) (E : Env Int) (pl : Planner Int Int V) (dst : Nat) (futs : List Nat) (src : Nat) :
    M Int V Unit := do
  let ns ← pl.numSpaces
  loop (List.range ns) fun i => do
    let y ← pl.getVector dst i; let x ← pl.getVector src i
    xpayWith dev A E y futs x

/-- The loop of `dot` (`SquarePlanner.hpp` 334-336). -/
def pDotLoop (dev : Devices) (A : Arith V) (E : Env Int) (pl : Planner Int Int V) (v w : Nat) : List Nat → Scalar → M Int V Scalar
  | [], result => pure result
  | i :: l, result => do
    let x ← pl.getVector v i; let y ← pl.getVector w i
    let d ← dot dev A E x y
    let result' ← sAdd A result d
    pDotLoop dev A E pl v w l result'

/-- `dot` (`SquarePlanner.hpp` 331-338). -/
def pDot (dev : Devices) (A : Arith V) (E : Env Int) (pl : Planner Int Int V) (v w : Nat) : M Int V Scalar := do
  let ns ← pl.numSpaces
  let x ← pl.getVector v 0; let y ← pl.getVector w 0
  let result ← dot dev A E x y
  pDotLoop dev A E pl v w (List.range' 1 (ns - 1)) result

/-- `matvec` (`SquarePlanner.hpp` 340-357). -/
def pMatvec [Field V] (dev : Devices) (rp : RowPtr V) (A : Arith V) (E : Env Int) (pl : Planner Int Int V) (dst src : Nat) :
    M Int V Unit :=
  if dst = src then pl.matvec A E dst src
  else do
    pl.zeroFill A E dst
    loop pl.ops fun r => do
      let y ← pl.getVector dst r.rng; let x ← pl.getVector src r.dom
      opMatvec dev rp A E r.matrix y x r.kernel r.ghost

/-- The operations the solvers call, with tasks on any devices.  Fills, copies and scalar tasks have no GPU variant. -/
def deviceOps [Field V] (dev : Devices) (rp : RowPtr V) (A : Arith V) (E : Env Int) (pl : Planner Int Int V) :
    Ops (M Int V) Scalar where
  negOne := scalarOf (A.neg A.one)
  zero := scalarOf A.zero
  one := scalarOf A.one
  neg := sNeg A
  mul := sMul A
  div := sDiv A
  sqrt := sSqrt A
  rsqrt := sRsqrt A
  zeroFill := pl.zeroFill A E
  copy := pl.copy E
  scal := pScal dev A E pl
  axpy := fun d a x => pAxpyWith dev A E pl d [a.fut] x
  axpy2 := fun d a b x => pAxpyWith dev A E pl d [a.fut, b.fut] x
  axpy3 := fun d a b c x => pAxpyWith dev A E pl d [a.fut, b.fut, c.fut] x
  xpay := fun d a x => pXpayWith dev A E pl d [a.fut] x
  xpay2 := fun d a b x => pXpayWith dev A E pl d [a.fut, b.fut] x
  dot := pDot dev A E pl
  matvec := pMatvec dev rp A E pl
  dummy := dummyTask A

/-- `CGSolver`: construction and `k` steps (`CGSolver.hpp` 30-55). -/
def cg [Field V] (dev : Devices) (rp : RowPtr V) (A : Arith V) (G : Geometry Int) (pl : Planner Int Int V) (base k : Nat) :
    M Int V (CG Scalar) := do
  let pl' ← allocate G pl base 3
  CG.solve (deviceOps dev rp A G.toEnv pl') k

/-- `BiCGStabSolver`: construction and `k` steps (`BiCGStabSolver.hpp` 36-86). -/
def biCGStab [Field V] (dev : Devices) (rp : RowPtr V) (A : Arith V) (G : Geometry Int) (pl : Planner Int Int V) (base k : Nat) :
    M Int V (BiCGStab Scalar) := do
  let pl' ← allocate G pl base 5
  BiCGStab.solve (deviceOps dev rp A G.toEnv pl') k

/-- `GMRESSolver`: construction and `k` steps (`GMRESSolver.hpp` 32-131). -/
def gmres [Field V] (dev : Devices) (rp : RowPtr V) (A : Arith V) (G : Geometry Int) (pl : Planner Int Int V)
    (base restart k : Nat) : M Int V (GMRES Scalar) := do
  let pl' ← allocate G pl base (restart + 1)
  GMRES.solve (deviceOps dev rp A G.toEnv pl') restart k

end Verif.Device
