import Verif.EndToEnd.Model
import Verif.Programs.Model

/-!
# The benchmark program

Models `test/BenchmarkStencil.cpp` (`get_laplacian_matrix` 24-137, `top_level_task` 140-377).

Simplifications: command line parsing and clean-up are not modelled; fences, timing and the begin and end of traces are
left out here; `Verif.Replay` models them and proves that they do not change what the program computes (C91); the text that is printed is modelled
by the numbers in it.  The pieces of the partitions the builder and the program make are arguments (any cutting of the spaces).
-/
set_option linter.dupNamespace false
set_option linter.unusedSectionVars false
namespace Verif.Programs
open Verif.Runtime Verif.Vector Verif.Matrix Verif.Planner Verif.Solver Verif.EndToEnd Verif.Grid Verif.Stencil

/-! ## The matrix -/

/-- `case 1` (`BenchmarkStencil.cpp` 36-39): the offsets, with the literals as integers. -/
def offsets1 : List (Point × Int) := [([0], 2), ([-1], -1), ([1], -1)]

/-- `case 2` (`BenchmarkStencil.cpp` 49-54). -/
def offsets2 : List (Point × Int) := [([0, 0], 4), ([-1, 0], -1), ([1, 0], -1), ([0, -1], -1), ([0, 1], -1)]

/-- `case 3` (`BenchmarkStencil.cpp` 64-71). -/
def offsets3 : List (Point × Int) :=
  [([0, 0, 0], 6), ([-1, 0, 0], -1), ([1, 0, 0], -1), ([0, -1, 0], -1), ([0, 1, 0], -1), ([0, 0, -1], -1), ([0, 0, 1], -1)]

/-- `case 4` (`BenchmarkStencil.cpp` 81-125): the numerators of the fractions with denominator 26. -/
def offsets4 : List (Point × Int) :=
  [([0, 0, 0], 88), ([-1, 0, 0], -6), ([1, 0, 0], -6), ([0, -1, 0], -6), ([0, 1, 0], -6), ([0, 0, -1], -6), ([0, 0, 1], -6),
   ([-1, -1, 0], -3), ([-1, 1, 0], -3), ([1, -1, 0], -3), ([1, 1, 0], -3),
   ([-1, 0, -1], -3), ([-1, 0, 1], -3), ([1, 0, -1], -3), ([1, 0, 1], -3),
   ([0, -1, -1], -3), ([0, -1, 1], -3), ([0, 1, -1], -3), ([0, 1, 1], -3),
   ([-1, -1, -1], -2), ([-1, -1, 1], -2), ([-1, 1, -1], -2), ([-1, 1, 1], -2),
   ([1, -1, -1], -2), ([1, -1, 1], -2), ([1, 1, -1], -2), ([1, 1, 1], -2)]

section
variable {V : Type}

/-- The offset lists with values of the entry type (`BenchmarkStencil.cpp` 34-132); `lit`: the value of an integral literal such as `2.0`;
another `dim` exits the program. -/
def benchOffsets (A : Arith V) (lit : Int → V) (dim : Int) : Option (List (Point × V)) :=
  if dim = 1 then some (offsets1.map fun oe => (oe.1, lit oe.2))
  else if dim = 2 then some (offsets2.map fun oe => (oe.1, lit oe.2))
  else if dim = 3 then some (offsets3.map fun oe => (oe.1, lit oe.2))
  else if dim = 4 then some (offsets4.map fun oe => (oe.1, A.div (lit oe.2) (lit 26)))
  else none

/-- `bounds` (`BenchmarkStencil.cpp` 35, 48, 63, 80). -/
def benchBounds (dim nx ny nz : Int) : Rect :=
  if dim = 1 then [(0, nx - 1)] else if dim = 2 then [(0, nx - 1), (0, ny - 1)] else [(0, nx - 1), (0, ny - 1), (0, nz - 1)]

/-- `get_laplacian_matrix` (`BenchmarkStencil.cpp` 24-137), in the default row-major order. -/
def getLaplacian (A : Arith V) (lit : Int → V) (sort : List (Point × V) → List (Point × V)) (dim nx ny nz : Int)
    (pieces : List (Dom1 × Dom1)) (fuel : Nat) (junk : CSR Int Int V) : Option (CSR Int Int V) :=
  (benchOffsets A lit dim).bind fun offsets => createLinCSRStencil sort .rowMajor (benchBounds dim nx ny nz) offsets pieces fuel junk

end

/-! ## The solver loops -/

/-- `num_warmup_traces` (`BenchmarkStencil.cpp` 154). -/
def warmupTraces : Nat := 5

/-- `num_traces` (`BenchmarkStencil.cpp` 212-213), in unsigned integers modulo `W` (2^64); division by zero stops the program. -/
def numTraces (W it pt : Nat) : Option Nat := if pt = 0 then none else some ((it + pt + (W - 1)) % W / pt)

/-- What the program prints: the number of warm-up traces (`BenchmarkStencil.cpp` 230), of timed traces (249), and the divisor of the time
per iteration (260). -/
structure Report where
  warmup : Nat
  timed : Nat
  divisor : Nat
  deriving DecidableEq

/-- `num_traces - num_warmup_traces` and `iters_per_trace * (num_traces - num_warmup_traces)` in unsigned integers modulo `W`
(`BenchmarkStencil.cpp` 249, 258-260). -/
def report (W pt nt : Nat) : Report :=
  ⟨warmupTraces, (nt + (W - warmupTraces)) % W, pt * ((nt + (W - warmupTraces)) % W) % W⟩

section
variable {K P V α : Type} [DecidableEq P] [DecidableEq K]

/-- The branch of one solver after its construction (`BenchmarkStencil.cpp` 212-262, 266-316, 320-371): the warm-up loop, the timed loop
`for (i = num_warmup_traces; i < num_traces; ++i)`, the report. -/
def benchLoops (W it pt : Nat) (step : α → M P V α) (c : α) : M P V (α × Report) := do
  let nt ← lift (numTraces W it pt)
  let c ← repeatM (fun c => repeatM step pt c) warmupTraces c
  let c ← repeatM (fun c => repeatM step pt c) (nt - warmupTraces) c
  pure (c, report W pt nt)

/-- `solver == 1` (`BenchmarkStencil.cpp` 209-262). -/
def benchCG (A : Arith V) (G : Geometry P) (pl : Planner K P V) (base W it pt : Nat) : M P V Report := do
  let pl' ← allocate G pl base 3
  let c ← CG.init (plannerOps A G.toEnv pl')
  let r ← benchLoops W it pt (CG.step (plannerOps A G.toEnv pl')) c
  pure r.2

/-- `solver == 2` (`BenchmarkStencil.cpp` 263-316). -/
def benchBiCGStab (A : Arith V) (G : Geometry P) (pl : Planner K P V) (base W it pt : Nat) : M P V Report := do
  let pl' ← allocate G pl base 5
  let c ← BiCGStab.init (plannerOps A G.toEnv pl')
  let r ← benchLoops W it pt (BiCGStab.step (plannerOps A G.toEnv pl')) c
  pure r.2

/-- `solver == 3` (`BenchmarkStencil.cpp` 317-371): restart length 10. -/
def benchGMRES (A : Arith V) (G : Geometry P) (pl : Planner K P V) (base W it pt : Nat) : M P V Report := do
  let pl' ← allocate G pl base (10 + 1)
  let c ← GMRES.init (plannerOps A G.toEnv pl') 10
  let r ← benchLoops W it pt (GMRES.step (plannerOps A G.toEnv pl')) c
  pure r.2

/-- The calls on the planner (`BenchmarkStencil.cpp` 201-207). -/
def benchCalls (sol sol1 rhs rhs1 : Vec) (m : Op K P V) : List (Setup K P V) :=
  [.addSol sol, .addSol sol1, .addRhs rhs, .addRhs rhs1, .addMatrix m 0 0, .addMatrix m 1 1]

/-- The parameters of the command line (`BenchmarkStencil.cpp` 146-170). -/
structure Options where
  dim : Int
  solver : Int
  nx : Int
  ny : Int
  nz : Int
  it : Nat
  pt : Nat

/-- The defaults (`BenchmarkStencil.cpp` 146-153). -/
def defaultOptions : Options := ⟨1, 1, 16, 16, 16, 20, 1⟩

/-- `top_level_task` from the equal partition on (`BenchmarkStencil.cpp` 182-372): the vectors `rhs`, `rhs1`, `sol`, `sol1` (on the data
`d 0 … d 3` the runtime allocates), planner, solver.  `part`: the equal partition of the row-pointer space. -/
def benchSolve (A : Arith V) (G : Geometry P) (part : Nat) (d : Nat → Nat) (base : Nat) (m : Op K P V) (W : Nat) (o : Options) :
    M P V (Option Report) := do
  let rhs ← lift (newVector G part (d 0))
  constantFill G.toEnv rhs A.one
  let rhs1 ← lift (newVector G part (d 1))
  constantFill G.toEnv rhs1 A.one
  let sol ← lift (newVector G part (d 2))
  zeroFill A G.toEnv sol
  let sol1 ← lift (newVector G part (d 3))
  zeroFill A G.toEnv sol1
  let pl ← lift (Planner.empty.setupAll G (benchCalls sol sol1 rhs rhs1 m))
  if o.solver = 1 then do
    let r ← benchCG A G pl base W o.it o.pt
    pure (some r)
  else if o.solver = 2 then do
    let r ← benchBiCGStab A G pl base W o.it o.pt
    pure (some r)
  else if o.solver = 3 then do
    let r ← benchGMRES A G pl base W o.it o.pt
    pure (some r)
  else pure none

end

/-- `top_level_task` (`BenchmarkStencil.cpp` 140-377). -/
def benchmark {V : Type} (A : Arith V) (lit : Int → V) (sort : List (Point × V) → List (Point × V)) (pieces : List (Dom1 × Dom1))
    (fuel : Nat) (junk : CSR Int Int V) (G : Geometry Int) (part : Nat) (d : Nat → Nat) (base W : Nat) (o : Options) :
    M Int V (Option Report) := do
  let m ← lift (getLaplacian A lit sort o.dim o.nx o.ny o.nz pieces fuel junk)
  benchSolve A G part d base (Op.csr m) W o

end Verif.Programs
