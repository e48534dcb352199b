/-! # The benchmark scripts bench_all.py and bench_all_ls.py

What is printed is not modelled, nor is the decoding of the output as UTF-8.  A Python `int` problem size is a list with one element, a tuple
a list with two or three. -/
namespace Verif.Sweep

/-- A problem size (`ProblemSize`, `bench_all.py` 11). -/
abbrev Size := List Nat

/-- A command with its arguments. -/
abbrev Cmd := List String

/-- How a command ended (`subprocess.run(..., capture_output=True)`). -/
structure Result where
  code : Int
  stdout : List String
  stderr : String
deriving DecidableEq

/-- The commands run so far and how they ended. -/
abbrev Log := List (Cmd × Result)

/-- The machine: how a command ends, after what was run before. -/
abbrev Ext := Log → Cmd → Result

/-- Exceptions. -/
inductive Exc
  | assertion
  | valueError
  | keyError
  | calledProcess
deriving DecidableEq

/-- Where an iterator stands. -/
inductive Gen
  | one (nx : Nat)
  | two (nx ny : Nat) (second : Bool)
  | three (nx ny nz : Nat) (phase : Nat)

/-- What it yields (`bench_all.py` 17, 25, 27, 36, 38, 40; `bench_all_ls.py`, the same lines). -/
def Gen.yields : Gen → Size
  | .one nx => [nx]
  | .two nx ny _ => [nx, ny]
  | .three nx ny nz _ => [nx, ny, nz]

/-- What it does when asked for the next size (`bench_all.py` 18, 26, 28, 37, 39, 41). -/
def Gen.next : Gen → Gen
  | .one nx => .one (nx * 2)
  | .two nx ny false => .two (nx * 2) ny true
  | .two nx ny true => .two nx (ny * 2) false
  | .three nx ny nz 0 => .three (nx * 2) ny nz 1
  | .three nx ny nz 1 => .three nx (ny * 2) nz 2
  | .three nx ny nz _ => .three nx ny (nz * 2) 0

/-- `problem_size_iterator_1d` (`bench_all.py` 14-18). -/
def iterator1 : Gen := .one (2 ^ 12)

/-- `problem_size_iterator_2d` (`bench_all.py` 21-28). -/
def iterator2 : Gen := .two (2 ^ 6) (2 ^ 6) false

/-- `problem_size_iterator_3d` (`bench_all.py` 31-41). -/
def iterator3 : Gen := .three (2 ^ 4) (2 ^ 4) (2 ^ 4) 0

/-- `NUM_CPUS_PER_NODE` (`bench_all.py` 7). -/
def numCpus : Nat := 40

/-- `NUM_GPUS_PER_NODE` (`bench_all.py` 8). -/
def numGpus : Nat := 4

/-- `jsrun_command` (`bench_all.py` 44-67, `bench_all_ls.py` 44-67). -/
def jsrun (program : String) (arguments : List String) (rankPer : String) (gpuAware : Bool) : Except Exc Cmd :=
  let result := ["jsrun"] ++ (if gpuAware then ["-M", "\"-gpu\""] else ["--bind", "none"])
  if rankPer = "node" then
    .ok (result ++ ["--rs_per_host", "1"] ++ ["--cpu_per_rs", toString numCpus] ++ ["--gpu_per_rs", toString numGpus] ++ [program] ++ arguments)
  else if rankPer = "gpu" then
    .ok (result ++ ["--rs_per_host", toString numGpus] ++ ["--cpu_per_rs", toString (numCpus / numGpus)] ++ ["--gpu_per_rs", "1"] ++ [program] ++
      arguments)
  else .error .valueError

/-- `petsc_args` (`bench_all.py` 87-134, `bench_all_ls.py` 89-136). -/
def petscArgs (dim : String) (size : Size) (solver : String) : Except Exc (List String) :=
  match (match size with
    | [x] => if dim = "1D" then some ["-nx", toString x] else none
    | [x, y] => if dim = "2D" then some ["-nx", toString x, "-ny", toString y] else none
    | [x, y, z] => if dim = "3D" ∨ dim = "3D27" then some ["-nx", toString x, "-ny", toString y, "-nz", toString z] else none
    | _ => none) with
  | none => .error .assertion
  | some sizes =>
    if solver ∈ ["cg", "bcgs", "gmres"] then
      .ok (["-dim", dim] ++ sizes ++ ["-ksp_type", solver] ++
        (if solver = "gmres" then ["-ksp_gmres_restart", "10", "-ksp_gmres_haptol", "1.0e-100", "ksp_gmres_modifiedgramschmidt"] else []) ++
        ["-ksp_max_it", "200", "-pc_type", "none", "-ksp_atol", "1.0e-100", "-ksp_rtol", "1.0e-100", "-ksp_divtol", "1.0e+100", "-vec_type",
          "cuda", "-mat_type", "aijcusparse"])
    else .error .assertion

/-- `trilinos_args` (`bench_all.py` 137-161, `bench_all_ls.py` 139-163). -/
def trilinosArgs (dim : String) (size : Size) (solver : String) : Except Exc (List String) :=
  if solver ∈ ["CG", "BiCGStab", "GMRES"] then
    match size with
    | [x] => if dim = "1D" then .ok [dim, solver, toString x] else .error .assertion
    | [x, y] => if dim = "2D" then .ok [dim, solver, toString x, toString y] else .error .assertion
    | [x, y, z] => if dim = "3D" ∨ dim = "3D27" then .ok [dim, solver, toString x, toString y, toString z] else .error .assertion
    | _ => .error .assertion
  else .error .assertion

/-- `legion_solvers_args` of `bench_all_ls.py` (166-211); the function of `bench_all.py` is not called by that script. -/
def libraryArgs (nodes : Nat) (dim : String) (size : Size) (solver : String) : Except Exc (List String) :=
  if solver ∈ ["1", "2", "3"] then
    match (match size with
      | [x] => if dim = "1" then some ["-nx", toString x] else none
      | [x, y] => if dim = "2" then some ["-nx", toString x, "-ny", toString y] else none
      | [x, y, z] => if dim = "3" ∨ dim = "4" then some ["-nx", toString x, "-ny", toString y, "-nz", toString z] else none
      | _ => none) with
    | none => .error .assertion
    | some sizes =>
      .ok (["-ll:util", "4", "-ll:gpu", toString numGpus, "-ll:csize", "100G", "-ll:fsize", "12G", "-lg:eager_alloc_percentage", "20", "-dim", dim,
        "-solver", solver] ++ sizes ++ ["-it", if solver ≠ "3" then "200" else "25"] ++ ["-pt", "1"] ++ ["-vp", toString (numGpus * nodes)])
  else .error .assertion

/-- The command of `benchmark_petsc` (`bench_all.py` 219-224, `bench_all_ls.py` 221-226). -/
def petscCommand (dim solver : String) (size : Size) : Except Exc Cmd := do
  jsrun "/g/g20/zhang70/LegionSolvers/benchmarks/petsc/PETScSolverBenchmark" (← petscArgs dim size solver) "gpu" true

/-- The command of `benchmark_trilinos` (`bench_all.py` 258-263, `bench_all_ls.py` 262-267). -/
def trilinosCommand (dim solver : String) (size : Size) : Except Exc Cmd := do
  jsrun "/g/g20/zhang70/LegionSolvers/benchmarks/trilinos/build/TrilinosSolverBenchmark" (← trilinosArgs dim size solver) "gpu" true

/-- The command of `benchmark_legion_solvers` (`bench_all_ls.py` 298-303). -/
def libraryCommand (nodes : Nat) (dim solver : String) (size : Size) : Except Exc Cmd := do
  jsrun "/p/gpfs1/zhang70/LegionSolversBuild/cr_cuda_nokokkos_release/BenchmarkStencil" (← libraryArgs nodes dim size solver) "node" false

/-- `b"out of memory" in proc.stderr` (`bench_all.py` 230). -/
def outOfMemory (r : Result) : Prop := "out of memory".toList <:+: r.stderr.toList

instance (r : Result) : Decidable (outOfMemory r) := by unfold outOfMemory; infer_instance

/-- The loop over the tries of one command (`bench_all.py` 216-243, 255-280, 291-316; `bench_all_ls.py` 218-247, 259-284, 295-320): whether to go on
with the next size.  Only `benchmark_petsc` looks for a lack of memory.  `none`: it runs forever. -/
def tries (ext : Ext) (memory : Bool) (cmd : Cmd) (num : Nat) (log : Log) : Option (Bool × Log) :=
  let r := ext log cmd
  let log := log ++ [(cmd, r)]
  if memory ∧ outOfMemory r then some (false, log)
  else if r.code = 0 then some (true, log)
  else if num + 1 ≥ 5 then some (false, log)
  else tries ext memory cmd (num + 1) log
partial_fixpoint

/-- `benchmark_petsc` (`bench_all.py` 212-244, `bench_all_ls.py` 214-248).  The command is put together once per size, not for every try. -/
def benchmarkPetsc (ext : Ext) (dim solver : String) (g : Gen) (log : Log) : Option (Except Exc Size × Log) :=
  match petscCommand dim solver g.yields with
  | .error e => some (.error e, log)
  | .ok cmd => do
    let r ← tries ext true cmd 0 log
    if r.1 then benchmarkPetsc ext dim solver g.next r.2 else some (.ok g.yields, r.2)
partial_fixpoint

/-- `benchmark_trilinos` and `benchmark_legion_solvers` (`bench_all.py` 247-280, 283-316; `bench_all_ls.py` 251-284, 287-320), which differ in the
command. -/
def benchmarkUpTo (ext : Ext) (command : Size → Except Exc Cmd) (g : Gen) (maxSize : Size) (log : Log) : Option (Except Exc Unit × Log) :=
  if g.yields = maxSize then some (.ok (), log)
  else
    match command g.yields with
    | .error e => some (.error e, log)
    | .ok cmd => do
      let r ← tries ext false cmd 0 log
      if r.1 then benchmarkUpTo ext command g.next maxSize r.2 else some (.ok (), r.2)
partial_fixpoint

/-- A run of one statement after the other, stopped by an exception. -/
def andThen {α β : Type} (a : Log → Option (Except Exc α × Log)) (f : α → Log → Option (Except Exc β × Log)) (log : Log) :
    Option (Except Exc β × Log) :=
  (a log).bind fun r => match r.1 with
    | .error e => some (.error e, r.2)
    | .ok v => f v r.2

/-- `count_nodes` (`bench_all.py` 70-80, `bench_all_ls.py` 70-82): `subprocess.run(..., check=True)`, no output on the error stream, one line
"hello" per node. -/
def countNodes (ext : Ext) (log : Log) : Option (Except Exc Nat × Log) :=
  match jsrun "echo" ["hello"] "node" false with
  | .error e => some (.error e, log)
  | .ok cmd =>
    let r := ext log cmd
    let log := log ++ [(cmd, r)]
    if r.code ≠ 0 then some (.error .calledProcess, log)
    else if r.stderr ≠ "" then some (.error .assertion, log)
    else if ∀ line ∈ r.stdout, line = "hello" then some (.ok r.stdout.length, log)
    else some (.error .assertion, log)

/-- The twelve calls of `benchmark_petsc` (`bench_all.py` 319-334): dimension, solver, iterator. -/
def petscCalls : List (String × String × Gen) :=
  [("1D", "cg", iterator1), ("2D", "cg", iterator2), ("3D", "cg", iterator3), ("3D27", "cg", iterator3),
   ("1D", "bcgs", iterator1), ("2D", "bcgs", iterator2), ("3D", "bcgs", iterator3), ("3D27", "bcgs", iterator3),
   ("1D", "gmres", iterator1), ("2D", "gmres", iterator2), ("3D", "gmres", iterator3), ("3D27", "gmres", iterator3)]

/-- The twelve calls of `benchmark_trilinos` (`bench_all.py` 337-358); the maximal sizes are passed in the order of the calls above. -/
def trilinosCalls : List (String × String × Gen) :=
  [("1D", "CG", iterator1), ("2D", "CG", iterator2), ("3D", "CG", iterator3), ("3D27", "CG", iterator3),
   ("1D", "BiCGStab", iterator1), ("2D", "BiCGStab", iterator2), ("3D", "BiCGStab", iterator3), ("3D27", "BiCGStab", iterator3),
   ("1D", "GMRES", iterator1), ("2D", "GMRES", iterator2), ("3D", "GMRES", iterator3), ("3D27", "GMRES", iterator3)]

/-- The assignments of `bench_all.py` 319-334. -/
def allPetsc (ext : Ext) : List (String × String × Gen) → Log → Option (Except Exc (List Size) × Log)
  | [], log => some (.ok [], log)
  | c :: cs, log => andThen (benchmarkPetsc ext c.1 c.2.1 c.2.2) (fun m => andThen (allPetsc ext cs) fun ms log => some (.ok (m :: ms), log)) log

/-- Calls of `benchmark_trilinos` or `benchmark_legion_solvers`, one after the other. -/
def allUpTo (ext : Ext) (command : String → String → Size → Except Exc Cmd) : List ((String × String × Gen) × Size) → Log →
    Option (Except Exc Unit × Log)
  | [], log => some (.ok (), log)
  | c :: cs, log => andThen (benchmarkUpTo ext (command c.1.1 c.1.2.1) c.1.2.2 c.2) (fun _ => allUpTo ext command cs) log

/-- `bench_all.py`. -/
def benchAll (ext : Ext) : Option (Except Exc Unit × Log) :=
  andThen (countNodes ext) (fun _ => andThen (allPetsc ext petscCalls) fun ms => allUpTo ext trilinosCommand (trilinosCalls.zip ms)) []

/-- `MAX_PROBLEM_SIZE_DICT` (`bench_all_ls.py` 365-491). -/
def maxSizes : List (Nat × List Size) :=
  [(1, [[1073741824], [32768, 32768], [1024, 1024, 512], [1024, 512, 512], [1073741824], [32768, 16384], [1024, 1024, 512], [1024, 512, 512],
      [536870912], [32768, 16384], [1024, 1024, 512], [1024, 512, 512]]),
   (2, [[2147483648], [65536, 32768], [1024, 1024, 1024], [1024, 1024, 512], [2147483648], [32768, 32768], [1024, 1024, 1024], [1024, 1024, 512],
      [1073741824], [32768, 32768], [1024, 1024, 1024], [1024, 1024, 512]]),
   (4, [[4294967296], [65536, 65536], [2048, 1024, 1024], [1024, 1024, 1024], [4294967296], [65536, 32768], [2048, 1024, 1024], [1024, 1024, 1024],
      [2147483648], [65536, 32768], [2048, 1024, 1024], [1024, 1024, 1024]]),
   (8, [[8589934592], [131072, 65536], [2048, 2048, 1024], [2048, 1024, 1024], [8589934592], [65536, 65536], [2048, 2048, 1024], [2048, 1024, 1024],
      [4294967296], [65536, 65536], [2048, 2048, 1024], [2048, 1024, 1024]]),
   (16, [[17179869184], [131072, 131072], [2048, 2048, 2048], [2048, 2048, 1024], [17179869184], [131072, 65536], [2048, 2048, 2048],
      [2048, 2048, 1024], [8589934592], [131072, 65536], [2048, 2048, 2048], [2048, 2048, 1024]]),
   (32, [[34359738368], [262144, 131072], [4096, 2048, 2048], [2048, 2048, 2048], [34359738368], [131072, 131072], [4096, 2048, 2048],
      [2048, 2048, 2048], [17179869184], [131072, 131072], [4096, 2048, 2048], [2048, 2048, 2048]]),
   (64, [[34359738368], [262144, 131072], [4096, 4096, 2048], [2048, 2048, 2048], [34359738368], [262144, 131072], [4096, 4096, 2048],
      [2048, 2048, 2048], [34359738368], [131072, 131072], [4096, 2048, 2048], [2048, 2048, 2048]]),
   (128, [[137438953472], [262144, 262144], [4096, 4096, 4096], [4096, 2048, 2048], [68719476736], [262144, 262144], [4096, 4096, 4096],
      [4096, 2048, 2048], [68719476736], [262144, 262144], [4096, 4096, 2048], [4096, 2048, 2048]]),
   (256, [[68719476736], [262144, 262144], [4096, 4096, 4096], [4096, 2048, 2048], [68719476736], [262144, 262144], [4096, 4096, 4096],
      [4096, 2048, 2048], [68719476736], [262144, 262144], [4096, 4096, 2048], [4096, 2048, 2048]])]

/-- The twelve calls of `benchmark_legion_solvers` (`bench_all_ls.py` 497-532), with the place of the maximal size in the list. -/
def libraryCalls : List (String × String × Gen) :=
  [("1", "1", iterator1), ("2", "1", iterator2), ("3", "1", iterator3), ("4", "1", iterator3),
   ("1", "2", iterator1), ("2", "2", iterator2), ("3", "2", iterator3), ("4", "2", iterator3),
   ("1", "3", iterator1), ("2", "3", iterator2), ("3", "3", iterator3), ("4", "3", iterator3)]

/-- `bench_all_ls.py`. -/
def benchAllLs (ext : Ext) : Option (Except Exc Unit × Log) :=
  andThen (countNodes ext) (fun nodes log => match maxSizes.lookup nodes with
    | none => some (.error .keyError, log)
    | some sizes => allUpTo ext (libraryCommand nodes) (libraryCalls.zip sizes) log) []

end Verif.Sweep
