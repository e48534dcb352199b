import Verif.Sweep.Options

/-! # Examples for the benchmark scripts -/
namespace Verif.Sweep
open Verif.Programs

/-- A machine on which the programs always succeed. -/
def exFine : Ext := fun _ _ => ⟨0, [], ""⟩

/-- On it the sweep over PETSc never ends. -/
example : benchmarkPetsc exFine "3D27" "gmres" (iteratorFor 3) [] = none :=
  c94_petsc_forever exFine (by decide) (by decide) (fun _ _ _ _ => ⟨rfl, fun h => absurd h.2 (show ¬outOfMemory ⟨0, [], ""⟩ by decide +kernel)⟩) []

/-- A machine with `nodes` nodes, on which the commands with one of the given words run out of memory, and every third other run of a program
fails. -/
def exMachine (nodes : Nat) (large : List String) : Ext := fun log cmd =>
  if "echo" ∈ cmd then ⟨0, List.replicate nodes "hello", ""⟩
  else if ∃ w ∈ large, w ∈ cmd then ⟨0, [], "CUDA error: out of memory"⟩
  else if log.length % 3 = 0 then ⟨1, [], ""⟩ else ⟨0, [], ""⟩

/-- The sizes with number 1 and these words have no memory. -/
theorem exMachine_large (c : String × String × String) (hc : c ∈ comparisons) (cmd : Cmd) (log : Log)
    (h : petscCommand c.1 c.2.1 (sizeAt (dimensions c.1) 1) = .ok cmd) : ¬Success true (exMachine 2 ["8192", "128", "32"] log cmd) := by
  have key : ∀ c ∈ comparisons, ∀ cmd, petscCommand c.1 c.2.1 (sizeAt (dimensions c.1) 1) = .ok cmd →
      "echo" ∉ cmd ∧ ∃ w ∈ ["8192", "128", "32"], w ∈ cmd := by
    have : ∀ c ∈ comparisons, (match petscCommand c.1 c.2.1 (sizeAt (dimensions c.1) 1) with
        | .ok cmd => decide ("echo" ∉ cmd ∧ ∃ w ∈ ["8192", "128", "32"], w ∈ cmd)
        | .error _ => true) = true := by decide +kernel
    intro c hc cmd h
    have := this c hc
    rw [h] at this
    exact of_decide_eq_true this
  obtain ⟨h1, h2⟩ := key c hc cmd h
  unfold exMachine
  rw [if_neg h1, if_pos h2]
  exact fun h => h.2 ⟨rfl, by decide +kernel⟩

/-- `bench_all.py` ends on it, having made the comparisons. -/
example : ∃ r log, benchAll (exMachine 2 ["8192", "128", "32"]) = some (r, log) ∧ ((∃ e, r = .error e ∧ log.length = 1) ∨
    r = .ok () ∧ ∃ (first : Cmd × Result) (ws : List Comparison), ws.map (·.problem) = comparisons ∧
      log = first :: (ws.flatMap (·.petscRuns) ++ ws.flatMap (·.trilinosRuns)) ∧ (∀ w ∈ ws, w.Fair) ∧
      Genuine (exMachine 2 ["8192", "128", "32"]) [] log) := by
  obtain ⟨⟨r, log⟩, h⟩ := c94_bench_all_ends (exMachine 2 ["8192", "128", "32"]) fun c hc => ⟨1, fun cmd log h => exMachine_large c hc cmd log h⟩
  exact ⟨r, log, h, c94_bench_all _ r log h⟩

/-- One sweep on it ends at size 0 or 1. -/
example : ∃ m log', m ≤ 1 ∧ benchmarkPetsc (exMachine 2 ["8192", "128", "32"]) "2D" "bcgs" (iteratorFor (dimensions "2D")) [] =
    some (.ok (sizeAt (dimensions "2D") m), log') :=
  c94_petsc_ends _ (by decide) (by decide) 1 (fun cmd log h => exMachine_large ("2D", "bcgs", "BiCGStab") (by decide +kernel) cmd log h) []

/-- The command that counts the nodes. -/
def exEcho : Cmd := ["jsrun", "--bind", "none", "--rs_per_host", "1", "--cpu_per_rs", "40", "--gpu_per_rs", "4", "echo", "hello"]

theorem exEcho_eq : jsrun "echo" ["hello"] "node" false = .ok exEcho := rfl

theorem exEcho_ends (nodes : Nat) (large log) : exMachine nodes large log exEcho = ⟨0, List.replicate nodes "hello", ""⟩ := by
  unfold exMachine
  rw [if_pos (by decide +kernel)]

/-- On one node `bench_all_ls.py` makes its runs; the largest grid for CG on a line has less than 2³⁰ points. -/
example : ∃ ws : List LibrarySweep, ws.map (·.problem) = libraryProblems ∧
    (ws.map (fun w => sizeAt (dimensions w.problem.1) w.n)).head? = some [1073741824] ∧
    benchAllLs (exMachine 1 ["128"]) = some (.ok (), (exEcho, ⟨0, ["hello"], ""⟩) :: ws.flatMap (·.runs)) := by
  obtain ⟨ws, h1, h2, h3, -⟩ := (c94_library (exMachine 1 ["128"]) 1 exEcho exEcho_eq (by rw [exEcho_ends]) (by rw [exEcho_ends])
    (by rw [exEcho_ends])).2 _ rfl
  exact ⟨ws, h1, by rw [h2]; rfl, by rw [h3, exEcho_ends]; rfl⟩

/-- On three nodes it raises an exception. -/
example : benchAllLs (exMachine 3 []) = some (.error .keyError, [(exEcho, ⟨0, ["hello", "hello", "hello"], ""⟩)]) := by
  rw [(c94_library (exMachine 3 []) 3 exEcho exEcho_eq (by rw [exEcho_ends]) (by rw [exEcho_ends]) (by rw [exEcho_ends])).1 rfl, exEcho_ends]
  rfl

/-- With a warning on the error stream both scripts give up after one run. -/
example : ∃ x, benchAll (fun _ _ => ⟨0, ["hello"], "warning"⟩) = some (.error x, [(exEcho, ⟨0, ["hello"], "warning"⟩)]) :=
  (c94_count_fails (fun _ _ => ⟨0, ["hello"], "warning"⟩) exEcho exEcho_eq (Or.inr (Or.inl (by decide +kernel)))).imp fun _ h => h.1

/-- A command line of the library's benchmark: the 27-point operator with GMRES on the first grid, two nodes. -/
example : libraryCommand 2 "4" "3" (sizeAt 3 0) = .ok ["jsrun", "--bind", "none", "--rs_per_host", "1", "--cpu_per_rs", "40", "--gpu_per_rs", "4",
    "/p/gpfs1/zhang70/LegionSolversBuild/cr_cuda_nokokkos_release/BenchmarkStencil", "-ll:util", "4", "-ll:gpu", "4", "-ll:csize", "100G",
    "-ll:fsize", "12G", "-lg:eager_alloc_percentage", "20", "-dim", "4", "-solver", "3", "-nx", "16", "-ny", "16", "-nz", "16", "-it", "25",
    "-pt", "1", "-vp", "8"] := rfl

/-- What the library's benchmark and the others read, for the 7-point operator, BiCGStab and size 5. -/
example : ∃ l z args args', Line.default.parse args = some l ∧ petscLine args' = some (3, z) ∧ SameGrid l.options z ∧ z = ⟨64, 64, 32⟩ := by
  obtain ⟨-, -, args, l, -, -, h1, h2, -, h3, -⟩ := c94_run 4 3 2 5 (by decide) (by decide)
  obtain ⟨z, h4, ⟨-, args', -, h5, -⟩, -⟩ := c94_rivals 3 2 5 (by decide) (by decide)
  have h := h4 l.options h2 h3
  refine ⟨l, z, args, args', h1, h5, h, ?_⟩
  have h2' : l.options.dim = 3 := h2
  have h3' : [l.options.nx, l.options.ny, l.options.nz] = [64, 64, 32] := by
    have : benchSizes l.options = [64, 64, 32] := h3.trans (by decide +kernel)
    simpa [benchSizes, h2'] using this
  simp only [List.cons.injEq, and_true] at h3'
  obtain ⟨x, y, w⟩ := z
  have a := h.nx
  have b := h.ny
  have c := h.nz
  simp only [h2', h3'] at a b c
  norm_num at b c
  rw [a, b, c]

/-- The tries of one command: a failure, then a success. -/
example : tries (exMachine 1 []) false ["a"] 0 [] = some (true, [(["a"], ⟨1, [], ""⟩), (["a"], ⟨0, [], ""⟩)]) := by
  rw [tries, tries]
  decide +kernel

end Verif.Sweep
