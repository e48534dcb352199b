import Verif.Sweep.Model

/-! # What is claimed of the benchmark scripts -/
namespace Verif.Sweep

/-- The `n`-th problem size in `d` dimensions: the sides are doubled in turn. -/
def sizeAt : Nat → Nat → Size
  | 1, n => [2 ^ (12 + n)]
  | 2, n => [2 ^ (6 + (n + 1) / 2), 2 ^ (6 + n / 2)]
  | _, n => [2 ^ (4 + (n + 2) / 3), 2 ^ (4 + (n + 1) / 3), 2 ^ (4 + n / 3)]

/-- The number of dimensions of a problem, by its name on the command lines. -/
def dimensions (dim : String) : Nat := if dim = "1D" ∨ dim = "1" then 1 else if dim = "2D" ∨ dim = "2" then 2 else 3

/-- A run that succeeded; if `memory` is set, a lack of memory counts as a failure whatever the exit code. -/
def Success (memory : Bool) (r : Result) : Prop := r.code = 0 ∧ ¬(memory ∧ outOfMemory r)

/-- A run that failed with an exit code (and not for lack of memory, if that counts). -/
def Failure (memory : Bool) (r : Result) : Prop := r.code ≠ 0 ∧ ¬(memory ∧ outOfMemory r)

/-- Failed runs of one command. -/
def Failures (memory : Bool) (c : Except Exc Cmd) (l : Log) : Prop := ∀ e ∈ l, c = .ok e.1 ∧ Failure memory e.2

/-- Runs of one command: less than five failures, then a success. -/
def Passed (memory : Bool) (c : Except Exc Cmd) (l : Log) : Prop :=
  ∃ f e, l = f ++ [e] ∧ f.length < 5 ∧ Failures memory c f ∧ c = .ok e.1 ∧ Success memory e.2

/-- Runs of one command: five failures, or less than five and then a lack of memory. -/
def Failed (memory : Bool) (c : Except Exc Cmd) (l : Log) : Prop :=
  (l.length = 5 ∧ Failures memory c l) ∨
    ∃ f e, l = f ++ [e] ∧ f.length < 5 ∧ Failures memory c f ∧ c = .ok e.1 ∧ memory = true ∧ outOfMemory e.2

/-- Runs of the commands for the sizes 0 to `n - 1`, one after the other, all passed. -/
def AllPassed (memory : Bool) (c : Nat → Except Exc Cmd) (n : Nat) (l : Log) : Prop :=
  ∃ blocks : List Log, blocks.length = n ∧ l = blocks.flatten ∧ ∀ i b, blocks[i]? = some b → Passed memory (c i) b

/-- All sizes before `n` passed and size `n` failed. -/
def FailsAt (memory : Bool) (c : Nat → Except Exc Cmd) (n : Nat) (l : Log) : Prop :=
  ∃ a b, l = a ++ b ∧ AllPassed memory c n a ∧ Failed memory (c n) b

/-- The sizes before `n` passed, or one of them failed and was the last. -/
def UpTo (c : Nat → Except Exc Cmd) (n : Nat) (l : Log) : Prop := AllPassed false c n l ∨ ∃ k, k < n ∧ FailsAt false c k l

/-- The runs `l`, made after the runs `log`, ended as the machine decides. -/
def Genuine (ext : Ext) (log l : Log) : Prop := ∀ a e b, l = a ++ e :: b → e.2 = ext (log ++ a) e.1

/-- The comparisons of `bench_all.py`: each solver, under the names PETSc and Trilinos give it, for each operator. -/
def comparisons : List (String × String × String) :=
  [("cg", "CG"), ("bcgs", "BiCGStab"), ("gmres", "GMRES")].flatMap fun s => ["1D", "2D", "3D", "3D27"].map fun d => (d, s.1, s.2)

/-- A comparison with its runs: PETSc fails first at size `n`. -/
structure Comparison where
  problem : String × String × String
  n : Nat
  petscRuns : Log
  trilinosRuns : Log

/-- What the runs of a comparison are. -/
structure Comparison.Fair (w : Comparison) : Prop where
  /-- PETSc passes all sizes before `n`, in order, and fails at `n`. -/
  petsc : FailsAt true (fun i => petscCommand w.problem.1 w.problem.2.1 (sizeAt (dimensions w.problem.1) i)) w.n w.petscRuns
  /-- Trilinos is run on the sizes before `n`, in order, as long as it passes. -/
  trilinos : UpTo (fun i => trilinosCommand w.problem.1 w.problem.2.2 (sizeAt (dimensions w.problem.1) i)) w.n w.trilinosRuns

/-- The problems of `bench_all_ls.py`: each solver for each operator, by the numbers the library's benchmark gives them. -/
def libraryProblems : List (String × String) := ["1", "2", "3"].flatMap fun s => ["1", "2", "3", "4"].map fun d => (d, s)

/-- A problem with its runs, on sizes before `n`. -/
structure LibrarySweep where
  problem : String × String
  n : Nat
  runs : Log

end Verif.Sweep
