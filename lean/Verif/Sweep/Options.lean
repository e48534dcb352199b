import Std.Data.String.ToInt
import Verif.Programs.ComparisonProps
import Verif.Sweep.Scripts

/-! # What the benchmark programs make of their command lines

`Realm::CommandLineParser` is modelled by what it is documented to do: it takes a known word together with the number after it, and passes over
words it does not know.  `PetscOptionsGetString` and `PetscOptionsGetInt` take the word after the
given one, the last time it occurs.  The widths of the integers are not modelled. -/
set_option linter.unusedSimpArgs false
namespace Verif.Sweep
open Verif.Programs

/-- The options with the number of pieces (`BenchmarkStencil.cpp` 146-154). -/
structure Line where
  options : Options
  pieces : Int

/-- The defaults (`BenchmarkStencil.cpp` 146-154). -/
def Line.default : Line := ⟨⟨1, 1, 16, 16, 16, 20, 1⟩, 4⟩

/-- The table of options (`BenchmarkStencil.cpp` 159-166): what a known word does with the number after it. -/
def Line.set (word : String) (l : Line) : Option (Int → Line) :=
  if word = "-dim" then some fun z => { l with options.dim := z }
  else if word = "-solver" then some fun z => { l with options.solver := z }
  else if word = "-nx" then some fun z => { l with options.nx := z }
  else if word = "-ny" then some fun z => { l with options.ny := z }
  else if word = "-nz" then some fun z => { l with options.nz := z }
  else if word = "-vp" then some fun z => { l with pieces := z }
  else if word = "-it" then some fun z => { l with options.it := z.toNat }
  else if word = "-pt" then some fun z => { l with options.pt := z.toNat }
  else none

/-- `parse_command_line` (`BenchmarkStencil.cpp` 156-168); `none`: the assertion fails. -/
def Line.parse : List String → Line → Option Line
  | [], l => some l
  | word :: words, l =>
    match l.set word with
    | none => Line.parse words l
    | some f =>
      match words with
      | [] => none
      | number :: words => (number.toInt?).bind fun z => Line.parse words (f z)

/-- **C94**, what a run of the library is: the benchmark started by `bench_all_ls.py` for operator `d`, solver `s` and the `n`-th size runs that
solver on that operator on a grid of that size, in one piece per GPU, for 200 iterations (25 restart cycles of GMRES), one iteration per trace; the
program accepts these options. -/
theorem c94_run (nodes d s n : Nat) (hd : 1 ≤ d ∧ d ≤ 4) (hs : 1 ≤ s ∧ s ≤ 3) : ∃ launcher program args l,
    libraryCommand nodes (toString d) (toString s) (sizeAt (dimensions (toString d)) n) = .ok (launcher ++ program :: args) ∧
    program = "/p/gpfs1/zhang70/LegionSolversBuild/cr_cuda_nokokkos_release/BenchmarkStencil" ∧
    Line.default.parse args = some l ∧ l.options.dim = d ∧ l.options.solver = s ∧
    benchSizes l.options = (sizeAt (dimensions (toString d)) n).map Int.ofNat ∧ l.options.it = (if s = 3 then 25 else 200) ∧ l.options.pt = 1 ∧
    l.pieces = 4 * nodes ∧ ∀ W, 201 ≤ W → l.options.Ok W := by
  have hd' : d = 1 ∨ d = 2 ∨ d = 3 ∨ d = 4 := by omega
  have hs' : s = 1 ∨ s = 2 ∨ s = 3 := by omega
  have read : ∀ k : Nat, (toString k).toInt? = some (k : Int) := Nat.toInt?_repr
  obtain ⟨l, hl⟩ : ∃ l : Line, l = ⟨⟨d, s, (((sizeAt (dimensions (toString d)) n)[0]?).getD 16 : Nat),
    (((sizeAt (dimensions (toString d)) n)[1]?).getD 16 : Nat), (((sizeAt (dimensions (toString d)) n)[2]?).getD 16 : Nat),
    if s = 3 then 25 else 200, 1⟩, 4 * nodes⟩ := ⟨_, rfl⟩
  have hsz : ∀ x ∈ sizeAt (dimensions (toString d)) n, 1 ≤ x := by
    intro x hx
    unfold sizeAt at hx
    split at hx <;> simp only [List.mem_cons, List.not_mem_nil, or_false] at hx
    · rw [hx]; exact Nat.one_le_two_pow
    · rcases hx with rfl | rfl <;> exact Nat.one_le_two_pow
    · rcases hx with rfl | rfl | rfl <;> exact Nat.one_le_two_pow
  have hget : ∀ i : Nat, (1 : Int) ≤ ((((sizeAt (dimensions (toString d)) n)[i]?).getD 16 : Nat) : Int) := by
    intro i
    cases h : (sizeAt (dimensions (toString d)) n)[i]? with
    | none => decide
    | some x => exact_mod_cast hsz x (List.mem_of_getElem? h)
  have hok : ∀ W, 201 ≤ W → l.options.Ok W := by
    intro W hW
    rw [hl]
    refine ⟨?_, ?_, ⟨hget 0, hget 1, hget 2⟩, Nat.one_pos, ?_⟩
    · show (d : Int) = 1 ∨ (d : Int) = 2 ∨ (d : Int) = 3 ∨ (d : Int) = 4
      omega
    · show (s : Int) = 1 ∨ (s : Int) = 2 ∨ (s : Int) = 3
      omega
    · show (if s = 3 then 25 else 200) + 1 ≤ W
      split <;> omega
  have hd1 : l.options.dim = d := by rw [hl]
  have hs1 : l.options.solver = s := by rw [hl]
  have hi1 : l.options.it = if s = 3 then 25 else 200 := by rw [hl]
  have hp1 : l.options.pt = 1 := by rw [hl]
  have hv1 : l.pieces = 4 * nodes := by rw [hl]
  suffices h : ∃ launcher args, libraryCommand nodes (toString d) (toString s) (sizeAt (dimensions (toString d)) n) = .ok (launcher ++
      "/p/gpfs1/zhang70/LegionSolversBuild/cr_cuda_nokokkos_release/BenchmarkStencil" :: args) ∧
      Line.default.parse args = some l ∧ benchSizes l.options = (sizeAt (dimensions (toString d)) n).map Int.ofNat by
    obtain ⟨launcher, args, h1, h2, h3⟩ := h
    exact ⟨launcher, _, args, l, h1, rfl, h2, hd1, hs1, h3, hi1, hp1, hv1, hok⟩
  have r1 : Nat.repr 1 = "1" := rfl
  have r2 : Nat.repr 2 = "2" := rfl
  have r3 : Nat.repr 3 = "3" := rfl
  have r4 : Nat.repr 4 = "4" := rfl
  have i1 : "1".toInt? = some 1 := read 1
  have i2 : "2".toInt? = some 2 := read 2
  have i3 : "3".toInt? = some 3 := read 3
  have i4 : "4".toInt? = some 4 := read 4
  have i25 : "25".toInt? = some 25 := read 25
  have i200 : "200".toInt? = some 200 := read 200
  have hread : ∀ k : Nat, (Nat.repr k).toInt? = some (k : Int) := Nat.toInt?_repr
  clear hd1 hs1 hi1 hp1 hv1 hok hget hsz
  rcases hd' with rfl | rfl | rfl | rfl <;> rcases hs' with rfl | rfl | rfl
  all_goals
    refine ⟨["jsrun", "--bind", "none", "--rs_per_host", "1", "--cpu_per_rs", toString numCpus, "--gpu_per_rs", toString numGpus], _, rfl, ?_, ?_⟩
    · rw [hl]
      simp [Line.parse, Line.set, hread, Line.default, sizeAt, dimensions, numGpus, r1, r2, r3, r4, i1, i2, i3, i4, i25, i200]
    · rw [hl]
      simp [benchSizes, sizeAt, dimensions, r1, r2, r3, r4]

/-! ## PETSc and Trilinos -/

/-- The word after the last occurrence of a key (`PetscOptionsGetString`). -/
def petscOption (key : String) : List String → Option String
  | [] => none
  | w :: ws => match petscOption key ws with
    | some v => some v
    | none => if w = key then ws.head? else none

/-- `PetscOptionsGetInt` with a default (`petsc/main.cpp` 59-67); `none`: an error. -/
def petscInt (key : String) (args : List String) : Option Int :=
  match petscOption key args with
  | none => some 1
  | some v => v.toInt?

/-- `get_matrix_type` (`petsc/main.cpp` 21-38, `trilinos/main.cpp` 42-55), with the numbers the library gives the operators; `none`: the program
exits. -/
def matrixType (name : String) : Option Int :=
  if name = "1D" then some 1 else if name = "2D" then some 2 else if name = "3D" then some 3 else if name = "3D27" then some 4 else none

/-- What PETSc's program reads (`petsc/main.cpp` 56-67): operator and sizes. -/
def petscLine (args : List String) : Option (Int × Sizes) := do
  let name ← petscOption "-dim" args
  let dim ← matrixType name
  let nx ← petscInt "-nx" args
  let ny ← petscInt "-ny" args
  let nz ← petscInt "-nz" args
  pure (dim, ⟨nx, ny, nz⟩)

/-- `get_solver_type` (`trilinos/main.cpp` 58-69), with the numbers of the library. -/
def solverType (name : String) : Option Int :=
  if name = "CG" then some 1 else if name = "BiCGStab" then some 2 else if name = "GMRES" then some 3 else none

/-- What the program for Trilinos reads (`trilinos/main.cpp` 101-122): operator, solver and sizes; the arguments do not include the program's
name. -/
def trilinosLine (args : List String) : Option (Int × Int × Sizes) := do
  let dim ← matrixType (← args[0]?)
  let solver ← solverType (← args[1]?)
  let nz ← if dim = 3 ∨ dim = 4 then (← args[4]?).toInt? else some 1
  let ny ← if dim = 2 ∨ dim = 3 ∨ dim = 4 then (← args[3]?).toInt? else some 1
  let nx ← (← args[2]?).toInt?
  pure (dim, solver, ⟨nx, ny, nz⟩)

/-- The name the other programs give the operators. -/
def operatorName (d : Nat) : String := (["1D", "2D", "3D", "3D27"][d - 1]?).getD ""

/-- The names of the solvers for PETSc. -/
def petscName (s : Nat) : String := (["cg", "bcgs", "gmres"][s - 1]?).getD ""

/-- The names of the solvers for Trilinos. -/
def trilinosName (s : Nat) : String := (["CG", "BiCGStab", "GMRES"][s - 1]?).getD ""

/-- **C94**, what the runs of the other programs are: for operator `d`, solver `s` and the `n`-th size they read from the command lines the scripts
make the same operator, grid and solver as the library's benchmark does; PETSc is told to make 200 iterations, with restart length 10. -/
theorem c94_rivals (d s n : Nat) (hd : 1 ≤ d ∧ d ≤ 4) (hs : 1 ≤ s ∧ s ≤ 3) : ∃ z : Sizes,
    (∀ o : Options, o.dim = d → benchSizes o = (sizeAt (dimensions (toString d)) n).map Int.ofNat → SameGrid o z) ∧
    (∃ launcher args, petscCommand (operatorName d) (petscName s) (sizeAt (dimensions (operatorName d)) n) =
        .ok (launcher ++ "/g/g20/zhang70/LegionSolvers/benchmarks/petsc/PETScSolverBenchmark" :: args) ∧ petscLine args = some ((d : Int), z) ∧
      petscOption "-ksp_type" args = some (petscName s) ∧ petscOption "-ksp_max_it" args = some "200" ∧
      (s = 3 → petscOption "-ksp_gmres_restart" args = some "10")) ∧
    ∃ launcher args, trilinosCommand (operatorName d) (trilinosName s) (sizeAt (dimensions (operatorName d)) n) =
        .ok (launcher ++ "/g/g20/zhang70/LegionSolvers/benchmarks/trilinos/build/TrilinosSolverBenchmark" :: args) ∧
      trilinosLine args = some ((d : Int), (s : Int), z) := by
  have hd' : d = 1 ∨ d = 2 ∨ d = 3 ∨ d = 4 := by omega
  have hs' : s = 1 ∨ s = 2 ∨ s = 3 := by omega
  have hread : ∀ k : Nat, (Nat.repr k).toInt? = some (k : Int) := Nat.toInt?_repr
  have hne : ∀ (w : String), '-' ∈ w.toList → ∀ k : Nat, (Nat.repr k = w) = False := by
    intro w hw k
    refine eq_false fun h => ?_
    rw [← h, Nat.toList_repr] at hw
    exact absurd (Nat.isDigit_of_mem_toDigits (by decide) (by decide) hw) (by decide)
  have n1 := hne "-dim" (by decide +kernel)
  have n2 := hne "-nx" (by decide +kernel)
  have n3 := hne "-ny" (by decide +kernel)
  have n4 := hne "-nz" (by decide +kernel)
  have n5 := hne "-ksp_type" (by decide +kernel)
  have n6 := hne "-ksp_max_it" (by decide +kernel)
  have n7 := hne "-ksp_gmres_restart" (by decide +kernel)
  have r1 : Nat.repr 1 = "1" := rfl
  have r2 : Nat.repr 2 = "2" := rfl
  have r3 : Nat.repr 3 = "3" := rfl
  have r4 : Nat.repr 4 = "4" := rfl
  refine ⟨⟨(((sizeAt (dimensions (toString d)) n)[0]?).getD 1 : Nat), (((sizeAt (dimensions (toString d)) n)[1]?).getD 1 : Nat),
    (((sizeAt (dimensions (toString d)) n)[2]?).getD 1 : Nat)⟩, fun o ho hz => ?_, ?_, ?_⟩
  · rcases hd' with rfl | rfl | rfl | rfl
    all_goals
      simp [benchSizes, ho, sizeAt, dimensions, r1, r2, r3, r4] at hz
      constructor <;> simp [sizeAt, dimensions, r1, r2, r3, r4, ho, hz]
  · rcases hd' with rfl | rfl | rfl | rfl <;> rcases hs' with rfl | rfl | rfl
    all_goals
      refine ⟨["jsrun", "-M", "\"-gpu\"", "--rs_per_host", toString numGpus, "--cpu_per_rs", toString (numCpus / numGpus), "--gpu_per_rs", "1"], _, rfl,
        ?_, ?_, ?_, ?_⟩
      all_goals simp [petscLine, petscInt, petscOption, matrixType, hread, sizeAt, dimensions, operatorName, petscName, n1, n2, n3, n4, n5, n6, n7, r1, r2, r3, r4]
  · rcases hd' with rfl | rfl | rfl | rfl <;> rcases hs' with rfl | rfl | rfl
    all_goals
      refine ⟨["jsrun", "-M", "\"-gpu\"", "--rs_per_host", toString numGpus, "--cpu_per_rs", toString (numCpus / numGpus), "--gpu_per_rs", "1"], _, rfl,
        ?_⟩
      simp [trilinosLine, matrixType, solverType, hread, sizeAt, dimensions, operatorName, trilinosName, r1, r2, r3, r4]

end Verif.Sweep
