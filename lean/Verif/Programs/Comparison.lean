import Verif.Programs.BenchmarkSystem

/-!
# C77: the comparison programs

Models the assembly in `benchmarks/petsc/main.cpp` and `benchmarks/trilinos/main.cpp` and the sizes that `bench_all.py` and `bench_all_ls.py` pass.

Simplifications: indices are unbounded integers (with C++'s truncating division); the communicator's distribution of rows is an argument; the
constants are the same literals as in the library's benchmark (`lit z`), their quotient is the arithmetic's division; command line parsing,
the solvers of PETSc and Trilinos and timing are not modelled.
-/
set_option linter.dupNamespace false
set_option linter.unusedSectionVars false
namespace Verif.Programs
open Verif.Runtime Verif.Vector Verif.Matrix Verif.Planner Verif.Solver Verif.EndToEnd Verif.Grid Verif.Stencil

/-! ## Model -/

section
variable {V : Type}

/-- `two` … `corner` (`petsc/main.cpp` 41-48, `trilinos/main.cpp` 73-80). -/
structure Consts (V : Type) where
  two : V
  four : V
  six : V
  neg_one : V
  center : V
  face : V
  edge : V
  corner : V

/-- `petsc/main.cpp` 41-48, `trilinos/main.cpp` 73-80. -/
def consts (A : Arith V) (lit : Int → V) : Consts V :=
  ⟨lit 2, lit 4, lit 6, lit (-1), A.div (lit 88) (lit 26), A.div (lit (-6)) (lit 26), A.div (lit (-3)) (lit 26), A.div (lit (-2)) (lit 26)⟩

/-- `if (c) MatSetValue(A, global_index, col, v, INSERT_VALUES)`. -/
def put (c : Prop) [Decidable c] (col : Int) (v : V) : List (Int × V) := if c then [(col, v)] else []

/-- `petsc/main.cpp` 117-126. -/
def petscRow1 (k : Consts V) (nx global_index : Int) : List (Int × V) :=
  let gx := global_index
  put (gx > 0) (gx - 1) k.neg_one ++
  put True gx k.two ++
  put (gx + 1 < nx) (gx + 1) k.neg_one

/-- `petsc/main.cpp` 127-151. -/
def petscRow2 (k : Consts V) (nx ny global_index : Int) : List (Int × V) :=
  let gy := global_index.tmod ny
  let gx := global_index.tdiv ny
  put (gx > 0) (ny * (gx - 1) + gy) k.neg_one ++
  put (gy > 0) (ny * gx + (gy - 1)) k.neg_one ++
  put True (ny * gx + gy) k.four ++
  put (gy + 1 < ny) (ny * gx + (gy + 1)) k.neg_one ++
  put (gx + 1 < nx) (ny * (gx + 1) + gy) k.neg_one

/-- `petsc/main.cpp` 152-214. -/
def petscRow3 (k : Consts V) (nx ny nz global_index : Int) : List (Int × V) :=
  let gz := global_index.tmod nz
  let gxy := global_index.tdiv nz
  let gy := gxy.tmod ny
  let gx := gxy.tdiv ny
  put (gx > 0) (ny * nz * (gx - 1) + nz * gy + gz) k.neg_one ++
  put (gy > 0) (ny * nz * gx + nz * (gy - 1) + gz) k.neg_one ++
  put (gz > 0) (ny * nz * gx + nz * gy + (gz - 1)) k.neg_one ++
  put True (ny * nz * gx + nz * gy + gz) k.six ++
  put (gz + 1 < nz) (ny * nz * gx + nz * gy + (gz + 1)) k.neg_one ++
  put (gy + 1 < ny) (ny * nz * gx + nz * (gy + 1) + gz) k.neg_one ++
  put (gx + 1 < nx) (ny * nz * (gx + 1) + nz * gy + gz) k.neg_one

/-- `petsc/main.cpp` 215-249. -/
def petscRow4 (k : Consts V) (nx ny nz global_index : Int) : List (Int × V) :=
  let gz := global_index.tmod nz
  let gxy := global_index.tdiv nz
  let gy := gxy.tmod ny
  let gx := gxy.tdiv ny
  put (gx > 0 ∧ gy > 0 ∧ gz > 0) (ny * nz * (gx - 1) + nz * (gy - 1) + (gz - 1)) k.corner ++
  put (gx > 0 ∧ gy > 0) (ny * nz * (gx - 1) + nz * (gy - 1) + gz) k.edge ++
  put (gx > 0 ∧ gy > 0 ∧ gz + 1 < nz) (ny * nz * (gx - 1) + nz * (gy - 1) + (gz + 1)) k.corner ++
  put (gx > 0 ∧ gz > 0) (ny * nz * (gx - 1) + nz * gy + (gz - 1)) k.edge ++
  put (gx > 0) (ny * nz * (gx - 1) + nz * gy + gz) k.face ++
  put (gx > 0 ∧ gz + 1 < nz) (ny * nz * (gx - 1) + nz * gy + (gz + 1)) k.edge ++
  put (gx > 0 ∧ gy + 1 < ny ∧ gz > 0) (ny * nz * (gx - 1) + nz * (gy + 1) + (gz - 1)) k.corner ++
  put (gx > 0 ∧ gy + 1 < ny) (ny * nz * (gx - 1) + nz * (gy + 1) + gz) k.edge ++
  put (gx > 0 ∧ gy + 1 < ny ∧ gz + 1 < nz) (ny * nz * (gx - 1) + nz * (gy + 1) + (gz + 1)) k.corner ++
  put (gy > 0 ∧ gz > 0) (ny * nz * gx + nz * (gy - 1) + (gz - 1)) k.edge ++
  put (gy > 0) (ny * nz * gx + nz * (gy - 1) + gz) k.face ++
  put (gy > 0 ∧ gz + 1 < nz) (ny * nz * gx + nz * (gy - 1) + (gz + 1)) k.edge ++
  put (gz > 0) (ny * nz * gx + nz * gy + (gz - 1)) k.face ++
  put True (ny * nz * gx + nz * gy + gz) k.center ++
  put (gz + 1 < nz) (ny * nz * gx + nz * gy + (gz + 1)) k.face ++
  put (gy + 1 < ny ∧ gz > 0) (ny * nz * gx + nz * (gy + 1) + (gz - 1)) k.edge ++
  put (gy + 1 < ny) (ny * nz * gx + nz * (gy + 1) + gz) k.face ++
  put (gy + 1 < ny ∧ gz + 1 < nz) (ny * nz * gx + nz * (gy + 1) + (gz + 1)) k.edge ++
  put (gx + 1 < nx ∧ gy > 0 ∧ gz > 0) (ny * nz * (gx + 1) + nz * (gy - 1) + (gz - 1)) k.corner ++
  put (gx + 1 < nx ∧ gy > 0) (ny * nz * (gx + 1) + nz * (gy - 1) + gz) k.edge ++
  put (gx + 1 < nx ∧ gy > 0 ∧ gz + 1 < nz) (ny * nz * (gx + 1) + nz * (gy - 1) + (gz + 1)) k.corner ++
  put (gx + 1 < nx ∧ gz > 0) (ny * nz * (gx + 1) + nz * gy + (gz - 1)) k.edge ++
  put (gx + 1 < nx) (ny * nz * (gx + 1) + nz * gy + gz) k.face ++
  put (gx + 1 < nx ∧ gz + 1 < nz) (ny * nz * (gx + 1) + nz * gy + (gz + 1)) k.edge ++
  put (gx + 1 < nx ∧ gy + 1 < ny ∧ gz > 0) (ny * nz * (gx + 1) + nz * (gy + 1) + (gz - 1)) k.corner ++
  put (gx + 1 < nx ∧ gy + 1 < ny) (ny * nz * (gx + 1) + nz * (gy + 1) + gz) k.edge ++
  put (gx + 1 < nx ∧ gy + 1 < ny ∧ gz + 1 < nz) (ny * nz * (gx + 1) + nz * (gy + 1) + (gz + 1)) k.corner

/-- The `switch` on the kind of matrix (`petsc/main.cpp` 116-250). -/
def petscRow (k : Consts V) (dim nx ny nz global_index : Int) : List (Int × V) :=
  if dim = 1 then petscRow1 k nx global_index else if dim = 2 then petscRow2 k nx ny global_index
  else if dim = 3 then petscRow3 k nx ny nz global_index else petscRow4 k nx ny nz global_index

/-- `problem_size` (`petsc/main.cpp` 87, `trilinos/main.cpp` 130). -/
def problemSize (nx ny nz : Int) : Nat := (nx * ny * nz).toNat

/-- `for (global_index = row_start; global_index < row_end; ++global_index)` on one rank (`petsc/main.cpp` 112-251): the calls of `MatSetValue`
as triples (row, column, value). -/
def petscRank (k : Consts V) (dim nx ny nz : Int) (owned : Int × Int) : List (Int × Int × V) :=
  ((indices (owned.2 - owned.1).toNat).map (owned.1 + ·)).flatMap fun g => (petscRow k dim nx ny nz g).map fun e => (g, e.1, e.2)

/-- All the ranks, one after the other (they set disjoint rows). -/
def petscSets (k : Consts V) (dim nx ny nz : Int) (owned : List (Int × Int)) : List (Int × Int × V) :=
  owned.flatMap (petscRank k dim nx ny nz)

/-- `INSERT_VALUES`: the last value set counts; `none`: no entry. -/
def insertedAt (sets : List (Int × Int × V)) (i j : Int) : Option V :=
  ((sets.filter fun e => decide (e.1 = i ∧ e.2.1 = j)).map fun e => e.2.2).getLast?

/-- The vectors `indices` and `values` (`trilinos/main.cpp` 137-138). -/
structure Buffers (V : Type) where
  indices : List Int
  values : List V

/-- `if (c) { indices.push_back(col); values.push_back(v); }`. -/
def push (c : Prop) [Decidable c] (col : Int) (v : V) (s : Buffers V) : Buffers V :=
  if c then ⟨s.indices ++ [col], s.values ++ [v]⟩ else s

/-- `trilinos/main.cpp` 172-184. -/
def trilinosRow1 (k : Consts V) (nx global_index : Int) (s : Buffers V) : Buffers V :=
  let gx := global_index
  s |> push (gx > 0) (gx - 1) k.neg_one |>
  push True gx k.two |>
  push (gx + 1 < nx) (gx + 1) k.neg_one

/-- `trilinos/main.cpp` 185-206. -/
def trilinosRow2 (k : Consts V) (nx ny global_index : Int) (s : Buffers V) : Buffers V :=
  let gy := global_index.tmod ny
  let gx := global_index.tdiv ny
  s |> push (gx > 0) (ny * (gx - 1) + gy) k.neg_one |>
  push (gy > 0) (ny * gx + (gy - 1)) k.neg_one |>
  push True (ny * gx + gy) k.four |>
  push (gy + 1 < ny) (ny * gx + (gy + 1)) k.neg_one |>
  push (gx + 1 < nx) (ny * (gx + 1) + gy) k.neg_one

/-- `trilinos/main.cpp` 207-238. -/
def trilinosRow3 (k : Consts V) (nx ny nz global_index : Int) (s : Buffers V) : Buffers V :=
  let gz := global_index.tmod nz
  let gxy := global_index.tdiv nz
  let gy := gxy.tmod ny
  let gx := gxy.tdiv ny
  s |> push (gx > 0) (ny * nz * (gx - 1) + nz * gy + gz) k.neg_one |>
  push (gy > 0) (ny * nz * gx + nz * (gy - 1) + gz) k.neg_one |>
  push (gz > 0) (ny * nz * gx + nz * gy + (gz - 1)) k.neg_one |>
  push True (ny * nz * gx + nz * gy + gz) k.six |>
  push (gz + 1 < nz) (ny * nz * gx + nz * gy + (gz + 1)) k.neg_one |>
  push (gy + 1 < ny) (ny * nz * gx + nz * (gy + 1) + gz) k.neg_one |>
  push (gx + 1 < nx) (ny * nz * (gx + 1) + nz * gy + gz) k.neg_one

/-- `trilinos/main.cpp` 239-366. -/
def trilinosRow4 (k : Consts V) (nx ny nz global_index : Int) (s : Buffers V) : Buffers V :=
  let gz := global_index.tmod nz
  let gxy := global_index.tdiv nz
  let gy := gxy.tmod ny
  let gx := gxy.tdiv ny
  s |> push (gx > 0 ∧ gy > 0 ∧ gz > 0) (ny * nz * (gx - 1) + nz * (gy - 1) + (gz - 1)) k.corner |>
  push (gx > 0 ∧ gy > 0) (ny * nz * (gx - 1) + nz * (gy - 1) + gz) k.edge |>
  push (gx > 0 ∧ gy > 0 ∧ gz + 1 < nz) (ny * nz * (gx - 1) + nz * (gy - 1) + (gz + 1)) k.corner |>
  push (gx > 0 ∧ gz > 0) (ny * nz * (gx - 1) + nz * gy + (gz - 1)) k.edge |>
  push (gx > 0) (ny * nz * (gx - 1) + nz * gy + gz) k.face |>
  push (gx > 0 ∧ gz + 1 < nz) (ny * nz * (gx - 1) + nz * gy + (gz + 1)) k.edge |>
  push (gx > 0 ∧ gy + 1 < ny ∧ gz > 0) (ny * nz * (gx - 1) + nz * (gy + 1) + (gz - 1)) k.corner |>
  push (gx > 0 ∧ gy + 1 < ny) (ny * nz * (gx - 1) + nz * (gy + 1) + gz) k.edge |>
  push (gx > 0 ∧ gy + 1 < ny ∧ gz + 1 < nz) (ny * nz * (gx - 1) + nz * (gy + 1) + (gz + 1)) k.corner |>
  push (gy > 0 ∧ gz > 0) (ny * nz * gx + nz * (gy - 1) + (gz - 1)) k.edge |>
  push (gy > 0) (ny * nz * gx + nz * (gy - 1) + gz) k.face |>
  push (gy > 0 ∧ gz + 1 < nz) (ny * nz * gx + nz * (gy - 1) + (gz + 1)) k.edge |>
  push (gz > 0) (ny * nz * gx + nz * gy + (gz - 1)) k.face |>
  push True (ny * nz * gx + nz * gy + gz) k.center |>
  push (gz + 1 < nz) (ny * nz * gx + nz * gy + (gz + 1)) k.face |>
  push (gy + 1 < ny ∧ gz > 0) (ny * nz * gx + nz * (gy + 1) + (gz - 1)) k.edge |>
  push (gy + 1 < ny) (ny * nz * gx + nz * (gy + 1) + gz) k.face |>
  push (gy + 1 < ny ∧ gz + 1 < nz) (ny * nz * gx + nz * (gy + 1) + (gz + 1)) k.edge |>
  push (gx + 1 < nx ∧ gy > 0 ∧ gz > 0) (ny * nz * (gx + 1) + nz * (gy - 1) + (gz - 1)) k.corner |>
  push (gx + 1 < nx ∧ gy > 0) (ny * nz * (gx + 1) + nz * (gy - 1) + gz) k.edge |>
  push (gx + 1 < nx ∧ gy > 0 ∧ gz + 1 < nz) (ny * nz * (gx + 1) + nz * (gy - 1) + (gz + 1)) k.corner |>
  push (gx + 1 < nx ∧ gz > 0) (ny * nz * (gx + 1) + nz * gy + (gz - 1)) k.edge |>
  push (gx + 1 < nx) (ny * nz * (gx + 1) + nz * gy + gz) k.face |>
  push (gx + 1 < nx ∧ gz + 1 < nz) (ny * nz * (gx + 1) + nz * gy + (gz + 1)) k.edge |>
  push (gx + 1 < nx ∧ gy + 1 < ny ∧ gz > 0) (ny * nz * (gx + 1) + nz * (gy + 1) + (gz - 1)) k.corner |>
  push (gx + 1 < nx ∧ gy + 1 < ny) (ny * nz * (gx + 1) + nz * (gy + 1) + gz) k.edge |>
  push (gx + 1 < nx ∧ gy + 1 < ny ∧ gz + 1 < nz) (ny * nz * (gx + 1) + nz * (gy + 1) + (gz + 1)) k.corner

/-- The `switch` on the kind of matrix (`trilinos/main.cpp` 171-367). -/
def trilinosRow (k : Consts V) (dim nx ny nz global_index : Int) (s : Buffers V) : Buffers V :=
  if dim = 1 then trilinosRow1 k nx global_index s else if dim = 2 then trilinosRow2 k nx ny global_index s
  else if dim = 3 then trilinosRow3 k nx ny nz global_index s else trilinosRow4 k nx ny nz global_index s

/-- The loop over the local rows (`trilinos/main.cpp` 165-371): the calls of `insertGlobalValues`; the two vectors are cleared after each. -/
def trilinosLoop (k : Consts V) (dim nx ny nz : Int) : List Int → Buffers V → List (Int × List Int × List V)
  | [], _ => []
  | g :: rows, s =>
    let s := trilinosRow k dim nx ny nz g s
    (g, s.indices, s.values) :: trilinosLoop k dim nx ny nz rows ⟨[], []⟩

/-- All the ranks, each with the rows the map gives it. -/
def trilinosInserts (k : Consts V) (dim nx ny nz : Int) (owned : List (List Int)) : List (Int × List Int × List V) :=
  owned.flatMap fun rows => trilinosLoop k dim nx ny nz rows ⟨[], []⟩

/-- `fillComplete` after `insertGlobalValues`: the values inserted at one place are added; `none`: no entry. -/
def summedAt (A : Arith V) (ins : List (Int × List Int × List V)) (i j : Int) : Option V :=
  match ((ins.flatMap fun t => (t.2.1.zip t.2.2).map fun e => (t.1, e.1, e.2)).filter fun e => decide (e.1 = i ∧ e.2.1 = j)).map fun e => e.2.2 with
  | [] => none
  | v :: vs => some (vs.foldl A.add v)

end

/-- The sizes a program runs with. -/
structure Sizes where
  nx : Int
  ny : Int
  nz : Int
  deriving DecidableEq

/-- `petsc_args` (`bench_all.py` 87-134) and the defaults of the program (`petsc/main.cpp` 59-61); `none`: an assertion fails. -/
def petscSizes (dim : Int) : List Int → Option Sizes
  | [x] => if dim = 1 then some ⟨x, 1, 1⟩ else none
  | [x, y] => if dim = 2 then some ⟨x, y, 1⟩ else none
  | [x, y, z] => if dim = 3 ∨ dim = 4 then some ⟨x, y, z⟩ else none
  | _ => none

/-- `trilinos_args` (`bench_all.py` 137-161) and `trilinos/main.cpp` 104-119. -/
def trilinosSizes (dim : Int) : List Int → Option Sizes
  | [x] => if dim = 1 then some ⟨x, 1, 1⟩ else none
  | [x, y] => if dim = 2 then some ⟨x, y, 1⟩ else none
  | [x, y, z] => if dim = 3 ∨ dim = 4 then some ⟨x, y, z⟩ else none
  | _ => none

/-- `legion_solvers_args` (`bench_all.py` 164-209) and the defaults of the program (`BenchmarkStencil.cpp` 148-150). -/
def librarySizes (dim : Int) : List Int → Option Sizes
  | [x] => if dim = 1 then some ⟨x, 16, 16⟩ else none
  | [x, y] => if dim = 2 then some ⟨x, y, 16⟩ else none
  | [x, y, _] => if dim = 3 ∨ dim = 4 then some ⟨x, y, y⟩ else none
  | _ => none

/-- The same function in `bench_all_ls.py` (166-211). -/
def librarySizesLs (dim : Int) : List Int → Option Sizes
  | [x] => if dim = 1 then some ⟨x, 16, 16⟩ else none
  | [x, y] => if dim = 2 then some ⟨x, y, 16⟩ else none
  | [x, y, z] => if dim = 3 ∨ dim = 4 then some ⟨x, y, z⟩ else none
  | _ => none

end Verif.Programs
