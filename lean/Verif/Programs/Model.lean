import Verif.Runtime.Log
import Verif.EndToEnd.Single

/-!
# The shipped programs

Models `Scalar::print` (`Scalar.cpp` 97-117, `UtilityTasks.cpp` 25-31) and the top-level tasks of the library's test programs
(`test/Test01ScalarOperations.cpp`, `test/Test02VectorOperations.cpp`, `test/Test05COOSolveCG.cpp`, `test/Test06CSRSolveCG.cpp`) as
clients of the modelled API.

Simplifications: command line parsing and resource clean-up are not modelled (ownership: `Verif.Ownership`); a printing task writes its
output at the moment it runs, as one indivisible line; the integer future it returns holds an entry-type zero.
-/
set_option linter.dupNamespace false
set_option linter.unusedSectionVars false
namespace Verif.Programs
open Verif.Runtime Verif.Vector Verif.Matrix Verif.Planner Verif.Solver Verif.EndToEnd

variable {K P V α : Type} [DecidableEq P] [DecidableEq K]

/-- How many tasks have been launched: the launch number of the next one. -/
def launched : M P V Nat := fun e => some (e.out.length, e)

/-- A call that may fail an assertion and launches nothing. -/
def lift (o : Option α) : M P V α := fun e => o.map fun a => (a, e)

/-- `Scalar::print()` (`Scalar.cpp` 97-105): a task with the scalar as its only argument. -/
def sPrint (A : Arith V) (a : Scalar) : M P V (Scalar × PrintJob (Cell P)) := do
  let f ← fresh
  let i ← launched
  launch [scalarTask f [a.fut] fun _ => A.zero]
  pure (⟨f⟩, ⟨i, .fut a.fut⟩)

/-- `Scalar::print(dummy)` (`Scalar.cpp` 108-117): the result of another print as second argument. -/
def sPrintAfter (A : Arith V) (a dummy : Scalar) : M P V (Scalar × PrintJob (Cell P)) := do
  let f ← fresh
  let i ← launched
  launch [scalarTask f [a.fut, dummy.fut] fun _ => A.zero]
  pure (⟨f⟩, ⟨i, .fut a.fut⟩)

/-- `for (…) { dummy = x.print(dummy); }` (`Test05COOSolveCG.cpp` 84-87). -/
def printLoop (A : Arith V) : List Scalar → Scalar → M P V (List (PrintJob (Cell P)))
  | [], _ => pure []
  | a :: l, dummy => do
    let r ← sPrintAfter A a dummy
    let js ← printLoop A l r.1
    pure (r.2 :: js)

/-- `Legion::Future dummy = Future::from_value<int>(rt, 0)` and the loop (`Test05COOSolveCG.cpp` 83-87). -/
def printAll (A : Arith V) (l : List Scalar) : M P V (List (PrintJob (Cell P))) := do
  let dummy ← scalarOf A.zero
  printLoop A l dummy

/-- `l[i]` for each `i` of a list; out of range is undefined behaviour, here failure. -/
def pick {β : Type} (l : List β) : List Nat → Option (List β)
  | [] => some []
  | i :: is => (l[i]?).bind fun a => (pick l is).map fun r => a :: r

/-- `Test05COOSolveCG.cpp` 62-82, `Test06CSRSolveCG.cpp` 62-81, and the reads of the recorded values in the loop after: right-hand side
one, solution zero, planner, CG, `k` steps.  The matrix has been built before; `d0`, `d1`, from `base` on: the data of the regions the
runtime allocates for the two vectors and the solver. -/
def testSolve (A : Arith V) (G : Geometry P) (part d0 d1 base : Nat) (m : Op K P V) (k : Nat) :
    M P V (CG Scalar × List Scalar) := do
  let rhs ← lift (newVector G part d1)
  constantFill G.toEnv rhs A.one
  let sol ← lift (newVector G part d0)
  zeroFill A G.toEnv sol
  let pl ← lift (Planner.empty.setupAll G (singleCalls sol rhs m))
  let c ← cg A G pl base k
  let l ← lift (pick c.history (List.range (k + 1)))
  pure (c, l)

/-- `Test05COOSolveCG.cpp` 62-87, `Test06CSRSolveCG.cpp` 62-86: solve, then print the recorded squared residual norms. -/
def testSolveCG (A : Arith V) (G : Geometry P) (part d0 d1 base : Nat) (m : Op K P V) (k : Nat) :
    M P V (CG Scalar × List (PrintJob (Cell P))) := do
  let r ← testSolve A G part d0 d1 base m k
  let jobs ← printAll A r.2
  pure (r.1, jobs)

end Verif.Programs
