import Verif.Solver.Determinism

/-!
# Application tasks between the library's calls

The library is meant to run inside a larger Legion application (`README.md` 3-10: "interleave solver computation with communication and
other application tasks").  The application launches tasks of its own, through the same runtime, between the calls of the library; what
such a task does is up to the application, except that, like every Legion task, it does only what its region requirements declare.
-/
set_option linter.unusedSectionVars false
namespace Verif.App
open Verif.Runtime Verif.Vector Verif.Matrix Verif.Planner Verif.Solver
variable {K P V : Type} [DecidableEq P] [DecidableEq K]

/-- Programs of library calls and application tasks.  `L t` stands for the launch of the application's task `t`; taking
`L = fun t => launch [t]` gives the program, `L = fun _ => pure ()` the same program without the application's tasks.  `W`: the cells the
application's tasks declare to write.  (Simplification: application tasks deliver no futures.) -/
inductive AppProgram (K : Type) [DecidableEq K] (A : Arith V) (G : Geometry P) (W : Cell P → Prop) :
    {α : Type} → ((Task (Cell P) V → M P V Unit) → M P V α) → Prop
  | call {α : Type} {m : M P V α} : Client K A G m → AppProgram K A G W fun _ => m
  | task (t : Task (Cell P) V) : t.Honest → (∀ c, t.writes c → W c) → AppProgram K A G W fun L => L t
  | andThen {α β : Type} {m : (Task (Cell P) V → M P V Unit) → M P V α} {f : α → (Task (Cell P) V → M P V Unit) → M P V β} :
      AppProgram K A G W m → (∀ a, AppProgram K A G W (f a)) → AppProgram K A G W fun L => m L >>= fun a => f a L

/-- The program with its tasks. -/
abbrev full {α : Type} (m : (Task (Cell P) V → M P V Unit) → M P V α) : M P V α := m fun t => launch [t]
/-- The program without its tasks. -/
abbrev bare {α : Type} (m : (Task (Cell P) V → M P V Unit) → M P V α) : M P V α := m fun _ => pure ()

/-- Launches one after the other. -/
def launchAll (L : Task (Cell P) V → M P V Unit) : List (Task (Cell P) V) → M P V Unit
  | [] => pure ()
  | t :: ts => do L t; launchAll L ts

/-- `k` calls of `step`; after the `j`-th one the application launches the tasks `ts j c`, which may use the solver's public state `c`
(the recorded scalars). -/
def steps {α : Type} (L : Task (Cell P) V → M P V Unit) (step : α → M P V α) (ts : Nat → α → List (Task (Cell P) V)) :
    Nat → Nat → α → M P V α
  | _, 0, c => pure c
  | j, k + 1, c => do
    let c' ← step c
    launchAll L (ts (j + 1) c')
    steps L step ts (j + 1) k c'

/-- Construct a `CGSolver` and call `step` `k` times, launching application tasks after the construction (`ts 0`) and after each step. -/
def cgWith (A : Arith V) (G : Geometry P) (pl : Planner K P V) (base k : Nat) (ts : Nat → CG Scalar → List (Task (Cell P) V))
    (L : Task (Cell P) V → M P V Unit) : M P V (CG Scalar) := do
  let pl' ← allocate G pl base 3
  let c ← CG.init (plannerOps A G.toEnv pl')
  launchAll L (ts 0 c)
  steps L (CG.step (plannerOps A G.toEnv pl')) ts 0 k c

/-- The same with a `BiCGStabSolver`. -/
def biCGStabWith (A : Arith V) (G : Geometry P) (pl : Planner K P V) (base k : Nat)
    (ts : Nat → BiCGStab Scalar → List (Task (Cell P) V)) (L : Task (Cell P) V → M P V Unit) : M P V (BiCGStab Scalar) := do
  let pl' ← allocate G pl base 5
  let c ← BiCGStab.init (plannerOps A G.toEnv pl')
  launchAll L (ts 0 c)
  steps L (BiCGStab.step (plannerOps A G.toEnv pl')) ts 0 k c

/-- The same with a `GMRESSolver`. -/
def gmresWith (A : Arith V) (G : Geometry P) (pl : Planner K P V) (base restart k : Nat)
    (ts : Nat → GMRES Scalar → List (Task (Cell P) V)) (L : Task (Cell P) V → M P V Unit) : M P V (GMRES Scalar) := do
  let pl' ← allocate G pl base (restart + 1)
  let c ← GMRES.init (plannerOps A G.toEnv pl') restart
  launchAll L (ts 0 c)
  steps L (GMRES.step (plannerOps A G.toEnv pl')) ts 0 k c

end Verif.App
