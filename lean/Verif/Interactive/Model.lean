import Verif.Solver.Model

/-!
# Programs that look at values

Models `Scalar::get_value` (`src/Scalar.hpp` 50).  It is the only call of the library that waits: it returns the value of the
scalar's future once the task that computes it has finished, while any other task may still be running.  A program that calls it can
decide what to do next from what has been computed (stop iterating when the residual is small, for example), so what such a program
launches is no longer fixed before the tasks run.
-/
namespace Verif.Interactive
open Verif.Runtime Verif.Vector
variable {P V σ : Type} [DecidableEq P]

/-- What a program does next.  `σ` is the program's own state: its variables and where it is. -/
inductive Action (P V σ : Type)
  /-- the program has ended -/
  | halt
  /-- calls of the library that do not wait; they give the next state, or abort -/
  | call (m : M P V σ)
  /-- `x.get_value()` (`Scalar.hpp` 50): the next state depends on the value -/
  | get (x : Scalar) (k : V → σ)

/-- A program, loops included. -/
abbrev Program (P V σ : Type) := σ → Action P V σ

/-- A program in execution: its state, the values it has looked at so far, the next free future, and the runtime's machine with
all tasks launched so far. -/
structure World (P V σ : Type) where
  ctl : σ
  seen : List V
  next : Nat
  machine : Machine (Cell P) V

/-- The program starts. -/
def World.start (c : σ) (n : Nat) (s : Cell P → V) : World P V σ := ⟨c, [], n, ⟨s, []⟩⟩

/-- The future has its value: every task that computes it has finished.  (`Future::get_result` blocks until then.) -/
def Available (m : Machine (Cell P) V) (x : Scalar) : Prop := ∀ r ∈ m.tasks, r.task.writes (.fut x.fut) → r.todo = []

/-- One step: some task makes its next assignment, or the program goes on.  Program and tasks interleave arbitrarily. -/
inductive World.Step (p : Program P V σ) : World P V σ → World P V σ → Prop
  /-- a task makes an assignment -/
  | task {c l n m m'} : Machine.Step m m' → Step p ⟨c, l, n, m⟩ ⟨c, l, n, m'⟩
  /-- calls that launch tasks return at once -/
  | call {c c' l n m e s ts} : p c = .call m → m ⟨n, []⟩ = some (c', e) →
      Step p ⟨c, l, n, ⟨s, ts⟩⟩ ⟨c', l, e.next, ⟨s, ts ++ e.out.map fun t => ⟨t, t.body⟩⟩⟩
  /-- `get_value` (`Scalar.hpp` 50) returns when the value is there -/
  | get {c x k l n m} : p c = .get x k → Available m x →
      Step p ⟨c, l, n, m⟩ ⟨k (m.store (.fut x.fut)), l ++ [m.store (.fut x.fut)], n, m⟩

/-- Executions, with their number of steps. -/
inductive World.Steps (p : Program P V σ) : Nat → World P V σ → World P V σ → Prop
  | refl (w) : Steps p 0 w w
  | tail {i w w' w''} : Steps p i w w' → Step p w' w'' → Steps p (i + 1) w w''

/-- The program has ended, and so have all tasks. -/
def World.Ended (p : Program P V σ) (w : World P V σ) : Prop := p w.ctl = .halt ∧ w.machine.Done

/-- A call has failed an assertion. -/
def World.Aborted (p : Program P V σ) (w : World P V σ) : Prop := ∃ m, p w.ctl = .call m ∧ m ⟨w.next, []⟩ = none

/-! ## A convergence loop -/
open Verif.Solver Verif.Planner
variable {K : Type} [DecidableEq K]

/-- The states of the loop below. -/
inductive Loop (K P V : Type)
  | start
  | check (pl : Planner K P V) (c : CG Scalar) (i : Nat)
  | again (pl : Planner K P V) (c : CG Scalar) (i : Nat)
  | stop (pl : Planner K P V) (c : CG Scalar) (i : Nat)

/-- A user program: construct a `CGSolver` on the planner (`CGSolver.hpp` 32-44), then
`int i = 0; while (goOn(i, solver.residual_norm_squared.back().get_value())) { solver.step(); ++i; }`
(`CGSolver.hpp` 24, 46-55; `Scalar.hpp` 50). -/
def cgLoop (A : Arith V) (G : Geometry P) (pl : Planner K P V) (base : Nat) (goOn : Nat → V → Bool) : Program P V (Loop K P V)
  | .start => .call do
      let pl' ← allocate G pl base 3
      let c ← CG.init (plannerOps A G.toEnv pl')
      pure (.check pl' c 0)
  | .check pl' c i => .get c.last fun v => if goOn i v then .again pl' c i else .stop pl' c i
  | .again pl' c i => .call do
      let c' ← CG.step (plannerOps A G.toEnv pl') c
      pure (.check pl' c' (i + 1))
  | .stop .. => .halt

end Verif.Interactive
