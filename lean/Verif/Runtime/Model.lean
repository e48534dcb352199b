/-!
# Tasks, stores and the parallel runtime

The library never computes in the calling program: every operation launches tasks with declared data requirements
(`RegionRequirement`s with privileges, futures), and the Legion runtime runs them in parallel.  This file models that
runtime at the level the library relies on (Legion's documented contract, not code of this repository):

* memory is a store of cells;
* a task declares which cells it reads and which it writes, and its body is a sequence of single-cell assignments
  (the loops in the task bodies of `LinearAlgebraTasks.cpp`, `COOMatrixTasks.cpp`, `CSRMatrixTasks.cpp`, … are such
  sequences);
* assignments of different tasks may interleave arbitrarily, except that a task may only advance while no task launched
  earlier and still unfinished has conflicting declared requirements.
-/
namespace Verif.Runtime

variable {C V : Type}

/-- One assignment `dst = f(store)` executed by a task body. -/
structure Update (C V : Type) where
  dst : C
  f : (C → V) → V

/-- A launched (point) task: declared requirements and body. -/
structure Task (C V : Type) where
  reads : C → Prop
  writes : C → Prop
  body : List (Update C V)

section
variable [DecidableEq C]

/-- Execute one assignment. -/
def Update.exec (s : C → V) (u : Update C V) : C → V := fun c => if c = u.dst then u.f s else s c

/-- Execute assignments one after the other. -/
def runUpdates (s : C → V) (us : List (Update C V)) : C → V := us.foldl Update.exec s

/-- Execute tasks one after the other in program order. -/
def runTasks (s : C → V) (ts : List (Task C V)) : C → V := ts.foldl (fun s t => runUpdates s t.body) s

/-- An assignment stays within declared requirements: it writes a cell declared written, and its value depends only on
cells declared read. -/
def Update.Within (u : Update C V) (reads writes : C → Prop) : Prop :=
  writes u.dst ∧ ∀ s s' : C → V, (∀ c, reads c → s c = s' c) → u.f s = u.f s'

/-- A task does only what it declares. -/
def Task.Honest (t : Task C V) : Prop := ∀ u ∈ t.body, u.Within t.reads t.writes

/-- Two tasks' declared requirements conflict: one writes a cell the other reads or writes. -/
def Conflict (t u : Task C V) : Prop :=
  ∃ c, (t.writes c ∧ (u.reads c ∨ u.writes c)) ∨ (u.writes c ∧ (t.reads c ∨ t.writes c))

/-- A task in execution: the task and the assignments it still has to make. -/
structure Running (C V : Type) where
  task : Task C V
  todo : List (Update C V)

/-- State of the machine: memory, and the launched tasks in launch order. -/
structure Machine (C V : Type) where
  store : C → V
  tasks : List (Running C V)

/-- All tasks launched, nothing done yet. -/
def Machine.start (s : C → V) (ts : List (Task C V)) : Machine C V := ⟨s, ts.map fun t => ⟨t, t.body⟩⟩

/-- One step: some task makes its next assignment, provided every task launched before it is either finished or does not
conflict with it. -/
inductive Machine.Step : Machine C V → Machine C V → Prop
  | advance (s : C → V) (before : List (Running C V)) (t : Task C V) (u : Update C V) (rest : List (Update C V))
      (after : List (Running C V)) (ready : ∀ r ∈ before, r.todo = [] ∨ ¬ Conflict r.task t) :
      Step ⟨s, before ++ ⟨t, u :: rest⟩ :: after⟩ ⟨u.exec s, before ++ ⟨t, rest⟩ :: after⟩

/-- Any number of steps. -/
inductive Machine.Steps : Machine C V → Machine C V → Prop
  | refl (m) : Steps m m
  | tail {m m' m''} : Steps m m' → Step m' m'' → Steps m m''

/-- Everything has run. -/
def Machine.Done (m : Machine C V) : Prop := ∀ r ∈ m.tasks, r.todo = []

end
end Verif.Runtime
