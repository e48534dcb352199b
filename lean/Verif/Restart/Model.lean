import Verif.Runtime.Log

/-!
# C96: a runtime that interrupts and restarts tasks

The library registers its tasks with the flags `IDEMPOTENT` and `REPLICABLE` (`LegionUtilities.hpp` 141-147, 190-196), which tell the runtime that it may
execute them again; the tasks that print or draw random numbers are registered without (`UtilityTasks.hpp` 17, 105, 118, `COOMatrixTasks.hpp` 53,
`CSRMatrixTasks.hpp` 51).  This file models a runtime that makes use of this: as in `Runtime/Model.lean`, but as long as a task has not been committed,
even after its last assignment, its attempt can be given up.
This is not code of this repository.
-/
namespace Verif.Restart
open Verif.Runtime
variable {C V : Type}

/-- A task, what is left of its present attempt, memory when the attempt began (`none`: not begun), and whether its effects are final. -/
structure Attempt (C V : Type) where
  task : Task C V
  todo : List (Update C V)
  saved : Option (C → V)
  committed : Bool

/-- Memory and the launched tasks in launch order. -/
structure State (C V : Type) where
  store : C → V
  tasks : List (Attempt C V)

/-- All tasks launched, none begun. -/
def State.start (s : C → V) (ts : List (Task C V)) : State C V := ⟨s, ts.map fun t => ⟨t, t.body, none, false⟩⟩

/-- What giving up an attempt does to memory: cells the task does not declare written are untouched; cells it declares read and written (privilege
`READ_WRITE`) are put back; cells it only declares written (`WRITE_DISCARD`) may contain anything. -/
def GivenUp (t : Task C V) (saved s s' : C → V) : Prop := ∀ c, (¬t.writes c → s' c = s c) ∧ (t.writes c → t.reads c → s' c = saved c)

/-- The task assigns every cell it declares written but not read. -/
def Covers (t : Task C V) : Prop := ∀ c, t.writes c → t.reads c ∨ ∃ u ∈ t.body, u.dst = c

variable [DecidableEq C]

/-- An execution from `m₀` with its log: for every assignment that was made, whether or not its attempt succeeded, the launch number of the task and
memory before.  `may`: the launch numbers of the tasks the runtime may restart. -/
inductive State.Logged (may : Nat → Prop) (m₀ : State C V) : List (Nat × (C → V)) → State C V → Prop
  | refl : Logged may m₀ [] m₀
  | advance {log : List (Nat × (C → V))} {s : C → V} {before : List (Attempt C V)} {t : Task C V} {u : Update C V} {rest : List (Update C V)}
      {saved : Option (C → V)} {after : List (Attempt C V)} (h : Logged may m₀ log ⟨s, before ++ ⟨t, u :: rest, saved, false⟩ :: after⟩)
      (ready : ∀ r ∈ before, r.committed = true ∨ ¬Conflict r.task t) :
      Logged may m₀ (log ++ [(before.length, s)]) ⟨u.exec s, before ++ ⟨t, rest, some (saved.getD s), false⟩ :: after⟩
  | commit {log : List (Nat × (C → V))} {s : C → V} {before : List (Attempt C V)} {t : Task C V} {saved : Option (C → V)}
      {after : List (Attempt C V)} (h : Logged may m₀ log ⟨s, before ++ ⟨t, [], saved, false⟩ :: after⟩) :
      Logged may m₀ log ⟨s, before ++ ⟨t, [], saved, true⟩ :: after⟩
  | restart {log : List (Nat × (C → V))} {s s' : C → V} {before : List (Attempt C V)} {t : Task C V} {todo : List (Update C V)}
      {saved : C → V} {after : List (Attempt C V)} (h : Logged may m₀ log ⟨s, before ++ ⟨t, todo, some saved, false⟩ :: after⟩)
      (allowed : may before.length) (back : GivenUp t saved s s') :
      Logged may m₀ log ⟨s', before ++ ⟨t, t.body, none, false⟩ :: after⟩

/-- Every task has been committed. -/
def State.Done (m : State C V) : Prop := ∀ r ∈ m.tasks, r.committed = true

end Verif.Restart
