import Verif.Replay.Model

/-! # C91: what is asked of a traced program -/
set_option linter.dupNamespace false
set_option linter.unusedSectionVars false
namespace Verif.Replay
open Verif.Runtime Verif.Vector Verif.Matrix Verif.Planner Verif.Solver Verif.Programs Verif.Launch

variable {P V α : Type} [DecidableEq P]

/-- The items strictly between the two positions. -/
def inside (l : List (Item P V)) (tr : Nat × Nat) : List (Item P V) := (l.drop (tr.1 + 1)).take (tr.2 - (tr.1 + 1))

/-- Legion's rule for traces: each contains only tasks, and one by one the same operations as the first. -/
def ValidTraces (A : Arith V) (l : List (Item P V)) : Prop :=
  ∀ tr ∈ traces l, ∀ first, (traces l).head? = some first → ∃ ts0 ts, inside l first = ts0.map .task ∧ inside l tr = ts.map .task ∧
    List.Forall₂ (SameOperation A) ts0 ts

/-- The traced program `m`, started with memory `s`, does not abort; it obeys Legion's rule for traces; what it issues can be executed to the
end by a runtime that replays traces; and however such a runtime interleaves it, once all has finished the result and memory satisfy `Q`. -/
def EnsuresTraced (A : Arith V) (m : T P V α) (n : Nat) (s : Cell P → V) (Q : α → (Cell P → V) → Prop) : Prop :=
  ∃ a n' l, m ⟨n, []⟩ = some (a, ⟨n', l⟩) ∧ ValidTraces A l ∧
    (∃ M' : State P V, (State.start s l).Steps M' ∧ M'.Done) ∧
    ∀ M' : State P V, (State.start s l).Steps M' → M'.Done → Q a M'.store

end Verif.Replay
