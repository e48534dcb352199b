import Verif.Runtime.Log
import Verif.Vector.Spec

/-! Specification vocabulary for programs that print. -/
namespace Verif.Programs
open Verif.Runtime Verif.Vector
variable {P V α : Type} [DecidableEq P]

/-- The program `m`, started when `n` is the next free future and memory is `s`, does not abort; what it launches can be executed to
the end; and however it is scheduled, once everything has run the result of the program, the lines printed (in the order they appear)
and memory satisfy `Q`. -/
def EnsuresOutput (m : M P V (α × List (PrintJob (Cell P)))) (n : Nat) (s : Cell P → V)
    (Q : α → List V → (Cell P → V) → Prop) : Prop :=
  ∃ a jobs n' ts, m ⟨n, []⟩ = some ((a, jobs), ⟨n', ts⟩) ∧
    (∃ log, ∃ M' : Machine (Cell P) V, (Machine.start s ts).Logged log M' ∧ M'.Done) ∧
    ∀ log, ∀ M' : Machine (Cell P) V, (Machine.start s ts).Logged log M' → M'.Done → Q a (output jobs log) M'.store

end Verif.Programs
