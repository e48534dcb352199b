import Verif.Interactive.Model
import Verif.Solver.Determinism

/-! # Programs that look at values: specification -/
namespace Verif.Interactive
open Verif.Runtime Verif.Vector Verif.Solver Verif.Planner
variable {P V σ : Type} [DecidableEq P]

/-- The state of a program whose calls take effect at once. -/
structure Alone (P V σ : Type) where
  ctl : σ
  seen : List V
  next : Nat
  store : Cell P → V

/-- One step of the program when every call runs its tasks to the end, in order, before it returns. -/
inductive Alone.Step (p : Program P V σ) : Alone P V σ → Alone P V σ → Prop
  | call {c c' l n m e s} : p c = .call m → m ⟨n, []⟩ = some (c', e) → Step p ⟨c, l, n, s⟩ ⟨c', l, e.next, runTasks s e.out⟩
  | get {c x k l n s} : p c = .get x k → Step p ⟨c, l, n, s⟩ ⟨k (s (.fut x.fut)), l ++ [s (.fut x.fut)], n, s⟩

/-- `i` steps. -/
inductive Alone.Steps (p : Program P V σ) : Nat → Alone P V σ → Alone P V σ → Prop
  | refl (w) : Steps p 0 w w
  | tail {i w w' w''} : Steps p i w w' → Step p w' w'' → Steps p (i + 1) w w''

/-- A program that only uses the library: everything it calls is a client program. -/
def UsesLibrary (K : Type) [DecidableEq K] (A : Arith V) (G : Geometry P) (p : Program P V σ) : Prop :=
  ∀ c m, p c = .call m → Client K A G m

/-- All executions of the program from state `c` and memory `s` end, within a common number of steps, and however an execution goes, it
can be continued to an end, where the program's state, the values it has looked at and memory satisfy `Q`. -/
def Ends (p : Program P V σ) (c : σ) (n : Nat) (s : Cell P → V) (Q : σ → List V → (Cell P → V) → Prop) : Prop :=
  (∃ bound, ∀ i w, World.Steps p i (.start c n s) w → i ≤ bound) ∧
  (∀ i w, World.Steps p i (.start c n s) w → ∃ i' w', World.Steps p i' w w' ∧ w'.Ended p) ∧
  ∀ i w, World.Steps p i (.start c n s) w → w.Ended p → Q w.ctl w.seen w.machine.store

/-- No execution of the program ends, nor does one get stuck. -/
def RunsForever (p : Program P V σ) (c : σ) (n : Nat) (s : Cell P → V) : Prop :=
  ∀ i w, World.Steps p i (.start c n s) w → ¬ w.Ended p ∧ ∃ w', World.Step p w w'

end Verif.Interactive
