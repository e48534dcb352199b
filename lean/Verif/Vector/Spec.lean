import Verif.Vector.Model
import Mathlib.Data.List.Basic

/-! Specification vocabulary for the vector and scalar properties. -/
namespace Verif.Vector
open Verif.Runtime
variable {P V α : Type} [DecidableEq P]

/-- The pieces form a disjoint and complete partition of `space`: what the vector constructors assert
(`PartitionedVector.cpp` 48-49). -/
def IsPartition (space : List P) (pieces : List (List P)) : Prop :=
  pieces.flatten.Nodup ∧ ∀ p, p ∈ pieces.flatten ↔ p ∈ space

/-- The call `m`, made when `n` is the next free future and memory (after everything launched before) is `s`, does not
abort; the tasks it launches can be executed to the end; and however they are interleaved, once all have finished the
returned handle and memory satisfy `Q`. -/
def Ensures (m : M P V α) (n : Nat) (s : Cell P → V) (Q : α → (Cell P → V) → Prop) : Prop :=
  ∃ a n' ts, m ⟨n, []⟩ = some (a, ⟨n', ts⟩) ∧
    (∃ M' : Machine (Cell P) V, (Machine.start s ts).Steps M' ∧ M'.Done) ∧
    ∀ M' : Machine (Cell P) V, (Machine.start s ts).Steps M' → M'.Done → Q a M'.store

/-- The call aborts: an assertion fails, nothing is launched. -/
def Aborts (m : M P V α) : Prop := ∀ e, m e = none

/-- Memory `s'` is memory `s` with element `p` of vector `v` replaced by `g p` for every `p` of the index space, and
nothing else changed (no other vector, no scalar). -/
def OnlyChanged (s s' : Cell P → V) (v : Vec) (space : List P) (g : P → V) : Prop :=
  (∀ p ∈ space, s' (.elem v.data p) = g p) ∧ ∀ c, (∀ p ∈ space, c ≠ .elem v.data p) → s' c = s c

/-- What the binary vector operations assert about their operands. -/
def Compatible (y x : Vec) : Prop := y.space = x.space ∧ y.colors = x.colors ∧ y.part = x.part

/-- Scalar expressions a program can write. -/
inductive Expr (V : Type)
  | var (i : Nat)
  | lit (a : V)
  | pos (e : Expr V)
  | neg (e : Expr V)
  | add (e e' : Expr V)
  | sub (e e' : Expr V)
  | mul (e e' : Expr V)
  | div (e e' : Expr V)
  | sqrt (e : Expr V)
  | rsqrt (e : Expr V)

/-- Scalar statements: `x_i = e` (copy or move of the expression's value) and `x_i = std::move(x_j)`. -/
inductive Stmt (V : Type)
  | assign (i : Nat) (e : Expr V)
  | move (i j : Nat)

/-- Ordinary sequential evaluation; `none`: a variable without a value is used. -/
def Expr.eval (A : Arith V) (σ : Nat → Option V) : Expr V → Option V
  | .var i => σ i
  | .lit a => some a
  | .pos e => e.eval A σ
  | .neg e => (e.eval A σ).map A.neg
  | .add e e' => (e.eval A σ).bind fun a => (e'.eval A σ).map fun b => A.add a b
  | .sub e e' => (e.eval A σ).bind fun a => (e'.eval A σ).map fun b => A.sub a b
  | .mul e e' => (e.eval A σ).bind fun a => (e'.eval A σ).map fun b => A.mul a b
  | .div e e' => (e.eval A σ).bind fun a => (e'.eval A σ).map fun b => A.div a b
  | .sqrt e => (e.eval A σ).map A.sqrt
  | .rsqrt e => (e.eval A σ).map fun a => A.div A.one (A.sqrt a)

/-- Set one variable. -/
def setVar {β : Type} (σ : Nat → Option β) (i : Nat) (v : Option β) : Nat → Option β := fun j => if j = i then v else σ j

/-- Ordinary sequential execution. -/
def Stmt.run (A : Arith V) (σ : Nat → Option V) : Stmt V → Option (Nat → Option V)
  | .assign i e => (e.eval A σ).map fun a => setVar σ i (some a)
  | .move i j => (σ j).map fun a => setVar (setVar σ j none) i (some a)

/-- Ordinary sequential execution of a program. -/
def runProg (A : Arith V) : (Nat → Option V) → List (Stmt V) → Option (Nat → Option V)
  | σ, [] => some σ
  | σ, c :: cs => (c.run A σ).bind fun σ' => runProg A σ' cs

end Verif.Vector
