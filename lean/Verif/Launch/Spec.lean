import Verif.Launch.Model

/-! # Legion's rules for index launches, and what a launch declares -/
namespace Verif.Launch
open Verif.Runtime Verif.Vector Verif.Matrix Verif.Planner Verif.Solver

variable {X K P V : Type}

/-- Two requirements, for launch points `c` and `c'`, interfere: same field, not both read-only, a common element. -/
def Interfere (r : Requirement X) (c : Nat) (r' : Requirement X) (c' : Nat) : Prop :=
  r.field = r'.field ∧ ¬ (r.priv = .readOnly ∧ r'.priv = .readOnly) ∧ ∃ x, x ∈ r.part.piece c ∧ x ∈ r'.part.piece c'

/-- Legion's rule for the point tasks of one launch: two requirements never interfere, neither two requirements of the same point
task nor requirements of different point tasks. -/
def IndexLaunch.NonInterfering (L : IndexLaunch X) : Prop :=
  ∀ (i j : Nat) (r r' : Requirement X) (c c' : Nat), L.reqs[i]? = some r → L.reqs[j]? = some r' → c < L.size → c' < L.size →
    (i, c) ≠ (j, c') → ¬ Interfere r c r' c'

/-- Legion's rule for requirements: the partition is a partition of the region's own index space, and every point of the launch
space is one of its colours. -/
def IndexLaunch.WellFormed (L : IndexLaunch X) : Prop :=
  ∀ r ∈ L.reqs, r.part.parent = r.space ∧ r.part.colors = L.domain

/-! ## Correspondence with the tasks of the other models -/

/-- What the point task of colour `c` is given. -/
def IndexLaunch.point (L : IndexLaunch X) (c : Nat) : List (Priv × Field × List X) :=
  L.reqs.map fun r => (r.priv, r.field, r.part.piece c)

/-- All point tasks of launches, in order. -/
def points (Ls : List (IndexLaunch X)) : List (List (Priv × Field × List X)) :=
  Ls.flatMap fun L => (List.range L.size).map L.point

/-- The vector elements a point task may read: those of its requirements that are not `WRITE_DISCARD`; and may write: those of its
requirements that are not `READ_ONLY`.  The task declares exactly these. -/
def Declares (t : Task (Cell P) V) (pt : List (Priv × Field × List (K ⊕ P))) : Prop :=
  ∀ d p, (t.reads (.elem d p) ↔ ∃ q ∈ pt, q.1 ≠ .writeDiscard ∧ q.2.1 = .vector d ∧ Sum.inr p ∈ q.2.2) ∧
    (t.writes (.elem d p) ↔ ∃ q ∈ pt, q.1 ≠ .readOnly ∧ q.2.1 = .vector d ∧ Sum.inr p ∈ q.2.2)

/-- A task without region requirements (scalars, reductions of partial results). -/
def NoElements (t : Task (Cell P) V) : Prop := ∀ d p, ¬ t.reads (.elem d p) ∧ ¬ t.writes (.elem d p)

/-- A sequence of tasks is the given sequence of point tasks, with tasks without region requirements in between. -/
inductive Realises : List (Task (Cell P) V) → List (List (Priv × Field × List (K ⊕ P))) → Prop
  | nil : Realises [] []
  | scalar {t ts pts} : NoElements t → Realises ts pts → Realises (t :: ts) pts
  | point {t ts pt pts} : Declares t pt → Realises ts pts → Realises (t :: ts) (pt :: pts)

end Verif.Launch
