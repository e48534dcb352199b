import Verif.Planner.Model
import Verif.Vector.Spec
import Verif.Vector.Exact
import Mathlib.Data.Finset.Sigma
import Mathlib.Data.Matrix.Mul
import Mathlib.Algebra.BigOperators.Group.List.Defs

/-! # Specification vocabulary for the planner and the solvers -/
set_option linter.dupNamespace false
namespace Verif.Planner
open Verif.Runtime Verif.Vector Verif.Matrix
variable {K P V : Type} [DecidableEq P] [DecidableEq K]

/-! ## Set-up histories -/

/-- Solution vectors added so far. -/
def sols (h : List (Setup K P V)) : List Vec := h.filterMap fun | .addSol v => some v | _ => none
/-- Right-hand-side vectors added so far. -/
def rhss (h : List (Setup K P V)) : List Vec := h.filterMap fun | .addRhs v => some v | _ => none
/-- The workspace requests so far. -/
def allocs (h : List (Setup K P V)) : List (Nat × Nat) := h.filterMap fun | .allocate b n => some (b, n) | _ => none
/-- Matrices added so far. -/
def mats (h : List (Setup K P V)) : List (Op K P V × Nat × Nat) :=
  h.filterMap fun | .addMatrix m d r => some (m, d, r) | _ => none

/-- When a set-up call is legal, given the calls made before: vectors before the workspace, matching the vector already at
the same position on the other side; one workspace; matrices only between existing positions of equally long lists. -/
def Allowed (h : List (Setup K P V)) : Setup K P V → Prop
  | .addSol v => allocs h = [] ∧ ∀ w, (rhss h)[(sols h).length]? = some w → v.space = w.space ∧ v.part = w.part
  | .addRhs v => allocs h = [] ∧ ∀ w, (sols h)[(rhss h).length]? = some w → v.space = w.space ∧ v.part = w.part
  | .allocate _ _ => allocs h = []
  | .addMatrix _ d r => (sols h).length = (rhss h).length ∧ d < (sols h).length ∧ r < (sols h).length

/-- The vectors given to the planner were made by a vector constructor. -/
def Setup.Constructed (G : Geometry P) : Setup K P V → Prop
  | .addSol v => newVector G v.part v.data = some v
  | .addRhs v => newVector G v.part v.data = some v
  | _ => True

/-- Legion's contract: pieces of a partition are subsets of the parent space. -/
def Geometry.Valid (G : Geometry P) : Prop := ∀ part p, p ∈ (G.pieces part).flatten → p ∈ G.points (G.parent part)

/-! ## A planner ready for use -/

/-- Vector `k` (0 solution, 1 right-hand side, 2… workspace), block `i`. -/
def Planner.vec (pl : Planner K P V) (k i : Nat) : Vec := (pl.lookup k i).getD ⟨0, 0, 0, 0⟩

/-- The points of block `i`. -/
def Planner.pts (G : Geometry P) (pl : Planner K P V) (i : Nat) : List P := G.points (pl.spaces.getD i 0)

/-- The matrix's rows and columns are points of the blocks it connects; CSR row pointers are well formed. -/
def Op.Fits (rowSpace colSpace : List P) : Op K P V → Prop
  | .coo m => ∀ k ∈ m.kernel, m.col k ∈ colSpace
  | .csr m => (∀ k ∈ m.kernel, m.col k ∈ colSpace) ∧ (∀ p, p ∈ m.rows ↔ p ∈ rowSpace) ∧ m.RowsDisjoint

/-- A completely set-up planner with `nw` workspace vectors, whose vectors do not share data. -/
structure Ready (G : Geometry P) (pl : Planner K P V) (nw : Nat) : Prop where
  sizes : pl.sizesAgree = true
  workspace : pl.workspace.length = nw
  /-- all blocks of all vectors exist and match the canonical space and partition -/
  blocks : ∀ k i, k < nw + 2 → i < pl.spaces.length → ∃ v, pl.lookup k i = some v ∧ v.space = pl.spaces.getD i 0 ∧
    v.part = pl.parts.getD i 0 ∧ v.colors = G.colorSpace (pl.parts.getD i 0)
  partition : ∀ i, i < pl.spaces.length → IsPartition (pl.pts G i) (G.pieces (pl.parts.getD i 0))
  distinct : ∀ k i k' i', k < nw + 2 → i < pl.spaces.length → k' < nw + 2 → i' < pl.spaces.length →
    (pl.vec k i).data = (pl.vec k' i').data → k = k' ∧ i = i'
  ops : ∀ r ∈ pl.ops, r.dom < pl.spaces.length ∧ r.rng < pl.spaces.length ∧
    r.kernel = r.matrix.kernelFromRange (G.pieces (pl.parts.getD r.rng 0)) ∧
    r.ghost = r.matrix.domainFromKernel (pl.pts G r.dom) r.kernel ∧ r.matrix.Fits (pl.pts G r.rng) (pl.pts G r.dom)

/-- The unknowns: all points of all blocks. -/
def Planner.unknowns (G : Geometry P) (pl : Planner K P V) : Finset (Σ _ : Nat, P) :=
  (Finset.range pl.spaces.length).sigma fun i => (pl.pts G i).toFinset

/-- The concatenation of all blocks, as a type. -/
abbrev Planner.U (G : Geometry P) (pl : Planner K P V) : Type := {u // u ∈ pl.unknowns G}

/-- The content of planner vector `k` in memory `s`, as one vector over all blocks. -/
def Planner.content (G : Geometry P) (pl : Planner K P V) (s : Cell P → V) (k : Nat) (u : pl.U G) : V :=
  s (.elem (pl.vec k u.1.1).data u.1.2)

/-- Only planner vector `k` changed (no other planner vector, no other vector, no scalar that existed): it is now `g`. -/
def Planner.OnlyVector (G : Geometry P) (pl : Planner K P V) (n : Nat) (s s' : Cell P → V) (k : Nat) (g : pl.U G → V) :
    Prop :=
  (∀ u, pl.content G s' k u = g u) ∧
  (∀ d p, (∀ u : pl.U G, (d, p) ≠ ((pl.vec k u.1.1).data, u.1.2)) → s' (.elem d p) = s (.elem d p)) ∧
  ∀ f, f < n → s' (.fut f) = s (.fut f)

/-- The coefficient of a matrix at row `p`, column `q`; repeated entries add up. -/
def Op.coef [AddCommMonoid V] (p q : P) : Op K P V → V
  | .coo m => ((m.kernel.filter fun k => decide (m.row k = p ∧ m.col k = q)).map m.entry).sum
  | .csr m => ((m.kernel.filter fun k => m.range p k && decide (m.col k = q)).map m.entry).sum

/-- The block operator assembled from all registered matrices. -/
def Planner.operator [AddCommMonoid V] (G : Geometry P) (pl : Planner K P V) : _root_.Matrix (pl.U G) (pl.U G) V :=
  fun u u' => (pl.ops.map fun r =>
    if r.rng = u.1.1 ∧ r.dom = u'.1.1 then r.matrix.coef u.1.2 u'.1.2 else 0).sum

end Verif.Planner
