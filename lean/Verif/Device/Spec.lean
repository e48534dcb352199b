import Verif.Device.Model
import Verif.Planner.Spec

/-! # When the choice of devices does not matter: specification -/
namespace Verif.Device
open Verif.Runtime Verif.Vector Verif.Matrix Verif.Planner

variable {V : Type}

/-- Every GPU among the devices behaves: it leaves nothing out and does nothing twice. -/
def Devices.Ok (dev : Devices) : Prop := ∀ i g, dev i = some g → g.Ok

/-- An interval of integers, in increasing order. -/
def Interval (pts : List Int) : Prop := ∃ (lo : Int) (n : Nat), pts = (List.range n).map fun (j : Nat) => lo + (j : Int)

/-- The pieces of a vector are intervals whose sizes are `int`s. -/
def GpuPieces (pieces : List (List Int)) : Prop := ∀ pts ∈ pieces, Interval pts ∧ pts.length < 2 ^ 31

/-- A set without gaps. -/
def Contiguous (l : List Int) : Prop := ∃ (lo : Int) (n : Nat), ∀ k, k ∈ l ↔ lo ≤ k ∧ k < lo + n

/-- `c` are the row pointers and fields of the CSR matrix `m`: the rectangles of consecutive rows follow each other (an empty row
has the rectangle of length 0 between its neighbours) and consist of kernel points. -/
structure RowPointers (m : CSR Int Int V) (c : Csr1 V) : Prop where
  kernel : m.kernel.Nodup
  range : ∀ p ∈ m.rows, ∀ k, m.range p k = true ↔ c.lo p ≤ k ∧ k ≤ c.hi p
  col : ∀ k, c.col k = m.col k
  entry : ∀ k, c.entry k = m.entry k
  next : ∀ p ∈ m.rows, p + 1 ∈ m.rows → c.lo (p + 1) = c.hi p + 1
  order : ∀ p ∈ m.rows, c.lo p ≤ c.hi p + 1
  inside : ∀ p ∈ m.rows, ∀ k, c.lo p ≤ k → k ≤ c.hi p → k ∈ m.kernel

/-- The matrix is stored such that the GPU tasks can work on it, when its rows are cut into `pieces`: in a COO matrix the entries of
each piece of rows are stored next to each other, a CSR matrix has gapless row pointers. -/
def GpuMatrix (rp : RowPtr V) (pieces : List (List Int)) : Op Int Int V → Prop
  | .coo m => m.kernel.Nodup ∧ ∀ pc ∈ pieces, Contiguous (m.kernel.filter fun k => decide (m.row k ∈ pc))
  | .csr m => RowPointers m (rp m)

/-- A CSR matrix. -/
def isCSR : Op Int Int V → Prop
  | .coo _ => False
  | .csr _ => True

/-- In every block row a CSR matrix comes first: no matrix added before it has the same block row. -/
def CSRFirst (l : List (Op Int Int V × Nat × Nat)) : Prop :=
  ∀ a m d r b, l = a ++ (m, d, r) :: b → isCSR m → ∀ t ∈ a, t.2.2 ≠ r

/-- The planner's pieces and matrices suit the GPU tasks. -/
structure GpuReady (rp : RowPtr V) (G : Geometry Int) (pl : Planner Int Int V) : Prop where
  pieces : ∀ part ∈ pl.parts, GpuPieces (G.pieces part)
  matrices : ∀ r ∈ pl.ops, GpuMatrix rp (G.pieces (pl.parts.getD r.rng 0)) r.matrix
  csrFirst : CSRFirst (pl.ops.map fun r => (r.matrix, r.dom, r.rng))

end Verif.Device
