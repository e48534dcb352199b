import Verif.Grid.Spec
import Verif.Stencil.Fill
/-
Specification of stencil matrices, independent of the fill tasks' loops.
-/
namespace Verif.Stencil
open Verif.Grid

variable {E : Type _}

instance (b : Rect) (p : Point) : Decidable (InBox b p) := inferInstanceAs (Decidable (List.Forall₂ _ b p))

/-- `ps` enumerates the grid: every point of the rectangle exactly once, in the given order. -/
structure Enumerates (o : IndexOrder) (b : Rect) (ps : List Point) : Prop where
  mem : ∀ p, p ∈ ps ↔ InBox b p
  nodup : ps.Nodup
  ordered : ps.Pairwise (Before o)

/-- The matrix entries of one row `p`: for each offset (in list order) whose target lies in the grid, the triple
`(row, column, value)`. -/
def rowEntries (b : Rect) (offsets : List (Point × E)) (p : Point) : List (Point × Point × E) :=
  offsets.filterMap fun oe =>
    if InBox b (addPoint p oe.1) then some (p, addPoint p oe.1, oe.2) else none

/-- The entries of the stencil matrix, row after row. -/
def stencilEntries (b : Rect) (offsets : List (Point × E)) (ps : List Point) : List (Point × Point × E) :=
  ps.flatMap (rowEntries b offsets)

/-- Contract of `std::sort` with the comparison lambda on the given input: a permutation in which no later element is
less than an earlier one. -/
structure IsSort (o : IndexOrder) (lt : E → E → Bool) (l sorted : List (Point × E)) : Prop where
  perm : sorted.Perm l
  ordered : sorted.Pairwise fun p q => offsetLess o lt q p = false

end Verif.Stencil
