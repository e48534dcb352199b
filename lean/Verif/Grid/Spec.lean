import Verif.Grid.Model
import Mathlib.Data.List.Forall2
/-
Independent specification of rectangles and orders, used to state C01-C03.
-/
namespace Verif.Grid

/-- A point lies in a rectangle: same dimension and every coordinate between the two corners. -/
def InBox (b : Rect) (p : Point) : Prop := List.Forall₂ (fun lh x => lh.1 ≤ x ∧ x ≤ lh.2) b p

/-- A rectangle is non-empty: every side has `lo ≤ hi`. -/
def Nonempty (b : Rect) : Prop := ∀ lh ∈ b, lh.1 ≤ lh.2

instance (b : Rect) : Decidable (Nonempty b) := inferInstanceAs (Decidable (∀ lh ∈ b, lh.1 ≤ lh.2))

/-- Point order: lexicographic from the first (row-major) or from the last (column-major) coordinate. -/
def Before : IndexOrder → Point → Point → Prop
  | .rowMajor, p, q => p < q
  | .columnMajor, p, q => p.reverse < q.reverse

end Verif.Grid
