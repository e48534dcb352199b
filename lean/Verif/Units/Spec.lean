import Verif.Special.Client

/-! # Changing the units of a linear system: the specification for C88 -/
set_option linter.dupNamespace false
set_option linter.unusedSectionVars false
namespace Verif.Units
open Verif.Runtime Verif.Vector Verif.Matrix Verif.Planner Verif.Solver

/-- Units, and what it means to multiply a number by a unit.  Every operation of the arithmetic commutes with changes of units: sums of
quantities in the same unit, products, quotients, and fused products of a quantity in unit `g` and one in unit `h`, added to one in `g h`.

In exact arithmetic every nonzero number is such a unit; in binary floating point, as long as exponents do not leave their range, every
power of two is. -/
structure UnitLaws {V Γ : Type} [CommGroup Γ] (A : Arith V) (act : Γ → V → V) : Prop where
  one : ∀ a, act 1 a = a
  mul_act : ∀ g h a, act (g * h) a = act g (act h a)
  zero : ∀ g, act g A.zero = A.zero
  neg : ∀ g a, A.neg (act g a) = act g (A.neg a)
  add : ∀ g a b, A.add (act g a) (act g b) = act g (A.add a b)
  mul : ∀ g h a b, A.mul (act g a) (act h b) = act (g * h) (A.mul a b)
  div : ∀ g h a b, A.div (act g a) (act h b) = act (g / h) (A.div a b)
  fma : ∀ g h a b c, A.fma (act g a) (act h b) (act (g * h) c) = act (g * h) (A.fma a b c)

/-- The square root of a quantity in unit `g g` is one in unit `g`. -/
def RootLaw {V Γ : Type} [CommGroup Γ] (A : Arith V) (act : Γ → V → V) : Prop := ∀ g a, A.sqrt (act (g * g) a) = act g (A.sqrt a)

variable {K P V W : Type} [DecidableEq P] [DecidableEq K]

/-- The matrix with every stored entry changed by `f`. -/
def mapOp (f : V → W) : Op K P V → Op K P W
  | .coo m => .coo ⟨m.kernel, m.row, m.col, fun k => f (m.entry k)⟩
  | .csr m => .csr ⟨m.kernel, m.rows, m.range, m.col, fun k => f (m.entry k)⟩

/-- The same set-up call, with every matrix entry changed by `f`. -/
def mapCall (f : V → W) : Setup K P V → Setup K P W
  | .addSol v => .addSol v
  | .addRhs v => .addRhs v
  | .allocate base n => .allocate base n
  | .addMatrix m d r => .addMatrix (mapOp f m) d r

/-- The same client with every matrix entry changed by `f`. -/
def mapCalls (f : V → W) (calls : List (Setup K P V)) : List (Setup K P W) := calls.map (mapCall f)

/-- The vectors `vs` hold in `s'` what they hold in `s`, changed by `f`. -/
def Changed (G : Geometry P) (vs : List Vec) (f : V → V) (s s' : Cell P → V) : Prop :=
  ∀ v ∈ vs, ∀ p ∈ G.points v.space, s' (.elem v.data p) = f (s (.elem v.data p))

end Verif.Units
