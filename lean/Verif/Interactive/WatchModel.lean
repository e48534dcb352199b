import Verif.Interactive.Model

/-!
# Loops that check the residual themselves

Only `CGSolver` records a residual; `BiCGStabSolver` and `GMRESSolver` record other values.  The user of any solver can compute the residual
of its system with the planner: `planner.matvec(w, SOL)`, `planner.xpay(w, minus_one, RHS)`, `planner.dot(w, w)`
(`src/SquarePlanner.hpp` 310-357), with a vector `w` the solver does not need between its steps.
-/
namespace Verif.Interactive
open Verif.Runtime Verif.Vector Verif.Solver Verif.Planner
variable {K P V τ : Type} [DecidableEq P] [DecidableEq K]

/-- The states of the loop below; `τ` is what the program keeps of its solver. -/
inductive Watch (τ : Type)
  | start
  | check (t : τ) (x : Scalar) (i : Nat)
  | again (t : τ) (i : Nat)
  | stop (t : τ) (i : Nat)

/-- A user program: `init(); int i = 0; while (goOn(i, probe().get_value())) { step(); ++i; }` (`Scalar.hpp` 50). -/
def watchLoop (init : M P V τ) (step : τ → M P V τ) (probe : τ → M P V Scalar) (goOn : Nat → V → Bool) : Program P V (Watch τ)
  | .start => .call do
      let t ← init
      let x ← probe t
      pure (.check t x 0)
  | .check t x i => .get x fun v => if goOn i v then .again t i else .stop t i
  | .again t i => .call do
      let t' ← step t
      let x ← probe t'
      pure (.check t' x (i + 1))
  | .stop .. => .halt

/-- The squared norm of `b - A x`, computed by the user in vector `w`:
`Scalar minus_one(ctx, rt, -1); planner.matvec(w, SOL); planner.xpay(w, minus_one, RHS); planner.dot(w, w)`
(`SquarePlanner.hpp` 310-316, 331-357, `Scalar.hpp` 29-32). -/
def residualProbe (A : Arith V) (G : Geometry P) (w : Nat) (pl : Planner K P V) : M P V Scalar := do
  let minusOne ← scalarOf (A.neg A.one)
  pl.matvec A G.toEnv w 0
  pl.xpay A G.toEnv w minusOne 1
  pl.dot A G.toEnv w w

/-- A user program: construct a `CGSolver` (`CGSolver.hpp` 32-44) and step (46-55) while the squared norm of `b - A x`, computed in
vector 3 (the product of the search direction, which every step computes anew), says so. -/
def cgWatch (A : Arith V) (G : Geometry P) (pl : Planner K P V) (base : Nat) (goOn : Nat → V → Bool) :
    Program P V (Watch (Planner K P V × CG Scalar)) :=
  watchLoop (do let pl' ← allocate G pl base 3; let c ← CG.init (plannerOps A G.toEnv pl'); pure (pl', c))
    (fun t => do let c ← CG.step (plannerOps A G.toEnv t.1) t.2; pure (t.1, c))
    (fun t => residualProbe A G 3 t.1) goOn

/-- The same with a `BiCGStabSolver` (`BiCGStabSolver.hpp` 38-86) and vector 5, which every step computes anew. -/
def biWatch (A : Arith V) (G : Geometry P) (pl : Planner K P V) (base : Nat) (goOn : Nat → V → Bool) :
    Program P V (Watch (Planner K P V × BiCGStab Scalar)) :=
  watchLoop (do let pl' ← allocate G pl base 5; let c ← BiCGStab.init (plannerOps A G.toEnv pl'); pure (pl', c))
    (fun t => do let c ← BiCGStab.step (plannerOps A G.toEnv t.1) t.2; pure (t.1, c))
    (fun t => residualProbe A G 5 t.1) goOn

/-- The same with a `GMRESSolver` (`GMRESSolver.hpp` 32-129) and its first basis vector. -/
def gmresWatch (A : Arith V) (G : Geometry P) (pl : Planner K P V) (base restart : Nat) (goOn : Nat → V → Bool) :
    Program P V (Watch (Planner K P V × GMRES Scalar)) :=
  watchLoop (do let pl' ← allocate G pl base (restart + 1); let c ← GMRES.init (plannerOps A G.toEnv pl') restart; pure (pl', c))
    (fun t => do let c ← GMRES.step (plannerOps A G.toEnv t.1) t.2; pure (t.1, c))
    (fun t => residualProbe A G (basis 0) t.1) goOn

end Verif.Interactive
