import Verif.Planner.Model

/-!
# The solvers

Models `src/CGSolver.hpp`, `src/BiCGStabSolver.hpp`, `src/GMRESSolver.hpp` and `DummyTask` (`src/UtilityTasks.cpp` 96-99).

The solvers are templates over the planner's and the scalars' operations; they are written here once, for any record `Ops` of
such operations in any monad, and run in two ways: with the operations of `Verif.Planner` (`plannerOps`, the real thing:
tasks are launched), and with operations that only write down which call was made (`recordOps`).
-/
namespace Verif.Solver
open Verif.Runtime Verif.Vector Verif.Matrix Verif.Planner

/-- The operations the solvers call.  `S` is the type of scalars; vectors are named by their planner index. -/
structure Ops (m : Type → Type) (S : Type) where
  /-- `Scalar(ctx, rt, static_cast<ENTRY_T>(-1))` -/
  negOne : m S
  /-- `Scalar(ctx, rt, static_cast<ENTRY_T>(0))` -/
  zero : m S
  /-- `Scalar(ctx, rt, static_cast<ENTRY_T>(1))` -/
  one : m S
  neg : S → m S
  mul : S → S → m S
  div : S → S → m S
  sqrt : S → m S
  rsqrt : S → m S
  zeroFill : Nat → m Unit
  copy : Nat → Nat → m Unit
  scal : Nat → S → m Unit
  axpy : Nat → S → Nat → m Unit
  axpy3 : Nat → S → S → S → Nat → m Unit
  axpy2 : Nat → S → S → Nat → m Unit
  xpay : Nat → S → Nat → m Unit
  xpay2 : Nat → S → S → Nat → m Unit
  dot : Nat → Nat → m S
  matvec : Nat → Nat → m Unit
  /-- launch of `DummyTask` with futures -/
  dummy : List S → m S

section
variable {m : Type → Type} [Monad m] {S : Type}

/-- `n` times. -/
def repeatM {α : Type} (f : α → m α) : Nat → α → m α
  | 0, a => pure a
  | n + 1, a => do let a' ← f a; repeatM f n a'

/-! ## Conjugate gradients -/

/-- `CGSolver` (`CGSolver.hpp` 24-28): the vector `residual_norm_squared`, never empty, as its earlier elements and its last. -/
structure CG (S : Type) where
  older : List S
  last : S
  negOne : S

/-- `residual_norm_squared`. -/
def CG.history (c : CG S) : List S := c.older ++ [c.last]

/-- The body of the constructor after `allocate_workspace(3)` (`CGSolver.hpp` 32-44).  Simplification: the constant -1 is
made after the workspace instead of before (it does not involve the planner). -/
def CG.init (O : Ops m S) : m (CG S) := do
  let negOne ← O.negOne
  O.copy 2 1
  O.copy 4 1
  let r ← O.dot 4 4
  pure ⟨[], r, negOne⟩

/-- `step` (`CGSolver.hpp` 46-55). -/
def CG.step (O : Ops m S) (c : CG S) : m (CG S) := do
  O.matvec 3 2
  let pNorm ← O.dot 2 3
  let old := c.last
  O.axpy2 0 old pNorm 2
  O.axpy3 4 c.negOne old pNorm 3
  let new ← O.dot 4 4
  O.xpay2 2 new old 4
  pure { c with older := c.older ++ [old], last := new }

/-- Construction and `k` steps. -/
def CG.solve (O : Ops m S) (k : Nat) : m (CG S) := do
  let c ← CG.init O
  repeatM (CG.step O) k c

/-! ## BiCGStab -/

/-- `BiCGStabSolver` (`BiCGStabSolver.hpp` 28-34): three never-empty histories, and constants. -/
structure BiCGStab (S : Type) where
  rhos : List S
  rho : S
  alphas : List S
  alpha : S
  omegas : List S
  omega : S
  negOne : S
  zero : S
  one : S

/-- The body of the constructor after `allocate_workspace(5)` (`BiCGStabSolver.hpp` 38-65). -/
def BiCGStab.init (O : Ops m S) : m (BiCGStab S) := do
  let negOne ← O.negOne
  let zero ← O.zero
  let one ← O.one
  O.copy 3 1
  O.copy 4 1
  O.zeroFill 2
  O.zeroFill 6
  pure ⟨[], one, [], zero, [], one, negOne, zero, one⟩

/-- `step` (`BiCGStabSolver.hpp` 67-86). -/
def BiCGStab.step (O : Ops m S) (c : BiCGStab S) : m (BiCGStab S) := do
  let rhoNew ← O.dot 3 4
  let q1 ← O.div rhoNew c.rho
  let q2 ← O.div c.alpha c.omega
  let beta ← O.mul q1 q2
  let negOmega ← O.neg c.omega
  O.axpy 2 negOmega 6
  O.xpay 2 beta 3
  O.matvec 6 2
  let temp ← O.dot 4 6
  O.axpy3 3 c.negOne rhoNew temp 6
  let alpha ← O.div rhoNew temp
  O.matvec 5 3
  let rAnorm2 ← O.dot 3 5
  let uNorm2 ← O.dot 5 5
  let omega ← O.div rAnorm2 uNorm2
  O.axpy 0 alpha 2
  O.axpy 0 omega 3
  let negOmega' ← O.neg omega
  O.axpy 3 negOmega' 5
  pure { c with
    rhos := c.rhos ++ [c.rho], rho := rhoNew
    alphas := c.alphas ++ [c.alpha], alpha := alpha
    omegas := c.omegas ++ [c.omega], omega := omega }

/-- Construction and `k` steps. -/
def BiCGStab.solve (O : Ops m S) (k : Nat) : m (BiCGStab S) := do
  let c ← BiCGStab.init O
  repeatM (BiCGStab.step O) k c

/-! ## GMRES -/

/-- `GMRESSolver` (`GMRESSolver.hpp` 21-28).  `inner` is the two-dimensional array `inner_products`. -/
structure GMRES (S : Type) where
  restart : Nat
  negOne : S
  inner : Nat → Nat → S
  triangular : List S
  coefficients : List S

/-- `n` new zero scalars. -/
def zeros (O : Ops m S) : Nat → m (List S)
  | 0 => pure []
  | n + 1 => do let z ← O.zero; let l ← zeros O n; pure (z :: l)

/-- The constructor after `allocate_workspace(restart + 1)` (`GMRESSolver.hpp` 32-78): the arrays are filled with zero scalars,
row by row (modelled as flat lists; `inner` is looked up in its list by row and column). -/
def GMRES.init (O : Ops m S) (restart : Nat) : m (GMRES S) := do
  let negOne ← O.negOne
  let inner ← zeros O ((restart + 1) * restart)
  let triangular ← zeros O (restart * restart)
  let coefficients ← zeros O restart
  pure ⟨restart, negOne, fun i j => inner.getD (i * restart + j) negOne, triangular, coefficients⟩

/-- `krylov_basis` (`GMRESSolver.hpp` 80-82). -/
def basis (i : Nat) : Nat := i + 2

/-- Assign an entry of a two-dimensional array. -/
def setEntry (h : Nat → Nat → S) (i j : Nat) (a : S) : Nat → Nat → S := fun i' j' => if i' = i ∧ j' = j then a else h i' j'

/-- The inner loop over `k` (`GMRESSolver.hpp` 96-102). -/
def GMRES.orthogonalise (O : Ops m S) (j : Nat) : List Nat → (Nat → Nat → S) → m (Nat → Nat → S)
  | [], h => pure h
  | k :: ks, h => do
    let d ← O.dot (basis k) (basis (j + 1))
    let h := setEntry h k j d
    let nd ← O.neg (h k j)
    O.axpy (basis (j + 1)) nd (basis k)
    GMRES.orthogonalise O j ks h

/-- One iteration of the loop over `j` (`GMRESSolver.hpp` 94-109). -/
def GMRES.column (O : Ops m S) (restart j : Nat) (h : Nat → Nat → S) : m (Nat → Nat → S) := do
  O.matvec (basis (j + 1)) (basis j)
  let h ← GMRES.orthogonalise O j (List.range (j + 1)) h
  let d ← O.dot (basis (j + 1)) (basis (j + 1))
  let q ← O.sqrt d
  let h := setEntry h (j + 1) j q
  if j + 1 < restart then do
    let r ← O.rsqrt d
    O.scal (basis (j + 1)) r
    pure h
  else pure h

/-- The loop over `j` (`GMRESSolver.hpp` 94-109). -/
def GMRES.columns (O : Ops m S) (restart : Nat) : List Nat → (Nat → Nat → S) → m (Nat → Nat → S)
  | [], h => pure h
  | j :: js, h => do
    let h ← GMRES.column O restart j h
    GMRES.columns O restart js h

/-- The final loop (`GMRESSolver.hpp` 126-128). -/
def GMRES.update (O : Ops m S) (coeff : S) : List Nat → m Unit
  | [] => pure ()
  | j :: js => do O.axpy 0 coeff (basis j); GMRES.update O coeff js

/-- The first vector: the normalised residual (`GMRESSolver.hpp` 87-92). -/
def GMRES.start (O : Ops m S) (c : GMRES S) : m Unit := do
  O.matvec (basis 0) 0
  O.xpay (basis 0) c.negOne 1
  let d ← O.dot (basis 0) (basis 0)
  let r ← O.rsqrt d
  O.scal (basis 0) r

/-- `step` up to the launch of `DummyTask` (`GMRESSolver.hpp` 84-109): builds the Krylov basis. -/
def GMRES.build (O : Ops m S) (c : GMRES S) : m (GMRES S) := do
  GMRES.start O c
  let h ← GMRES.columns O c.restart (List.range c.restart) c.inner
  pure { c with inner := h }

/-- The rest of `step` (`GMRESSolver.hpp` 111-128). -/
def GMRES.finish (O : Ops m S) (c : GMRES S) : m Unit := do
  let coeff ← O.dummy ((List.range (c.restart + 1)).flatMap fun i => (List.range c.restart).map fun j => c.inner i j)
  GMRES.update O coeff (List.range c.restart)

/-- `step` (`GMRESSolver.hpp` 84-129). -/
def GMRES.step (O : Ops m S) (c : GMRES S) : m (GMRES S) := do
  let c ← GMRES.build O c
  GMRES.finish O c
  pure c

/-- Construction and `k` steps. -/
def GMRES.solve (O : Ops m S) (restart k : Nat) : m (GMRES S) := do
  let c ← GMRES.init O restart
  repeatM (GMRES.step O) k c

end

/-! ## The real operations -/
section
variable {K P V : Type} [DecidableEq P] [DecidableEq K]

/-- Launch of `DummyTask` (`GMRESSolver.hpp` 111-124, `UtilityTasks.cpp` 96-99): takes all futures, returns 1. -/
def dummyTask (A : Arith V) (l : List Scalar) : M P V Scalar := do
  let f ← fresh
  launch [scalarTask f (l.map Scalar.fut) fun _ => A.one]
  pure ⟨f⟩

/-- The operations of a planner and of `Scalar`. -/
def plannerOps (A : Arith V) (E : Env P) (pl : Planner K P V) : Ops (M P V) Scalar where
  negOne := scalarOf (A.neg A.one)
  zero := scalarOf A.zero
  one := scalarOf A.one
  neg := sNeg A
  mul := sMul A
  div := sDiv A
  sqrt := sSqrt A
  rsqrt := sRsqrt A
  zeroFill := pl.zeroFill A E
  copy := pl.copy E
  scal := pl.scal A E
  axpy := pl.axpy A E
  axpy2 := pl.axpy2 A E
  axpy3 := pl.axpy3 A E
  xpay := pl.xpay A E
  xpay2 := pl.xpay2 A E
  dot := pl.dot A E
  matvec := pl.matvec A E
  dummy := dummyTask A

/-- `allocate_workspace` inside a program; the runtime returns the regions from `base` on. -/
def allocate (G : Geometry P) (pl : Planner K P V) (base n : Nat) : M P V (Planner K P V) := fun e =>
  (pl.allocateWorkspace G base n).map fun pl' => (pl', e)

/-- A user program: construct a `CGSolver` on the planner and call `step` `k` times. -/
def cg (A : Arith V) (G : Geometry P) (pl : Planner K P V) (base k : Nat) : M P V (CG Scalar) := do
  let pl' ← allocate G pl base 3
  CG.solve (plannerOps A G.toEnv pl') k

/-- A user program: construct a `BiCGStabSolver` on the planner and call `step` `k` times. -/
def biCGStab (A : Arith V) (G : Geometry P) (pl : Planner K P V) (base k : Nat) : M P V (BiCGStab Scalar) := do
  let pl' ← allocate G pl base 5
  BiCGStab.solve (plannerOps A G.toEnv pl') k

/-- A user program: construct a `GMRESSolver` on the planner and call `step` `k` times. -/
def gmres (A : Arith V) (G : Geometry P) (pl : Planner K P V) (base restart k : Nat) : M P V (GMRES Scalar) := do
  let pl' ← allocate G pl base (restart + 1)
  GMRES.solve (plannerOps A G.toEnv pl') restart k

end

/-! ## Recording operations -/

/-- A planner call. -/
inductive Call
  | zeroFill (dst : Nat)
  | copy (dst src : Nat)
  | scal (dst : Nat)
  | axpy (dst src : Nat)
  | xpay (dst src : Nat)
  | dot (v w : Nat)
  | matvec (dst src : Nat)

/-- Operations that write down the planner call. -/
def recordOps : Ops (StateM (List Call)) Unit where
  negOne := pure ()
  zero := pure ()
  one := pure ()
  neg _ := pure ()
  mul _ _ := pure ()
  div _ _ := pure ()
  sqrt _ := pure ()
  rsqrt _ := pure ()
  zeroFill d := modify (· ++ [.zeroFill d])
  copy d x := modify (· ++ [.copy d x])
  scal d _ := modify (· ++ [.scal d])
  axpy d _ x := modify (· ++ [.axpy d x])
  axpy2 d _ _ x := modify (· ++ [.axpy d x])
  axpy3 d _ _ _ x := modify (· ++ [.axpy d x])
  xpay d _ x := modify (· ++ [.xpay d x])
  xpay2 d _ _ x := modify (· ++ [.xpay d x])
  dot v w := do modify (· ++ [.dot v w]); pure ()
  matvec d x := modify (· ++ [.matvec d x])
  dummy _ := pure ()

end Verif.Solver
