import Verif.Runtime.Model

/-!
# Scalars and partitioned vectors

Models `src/Scalar.hpp/.cpp`, `src/PartitionedVector.hpp/.cpp`, the task bodies in `src/LinearAlgebraTasks.cpp` and
`src/UtilityTasks.cpp`, and `get_alpha` in `src/LegionUtilities.cpp`.

API calls only *launch* tasks; a call is therefore modelled as a program that appends tasks (with their declared
requirements and bodies) to the launch sequence, may allocate a fresh future, and may abort on a failed assertion.
What the launched tasks do to memory is decided by `Verif.Runtime`.
-/
namespace Verif.Vector
open Verif.Runtime

/-- The arithmetic of an entry type.  Nothing is assumed about the operations unless a theorem says so: with IEEE
operations the theorems that need no assumption hold bit for bit. -/
structure Arith (V : Type) where
  zero : V
  one : V
  neg : V → V
  add : V → V → V
  sub : V → V → V
  mul : V → V → V
  div : V → V → V
  sqrt : V → V
  fma : V → V → V → V

/-- Memory cells: element of a vector's field, partial result of one point task of a reducing index launch, future. -/
inductive Cell (P : Type)
  /-- element `p` of the field identified by `data` (a logical region together with a field id) -/
  | elem (data : Nat) (p : P)
  /-- result of colour `color`'s point task for future `f` -/
  | part (f : Nat) (color : Nat)
  | fut (f : Nat)
deriving DecidableEq

/-- `PartitionedVector` (`PartitionedVector.hpp` 20-40): which data it denotes, and the handles compared by assertions. -/
structure Vec where
  data : Nat
  space : Nat
  colors : Nat
  part : Nat
deriving DecidableEq

/-- `Scalar` (`Scalar.hpp` 13-17): a future. -/
structure Scalar where
  fut : Nat
deriving DecidableEq

/-- What the runtime knows about index partitions: the points of each colour's piece, in iteration order; and the order
in which it reduces the partial results of a reducing launch. -/
structure Env (P : Type) where
  pieces : Nat → List (List P)
  redOrder : Nat → List Nat → List Nat

/-- The launch sequence so far and the next free future. -/
structure Emit (P V : Type) where
  next : Nat
  out : List (Task (Cell P) V)

/-- An API call: appends to the launch sequence; `none` is a failed assertion. -/
abbrev M (P V : Type) := StateT (Emit P V) Option

variable {P V : Type}

/-- Launch tasks. -/
def launch (ts : List (Task (Cell P) V)) : M P V Unit := fun e => some ((), { e with out := e.out ++ ts })

/-- A fresh future handle. -/
def fresh : M P V Nat := fun e => some (e.next, { e with next := e.next + 1 })

/-- `assert(b)`. -/
def require (b : Bool) : M P V Unit := fun e => if b then some ((), e) else none

/-! ## Coefficients -/

/-- `get_alpha` (`LegionUtilities.cpp` 72-97). -/
def getAlpha (A : Arith V) : List V → Option V
  | [] => some A.one
  | [f0] => some f0
  | [f0, f1] => some (A.div f0 f1)
  | [f0, f1, f2] => some (A.div (A.mul f0 f1) f2)
  | [f0, f1, f2, f3] => some (A.div (A.mul f0 f1) (A.mul f2 f3))
  | _ => none

/-- The coefficient a task body computes from its futures.  (The library passes at most three futures; the assertion
failure for more than four is `getAlpha = none`.) -/
def alphaOf (A : Arith V) (futs : List Nat) (s : Cell P → V) : V :=
  (getAlpha A (futs.map fun f => s (.fut f))).getD A.zero

/-! ## Point tasks -/

/-- The requirement on one piece of a vector (`PartitionedVector::get_requirement`, `PartitionedVector.cpp` 131-147;
identity projection). -/
def inPiece (v : Vec) (pts : List P) (c : Cell P) : Prop := ∃ p ∈ pts, c = .elem v.data p

/-- `ScalTask` on one piece (`LinearAlgebraTasks.cpp` 15-44), launched READ_WRITE (`PartitionedVector.cpp` 203-204). -/
def scalTask (A : Arith V) (x : Vec) (futs : List Nat) (pts : List P) : Task (Cell P) V where
  reads c := inPiece x pts c ∨ ∃ f ∈ futs, c = .fut f
  writes c := inPiece x pts c
  body := pts.map fun p => ⟨.elem x.data p, fun s => A.mul (alphaOf A futs s) (s (.elem x.data p))⟩

/-- `AxpyTask` on one piece (`LinearAlgebraTasks.cpp` 47-88), `y` READ_WRITE, `x` READ_ONLY
(`PartitionedVector.cpp` 225-227). -/
def axpyTask (A : Arith V) (y x : Vec) (futs : List Nat) (pts : List P) : Task (Cell P) V where
  reads c := inPiece y pts c ∨ inPiece x pts c ∨ ∃ f ∈ futs, c = .fut f
  writes c := inPiece y pts c
  body := pts.map fun p => ⟨.elem y.data p, fun s =>
    A.fma (alphaOf A futs s) (s (.elem x.data p)) (s (.elem y.data p))⟩

/-- `XpayTask` on one piece (`LinearAlgebraTasks.cpp` 91-132). -/
def xpayTask (A : Arith V) (y x : Vec) (futs : List Nat) (pts : List P) : Task (Cell P) V where
  reads c := inPiece y pts c ∨ inPiece x pts c ∨ ∃ f ∈ futs, c = .fut f
  writes c := inPiece y pts c
  body := pts.map fun p => ⟨.elem y.data p, fun s =>
    A.fma (alphaOf A futs s) (s (.elem y.data p)) (s (.elem x.data p))⟩

/-- One piece of an index fill with a future (`PartitionedVector.cpp` 163-172). -/
def fillTask (v : Vec) (f : Nat) (pts : List P) : Task (Cell P) V where
  reads c := c = .fut f
  writes c := inPiece v pts c
  body := pts.map fun p => ⟨.elem v.data p, fun s => s (.fut f)⟩

/-- One piece of an index fill with a value (`PartitionedVector.cpp` 150-160). -/
def fillValueTask (v : Vec) (a : V) (pts : List P) : Task (Cell P) V where
  reads _ := False
  writes c := inPiece v pts c
  body := pts.map fun p => ⟨.elem v.data p, fun _ => a⟩

/-- One piece of an index copy, source READ_ONLY, destination WRITE_DISCARD (`PartitionedVector.cpp` 183-189). -/
def copyTask (dst src : Vec) (pts : List P) : Task (Cell P) V where
  reads c := inPiece src pts c
  writes c := inPiece dst pts c
  body := pts.map fun p => ⟨.elem dst.data p, fun s => s (.elem src.data p)⟩

/-- `DotTask` on one piece (`LinearAlgebraTasks.cpp` 135-175): an accumulator starting at 0, products added in
iteration order; both vectors READ_ONLY (`PartitionedVector.cpp` 350-351). -/
def dotTask (A : Arith V) (v w : Vec) (f color : Nat) (pts : List P) : Task (Cell P) V where
  reads c := inPiece v pts c ∨ inPiece w pts c ∨ c = .part f color
  writes c := c = .part f color
  body := ⟨.part f color, fun _ => A.zero⟩ :: pts.map fun p => ⟨.part f color, fun s =>
    A.add (s (.part f color)) (A.mul (s (.elem v.data p)) (s (.elem w.data p)))⟩

/-- The runtime's reduction of the point tasks' results with `LEGION_REDOP_SUM` (`PartitionedVector.cpp` 353-357):
starting from the identity 0, in an order of its choosing. -/
def reduceTask (A : Arith V) (f : Nat) (order : List Nat) : Task (Cell P) V where
  reads c := ∃ k ∈ order, c = .part f k
  writes c := c = .fut f
  body := [⟨.fut f, fun s => order.foldl (fun a k => A.add a (s (.part f k))) A.zero⟩]

/-! ## Vector operations -/

/-- The three assertions at the head of every two-vector operation, e.g. `PartitionedVector.cpp` 214-216. -/
def checkCompatible (y x : Vec) : M P V Unit := do
  require (y.space = x.space)
  require (y.colors = x.colors)
  require (y.part = x.part)

/-- `constant_fill(ENTRY_T)` (`PartitionedVector.cpp` 150-160); also `zero_fill`, `operator=(ENTRY_T)`
(`PartitionedVector.hpp` 83-88). -/
def constantFill (E : Env P) (v : Vec) (a : V) : M P V Unit :=
  launch ((E.pieces v.part).map (fillValueTask v a))

/-- `constant_fill(const Scalar &)` (`PartitionedVector.cpp` 163-172); also `operator=(const Scalar &)`. -/
def constantFillScalar (E : Env P) (v : Vec) (a : Scalar) : M P V Unit :=
  launch ((E.pieces v.part).map (fillTask v a.fut))

/-- `zero_fill` (`PartitionedVector.hpp` 83). -/
def zeroFill (A : Arith V) (E : Env P) (v : Vec) : M P V Unit := constantFill E v A.zero

/-- `operator=(const PartitionedVector &)` (`PartitionedVector.cpp` 175-191): copies data. -/
def assign (E : Env P) (dst src : Vec) : M P V Unit := do
  checkCompatible dst src
  launch ((E.pieces dst.part).map (copyTask dst src))

/-- Copy constructor (`PartitionedVector.cpp` 98-116): a new handle on the same data (ownership: `Verif.Ownership`). -/
def copyConstruct (v : Vec) : Vec := v

/-- `scal` (`PartitionedVector.cpp` 194-207). -/
def scal (A : Arith V) (E : Env P) (x : Vec) (alpha : Scalar) : M P V Unit :=
  launch ((E.pieces x.part).map (scalTask A x [alpha.fut]))

/-- `axpy(alpha, x)` (`PartitionedVector.cpp` 210-231). -/
def axpy (A : Arith V) (E : Env P) (y : Vec) (alpha : Scalar) (x : Vec) : M P V Unit := do
  checkCompatible y x
  launch ((E.pieces y.part).map (axpyTask A y x [alpha.fut]))

/-- `axpy(numer, denom, x)` (`PartitionedVector.cpp` 234-257). -/
def axpy2 (A : Arith V) (E : Env P) (y : Vec) (numer denom : Scalar) (x : Vec) : M P V Unit := do
  checkCompatible y x
  launch ((E.pieces y.part).map (axpyTask A y x [numer.fut, denom.fut]))

/-- `axpy(numer1, numer2, denom, x)` (`PartitionedVector.cpp` 260-284). -/
def axpy3 (A : Arith V) (E : Env P) (y : Vec) (numer1 numer2 denom : Scalar) (x : Vec) : M P V Unit := do
  checkCompatible y x
  launch ((E.pieces y.part).map (axpyTask A y x [numer1.fut, numer2.fut, denom.fut]))

/-- `xpay(alpha, x)` (`PartitionedVector.cpp` 287-308). -/
def xpay (A : Arith V) (E : Env P) (y : Vec) (alpha : Scalar) (x : Vec) : M P V Unit := do
  checkCompatible y x
  launch ((E.pieces y.part).map (xpayTask A y x [alpha.fut]))

/-- `xpay(numer, denom, x)` (`PartitionedVector.cpp` 310-333). -/
def xpay2 (A : Arith V) (E : Env P) (y : Vec) (numer denom : Scalar) (x : Vec) : M P V Unit := do
  checkCompatible y x
  launch ((E.pieces y.part).map (xpayTask A y x [numer.fut, denom.fut]))

/-- `dot` (`PartitionedVector.cpp` 336-358). -/
def dot (A : Arith V) (E : Env P) (v w : Vec) : M P V Scalar := do
  checkCompatible v w
  let f ← fresh
  launch ((E.pieces v.part).mapIdx fun k pts => dotTask A v w f k pts)
  launch [reduceTask A f (E.redOrder f (List.range (E.pieces v.part).length))]
  pure ⟨f⟩

/-! ## Scalar operations -/

/-- A scalar task with the given argument futures; its result goes to future `f`. -/
def scalarTask (f : Nat) (args : List Nat) (g : (Cell P → V) → V) : Task (Cell P) V where
  reads c := ∃ a ∈ args, c = .fut a
  writes c := c = .fut f
  body := [⟨.fut f, g⟩]

/-- `Scalar(ctx, rt, value)` (`Scalar.hpp` 29-32): `Future::from_value`. -/
def scalarOf (a : V) : M P V Scalar := do
  let f ← fresh
  launch [scalarTask f [] fun _ => a]
  pure ⟨f⟩

/-- Launch of a one-argument scalar task (`Scalar.cpp` 15-23, 75-94). -/
def unary (g : V → V) (a : Scalar) : M P V Scalar := do
  let f ← fresh
  launch [scalarTask f [a.fut] fun s => g (s (.fut a.fut))]
  pure ⟨f⟩

/-- Launch of a two-argument scalar task, futures in the order (this, rhs) (`Scalar.cpp` 26-72). -/
def binary (g : V → V → V) (a b : Scalar) : M P V Scalar := do
  let f ← fresh
  launch [scalarTask f [a.fut, b.fut] fun s => g (s (.fut a.fut)) (s (.fut b.fut))]
  pure ⟨f⟩

/-- Unary minus: `NegateScalarTask` (`Scalar.cpp` 15-23, `UtilityTasks.cpp` 34-39). -/
def sNeg (A : Arith V) (a : Scalar) : M P V Scalar := unary A.neg a
/-- `AddScalarTask` (`Scalar.cpp` 26-35, `UtilityTasks.cpp` 42-48). -/
def sAdd (A : Arith V) (a b : Scalar) : M P V Scalar := binary A.add a b
/-- `SubtractScalarTask` (`Scalar.cpp` 38-47, `UtilityTasks.cpp` 51-57). -/
def sSub (A : Arith V) (a b : Scalar) : M P V Scalar := binary A.sub a b
/-- `MultiplyScalarTask` (`Scalar.cpp` 50-59, `UtilityTasks.cpp` 60-66). -/
def sMul (A : Arith V) (a b : Scalar) : M P V Scalar := binary A.mul a b
/-- `DivideScalarTask` (`Scalar.cpp` 62-71, `UtilityTasks.cpp` 69-75). -/
def sDiv (A : Arith V) (a b : Scalar) : M P V Scalar := binary A.div a b
/-- `SqrtScalarTask` (`Scalar.cpp` 74-82, `UtilityTasks.cpp` 78-84). -/
def sSqrt (A : Arith V) (a : Scalar) : M P V Scalar := unary A.sqrt a
/-- `RSqrtScalarTask` (`Scalar.cpp` 85-93, `UtilityTasks.cpp` 87-93): `1 / sqrt(x)`. -/
def sRsqrt (A : Arith V) (a : Scalar) : M P V Scalar := unary (fun x => A.div A.one (A.sqrt x)) a

/-- Unary plus (`Scalar.cpp` 9-12): a copy of the handle. -/
def sPos (a : Scalar) : M P V Scalar := pure a

/-- `axpy(ENTRY_T, x)` (`PartitionedVector.hpp` 104-106). -/
def axpyValue (A : Arith V) (E : Env P) (y : Vec) (a : V) (x : Vec) : M P V Unit := do
  let s ← scalarOf a
  axpy A E y s x

/-- `xpay(ENTRY_T, x)` (`PartitionedVector.hpp` 123-125). -/
def xpayValue (A : Arith V) (E : Env P) (y : Vec) (a : V) (x : Vec) : M P V Unit := do
  let s ← scalarOf a
  xpay A E y s x

end Verif.Vector
