import Verif.Vector.Spec

/-!
# Client programs

What a program made of scalar and vector calls launches (`emit…`), and what it should compute (`…run`): an ordinary
sequential program over whole vectors.
-/
namespace Verif.Vector
open Verif.Runtime
variable {P V : Type}

/-- Use of a scalar variable; a moved-from scalar has an empty future, whose use is an error. -/
def getVar {β : Type} (σ : Nat → Option β) (i : Nat) : M P V β :=
  fun e => (σ i).map fun f => (f, e)

/-- Tasks launched by a scalar expression (`Scalar.cpp`), operands left to right. -/
def emitExpr (A : Arith V) (σ : Nat → Option Scalar) : Expr V → M P V Scalar
  | .var i => getVar σ i
  | .lit a => scalarOf a
  | .pos e => do let a ← emitExpr A σ e; sPos a
  | .neg e => do let a ← emitExpr A σ e; sNeg A a
  | .add e e' => do let a ← emitExpr A σ e; let b ← emitExpr A σ e'; sAdd A a b
  | .sub e e' => do let a ← emitExpr A σ e; let b ← emitExpr A σ e'; sSub A a b
  | .mul e e' => do let a ← emitExpr A σ e; let b ← emitExpr A σ e'; sMul A a b
  | .div e e' => do let a ← emitExpr A σ e; let b ← emitExpr A σ e'; sDiv A a b
  | .sqrt e => do let a ← emitExpr A σ e; sSqrt A a
  | .rsqrt e => do let a ← emitExpr A σ e; sRsqrt A a

/-- Assignment replaces only the left-hand variable's future; a move empties the source (`Scalar.hpp` 38-46). -/
def emitStmt (A : Arith V) (σ : Nat → Option Scalar) : Stmt V → M P V (Nat → Option Scalar)
  | .assign i e => do let a ← emitExpr A σ e; pure (setVar σ i (some a))
  | .move i j => do let a ← getVar σ j; pure (setVar (setVar σ j none) i (some a))

/-- What a scalar program launches. -/
def emitProg (A : Arith V) : (Nat → Option Scalar) → List (Stmt V) → M P V (Nat → Option Scalar)
  | σ, [] => pure σ
  | σ, c :: cs => do let σ' ← emitStmt A σ c; emitProg A σ' cs

/-- Calls of a client program on scalar variables and vector variables. -/
inductive Call (V : Type)
  | scalar (c : Stmt V)
  /-- `PartitionedVector v_i(v_j)` -/
  | copyConstruct (i j : Nat)
  /-- `v_i = v_j` -/
  | assign (i j : Nat)
  | fillValue (i : Nat) (a : V)
  | fillScalar (i a : Nat)
  | zeroFill (i : Nat)
  | scal (i a : Nat)
  | axpy (i a j : Nat)
  | axpy2 (i a b j : Nat)
  | axpy3 (i a b c j : Nat)
  | axpyValue (i : Nat) (a : V) (j : Nat)
  | xpay (i a j : Nat)
  | xpay2 (i a b j : Nat)
  | xpayValue (i : Nat) (a : V) (j : Nat)
  /-- `x_k = v_i.dot(v_j)` -/
  | dot (k i j : Nat)

/-- Handles held by the client program's variables. -/
structure Handles where
  scalars : Nat → Option Scalar
  vecs : Nat → Option Vec

/-- What a call launches. -/
def emitCall (A : Arith V) (E : Env P) (H : Handles) : Call V → M P V Handles
  | .scalar c => do let σ ← emitStmt A H.scalars c; pure { H with scalars := σ }
  | .copyConstruct i j => do let v ← getVar H.vecs j; pure { H with vecs := setVar H.vecs i (some (copyConstruct v)) }
  | .assign i j => do let d ← getVar H.vecs i; let x ← getVar H.vecs j; assign E d x; pure H
  | .fillValue i a => do let d ← getVar H.vecs i; constantFill E d a; pure H
  | .fillScalar i a => do let d ← getVar H.vecs i; let f ← getVar H.scalars a; constantFillScalar E d f; pure H
  | .zeroFill i => do let d ← getVar H.vecs i; zeroFill A E d; pure H
  | .scal i a => do let d ← getVar H.vecs i; let f ← getVar H.scalars a; scal A E d f; pure H
  | .axpy i a j => do
    let y ← getVar H.vecs i; let f ← getVar H.scalars a; let x ← getVar H.vecs j; axpy A E y f x; pure H
  | .axpy2 i a b j => do
    let y ← getVar H.vecs i; let f ← getVar H.scalars a; let g ← getVar H.scalars b; let x ← getVar H.vecs j
    axpy2 A E y f g x; pure H
  | .axpy3 i a b c j => do
    let y ← getVar H.vecs i; let f ← getVar H.scalars a; let g ← getVar H.scalars b; let h ← getVar H.scalars c
    let x ← getVar H.vecs j
    axpy3 A E y f g h x; pure H
  | .axpyValue i a j => do let y ← getVar H.vecs i; let x ← getVar H.vecs j; axpyValue A E y a x; pure H
  | .xpay i a j => do
    let y ← getVar H.vecs i; let f ← getVar H.scalars a; let x ← getVar H.vecs j; xpay A E y f x; pure H
  | .xpay2 i a b j => do
    let y ← getVar H.vecs i; let f ← getVar H.scalars a; let g ← getVar H.scalars b; let x ← getVar H.vecs j
    xpay2 A E y f g x; pure H
  | .xpayValue i a j => do let y ← getVar H.vecs i; let x ← getVar H.vecs j; xpayValue A E y a x; pure H
  | .dot k i j => do
    let v ← getVar H.vecs i; let w ← getVar H.vecs j
    let f ← dot A E v w
    pure { H with scalars := setVar H.scalars k (some f) }

/-- What a program launches. -/
def emitCalls (A : Arith V) (E : Env P) (H : Handles) : List (Call V) → M P V Handles
  | [] => pure H
  | c :: cs => do let H' ← emitCall A E H c; emitCalls A E H' cs

/-! ## Reference semantics -/

/-- A sequential program's state: values of the scalar variables, which object each vector variable denotes, and the
objects' contents. -/
structure Ref (P V : Type) where
  scalars : Nat → Option V
  vecs : Nat → Option Vec
  heap : Nat → P → V

/-- Replace the contents of an object. -/
def Ref.set (R : Ref P V) (v : Vec) (g : P → V) : Ref P V := { R with heap := fun d => if d = v.data then g else R.heap d }

/-- Two different objects with the same partition. -/
def Ref.two (R : Ref P V) (i j : Nat) : Option (Vec × Vec) := do
  let y ← R.vecs i
  let x ← R.vecs j
  if y.space = x.space ∧ y.colors = x.colors ∧ y.part = x.part ∧ y.data ≠ x.data then some (y, x) else none

/-- Ordinary meaning of a call on whole vectors; `none`: use of an unset variable, operands with different partitions, or
the same object used both as destination and as source (which Legion rejects). `dotRef` is the meaning of the inner
product. -/
def Call.run (A : Arith V) (dotRef : Vec → (P → V) → (P → V) → V) (R : Ref P V) : Call V → Option (Ref P V)
  | .scalar c => (c.run A R.scalars).map fun σ => { R with scalars := σ }
  | .copyConstruct i j => (R.vecs j).map fun v => { R with vecs := setVar R.vecs i (some v) }
  | .assign i j => (R.two i j).map fun (y, x) => R.set y (R.heap x.data)
  | .fillValue i a => (R.vecs i).map fun y => R.set y fun _ => a
  | .fillScalar i a => do let y ← R.vecs i; let α ← R.scalars a; some (R.set y fun _ => α)
  | .zeroFill i => (R.vecs i).map fun y => R.set y fun _ => A.zero
  | .scal i a => do let y ← R.vecs i; let α ← R.scalars a; some (R.set y fun p => A.mul α (R.heap y.data p))
  | .axpy i a j => do
    let (y, x) ← R.two i j; let α ← R.scalars a
    some (R.set y fun p => A.fma α (R.heap x.data p) (R.heap y.data p))
  | .axpy2 i a b j => do
    let (y, x) ← R.two i j; let α ← R.scalars a; let β ← R.scalars b
    some (R.set y fun p => A.fma (A.div α β) (R.heap x.data p) (R.heap y.data p))
  | .axpy3 i a b c j => do
    let (y, x) ← R.two i j; let α ← R.scalars a; let β ← R.scalars b; let γ ← R.scalars c
    some (R.set y fun p => A.fma (A.div (A.mul α β) γ) (R.heap x.data p) (R.heap y.data p))
  | .axpyValue i a j => do
    let (y, x) ← R.two i j
    some (R.set y fun p => A.fma a (R.heap x.data p) (R.heap y.data p))
  | .xpay i a j => do
    let (y, x) ← R.two i j; let α ← R.scalars a
    some (R.set y fun p => A.fma α (R.heap y.data p) (R.heap x.data p))
  | .xpay2 i a b j => do
    let (y, x) ← R.two i j; let α ← R.scalars a; let β ← R.scalars b
    some (R.set y fun p => A.fma (A.div α β) (R.heap y.data p) (R.heap x.data p))
  | .xpayValue i a j => do
    let (y, x) ← R.two i j
    some (R.set y fun p => A.fma a (R.heap y.data p) (R.heap x.data p))
  | .dot k i j => do
    let v ← R.vecs i; let w ← R.vecs j
    if v.space = w.space ∧ v.colors = w.colors ∧ v.part = w.part then
      some { R with scalars := setVar R.scalars k (some (dotRef v (R.heap v.data) (R.heap w.data))) }
    else none

/-- Ordinary meaning of a program. -/
def runCalls (A : Arith V) (dotRef : Vec → (P → V) → (P → V) → V) : Ref P V → List (Call V) → Option (Ref P V)
  | R, [] => some R
  | R, c :: cs => (c.run A dotRef R).bind fun R' => runCalls A dotRef R' cs

/-- Ordinary meaning of a program in an arithmetic in which sums depend on the order of addition: the calls one after the
other on whole vectors, where every inner product takes the sum over each piece and adds these piece sums up in some order
(which may be another one at each call). -/
inductive Computes (A : Arith V) (E : Env P) : Ref P V → List (Call V) → Ref P V → Prop
  | nil (R : Ref P V) : Computes A E R [] R
  | cons {R R₁ R' : Ref P V} {c : Call V} {cs : List (Call V)} {inner : Vec → (P → V) → (P → V) → V}
      (some_order : ∀ v x y, ∃ order : List Nat, order.Perm (List.range (E.pieces v.part).length) ∧
        inner v x y = (order.map fun k =>
          (((E.pieces v.part).getD k []).map fun p => A.mul (x p) (y p)).foldl A.add A.zero).foldl A.add A.zero)
      (first : c.run A inner R = some R₁) (rest : Computes A E R₁ cs R') : Computes A E R (c :: cs) R'

/-- The vector variable whose object a call overwrites. -/
def Call.dest : Call V → Option Nat
  | .scalar _ | .copyConstruct _ _ | .dot _ _ _ => none
  | .assign i _ | .fillValue i _ | .fillScalar i _ | .zeroFill i | .scal i _ | .axpy i _ _ | .axpy2 i _ _ _
  | .axpy3 i _ _ _ _ | .axpyValue i _ _ | .xpay i _ _ | .xpay2 i _ _ _ | .xpayValue i _ _ => some i

/-- The vector variable a call (re)binds to an object. -/
def Call.binds : Call V → Option Nat
  | .copyConstruct i _ => some i
  | _ => none

/-- No call of the program overwrites object `d`. -/
def Untouched (A : Arith V) (dotRef : Vec → (P → V) → (P → V) → V) (d : Nat) : Ref P V → List (Call V) → Prop
  | _, [] => True
  | R, c :: cs => (∀ i v, c.dest = some i → R.vecs i = some v → v.data ≠ d) ∧
      ∀ R', c.run A dotRef R = some R' → Untouched A dotRef d R' cs

end Verif.Vector
