import Verif.Release.Model

/-! # Solvers run with two sets of operations -/
set_option linter.unusedSectionVars false
namespace Verif.Release
open Verif.Runtime Verif.Vector Verif.Matrix Verif.Planner Verif.Solver Verif.Programs
variable {K P V : Type} [DecidableEq P] [DecidableEq K]

/-- A relation between programs that is kept by putting programs one after the other. -/
structure Walk (R : {α : Type} → M P V α → M P V α → Prop) : Prop where
  pure : ∀ {α : Type} (a : α), R (pure a : M P V α) (pure a)
  bind : ∀ {α β : Type} {m m' : M P V α} {f f' : α → M P V β}, R m m' → (∀ a, R (f a) (f' a)) → R (m >>= f) (m' >>= f')

/-- Operations related one by one. -/
structure OpsRel (R : {α : Type} → M P V α → M P V α → Prop) (O O' : Ops (M P V) Scalar) : Prop where
  negOne : R O.negOne O'.negOne
  zero : R O.zero O'.zero
  one : R O.one O'.one
  neg : ∀ a, R (O.neg a) (O'.neg a)
  mul : ∀ a b, R (O.mul a b) (O'.mul a b)
  div : ∀ a b, R (O.div a b) (O'.div a b)
  sqrt : ∀ a, R (O.sqrt a) (O'.sqrt a)
  rsqrt : ∀ a, R (O.rsqrt a) (O'.rsqrt a)
  zeroFill : ∀ d, R (O.zeroFill d) (O'.zeroFill d)
  copy : ∀ d x, R (O.copy d x) (O'.copy d x)
  scal : ∀ d a, R (O.scal d a) (O'.scal d a)
  axpy : ∀ d a x, R (O.axpy d a x) (O'.axpy d a x)
  axpy2 : ∀ d a b x, R (O.axpy2 d a b x) (O'.axpy2 d a b x)
  axpy3 : ∀ d a b c x, R (O.axpy3 d a b c x) (O'.axpy3 d a b c x)
  xpay : ∀ d a x, R (O.xpay d a x) (O'.xpay d a x)
  xpay2 : ∀ d a b x, R (O.xpay2 d a b x) (O'.xpay2 d a b x)
  dot : ∀ v w, R (O.dot v w) (O'.dot v w)
  matvec : ∀ d x, R (O.matvec d x) (O'.matvec d x)
  dummy : ∀ l, R (O.dummy l) (O'.dummy l)

namespace OpsRel
variable {R : {α : Type} → M P V α → M P V α → Prop} {O O' : Ops (M P V) Scalar}

theorem repeatM (w : Walk R) {α : Type} {f f' : α → M P V α} (h : ∀ a, R (f a) (f' a)) :
    ∀ (k : Nat) (a : α), R (Solver.repeatM f k a) (Solver.repeatM f' k a)
  | 0, a => w.pure a
  | k + 1, a => w.bind (h a) fun a' => repeatM w h k a'

theorem cgInit (w : Walk R) (H : OpsRel R O O') : R (CG.init O) (CG.init O') :=
  w.bind H.negOne fun _ => w.bind (H.copy _ _) fun _ => w.bind (H.copy _ _) fun _ => w.bind (H.dot _ _) fun _ => w.pure _

theorem cgStep (w : Walk R) (H : OpsRel R O O') (c : CG Scalar) : R (CG.step O c) (CG.step O' c) :=
  w.bind (H.matvec _ _) fun _ => w.bind (H.dot _ _) fun _ => w.bind (H.axpy2 _ _ _ _) fun _ => w.bind (H.axpy3 _ _ _ _ _) fun _ =>
    w.bind (H.dot _ _) fun _ => w.bind (H.xpay2 _ _ _ _) fun _ => w.pure _

theorem cgSolve (w : Walk R) (H : OpsRel R O O') (k : Nat) : R (CG.solve O k) (CG.solve O' k) :=
  w.bind (cgInit w H) fun c => repeatM w (cgStep w H) k c

theorem biInit (w : Walk R) (H : OpsRel R O O') : R (BiCGStab.init O) (BiCGStab.init O') :=
  w.bind H.negOne fun _ => w.bind H.zero fun _ => w.bind H.one fun _ => w.bind (H.copy _ _) fun _ => w.bind (H.copy _ _) fun _ =>
    w.bind (H.zeroFill _) fun _ => w.bind (H.zeroFill _) fun _ => w.pure _

theorem biStep (w : Walk R) (H : OpsRel R O O') (c : BiCGStab Scalar) : R (BiCGStab.step O c) (BiCGStab.step O' c) :=
  w.bind (H.dot _ _) fun _ => w.bind (H.div _ _) fun _ => w.bind (H.div _ _) fun _ => w.bind (H.mul _ _) fun _ =>
  w.bind (H.neg _) fun _ => w.bind (H.axpy _ _ _) fun _ => w.bind (H.xpay _ _ _) fun _ => w.bind (H.matvec _ _) fun _ =>
  w.bind (H.dot _ _) fun _ => w.bind (H.axpy3 _ _ _ _ _) fun _ => w.bind (H.div _ _) fun _ => w.bind (H.matvec _ _) fun _ =>
  w.bind (H.dot _ _) fun _ => w.bind (H.dot _ _) fun _ => w.bind (H.div _ _) fun _ => w.bind (H.axpy _ _ _) fun _ =>
  w.bind (H.axpy _ _ _) fun _ => w.bind (H.neg _) fun _ => w.bind (H.axpy _ _ _) fun _ => w.pure _

theorem biSolve (w : Walk R) (H : OpsRel R O O') (k : Nat) : R (BiCGStab.solve O k) (BiCGStab.solve O' k) :=
  w.bind (biInit w H) fun c => repeatM w (biStep w H) k c

theorem zeros (w : Walk R) (H : OpsRel R O O') : ∀ n, R (Solver.zeros O n) (Solver.zeros O' n)
  | 0 => w.pure _
  | n + 1 => w.bind H.zero fun _ => w.bind (zeros w H n) fun _ => w.pure _

theorem gmresInit (w : Walk R) (H : OpsRel R O O') (r : Nat) : R (GMRES.init O r) (GMRES.init O' r) :=
  w.bind H.negOne fun _ => w.bind (zeros w H _) fun _ => w.bind (zeros w H _) fun _ => w.bind (zeros w H _) fun _ => w.pure _

theorem orthogonalise (w : Walk R) (H : OpsRel R O O') (j : Nat) :
    ∀ (ks : List Nat) (h : Nat → Nat → Scalar), R (GMRES.orthogonalise O j ks h) (GMRES.orthogonalise O' j ks h)
  | [], _ => w.pure _
  | _ :: ks, _ => w.bind (H.dot _ _) fun _ => w.bind (H.neg _) fun _ => w.bind (H.axpy _ _ _) fun _ => orthogonalise w H j ks _

theorem column (w : Walk R) (H : OpsRel R O O') (r j : Nat) (h : Nat → Nat → Scalar) : R (GMRES.column O r j h) (GMRES.column O' r j h) := by
  refine w.bind (H.matvec _ _) fun _ => w.bind (orthogonalise w H j _ _) fun _ => w.bind (H.dot _ _) fun _ => w.bind (H.sqrt _) fun _ => ?_
  dsimp only
  split
  · exact w.bind (H.rsqrt _) fun _ => w.bind (H.scal _ _) fun _ => w.pure _
  · exact w.pure _

theorem columns (w : Walk R) (H : OpsRel R O O') (r : Nat) :
    ∀ (js : List Nat) (h : Nat → Nat → Scalar), R (GMRES.columns O r js h) (GMRES.columns O' r js h)
  | [], _ => w.pure _
  | _ :: js, _ => w.bind (column w H r _ _) fun _ => columns w H r js _

theorem update (w : Walk R) (H : OpsRel R O O') (a : Scalar) : ∀ js : List Nat, R (GMRES.update O a js) (GMRES.update O' a js)
  | [] => w.pure _
  | _ :: js => w.bind (H.axpy _ _ _) fun _ => update w H a js

theorem gmresStep (w : Walk R) (H : OpsRel R O O') (c : GMRES Scalar) : R (GMRES.step O c) (GMRES.step O' c) :=
  w.bind (w.bind (w.bind (H.matvec _ _) fun _ => w.bind (H.xpay _ _ _) fun _ => w.bind (H.dot _ _) fun _ => w.bind (H.rsqrt _) fun _ =>
      H.scal _ _) fun _ => w.bind (columns w H _ _ _) fun _ => w.pure _)
    fun _ => w.bind (w.bind (H.dummy _) fun _ => update w H _ _) fun _ => w.pure _

theorem gmresSolve (w : Walk R) (H : OpsRel R O O') (r k : Nat) : R (GMRES.solve O r k) (GMRES.solve O' r k) :=
  w.bind (gmresInit w H r) fun c => repeatM w (gmresStep w H) k c

end OpsRel
end Verif.Release
