import Verif.Solver.Model
import Verif.Planner.DotMatvec
import Mathlib.Algebra.Group.Pi.Basic
import Mathlib.Algebra.Module.Pi
import Mathlib.Tactic.NoncommRing

/-! A small program logic for solvers running on a planner (exact arithmetic). -/
set_option linter.dupNamespace false
set_option linter.unusedSectionVars false
namespace Verif.Solver
open Verif.Runtime Verif.Vector Verif.Matrix Verif.Planner
open scoped _root_.Matrix
variable {K P V α β : Type} [DecidableEq P] [DecidableEq K]

/-- The program runs to the end, in a state satisfying `Φ`. -/
def WP (m : M P V α) (n : Nat) (s : Cell P → V) (Φ : α → Nat → (Cell P → V) → Prop) : Prop :=
  ∃ a n' s', Runs m n s a n' s' ∧ Φ a n' s'

/-- A scalar handle denotes a value. -/
def Den (n : Nat) (s : Cell P → V) (a : Scalar) (v : V) : Prop := a.fut < n ∧ s (.fut a.fut) = v

/-- Scalars that existed keep their values. -/
structure Ext (n : Nat) (s : Cell P → V) (n' : Nat) (s' : Cell P → V) : Prop where
  le : n ≤ n'
  fut : ∀ f, f < n → s' (.fut f) = s (.fut f)

theorem Ext.den {n n' : Nat} {s s' : Cell P → V} (h : Ext n s n' s') {a : Scalar} {v : V} (d : Den n s a v) : Den n' s' a v :=
  ⟨Nat.lt_of_lt_of_le d.1 h.le, (h.fut _ d.1).trans d.2⟩

theorem Ext.refl (n : Nat) (s : Cell P → V) : Ext n s n s := ⟨Nat.le_refl n, fun _ _ => rfl⟩

theorem Ext.trans {n n' n'' : Nat} {s s' s'' : Cell P → V} (h : Ext n s n' s') (h' : Ext n' s' n'' s'') : Ext n s n'' s'' :=
  ⟨Nat.le_trans h.le h'.le, fun f hf => (h'.fut f (Nat.lt_of_lt_of_le hf h.le)).trans (h.fut f hf)⟩

/-- Finds the value of a scalar by going back to where it was computed. -/
macro "den" : tactic => `(tactic| repeat (first | assumption | (refine Ext.den (by assumption) ?_)))

theorem WP.pure {a : α} {n : Nat} {s : Cell P → V} {Φ : α → Nat → (Cell P → V) → Prop} (h : Φ a n s) :
    WP (pure a : M P V α) n s Φ := ⟨a, n, s, Runs.pure a n s, h⟩

theorem WP.bind {m : M P V α} {f : α → M P V β} {n : Nat} {s : Cell P → V} {Φ : β → Nat → (Cell P → V) → Prop}
    (h : WP m n s fun a n' s' => WP (f a) n' s' Φ) : WP (m >>= f) n s Φ := by
  obtain ⟨a, n', s', h1, b, n'', s'', h2, h3⟩ := h
  exact ⟨b, n'', s'', h1.bind h2, h3⟩

theorem WP.mono {m : M P V α} {n : Nat} {s : Cell P → V} {Φ Ψ : α → Nat → (Cell P → V) → Prop} (h : WP m n s Φ)
    (hi : ∀ a n' s', Φ a n' s' → Ψ a n' s') : WP m n s Ψ := by
  obtain ⟨a, n', s', h1, h2⟩ := h
  exact ⟨a, n', s', h1, hi _ _ _ h2⟩

theorem WP.ensures {m : M P V α} {n : Nat} {s : Cell P → V} {Q : α → (Cell P → V) → Prop}
    (h : WP m n s fun a _ s' => Q a s') : Ensures m n s Q := by
  obtain ⟨a, n', s', h1, h2⟩ := h
  exact h1.ensures h2

/-- The contents of all planner vectors are `x`; cells of no planner vector are as in `s0`. -/
structure View (G : Geometry P) (pl : Planner K P V) (nw : Nat) (s0 s : Cell P → V) (x : Nat → pl.U G → V) : Prop where
  vec : ∀ k, k < nw + 2 → pl.content G s k = x k
  out : ∀ d p, (∀ k, k < nw + 2 → ∀ u : pl.U G, (d, p) ≠ ((pl.vec k u.1.1).data, u.1.2)) → s (.elem d p) = s0 (.elem d p)

section
variable {G : Geometry P} {pl : Planner K P V} {nw : Nat} {s0 s : Cell P → V} {x : Nat → pl.U G → V}
variable {n : Nat}

theorem View.start (G : Geometry P) (pl : Planner K P V) (nw : Nat) (s : Cell P → V) :
    View G pl nw s s (pl.content G s) := ⟨fun _ _ => rfl, fun _ _ _ => rfl⟩

theorem View.frame (v : View G pl nw s0 s x) {s' : Cell P → V} (h : ∀ d p, s' (.elem d p) = s (.elem d p)) :
    View G pl nw s0 s' x :=
  ⟨fun k hk => by rw [← v.vec k hk]; funext u; exact h _ _, fun d p hd => by rw [h, v.out d p hd]⟩

theorem View.block (R : Ready G pl nw) (v : View G pl nw s0 s x) {s' : Cell P → V} {d : Nat} (hd : d < nw + 2)
    {h : Nat → P → V} (hb : BlockSet G pl s s' d h) (g : pl.U G → V) (hg : ∀ u : pl.U G, h u.1.1 u.1.2 = g u) :
    View G pl nw s0 s' (Function.update x d g) := by
  obtain ⟨h1, h2, -⟩ := hb.only 0 g hg
  refine ⟨fun k hk => ?_, fun d' p hd' => ?_⟩
  · by_cases e : k = d
    · subst e
      rw [Function.update_self]
      exact funext h1
    · rw [Function.update_of_ne e, ← v.vec k hk]
      funext u
      apply h2
      intro u' e'
      injection e' with e1 e2
      exact e (R.distinct k u.1.1 d u'.1.1 hk (Planner.mem_unknowns u).1 hd (Planner.mem_unknowns u').1 e1).1
  · rw [h2 d' p (fun u => hd' d hd u), v.out d' p hd']

theorem BlockSet.ext {s' : Cell P → V} {d : Nat} {h : Nat → P → V} (hb : BlockSet G pl s s' d h) : Ext n s n s' :=
  ⟨Nat.le_refl n, fun f _ => hb.2 _ (fun _ _ _ _ e => by cases e)⟩

variable [Field V] {A : Arith V}
variable {Φ : Unit → Nat → (Cell P → V) → Prop} {Ψ : Scalar → Nat → (Cell P → V) → Prop}

theorem WP.copy (R : Ready G pl nw) (v : View G pl nw s0 s x) {d y : Nat} (hd : d < nw + 2) (hy : y < nw + 2)
    (k : ∀ s', Ext n s n s' → View G pl nw s0 s' (Function.update x d (x y)) → Φ () n s') :
    WP ((plannerOps A G.toEnv pl).copy d y) n s Φ := by
  obtain ⟨s', h1, h2⟩ := Runs.pCopy R hd hy n s
  exact ⟨_, _, s', h1, k s' (BlockSet.ext h2) (v.block R hd h2 _ (fun u => congrFun (v.vec y hy) u))⟩

theorem WP.zeroFill (hA : A.Exact) (R : Ready G pl nw) (v : View G pl nw s0 s x) {d : Nat} (hd : d < nw + 2)
    (k : ∀ s', Ext n s n s' → View G pl nw s0 s' (Function.update x d 0) → Φ () n s') :
    WP ((plannerOps A G.toEnv pl).zeroFill d) n s Φ := by
  obtain ⟨s', h1, h2⟩ := Runs.pZeroFill R A hd n s
  exact ⟨_, _, s', h1, k s' (BlockSet.ext h2) (v.block R hd h2 _ (fun u => hA.zero))⟩

theorem WP.scal (hA : A.Exact) (R : Ready G pl nw) (v : View G pl nw s0 s x) {d : Nat} (hd : d < nw + 2) {a : Scalar} {α : V}
    (da : Den n s a α) (k : ∀ s', Ext n s n s' → View G pl nw s0 s' (Function.update x d (α • x d)) → Φ () n s') :
    WP ((plannerOps A G.toEnv pl).scal d a) n s Φ := by
  obtain ⟨s', h1, h2⟩ := Runs.pScal R A hd a n s
  refine ⟨_, _, s', h1, k s' (BlockSet.ext h2) (v.block R hd h2 _ (fun u => ?_))⟩
  show A.mul (s (.fut a.fut)) (pl.content G s d u) = α * x d u
  rw [hA.mul, da.2, v.vec d hd]

theorem WP.axpy (hA : A.Exact) (R : Ready G pl nw) (v : View G pl nw s0 s x) {d y : Nat} (hd : d < nw + 2) (hy : y < nw + 2)
    {a : Scalar} {α : V} (da : Den n s a α)
    (k : ∀ s', Ext n s n s' → View G pl nw s0 s' (Function.update x d (α • x y + x d)) → Φ () n s') :
    WP ((plannerOps A G.toEnv pl).axpy d a y) n s Φ := by
  obtain ⟨s', h1, h2⟩ := Runs.pAxpy R A hd hy a n s
  refine ⟨_, _, s', h1, k s' (BlockSet.ext h2) (v.block R hd h2 _ (fun u => ?_))⟩
  show A.fma (s (.fut a.fut)) (pl.content G s y u) (pl.content G s d u) = α * x y u + x d u
  rw [hA.fma, da.2, v.vec d hd, v.vec y hy]

theorem WP.axpy2 (hA : A.Exact) (R : Ready G pl nw) (v : View G pl nw s0 s x) {d y : Nat} (hd : d < nw + 2) (hy : y < nw + 2)
    {a b : Scalar} {α β : V} (da : Den n s a α) (db : Den n s b β) (hβ : β ≠ 0)
    (k : ∀ s', Ext n s n s' → View G pl nw s0 s' (Function.update x d ((α / β) • x y + x d)) → Φ () n s') :
    WP ((plannerOps A G.toEnv pl).axpy2 d a b y) n s Φ := by
  obtain ⟨s', h1, h2⟩ := Runs.pAxpy2 R A hd hy a b n s
  refine ⟨_, _, s', h1, k s' (BlockSet.ext h2) (v.block R hd h2 _ (fun u => ?_))⟩
  show A.fma (A.div (s (.fut a.fut)) (s (.fut b.fut))) (pl.content G s y u) (pl.content G s d u) = α / β * x y u + x d u
  rw [hA.fma, da.2, db.2, hA.div _ _ hβ, v.vec d hd, v.vec y hy]

theorem WP.axpy3 (hA : A.Exact) (R : Ready G pl nw) (v : View G pl nw s0 s x) {d y : Nat} (hd : d < nw + 2) (hy : y < nw + 2)
    {a b c : Scalar} {α β γ : V} (da : Den n s a α) (db : Den n s b β) (dc : Den n s c γ) (hγ : γ ≠ 0)
    (k : ∀ s', Ext n s n s' → View G pl nw s0 s' (Function.update x d ((α * β / γ) • x y + x d)) → Φ () n s') :
    WP ((plannerOps A G.toEnv pl).axpy3 d a b c y) n s Φ := by
  obtain ⟨s', h1, h2⟩ := Runs.pAxpy3 R A hd hy a b c n s
  refine ⟨_, _, s', h1, k s' (BlockSet.ext h2) (v.block R hd h2 _ (fun u => ?_))⟩
  show A.fma (A.div (A.mul (s (.fut a.fut)) (s (.fut b.fut))) (s (.fut c.fut))) (pl.content G s y u) (pl.content G s d u) =
    α * β / γ * x y u + x d u
  rw [hA.fma, da.2, db.2, dc.2, hA.mul, hA.div _ _ hγ, v.vec d hd, v.vec y hy]

theorem WP.xpay (hA : A.Exact) (R : Ready G pl nw) (v : View G pl nw s0 s x) {d y : Nat} (hd : d < nw + 2) (hy : y < nw + 2)
    {a : Scalar} {α : V} (da : Den n s a α)
    (k : ∀ s', Ext n s n s' → View G pl nw s0 s' (Function.update x d (α • x d + x y)) → Φ () n s') :
    WP ((plannerOps A G.toEnv pl).xpay d a y) n s Φ := by
  obtain ⟨s', h1, h2⟩ := Runs.pXpay R A hd hy a n s
  refine ⟨_, _, s', h1, k s' (BlockSet.ext h2) (v.block R hd h2 _ (fun u => ?_))⟩
  show A.fma (s (.fut a.fut)) (pl.content G s d u) (pl.content G s y u) = α * x d u + x y u
  rw [hA.fma, da.2, v.vec d hd, v.vec y hy]

theorem WP.xpay2 (hA : A.Exact) (R : Ready G pl nw) (v : View G pl nw s0 s x) {d y : Nat} (hd : d < nw + 2) (hy : y < nw + 2)
    {a b : Scalar} {α β : V} (da : Den n s a α) (db : Den n s b β) (hβ : β ≠ 0)
    (k : ∀ s', Ext n s n s' → View G pl nw s0 s' (Function.update x d ((α / β) • x d + x y)) → Φ () n s') :
    WP ((plannerOps A G.toEnv pl).xpay2 d a b y) n s Φ := by
  obtain ⟨s', h1, h2⟩ := Runs.pXpay2 R A hd hy a b n s
  refine ⟨_, _, s', h1, k s' (BlockSet.ext h2) (v.block R hd h2 _ (fun u => ?_))⟩
  show A.fma (A.div (s (.fut a.fut)) (s (.fut b.fut))) (pl.content G s d u) (pl.content G s y u) = α / β * x d u + x y u
  rw [hA.fma, da.2, db.2, hA.div _ _ hβ, v.vec d hd, v.vec y hy]

theorem WP.matvec (hA : A.Exact) (R : Ready G pl nw) (v : View G pl nw s0 s x) {d y : Nat} (hd : d < nw + 2) (hy : y < nw + 2)
    (hne : d ≠ y)
    (k : ∀ s', Ext n s n s' → View G pl nw s0 s' (Function.update x d (pl.operator G *ᵥ x y)) → Φ () n s') :
    WP ((plannerOps A G.toEnv pl).matvec d y) n s Φ := by
  obtain ⟨s', h1, h2⟩ := Runs.pMatvec hA R hd hy hne n s
  refine ⟨_, _, s', h1, k s' (BlockSet.ext h2) (v.block R hd h2 _ (fun u => ?_))⟩
  rw [← v.vec y hy]
  exact (operator_mulVec R _ u).symm

theorem WP.dot (hA : A.Exact) (R : Ready G pl nw) (hord : ∀ f l, (G.redOrder f l).Perm l) (hns : 0 < pl.spaces.length)
    (v : View G pl nw s0 s x) {y z : Nat} (hy : y < nw + 2) (hz : z < nw + 2)
    (k : ∀ a n' s', Ext n s n' s' → View G pl nw s0 s' x → Den n' s' a (x y ⬝ᵥ x z) → Ψ a n' s') :
    WP ((plannerOps A G.toEnv pl).dot y z) n s Ψ := by
  obtain ⟨a, n', s', h1, h2, h3, h4, h5, h6⟩ := Runs.pDot hA R hord hns hy hz n s
  refine ⟨a, n', s', h1, k a n' s' ⟨by omega, h6⟩ (v.frame h5) ⟨h3, ?_⟩⟩
  rw [h4, v.vec y hy, v.vec z hz]
  rfl

/-- A new scalar with a value. -/
theorem WP.newScalar {m : M P V Scalar} {α : V} (h : Runs m n s ⟨n⟩ (n + 1) (setFut s n α)) (v : View G pl nw s0 s x)
    (k : ∀ a n' s', Ext n s n' s' → View G pl nw s0 s' x → Den n' s' a α → Ψ a n' s') : WP m n s Ψ := by
  refine ⟨_, _, _, h, k _ _ _ ⟨Nat.le_succ n, fun f hf => ?_⟩ (v.frame fun _ _ => rfl) ⟨Nat.lt_succ_self n, ?_⟩⟩
  · rw [setFut_fut, if_neg (by omega)]
  · rw [setFut_fut, if_pos rfl]

theorem WP.negOne (hA : A.Exact) (v : View G pl nw s0 s x)
    (k : ∀ a n' s', Ext n s n' s' → View G pl nw s0 s' x → Den n' s' a (-1) → Ψ a n' s') :
    WP ((plannerOps A G.toEnv pl).negOne) n s Ψ :=
  WP.newScalar (by rw [← hA.one, ← hA.neg]; exact Runs.scalarOf _ n s) v k

theorem WP.zero (hA : A.Exact) (v : View G pl nw s0 s x)
    (k : ∀ a n' s', Ext n s n' s' → View G pl nw s0 s' x → Den n' s' a 0 → Ψ a n' s') :
    WP ((plannerOps A G.toEnv pl).zero) n s Ψ :=
  WP.newScalar (by rw [← hA.zero]; exact Runs.scalarOf _ n s) v k

theorem WP.one (hA : A.Exact) (v : View G pl nw s0 s x)
    (k : ∀ a n' s', Ext n s n' s' → View G pl nw s0 s' x → Den n' s' a 1 → Ψ a n' s') :
    WP ((plannerOps A G.toEnv pl).one) n s Ψ :=
  WP.newScalar (by rw [← hA.one]; exact Runs.scalarOf _ n s) v k

theorem WP.neg (hA : A.Exact) (v : View G pl nw s0 s x) {a : Scalar} {α : V} (da : Den n s a α)
    (k : ∀ a n' s', Ext n s n' s' → View G pl nw s0 s' x → Den n' s' a (-α) → Ψ a n' s') :
    WP ((plannerOps A G.toEnv pl).neg a) n s Ψ :=
  WP.newScalar (by rw [← da.2, ← hA.neg]; exact Runs.unary A.neg a n s) v k

theorem WP.mul (hA : A.Exact) (v : View G pl nw s0 s x) {a b : Scalar} {α β : V} (da : Den n s a α) (db : Den n s b β)
    (k : ∀ a n' s', Ext n s n' s' → View G pl nw s0 s' x → Den n' s' a (α * β) → Ψ a n' s') :
    WP ((plannerOps A G.toEnv pl).mul a b) n s Ψ :=
  WP.newScalar (by rw [← da.2, ← db.2, ← hA.mul]; exact Runs.binary A.mul a b n s) v k

theorem WP.div (hA : A.Exact) (v : View G pl nw s0 s x) {a b : Scalar} {α β : V} (da : Den n s a α) (db : Den n s b β)
    (hβ : β ≠ 0) (k : ∀ a n' s', Ext n s n' s' → View G pl nw s0 s' x → Den n' s' a (α / β) → Ψ a n' s') :
    WP ((plannerOps A G.toEnv pl).div a b) n s Ψ :=
  WP.newScalar (by rw [← hA.div _ _ hβ, ← da.2, ← db.2]; exact Runs.binary A.div a b n s) v k

theorem WP.sqrt (v : View G pl nw s0 s x) {a : Scalar} {α : V} (da : Den n s a α)
    (k : ∀ a n' s', Ext n s n' s' → View G pl nw s0 s' x → Den n' s' a (A.sqrt α) → Ψ a n' s') :
    WP ((plannerOps A G.toEnv pl).sqrt a) n s Ψ :=
  WP.newScalar (by rw [← da.2]; exact Runs.unary A.sqrt a n s) v k

theorem WP.rsqrt (hA : A.Exact) (v : View G pl nw s0 s x) {a : Scalar} {α : V} (da : Den n s a α) (hα : A.sqrt α ≠ 0)
    (k : ∀ a n' s', Ext n s n' s' → View G pl nw s0 s' x → Den n' s' a (1 / A.sqrt α) → Ψ a n' s') :
    WP ((plannerOps A G.toEnv pl).rsqrt a) n s Ψ :=
  WP.newScalar (by
    rw [← hA.one, ← hA.div _ _ hα, ← da.2]
    exact Runs.unary (fun x => A.div A.one (A.sqrt x)) a n s) v k

theorem WP.dummy (hA : A.Exact) (v : View G pl nw s0 s x) (l : List Scalar)
    (k : ∀ a n' s', Ext n s n' s' → View G pl nw s0 s' x → Den n' s' a 1 → Ψ a n' s') :
    WP ((plannerOps A G.toEnv pl).dummy l) n s Ψ :=
  WP.newScalar (by
    rw [← hA.one]
    exact (Runs.fresh n s).bind ((Runs.scalarTask1 (l.map Scalar.fut) (fun _ => A.one) (n + 1) n s
      (fun _ _ _ => rfl)).bind (Runs.pure _ _ _))) v k

end

end Verif.Solver
