import Verif.Vector.ProgramProof
import Mathlib.Algebra.BigOperators.Group.List.Basic
import Mathlib.Algebra.Field.Rat
import Mathlib.Tactic.Linarith

/-!
# C21, C22, C23, C24, C42, C45: vectors, scalars, schedules

`Ensures m n s Q` (`Spec.lean`) quantifies over every interleaving of the element assignments of all tasks the call
launched.  Nothing is assumed about the arithmetic unless `Arith.Exact` is a hypothesis.
-/
set_option linter.unusedSectionVars false
namespace Verif.Vector
open Verif.Runtime
variable {P V : Type} [DecidableEq P]

/-! ## C21 -/

theorem c21_fill (E : Env P) (v : Vec) (a : V) (space : List P) (hp : IsPartition space (E.pieces v.part)) (n : Nat)
    (s : Cell P → V) : Ensures (constantFill E v a) n s fun _ s' => OnlyChanged s s' v space fun _ => a :=
  (Runs.constantFill E v a space hp n s).ensures (setVec_only _ _ _ _)

theorem c21_zero_fill (A : Arith V) (E : Env P) (v : Vec) (space : List P) (hp : IsPartition space (E.pieces v.part))
    (n : Nat) (s : Cell P → V) : Ensures (zeroFill A E v) n s fun _ s' => OnlyChanged s s' v space fun _ => A.zero :=
  (Runs.constantFill E v A.zero space hp n s).ensures (setVec_only _ _ _ _)

theorem c21_fill_scalar (E : Env P) (v : Vec) (a : Scalar) (space : List P) (hp : IsPartition space (E.pieces v.part))
    (n : Nat) (s : Cell P → V) :
    Ensures (constantFillScalar E v a) n s fun _ s' => OnlyChanged s s' v space fun _ => s (.fut a.fut) :=
  (Runs.constantFillScalar E v a space hp n s).ensures (setVec_only _ _ _ _)

theorem c21_copy (E : Env P) (d x : Vec) (hc : Compatible d x) (space : List P)
    (hp : IsPartition space (E.pieces d.part)) (n : Nat) (s : Cell P → V) :
    Ensures (assign E d x) n s fun _ s' => OnlyChanged s s' d space fun p => s (.elem x.data p) :=
  (Runs.assign E d x hc.1 hc.2.1 hc.2.2 space hp n s).ensures (setVec_only _ _ _ _)

theorem c21_scal (A : Arith V) (E : Env P) (x : Vec) (a : Scalar) (space : List P)
    (hp : IsPartition space (E.pieces x.part)) (n : Nat) (s : Cell P → V) :
    Ensures (scal A E x a) n s fun _ s' =>
      OnlyChanged s s' x space fun p => A.mul (s (.fut a.fut)) (s (.elem x.data p)) :=
  (Runs.scal A E x a space hp n s).ensures (setVec_only _ _ _ _)

theorem c21_axpy (A : Arith V) (E : Env P) (y : Vec) (a : Scalar) (x : Vec) (hc : Compatible y x) (space : List P)
    (hp : IsPartition space (E.pieces y.part)) (n : Nat) (s : Cell P → V) :
    Ensures (axpy A E y a x) n s fun _ s' =>
      OnlyChanged s s' y space fun p => A.fma (s (.fut a.fut)) (s (.elem x.data p)) (s (.elem y.data p)) :=
  ((Runs.check hc.1 hc.2.1 hc.2.2 n s).bind (Runs.axpyGen A E y x _ space hp n s)).ensures (setVec_only _ _ _ _)

theorem c21_axpy_quotient (A : Arith V) (E : Env P) (y : Vec) (a b : Scalar) (x : Vec) (hc : Compatible y x)
    (space : List P) (hp : IsPartition space (E.pieces y.part)) (n : Nat) (s : Cell P → V) :
    Ensures (axpy2 A E y a b x) n s fun _ s' => OnlyChanged s s' y space fun p =>
      A.fma (A.div (s (.fut a.fut)) (s (.fut b.fut))) (s (.elem x.data p)) (s (.elem y.data p)) :=
  ((Runs.check hc.1 hc.2.1 hc.2.2 n s).bind (Runs.axpyGen A E y x _ space hp n s)).ensures (setVec_only _ _ _ _)

theorem c21_axpy_product_quotient (A : Arith V) (E : Env P) (y : Vec) (a b c : Scalar) (x : Vec) (hc : Compatible y x)
    (space : List P) (hp : IsPartition space (E.pieces y.part)) (n : Nat) (s : Cell P → V) :
    Ensures (axpy3 A E y a b c x) n s fun _ s' => OnlyChanged s s' y space fun p =>
      A.fma (A.div (A.mul (s (.fut a.fut)) (s (.fut b.fut))) (s (.fut c.fut))) (s (.elem x.data p)) (s (.elem y.data p)) :=
  ((Runs.check hc.1 hc.2.1 hc.2.2 n s).bind (Runs.axpyGen A E y x _ space hp n s)).ensures (setVec_only _ _ _ _)

theorem c21_xpay (A : Arith V) (E : Env P) (y : Vec) (a : Scalar) (x : Vec) (hc : Compatible y x) (space : List P)
    (hp : IsPartition space (E.pieces y.part)) (n : Nat) (s : Cell P → V) :
    Ensures (xpay A E y a x) n s fun _ s' =>
      OnlyChanged s s' y space fun p => A.fma (s (.fut a.fut)) (s (.elem y.data p)) (s (.elem x.data p)) :=
  ((Runs.check hc.1 hc.2.1 hc.2.2 n s).bind (Runs.xpayGen A E y x _ space hp n s)).ensures (setVec_only _ _ _ _)

theorem c21_xpay_quotient (A : Arith V) (E : Env P) (y : Vec) (a b : Scalar) (x : Vec) (hc : Compatible y x)
    (space : List P) (hp : IsPartition space (E.pieces y.part)) (n : Nat) (s : Cell P → V) :
    Ensures (xpay2 A E y a b x) n s fun _ s' => OnlyChanged s s' y space fun p =>
      A.fma (A.div (s (.fut a.fut)) (s (.fut b.fut))) (s (.elem y.data p)) (s (.elem x.data p)) :=
  ((Runs.check hc.1 hc.2.1 hc.2.2 n s).bind (Runs.xpayGen A E y x _ space hp n s)).ensures (setVec_only _ _ _ _)

/-- The overloads taking a plain value; they also create one new scalar (future `n`). -/
theorem c21_axpy_value (A : Arith V) (E : Env P) (y : Vec) (a : V) (x : Vec) (hc : Compatible y x) (space : List P)
    (hp : IsPartition space (E.pieces y.part)) (n : Nat) (s : Cell P → V) :
    Ensures (axpyValue A E y a x) n s fun _ s' =>
      (∀ p ∈ space, s' (.elem y.data p) = A.fma a (s (.elem x.data p)) (s (.elem y.data p))) ∧
      ∀ c, (∀ p ∈ space, c ≠ .elem y.data p) → c ≠ .fut n → s' c = s c := by
  refine Runs.ensures ((Runs.scalarOf a n s).bind ((Runs.check hc.1 hc.2.1 hc.2.2 (n + 1) _).bind
    (Runs.axpyGen A E y x _ space hp (n + 1) _))) ⟨fun p hp => ?_, fun c h1 h2 => ?_⟩
  · simp [hp, alphaOf_one]
  · rw [(setVec_only _ _ _ _).2 c h1]
    cases c with
    | fut g => rw [setFut_fut, if_neg (fun e => h2 (by rw [e]))]
    | _ => rfl

theorem c21_xpay_value (A : Arith V) (E : Env P) (y : Vec) (a : V) (x : Vec) (hc : Compatible y x) (space : List P)
    (hp : IsPartition space (E.pieces y.part)) (n : Nat) (s : Cell P → V) :
    Ensures (xpayValue A E y a x) n s fun _ s' =>
      (∀ p ∈ space, s' (.elem y.data p) = A.fma a (s (.elem y.data p)) (s (.elem x.data p))) ∧
      ∀ c, (∀ p ∈ space, c ≠ .elem y.data p) → c ≠ .fut n → s' c = s c := by
  refine Runs.ensures ((Runs.scalarOf a n s).bind ((Runs.check hc.1 hc.2.1 hc.2.2 (n + 1) _).bind
    (Runs.xpayGen A E y x _ space hp (n + 1) _))) ⟨fun p hp => ?_, fun c h1 h2 => ?_⟩
  · simp [hp, alphaOf_one]
  · rw [(setVec_only _ _ _ _).2 c h1]
    cases c with
    | fut g => rw [setFut_fut, if_neg (fun e => h2 (by rw [e]))]
    | _ => rfl

omit [DecidableEq P] in
theorem require_false (e : Emit P V) : (require false : M P V Unit) e = none := rfl

omit [DecidableEq P] in
theorem check_aborts {y x : Vec} (h : ¬ Compatible y x) (e : Emit P V) :
    (checkCompatible y x : M P V Unit) e = none := by
  unfold checkCompatible
  by_cases h1 : y.space = x.space
  · by_cases h2 : y.colors = x.colors
    · by_cases h3 : y.part = x.part
      · exact absurd ⟨h1, h2, h3⟩ h
      · show (require _ e >>= fun r => require _ r.2 >>= fun r => require _ r.2) = none
        simp only [h1, h2, h3, decide_true, decide_false]; rfl
    · show (require _ e >>= fun r => require _ r.2 >>= fun r => require _ r.2) = none
      simp only [h1, h2, decide_true, decide_false]; rfl
  · show (require _ e >>= fun r => require _ r.2 >>= fun r => require _ r.2) = none
    simp only [h1, decide_false]; rfl

omit [DecidableEq P] in
/-- Operands with different index spaces or partitions are rejected before anything is launched, by every two-vector
operation. -/
theorem c21_incompatible_rejected (A : Arith V) (E : Env P) (y x : Vec) (h : ¬ Compatible y x) (a b c : Scalar) :
    Aborts (assign E y x : M P V Unit) ∧ Aborts (axpy A E y a x) ∧ Aborts (axpy2 A E y a b x) ∧
    Aborts (axpy3 A E y a b c x) ∧ Aborts (xpay A E y a x) ∧ Aborts (xpay2 A E y a b x) ∧ Aborts (dot A E y x) := by
  have key : ∀ {β : Type} (f : Unit → M P V β), Aborts (checkCompatible y x >>= f) := by
    intro β f e
    show ((checkCompatible y x e).bind fun r => f r.1 r.2) = none
    rw [check_aborts h e]; rfl
  exact ⟨key _, key _, key _, key _, key _, key _, key _⟩

/-- Non-vacuity: a two-piece partition of four points, not contiguous, and a compatible pair of vectors. -/
example : IsPartition [0, 1, 2, 3] [[0, 3], [2, 1]] := by
  constructor
  · decide
  · intro p
    simp
    omega
example : Compatible ⟨0, 7, 8, 9⟩ ⟨1, 7, 8, 9⟩ := ⟨rfl, rfl, rfl⟩

/-! ## C22 -/

/-- In any arithmetic: the point tasks' sums (each piece's products added in iteration order, from zero) are added up in
the order the runtime chooses. -/
theorem c22_value_any_arithmetic (A : Arith V) (E : Env P) (v w : Vec) (hc : Compatible v w)
    (ho : ∀ f l, (E.redOrder f l).Perm l) (n : Nat) (s : Cell P → V) :
    Ensures (dot A E v w) n s fun r s' => s' (.fut r.fut) =
      (E.redOrder n (List.range (E.pieces v.part).length)).foldl (fun acc k => A.add acc
        (((E.pieces v.part).getD k []).foldl
          (fun a p => A.add a (A.mul (s (.elem v.data p)) (s (.elem w.data p)))) A.zero)) A.zero := by
  refine (Runs.dot A E v w hc.1 hc.2.1 hc.2.2 n s (ho _ _)).ensures ?_
  rw [setDot_fut, if_pos rfl]
  rfl

variable [Field V]

/-- In exact arithmetic the delivered scalar is the sum of products over the whole index space; vectors and existing
scalars are unchanged. -/
theorem c22_dot (A : Arith V) (hA : A.Exact) (E : Env P) (v w : Vec) (hc : Compatible v w) (space : List P)
    (hs : space.Nodup) (hp : IsPartition space (E.pieces v.part)) (ho : ∀ f l, (E.redOrder f l).Perm l) (n : Nat)
    (s : Cell P → V) :
    Ensures (dot A E v w) n s fun r s' =>
      s' (.fut r.fut) = (space.map fun p => s (.elem v.data p) * s (.elem w.data p)).sum ∧
      (∀ d p, s' (.elem d p) = s (.elem d p)) ∧ ∀ f < n, s' (.fut f) = s (.fut f) := by
  refine (Runs.dot A E v w hc.1 hc.2.1 hc.2.2 n s (ho _ _)).ensures ⟨?_, fun _ _ => rfl, fun f hf => ?_⟩
  · rw [setDot_fut, if_pos rfl]
    exact dotValue_exact hA _ _ space hs _ hp _ (ho _ _)
  · rw [setDot_fut, if_neg (by omega)]

/-- Two partitions, two reduction orders, two schedules: same value. -/
theorem c22_partition_independent (A : Arith V) (hA : A.Exact) (E E' : Env P) (v w v' w' : Vec) (hc : Compatible v w)
    (hc' : Compatible v' w') (space : List P) (hs : space.Nodup) (hp : IsPartition space (E.pieces v.part))
    (hp' : IsPartition space (E'.pieces v'.part)) (ho : ∀ f l, (E.redOrder f l).Perm l)
    (ho' : ∀ f l, (E'.redOrder f l).Perm l) (n n' : Nat) (s s' : Cell P → V)
    (hv : ∀ p ∈ space, s (.elem v.data p) = s' (.elem v'.data p))
    (hw : ∀ p ∈ space, s (.elem w.data p) = s' (.elem w'.data p)) :
    ∃ value : V, Ensures (dot A E v w) n s (fun r t => t (.fut r.fut) = value) ∧
      Ensures (dot A E' v' w') n' s' (fun r t => t (.fut r.fut) = value) := by
  refine ⟨(space.map fun p => s (.elem v.data p) * s (.elem w.data p)).sum, ?_, ?_⟩
  · obtain ⟨a, n1, ts, h1, h2, h3⟩ := c22_dot A hA E v w hc space hs hp ho n s
    exact ⟨a, n1, ts, h1, h2, fun M' a b => (h3 M' a b).1⟩
  · obtain ⟨a, n1, ts, h1, h2, h3⟩ := c22_dot A hA E' v' w' hc' space hs hp' ho' n' s'
    refine ⟨a, n1, ts, h1, h2, fun M' a b => ?_⟩
    refine (h3 M' a b).1.trans ?_
    congr 1
    exact List.map_congr_left (fun p hp => by rw [hv p hp, hw p hp])

/-- Symmetry. -/
theorem c22_symmetric (A : Arith V) (hA : A.Exact) (E : Env P) (v w : Vec) (hc : Compatible v w) (space : List P)
    (hs : space.Nodup) (hp : IsPartition space (E.pieces v.part)) (ho : ∀ f l, (E.redOrder f l).Perm l) (n : Nat)
    (s : Cell P → V) :
    Ensures (do let a ← dot A E v w; let b ← dot A E w v; pure (a, b)) n s
      fun r s' => s' (.fut r.1.fut) = s' (.fut r.2.fut) := by
  have hp' : IsPartition space (E.pieces w.part) := hc.2.2 ▸ hp
  refine Runs.ensures ((Runs.dot A E v w hc.1 hc.2.1 hc.2.2 n s (ho _ _)).bind
    ((Runs.dot A E w v hc.1.symm hc.2.1.symm hc.2.2.symm (n + 1) _ (ho _ _)).bind
      (f := fun b => pure ((⟨n⟩ : Scalar), b)) (Runs.pure _ _ _))) ?_
  simp only [setDot_fut, setDot_elem]
  rw [if_neg (by omega), if_pos trivial, if_pos trivial, dotValue_exact hA _ _ space hs _ hp _ (ho _ _),
    dotValue_exact hA _ _ space hs _ hp' _ (ho _ _)]
  congr 1
  exact List.map_congr_left (fun p _ => mul_comm _ _)

/-- Linearity in the first argument (with symmetry: bilinearity): after `y += a x`, `y · z` is old `y · z + a (x · z)`. -/
theorem c22_bilinear (A : Arith V) (hA : A.Exact) (E : Env P) (y x z : Vec) (hyx : Compatible y x)
    (hyz : Compatible y z) (hxz : Compatible x z) (hne : z.data ≠ y.data) (a : Scalar)
    (space : List P) (hs : space.Nodup) (hp : IsPartition space (E.pieces y.part))
    (ho : ∀ f l, (E.redOrder f l).Perm l) (n : Nat) (ha : a.fut < n) (s : Cell P → V) :
    Ensures (do
      let yz ← dot A E y z
      let xz ← dot A E x z
      axpy A E y a x
      let yz' ← dot A E y z
      pure (yz, xz, yz')) n s
      fun r s' => s' (.fut r.2.2.fut) = s' (.fut r.1.fut) + s' (.fut a.fut) * s' (.fut r.2.1.fut) := by
  have hpx : IsPartition space (E.pieces x.part) := hyx.2.2 ▸ hp
  refine Runs.ensures ((Runs.dot A E y z hyz.1 hyz.2.1 hyz.2.2 n s (ho _ _)).bind
    ((Runs.dot A E x z hxz.1 hxz.2.1 hxz.2.2 (n + 1) _ (ho _ _)).bind
    ((Runs.axpy A E y a x hyx.1 hyx.2.1 hyx.2.2 space hp (n + 2) _).bind
    ((Runs.dot A E y z hyz.1 hyz.2.1 hyz.2.2 (n + 2) _ (ho _ _)).bind
      (f := fun b => pure ((⟨n⟩ : Scalar), (⟨n + 1⟩ : Scalar), b)) (Runs.pure _ _ _))))) ?_
  simp only [setDot_fut, setDot_elem, setVec_fut, setVec_elem]
  rw [if_pos trivial, if_neg (by omega), if_neg (by omega), if_pos trivial, if_neg (by omega), if_neg (by omega),
    if_neg (by omega), if_neg (by omega), if_pos trivial, dotValue_exact hA _ _ space hs _ hp _ (ho _ _),
    dotValue_exact hA _ _ space hs _ hp _ (ho _ _), dotValue_exact hA _ _ space hs _ hpx _ (ho _ _)]
  simp only [hA.fma]
  have : ∀ l : List P, (∀ p ∈ l, p ∈ space) → (l.map fun p =>
      (if True ∧ p ∈ space then s (.fut a.fut) * s (.elem x.data p) + s (.elem y.data p) else s (.elem y.data p)) *
      (if z.data = y.data ∧ p ∈ space then s (.fut a.fut) * s (.elem x.data p) + s (.elem y.data p)
        else s (.elem z.data p))).sum =
      (l.map fun p => s (.elem y.data p) * s (.elem z.data p)).sum +
        s (.fut a.fut) * (l.map fun p => s (.elem x.data p) * s (.elem z.data p)).sum := by
    intro l
    induction l with
    | nil => simp
    | cons p l ih =>
      intro hl
      rw [List.map_cons, List.sum_cons, ih (fun q hq => hl q (List.mem_cons_of_mem _ hq)), List.map_cons, List.sum_cons,
        List.map_cons, List.sum_cons, if_pos ⟨trivial, hl p (List.mem_cons_self ..)⟩, if_neg (fun h => hne h.1)]
      ring
  exact this space (fun _ h => h)

/-! ## C23 -/

/-- In exact arithmetic the coefficient of `k ≤ 4` futures is the product of the first `⌈k/2⌉` divided by the product of
the others, which must not be zero (`1`, `f0`, `f0/f1`, `f0·f1/f2`, `f0·f1/(f2·f3)`). -/
theorem c23_coefficient (A : Arith V) (hA : A.Exact) (l : List V) (h : l.length ≤ 4)
    (h0 : ∀ f ∈ l.drop ((l.length + 1) / 2), f ≠ 0) :
    getAlpha A l = some ((l.take ((l.length + 1) / 2)).prod / (l.drop ((l.length + 1) / 2)).prod) := by
  match l, h, h0 with
  | [], _, _ => simp [getAlpha, hA.one]
  | [f0], _, _ => simp [getAlpha]
  | [f0, f1], _, h0 => simp [getAlpha, hA.div _ _ (h0 f1 (by simp))]
  | [f0, f1, f2], _, h0 => simp [getAlpha, hA.div _ _ (h0 f2 (by simp)), hA.mul]
  | [f0, f1, f2, f3], _, h0 =>
    simp [getAlpha, hA.mul, hA.div _ _ (mul_ne_zero (h0 f2 (by simp)) (h0 f3 (by simp)))]
  | _ :: _ :: _ :: _ :: _ :: _, h, _ => simp at h

end Verif.Vector

namespace Verif.Vector
open Verif.Runtime
variable {P V : Type} [DecidableEq P]

/-- In any arithmetic, which operations in which order. -/
theorem c23_operations (A : Arith V) (f0 f1 f2 f3 : V) :
    getAlpha A [] = some A.one ∧ getAlpha A [f0] = some f0 ∧ getAlpha A [f0, f1] = some (A.div f0 f1) ∧
    getAlpha A [f0, f1, f2] = some (A.div (A.mul f0 f1) f2) ∧
    getAlpha A [f0, f1, f2, f3] = some (A.div (A.mul f0 f1) (A.mul f2 f3)) := ⟨rfl, rfl, rfl, rfl, rfl⟩

/-- Exactly the lists of more than four futures are rejected. -/
theorem c23_rejects (A : Arith V) (l : List V) : getAlpha A l = none ↔ 4 < l.length := by
  match l with
  | [] => simp [getAlpha]
  | [_] => simp [getAlpha]
  | [_, _] => simp [getAlpha]
  | [_, _, _] => simp [getAlpha]
  | [_, _, _, _] => simp [getAlpha]
  | _ :: _ :: _ :: _ :: _ :: _ => simp [getAlpha]

/-! ## C24 -/

/-- A scalar program: if ordinary sequential evaluation is defined, then under every schedule each variable ends with the
value ordinary evaluation gives it.  (Variables are given by their futures; initially `σ` holds the values `ρ`.) -/
theorem c24_scalar_programs (A : Arith V) (cs : List (Stmt V)) : ∀ (σ : Nat → Option Scalar) (ρ ρ' : Nat → Option V)
    (n : Nat) (s : Cell P → V), Agree σ ρ n s → runProg A ρ cs = some ρ' →
    Ensures (emitProg A σ cs) n s fun σ' s' => ∀ i, (σ' i).map (fun f => s' (.fut f.fut)) = ρ' i := by
  have key : ∀ (cs : List (Stmt V)) (σ : Nat → Option Scalar) (ρ ρ' : Nat → Option V) (n : Nat) (s : Cell P → V),
      Agree σ ρ n s → runProg A ρ cs = some ρ' → ∃ σ' n' s', Runs (emitProg A σ cs) n s σ' n' s' ∧ Agree σ' ρ' n' s' := by
    intro cs
    induction cs with
    | nil =>
      intro σ ρ ρ' n s h hr
      injection hr with hr
      subst hr
      exact ⟨σ, n, s, Runs.pure _ _ _, h⟩
    | cons c cs ih =>
      intro σ ρ ρ' n s h hr
      have hr : ((c.run A ρ).bind fun ρ1 => runProg A ρ1 cs) = some ρ' := hr
      cases hc : c.run A ρ with
      | none => rw [hc] at hr; cases hr
      | some ρ1 =>
        rw [hc] at hr
        obtain ⟨σ1, n1, s1, h1, -, -, h4⟩ := emitStmt_correct A σ ρ ρ1 c n s h hc
        obtain ⟨σ2, n2, s2, k1, k2⟩ := ih σ1 ρ1 ρ' n1 s1 h4 hr
        exact ⟨σ2, n2, s2, h1.bind k1, k2⟩
  intro σ ρ ρ' n s h hr
  obtain ⟨σ', n', s', h1, h2⟩ := key cs σ ρ ρ' n s h hr
  refine h1.ensures (fun i => ?_)
  cases hi : ρ' i with
  | none => rw [(h2 i).1 hi]; rfl
  | some a =>
    obtain ⟨f, e1, -, e3⟩ := (h2 i).2 a hi
    rw [e1, ← e3]; rfl

/-- Starting without variables, every initialised program: the hypothesis of `c24_scalar_programs` holds. -/
theorem c24_start (n : Nat) (s : Cell P → V) : Agree (fun _ => none) (fun _ => none) n s :=
  fun i => ⟨fun _ => rfl, fun a h => by cases h⟩

/-- A program that uses a scalar that was never set or was moved from does not silently compute something: it is
rejected. -/
theorem c24_unset_use_rejected (A : Arith V) (cs : List (Stmt V)) : ∀ (σ : Nat → Option Scalar) (ρ : Nat → Option V),
    (∀ i, σ i = none ↔ ρ i = none) → runProg A ρ cs = none → ∀ e : Emit P V, emitProg A σ cs e = none := by
  have hset : ∀ {σ : Nat → Option Scalar} {ρ : Nat → Option V} (i : Nat) (f : Scalar) (a : V),
      (∀ i, σ i = none ↔ ρ i = none) → ∀ j, setVar σ i (some f) j = none ↔ setVar ρ i (some a) j = none := by
    intro σ ρ i f a h j
    unfold setVar
    split
    · exact ⟨(fun h => by cases h), (fun h => by cases h)⟩
    · exact h j
  induction cs with
  | nil => intro σ ρ _ h; cases h
  | cons c cs ih =>
    intro σ ρ hd hr e
    have hr : ((c.run A ρ).bind fun ρ1 => runProg A ρ1 cs) = none := hr
    show ((emitStmt A σ c e).bind fun r => emitProg A r.1 cs r.2) = none
    cases c with
    | assign i ex =>
      have hab := emitExpr_aborts (P := P) A σ ρ hd ex
      show (((emitExpr A σ ex e).bind fun r => some (setVar σ i (some r.1), r.2)).bind fun r => emitProg A r.1 cs r.2) = none
      cases hx : emitExpr A σ ex e with
      | none => rfl
      | some r =>
        have hr : (((ex.eval A ρ).map fun a => setVar ρ i (some a)).bind fun ρ1 => runProg A ρ1 cs) = none := hr
        cases he : ex.eval A ρ with
        | none => rw [hab.1 he e] at hx; cases hx
        | some a =>
          rw [he] at hr
          exact ih _ _ (hset i r.1 a hd) hr r.2
    | move i j =>
      show ((((σ j).map fun f => (f, e)).bind fun r => some (setVar (setVar σ j none) i (some r.1), r.2)).bind
        fun r => emitProg A r.1 cs r.2) = none
      cases hx : σ j with
      | none => rfl
      | some f =>
        have hr : (((ρ j).map fun a => setVar (setVar ρ j none) i (some a)).bind fun ρ1 => runProg A ρ1 cs) = none := hr
        cases he : ρ j with
        | none => rw [(hd j).2 he] at hx; cases hx
        | some a =>
          rw [he] at hr
          refine ih _ _ (hset i f a ?_) hr e
          intro k
          unfold setVar
          split
          · exact ⟨fun _ => rfl, fun _ => rfl⟩
          · exact hd k

/-- Assignment changes no other variable: in the reference semantics of the theorems above. -/
theorem c24_assignment_local (A : Arith V) (ρ ρ' : Nat → Option V) (i : Nat) (e : Expr V)
    (h : (Stmt.assign i e).run A ρ = some ρ') (j : Nat) (hj : j ≠ i) : ρ' j = ρ j := by
  have h : (e.eval A ρ).map (fun a => setVar ρ i (some a)) = some ρ' := h
  cases he : e.eval A ρ with
  | none => rw [he] at h; cases h
  | some a =>
    rw [he] at h
    injection h with h
    subst h
    exact if_neg hj

/-- Non-vacuity: `x = 2; y = 10; z = x + y; x = z / (x + x); y = move(z)` over the rationals. -/
example : ∃ ρ', runProg (exactArith ℚ id) (fun _ => none) [.assign 0 (.lit 2), .assign 1 (.lit 10),
    .assign 2 (.add (.var 0) (.var 1)), .assign 0 (.div (.var 2) (.add (.var 0) (.var 0))), .move 1 2] = some ρ' ∧
    ρ' 0 = some 3 ∧ ρ' 1 = some 12 ∧ ρ' 2 = none := by
  refine ⟨_, rfl, ?_, ?_, ?_⟩ <;> simp [setVar, exactArith] <;> norm_num

/-! ## C42: whole programs -/

/-- The initial situation of a client program: its vector handles, all with disjoint complete partitions; two handles on
the same data are equal; memory agrees with the reference state. -/
structure Initial (E : Env P) (spaceOf : Nat → List P) (H : Handles) (n : Nat) (s : Cell P → V) (R : Ref P V) : Prop where
  scalars : ∀ i, R.scalars i = none ∧ H.scalars i = none ∨
    ∃ f a, R.scalars i = some a ∧ H.scalars i = some f ∧ f.fut < n ∧ s (.fut f.fut) = a
  vecs : H.vecs = R.vecs
  part : ∀ i v, H.vecs i = some v → IsPartition (spaceOf v.space) (E.pieces v.part)
  data : ∀ i j v w, H.vecs i = some v → H.vecs j = some w → v.data = w.data → v = w
  heap : ∀ i v, H.vecs i = some v → ∀ p ∈ spaceOf v.space, s (.elem v.data p) = R.heap v.data p

/-- What the program's variables and vectors show at the end. -/
def Shows (spaceOf : Nat → List P) (H : Handles) (s : Cell P → V) (R : Ref P V) : Prop :=
  (∀ i, (H.scalars i).map (fun f => s (.fut f.fut)) = R.scalars i) ∧ H.vecs = R.vecs ∧
  ∀ i v, H.vecs i = some v → ∀ p ∈ spaceOf v.space, s (.elem v.data p) = R.heap v.data p

theorem Initial.sim {E : Env P} {spaceOf : Nat → List P} {H : Handles} {n : Nat} {s : Cell P → V} {R : Ref P V}
    (h : Initial E spaceOf H n s R) : Sim spaceOf (fun v => ∃ i, H.vecs i = some v) H n s R := by
  refine ⟨fun i => ?_, h.vecs, fun i v hv => ⟨i, h.vecs ▸ hv⟩, fun v ⟨i, hi⟩ => h.heap i v hi⟩
  rcases h.scalars i with ⟨h1, h2⟩ | ⟨f, a, h1, h2, h3, h4⟩
  · exact ⟨fun _ => h2, fun a ha => by rw [h1] at ha; cases ha⟩
  · refine ⟨(fun e => by rw [h1] at e; cases e), fun b hb => ⟨f, h2, h3, ?_⟩⟩
    rw [h1] at hb
    injection hb with hb
    rw [h4, hb]

theorem Initial.known {E : Env P} {A : Arith V} {dotRef : Vec → (P → V) → (P → V) → V} {spaceOf : Nat → List P}
    {H : Handles} {n : Nat} {s : Cell P → V} {R : Ref P V}
    (h : Initial E spaceOf H n s R) : Known E A spaceOf dotRef (fun v => ∃ i, H.vecs i = some v) :=
  ⟨fun v ⟨i, hi⟩ => h.part i v hi, fun v w ⟨i, hi⟩ ⟨j, hj⟩ => h.data i j v w hi hj⟩

theorem Sim.shows {spaceOf : Nat → List P} {K : Vec → Prop} {H : Handles} {n : Nat} {s : Cell P → V} {R : Ref P V}
    (h : Sim spaceOf K H n s R) : Shows spaceOf H s R := by
  refine ⟨fun i => ?_, h.vecs, fun i v hv => h.heap v (h.known i v (h.vecs ▸ hv))⟩
  cases hi : R.scalars i with
  | none => rw [(h.scalars i).1 hi]; rfl
  | some a =>
    obtain ⟨f, e1, -, e3⟩ := (h.scalars i).2 a hi
    rw [e1, ← e3]; rfl

/-- Any program of scalar and vector calls without inner products, in any arithmetic: every schedule of everything the
program launched ends with exactly what the ordinary sequential program on whole vectors computes. -/
theorem c42_program_any_arithmetic (A : Arith V) (E : Env P) (spaceOf : Nat → List P) (cs : List (Call V))
    (hnd : ∀ k i j, Call.dot k i j ∉ cs) (H : Handles) (n : Nat) (s : Cell P → V) (R R' : Ref P V)
    (h0 : Initial E spaceOf H n s R) (hr : runCalls A (fun _ _ _ => A.zero) R cs = some R') :
    Ensures (emitCalls A E H cs) n s fun H' s' => Shows spaceOf H' s' R' := by
  obtain ⟨H', n', s', h1, h2⟩ := emitCalls_correct h0.known cs
    (fun ⟨k, i, j, hm⟩ => absurd hm (hnd k i j)) H n s R R' h0.sim hr
  exact h1.ensures h2.shows

/-- Any program of scalar and vector calls including inner products, in any arithmetic: every schedule of everything the
program launched ends with what the calls compute one after the other on whole vectors, each inner product being the sum of
the sums over the pieces, in some order. (That the program runs through, `hr`, does not depend on the values of the inner
products.) -/
theorem c42_program_inner_products (A : Arith V) (E : Env P) (spaceOf : Nat → List P)
    (ho : ∀ f l, (E.redOrder f l).Perm l) (cs : List (Call V)) (H : Handles) (n : Nat) (s : Cell P → V) (R S : Ref P V)
    (h0 : Initial E spaceOf H n s R) (hr : runCalls A (fun _ _ _ => A.zero) R cs = some S) :
    Ensures (emitCalls A E H cs) n s fun H' s' => ∃ R', Computes A E R cs R' ∧ Shows spaceOf H' s' R' := by
  obtain ⟨R', h3, H', n', s', h1, h2⟩ := emitCalls_computes h0.known ho cs H n s R R S h0.sim Alike.rfl hr
  exact h1.ensures ⟨R', h3, h2.shows⟩

/-- Any program of scalar and vector calls including inner products, in exact arithmetic. -/
theorem c42_program_exact [Field V] (A : Arith V) (hA : A.Exact) (E : Env P) (spaceOf : Nat → List P)
    (hs : ∀ k, (spaceOf k).Nodup) (ho : ∀ f l, (E.redOrder f l).Perm l) (cs : List (Call V)) (H : Handles) (n : Nat)
    (s : Cell P → V) (R R' : Ref P V) (h0 : Initial E spaceOf H n s R)
    (hr : runCalls A (fun v x y => ((spaceOf v.space).map fun p => x p * y p).sum) R cs = some R') :
    Ensures (emitCalls A E H cs) n s fun H' s' => Shows spaceOf H' s' R' := by
  obtain ⟨H', n', s', h1, h2⟩ := emitCalls_correct h0.known cs
    (fun _ _ => ⟨ho, fun v ⟨i, hi⟩ x y => dotValue_exact hA x y _ (hs _) _ (h0.part i v hi) _ (ho _ _)⟩) H n s R R' h0.sim hr
  exact h1.ensures h2.shows

/-! Non-vacuity: two vectors over four points in two pieces, and the program
`x = 2; v0 = 3; v1 = v0; v1.axpy(x, v0); d = v0.dot(v1)`. -/
section example_
private def exE : Env Nat := ⟨fun _ => [[0, 2], [3, 1]], fun _ l => l.reverse⟩
private def exH : Handles := ⟨fun _ => none, fun i => if i < 2 then some ⟨i, 0, 0, 0⟩ else none⟩
private def exR : Ref Nat ℚ := ⟨fun _ => none, exH.vecs, fun _ _ => 5⟩

example : Initial exE (fun _ => [0, 1, 2, 3]) exH 0 (fun _ => (5 : ℚ)) exR := by
  refine ⟨fun i => Or.inl ⟨rfl, rfl⟩, rfl, ?_, ?_, fun _ _ _ _ _ => rfl⟩
  · intro i v _
    constructor
    · show [0, 2, 3, 1].Nodup; decide
    · intro p
      show p ∈ [0, 2, 3, 1] ↔ p ∈ [0, 1, 2, 3]
      simp; omega
  · intro i j v w hi hj he
    simp only [exH] at hi hj
    split at hi
    · split at hj
      · injection hi with hi; injection hj with hj
        subst hi; subst hj
        simp at he
        rw [he]
      · cases hj
    · cases hi

example : ∃ R', runCalls (exactArith ℚ id) (fun _ x y => (([0, 1, 2, 3] : List Nat).map fun p => x p * y p).sum) exR
    [.scalar (.assign 0 (.lit 2)), .fillValue 0 3, .assign 1 0, .axpy 1 0 0, .dot 1 0 1] = some R' ∧
    R'.scalars 1 = some 108 ∧ R'.heap 1 2 = 9 := by
  refine ⟨_, rfl, ?_, ?_⟩
  · show some _ = _
    simp [Ref.set, exactArith]
    norm_num
  · simp [Ref.set, exactArith]
    norm_num
end example_

/-! ## C45 -/

theorem Call.run_heap (A : Arith V) (dotRef : Vec → (P → V) → (P → V) → V) (R R' : Ref P V) (c : Call V)
    (h : c.run A dotRef R = some R') (d : Nat)
    (hd : ∀ i v, c.dest = some i → R.vecs i = some v → v.data ≠ d) : R'.heap d = R.heap d := by
  have set0 : ∀ (y : Vec) (g : P → V), y.data ≠ d → (R.set y g).heap d = R.heap d := by
    intro y g hne
    show (if d = y.data then g else R.heap d) = _
    rw [if_neg (fun e => hne e.symm)]
  have one : ∀ {β : Type} (i : Nat) (o : Option β) (g : Vec → β → P → V), c.dest = some i →
      ((R.vecs i).bind fun y => o.bind fun b => some (R.set y (g y b))) = some R' → R'.heap d = R.heap d := by
    intro β i o g hi h
    cases hv : R.vecs i with
    | none => rw [hv] at h; cases h
    | some y =>
      rw [hv] at h
      cases o with
      | none => cases h
      | some b => injection h with h; rw [← h]; exact set0 y _ (hd i y hi hv)
  have one' : ∀ (i : Nat) (g : Vec → P → V), c.dest = some i →
      ((R.vecs i).map fun y => R.set y (g y)) = some R' → R'.heap d = R.heap d := by
    intro i g hi h
    cases hv : R.vecs i with
    | none => rw [hv] at h; cases h
    | some y => rw [hv] at h; injection h with h; rw [← h]; exact set0 y _ (hd i y hi hv)
  have two : ∀ {β : Type} (i j : Nat) (o : Option β) (g : Vec → Vec → β → P → V), c.dest = some i →
      ((R.two i j).bind fun yx => o.bind fun b => some (R.set yx.1 (g yx.1 yx.2 b))) = some R' → R'.heap d = R.heap d := by
    intro β i j o g hi h
    cases hv : R.two i j with
    | none => rw [hv] at h; cases h
    | some yx =>
      rw [hv] at h
      cases o with
      | none => cases h
      | some b =>
        injection h with h
        rw [← h]
        exact set0 yx.1 _ (hd i yx.1 hi (Ref.two_some (y := yx.1) (x := yx.2) hv).1)
  cases c with
  | scalar c =>
    have h : (c.run A R.scalars).map (fun σ => ({ R with scalars := σ } : Ref P V)) = some R' := h
    cases hc : c.run A R.scalars with
    | none => rw [hc] at h; cases h
    | some σ => rw [hc] at h; injection h with h; rw [← h]
  | copyConstruct i j =>
    have h : (R.vecs j).map (fun v => ({ R with vecs := setVar R.vecs i (some v) } : Ref P V)) = some R' := h
    cases hc : R.vecs j with
    | none => rw [hc] at h; cases h
    | some σ => rw [hc] at h; injection h with h; rw [← h]
  | assign i j =>
    refine two i j (some ()) (fun _ x _ => R.heap x.data) rfl ?_
    rw [← h]
    show _ = (R.two i j).map _
    cases R.two i j <;> rfl
  | fillValue i a => exact one' i _ rfl h
  | zeroFill i => exact one' i _ rfl h
  | fillScalar i a => exact one i (R.scalars a) (fun _ α _ => α) rfl h
  | scal i a => exact one i (R.scalars a) (fun y α p => A.mul α (R.heap y.data p)) rfl h
  | axpy i a j => exact two i j (R.scalars a) (fun y x α p => A.fma α (R.heap x.data p) (R.heap y.data p)) rfl h
  | axpy2 i a b j =>
    refine two i j ((R.scalars a).bind fun α => (R.scalars b).map fun β => (α, β))
      (fun y x t p => A.fma (A.div t.1 t.2) (R.heap x.data p) (R.heap y.data p)) rfl ?_
    rw [← h]
    show _ = (R.two i j).bind _
    cases R.two i j <;> cases R.scalars a <;> cases R.scalars b <;> rfl
  | axpy3 i a b e j =>
    refine two i j ((R.scalars a).bind fun α => (R.scalars b).bind fun β => (R.scalars e).map fun γ => (α, β, γ))
      (fun y x t p => A.fma (A.div (A.mul t.1 t.2.1) t.2.2) (R.heap x.data p) (R.heap y.data p)) rfl ?_
    rw [← h]
    show _ = (R.two i j).bind _
    cases R.two i j <;> cases R.scalars a <;> cases R.scalars b <;> cases R.scalars e <;> rfl
  | axpyValue i a j =>
    exact two i j (some ()) (fun y x _ p => A.fma a (R.heap x.data p) (R.heap y.data p)) rfl h
  | xpay i a j => exact two i j (R.scalars a) (fun y x α p => A.fma α (R.heap y.data p) (R.heap x.data p)) rfl h
  | xpay2 i a b j =>
    refine two i j ((R.scalars a).bind fun α => (R.scalars b).map fun β => (α, β))
      (fun y x t p => A.fma (A.div t.1 t.2) (R.heap y.data p) (R.heap x.data p)) rfl ?_
    rw [← h]
    show _ = (R.two i j).bind _
    cases R.two i j <;> cases R.scalars a <;> cases R.scalars b <;> rfl
  | xpayValue i a j =>
    exact two i j (some ()) (fun y x _ p => A.fma a (R.heap y.data p) (R.heap x.data p)) rfl h
  | dot k i j =>
    have h : ((R.vecs i).bind fun v => (R.vecs j).bind fun w =>
      if v.space = w.space ∧ v.colors = w.colors ∧ v.part = w.part then
        some ({ R with scalars := setVar R.scalars k (some (dotRef v (R.heap v.data) (R.heap w.data))) } : Ref P V)
      else none) = some R' := h
    cases hi : R.vecs i with
    | none => rw [hi] at h; cases h
    | some v =>
      cases hj : R.vecs j with
      | none => rw [hi, hj] at h; cases h
      | some w =>
        rw [hi, hj] at h
        simp only [Option.bind_some] at h
        split at h
        · injection h with h; rw [← h]
        · cases h

theorem Call.run_vecs (A : Arith V) (dotRef : Vec → (P → V) → (P → V) → V) (R R' : Ref P V) (c : Call V)
    (h : c.run A dotRef R = some R') (i : Nat) (hi : c.binds ≠ some i) : R'.vecs i = R.vecs i := by
  cases c
  case copyConstruct k j =>
    have h : (R.vecs j).map (fun v => ({ R with vecs := setVar R.vecs k (some v) } : Ref P V)) = some R' := h
    cases hc : R.vecs j with
    | none => rw [hc] at h; cases h
    | some v =>
      rw [hc] at h
      injection h with h
      rw [← h]
      exact if_neg (fun e => hi (by rw [e]; rfl))
  all_goals
    simp only [Call.run, Option.map_eq_some_iff, Option.bind_eq_bind, Option.bind_eq_some_iff, Option.some.injEq] at h
    try (split at h)
    all_goals
      first
      | (obtain ⟨_, _, rfl⟩ := h; rfl)
      | (obtain ⟨_, _, _, _, rfl⟩ := h; rfl)
      | (obtain ⟨_, _, _, _, _, _, rfl⟩ := h; rfl)
      | (obtain ⟨_, _, _, _, _, _, _, _, rfl⟩ := h; rfl)
      | (obtain ⟨_, _, _, _, h⟩ := h; split at h <;> first | (injection h with h; subst h; rfl) | cases h)

theorem computes_heap (A : Arith V) (E : Env P) (dotRef : Vec → (P → V) → (P → V) → V) (d : Nat) {cs : List (Call V)}
    {R R' : Ref P V} (h : Computes A E R cs R') :
    ∀ {S : Ref P V}, Alike R S → Untouched A dotRef d S cs → R'.heap d = R.heap d := by
  induction h with
  | nil R => intro _ _ _; rfl
  | @cons R R₁ R' c cs inner _ hc _ ih =>
    intro S ha hu
    obtain ⟨S1, h1, h2⟩ := Call.run_alike A inner dotRef ha c hc
    rw [ih h2 (hu.2 S1 h1)]
    refine Call.run_heap A inner R R₁ c hc d (fun i v hi hv => hu.1 i v hi ?_)
    rw [← ha.1]; exact hv

theorem computes_vecs (A : Arith V) (E : Env P) (i : Nat) {cs : List (Call V)} {R R' : Ref P V} (h : Computes A E R cs R') :
    (∀ c ∈ cs, c.binds ≠ some i) → R'.vecs i = R.vecs i := by
  induction h with
  | nil R => intro _; rfl
  | @cons R R₁ R' c cs inner _ hc _ ih =>
    intro hb
    rw [ih (fun c hc => hb c (List.mem_cons_of_mem _ hc)), Call.run_vecs A inner R R₁ c hc i (hb c (List.mem_cons_self ..))]

/-- A vector no later call overwrites keeps its contents, in every schedule and every arithmetic: whatever is done to
vectors assigned from it. (`hr`: the program runs through, which does not depend on the values of inner products; they are
left open by putting zero for them.) -/
theorem c45_frame (A : Arith V) (E : Env P) (spaceOf : Nat → List P) (ho : ∀ f l, (E.redOrder f l).Perm l)
    (cs : List (Call V)) (H : Handles) (n : Nat) (s : Cell P → V) (R S : Ref P V) (h0 : Initial E spaceOf H n s R)
    (hr : runCalls A (fun _ _ _ => A.zero) R cs = some S) (i : Nat) (v : Vec) (hv : H.vecs i = some v)
    (hu : Untouched A (fun _ _ _ => A.zero) v.data R cs) :
    Ensures (emitCalls A E H cs) n s fun _ s' => ∀ p ∈ spaceOf v.space, s' (.elem v.data p) = s (.elem v.data p) := by
  obtain ⟨R', h3, H', n', s', h1, h2⟩ := emitCalls_computes h0.known ho cs H n s R R S h0.sim Alike.rfl hr
  refine h1.ensures (fun p hp => ?_)
  rw [h2.heap v ⟨i, hv⟩ p hp, h0.heap i v hv p hp, computes_heap A E _ v.data h3 Alike.rfl hu]

/-- `v_i = v_j` followed by any program that does not overwrite `v_i`'s object (it may overwrite `v_j`'s): at the end `v_i`
has the elements `v_j` had at the time of the assignment. -/
theorem c45_assign_copies (A : Arith V) (E : Env P) (spaceOf : Nat → List P) (ho : ∀ f l, (E.redOrder f l).Perm l)
    (i j : Nat) (cs : List (Call V)) (H : Handles) (n : Nat) (s : Cell P → V) (R R₁ S : Ref P V)
    (h0 : Initial E spaceOf H n s R) (h1 : (Call.assign i j).run A (fun _ _ _ => A.zero) R = some R₁)
    (hr : runCalls A (fun _ _ _ => A.zero) R₁ cs = some S) (y x : Vec) (hy : H.vecs i = some y) (hx : H.vecs j = some x)
    (hu : Untouched A (fun _ _ _ => A.zero) y.data R₁ cs) :
    Ensures (emitCalls A E H (.assign i j :: cs)) n s
      fun _ s' => ∀ p ∈ spaceOf y.space, s' (.elem y.data p) = s (.elem x.data p) := by
  have hr' : runCalls A (fun _ _ _ => A.zero) R (.assign i j :: cs) = some S := by
    show (Call.run A _ R _).bind _ = _
    rw [h1]; exact hr
  obtain ⟨R', h3, H', n', s', k1, k2⟩ := emitCalls_computes h0.known ho _ H n s R R S h0.sim Alike.rfl hr'
  refine k1.ensures (fun p hp => ?_)
  have h1 : (R.two i j).map (fun (y, x) => R.set y (R.heap x.data)) = some R₁ := h1
  cases h3 with
  | @cons _ R₂ _ _ _ _ _ h4 h5 =>
    have h4 : (R.two i j).map (fun (y, x) => R.set y (R.heap x.data)) = some R₂ := h4
    rw [h1] at h4
    injection h4 with h4
    subst h4
    rw [k2.heap y ⟨i, hy⟩ p hp, computes_heap A E _ y.data h5 Alike.rfl hu]
    cases h2 : R.two i j with
    | none => rw [h2] at h1; cases h1
    | some yx =>
      rw [h2] at h1
      injection h1 with h1
      obtain ⟨y', x'⟩ := yx
      obtain ⟨e1, e2, e3, -⟩ := Ref.two_some h2
      rw [← h0.vecs, hy] at e1
      rw [← h0.vecs, hx] at e2
      injection e1 with e1
      injection e2 with e2
      subst e1; subst e2
      rw [← h1]
      show (if y.data = y.data then R.heap x.data else _) p = _
      rw [if_pos rfl, h0.heap j x hx p (e3 ▸ hp)]

/-- A copy-constructed vector denotes the same object for as long as neither variable is rebound, whatever else the
program does: every change through one is seen through the other. -/
theorem c45_copy_shares (A : Arith V) (E : Env P) (spaceOf : Nat → List P) (ho : ∀ f l, (E.redOrder f l).Perm l)
    (i j : Nat) (cs : List (Call V)) (H : Handles) (n : Nat) (s : Cell P → V) (R S : Ref P V)
    (h0 : Initial E spaceOf H n s R) (hr : runCalls A (fun _ _ _ => A.zero) R (.copyConstruct i j :: cs) = some S)
    (hb : ∀ c ∈ cs, c.binds ≠ some i ∧ c.binds ≠ some j) :
    Ensures (emitCalls A E H (.copyConstruct i j :: cs)) n s fun H' s' => ∃ v w, H'.vecs i = some v ∧ H'.vecs j = some w ∧
      ∀ p, s' (.elem v.data p) = s' (.elem w.data p) := by
  obtain ⟨R', h3, H', n', s', k1, k2⟩ := emitCalls_computes h0.known ho _ H n s R R S h0.sim Alike.rfl hr
  refine k1.ensures ?_
  cases h3 with
  | @cons _ R₂ _ _ _ _ _ h4 h5 =>
    have h4 : (R.vecs j).map (fun v => ({ R with vecs := setVar R.vecs i (some v) } : Ref P V)) = some R₂ := h4
    obtain ⟨v, hj, rfl⟩ := Option.map_eq_some_iff.1 h4
    refine ⟨v, v, ?_, ?_, fun _ => rfl⟩
    · rw [k2.vecs, computes_vecs A E i h5 fun c hc => (hb c hc).1]
      show (if i = i then some v else _) = _
      rw [if_pos rfl]
    · rw [k2.vecs, computes_vecs A E j h5 fun c hc => (hb c hc).2]
      show (if j = i then some v else R.vecs j) = _
      split
      · rfl
      · exact hj

/-! Non-vacuity, in the machine integers modulo 8 (where sums are exact but division is not): two vectors over four points
in two pieces, and `v1 = v0; d = v0.dot(v1); v0.axpy(d, v1)`: at the end `v1` still has what `v0` had. -/
section example_
private def modArith : Arith (Fin 8) := ⟨0, 1, fun a => -a, (· + ·), (· - ·), (· * ·), (· / ·), id, fun a b c => a * b + c⟩
private def modR : Ref Nat (Fin 8) := ⟨fun _ => none, exH.vecs, fun d p => if d = 0 then Fin.ofNat 8 p else 5⟩

example : Ensures (emitCalls modArith exE exH [.assign 1 0, .dot 0 0 1, .axpy 0 0 1]) 0
    (fun c => match c with | .elem 0 p => Fin.ofNat 8 p | _ => 5)
    (fun _ s' => ∀ p ∈ [0, 1, 2, 3], s' (.elem 1 p) = Fin.ofNat 8 p) := by
  have h0 : Initial exE (fun _ => [0, 1, 2, 3]) exH 0 (fun c : Cell Nat => match c with | .elem 0 p => Fin.ofNat 8 p | _ => 5) modR := by
    refine ⟨fun i => Or.inl ⟨rfl, rfl⟩, rfl, ?_, ?_, ?_⟩
    · intro i v _
      constructor
      · show [0, 2, 3, 1].Nodup; decide
      · intro p
        show p ∈ [0, 2, 3, 1] ↔ p ∈ [0, 1, 2, 3]
        simp; omega
    · intro i j v w hi hj he
      simp only [exH] at hi hj
      split at hi
      · split at hj
        · injection hi with hi; injection hj with hj
          subst hi; subst hj
          simp at he
          rw [he]
        · cases hj
      · cases hi
    · intro i v hi p _
      simp only [exH] at hi
      split at hi
      · injection hi with hi; subst hi
        cases i <;> rfl
      · cases hi
  refine c45_assign_copies modArith exE _ (fun _ l => List.reverse_perm l) 1 0 [.dot 0 0 1, .axpy 0 0 1] exH 0 _ modR _ _ h0
    rfl rfl ⟨1, 0, 0, 0⟩ ⟨0, 0, 0, 0⟩ rfl rfl ?_
  refine ⟨fun i v h => (by cases h), fun R' hR => ⟨fun i v h hv => ?_, fun _ _ => trivial⟩⟩
  injection h with h
  subst h
  injection hR with hR
  rw [← hR] at hv
  injection hv with hv
  rw [← hv]
  decide
end example_

end Verif.Vector
