import Verif.Special.Props
import Verif.Solver.CGMath
import Verif.Solver.BiMath
import Verif.Solver.ArnoldiMath
import Verif.Solver.GMRESRefine

/-! # C72: exact arithmetic in which a division by zero has no result

`partialArith`: the values are the elements of a field, and one more, `none`, the result of a division by zero and of every operation on
it.  The theorems say exactly when the solution is defined after `k` steps. -/
set_option linter.dupNamespace false
set_option linter.unusedSectionVars false
namespace Verif.Special
open Verif.Runtime Verif.Vector Verif.Matrix Verif.Planner Verif.Solver Verif.Textbook
open _root_.Matrix (mulVec mulVec_zero)
open scoped _root_.Matrix

/-! ## The specification -/
section
variable {V : Type} [Field V] [DecidableEq V]

/-- Exact arithmetic in which a division by zero has no result. -/
def partialArith (root : V → V) : Arith (Option V) where
  zero := some 0
  one := some 1
  neg a := a.map fun x => -x
  add a b := a.bind fun x => b.map fun y => x + y
  sub a b := a.bind fun x => b.map fun y => x - y
  mul a b := a.bind fun x => b.map fun y => x * y
  div a b := a.bind fun x => b.bind fun y => if y = 0 then none else some (x / y)
  sqrt a := a.map root
  fma a b c := a.bind fun x => b.bind fun y => c.map fun z => x * y + z

variable {K P : Type} [DecidableEq P] [DecidableEq K]

/-- The matrix of the client's system: the sum of the coefficients stored for a row and a column. -/
def exactMatrix (G : Geometry P) (calls : List (Setup K P (Option V))) :
    _root_.Matrix (clientUnknowns G calls) (clientUnknowns G calls) V :=
  fun u u' => ((clientStored calls u.1).map fun t => if t.1 = u'.1 then t.2.getD 0 else 0).sum

/-- The vector that is stored in the list `vs` of vectors, one per block. -/
def exactVector (G : Geometry P) (calls : List (Setup K P (Option V))) (vs : List Vec) (s : Cell P → Option V) :
    clientUnknowns G calls → V :=
  fun u => (valueAt (partialArith id) vs s u.1).getD 0

/-- The client's data are defined. -/
structure Defined (G : Geometry P) (calls : List (Setup K P (Option V))) (s : Cell P → Option V) : Prop where
  coefs : AllCoefs G calls fun a => a.isSome
  rhs : Everywhere G (rhss calls) s fun a => a.isSome
  sol : Everywhere G (sols calls) s fun a => a.isSome

/-- The solution in memory is `y`. -/
def SolutionIs (G : Geometry P) (calls : List (Setup K P (Option V))) (s : Cell P → Option V) (y : clientUnknowns G calls → V) : Prop :=
  ∀ u : clientUnknowns G calls, valueAt (partialArith id) (sols calls) s u.1 = some (y u)

/-- No element of the solution is defined. -/
def SolutionUndefined (G : Geometry P) (calls : List (Setup K P (Option V))) (s : Cell P → Option V) : Prop :=
  Everywhere G (sols calls) s fun a => a = none

end

/-- After `k` steps of conjugate gradients the iterate is defined: no curvature of the first `k` steps is zero, and no squared norm except
perhaps the last of them. -/
def CGDefined {ι V : Type} [Fintype ι] [Field V] (N : _root_.Matrix ι ι V) (x0 b : ι → V) (k : Nat) : Prop :=
  (∀ i, i < k → (Textbook.cg N x0 b i).p ⬝ᵥ N *ᵥ (Textbook.cg N x0 b i).p ≠ 0) ∧
    ∀ i, i + 1 < k → (Textbook.cg N x0 b i).r ⬝ᵥ (Textbook.cg N x0 b i).r ≠ 0

/-! ## The arithmetic -/
section
variable {V : Type} [Field V] [DecidableEq V] {root : V → V}

theorem partial_ieee (hr : root 0 = 0) : IEEE (partialArith root) (fun a => a.isSome = true) (fun a => a = some 0) (fun a => a = none) := by
  constructor
  · rintro a rfl; rfl
  · rintro a rfl; simp
  · rfl
  · rfl
  · intro a h; obtain ⟨x, rfl⟩ := Option.isSome_iff_exists.1 h; rfl
  · rintro a rfl; rfl
  · rintro a b rfl rfl; simp [partialArith]
  · rintro (_ | a) (_ | b) h <;> simp_all [partialArith]
  · rintro (_ | a) (_ | b) h <;> simp_all [partialArith]
  · rintro (_ | a) (_ | b) h <;> simp_all [partialArith]
  · rintro (_ | a) (_ | b) h <;> simp_all [partialArith]
  · rintro (_ | a) (_ | b) h <;> simp_all [partialArith]
  · rintro (_ | a) (_ | b) h <;> simp_all [partialArith]
  · rintro (_ | a) (_ | b) (_ | c) h hc <;> simp_all [partialArith]
  · rintro (_ | a) (_ | b) (_ | c) h <;> simp_all [partialArith]
  · rintro (_ | a) (_ | b) (_ | c) h <;> simp_all [partialArith]
  · rintro (_ | a) (_ | b) (_ | c) h <;> simp_all [partialArith]
  · rintro a rfl; simp [partialArith]
  · rintro (_ | a) (_ | b) h hf <;> simp_all [partialArith]
  · rintro (_ | a) (_ | b) h <;> simp_all [partialArith]
  · rintro a b rfl rfl; simp [partialArith]
  · rintro (_ | a) (_ | b) h hf <;> simp_all [partialArith]
  · rintro (_ | a) (_ | b) h hf <;> simp_all [partialArith]
  · rintro (_ | a) (_ | b) h <;> simp_all [partialArith]
  · rintro a rfl; simp [partialArith, hr]
  · rintro (_ | a) h <;> simp_all [partialArith]
  · rintro a rfl; rfl

theorem p_mul (a b : V) : (partialArith root).mul (some a) (some b) = some (a * b) := rfl
theorem p_add (a b : V) : (partialArith root).add (some a) (some b) = some (a + b) := rfl
theorem p_fma (a b c : V) : (partialArith root).fma (some a) (some b) (some c) = some (a * b + c) := rfl
theorem p_neg (a : V) : (partialArith root).neg (some a) = some (-a) := rfl
theorem p_one : (partialArith root).one = some 1 := rfl
theorem p_zero : (partialArith root).zero = some 0 := rfl
theorem p_sqrt (a : V) : (partialArith root).sqrt (some a) = some (root a) := rfl
theorem p_div (a b : V) (h : b ≠ 0) : (partialArith root).div (some a) (some b) = some (a / b) := by
  show (if b = 0 then none else some (a / b)) = _
  rw [if_neg h]
theorem p_div_zero (a : Option V) : (partialArith root).div a (some 0) = none := by
  cases a <;> simp [partialArith]

theorem p_sums {ι : Type} [Fintype ι] {f : ι → Option V} {g : ι → V} {v : Option V} (h : Sums (partialArith root) (∑ u, {f u}) v)
    (hf : ∀ u, f u = some (g u)) : v = some (∑ u, g u) := by
  have key : ∀ {l : Multiset (Option V)} {v}, Sums (partialArith root) l v → (∀ a ∈ l, a.isSome = true) →
      v = some ((l.map fun a => a.getD 0).sum) := by
    intro l v h
    induction h with
    | zero => intro _; simp [p_zero]
    | one x =>
      intro h
      obtain ⟨y, rfl⟩ := Option.isSome_iff_exists.1 (h x (Multiset.mem_singleton_self x))
      simp
    | add _ _ ih ih' =>
      intro h
      rw [ih fun a ha => h a (Multiset.mem_add.2 (Or.inl ha)), ih' fun a ha => h a (Multiset.mem_add.2 (Or.inr ha)), p_add,
        Multiset.map_add, Multiset.sum_add]
  rw [key h]
  · congr 1
    rw [Finset.sum_eq_multiset_sum, show (fun u => ({f u} : Multiset (Option V))) = (fun a => {a}) ∘ f from rfl, ← Multiset.map_map,
      Multiset.sum_map_singleton, Multiset.map_map]
    simp only [Function.comp_apply, hf, Option.getD_some]
    rfl
  · intro a ha
    obtain ⟨u, -, hu⟩ := Multiset.mem_sum.1 ha
    rw [Multiset.mem_singleton] at hu
    rw [hu, hf]
    rfl

/-! ## The recurrences -/
variable {ι : Type} [Fintype ι] {mv : (ι → Option V) → ι → Option V} {N : _root_.Matrix ι ι V}
  (hmv : ∀ z : ι → V, mv (fun u => some (z u)) = fun u => some ((N *ᵥ z) u))
include hmv

section
variable {x0 b : ι → V} {x p q r : Nat → ι → Option V} {ρ π : Nat → Option V}
  (R : CGRun (partialArith root) mv (fun u => some (x0 u)) (fun u => some (b u)) x p q r ρ π)
include R

theorem cg_scalars {k : Nat} (hr : r k = fun u => some ((Textbook.cg N x0 b k).r u)) (hp : p k = fun u => some ((Textbook.cg N x0 b k).p u)) :
    ρ k = some ((Textbook.cg N x0 b k).r ⬝ᵥ (Textbook.cg N x0 b k).r) ∧ q k = (fun u => some ((N *ᵥ (Textbook.cg N x0 b k).p) u)) ∧
      π k = some ((Textbook.cg N x0 b k).p ⬝ᵥ N *ᵥ (Textbook.cg N x0 b k).p) := by
  have hq : q k = fun u => some ((N *ᵥ (Textbook.cg N x0 b k).p) u) := by rw [R.product, hp, hmv]
  exact ⟨p_sums (R.rho k) fun u => by rw [hr, p_mul], hq, p_sums (R.curvature k) fun u => by rw [hp, hq, p_mul]⟩

theorem cg_partial (k : Nat) :
    (CGDefined N x0 b k → x k = fun u => some ((Textbook.cg N x0 b k).x u)) ∧
    (CGRegular N x0 b k → r k = (fun u => some ((Textbook.cg N x0 b k).r u)) ∧ p k = fun u => some ((Textbook.cg N x0 b k).p u)) := by
  induction k with
  | zero => exact ⟨fun _ => R.x_zero, fun _ => ⟨R.r_zero, R.p_zero⟩⟩
  | succ k ih =>
    constructor
    · intro hd
      have hreg : CGRegular N x0 b k := fun i hi => ⟨hd.2 i (by omega), hd.1 i (by omega)⟩
      obtain ⟨hr, hp⟩ := ih.2 hreg
      obtain ⟨hrho, -, hpi⟩ := cg_scalars hmv R hr hp
      have hx := ih.1 ⟨fun i hi => hd.1 i (by omega), fun i hi => hd.2 i (by omega)⟩
      funext u
      rw [R.x_succ, hrho, hpi, p_div _ _ (hd.1 k (by omega)), hp, hx, p_fma, cg_x]
      congr 1
      rw [Pi.add_apply, Pi.smul_apply, smul_eq_mul, add_comm]
      rfl
    · intro hreg
      have hreg' : CGRegular N x0 b k := fun i hi => hreg i (by omega)
      obtain ⟨hr, hp⟩ := ih.2 hreg'
      obtain ⟨hrho, hq, hpi⟩ := cg_scalars hmv R hr hp
      obtain ⟨g1, g2⟩ := hreg k (by omega)
      have hr' : r (k + 1) = fun u => some ((Textbook.cg N x0 b (k + 1)).r u) := by
        funext u
        rw [R.r_succ, hrho, hpi, p_one, p_neg, p_mul, p_div _ _ g2, hq, hr, p_fma, cg_r]
        congr 1
        rw [Pi.sub_apply, Pi.smul_apply, smul_eq_mul]
        unfold cgAlpha
        ring
      refine ⟨hr', ?_⟩
      have hrho' := p_sums (R.rho (k + 1)) (g := fun u => (Textbook.cg N x0 b (k + 1)).r u * (Textbook.cg N x0 b (k + 1)).r u)
        fun u => by rw [hr', p_mul]
      funext u
      rw [R.p_succ, hrho, hrho', p_div _ _ g1, hp, hr', p_fma, cg_p]
      congr 1
      rw [Pi.add_apply, Pi.smul_apply, smul_eq_mul, add_comm]
      rfl

/-- Undefined otherwise. -/
theorem cg_partial_undefined (hr0 : root 0 = 0) {k : Nat} (hd : ¬CGDefined N x0 b k) (u : ι) : x k u = none := by
  have I := partial_ieee hr0
  -- the first step with a zero denominator
  obtain ⟨i, hi, hbad, hmin⟩ : ∃ i, i < k ∧ (((Textbook.cg N x0 b i).p ⬝ᵥ N *ᵥ (Textbook.cg N x0 b i).p = 0) ∨
      i + 1 < k ∧ (Textbook.cg N x0 b i).r ⬝ᵥ (Textbook.cg N x0 b i).r = 0) ∧ CGRegular N x0 b i := by
    classical
    have hex : ∃ i, i < k ∧ (((Textbook.cg N x0 b i).p ⬝ᵥ N *ᵥ (Textbook.cg N x0 b i).p = 0) ∨
      i + 1 < k ∧ (Textbook.cg N x0 b i).r ⬝ᵥ (Textbook.cg N x0 b i).r = 0) := by
      refine Classical.byContradiction fun hn => hd ⟨fun i hi h0 => hn ⟨i, hi, Or.inl h0⟩, fun i hi h0 => hn ⟨i, by omega, Or.inr ⟨hi, h0⟩⟩⟩
    refine ⟨Nat.find hex, (Nat.find_spec hex).1, (Nat.find_spec hex).2, fun j hj => ?_⟩
    have hjk := (Nat.find_spec hex).1
    have := Nat.find_min hex hj
    refine ⟨fun h0 => this ⟨by omega, Or.inr ⟨by omega, h0⟩⟩, fun h0 => this ⟨by omega, Or.inl h0⟩⟩
  obtain ⟨hr, hp⟩ := (cg_partial hmv R i).2 hmin
  obtain ⟨hrho, -, hpi⟩ := cg_scalars hmv R hr hp
  rcases hbad with h0 | ⟨hk, h0⟩
  · rw [h0] at hpi
    exact cg_alpha_nan I R (k := i) (by rw [hpi]; exact p_div_zero _) u k hi
  · rw [h0] at hrho
    exact cg_norm_zero I R hrho u k (by omega)

end

section
variable {x0 b : ι → V} {x p v r h t : Nat → ι → Option V} {ρ α ω τ ν η : Nat → Option V}
  (R : BiRun (partialArith root) mv (fun u => some (x0 u)) (fun u => some (b u)) x p v r h t ρ α ω τ ν η)
include R

/-- What the vectors and scalars hold after `k` steps. -/
structure BiSome (c : BiState ι V) (x r p v : ι → Option V) (ρ α ω : Option V) : Prop where
  x : x = fun u => some (c.x u)
  r : r = fun u => some (c.r u)
  p : p = fun u => some (c.p u)
  v : v = fun u => some (c.v u)
  ρ : ρ = some c.ρ
  α : α = some c.α
  ω : ω = some c.ω

omit hmv R in
theorem dir_eq (c : BiState ι V) (u : ι) :
    c.dir b u = (c.r ⬝ᵥ b) / c.ρ * (c.α / c.ω) * (-c.ω * c.v u + c.p u) + c.r u := by
  unfold BiState.dir
  simp only [Pi.add_apply, Pi.smul_apply, Pi.sub_apply, smul_eq_mul]
  ring

omit hmv R in
theorem mid_eq (c : BiState ι V) (u : ι) :
    c.mid N b u = -1 * (c.r ⬝ᵥ b) / c.denom N b * (N *ᵥ c.dir b) u + c.r u := by
  unfold BiState.mid BiState.alpha
  simp only [Pi.smul_apply, Pi.sub_apply, smul_eq_mul]
  ring

theorem bi_first {k : Nat} (S : BiSome (bi N x0 b k) (x k) (r k) (p k) (v k) (ρ k) (α k) (ω k)) (h1 : (bi N x0 b k).ρ ≠ 0)
    (h2 : (bi N x0 b k).ω ≠ 0) : ρ (k + 1) = some ((bi N x0 b k).r ⬝ᵥ b) ∧ p (k + 1) = (fun u => some ((bi N x0 b k).dir b u)) ∧
      v (k + 1) = (fun u => some ((N *ᵥ (bi N x0 b k).dir b) u)) ∧ τ k = some ((bi N x0 b k).denom N b) := by
  have hrho : ρ (k + 1) = some ((bi N x0 b k).r ⬝ᵥ b) := p_sums (R.rho k) fun u => by rw [S.r, p_mul]
  have hp : p (k + 1) = fun u => some ((bi N x0 b k).dir b u) := by
    funext u
    rw [R.p_succ, hrho, S.ρ, S.α, S.ω, S.v, S.p, S.r, p_div _ _ h1, p_div _ _ h2, p_mul, p_neg, p_fma, p_fma, dir_eq]
  have hv : v (k + 1) = fun u => some ((N *ᵥ (bi N x0 b k).dir b) u) := by rw [R.product, hp, hmv]
  exact ⟨hrho, hp, hv, p_sums (R.tau k) fun u => by rw [hv, p_mul]⟩

theorem bi_second {k : Nat} (S : BiSome (bi N x0 b k) (x k) (r k) (p k) (v k) (ρ k) (α k) (ω k)) (h1 : (bi N x0 b k).ρ ≠ 0)
    (h2 : (bi N x0 b k).ω ≠ 0) (h3 : (bi N x0 b k).denom N b ≠ 0) : α (k + 1) = some ((bi N x0 b k).alpha N b) ∧
      h k = (fun u => some ((bi N x0 b k).mid N b u)) ∧ t k = (fun u => some ((N *ᵥ (bi N x0 b k).mid N b) u)) ∧
      ν k = some ((bi N x0 b k).mid N b ⬝ᵥ N *ᵥ (bi N x0 b k).mid N b) ∧
      η k = some ((N *ᵥ (bi N x0 b k).mid N b) ⬝ᵥ (N *ᵥ (bi N x0 b k).mid N b)) := by
  obtain ⟨hrho, hp, hv, ht⟩ := bi_first hmv R S h1 h2
  have hh : h k = fun u => some ((bi N x0 b k).mid N b u) := by
    funext u
    rw [R.half, hrho, ht, hv, S.r, p_one, p_neg, p_mul, p_div _ _ h3, p_fma, mid_eq]
  have ht' : t k = fun u => some ((N *ᵥ (bi N x0 b k).mid N b) u) := by rw [R.half_product, hh, hmv]
  exact ⟨by rw [R.alpha, hrho, ht, p_div _ _ h3]; rfl, hh, ht', p_sums (R.nu k) fun u => by rw [hh, ht', p_mul],
    p_sums (R.eta k) fun u => by rw [ht', p_mul]⟩

theorem bi_partial (k : Nat) (hreg : BiRegular N x0 b k) :
    BiSome (bi N x0 b k) (x k) (r k) (p k) (v k) (ρ k) (α k) (ω k) := by
  induction k with
  | zero => exact ⟨R.x_zero, R.r_zero, R.p_zero, R.v_zero, R.rho_zero, R.alpha_zero, R.omega_zero⟩
  | succ k ih =>
    have S := ih fun i hi => hreg i (by omega)
    obtain ⟨h1, h2, h3, h4⟩ := hreg k (by omega)
    obtain ⟨hrho, hp, hv, ht⟩ := bi_first hmv R S h1 h2
    obtain ⟨ha, hh, ht', hnu, heta⟩ := bi_second hmv R S h1 h2 h3
    have ho : ω (k + 1) = some ((bi N x0 b k).omega N b) := by rw [R.omega, hnu, heta, p_div _ _ h4]; rfl
    refine ⟨?_, ?_, hp, hv, hrho, ha, ho⟩
    · funext u
      rw [R.x_succ, ho, hh, ha, hp, S.x, p_fma, p_fma]
      congr 1
      show _ = ((bi N x0 b k).x + (bi N x0 b k).alpha N b • (bi N x0 b k).dir b + (bi N x0 b k).omega N b • (bi N x0 b k).mid N b) u
      simp only [Pi.add_apply, Pi.smul_apply, smul_eq_mul]
      ring
    · funext u
      rw [R.r_succ, ho, hh, ht', p_neg, p_fma]
      congr 1
      show _ = ((bi N x0 b k).mid N b - (bi N x0 b k).omega N b • (N *ᵥ (bi N x0 b k).mid N b)) u
      simp only [Pi.sub_apply, Pi.smul_apply, smul_eq_mul]
      ring

theorem bi_partial_undefined (hr0 : root 0 = 0) {k : Nat} (hd : ¬BiRegular N x0 b k) (u : ι) : x k u = none := by
  have I := partial_ieee hr0
  obtain ⟨i, hi, hbad, hmin⟩ : ∃ i, i < k ∧ ¬((bi N x0 b i).ρ ≠ 0 ∧ (bi N x0 b i).ω ≠ 0 ∧ (bi N x0 b i).denom N b ≠ 0 ∧
      (N *ᵥ (bi N x0 b i).mid N b) ⬝ᵥ (N *ᵥ (bi N x0 b i).mid N b) ≠ 0) ∧ BiRegular N x0 b i := by
    classical
    have hex : ∃ i, i < k ∧ ¬((bi N x0 b i).ρ ≠ 0 ∧ (bi N x0 b i).ω ≠ 0 ∧ (bi N x0 b i).denom N b ≠ 0 ∧
      (N *ᵥ (bi N x0 b i).mid N b) ⬝ᵥ (N *ᵥ (bi N x0 b i).mid N b) ≠ 0) := by
      refine Classical.byContradiction fun hn => hd fun i hi => Classical.byContradiction fun h0 => hn ⟨i, hi, h0⟩
    refine ⟨Nat.find hex, (Nat.find_spec hex).1, (Nat.find_spec hex).2, fun j hj => ?_⟩
    have hjk := (Nat.find_spec hex).1
    exact Classical.byContradiction fun h0 => Nat.find_min hex hj ⟨by omega, h0⟩
  have S := bi_partial hmv R i hmin
  by_cases h1 : (bi N x0 b i).ρ = 0
  · have h0 := bi_scalar_zero_inf I R (j := i) (Or.inl (by rw [S.ρ, h1])) u k hi
    simpa using h0
  by_cases h2 : (bi N x0 b i).ω = 0
  · have h0 := bi_scalar_zero_inf I R (j := i) (Or.inr (by rw [S.ω, h2])) u k hi
    simpa using h0
  by_cases h3 : (bi N x0 b i).denom N b = 0
  · obtain ⟨-, -, -, ht⟩ := bi_first hmv R S h1 h2
    refine bi_alpha_nan I R (k := i) ?_ u k hi
    rw [R.alpha, ht, h3]
    exact p_div_zero _
  by_cases h4 : (N *ᵥ (bi N x0 b i).mid N b) ⬝ᵥ (N *ᵥ (bi N x0 b i).mid N b) = 0
  · obtain ⟨-, -, -, -, heta⟩ := bi_second hmv R S h1 h2 h3
    refine bi_omega_nan I R (k := i) ?_ u k hi
    rw [R.omega, heta, h4]
    exact p_div_zero _
  exact absurd ⟨h1, h2, h3, h4⟩ hbad

end

section
variable {m : Nat} {x b : ι → V} {x' : ι → Option V} {B : Nat → ι → Option V} {H : Nat → Nat → Option V}
  (R : Cycle (partialArith root) mv m (fun u => some (b u)) (fun u => some (x u)) B H x')
include R

theorem gm_start : ∀ u, B 0 u = (partialArith root).mul ((partialArith root).div (some 1)
    (some (root ((b - N *ᵥ x) ⬝ᵥ (b - N *ᵥ x))))) (some ((b - N *ᵥ x) u)) := by
  obtain ⟨D, h1, h2⟩ := R.start
  have hres : ∀ u, (partialArith root).fma ((partialArith root).neg (partialArith root).one) (mv (fun u => some (x u)) u) (some (b u)) =
      some ((b - N *ᵥ x) u) := by
    intro u
    rw [hmv, p_one, p_neg, p_fma]
    congr 1
    rw [Pi.sub_apply]
    ring
  have hD : D = some ((b - N *ᵥ x) ⬝ᵥ (b - N *ᵥ x)) := p_sums h1 fun u => by rw [hres, p_mul]
  intro u
  rw [h2, hres, hD]
  rfl

theorem p_normalise {d : V} {w : V} (hd : d ≠ 0) : (partialArith root).mul ((partialArith root).div (some 1) (some d)) (some w) =
    some (1 / d * w) := by
  rw [p_div _ _ hd, p_mul]

theorem gm_column {j : Nat} (hj : j < m)
    (hB : ∀ i, i ≤ j → B i = fun u => some (arnoldi root N (b - N *ᵥ x) i u)) :
    (∀ i, i ≤ j + 1 → H i j = some (hess root N (b - N *ᵥ x) i j)) ∧ (j + 1 < m → ∀ u, B (j + 1) u =
      (partialArith root).mul ((partialArith root).div (some 1)
        (some (root (arnoldiRaw root N (b - N *ᵥ x) (j + 1) ⬝ᵥ arnoldiRaw root N (b - N *ᵥ x) (j + 1)))))
        (some (arnoldiRaw root N (b - N *ᵥ x) (j + 1) u))) := by
  obtain ⟨W, D, h1, h2, h3, h4, h5⟩ := R.column j hj
  set a := arnoldi root N (b - N *ᵥ x) with ha
  have hW : ∀ i, i ≤ j + 1 → W i = (fun u => some (mgs a (N *ᵥ a j) i u)) ∧
      ∀ i', i' < i → H i' j = some (a i' ⬝ᵥ mgs a (N *ᵥ a j) i') := by
    intro i
    induction i with
    | zero => intro _; exact ⟨by rw [h1, hB j (Nat.le_refl j), hmv]; rfl, fun i' h => absurd h (by omega)⟩
    | succ i ih =>
      intro hi
      obtain ⟨g1, g2⟩ := ih (by omega)
      obtain ⟨k1, k2⟩ := h2 i (by omega)
      have hH : H i j = some (a i ⬝ᵥ mgs a (N *ᵥ a j) i) := p_sums k1 fun u => by rw [hB i (by omega), g1, p_mul]
      refine ⟨?_, fun i' hi' => ?_⟩
      · funext u
        beta_reduce at k2
        rw [k2, hH, hB i (by omega), g1, p_neg, p_fma]
        congr 1
        show _ = (mgs a (N *ᵥ a j) i - (a i ⬝ᵥ mgs a (N *ᵥ a j) i) • a i) u
        simp only [Pi.sub_apply, Pi.smul_apply, smul_eq_mul]
        ring
      · by_cases e : i' = i
        · subst e; exact hH
        · exact g2 i' (by omega)
  obtain ⟨g1, g2⟩ := hW (j + 1) (Nat.le_refl _)
  have hD : D = some (arnoldiRaw root N (b - N *ᵥ x) (j + 1) ⬝ᵥ arnoldiRaw root N (b - N *ᵥ x) (j + 1)) :=
    p_sums h3 fun u => by rw [g1, p_mul]; rfl
  refine ⟨fun i hi => ?_, fun hm u => ?_⟩
  · unfold hess
    by_cases e : i ≤ j
    · rw [if_pos e]; exact g2 i (by omega)
    · rw [if_neg e]
      obtain rfl : i = j + 1 := by omega
      beta_reduce at h4
      rw [h4, hD]
      rfl
  · rw [h5 hm, hD, g1]
    rfl

theorem gm_basis {j : Nat} (hj : j < m) (hne : ∀ i, i ≤ j → root (arnoldiRaw root N (b - N *ᵥ x) i ⬝ᵥ arnoldiRaw root N (b - N *ᵥ x) i) ≠ 0) :
    ∀ i, i ≤ j → B i = fun u => some (arnoldi root N (b - N *ᵥ x) i u) := by
  induction j with
  | zero =>
    intro i hi
    obtain rfl : i = 0 := by omega
    funext u
    have h0 : root ((b - N *ᵥ x) ⬝ᵥ (b - N *ᵥ x)) ≠ 0 := hne 0 (Nat.le_refl 0)
    rw [gm_start hmv R, p_normalise hmv R h0, arnoldi_succ]
    rfl
  | succ j ih =>
    have hB := ih (by omega) fun i hi => hne i (by omega)
    intro i hi
    by_cases e : i = j + 1
    · subst e
      funext u
      rw [(gm_column hmv R (by omega) hB).2 hj, p_normalise hmv R (hne _ (Nat.le_refl _)), arnoldi_succ]
      rfl
    · exact hB i (by omega)

theorem gm_partial (hm : 0 < m) (hreg : ArnoldiRegular root N (b - N *ᵥ x) m) :
    x' = fun u => some ((x + ((List.range m).map (arnoldi root N (b - N *ᵥ x))).sum) u) := by
  have hB := gm_basis hmv R (j := m - 1) (by omega) fun i hi => hreg.ne i (by omega)
  obtain ⟨Y, h0, h1, rfl⟩ := R.update
  have key : ∀ j, j ≤ m → Y j = fun u => some ((x + ((List.range j).map (arnoldi root N (b - N *ᵥ x))).sum) u) := by
    intro j
    induction j with
    | zero => intro _; rw [h0]; simp
    | succ j ih =>
      intro hj
      funext u
      rw [h1 j hj, ih (by omega), hB j (by omega), p_one, p_fma, List.range_succ, List.map_append, List.sum_append]
      congr 1
      simp only [List.map_cons, List.map_nil, List.sum_cons, List.sum_nil, add_zero, Pi.add_apply]
      ring
  exact key m (Nat.le_refl m)

theorem gm_partial_undefined (hr0 : root 0 = 0) (hm : 0 < m) (hreg : ¬ArnoldiRegular root N (b - N *ᵥ x) m) (u : ι) : x' u = none := by
  have I := partial_ieee hr0
  obtain ⟨i, hi, hbad, hmin⟩ : ∃ i, i < m ∧ root (arnoldiRaw root N (b - N *ᵥ x) i ⬝ᵥ arnoldiRaw root N (b - N *ᵥ x) i) = 0 ∧
      ∀ j, j < i → root (arnoldiRaw root N (b - N *ᵥ x) j ⬝ᵥ arnoldiRaw root N (b - N *ᵥ x) j) ≠ 0 := by
    classical
    have hex : ∃ i, i < m ∧ root (arnoldiRaw root N (b - N *ᵥ x) i ⬝ᵥ arnoldiRaw root N (b - N *ᵥ x) i) = 0 := by
      refine Classical.byContradiction fun hn => hreg ⟨fun h0 => hn ⟨0, hm, h0⟩, fun j hj h0 => hn ⟨j + 1, hj, h0⟩⟩
    refine ⟨Nat.find hex, (Nat.find_spec hex).1, (Nat.find_spec hex).2, fun j hj h0 => ?_⟩
    have hjk := (Nat.find_spec hex).1
    exact Nat.find_min hex hj ⟨by omega, h0⟩
  refine gm_basis_nan I R hi ?_
  cases i with
  | zero =>
    rw [gm_start hmv R]
    have : root ((b - N *ᵥ x) ⬝ᵥ (b - N *ᵥ x)) = 0 := hbad
    rw [this, p_div_zero]
    rfl
  | succ j =>
    rw [(gm_column hmv R (j := j) (by omega) (gm_basis hmv R (by omega) fun i hi => hmin i (by omega))).2 hi, hbad, p_div_zero]
    rfl

end
end

/-! ## Clients -/
section
variable {K P V : Type} [DecidableEq P] [DecidableEq K] [Field V] [DecidableEq V]
variable {G : Geometry P} {calls : List (Setup K P (Option V))} {base : Nat} {root : V → V} {s : Cell P → Option V}

theorem exact_product (h : ClientSystem G calls base) (hc : AllCoefs G calls fun a => a.isSome) (z : clientUnknowns G calls → V) :
    rowTimes (partialArith root) G calls (fun u => some (z u)) = fun u => some ((exactMatrix G calls *ᵥ z) u) := by
  classical
  funext u
  have hu := stored_unknown h u.1 u.2
  have hs := hc u.1 u.2
  have key : ∀ (l : List ((Σ _ : Nat, P) × Option V)), (∀ t ∈ l, t.1 ∈ clientUnknowns G calls) → (∀ t ∈ l, t.2.isSome = true) → ∀ a : V,
      l.foldl (fun a t => (partialArith root).add a ((partialArith root).mul t.2 (if h : t.1 ∈ clientUnknowns G calls then some (z ⟨t.1, h⟩)
        else (partialArith root).zero))) (some a) =
      some (a + ∑ u' : clientUnknowns G calls, (l.map fun t => if t.1 = u'.1 then t.2.getD 0 else 0).sum * z u') := by
    intro l
    induction l with
    | nil => intro _ _ a; simp
    | cons t l ih =>
      intro h1 h2 a
      obtain ⟨c, hcv⟩ := Option.isSome_iff_exists.1 (h2 t (List.mem_cons_self ..))
      have hm := h1 t (List.mem_cons_self ..)
      rw [List.foldl_cons, dif_pos hm, hcv, p_mul, p_add, ih (fun t' ht' => h1 t' (List.mem_cons_of_mem _ ht'))
        fun t' ht' => h2 t' (List.mem_cons_of_mem _ ht')]
      congr 1
      simp only [List.map_cons, List.sum_cons, add_mul, Finset.sum_add_distrib, hcv, Option.getD_some]
      rw [add_assoc]
      congr 2
      rw [Finset.sum_eq_single ⟨t.1, hm⟩]
      · simp
      · intro u' _ hne
        rw [if_neg, zero_mul]
        intro e
        exact hne (Subtype.ext e.symm)
      · intro hn; exact absurd (Finset.mem_univ _) hn
  have := key (clientStored calls u.1) hu hs 0
  rw [zero_add] at this
  exact this

theorem exact_rhs (h : ClientSystem G calls base) (hd : Everywhere G (rhss calls) s fun a => a.isSome) :
    (fun u : clientUnknowns G calls => valueAt (partialArith root) (rhss calls) s u.1) = fun u => some (exactVector G calls (rhss calls) s u) := by
  funext u
  obtain ⟨v, hv, hp, he⟩ := unknown_rhs (A := partialArith root) h u
  obtain ⟨c, hcv⟩ := Option.isSome_iff_exists.1 (hd v hv _ hp)
  have he' : valueAt (partialArith id) (rhss calls) s u.1 = s (.elem v.data u.1.2) := he s
  unfold exactVector
  rw [he, he', hcv]
  rfl

theorem exact_sol (hd : Everywhere G (sols calls) s fun a => a.isSome) :
    (fun u : clientUnknowns G calls => valueAt (partialArith root) (sols calls) s u.1) = fun u => some (exactVector G calls (sols calls) s u) := by
  funext u
  obtain ⟨v, hv, hp, he⟩ := unknown_sol (A := partialArith root) u
  obtain ⟨c, hcv⟩ := Option.isSome_iff_exists.1 (hd v hv _ hp)
  have he' : valueAt (partialArith id) (sols calls) s u.1 = s (.elem v.data u.1.2) := he s
  unfold exactVector
  rw [he, he', hcv]
  rfl

variable (h : ClientSystem G calls base) (hd : Defined G calls s) (hroot : root 0 = 0) (n : Nat)
include h hd hroot

/-- **C72**, conjugate gradients: after `k` steps the solution is the textbook iterate, defined in every element, if that iterate is
defined; otherwise no element of it is defined. -/
theorem c72_cg : ∃ pl, Planner.empty.setupAll G calls = some pl ∧
    ∀ N x0 b, N = exactMatrix G calls → x0 = exactVector G calls (sols calls) s → b = exactVector G calls (rhss calls) s →
    ∀ k, Ensures (cg (partialArith root) G pl base k) n s fun _ s' =>
      (CGDefined N x0 b k → SolutionIs G calls s' (Textbook.cg N x0 b k).x) ∧ (¬CGDefined N x0 b k → SolutionUndefined G calls s') := by
  obtain ⟨pl, hpl, x, p, q, r, ρ, π, R, hens⟩ := cg_recurrence (partialArith root) h n s
  rw [exact_rhs h hd.rhs, exact_sol hd.sol] at R
  refine ⟨pl, hpl, ?_⟩
  rintro N x0 b rfl rfl rfl k
  refine ensures_weaken (hens k) ?_
  rintro c s' ⟨hx, -⟩
  constructor
  · intro hk u
    have := congrFun ((cg_partial (exact_product h hd.coefs) R k).1 hk) u
    exact (hx u).trans this
  · intro hk
    exact everywhere_sols (A := partialArith root) fun u => (hx u).trans (cg_partial_undefined (exact_product h hd.coefs) R hroot hk u)

/-- **C72**, conjugate gradients on a symmetric positive definite system: after some number `k0` of steps, at most the number of unknowns,
the solution is exact (initial solution plus the solution `y` of the system), it is defined in every element until then, and it is
undefined in every element after any larger number of steps. -/
theorem c72_cg_overrun [LinearOrder V] [IsStrictOrderedRing V] (hspd : SPD (exactMatrix G calls)) :
    ∃ pl, Planner.empty.setupAll G calls = some pl ∧ ∃ k0, k0 ≤ (clientUnknowns G calls).card ∧
      (∀ k, k ≤ k0 → Ensures (cg (partialArith root) G pl base k) n s fun _ s' => ∃ y, SolutionIs G calls s' y) ∧
      (∃ y, exactMatrix G calls *ᵥ y = exactVector G calls (rhss calls) s ∧
        Ensures (cg (partialArith root) G pl base k0) n s fun _ s' => SolutionIs G calls s' fun u => exactVector G calls (sols calls) s u + y u) ∧
      ∀ k, k0 < k → Ensures (cg (partialArith root) G pl base k) n s fun _ s' => SolutionUndefined G calls s' := by
  obtain ⟨pl, hpl, hcg⟩ := c72_cg h hd hroot n
  have hcg := hcg _ _ _ rfl rfl rfl
  set N := exactMatrix G calls with hN
  set x0 := exactVector G calls (sols calls) s with hx0
  set b := exactVector G calls (rhss calls) s with hb
  obtain ⟨k0, hk0, hz, hnz⟩ := cg_terminates (A := N) (x0 := x0) (b := b) hspd
  have hreg := cg_regular hspd k0 hnz
  have hdef : ∀ k, k ≤ k0 → CGDefined N x0 b k := fun k hk => ⟨fun i hi => (hreg i (by omega)).2, fun i hi => (hreg i (by omega)).1⟩
  refine ⟨pl, hpl, k0, by simpa using hk0, fun k hk => ensures_weaken (hcg k) fun _ s' g => ⟨_, g.1 (hdef k hk)⟩, ?_, ?_⟩
  · refine ⟨(Textbook.cg N x0 b k0).x - x0, ?_, ensures_weaken (hcg k0) fun _ s' g => ?_⟩
    · have := cg_residual N x0 b k0
      rw [hz] at this
      exact (sub_eq_zero.1 this.symm).symm
    · have := g.1 (hdef k0 (Nat.le_refl _))
      convert this using 1
      funext u
      simp
  · intro k hk
    refine ensures_weaken (hcg k) fun _ s' g => g.2 ?_
    intro hdk
    apply hdk.1 k0 hk
    have hp : (Textbook.cg N x0 b k0).p = 0 := by
      cases k0 with
      | zero => exact hz
      | succ j =>
        rw [cg_p, hz]
        unfold cgBeta
        rw [hz]
        simp
    rw [hp]
    simp

/-- **C72**, BiCGStab: after `k` steps the solution is the textbook iterate, defined in every element, if no divisor of these steps is
zero; otherwise no element of it is defined. -/
theorem c72_bicgstab : ∃ pl, Planner.empty.setupAll G calls = some pl ∧
    ∀ N x0 b, N = exactMatrix G calls → x0 = exactVector G calls (sols calls) s → b = exactVector G calls (rhss calls) s →
    ∀ k, Ensures (biCGStab (partialArith root) G pl base k) n s fun _ s' =>
      (BiRegular N x0 b k → SolutionIs G calls s' (bi N x0 b k).x) ∧ (¬BiRegular N x0 b k → SolutionUndefined G calls s') := by
  obtain ⟨pl, hpl, x, p, v, r, g, t, ρ, α, ω, τ, ν, η, R, hens⟩ := bi_recurrence (partialArith root) h n s
  rw [exact_rhs h hd.rhs, exact_sol hd.sol] at R
  refine ⟨pl, hpl, ?_⟩
  rintro N x0 b rfl rfl rfl k
  refine ensures_weaken (hens k) ?_
  rintro c s' ⟨hx, -⟩
  constructor
  · intro hk u
    have := congrFun (bi_partial (exact_product h hd.coefs) R k hk).x u
    exact (hx u).trans this
  · intro hk
    exact everywhere_sols (A := partialArith root) fun u => (hx u).trans (bi_partial_undefined (exact_product h hd.coefs) R hroot hk u)

/-- **C72**, BiCGStab: whatever the system, after more steps than there are unknowns no element of the solution is defined. -/
theorem c72_bicgstab_overrun : ∃ pl, Planner.empty.setupAll G calls = some pl ∧
    ∀ k, (clientUnknowns G calls).card < k →
      Ensures (biCGStab (partialArith root) G pl base k) n s fun _ s' => SolutionUndefined G calls s' := by
  obtain ⟨pl, hpl, hbi⟩ := c72_bicgstab h hd hroot n
  refine ⟨pl, hpl, fun k hk => ensures_weaken (hbi _ _ _ rfl rfl rfl k) fun _ s' g => g.2 ?_⟩
  intro hreg
  have hb := bi_breaks_down (A := exactMatrix G calls) (x0 := exactVector G calls (sols calls) s) (b := exactVector G calls (rhss calls) s)
    _ rfl
  rw [Fintype.card_coe] at hb
  exact hb fun i hi => hreg i (by omega)

/-- **C72**, GMRES: after `k` cycles the solution is the sum of the Arnoldi vectors of the cycles and the initial solution, defined in
every element, if no vector that is scaled in these cycles has length zero; otherwise no element of it is defined. -/
theorem c72_gmres {m : Nat} (hm : 0 < m) : ∃ pl, Planner.empty.setupAll G calls = some pl ∧
    ∀ N x0 b, N = exactMatrix G calls → x0 = exactVector G calls (sols calls) s → b = exactVector G calls (rhss calls) s →
    ∀ k, Ensures (gmres (partialArith root) G pl base m k) n s fun _ s' =>
      (CycleRegular root N m x0 b k → SolutionIs G calls s' (sumCycle root N m x0 b k)) ∧
      (¬CycleRegular root N m x0 b k → SolutionUndefined G calls s') := by
  obtain ⟨pl, hpl, x, B, H, h0, R, hens, -⟩ := gmres_recurrence (partialArith root) m h n s
  rw [exact_rhs h hd.rhs] at R
  have h0' := (funext h0).trans (exact_sol (root := root) hd.sol)
  refine ⟨pl, hpl, ?_⟩
  rintro N x0 b rfl rfl rfl k
  set N := exactMatrix G calls with hN
  set x0 := exactVector G calls (sols calls) s with hx0
  set b := exactVector G calls (rhss calls) s with hb
  have hdef : ∀ k, CycleRegular root N m x0 b k → x k = fun u => some (sumCycle root N m x0 b k u) := by
    intro k
    induction k with
    | zero => intro _; exact h0'
    | succ k ih =>
      intro hk
      have h1 := ih fun i hi => hk i (by omega)
      have hR := R k
      rw [h1] at hR
      exact gm_partial (exact_product h hd.coefs) hR hm (hk k (by omega))
  refine ensures_weaken (hens k) ?_
  rintro c s' ⟨hx, -⟩
  constructor
  · intro hk u
    exact (hx u).trans (congrFun (hdef k hk) u)
  · intro hk
    refine everywhere_sols (A := partialArith root) fun u => (hx u).trans ?_
    obtain ⟨i, hi, hbad, hmin⟩ : ∃ i, i < k ∧ ¬ArnoldiRegular root N (b - N *ᵥ sumCycle root N m x0 b i) m ∧ CycleRegular root N m x0 b i := by
      classical
      have hex : ∃ i, i < k ∧ ¬ArnoldiRegular root N (b - N *ᵥ sumCycle root N m x0 b i) m :=
        Classical.byContradiction fun hn => hk fun i hi => Classical.byContradiction fun h0 => hn ⟨i, hi, h0⟩
      refine ⟨Nat.find hex, (Nat.find_spec hex).1, (Nat.find_spec hex).2, fun j hj => ?_⟩
      have hjk := (Nat.find_spec hex).1
      exact Classical.byContradiction fun h0 => Nat.find_min hex hj ⟨by omega, h0⟩
    have hR := R i
    rw [hdef i hmin] at hR
    exact (gmres_stays (partial_ieee hroot) h R).1 (gm_partial_undefined (exact_product h hd.coefs) hR hroot hm hbad u) k hi

/-- **C72**, GMRES: with a restart length larger than the number of unknowns (and exact square roots), no element of the solution is
defined after one step or more. -/
theorem c72_gmres_restart [LinearOrder V] [IsStrictOrderedRing V] (hsq : ∀ a, 0 ≤ a → root a * root a = a) {m : Nat}
    (hm : (clientUnknowns G calls).card < m) : ∃ pl, Planner.empty.setupAll G calls = some pl ∧
    ∀ k, 1 ≤ k → Ensures (gmres (partialArith root) G pl base m k) n s fun _ s' => SolutionUndefined G calls s' := by
  obtain ⟨pl, hpl, hgm⟩ := c72_gmres h hd hroot n (m := m) (by omega)
  refine ⟨pl, hpl, fun k hk => ensures_weaken (hgm _ _ _ rfl rfl rfl k) fun _ s' g => g.2 ?_⟩
  intro hreg
  have hr := hreg 0 hk
  have ho := arnoldi_orthonormal (RootsExact.of_all hsq _ _ _) hr
  have hcard := orthogonal_card m (arnoldi root _ _) (fun i hi h0 => by
    have := (ho i hi).1
    rw [h0] at this
    simp at this) (fun i j hij hj => by
    rw [dotProduct_comm]; exact (ho j hj).2 i hij)
  rw [Fintype.card_coe] at hcard
  omega

end
end Verif.Special
