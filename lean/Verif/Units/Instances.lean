import Verif.Units.Props
import Mathlib.Analysis.Real.Sqrt
import Mathlib.Data.Int.Log
import Mathlib.Algebra.Ring.Subring.Units

/-! # Arithmetics in which units scale exactly -/
set_option linter.dupNamespace false
set_option linter.unusedSectionVars false
namespace Verif.Units
open Verif.Runtime Verif.Vector Verif.Matrix Verif.Planner Verif.Solver Verif.Special

/-! ## Exact arithmetic -/

/-- In the exact arithmetic of a field every nonzero number is a unit. -/
theorem exact_units {V : Type} [Field V] (root : V → V) : UnitLaws (exactArith V root) fun (g : Vˣ) a => g * a where
  one a := by simp
  mul_act g h a := by simp [mul_assoc]
  zero g := by simp [exactArith]
  neg g a := by simp [exactArith]
  add g a b := by simp only [exactArith]; ring
  mul g h a b := by simp only [exactArith, Units.val_mul]; ring
  div g h a b := by
    simp only [exactArith, Units.val_div_eq_div_val]
    rw [mul_div_mul_comm]
  fma g h a b c := by simp only [exactArith, Units.val_mul]; ring

/-- In exact real arithmetic the positive numbers are units that the square root respects. -/
theorem real_units : UnitLaws (exactArith ℝ Real.sqrt) fun (g : Units.posSubgroup ℝ) a => (g.1 : ℝ) * a where
  one a := by simp
  mul_act g h a := by simp [mul_assoc]
  zero g := by simp [exactArith]
  neg g a := by simp [exactArith]
  add g a b := by simp only [exactArith]; ring
  mul g h a b := by simp only [exactArith, Subgroup.coe_mul, Units.val_mul]; ring
  div g h a b := by
    simp only [exactArith, Subgroup.coe_div, Units.val_div_eq_div_val]
    rw [mul_div_mul_comm]
  fma g h a b c := by simp only [exactArith, Subgroup.coe_mul, Units.val_mul]; ring

theorem real_root : RootLaw (exactArith ℝ Real.sqrt) fun (g : Units.posSubgroup ℝ) a => (g.1 : ℝ) * a := by
  intro g a
  have hg : (0 : ℝ) < g.1 := g.2
  simp only [exactArith, Subgroup.coe_mul, Units.val_mul]
  rw [Real.sqrt_mul (mul_self_nonneg _), Real.sqrt_mul_self hg.le]

/-! ## Floating point -/

/-- The binary floating-point number with `p + 1` digits (and an exponent of any size) that `x` is rounded to; `ρ` rounds to an integer. -/
noncomputable def toFloat (ρ : ℝ → Int) (p : Nat) (x : ℝ) : ℚ :=
  ρ (x / (2 : ℝ) ^ (Int.log 2 |x| - p)) * (2 : ℚ) ^ (Int.log 2 |x| - p)

theorem log_scale (e : Int) {x : ℝ} (hx : 0 < x) : Int.log 2 ((2 : ℝ) ^ e * x) = e + Int.log 2 x := by
  have h2 : (0 : ℝ) < (2 : ℝ) ^ e := zpow_pos two_pos _
  have h0 : 0 < (2 : ℝ) ^ e * x := mul_pos h2 hx
  have a1 := Int.zpow_log_le_self (b := 2) one_lt_two hx
  have a2 := Int.lt_zpow_succ_log_self (b := 2) one_lt_two x
  have b1 := Int.zpow_log_le_self (b := 2) one_lt_two h0
  have b2 := Int.lt_zpow_succ_log_self (b := 2) one_lt_two ((2 : ℝ) ^ e * x)
  push_cast at a1 a2 b1 b2
  have c1 : (2 : ℝ) ^ (e + Int.log 2 x) ≤ (2 : ℝ) ^ e * x := by
    rw [zpow_add₀ two_ne_zero]; exact mul_le_mul_of_nonneg_left a1 h2.le
  have c2 : (2 : ℝ) ^ e * x < (2 : ℝ) ^ (e + (Int.log 2 x + 1)) := by
    rw [zpow_add₀ two_ne_zero]; exact mul_lt_mul_of_pos_left a2 h2
  have d1 := (zpow_lt_zpow_iff_right₀ (one_lt_two (α := ℝ))).1 (c1.trans_lt b2)
  have d2 := (zpow_lt_zpow_iff_right₀ (one_lt_two (α := ℝ))).1 (b1.trans_lt c2)
  omega

/-- Rounding commutes with multiplication by a power of two. -/
theorem toFloat_scale {ρ : ℝ → Int} (h0 : ρ 0 = 0) (p : Nat) (e : Int) (x : ℝ) :
    toFloat ρ p ((2 : ℝ) ^ e * x) = (2 : ℚ) ^ e * toFloat ρ p x := by
  have h2 : (0 : ℝ) < (2 : ℝ) ^ e := zpow_pos two_pos _
  by_cases hx : x = 0
  · subst hx; simp [toFloat, h0]
  · unfold toFloat
    rw [abs_mul, abs_of_pos h2, log_scale e (abs_pos.2 hx)]
    rw [show e + Int.log 2 |x| - (p : Int) = e + (Int.log 2 |x| - p) by omega, zpow_add₀ (two_ne_zero (α := ℝ)),
      zpow_add₀ (two_ne_zero (α := ℚ)), mul_div_mul_left _ _ h2.ne']
    ring

/-- Floating-point arithmetic with `p + 1` binary digits, infinities and NaN, whose exponents do not overflow or underflow; results,
including those of the fused operation and the square root, are rounded once with `ρ`. -/
noncomputable def floatArith (ρ : ℝ → Int) (p : Nat) : Arith Fp := Fp.arith (fun q => .num (toFloat ρ p q)) fun q => toFloat ρ p (√(q : ℝ))

/-- Multiplication by a power of two. -/
def scale (e : Multiplicative Int) : Fp → Fp
  | .num q => .num ((2 : ℚ) ^ (Multiplicative.toAdd e) * q)
  | .inf b => .inf b
  | .nan => .nan

theorem two_pos_pow (e : Int) : (0 : ℚ) < (2 : ℚ) ^ e := zpow_pos two_pos _

theorem toFloat_q {ρ : ℝ → Int} (h0 : ρ 0 = 0) (p : Nat) (e : Int) (q : ℚ) :
    toFloat ρ p (((2 : ℚ) ^ e * q : ℚ) : ℝ) = (2 : ℚ) ^ e * toFloat ρ p (q : ℝ) := by
  rw [← toFloat_scale h0]
  push_cast
  rfl

theorem scale_neg_iff (e : Int) (q : ℚ) : (2 : ℚ) ^ e * q < 0 ↔ q < 0 :=
  ⟨fun h => (pos_iff_neg_of_mul_neg h).1 (two_pos_pow e), fun h => mul_neg_of_pos_of_neg (two_pos_pow e) h⟩

theorem flip_scale (b : Bool) (e : Int) (q : ℚ) : Fp.flip b ((2 : ℚ) ^ e * q) = Fp.flip b q := by
  unfold Fp.flip
  rw [decide_eq_decide.2]
  exact scale_neg_iff e q

theorem scale_zero_iff (e : Int) (q : ℚ) : (2 : ℚ) ^ e * q = 0 ↔ q = 0 := by
  rw [mul_eq_zero]
  exact or_iff_right (two_pos_pow e).ne'

/-- In floating point the powers of two are units, through every rounding, division by zero, infinity and NaN. -/
theorem float_units {ρ : ℝ → Int} (h0 : ρ 0 = 0) (p : Nat) : UnitLaws (floatArith ρ p) scale where
  one a := by cases a <;> simp [scale]
  mul_act g h a := by
    cases a
    · simp [scale, zpow_add₀ (two_ne_zero (α := ℚ)), mul_assoc]
    · rfl
    · rfl
  zero g := by simp [floatArith, Fp.arith, scale]
  neg g a := by cases a <;> simp [floatArith, Fp.arith, Fp.neg, scale]
  add g a b := by
    rcases a with a | a | _ <;> rcases b with b | b | _ <;> simp only [floatArith, Fp.arith, Fp.add, scale]
    · rw [← mul_add, toFloat_q h0]
    · split <;> rfl
  mul g h a b := by
    rcases a with a | a | _ <;> rcases b with b | b | _ <;> simp only [floatArith, Fp.arith, Fp.mul, scale, scale_zero_iff, flip_scale]
    · rw [mul_mul_mul_comm, ← zpow_add₀ (two_ne_zero (α := ℚ)), toFloat_q h0]; rfl
    · split <;> rfl
    · split <;> rfl
  div g h a b := by
    rcases a with a | a | _ <;> rcases b with b | b | _ <;>
      simp only [floatArith, Fp.arith, Fp.div, scale, scale_zero_iff, scale_neg_iff, flip_scale, mul_zero]
    · split
      · split <;> rfl
      · rw [mul_div_mul_comm, ← zpow_sub₀ (two_ne_zero (α := ℚ)), toFloat_q h0]; rfl
  fma g h a b c := by
    rcases a with a | a | _ <;> rcases b with b | b | _ <;> rcases c with c | c | _ <;>
      simp only [floatArith, Fp.arith, Fp.fma, Fp.mul, Fp.add, scale, scale_zero_iff, flip_scale]
    · rw [mul_mul_mul_comm, ← zpow_add₀ (two_ne_zero (α := ℚ)), show Multiplicative.toAdd (g * h) = Multiplicative.toAdd g + Multiplicative.toAdd h from rfl,
        ← mul_add, toFloat_q h0]
    all_goals (repeat' split) <;> simp_all

theorem float_root {ρ : ℝ → Int} (h0 : ρ 0 = 0) (p : Nat) : RootLaw (floatArith ρ p) scale := by
  intro g a
  rcases a with a | a | _
  · simp only [floatArith, Fp.arith, Fp.sqrt, scale, scale_neg_iff]
    split
    · rfl
    · show Fp.num _ = Fp.num _
      congr 1
      have e1 : (((2 : ℚ) ^ (Multiplicative.toAdd (g * g)) * a : ℚ) : ℝ) =
          ((2 : ℝ) ^ (Multiplicative.toAdd g) * (2 : ℝ) ^ (Multiplicative.toAdd g)) * (a : ℝ) := by
        push_cast
        rw [← zpow_add₀ (two_ne_zero (α := ℝ))]
        rfl
      rw [e1, Real.sqrt_mul (mul_self_nonneg _), Real.sqrt_mul_self (zpow_pos two_pos _).le, toFloat_scale h0]
  · simp only [floatArith, Fp.arith, Fp.sqrt, scale]
    split <;> rfl
  · rfl

end Verif.Units
