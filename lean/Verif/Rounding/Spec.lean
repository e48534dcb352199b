import Verif.Vector.Exact
import Mathlib.Analysis.Real.Sqrt
import Mathlib.Data.Int.Log
import Mathlib.Tactic.Linarith
import Mathlib.Tactic.FieldSimp

/-! # Floating-point arithmetic: the standard model

The element type is ℝ; every operation returns the exact result up to a relative error `u` (the unit roundoff).  Overflow, underflow and
NaN are outside: the statements are about runs in which none occurs. -/
set_option linter.dupNamespace false
namespace Verif.Rounding
open Verif.Vector

/-- Arithmetic with relative error at most `u` per operation; changing the sign is exact. -/
structure Rounded (u : ℝ) (A : Arith ℝ) : Prop where
  nonneg : 0 ≤ u
  zero : A.zero = 0
  one : A.one = 1
  neg : ∀ a, A.neg a = -a
  add : ∀ a b, |A.add a b - (a + b)| ≤ u * |a + b|
  sub : ∀ a b, |A.sub a b - (a - b)| ≤ u * |a - b|
  mul : ∀ a b, |A.mul a b - a * b| ≤ u * |a * b|
  div : ∀ a b, b ≠ 0 → |A.div a b - a / b| ≤ u * |a / b|
  sqrt : ∀ a, 0 ≤ a → |A.sqrt a - √a| ≤ u * √a
  fma : ∀ a b c, |A.fma a b c - (a * b + c)| ≤ u * |a * b + c|

/-- Arithmetic that computes exactly and then applies `rnd`. -/
noncomputable def roundedArith (rnd : ℝ → ℝ) : Arith ℝ where
  zero := 0
  one := 1
  neg a := -a
  add a b := rnd (a + b)
  sub a b := rnd (a - b)
  mul a b := rnd (a * b)
  div a b := rnd (a / b)
  sqrt a := rnd √a
  fma a b c := rnd (a * b + c)

theorem roundedArith_rounded {u : ℝ} (hu : 0 ≤ u) {rnd : ℝ → ℝ} (h : ∀ x, |rnd x - x| ≤ u * |x|) : Rounded u (roundedArith rnd) where
  nonneg := hu
  zero := rfl
  one := rfl
  neg _ := rfl
  add _ _ := h _
  sub _ _ := h _
  mul _ _ := h _
  div _ _ _ := h _
  sqrt a _ := by
    have := h √a
    rwa [abs_of_nonneg (Real.sqrt_nonneg a)] at this
  fma _ _ _ := h _

/-- Rounding towards minus infinity to a multiple of `2^e`, where `2^(e+p)` is the largest power of two not above `|x|`: keeps `p + 1`
binary digits. -/
noncomputable def chop (p : Nat) (x : ℝ) : ℝ := (⌊x / (2 : ℝ) ^ (Int.log 2 |x| - p)⌋ : ℝ) * (2 : ℝ) ^ (Int.log 2 |x| - p)

/-- Binary floating-point numbers with `p + 1` digits and unbounded exponents satisfy the model with `u = 2^-p`. -/
theorem chop_rounded (p : Nat) : Rounded ((1 / 2) ^ p) (roundedArith (chop p)) := by
  refine roundedArith_rounded (by positivity) fun x => ?_
  unfold chop
  set q : ℝ := (2 : ℝ) ^ (Int.log 2 |x| - p) with hq
  have hq0 : 0 < q := zpow_pos two_pos _
  by_cases hx : x = 0
  · subst hx; simp
  have hx0 : 0 < |x| := abs_pos.2 hx
  have h1 : (⌊x / q⌋ : ℝ) * q ≤ x := by
    have := Int.floor_le (x / q)
    calc (⌊x / q⌋ : ℝ) * q ≤ x / q * q := by nlinarith
      _ = x := by field_simp
  have h2 : x - q ≤ (⌊x / q⌋ : ℝ) * q := by
    have := Int.lt_floor_add_one (x / q)
    have h3 : x / q * q = x := by field_simp
    nlinarith
  have h3 : q ≤ (1 / 2) ^ p * |x| := by
    have h4 := Int.zpow_log_le_self (b := 2) (r := |x|) (by norm_num) hx0
    have h5 : q = (1 / 2) ^ p * (2 : ℝ) ^ Int.log 2 |x| := by
      rw [hq, zpow_sub₀ (by norm_num), zpow_natCast, div_eq_mul_inv, mul_comm, one_div, inv_pow]
    rw [h5]
    have h6 : ((2 : ℕ) : ℝ) ^ Int.log 2 |x| = (2 : ℝ) ^ Int.log 2 |x| := by norm_num
    rw [h6] at h4
    exact mul_le_mul_of_nonneg_left h4 (by positivity)
  rw [abs_le]
  constructor <;> linarith

/-- Exact arithmetic is the case `u = 0`. -/
theorem exact_rounded : Rounded 0 (exactArith ℝ Real.sqrt) where
  nonneg := le_refl _
  zero := rfl
  one := rfl
  neg _ := rfl
  add a b := by simp [exactArith]
  sub a b := by simp [exactArith]
  mul a b := by simp [exactArith]
  div a b _ := by simp [exactArith]
  sqrt a _ := by simp [exactArith]
  fma a b c := by simp [exactArith]

/-! ## Accumulated errors -/

/-- `t` is `g` up to `c` relative errors, relative to `T ≥ |g|`. -/
def Near (u : ℝ) (c : Nat) (t g T : ℝ) : Prop := |t - g| ≤ ((1 + u) ^ c - 1) * T ∧ |g| ≤ T

variable {u : ℝ} {A : Arith ℝ}

theorem Near.nonneg {c : Nat} {t g T : ℝ} (h : Near u c t g T) : 0 ≤ T := (abs_nonneg g).trans h.2

theorem Near.mono (hu : 0 ≤ u) {c c' : Nat} {t g T T' : ℝ} (h : Near u c t g T) (hc : c ≤ c') (hT : T ≤ T') : Near u c' t g T' := by
  have h0 := h.nonneg
  have h1 : (1 + u) ^ c ≤ (1 + u) ^ c' := pow_le_pow_right₀ (by linarith) hc
  have h2 : 1 ≤ (1 + u) ^ c := one_le_pow₀ (by linarith)
  refine ⟨h.1.trans ?_, h.2.trans hT⟩
  exact mul_le_mul (by linarith) hT h0 (by linarith)

theorem Near.exact (a : ℝ) : Near u 0 a a |a| := ⟨by simp, le_refl _⟩

theorem Near.bound {c : Nat} {t g T : ℝ} (h : Near u c t g T) : |t| ≤ (1 + u) ^ c * T := by
  have h1 : |t| ≤ |t - g| + |g| := by
    have := abs_add_le (t - g) g
    simpa using this
  have := h.1
  have := h.2
  nlinarith

/-- One more operation with relative error `u` on something that is near. -/
theorem Near.round (hu : 0 ≤ u) {c : Nat} {a t g T : ℝ} (h : Near u c t g T) (ha : |a - t| ≤ u * |t|) : Near u (c + 1) a g T := by
  refine ⟨?_, h.2⟩
  have h1 : |a - g| ≤ |a - t| + |t - g| := by
    have := abs_add_le (a - t) (t - g)
    simpa using this
  have h2 := h.bound
  have h3 := h.1
  have h4 : u * |t| ≤ u * ((1 + u) ^ c * T) := mul_le_mul_of_nonneg_left h2 hu
  rw [pow_succ]
  nlinarith

theorem Near.plus {c : Nat} {a e E t g T : ℝ} (h : Near u c a e E) (h' : Near u c t g T) :
    Near u c (a + t) (e + g) (E + T) := by
  refine ⟨?_, (abs_add_le _ _).trans (add_le_add h.2 h'.2)⟩
  have h1 : |a + t - (e + g)| ≤ |a - e| + |t - g| := by
    have := abs_add_le (a - e) (t - g)
    rwa [show a - e + (t - g) = a + t - (e + g) by ring] at this
  have := h.1
  have := h'.1
  nlinarith

theorem Near.times (hu : 0 ≤ u) {c c' : Nat} {a e E t g T : ℝ} (h : Near u c a e E) (h' : Near u c' t g T) :
    Near u (c + c') (a * t) (e * g) (E * T) := by
  have h0 := h.nonneg
  have h0' := h'.nonneg
  have hp : 1 ≤ (1 + u) ^ c := one_le_pow₀ (by linarith)
  have hp' : 1 ≤ (1 + u) ^ c' := one_le_pow₀ (by linarith)
  refine ⟨?_, ?_⟩
  · have h1 : |a * t - e * g| ≤ |a| * |t - g| + |a - e| * |g| := by
      have := abs_add_le (a * (t - g)) ((a - e) * g)
      rw [abs_mul, abs_mul] at this
      rwa [show a * (t - g) + (a - e) * g = a * t - e * g by ring] at this
    have h2 : |a| * |t - g| ≤ (1 + u) ^ c * E * (((1 + u) ^ c' - 1) * T) :=
      mul_le_mul h.bound h'.1 (abs_nonneg _) (by positivity)
    have h3 : |a - e| * |g| ≤ ((1 + u) ^ c - 1) * E * T := mul_le_mul h.1 h'.2 (abs_nonneg _) (mul_nonneg (by linarith) h0)
    rw [pow_add]
    nlinarith
  · rw [abs_mul]
    exact mul_le_mul h.2 h'.2 (abs_nonneg _) h0

theorem Near.add (hA : Rounded u A) {c : Nat} {a e E t g T : ℝ} (h : Near u c a e E) (h' : Near u c t g T) :
    Near u (c + 1) (A.add a t) (e + g) (E + T) := (h.plus h').round hA.nonneg (hA.add a t)

theorem Near.mul (hA : Rounded u A) {c c' : Nat} {a e E t g T : ℝ} (h : Near u c a e E) (h' : Near u c' t g T) :
    Near u (c + c' + 1) (A.mul a t) (e * g) (E * T) := (h.times hA.nonneg h').round hA.nonneg (hA.mul a t)

/-- A sum accumulated term by term. -/
theorem Near.fold (hA : Rounded u A) {X : Type} (f g T : X → ℝ) (l : List X) : ∀ {c : Nat} {a e E : ℝ}, Near u c a e E →
    (∀ x ∈ l, Near u c (f x) (g x) (T x)) →
    Near u (c + l.length) (l.foldl (fun a x => A.add a (f x)) a) (e + (l.map g).sum) (E + (l.map T).sum) := by
  induction l with
  | nil => intro c a e E h _; simpa using h
  | cons x l ih =>
    intro c a e E h hl
    have h1 := h.add hA (hl x (List.mem_cons_self ..))
    have h2 := ih h1 fun y hy => (hl y (List.mem_cons_of_mem _ hy)).mono hA.nonneg (Nat.le_succ c) (le_refl _)
    have e1 : e + ((x :: l).map g).sum = e + g x + (l.map g).sum := by rw [List.map_cons, List.sum_cons, add_assoc]
    have e2 : E + ((x :: l).map T).sum = E + T x + (l.map T).sum := by rw [List.map_cons, List.sum_cons, add_assoc]
    rw [List.foldl_cons, e1, e2, List.length_cons, show c + (l.length + 1) = c + 1 + l.length by omega]
    exact h2

end Verif.Rounding
