import Verif.Special.GMRES

/-! # Zeros, infinities and NaN: the specification for C69 and C70 -/
set_option linter.dupNamespace false
set_option linter.unusedSectionVars false
namespace Verif.Special
open Verif.Runtime Verif.Vector Verif.Matrix Verif.Planner Verif.Solver

/-- How an arithmetic treats special values, after IEEE 754: `Fin` are the finite values, `Zero` the zeros (of either sign), `NaN` the
values that are not a number; what is neither finite nor NaN is infinite.  Nothing is said about rounding, overflow and underflow. -/
structure IEEE {V : Type} (A : Arith V) (Fin Zero NaN : V → Prop) : Prop where
  zero_fin : ∀ a, Zero a → Fin a
  nan_not_fin : ∀ a, NaN a → ¬Fin a
  zero : Zero A.zero
  one : Fin A.one
  neg_fin : ∀ a, Fin a → Fin (A.neg a)
  neg_nan : ∀ a, NaN a → NaN (A.neg a)
  -- 0 + 0 is 0; an infinity or NaN plus anything is an infinity or NaN
  add_zero : ∀ a b, Zero a → Zero b → Zero (A.add a b)
  add_inf : ∀ a b, ¬Fin a ∨ ¬Fin b → ¬Fin (A.add a b)
  add_nan : ∀ a b, NaN a ∨ NaN b → NaN (A.add a b)
  -- 0 times a finite number is 0; an infinity or NaN times anything is an infinity or NaN, times 0 it is NaN
  mul_zero : ∀ a b, Zero a ∧ Fin b ∨ Fin a ∧ Zero b → Zero (A.mul a b)
  mul_inf : ∀ a b, ¬Fin a ∨ ¬Fin b → ¬Fin (A.mul a b)
  mul_inf_zero : ∀ a b, ¬Fin a ∧ Zero b ∨ Zero a ∧ ¬Fin b → NaN (A.mul a b)
  mul_nan : ∀ a b, NaN a ∨ NaN b → NaN (A.mul a b)
  -- the fused operation
  fma_zero : ∀ a b c, Zero a ∧ Fin b ∨ Fin a ∧ Zero b → Zero c → Zero (A.fma a b c)
  fma_inf : ∀ a b c, ¬Fin a ∨ ¬Fin b ∨ ¬Fin c → ¬Fin (A.fma a b c)
  fma_inf_zero : ∀ a b c, ¬Fin a ∧ Zero b ∨ Zero a ∧ ¬Fin b → NaN (A.fma a b c)
  fma_nan : ∀ a b c, NaN a ∨ NaN b ∨ NaN c → NaN (A.fma a b c)
  -- 0/1 is 0, ∞/x is ∞, x/0 is an infinity or NaN, 0/0 is NaN, ∞/∞ is NaN, x/∞ is 0
  div_one : ∀ a, Zero a → Zero (A.div a A.one)
  div_inf_fin : ∀ a b, ¬Fin a → Fin b → ¬Fin (A.div a b)
  div_by_zero : ∀ a b, Zero b → ¬Fin (A.div a b)
  div_zero_zero : ∀ a b, Zero a → Zero b → NaN (A.div a b)
  div_inf_inf : ∀ a b, ¬Fin a → ¬Fin b → NaN (A.div a b)
  div_by_inf : ∀ a b, Fin a → ¬Fin b → Zero (A.div a b) ∨ NaN (A.div a b)
  div_nan : ∀ a b, NaN a ∨ NaN b → NaN (A.div a b)
  -- the square root of 0 is 0, of an infinity an infinity or NaN
  sqrt_zero : ∀ a, Zero a → Zero (A.sqrt a)
  sqrt_inf : ∀ a, ¬Fin a → ¬Fin (A.sqrt a)
  sqrt_nan : ∀ a, NaN a → NaN (A.sqrt a)

section
variable {K P V : Type} [DecidableEq P] [DecidableEq K]

/-- All elements of the vectors `vs` are in `C`. -/
def Everywhere (G : Geometry P) (vs : List Vec) (s : Cell P → V) (C : V → Prop) : Prop :=
  ∀ v ∈ vs, ∀ p ∈ G.points v.space, C (s (.elem v.data p))

/-- Some element of the vectors `vs` is in `C`. -/
def Somewhere (G : Geometry P) (vs : List Vec) (s : Cell P → V) (C : V → Prop) : Prop :=
  ∃ v ∈ vs, ∃ p ∈ G.points v.space, C (s (.elem v.data p))

/-- All coefficients stored in the client's matrices, in rows of its system, are in `C`. -/
def AllCoefs (G : Geometry P) (calls : List (Setup K P V)) (C : V → Prop) : Prop :=
  ∀ u ∈ clientUnknowns G calls, ∀ t ∈ clientStored calls u, C t.2

/-- Some coefficient stored in the client's matrices, in a row of its system, is in `C`. -/
def SomeCoef (G : Geometry P) (calls : List (Setup K P V)) (C : V → Prop) : Prop :=
  ∃ u ∈ clientUnknowns G calls, ∃ t ∈ clientStored calls u, C t.2

end

/-! ## Floating-point numbers

An instance of the rules, with any rounding: finite values are rational numbers (zeros of either sign are one value). -/

/-- Floating-point values. -/
inductive Fp
  | num (q : ℚ)
  | inf (neg : Bool)
  | nan
deriving DecidableEq

namespace Fp

/-- The sign of an infinity times or divided by a number. -/
def flip (b : Bool) (q : ℚ) : Bool := xor b (decide (q < 0))

/-- Arithmetic with the rounding `rnd` and, for finite numbers, the square root function `root`. -/
def neg : Fp → Fp
  | num q => num (-q)
  | inf b => inf (!b)
  | nan => nan

def add (rnd : ℚ → Fp) : Fp → Fp → Fp
  | num a, num b => rnd (a + b)
  | num _, inf b => inf b
  | inf a, num _ => inf a
  | inf a, inf b => if a = b then inf a else nan
  | _, _ => nan

def mul (rnd : ℚ → Fp) : Fp → Fp → Fp
  | num a, num b => rnd (a * b)
  | num a, inf b => if a = 0 then nan else inf (flip b a)
  | inf a, num b => if b = 0 then nan else inf (flip a b)
  | inf a, inf b => inf (xor a b)
  | _, _ => nan

def div (rnd : ℚ → Fp) : Fp → Fp → Fp
  | num a, num b => if b = 0 then (if a = 0 then nan else inf (decide (a < 0))) else rnd (a / b)
  | num _, inf _ => num 0
  | inf a, num b => inf (flip a b)
  | _, _ => nan

def fma (rnd : ℚ → Fp) : Fp → Fp → Fp → Fp
  | num a, num b, num c => rnd (a * b + c)
  | num _, num _, inf c => inf c
  | a, b, num _ => mul num a b
  | a, b, inf c => add num (mul num a b) (inf c)
  | _, _, nan => nan

def sqrt (root : ℚ → ℚ) : Fp → Fp
  | num q => if q < 0 then nan else num (root q)
  | inf b => if b then nan else inf false
  | nan => nan

/-- The arithmetic with the rounding `rnd` and, for finite numbers, the (rounded) square root `root`. -/
def arith (rnd : ℚ → Fp) (root : ℚ → ℚ) : Arith Fp where
  zero := num 0
  one := num 1
  neg := neg
  add := add rnd
  sub a b := add rnd a (neg b)
  mul := mul rnd
  div := div rnd
  sqrt := sqrt root
  fma := fma rnd

/-- Finite. -/
def IsFin (a : Fp) : Prop := ∃ q, a = num q
/-- Zero. -/
def IsZero (a : Fp) : Prop := a = num 0
/-- Not a number. -/
def IsNaN (a : Fp) : Prop := a = nan

theorem add_inf (rnd : ℚ → Fp) (a b : Fp) (h : ¬IsFin a ∨ ¬IsFin b) : ¬IsFin (add rnd a b) := by
  revert h
  rcases a with a | a | _ <;> rcases b with b | b | _ <;> simp [add, IsFin]
  split <;> simp

theorem mul_inf (rnd : ℚ → Fp) (a b : Fp) (h : ¬IsFin a ∨ ¬IsFin b) : ¬IsFin (mul rnd a b) := by
  revert h
  rcases a with a | a | _ <;> rcases b with b | b | _ <;> simp [mul, IsFin]
  all_goals (split <;> simp)

theorem mul_inf_zero (rnd : ℚ → Fp) (a b : Fp) (h : ¬IsFin a ∧ IsZero b ∨ IsZero a ∧ ¬IsFin b) : IsNaN (mul rnd a b) := by
  rcases h with ⟨h, rfl⟩ | ⟨rfl, h⟩
  · rcases a with a | a | _
    · exact absurd ⟨a, rfl⟩ h
    · simp [mul, IsNaN]
    · rfl
  · rcases b with a | a | _
    · exact absurd ⟨a, rfl⟩ h
    · simp [mul, IsNaN]
    · rfl

theorem mul_nan (rnd : ℚ → Fp) (a b : Fp) (h : IsNaN a ∨ IsNaN b) : IsNaN (mul rnd a b) := by
  rcases h with rfl | rfl
  · rcases b with a | a | _ <;> rfl
  · rcases a with a | a | _ <;> rfl

theorem fma_eq (rnd : ℚ → Fp) (a b c : Fp) (h : ¬IsFin a ∨ ¬IsFin b) : fma rnd a b c = add num (mul num a b) c ∨
    (∃ q, c = num q) ∧ fma rnd a b c = mul num a b := by
  rcases c with c | c | _
  · refine Or.inr ⟨⟨c, rfl⟩, ?_⟩
    rcases a with a | a | _ <;> rcases b with b | b | _ <;> first | rfl | exact absurd h (by simp [IsFin])
  · refine Or.inl ?_
    rcases a with a | a | _ <;> rcases b with b | b | _ <;> rfl
  · refine Or.inl ?_
    have h1 : fma rnd a b nan = nan := by rcases a with a | a | _ <;> rcases b with b | b | _ <;> rfl
    have h2 : add num (mul num a b) nan = nan := by rcases mul num a b with a | a | _ <;> rfl
    rw [h1, h2]

theorem add_nan (rnd : ℚ → Fp) (a b : Fp) (h : IsNaN a ∨ IsNaN b) : IsNaN (add rnd a b) := by
  rcases h with rfl | rfl
  · rcases b with a | a | _ <;> rfl
  · rcases a with a | a | _ <;> rfl

theorem fma_inf (rnd : ℚ → Fp) (a b c : Fp) (h : ¬IsFin a ∨ ¬IsFin b ∨ ¬IsFin c) : ¬IsFin (fma rnd a b c) := by
  by_cases hab : ¬IsFin a ∨ ¬IsFin b
  · rcases fma_eq rnd a b c hab with h1 | ⟨-, h1⟩
    · rw [h1]; exact add_inf _ _ _ (Or.inl (mul_inf _ _ _ hab))
    · rw [h1]; exact mul_inf _ _ _ hab
  · obtain ⟨⟨a, rfl⟩, b, rfl⟩ : IsFin a ∧ IsFin b := by
      constructor
      · by_cases h1 : IsFin a
        · exact h1
        · exact absurd (Or.inl h1) hab
      · by_cases h1 : IsFin b
        · exact h1
        · exact absurd (Or.inr h1) hab
    rcases c with c | c | _
    · simp [IsFin] at h
    · simp [fma, IsFin]
    · simp [fma, IsFin]

theorem fma_nan (rnd : ℚ → Fp) (a b c : Fp) (h : IsNaN a ∨ IsNaN b ∨ IsNaN c) : IsNaN (fma rnd a b c) := by
  rcases h with rfl | rfl | rfl
  · rcases b with b | b | _ <;> rcases c with c | c | _ <;> rfl
  · rcases a with b | b | _ <;> rcases c with c | c | _ <;> rfl
  · rcases a with x | x | _ <;> rcases b with y | y | _ <;> rfl

theorem fma_inf_zero (rnd : ℚ → Fp) (a b c : Fp) (h : ¬IsFin a ∧ IsZero b ∨ IsZero a ∧ ¬IsFin b) : IsNaN (fma rnd a b c) := by
  have hab : ¬IsFin a ∨ ¬IsFin b := h.elim (fun h => Or.inl h.1) fun h => Or.inr h.2
  rcases fma_eq rnd a b c hab with h1 | ⟨-, h1⟩
  · rw [h1]; exact add_nan _ _ _ (Or.inl (mul_inf_zero _ _ _ h))
  · rw [h1]; exact mul_inf_zero _ _ _ h

/-- Any rounding (which may overflow to an infinity, underflow to zero, but keeps 0) gives an instance of the rules. -/
theorem ieee (rnd : ℚ → Fp) (root : ℚ → ℚ) (h0 : rnd 0 = num 0) (hr : root 0 = 0) :
    IEEE (arith rnd root) IsFin IsZero IsNaN := by
  have hmz : ∀ a b : Fp, IsZero a ∧ IsFin b ∨ IsFin a ∧ IsZero b → mul rnd a b = num 0 := by
    rintro a b (⟨rfl, q, rfl⟩ | ⟨⟨q, rfl⟩, rfl⟩) <;> simp [mul, h0]
  constructor
  · rintro a rfl; exact ⟨0, rfl⟩
  · rintro a rfl ⟨q, h⟩; cases h
  · rfl
  · exact ⟨1, rfl⟩
  · rintro a ⟨q, rfl⟩; exact ⟨-q, rfl⟩
  · rintro a rfl; rfl
  · rintro a b rfl rfl; simp [arith, add, h0, IsZero]
  · exact add_inf rnd
  · exact add_nan rnd
  · exact hmz
  · exact mul_inf rnd
  · exact mul_inf_zero rnd
  · exact mul_nan rnd
  · rintro a b c (⟨rfl, q, rfl⟩ | ⟨⟨q, rfl⟩, rfl⟩) rfl <;> simp [arith, fma, h0, IsZero]
  · exact fma_inf rnd
  · exact fma_inf_zero rnd
  · exact fma_nan rnd
  · rintro a rfl; simp [arith, div, h0, IsZero]
  · rintro (a | a | _) b h ⟨q, rfl⟩
    · exact absurd ⟨a, rfl⟩ h
    · simp [arith, div, IsFin]
    · simp [arith, div, IsFin]
  · rintro (a | a | _) b rfl <;> simp [arith, div, IsFin]
    split <;> simp
  · rintro a b rfl rfl; simp [arith, div, IsNaN]
  · rintro (a | a | _) (b | b | _) ha hb <;> simp_all [arith, div, IsFin, IsNaN]
  · rintro (a | a | _) (b | b | _) ha hb <;> simp_all [arith, div, IsFin, IsZero, IsNaN]
  · rintro (a | a | _) (b | b | _) h <;> simp_all [arith, div, IsNaN]
  · rintro a rfl; simp [arith, sqrt, hr, IsZero]
  · rintro (a | a | _) h <;> simp_all [arith, sqrt, IsFin]
    split <;> simp
  · rintro a rfl; rfl

end Fp

end Verif.Special
