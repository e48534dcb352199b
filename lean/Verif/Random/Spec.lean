import Verif.Random.Model

/-! # C99: what is assumed of floating-point numbers -/
namespace Verif.Random

/-- What is assumed of rounding: it keeps the order and the numbers 0 and 1, makes 0 of no quotient that is not 0, and the number below 1 is between. -/
structure Arith.Ok (A : Arith) : Prop where
  mono : ∀ x y, x ≤ y → A.round x ≤ A.round y
  zero : A.round 0 = 0
  pos : ∀ x, 1 / 2 ^ 64 ≤ x → 0 < A.round x
  below_pos : 0 < A.below
  below_lt : A.below < 1

/-- How many draws every element has for itself. -/
def Entry.width : Entry → Nat
  | .f32 => 1
  | .f64 => 2

/-- The draws for an entry, read as digits after the point, the last one first: this is rounded. -/
def quot (e : Entry) (s : Fin 624 → Word) (k : Nat) : ℚ := match e with
  | .f32 => ((draw s k).toNat : ℚ) / 2 ^ 32
  | .f64 => ((draw s k).toNat + (draw s (k + 1)).toNat * 2 ^ 32 : ℚ) / 2 ^ 64

end Verif.Random
