import Verif.Vector.Model
import Mathlib.Algebra.Field.Defs

/-! Exact arithmetic: the entry type is a field and the operations are its operations. -/
namespace Verif.Vector

/-- The entry arithmetic is exact field arithmetic (no rounding); `fma a b c` is `a * b + c`.  Division by zero
and `sqrt` are left open. -/
structure Arith.Exact {V : Type} [Field V] (A : Arith V) : Prop where
  zero : A.zero = 0
  one : A.one = 1
  neg : ∀ a, A.neg a = -a
  add : ∀ a b, A.add a b = a + b
  sub : ∀ a b, A.sub a b = a - b
  mul : ∀ a b, A.mul a b = a * b
  div : ∀ a b, b ≠ 0 → A.div a b = a / b
  fma : ∀ a b c, A.fma a b c = a * b + c

/-- Exact arithmetic of a field with a given square root function. -/
def exactArith (V : Type) [Field V] (sqrt : V → V) : Arith V where
  zero := 0
  one := 1
  neg a := -a
  add a b := a + b
  sub a b := a - b
  mul a b := a * b
  div a b := a / b
  sqrt := sqrt
  fma a b c := a * b + c

theorem exactArith_exact (V : Type) [Field V] (sqrt : V → V) : (exactArith V sqrt).Exact :=
  ⟨rfl, rfl, fun _ => rfl, fun _ _ => rfl, fun _ _ => rfl, fun _ _ => rfl, fun _ _ _ => rfl, fun _ _ _ => rfl⟩

end Verif.Vector
