import Mathlib.Data.Rat.Defs
import Mathlib.Algebra.Order.Field.Rat

/-!
# C99: filling a vector with random numbers

Models `RandomFillTask::task_body` (`src/UtilityTasks.cpp` 144-166), `seeded_mersenne_twister` (128-140) and, since these are made of them, `std::mt19937`
and `std::uniform_real_distribution` of the C++ standard library.

Simplifications: the words that `std::seed_seq` makes of the entropy are arbitrary (the entropy source is, and `seed_seq` is a function); the numbers are
exact rationals rounded by an arbitrary function; assertions about regions are left out.
-/
namespace Verif.Random

/-- The words of the generator. -/
abbrev Word := BitVec 32

/-- `std::mt19937` seeded with a `seed_seq` (`UtilityTasks.cpp` 138-139; C++17 [rand.eng.mers] 9): a state that would only produce zeros is changed. -/
def seeded (a : Fin 624 → Word) : Fin 624 → Word :=
  if a 0 &&& 0x80000000#32 = 0#32 ∧ ∀ i, i ≠ 0 → a i = 0#32 then fun i => if i = 0 then 0x80000000#32 else a i else a

/-- The transition of `std::mt19937` ([rand.eng.mers] 2): of the word 624 places before and the one after it. -/
def twist (x y : Word) : Word :=
  let z := (x &&& 0x80000000#32) ||| (y &&& 0x7fffffff#32)
  (z >>> 1) ^^^ (if z.getLsbD 0 then 0x9908b0df#32 else 0#32)

/-- The words of `std::mt19937`, those of the seed first. -/
def words (s : Fin 624 → Word) (k : Nat) : Word :=
  if h : k < 624 then s ⟨k, h⟩ else words s (k - 227) ^^^ twist (words s (k - 624)) (words s (k - 623))
termination_by k
decreasing_by all_goals omega

/-- The generation of `std::mt19937` ([rand.eng.mers] 3). -/
def temper (z : Word) : Word :=
  let z := z ^^^ (z >>> 11)
  let z := z ^^^ ((z <<< 7) &&& 0x9d2c5680#32)
  let z := z ^^^ ((z <<< 15) &&& 0xefc60000#32)
  z ^^^ (z >>> 18)

/-- The `k`-th number drawn from the generator. -/
def draw (s : Fin 624 → Word) (k : Nat) : Word := temper (words s (624 + k))

/-- `float` or `double`. -/
inductive Entry
  | f32
  | f64
  deriving DecidableEq

/-- How many numbers are drawn for an entry: `std::generate_canonical` needs 24 or 53 bits. -/
def Entry.draws : Entry → Nat
  | .f32 => 1
  | .f64 => 2

/-- Arithmetic of an entry type: how the quotient is rounded, and `nextafter(1, 0)`. -/
structure Arith where
  round : ℚ → ℚ
  below : ℚ

/-- `dist(rng)` (`UtilityTasks.cpp` 158-160, 164) as libstdc++ does it: the numbers drawn as digits, divided by the range, and the next number
below 1 if rounding made it 1; times `1 - 0`, plus 0.  `k`: how many numbers were drawn before. -/
def uniform (A : Arith) (e : Entry) (s : Fin 624 → Word) (k : Nat) : ℚ :=
  let q : ℚ := match e with
    | .f32 => ((draw s k).toNat : ℚ) / 2 ^ 32
    | .f64 => ((draw s k).toNat + (draw s (k + 1)).toNat * 2 ^ 32 : ℚ) / 2 ^ 64
  let r := A.round q
  let r := if 1 ≤ r then A.below else r
  r * (1 - 0) + 0

/-- The loop (`UtilityTasks.cpp` 162-165) over the points still to come, after `k` draws. -/
def loop {P : Type} [DecidableEq P] (A : Arith) (e : Entry) (s : Fin 624 → Word) : List P → Nat → (P → ℚ) → (P → ℚ)
  | [], _, mem => mem
  | p :: ps, k, mem => loop A e s ps (k + e.draws) (fun q => if q = p then uniform A e s k else mem q)

/-- `RandomFillTask::task_body` (`UtilityTasks.cpp` 144-166): the words the entropy gives, the points of the piece in the order of the iterator,
and the memory. -/
def fill {P : Type} [DecidableEq P] (A : Arith) (e : Entry) (a : Fin 624 → Word) (ps : List P) (mem : P → ℚ) : P → ℚ :=
  loop A e (seeded a) ps 0 mem

end Verif.Random
