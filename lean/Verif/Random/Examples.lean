import Verif.Random.Props

/-! # C99: examples -/
namespace Verif.Random

/-- The first words of `std::mt19937` seeded with its default seed 5489 ([rand.eng.mers] 8), the last one first. -/
def table : Nat → List Word
  | 0 => [5489#32]
  | i + 1 => match table i with
    | [] => []
    | x :: xs => (1812433253#32 * (x ^^^ (x >>> 30)) + BitVec.ofNat 32 (i + 1)) :: x :: xs

/-- The first number drawn after the default seed is the one known from the literature, 3499211612. -/
example : temper ((table 397).headD 0#32 ^^^ twist 5489#32 (1812433253#32 * (5489#32 ^^^ (5489#32 >>> 30)) + 1#32)) = 3499211612#32 := by
  decide +kernel

/-- That is what `draw` computes. -/
theorem draw_zero (s : Fin 624 → Word) : draw s 0 = temper (s 397 ^^^ twist (s 0) (s 1)) := by
  have h := words_next s 0
  have h0 : words s 0 = s 0 := words_seed s 0
  have h1 : words s (0 + 1) = s 1 := words_seed s 1
  have h2 : words s (0 + 397) = s 397 := words_seed s 397
  rw [h0, h1, h2] at h
  rw [← h]
  rfl

/-- A rounding that rounds up to 1. -/
def up : Arith where
  round q := if 1 - 1 / 2 ^ 25 ≤ q then max q 1 else q
  below := 1 - 1 / 2 ^ 24

theorem up_ok : up.Ok where
  mono x y h := by
    simp only [up]
    split_ifs with h1 h2 h2
    · exact max_le_max h le_rfl
    · exact absurd (h1.trans h) h2
    · exact h.trans (le_max_left _ _)
    · exact h
  zero := by simp only [up]; rw [if_neg (by norm_num)]
  pos x h := by
    have hx : 0 < x := lt_of_lt_of_le (by positivity) h
    simp only [up]
    split_ifs
    · exact lt_of_lt_of_le hx (le_max_left _ _)
    · exact hx
  below_pos := by norm_num [up]
  below_lt := by norm_num [up]

/-- Rounding up is undone: 1 does not occur. -/
example : up.round ((2 ^ 32 - 1) / 2 ^ 32) = 1 := by norm_num [up]

/-- A state of zeros is changed: the hypothesis of the theorems is met by every entropy, also the one that gives only zeros. -/
example : seeded (fun _ => 0#32) 0 = 0x80000000#32 := by simp [seeded]

example : draw (seeded fun _ => 0#32) 0 ≠ 0#32 := by
  rw [draw_zero]
  simp [seeded]
  decide

/-- A piece of 624 elements meets the hypotheses of `c99_not_zero`. -/
example (a : Fin 624 → Word) (mem : Nat → ℚ) : ∃ i, ∃ h : i < (List.range 624).length, 0 < fill up .f32 a (List.range 624) mem (List.range 624)[i] := by
  obtain ⟨i, hi, _, _, h⟩ := c99_not_zero (ps := List.range 624) up_ok .f32 a List.nodup_range mem 0 (by simp [Entry.width])
  exact ⟨i, hi, h⟩

end Verif.Random
