import Verif.Random.Spec
import Mathlib.Tactic.Linarith
import Mathlib.Tactic.Positivity
import Mathlib.Tactic.FieldSimp
import Mathlib.Tactic.NormNum
import Mathlib.Tactic.IntervalCases
import Mathlib.Data.List.Basic

/-! # C99: filling a vector with random numbers: proofs -/
set_option linter.unusedSimpArgs false
namespace Verif.Random
variable {P : Type} [DecidableEq P]

/-! ## The generator -/

theorem xor_shift_zero {z : Word} {k : Nat} (hk : 0 < k) (h : z ^^^ (z >>> k) = 0#32) : z = 0#32 := by
  have e : z = z >>> k := by rwa [BitVec.xor_eq_zero_iff] at h
  have e2 : z.toNat = z.toNat / 2 ^ k := by
    conv_lhs => rw [e]
    rw [BitVec.toNat_ushiftRight, Nat.shiftRight_eq_div_pow]
  apply BitVec.eq_of_toNat_eq
  rw [BitVec.toNat_ofNat]
  by_contra h0
  have h0 : 0 < z.toNat := Nat.pos_of_ne_zero (by simpa using h0)
  have := Nat.div_lt_self h0 (Nat.one_lt_two_pow (by omega : k ≠ 0))
  omega

theorem xor_mask_zero {z b : Word} {k : Nat} (hk : 0 < k) (h : z ^^^ ((z <<< k) &&& b) = 0#32) : z = 0#32 := by
  have e : z = (z <<< k) &&& b := by rwa [BitVec.xor_eq_zero_iff] at h
  have key : ∀ n, z.getLsbD n = false := by
    intro n
    induction n using Nat.strong_induction_on with
    | _ n ih =>
      rw [e, BitVec.getLsbD_and, BitVec.getLsbD_shiftLeft]
      by_cases hn : n < k
      · simp [hn]
      · rw [ih (n - k) (by omega)]; simp
  apply BitVec.eq_of_getLsbD_eq
  intro i _
  rw [key i]; simp

theorem temper_zero {z : Word} (h : temper z = 0#32) : z = 0#32 :=
  xor_shift_zero (k := 11) (by omega) (xor_mask_zero (k := 7) (by omega) (xor_mask_zero (k := 15) (by omega)
    (xor_shift_zero (k := 18) (by omega) h)))

theorem twist_zero {x y : Word} (h : twist x y = 0#32) : x &&& 0x80000000#32 = 0#32 ∧ y &&& 0x7fffffff#32 = 0#32 := by
  unfold twist at h
  have hz : ((x &&& 0x80000000#32) ||| (y &&& 0x7fffffff#32)) = 0#32 := by
    generalize ((x &&& 0x80000000#32) ||| (y &&& 0x7fffffff#32)) = z at h
    simp only at h
    split_ifs at h with hb
    · have := congrArg (fun w : Word => w.getLsbD 31) h
      simp [BitVec.getLsbD_xor, BitVec.getLsbD_ushiftRight] at this
    · have h1 : z >>> 1 = 0#32 := by simpa using h
      have h2 := congrArg BitVec.toNat h1
      rw [BitVec.toNat_ushiftRight, Nat.shiftRight_eq_div_pow] at h2
      have h3 : z.toNat % 2 = 0 := by
        have := hb
        rw [BitVec.getLsbD, Nat.testBit_zero] at this
        simp at this; omega
      apply BitVec.eq_of_toNat_eq
      simp at h2 ⊢
      omega
  have := BitVec.or_eq_zero_iff.1 hz
  exact this

theorem words_next (s : Fin 624 → Word) (k : Nat) : words s (k + 624) = words s (k + 397) ^^^ twist (words s k) (words s (k + 1)) := by
  rw [words, dif_neg (by omega)]
  rw [show k + 624 - 227 = k + 397 by omega, show k + 624 - 624 = k by omega, show k + 624 - 623 = k + 1 by omega]

theorem words_seed (s : Fin 624 → Word) (i : Fin 624) : words s i = s i := by
  rw [words, dif_pos i.isLt]

/-- From place `k` on, the words of the generator would all be zero. -/
def Dead (s : Fin 624 → Word) (k : Nat) : Prop :=
  words s k &&& 0x80000000#32 = 0#32 ∧ ∀ i, 1 ≤ i → i < 624 → words s (k + i) = 0#32

theorem both_halves {y : Word} (h1 : y &&& 0x80000000#32 = 0#32) (h2 : y &&& 0x7fffffff#32 = 0#32) : y = 0#32 := by
  apply BitVec.eq_of_getLsbD_eq
  intro i hi
  have a := congrArg (fun w : Word => w.getLsbD i) h1
  have b := congrArg (fun w : Word => w.getLsbD i) h2
  simp only [BitVec.getLsbD_and, BitVec.getLsbD_zero] at a b ⊢
  interval_cases i <;> simp_all

theorem Dead.before {s : Fin 624 → Word} {k : Nat} (h : Dead s (k + 1)) : Dead s k := by
  obtain ⟨h1, h2⟩ := h
  have e := words_next s k
  have e1 : words s (k + 624) = 0#32 := by have := h2 623 (by omega) (by omega); rwa [show k + 1 + 623 = k + 624 by omega] at this
  have e2 : words s (k + 397) = 0#32 := by have := h2 396 (by omega) (by omega); rwa [show k + 1 + 396 = k + 397 by omega] at this
  rw [e1, e2] at e
  have ht : twist (words s k) (words s (k + 1)) = 0#32 := by simpa using e.symm
  obtain ⟨a, b⟩ := twist_zero ht
  refine ⟨a, fun i hi hi' => ?_⟩
  rcases Nat.eq_or_lt_of_le hi with rfl | hi
  · exact both_halves h1 b
  · have := h2 (i - 1) (by omega) (by omega)
    rwa [show k + 1 + (i - 1) = k + i by omega] at this

theorem not_dead (a : Fin 624 → Word) : ∀ k, ¬Dead (seeded a) k := by
  intro k
  induction k with
  | succ k ih => exact fun h => ih h.before
  | zero =>
    rintro ⟨h1, h2⟩
    have e0 : words (seeded a) 0 = seeded a 0 := words_seed _ 0
    have ei : ∀ i : Fin 624, i ≠ 0 → seeded a i = 0#32 := by
      intro i hi
      have := h2 i (by have := Fin.val_ne_of_ne hi; simp at this; omega) i.isLt
      rw [Nat.zero_add, words_seed] at this
      exact this
    rw [e0] at h1
    by_cases hc : a 0 &&& 0x80000000#32 = 0#32 ∧ ∀ i, i ≠ 0 → a i = 0#32
    · rw [seeded, if_pos hc] at h1
      simp at h1
    · rw [seeded, if_neg hc] at h1 ei
      exact hc ⟨h1, ei⟩

/-- Of 624 numbers drawn in succession, one is not zero. -/
theorem draws_alive (a : Fin 624 → Word) (k : Nat) : ∃ i < 624, draw (seeded a) (k + i) ≠ 0#32 := by
  by_contra h
  push Not at h
  have hz : ∀ i < 624, words (seeded a) (624 + k + i) = 0#32 := fun i hi => by
    have := temper_zero (h i hi)
    rwa [show 624 + (k + i) = 624 + k + i by omega] at this
  refine not_dead a (624 + k) ⟨?_, fun i _ hi => hz i hi⟩
  have := hz 0 (by omega)
  rw [Nat.add_zero] at this
  rw [this]; rfl

/-! ## The numbers -/

theorem uniform_eq (A : Arith) (e : Entry) (s : Fin 624 → Word) (k : Nat) :
    uniform A e s k = if 1 ≤ A.round (quot e s k) then A.below else A.round (quot e s k) := by
  cases e <;> simp only [uniform, sub_zero, mul_one, add_zero] <;> rfl

theorem quot_nonneg (e : Entry) (s : Fin 624 → Word) (k : Nat) : 0 ≤ quot e s k := by
  cases e <;> simp only [quot] <;> positivity

theorem uniform_range {A : Arith} (hA : A.Ok) (e : Entry) (s : Fin 624 → Word) (k : Nat) : 0 ≤ uniform A e s k ∧ uniform A e s k < 1 := by
  rw [uniform_eq]
  split_ifs with h
  · exact ⟨hA.below_pos.le, hA.below_lt⟩
  · exact ⟨hA.zero ▸ hA.mono _ _ (quot_nonneg e s k), not_le.1 h⟩

theorem word_pos {w : Word} (h : w ≠ 0#32) : (1 : ℚ) ≤ w.toNat := by
  have : w.toNat ≠ 0 := fun e => h (BitVec.eq_of_toNat_eq (by simpa using e))
  exact_mod_cast Nat.pos_of_ne_zero this

theorem uniform_pos {A : Arith} (hA : A.Ok) (e : Entry) (s : Fin 624 → Word) (k : Nat) (h : ∃ i < e.draws, draw s (k + i) ≠ 0#32) :
    0 < uniform A e s k := by
  have hq : 1 / 2 ^ 64 ≤ quot e s k := by
    obtain ⟨i, hi, hw⟩ := h
    have hw := word_pos hw
    cases e with
    | f32 =>
      obtain rfl : i = 0 := by simpa [Entry.draws] using hi
      simp only [Nat.add_zero] at hw
      simp only [quot]
      rw [div_le_div_iff₀ (by positivity) (by positivity)]
      nlinarith
    | f64 =>
      simp only [quot]
      apply div_le_div_of_nonneg_right _ (by positivity)
      have n0 : (0 : ℚ) ≤ (draw s k).toNat := by positivity
      have n1 : (0 : ℚ) ≤ (draw s (k + 1)).toNat := by positivity
      have hi : i = 0 ∨ i = 1 := by simp [Entry.draws] at hi; omega
      rcases hi with rfl | rfl
      · simp only [Nat.add_zero] at hw; nlinarith
      · nlinarith
  rw [uniform_eq]
  split_ifs
  · exact hA.below_pos
  · exact hA.pos _ hq

/-! ## The task -/

theorem draws_width (e : Entry) : e.draws = e.width := by cases e <;> rfl

theorem loop_other (A : Arith) (e : Entry) (s : Fin 624 → Word) (ps : List P) : ∀ k mem p, p ∉ ps → loop A e s ps k mem p = mem p := by
  induction ps with
  | nil => intro k mem p _; rfl
  | cons q ps ih =>
    intro k mem p hp
    rw [List.mem_cons, not_or] at hp
    rw [loop, ih _ _ _ hp.2, if_neg hp.1]

theorem loop_at (A : Arith) (e : Entry) (s : Fin 624 → Word) (ps : List P) : ∀ k mem, ps.Nodup → ∀ i (h : i < ps.length),
    loop A e s ps k mem ps[i] = uniform A e s (k + i * e.draws) := by
  induction ps with
  | nil => intro k mem _ i h; cases h
  | cons q ps ih =>
    intro k mem hn i h
    rw [List.nodup_cons] at hn
    rw [loop]
    cases i with
    | zero => rw [List.getElem_cons_zero, loop_other _ _ _ _ _ _ _ hn.1, if_pos rfl]; simp
    | succ i =>
      rw [List.getElem_cons_succ, ih _ _ hn.2]
      congr 1
      rw [Nat.succ_mul]; omega

/-- **C99.** Only elements of the piece are written. -/
theorem c99_frame (A : Arith) (e : Entry) (a : Fin 624 → Word) (ps : List P) (mem : P → ℚ) {p : P} (hp : p ∉ ps) :
    fill A e a ps mem p = mem p := loop_other _ _ _ _ _ _ _ hp

/-- **C99.** Every element of the piece gets a number that is not negative and less than 1, whatever the entropy and whatever was there. -/
theorem c99_range {A : Arith} (hA : A.Ok) (e : Entry) (a : Fin 624 → Word) {ps : List P} (hn : ps.Nodup) (mem : P → ℚ) {p : P} (hp : p ∈ ps) :
    0 ≤ fill A e a ps mem p ∧ fill A e a ps mem p < 1 := by
  obtain ⟨i, hi, rfl⟩ := List.getElem_of_mem hp
  rw [fill, loop_at _ _ _ _ _ _ hn]
  exact uniform_range hA _ _ _

/-- **C99.** The number an element gets depends on nothing but the entropy and how many elements the iterator visits before; every element
has its own draws: the `i`-th uses those from `i * e.width` on, no other element uses them. -/
theorem c99_draws (A : Arith) (e : Entry) (a : Fin 624 → Word) {ps : List P} (hn : ps.Nodup) (mem : P → ℚ) (i : Nat) (h : i < ps.length) :
    fill A e a ps mem ps[i] = uniform A e (seeded a) (i * e.width) := by
  rw [fill, loop_at _ _ _ _ _ _ hn, Nat.zero_add, draws_width]

/-- **C99.** The number the `i`-th element gets is its draws, read as digits after the point, rounded; the number below 1 if that rounds to 1. -/
theorem c99_value (A : Arith) (e : Entry) (a : Fin 624 → Word) {ps : List P} (hn : ps.Nodup) (mem : P → ℚ) (i : Nat) (h : i < ps.length) :
    fill A e a ps mem ps[i] = if 1 ≤ A.round (quot e (seeded a) (i * e.width)) then A.below else A.round (quot e (seeded a) (i * e.width)) := by
  rw [c99_draws _ _ _ hn, uniform_eq]

/-- **C99.** Before rounding, all multiples of `2⁻³²` (`float`) or `2⁻⁶⁴` (`double`) from 0 to 1, 1 excluded, can occur, each from one combination of
draws only. -/
theorem c99_fair (e : Entry) (s s' : Fin 624 → Word) (k k' : Nat) :
    (∃ n : Nat, n < 2 ^ (32 * e.width) ∧ quot e s k = (n : ℚ) / 2 ^ (32 * e.width)) ∧
      (quot e s k = quot e s' k' → ∀ i < e.width, draw s (k + i) = draw s' (k' + i)) := by
  cases e with
  | f32 =>
    refine ⟨⟨(draw s k).toNat, (draw s k).isLt, by simp [quot, Entry.width]⟩, fun h i hi => ?_⟩
    obtain rfl : i = 0 := by simpa [Entry.width] using hi
    simp only [quot] at h
    rw [div_left_inj' (by positivity)] at h
    exact BitVec.eq_of_toNat_eq (by exact_mod_cast h)
  | f64 =>
    have b0 := (draw s k).isLt
    have b1 := (draw s (k + 1)).isLt
    have b2 := (draw s' k').isLt
    have b3 := (draw s' (k' + 1)).isLt
    refine ⟨⟨(draw s k).toNat + (draw s (k + 1)).toNat * 2 ^ 32, by simp only [Entry.width]; norm_num at b0 b1 ⊢; omega, by simp only [quot, Entry.width]; push_cast; norm_num⟩, fun h i hi => ?_⟩
    simp only [quot] at h
    rw [div_left_inj' (by positivity)] at h
    have h : (draw s k).toNat + (draw s (k + 1)).toNat * 2 ^ 32 = (draw s' k').toNat + (draw s' (k' + 1)).toNat * 2 ^ 32 := by exact_mod_cast h
    have hi : i = 0 ∨ i = 1 := by simp [Entry.width] at hi; omega
    rcases hi with rfl | rfl <;> exact BitVec.eq_of_toNat_eq (by first | omega | (simp only [Nat.add_zero]; omega))

/-- **C99.** Whatever the entropy: of 624 elements of type `float`, or 312 of type `double`, that the iterator visits in succession, one gets a number
that is not 0.  So no piece of that many elements is filled with zeros. -/
theorem c99_not_zero {A : Arith} (hA : A.Ok) (e : Entry) (a : Fin 624 → Word) {ps : List P} (hn : ps.Nodup) (mem : P → ℚ) (j : Nat)
    (h : (j * e.width) + 624 ≤ ps.length * e.width) :
    ∃ i, ∃ hi : i < ps.length, j ≤ i ∧ (i - j) * e.width < 624 ∧ 0 < fill A e a ps mem ps[i] := by
  obtain ⟨m, hm, hd⟩ := draws_alive a (j * e.width)
  have hp : 0 < e.width := by cases e <;> simp [Entry.width]
  have hdm := Nat.div_add_mod m e.width
  have hml := Nat.mod_lt m hp
  have hmul : m / e.width * e.width ≤ m := Nat.div_mul_le_self _ _
  have hlt : j + m / e.width < ps.length := by
    by_contra hc
    have : ps.length * e.width ≤ (j + m / e.width) * e.width := Nat.mul_le_mul_right _ (by omega)
    rw [Nat.add_mul] at this
    omega
  refine ⟨j + m / e.width, hlt, Nat.le_add_right _ _, by rw [Nat.add_sub_cancel_left]; omega, ?_⟩
  rw [c99_draws _ _ _ hn]
  refine uniform_pos hA _ _ _ ⟨m % e.width, draws_width e ▸ hml, ?_⟩
  rwa [Nat.add_mul, Nat.add_assoc, show m / e.width * e.width + m % e.width = m by rw [Nat.mul_comm]; exact hdm]

end Verif.Random
