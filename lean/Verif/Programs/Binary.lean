import Verif.Rounding.Spec

/-! # Binary floating-point numbers, any rounding mode

`p + 1` binary digits and unbounded exponents; the result of an operation is the exact one, scaled to an integer significand range and
turned into an integer by `r`: rounding down, up, to nearest even, … -/
set_option linter.dupNamespace false
namespace Verif.Programs

/-- A rounding mode: any way to turn a real into an integer that leaves integers alone. -/
def RoundingMode (r : ℝ → ℤ) : Prop := ∀ z : ℤ, r z = z

/-- Round to `p + 1` binary digits. -/
noncomputable def binaryRound (p : Nat) (r : ℝ → ℤ) (x : ℝ) : ℝ :=
  (r (x / (2 : ℝ) ^ (Int.log 2 |x| - p)) : ℝ) * (2 : ℝ) ^ (Int.log 2 |x| - p)

/-- A number of the format. -/
def IsBinary (p : Nat) (x : ℝ) : Prop := ∃ m : ℤ, x = m * (2 : ℝ) ^ (Int.log 2 |x| - p)

variable {p : Nat} {r : ℝ → ℤ}

/-- Numbers of the format are not changed. -/
theorem binaryRound_eq (hr : RoundingMode r) {x : ℝ} (hx : IsBinary p x) : binaryRound p r x = x := by
  obtain ⟨m, hm⟩ := hx
  have hq : (2 : ℝ) ^ (Int.log 2 |x| - p) ≠ 0 := (zpow_pos two_pos _).ne'
  have e : x / (2 : ℝ) ^ (Int.log 2 |x| - p) = m := by rw [div_eq_iff hq]; exact hm
  unfold binaryRound
  rw [e, hr m]
  exact hm.symm

theorem isBinary_zero : IsBinary p 0 := ⟨0, by simp⟩

/-- An integer multiple of a power of two that is below the next binade belongs to the format. -/
theorem isBinary_of {x : ℝ} {m e : ℤ} (h : x = m * (2 : ℝ) ^ e) (hx : |x| < (2 : ℝ) ^ (e + p + 1)) : IsBinary p x := by
  by_cases h0 : x = 0
  · subst h0; exact isBinary_zero
  have hpos : 0 < |x| := abs_pos.2 h0
  have hle : Int.log 2 |x| - p ≤ e := by
    have h1 : Int.log 2 |x| < e + p + 1 := by
      refine lt_of_not_ge fun hge => ?_
      have := (Int.zpow_le_iff_le_log (b := 2) (by norm_num) hpos).2 hge
      exact absurd hx (not_lt.2 (by exact_mod_cast this))
    omega
  obtain ⟨k, hk⟩ := Int.le.dest hle
  refine ⟨m * 2 ^ k, ?_⟩
  nth_rewrite 1 [h]
  rw [← hk, zpow_add₀ two_ne_zero]
  push_cast
  rw [zpow_natCast]
  ring

theorem log_half {x : ℝ} (h0 : x ≠ 0) : Int.log 2 |x / 2| = Int.log 2 |x| - 1 := by
  have hpos : 0 < |x| := abs_pos.2 h0
  have hpos' : 0 < |x / 2| := abs_pos.2 (div_ne_zero h0 two_ne_zero)
  have e : |x / 2| = |x| / 2 := by rw [abs_div, abs_two]
  have h1 : (2 : ℝ) ^ Int.log 2 |x| ≤ |x| := by exact_mod_cast Int.zpow_log_le_self (b := 2) (by norm_num) hpos
  have h2 : |x| < (2 : ℝ) ^ (Int.log 2 |x| + 1) := by exact_mod_cast Int.lt_zpow_succ_log_self (b := 2) (by norm_num) |x|
  apply le_antisymm
  · have : Int.log 2 |x / 2| < Int.log 2 |x| := by
      refine lt_of_not_ge fun hge => ?_
      have h3 := (Int.zpow_le_iff_le_log (b := 2) (by norm_num) hpos').2 hge
      have h3 : (2 : ℝ) ^ Int.log 2 |x| ≤ |x / 2| := by exact_mod_cast h3
      rw [e] at h3
      rw [zpow_add₀ two_ne_zero, zpow_one] at h2
      linarith
    omega
  · apply (Int.zpow_le_iff_le_log (b := 2) (by norm_num) hpos').1
    rw [e]
    push_cast
    rw [zpow_sub₀ two_ne_zero, zpow_one]
    linarith

/-- Halving commutes with rounding. -/
theorem binaryRound_half (hr : RoundingMode r) (x : ℝ) : binaryRound p r (x / 2) = binaryRound p r x / 2 := by
  by_cases h0 : x = 0
  · subst h0
    rw [zero_div, binaryRound_eq hr isBinary_zero, zero_div]
  · unfold binaryRound
    rw [log_half h0, show Int.log 2 |x| - 1 - (p : ℤ) = Int.log 2 |x| - p - 1 by ring, zpow_sub₀ two_ne_zero, zpow_one]
    have hq : (2 : ℝ) ^ (Int.log 2 |x| - p) ≠ 0 := (zpow_pos two_pos _).ne'
    rw [show x / 2 / ((2 : ℝ) ^ (Int.log 2 |x| - p) / 2) = x / (2 : ℝ) ^ (Int.log 2 |x| - p) by field_simp]
    ring

/-- The difference of two numbers within a factor two of each other belongs to the format. -/
theorem isBinary_sub {a b : ℝ} (ha : IsBinary p a) (hb : IsBinary p b) (h1 : a ≤ 2 * b) (h2 : b ≤ 2 * a) : IsBinary p (a - b) := by
  have ha0 : 0 ≤ a := by linarith
  have hb0 : 0 ≤ b := by linarith
  obtain ⟨m, hm⟩ := ha
  obtain ⟨k, hk⟩ := hb
  rw [abs_of_nonneg ha0] at hm
  rw [abs_of_nonneg hb0] at hk
  have la : a < (2 : ℝ) ^ (Int.log 2 a + 1) := by exact_mod_cast Int.lt_zpow_succ_log_self (b := 2) (by norm_num) a
  have lb : b < (2 : ℝ) ^ (Int.log 2 b + 1) := by exact_mod_cast Int.lt_zpow_succ_log_self (b := 2) (by norm_num) b
  have mult : ∀ (x : ℝ) (m e e' : ℤ), x = m * (2 : ℝ) ^ e → e' ≤ e → ∃ z : ℤ, x = z * (2 : ℝ) ^ e' := by
    intro x m e e' h hle
    obtain ⟨d, hd⟩ := Int.le.dest hle
    refine ⟨m * 2 ^ d, ?_⟩
    rw [h, ← hd, zpow_add₀ two_ne_zero]
    push_cast
    rw [zpow_natCast]
    ring
  have habs : |a - b| ≤ min a b := by
    rw [abs_le]
    rcases le_total a b with h | h
    · rw [min_eq_left h]; constructor <;> linarith
    · rw [min_eq_right h]; constructor <;> linarith
  rcases le_total (Int.log 2 a) (Int.log 2 b) with h | h
  · obtain ⟨k', hk'⟩ := mult b k _ (Int.log 2 a - p) hk (by omega)
    refine isBinary_of (m := m - k') (e := Int.log 2 a - p) ?_ ?_
    · nth_rewrite 1 [hm]
      nth_rewrite 1 [hk']
      push_cast
      ring
    · rw [show Int.log 2 a - (p : ℤ) + p + 1 = Int.log 2 a + 1 by ring]
      exact lt_of_le_of_lt (habs.trans (min_le_left _ _)) la
  · obtain ⟨m', hm'⟩ := mult a m _ (Int.log 2 b - p) hm (by omega)
    refine isBinary_of (m := m' - k) (e := Int.log 2 b - p) ?_ ?_
    · nth_rewrite 1 [hk]
      nth_rewrite 1 [hm']
      push_cast
      ring
    · rw [show Int.log 2 b - (p : ℤ) + p + 1 = Int.log 2 b + 1 by ring]
      exact lt_of_le_of_lt (habs.trans (min_le_right _ _)) lb

/-- Small integers belong to the format. -/
theorem isBinary_int {z : ℤ} (hz : |z| < 2 ^ (p + 1)) : IsBinary p (z : ℝ) := by
  refine isBinary_of (m := z) (e := 0) (by simp) ?_
  rw [zero_add]
  have : |(z : ℝ)| < (2 : ℝ) ^ (p + 1) := by exact_mod_cast hz
  exact_mod_cast this

/-- Halves of small integers too. -/
theorem isBinary_half_int {z : ℤ} (hz : |z| < 2 ^ (p + 1)) : IsBinary p ((z : ℝ) / 2) := by
  refine isBinary_of (m := z) (e := -1) (by rw [zpow_neg, zpow_one]; ring) ?_
  have : |(z : ℝ)| < (2 : ℝ) ^ (p + 1) := by exact_mod_cast hz
  rw [abs_div, abs_two, show (-1 : ℤ) + p + 1 = p by ring, zpow_natCast]
  rw [pow_succ] at this
  linarith

end Verif.Programs
