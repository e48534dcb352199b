import Verif.Sweep.Options
import Verif.Programs.ComparisonMachineProps
import Verif.Programs.ComparisonExamples

/-! # C95 for the sizes of the benchmark scripts -/
set_option linter.dupNamespace false
namespace Verif.Sweep
open Verif.Programs Verif.Machine Verif.Grid Verif.EndToEnd

/-- **C95, scripts**: the `n`-th grid of the benchmark scripts has 2¹²⁺ⁿ points, so the number of points is in range of a `PetscInt` of 32 bits up to
`n` = 18 and of one of 64 bits up to `n` = 50; beyond, for more than one dimension, the sizes are still in range (up to `n` = 40 in 32 bits), so that
the PETSc program goes on and computes the product. -/
theorem c95_scripts (d n : Nat) (hd : 1 ≤ d ∧ d ≤ 4) {o : Options} {z : Sizes} (ho : o.dim = d)
    (hs : benchSizes o = (sizeAt (dimensions (toString d)) n).map Int.ofNat) (hz : SameGrid o z) :
    z.nx * z.ny * z.nz = 2 ^ (12 + n) ∧
    (z.nx * z.ny * z.nz ≤ int32.max ↔ n ≤ 18) ∧ (z.nx * z.ny * z.nz ≤ int64.max ↔ n ≤ 50) ∧
    (2 ≤ d → n ≤ 40 → z.nx ≤ int32.max ∧ z.ny ≤ int32.max ∧ z.nz ≤ int32.max) := by
  have h32 : int32.max = 2 ^ 31 - 1 := rfl
  have h64 : int64.max = 2 ^ 63 - 1 := rfl
  have hdim : d = 1 ∨ d = 2 ∨ d = 3 ∨ d = 4 := by omega
  have hnx := hz.nx
  have hny := hz.ny
  have hnz := hz.nz
  have key : z.nx * z.ny * z.nz = 2 ^ (12 + n) ∧ (2 ≤ d → n ≤ 40 → z.nx ≤ 2 ^ 26 ∧ z.ny ≤ 2 ^ 26 ∧ z.nz ≤ 2 ^ 26) := by
    have small : ∀ k : Nat, k ≤ 26 → (2 : Int) ^ k ≤ 2 ^ 26 := fun k hk => pow_le_pow_right₀ (by decide) hk
    have cast : ∀ k : Nat, Int.ofNat (2 ^ k) = 2 ^ k := fun k => by simp
    have three : ∀ b : Int, b = 3 ∨ b = 4 → o.dim = b → dimensions (toString d) = 3 →
        z.nx * z.ny * z.nz = 2 ^ (12 + n) ∧ (2 ≤ d → n ≤ 40 → z.nx ≤ 2 ^ 26 ∧ z.ny ≤ 2 ^ 26 ∧ z.nz ≤ 2 ^ 26) := by
      intro b hb hob hdims
      rw [if_neg (by omega)] at hny
      rw [if_neg (by omega)] at hnz
      rw [hdims] at hs
      unfold benchSizes at hs
      rw [if_neg (by omega), if_neg (by omega)] at hs
      simp only [sizeAt, List.map_cons, List.map_nil, List.cons.injEq, and_true, cast] at hs
      obtain ⟨h1, h2, h3⟩ := hs
      rw [hnx, hny, hnz, h1, h2, h3]
      exact ⟨by rw [← pow_add, ← pow_add]; congr 1; omega, fun _ hn => ⟨small _ (by omega), small _ (by omega), small _ (by omega)⟩⟩
    rcases hdim with rfl | rfl | rfl | rfl
    · have ho : o.dim = 1 := ho
      rw [if_pos ho] at hny
      rw [if_pos (Or.inl ho)] at hnz
      unfold benchSizes at hs
      rw [if_pos ho, show dimensions (toString 1) = 1 by decide +kernel] at hs
      simp only [sizeAt, List.map_cons, List.map_nil, List.cons.injEq, and_true, cast] at hs
      rw [hnx, hny, hnz, hs]
      exact ⟨by ring, fun h => by omega⟩
    · have h2 : o.dim = 2 := ho
      rw [if_neg (by omega)] at hny
      rw [if_pos (Or.inr h2)] at hnz
      unfold benchSizes at hs
      rw [if_neg (by omega), if_pos h2, show dimensions (toString 2) = 2 by decide +kernel] at hs
      simp only [sizeAt, List.map_cons, List.map_nil, List.cons.injEq, and_true, cast] at hs
      obtain ⟨h1, h2⟩ := hs
      rw [hnx, hny, hnz, h1, h2]
      exact ⟨by rw [mul_one, ← pow_add]; congr 1; omega, fun _ hn => ⟨small _ (by omega), small _ (by omega), by norm_num⟩⟩
    · exact three 3 (Or.inl rfl) ho (by decide +kernel)
    · exact three 4 (Or.inr rfl) ho (by decide +kernel)
  obtain ⟨hp, hsmall⟩ := key
  have range : ∀ a : Nat, ((2 : Int) ^ (12 + n) ≤ 2 ^ a - 1 ↔ 12 + n < a) := by
    intro a
    constructor
    · intro h
      by_contra hc
      have : (2 : Int) ^ a ≤ 2 ^ (12 + n) := pow_le_pow_right₀ (by decide) (by omega)
      omega
    · intro h
      have : (2 : Int) ^ (12 + n) < 2 ^ a := pow_lt_pow_right₀ (by decide) h
      omega
  refine ⟨hp, ?_, ?_, fun h2 hn => ?_⟩
  · rw [hp, h32, range]
    omega
  · rw [hp, h64, range]
    omega
  · obtain ⟨h1, h2, h3⟩ := hsmall h2 hn
    rw [h32]
    have : (2 : Int) ^ 26 ≤ 2 ^ 31 - 1 := by norm_num
    exact ⟨h1.trans this, h2.trans this, h3.trans this⟩

/-! ## Examples -/

/-- The grid number 19 in two dimensions. -/
def box19 : Options := ⟨2, 1, 65536, 32768, 16, 200, 1⟩

example : box19.Ok 1000 ∧ SameGrid box19 ⟨65536, 32768, 1⟩ ∧ benchSizes box19 = (sizeAt (dimensions (toString 2)) 19).map Int.ofNat :=
  ⟨⟨by decide, by decide, by decide, by decide, by decide⟩, ⟨rfl, rfl, rfl⟩, by decide +kernel⟩

/-- Its number of points overflows a `PetscInt` of 32 bits and not one of 64 bits. -/
example : problemSizeC int32 65536 32768 1 = none ∧ problemSizeC int64 65536 32768 1 = some 2147483648 := by decide +kernel

/-- The hypotheses on the types and the sizes hold for both and the grid of 3 × 4 × 5 points. -/
example : (int32.signed = true ∧ 32 ≤ int32.bits) ∧ (int64.signed = true ∧ 32 ≤ int64.bits) ∧ (3 : Int) * 4 * 5 ≤ int32.max ∧ SameGrid box345 ⟨3, 4, 5⟩ :=
  ⟨⟨rfl, by decide⟩, ⟨rfl, by decide⟩, by decide +kernel, ⟨rfl, rfl, rfl⟩⟩

/-- The first row of that grid in both programs. -/
example : rowC int32 int32 (⟨2, 4, 6, -1, 88, -6, -3, -2⟩ : Consts Int) 4 3 4 5 0 =
      some [(0, 88), (1, -6), (5, -6), (6, -3), (20, -6), (21, -3), (25, -3), (26, -2)] ∧
    rowC int64 sizeT (⟨2, 4, 6, -1, 88, -6, -3, -2⟩ : Consts Int) 4 3 4 5 0 =
      some [(0, 88), (1, -6), (5, -6), (6, -3), (20, -6), (21, -3), (25, -3), (26, -2)] := by decide +kernel

/-- A row whose computation overflows: the number of points does not fit. -/
example : rowC int32 int32 (⟨2, 4, 6, -1, 88, -6, -3, -2⟩ : Consts Int) 2 65536 65536 1 2147483647 = none := by decide +kernel

/-- One rank with all rows of a line of 2³² points: the hypothesis of the second half of the theorem on Trilinos. -/
example : (⟨1, 1, 4294967296, 16, 16, 200, 1⟩ : Options).Ok 1000 ∧ SameGrid ⟨1, 1, 4294967296, 16, 16, 200, 1⟩ ⟨4294967296, 1, 1⟩ ∧
    OwnedRows (problemSize 4294967296 1 1) [indices 4294967296] ∧ ∃ rows ∈ [indices 4294967296], 2147483648 ≤ rows.length := by
  refine ⟨⟨by decide, by decide, by decide, by decide, by decide⟩, ⟨rfl, rfl, rfl⟩, ?_, _, List.mem_cons_self, ?_⟩
  · unfold OwnedRows
    rw [List.flatten_cons, List.flatten_nil, List.append_nil]
    exact List.Perm.refl _
  · simp [indices]

end Verif.Sweep
