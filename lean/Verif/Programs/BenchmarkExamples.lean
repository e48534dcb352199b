import Verif.Programs.BenchmarkExact
import Verif.EndToEnd.Examples
import Mathlib.Analysis.Real.Sqrt

/-! # Concrete cases of C74 -/
set_option linter.dupNamespace false
namespace Verif.Programs
open Verif.Runtime Verif.Vector Verif.Matrix Verif.Planner Verif.Solver Verif.EndToEnd Verif.Grid Verif.Stencil Verif.Special

/-- Sixteen points in two pieces; contributions to a reduction are combined in reverse. -/
def benchG : Geometry Int where
  pieces := fun _ => [[8, 9, 10, 11, 12, 13, 14, 15], [0, 1, 2, 3, 4, 5, 6, 7]]
  redOrder := fun _ l => l.reverse
  points := fun _ => [0, 1, 2, 3, 4, 5, 6, 7, 8, 9, 10, 11, 12, 13, 14, 15]
  parent := fun part => part
  colorSpace := fun part => part

theorem benchG_vectors : FourVectors benchG 0 (fun i => i) 10 where
  valid := fun part p => by
    simp only [benchG, List.flatten_cons, List.flatten_nil, List.append_nil, List.mem_append, List.mem_cons, List.not_mem_nil, or_false]
    omega
  order := fun f l => List.reverse_perm l
  partition := ⟨by decide, fun p => by
    show p ∈ [[(8 : Int), 9, 10, 11, 12, 13, 14, 15], [0, 1, 2, 3, 4, 5, 6, 7]].flatten ↔ p ∈ [(0 : Int), 1, 2, 3, 4, 5, 6, 7, 8, 9, 10, 11, 12, 13, 14, 15]
    simp only [List.flatten_cons, List.flatten_nil, List.append_nil, List.mem_append, List.mem_cons, List.not_mem_nil, or_false]
    omega⟩
  distinct := fun i j _ _ h => h
  fresh := fun i hi => by show i < 10; omega

section
variable {V : Type}

/-- The offsets sorted. -/
def sorted1 (lit : Int → V) (_ : List (Point × V)) : List (Point × V) := [([-1], lit (-1)), ([0], lit 2), ([1], lit (-1))]

theorem sorted1_sorts (A : Arith V) (lit : Int → V) (offsets : List (Point × V)) (h : benchOffsets A lit 1 = some offsets) :
    IsSort .rowMajor (fun _ _ => false) offsets (sorted1 lit offsets) := by
  cases h
  refine ⟨?_, ?_⟩
  · exact List.Perm.swap _ _ _
  · refine .cons ?_ (.cons ?_ (.cons (by simp) .nil))
    · intro q hq
      simp only [List.mem_cons, List.not_mem_nil, or_false] at hq
      rcases hq with rfl | rfl <;> rfl
    · intro q hq
      simp only [List.mem_cons, List.not_mem_nil, or_false] at hq
      subst hq
      rfl

/-- The hypotheses of C74 hold for the defaults. -/
theorem bench_setting (A : Arith V) (lit : Int → V) (solver : Int) (hs : 1 ≤ solver ∧ solver ≤ 3) (it pt : Nat) (hpt : 0 < pt)
    (W : Nat) (hW : it + pt ≤ W) :
    Setting A lit (sorted1 lit) benchG 0 (fun i => i) 10 W { defaultOptions with solver := solver, it := it, pt := pt } where
  options := ⟨Or.inl rfl, (by omega : solver = 1 ∨ solver = 2 ∨ solver = 3), (by decide : (1 : Int) ≤ 16 ∧ (1 : Int) ≤ 16 ∧ (1 : Int) ≤ 16), hpt, hW⟩
  vectors := benchG_vectors
  space := fun j => by
    show j ∈ [(0 : Int), 1, 2, 3, 4, 5, 6, 7, 8, 9, 10, 11, 12, 13, 14, 15] ↔ 0 ≤ j ∧ j < 16
    simp only [List.mem_cons, List.not_mem_nil, or_false]
    omega
  sorts := ⟨_, sorted1_sorts A lit⟩

/-- The kernel, 46 entries, in two pieces. -/
def benchPieces : List (Dom1 × Dom1) := [(seg 0 22, seg 0 7), (seg 23 45, seg 8 15)]

theorem bench_covers (A : Arith V) (lit : Int → V) (o : Options) (ho : o.dim = 1 ∧ o.nx = 16) : CoversMatrix A lit o benchPieces := by
  intro offsets size hoff hsize
  obtain ⟨ho1, ho2⟩ := ho
  have hb : boxOf (benchSizes o) = [(0, 15)] := by unfold benchSizes; rw [if_pos ho1, ho2]; rfl
  rw [hb] at hsize ⊢
  rw [ho1] at hoff
  have hoff : some (offsets1.map fun oe => (oe.1, lit oe.2)) = some offsets := hoff
  cases hoff
  have hsz : calculateStencilSize [(0, 15)] (offsets1.map fun oe => (oe.1, lit oe.2)) = some 46 := rfl
  rw [hsz] at hsize
  cases hsize
  have hvol : Rect.volume [(0, 15)] = 16 := rfl
  refine ⟨fun D hD j hj => ?_, fun D hD j hj => ?_, fun k hk => ?_, fun j h0 h1 => ?_⟩
  · simp only [benchPieces, List.mem_cons, List.not_mem_nil, or_false] at hD
    rcases hD with rfl | rfl <;> simp [seg] at hj ⊢ <;> omega
  · rw [hvol]
    simp only [benchPieces, List.mem_cons, List.not_mem_nil, or_false] at hD
    rcases hD with rfl | rfl <;> simp [seg] at hj ⊢ <;> omega
  · by_cases h : (k : Int) ≤ 22
    · exact ⟨_, List.mem_cons_self, by simp [seg]; omega⟩
    · exact ⟨_, List.mem_cons_of_mem _ List.mem_cons_self, by simp [seg]; omega⟩
  · rw [hvol] at h1
    by_cases h : j ≤ 7
    · exact ⟨_, List.mem_cons_self, by simp [seg]; omega⟩
    · exact ⟨_, List.mem_cons_of_mem _ List.mem_cons_self, by simp [seg]; omega⟩

end

/-- The default run, in real arithmetic, leaves nothing defined, whatever the solver. -/
noncomputable example (solver : Int) (hs : 1 ≤ solver ∧ solver ≤ 3) : ∃ N : Nat, ∀ fuel, N ≤ fuel → ∀ junk t s,
    Ensures (benchmark (partialArith Real.sqrt) (exactLit ℝ) (sorted1 (exactLit ℝ)) benchPieces fuel junk benchG 0 (fun i => i) 10 1000
      { defaultOptions with solver := solver }) t s fun _ s' => s' (.elem 2 5) = none ∧ s' (.elem 3 0) = none := by
  obtain ⟨N, hN⟩ := c74_defaults Real.sqrt_zero (fun a ha => Real.mul_self_sqrt ha) solver
    (bench_setting (partialArith Real.sqrt) (exactLit ℝ) solver hs 20 1 (by decide) 1000 (by decide))
  refine ⟨N, fun fuel hf junk t s => ensures_weaken (hN fuel hf benchPieces (bench_covers _ _ _ ⟨rfl, rfl⟩) junk t s) fun r s' g => ⟨?_, ?_⟩⟩
  · exact g 0 (by decide) [5] (inBox_one.2 ⟨5, rfl, by decide, by decide⟩)
  · exact g 1 (by decide) [0] (inBox_one.2 ⟨0, rfl, by decide, by decide⟩)

/-- Eight iterations solve the default system: value 36 in the middle (`j (17 - j) / 2`). -/
example : ∃ N : Nat, ∀ fuel, N ≤ fuel → ∀ junk t s,
    Ensures (benchmark (partialArith (id : ℚ → ℚ)) (exactLit ℚ) (sorted1 (exactLit ℚ)) benchPieces fuel junk benchG 0 (fun i => i) 10 1000
      { defaultOptions with it := 8 }) t s fun r s' => r = some ⟨5, 3, 3⟩ ∧ s' (.elem 2 0) = some 8 ∧ s' (.elem 3 7) = some 36 := by
  obtain ⟨nt, hg, N, hN⟩ := c74_cg_line (root := (id : ℚ → ℚ)) rfl
    (bench_setting (partialArith id) (exactLit ℚ) 1 (by decide) 8 1 (by decide) 1000 (by decide)) rfl rfl
  have hnt : nt = 8 := hg.unique ⟨by show 8 ≤ 8 * 1; decide, fun j hj => by
    have hj : 8 ≤ j * 1 := hj
    omega⟩
  subst hnt
  refine ⟨N, fun fuel hf junk t s => ensures_weaken (hN fuel hf benchPieces (bench_covers _ _ _ ⟨rfl, rfl⟩) junk t s) fun r s' g => ⟨?_, ?_, ?_⟩⟩
  · rw [g.1]; decide
  · exact (g.2.1 (by decide) 0 (by decide) 0 (by decide) (by decide)).trans (by decide +kernel)
  · exact (g.2.1 (by decide) 1 (by decide) 7 (by decide) (by decide)).trans (by decide +kernel)

/-- A grid of 5 x 4 x 3 points: at most 12 useful steps. -/
example : halfVolume ⟨4, 1, 5, 4, 3, 100, 1⟩ = 12 := by decide

/-- Three iterations: five traces run, and a number close to the word size is printed. -/
example : report 1000 1 3 = ⟨5, 998, 998⟩ ∧ report 1000 4 5 = ⟨5, 0, 0⟩ := by decide

end Verif.Programs
