import Verif.Device.Line
import Verif.EndToEnd.Poisson

/-! # C62 for linearised stencil matrices: any grid, any dimension, any devices -/
set_option linter.dupNamespace false
set_option linter.unusedSectionVars false
namespace Verif.Device
open Verif.Runtime Verif.Vector Verif.Matrix Verif.Planner Verif.Solver Verif.EndToEnd Verif.Stencil Verif.Grid

variable {V : Type} [Field V] {dev : Devices} {A : Arith V}

/-- The row pointers written by `create_linearized_csr_stencil_matrix`: row `j` starts where the rows before it end. -/
def gridRowptr (o : IndexOrder) (b : Rect) (sorted : List (Point × V)) : RowPtr V := fun m =>
  ⟨fun j => rowStart b sorted (pointsOf o b) j.toNat, fun j => (rowStart b sorted (pointsOf o b) (j.toNat + 1) : Int) - 1, m.col, m.entry⟩

theorem grid_gpu (sort : List (Point × V) → List (Point × V)) (lt : V → V → Bool) (o : IndexOrder) (b : Rect)
    (offsets : List (Point × V)) (hb : b ≠ []) (ho : ∀ oe ∈ offsets, oe.1.length = b.length)
    (hsort : IsSort o lt offsets (sort offsets)) :
    ∃ N : Nat, ∀ fuel, N ≤ fuel → ∀ (pieces : List (Dom1 × Dom1)),
      CoversSize b offsets (pieces.map fun D => D.1.contains) →
      (∀ size, calculateStencilSize b offsets = some size → ∀ D ∈ pieces, ∀ j, D.1.contains j = true →
        D.1.lo ≤ j ∧ j ≤ D.1.hi ∧ 0 ≤ j ∧ j < size) →
      (∀ D ∈ pieces, ∀ j, D.2.contains j = true → D.2.lo ≤ j ∧ j ≤ D.2.hi ∧ 0 ≤ j ∧ j < Rect.volume b) →
      (∀ j : Int, 0 ≤ j → j < Rect.volume b → ∃ D ∈ pieces, D.2.contains j = true) → ∀ junk m,
      createLinCSRStencil sort o b offsets pieces fuel junk = some m →
        (m.rows = indices (Rect.volume b) ∧ (∀ k ∈ m.kernel, m.col k ∈ indices (Rect.volume b)) ∧ m.RowsDisjoint) ∧
        ∀ cut, GpuMatrix (gridRowptr o b (sort offsets)) cut (.csr m) := by
  obtain ⟨N, hN⟩ := linCsrStencil_full sort lt o b offsets hb ho hsort
  refine ⟨N, fun fuel hf pieces hc h3 h4 h5 junk m hm => ?_⟩
  obtain ⟨m', h1, hr, hrange, h2⟩ := hN fuel hf pieces hc h3 h4 h5 junk
  rw [hm] at h1
  obtain rfl := Option.some.inj h1
  have hrows : ∀ p ∈ m.rows, 0 ≤ p ∧ p < Rect.volume b := fun p hp => by
    rw [hr, mem_indices] at hp; exact hp
  have hker : ∀ k, k ∈ m.kernel ↔ 0 ≤ k ∧ k < (stencilEntries b (sort offsets) (pointsOf o b)).length := fun k => by
    rw [h2.kernel, mem_indices, List.length_map]
  refine ⟨⟨hr, h2.col_mem fun e he => ?_, h2.rowsDisjoint⟩, fun cut => ⟨?_, fun p hp k => ?_, fun _ => rfl, fun _ => rfl,
    fun p hp hp' => ?_, fun p hp => ?_, fun p hp k g1 g2 => ?_⟩⟩
  · obtain ⟨e', he', rfl⟩ := List.mem_map.1 he
    obtain ⟨h6, h7⟩ := linearize_bounds o b _ (mem_stencilEntries he').2
    exact (mem_indices _ _).2 ⟨h6, h7⟩
  · rw [h2.kernel]; exact indices_nodup _
  · obtain ⟨h0, h1⟩ := hrows p hp
    have hi : p.toNat < (pointsOf o b).length := by rw [length_pointsOf]; omega
    rw [hrange p h0 h1 k, List.getD_eq_getElem?_getD, List.getElem?_eq_getElem hi, Option.getD_some,
      rangeOf_getElem b (sort offsets) (pointsOf o b) (pointsOf_nodup o b) _ hi]
    exact Iff.rfl
  · obtain ⟨h0, -⟩ := hrows p hp
    simp only [gridRowptr]
    rw [show (p + 1).toNat = p.toNat + 1 by omega]
    omega
  · have := rowStart_mono b (sort offsets) (pointsOf o b) (show p.toNat ≤ p.toNat + 1 by omega)
    simp only [gridRowptr]
    omega
  · have := rowStart_le b (sort offsets) (pointsOf o b) (p.toNat + 1)
    simp only [gridRowptr] at g1 g2
    rw [hker]
    omega

variable [LinearOrder V] [IsStrictOrderedRing V]

/-- **C62**, difference operators on a grid of any dimension, stored as the linearised CSR matrix the library builds, on any devices:
CG from zero solves the discrete equation within as many steps as grid points (exact arithmetic). -/
theorem c62_linearized_stencil (hdev : dev.Ok) (hA : A.Exact) (sort : List (Point × V) → List (Point × V)) (lt : V → V → Bool)
    (o : IndexOrder) (b : Rect) (offsets : List (Point × V)) (hb : b ≠ [])
    (hsort : IsSort o lt offsets (sort offsets))
    (dirs : List (Point × V)) (hne : dirs ≠ []) (hl : ∀ t ∈ dirs, t.1.length = b.length)
    (hnz : ∀ t ∈ dirs, ∃ c ∈ t.1, c ≠ 0) (hw : ∀ t ∈ dirs, 0 < t.2) (hoff : offsets.Perm (diffOffsets b.length dirs)) :
    ∃ N : Nat, ∀ fuel, N ≤ fuel → ∀ (pieces : List (Dom1 × Dom1)),
      CoversSize b offsets (pieces.map fun D => D.1.contains) →
      (∀ size, calculateStencilSize b offsets = some size → ∀ D ∈ pieces, ∀ j, D.1.contains j = true →
        D.1.lo ≤ j ∧ j ≤ D.1.hi ∧ 0 ≤ j ∧ j < size) →
      (∀ D ∈ pieces, ∀ j, D.2.contains j = true → D.2.lo ≤ j ∧ j ≤ D.2.hi ∧ 0 ≤ j ∧ j < Rect.volume b) →
      (∀ j : Int, 0 ≤ j → j < Rect.volume b → ∃ D ∈ pieces, D.2.contains j = true) → ∀ junk,
      ∃ m, createLinCSRStencil sort o b offsets pieces fuel junk = some m ∧
        ∀ {G : Geometry Int} {part d0 d1 base : Nat} {v0 v1 : Vec}, TwoVectors G part d0 d1 base v0 v1 →
          (∀ j, j ∈ G.points (G.parent part) ↔ 0 ≤ j ∧ j < Rect.volume b) → GpuPieces (G.pieces part) →
        ∀ (n : Nat) (s : Cell Int → V), (∀ p, InBox b p → s (.elem d0 (linearize o b p)) = 0) →
        ∃ pl, Planner.empty.setupAll G (singleCalls v0 v1 (Op.csr m)) = some pl ∧
          ∃ k, k ≤ Rect.volume b ∧ Ensures (Device.cg dev (gridRowptr o b (sort offsets)) A G pl base k) n s fun c s' =>
            (∀ p, InBox b p → diffOp dirs (zeroOutside b fun q => s' (.elem d0 (linearize o b q))) p =
              s (.elem d1 (linearize o b p))) ∧
            c.history.length = k + 1 ∧ ∀ (i : Nat) a, c.history[i]? = some a → (s' (.fut a.fut) = 0 ↔ i = k) := by
  have ho := diff_lengths hl hoff
  obtain ⟨N, hN⟩ := c50_linearized_stencil hA sort lt o b offsets hb hsort dirs hne hl hnz hw hoff
  obtain ⟨N', hN'⟩ := grid_gpu sort lt o b offsets hb ho hsort
  refine ⟨max N N', fun fuel hf pieces hc h3 h4 h5 junk => ?_⟩
  obtain ⟨m, h1, h2⟩ := hN fuel (le_trans (le_max_left _ _) hf) pieces hc h3 h4 h5 junk
  obtain ⟨⟨g1, g2, g3⟩, g4⟩ := hN' fuel (le_trans (le_max_right _ _) hf) pieces hc h3 h4 h5 junk m h1
  refine ⟨m, h1, fun {G part d0 d1 base v0 v1} hv hG hcut n s hx0 => ?_⟩
  obtain ⟨pl, hpl, k, hk, he⟩ := h2 hv hG n s hx0
  have hS : Single G part d0 d1 base v0 v1 (Op.csr m) := by
    refine ⟨hv, fun k hk => ?_, fun j => ?_, g3⟩
    · exact (hG _).2 ((mem_indices _ _).1 (g2 k hk))
    · rw [g1, mem_indices, hG]
  exact ⟨pl, hpl, k, hk, (Same.cg hdev hA pl base k (single_ready hS hcut (g4 _) 3 hpl)).ensures he⟩

end Verif.Device
