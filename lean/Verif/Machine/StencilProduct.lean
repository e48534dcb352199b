import Verif.Machine.StencilBuild
import Verif.EndToEnd.Stencil
/-!
# C78: what the machine-integer builders build

The matrices that the builders of `src/StencilGenerator.hpp` build with machine integers multiply like the stencil: the statement
does not mention the builders' model with unbounded integers.
-/
set_option linter.unusedSectionVars false

namespace Verif.Machine

open Verif Verif.Grid Verif.Stencil Verif.EndToEnd Verif.Matrix Verif.Vector Verif.Runtime

variable {E : Type}

/-- **C78** (COO): as long as all quantities are representable, `create_coo_stencil_matrix` with coordinates of type `t` succeeds
and one product with the matrix adds, to every element of the destination, the stencil applied to the source. -/
theorem c78_coo_product (t : CType) (hsg : t.signed = true) (hbits : t.bits ≤ 64) (sort : List (Point × E) → List (Point × E))
    (lt : E → E → Bool) (o : IndexOrder) (b : Rect) (offs : List (Point × E)) (hb0 : b ≠ [])
    (hsort : IsSort o lt offs (sort offs)) (hr : Representable t b offs) (hb : Grid.Nonempty b)
    (hk : (Rect.volume b * offs.length : Nat) ≤ int64.max) :
    ∃ N : Nat, ∀ fuel, N ≤ fuel → ∀ pieces, CoversSize b offs pieces → ∀ junk,
      ∃ m, createCOOStencil t sort o b offs pieces fuel junk = some m ∧
        ∀ (A : Arith E) (env : Env Point) (dst src : Vec) (space : List Point) (n : Nat) (s : Cell Point → E),
          src.data ≠ dst.data → (∀ p, p ∈ space ↔ InBox b p) → IsPartition space (env.pieces dst.part) →
          Ensures (m.matvec A env dst src (m.kernelFromRange (env.pieces dst.part))
              (m.domainFromRange space (env.pieces dst.part))) n s fun _ s' =>
            OnlyChanged s s' dst space fun p =>
              stencilRow A b (sort offs) (fun q => s (.elem src.data q)) p (s (.elem dst.data p)) := by
  obtain ⟨N, h⟩ := c51_coo_product sort lt o b offs hb0 hr.lengths hsort
  refine ⟨max N (Rect.volume b + 1), fun fuel hf pieces hc junk => ?_⟩
  rw [c78_create_coo t hsg hbits sort o b offs hb0 hsort.perm hr hb hk pieces fuel (by omega) junk]
  exact h fuel (by omega) pieces hc junk

/-- **C78** (CSR). -/
theorem c78_csr_product (t : CType) (hsg : t.signed = true) (hbits : t.bits ≤ 64) (sort : List (Point × E) → List (Point × E))
    (lt : E → E → Bool) (o : IndexOrder) (b : Rect) (offs : List (Point × E)) (hb0 : b ≠ [])
    (hsort : IsSort o lt offs (sort offs)) (hr : Representable t b offs) (hb : Grid.Nonempty b)
    (hk : (Rect.volume b * offs.length : Nat) ≤ int64.max) :
    ∃ N : Nat, ∀ fuel, N ≤ fuel → ∀ (rows : List Point) (pieces : List ((Int → Bool) × (Point → Bool))),
      (∀ p, p ∈ rows ↔ InBox b p) → CoversSize b offs (pieces.map Prod.fst) →
      (∀ D ∈ pieces, ∀ p, D.2 p = true → InBox b p) → (∀ p, InBox b p → ∃ D ∈ pieces, D.2 p = true) → ∀ junk,
      ∃ m, createCSRStencil t sort o b offs rows pieces fuel junk = some m ∧
        ∀ (A : Arith E) (env : Env Point) (dst src : Vec) (n : Nat) (s : Cell Point → E),
          src.data ≠ dst.data → IsPartition rows (env.pieces dst.part) →
          Ensures (m.matvec A env dst src (m.kernelFromRange (env.pieces dst.part))
              (m.domainFromRange rows (env.pieces dst.part))) n s fun _ s' =>
            OnlyChanged s s' dst rows fun p =>
              stencilRow A b (sort offs) (fun q => s (.elem src.data q)) p (s (.elem dst.data p)) := by
  obtain ⟨N, h⟩ := c51_csr_product sort lt o b offs hb0 hr.lengths hsort
  refine ⟨max N (Rect.volume b + 1), fun fuel hf rows pieces h1 h2 h3 h4 junk => ?_⟩
  rw [c78_create_csr t hsg hbits sort o b offs hb0 hsort.perm hr hb hk rows pieces fuel (by omega) junk]
  exact h fuel (by omega) rows pieces h1 h2 h3 h4 junk

/-- **C78** (linearised CSR): in addition the number of points must be representable in the coordinate type. -/
theorem c78_linearized_product (t : CType) (hsg : t.signed = true) (hbits : t.bits ≤ 64)
    (sort : List (Point × E) → List (Point × E)) (lt : E → E → Bool) (o : IndexOrder) (b : Rect) (offs : List (Point × E))
    (hb0 : b ≠ []) (hsort : IsSort o lt offs (sort offs)) (hr : Representable t b offs) (hb : Grid.Nonempty b)
    (hv : (Rect.volume b : Int) ≤ t.max) (hk : 4 * (Rect.volume b * offs.length + 1 : Nat) ≤ int64.max) :
    ∃ N : Nat, ∀ fuel, N ≤ fuel → ∀ (pieces : List (Dom1 × Dom1)),
      (∀ D ∈ pieces, D.1.lo ≤ (Rect.volume b * offs.length + 1 : Nat) ∧ D.2.lo ≤ Rect.volume b) →
      CoversSize b offs (pieces.map fun D => D.1.contains) →
      (∀ size, Stencil.calculateStencilSize b offs = some size → ∀ D ∈ pieces, ∀ j, D.1.contains j = true →
        D.1.lo ≤ j ∧ j ≤ D.1.hi ∧ 0 ≤ j ∧ j < size) →
      (∀ D ∈ pieces, ∀ j, D.2.contains j = true → D.2.lo ≤ j ∧ j ≤ D.2.hi ∧ 0 ≤ j ∧ j < Rect.volume b) →
      (∀ j : Int, 0 ≤ j → j < Rect.volume b → ∃ D ∈ pieces, D.2.contains j = true) → ∀ junk,
      ∃ m, createLinCSRStencil t sort o b offs pieces fuel junk = some m ∧
        ∀ (A : Arith E) (env : Env Int) (dst src : Vec) (n : Nat) (s : Cell Int → E),
          src.data ≠ dst.data → IsPartition (indices (Rect.volume b)) (env.pieces dst.part) →
          Ensures (m.matvec A env dst src (m.kernelFromRange (env.pieces dst.part))
              (m.domainFromRange (indices (Rect.volume b)) (env.pieces dst.part))) n s fun _ s' =>
            (∀ p, InBox b p → s' (.elem dst.data (Grid.linearize o b p)) =
              stencilRow A b (sort offs) (fun q => s (.elem src.data (Grid.linearize o b q))) p
                (s (.elem dst.data (Grid.linearize o b p)))) ∧
            ∀ c, (∀ p, InBox b p → c ≠ .elem dst.data (Grid.linearize o b p)) → s' c = s c := by
  obtain ⟨N, h⟩ := c51_linearized_product sort lt o b offs hb0 hr.lengths hsort
  refine ⟨max N (Rect.volume b + 1), fun fuel hf pieces h0 h1 h2 h3 h4 junk => ?_⟩
  rw [c78_create_lin_csr t hsg hbits sort o b offs hb0 hsort.perm hr hb hv hk pieces h0 fuel (by omega) junk]
  exact h fuel (by omega) pieces h1 h2 h3 h4 junk

/-- The hypotheses are met by the five-point stencil on 46340 × 46340 points with `int` coordinates, cut into one piece. -/
example : ∃ (b : Rect) (offs : List (Point × Int)) (sort : List (Point × Int) → List (Point × Int)) (pieces : List (Dom1 × Dom1)),
    b = [(0, 46339), (0, 46339)] ∧ offs = [([0, 0], 4), ([0, 1], -1), ([0, -1], -1), ([1, 0], -1), ([-1, 0], -1)] ∧
    IsSort .rowMajor (fun a b : Int => decide (a < b)) offs (sort offs) ∧
    Representable int32 b offs ∧ Grid.Nonempty b ∧ (Rect.volume b : Int) ≤ int32.max ∧
    4 * (Rect.volume b * offs.length + 1 : Nat) ≤ int64.max ∧
    (∀ D ∈ pieces, D.1.lo ≤ (Rect.volume b * offs.length + 1 : Nat) ∧ D.2.lo ≤ Rect.volume b) ∧
    CoversSize b offs (pieces.map fun D => D.1.contains) ∧
    (∀ size, Stencil.calculateStencilSize b offs = some size → ∀ D ∈ pieces, ∀ j, D.1.contains j = true →
      D.1.lo ≤ j ∧ j ≤ D.1.hi ∧ 0 ≤ j ∧ j < size) ∧
    (∀ D ∈ pieces, ∀ j, D.2.contains j = true → D.2.lo ≤ j ∧ j ≤ D.2.hi ∧ 0 ≤ j ∧ j < Rect.volume b) ∧
    (∀ j : Int, 0 ≤ j → j < Rect.volume b → ∃ D ∈ pieces, D.2.contains j = true) := by
  have e := Stencil.calculateStencilSize_eq [(0, 46339), (0, 46339)]
    [([0, 0], (4 : Int)), ([0, 1], -1), ([0, -1], -1), ([1, 0], -1), ([-1, 0], -1)] (by simp) (by decide)
  obtain ⟨P, hP⟩ : ∃ P, P = Stencil.pairCount [(0, 46339), (0, 46339)]
    [([0, 0], (4 : Int)), ([0, 1], -1), ([0, -1], -1), ([1, 0], -1), ([-1, 0], -1)] := ⟨_, rfl⟩
  rw [← hP] at e
  have hv : Rect.volume [(0, 46339), (0, 46339)] = 2147395600 := by decide
  refine ⟨_, _, fun _ => [([-1, 0], -1), ([0, -1], -1), ([0, 0], 4), ([0, 1], -1), ([1, 0], -1)],
    [(⟨fun j => decide (0 ≤ j ∧ j < P), 0, P - 1⟩, ⟨fun j => decide (0 ≤ j ∧ j < 2147395600), 0, 2147395599⟩)],
    rfl, rfl, ⟨by decide, by decide⟩, ⟨by decide, by decide⟩, by decide, by decide, by decide, ?_, ?_, ?_, ?_, ?_⟩
  · simp; omega
  · intro size hsz k hk
    rw [e] at hsz
    simp only [Option.some.injEq] at hsz
    exact ⟨_, List.mem_singleton.2 rfl, by simp only [decide_eq_true_eq]; omega⟩
  · intro size hsz D hD j hj
    rw [e] at hsz
    simp only [Option.some.injEq] at hsz
    obtain rfl := List.mem_singleton.1 hD
    simp only [decide_eq_true_eq] at hj
    dsimp only
    omega
  · intro D hD j hj
    obtain rfl := List.mem_singleton.1 hD
    simp only [decide_eq_true_eq] at hj
    dsimp only
    rw [hv]
    omega
  · intro j h0 h1
    rw [hv] at h1
    exact ⟨_, List.mem_singleton.2 rfl, by simp only [decide_eq_true_eq]; omega⟩

end Verif.Machine
