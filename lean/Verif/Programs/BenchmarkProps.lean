import Verif.Programs.BenchmarkGrid
import Verif.Solver.SymmetryProps

/-! # C74: the stencil benchmark

What `test/BenchmarkStencil.cpp` computes and reports, for every difference operator, grid, solver and number of iterations it accepts,
every way the spaces are cut, every schedule and order of reductions. -/
set_option linter.dupNamespace false
set_option linter.unusedSectionVars false
namespace Verif.Programs
open Verif.Runtime Verif.Vector Verif.Matrix Verif.Planner Verif.Solver Verif.EndToEnd Verif.Grid Verif.Stencil Verif.Special Verif.Textbook
open scoped _root_.Matrix

/-! ## Specification -/

/-- Options the program accepts; vectors and partition as Legion makes them; the rows are the linearised grid; `sort` is a sort. -/
structure Setting {V : Type} (A : Arith V) (lit : Int → V) (sort : List (Point × V) → List (Point × V)) (G : Geometry Int) (part : Nat)
    (d : Nat → Nat) (base W : Nat) (o : Options) : Prop where
  options : o.Ok W
  vectors : FourVectors G part d base
  space : ∀ j, j ∈ G.points (G.parent part) ↔ 0 ≤ j ∧ j < Rect.volume (boxOf (benchSizes o))
  sorts : ∃ lt, ∀ offsets, benchOffsets A lit o.dim = some offsets → IsSort .rowMajor lt offsets (sort offsets)

/-- The pieces in which the matrix is filled are inside, and cover, its kernel and rows. -/
def CoversMatrix {V : Type} (A : Arith V) (lit : Int → V) (o : Options) (pieces : List (Dom1 × Dom1)) : Prop :=
  ∀ offsets size, benchOffsets A lit o.dim = some offsets → calculateStencilSize (boxOf (benchSizes o)) offsets = some size →
    Cuts (boxOf (benchSizes o)) size pieces

/-- The program, run with enough loop fuel, for all pieces that cover the matrix, whatever is in memory at first, does not abort and,
however it is scheduled, ends with `Q`. -/
def BenchmarkEnsures {V : Type} (A : Arith V) (lit : Int → V) (sort : List (Point × V) → List (Point × V)) (G : Geometry Int) (part : Nat)
    (d : Nat → Nat) (base W : Nat) (o : Options) (Q : Option Report → (Cell Int → V) → Prop) : Prop :=
  ∃ N : Nat, ∀ fuel, N ≤ fuel → ∀ pieces, CoversMatrix A lit o pieces → ∀ junk t s,
    Ensures (benchmark A lit sort pieces fuel junk G part d base W o) t s Q

/-! ## Any arithmetic -/
section
variable {V : Type} {A : Arith V} {lit : Int → V} {sort : List (Point × V) → List (Point × V)} {G : Geometry Int} {part : Nat}
  {d : Nat → Nat} {base W : Nat} {o : Options}

/-- The benchmark is: build the matrix, add it to both blocks, run the solver for `pt * max 5 nt` steps, where `nt` is the number of traces
of `pt` iterations needed for `it` iterations. -/
theorem Setting.run (h : Setting A lit sort G part d base W o) :
    ∃ nt, Groups o.it o.pt nt ∧ ∃ offsets, benchOffsets A lit o.dim = some offsets ∧ ∃ N : Nat, ∀ fuel, N ≤ fuel → ∀ pieces,
      CoversMatrix A lit o pieces → ∀ junk, ∃ m pl, m.rows = indices (Rect.volume (boxOf (benchSizes o))) ∧
        HoldsCSR m ((stencilEntries (boxOf (benchSizes o)) (sort offsets) (pointsOf .rowMajor (boxOf (benchSizes o)))).map
          (linTriple .rowMajor (boxOf (benchSizes o)))) ∧ (sort offsets).Perm offsets ∧
        ClientSystem G (theCalls G part d (Op.csr m)) base ∧ Planner.empty.setupAll G (theCalls G part d (Op.csr m)) = some pl ∧
        ∀ t s (Q : (Cell Int → V) → Prop), Ensures (solverRun A G pl base (o.pt * max warmupTraces nt) o.solver) t (benchStart A G part d s)
          (fun _ s' => Q s') →
          Ensures (benchmark A lit sort pieces fuel junk G part d base W o) t s fun r s' => r = some (report W o.pt nt) ∧ Q s' := by
  obtain ⟨nt, hnt, hg⟩ := numTraces_groups (W := W) h.options.pt h.options.range
  obtain ⟨lt, hlt⟩ := h.sorts
  obtain ⟨offsets, hoff, size, hsize, N, hN⟩ := getLaplacian_holds h.options sort lt hlt
  refine ⟨nt, hg, offsets, hoff, N, fun fuel hf pieces hc junk => ?_⟩
  obtain ⟨m, hm, hr, hh⟩ := hN fuel hf pieces (hc offsets size hoff hsize) junk
  have hsys := h.vectors.system (holds_fits h.space hr hh)
  obtain ⟨pl, hpl⟩ := (c31_accepts_exactly G _ hsys.constructed).2 hsys.legal
  refine ⟨m, pl, hr, hh, (hlt offsets hoff).perm, hsys, hpl, fun t s Q hQ => ?_⟩
  exact (WP.lift hm (h.vectors.solves h.options.solver hpl hnt hQ)).ensures

/-- **C74**, in any arithmetic: the program prints five warm-up traces and the number of traces after them (modulo the word size, see
`c74_report`); both copies of the system have the same solution, element for element. -/
theorem c74_copies (h : Setting A lit sort G part d base W o) :
    ∃ nt, Groups o.it o.pt nt ∧ BenchmarkEnsures A lit sort G part d base W o fun r s' =>
      r = some (report W o.pt nt) ∧ ∀ p ∈ G.points (G.parent part), s' (.elem (d 2) p) = s' (.elem (d 3) p) := by
  obtain ⟨nt, hg, offsets, hoff, N, hN⟩ := h.run
  refine ⟨nt, hg, N, fun fuel hf pieces hc junk t s => ?_⟩
  obtain ⟨m, pl, hr, hh, -, hsys, hpl, hrun⟩ := hN fuel hf pieces hc junk
  refine hrun t s _ ?_
  have hC : Copies G (theCalls G part d (Op.csr m)) (benchStart A G part d s) (fun i j => i < 2 ∧ j < 2) := by
    have hs : sols (theCalls G part d (Op.csr m)) = [vecOf G part (d 2), vecOf G part (d 3)] := rfl
    have hb : rhss (theCalls G part d (Op.csr m)) = [vecOf G part (d 0), vecOf G part (d 1)] := rfl
    have sget : ∀ i v, i < 2 → (sols (theCalls G part d (Op.csr m)))[i]? = some v → v = vecOf G part (d (2 + i)) := by
      intro i v hi hv
      rcases (by omega : i = 0 ∨ i = 1) with rfl | rfl <;> cases hv <;> rfl
    have bget : ∀ i v, i < 2 → (rhss (theCalls G part d (Op.csr m)))[i]? = some v → v = vecOf G part (d i) := by
      intro i v hi hv
      rcases (by omega : i = 0 ∨ i = 1) with rfl | rfl <;> cases hv <;> rfl
    refine ⟨fun i j hij => hij, fun i j hij v v' hv hv' p => ?_, fun i j hij => ?_, fun i j hij v v' hv hv' p hp => ?_,
      fun i j hij v v' hv hv' p hp => ?_⟩
    · rw [sget i v hij.1 hv, sget j v' hij.2 hv']
      exact Iff.rfl
    · have hm : mats (theCalls G part d (Op.csr m)) = [(Op.csr m, 0, 0), (Op.csr m, 1, 1)] := rfl
      rw [hm]
      rcases (by omega : i = 0 ∨ i = 1) with rfl | rfl <;> rcases (by omega : j = 0 ∨ j = 1) with rfl | rfl <;>
        exact .cons ⟨rfl, Or.inr ⟨by simp, by simp⟩⟩ .nil
    · rw [sget i v hij.1 hv] at hp ⊢
      rw [sget j v' hij.2 hv']
      exact (start_sol s hij.1 hp).trans (start_sol s hij.2 hp).symm
    · rw [bget i v hij.1 hv] at hp ⊢
      rw [bget j v' hij.2 hv']
      exact (h.vectors.start_rhs s hij.1 hp).trans (h.vectors.start_rhs s hij.2 hp).symm
  obtain ⟨pl', hpl', hk⟩ := c67_copies A hsys hC
  rw [hpl] at hpl'
  cases hpl'
  have post : ∀ s', (∀ i j, i < 2 ∧ j < 2 → EqualBlocks G (theCalls G part d (Op.csr m)) s' i j) →
      ∀ p ∈ G.points (G.parent part), s' (.elem (d 2) p) = s' (.elem (d 3) p) :=
    fun s' hs p hp => hs 0 1 ⟨by decide, by decide⟩ _ _ rfl rfl p hp
  obtain ⟨h1, h2, h3⟩ := hk (o.pt * max warmupTraces nt) t
  unfold solverRun
  split
  · exact Ensures.forget (ensures_weaken h1 fun _ s' g => post s' g)
  · split
    · exact Ensures.forget (ensures_weaken h2 fun _ s' g => post s' g)
    · exact Ensures.forget (ensures_weaken (h3 10) fun _ s' g => post s' g)

/-- **C74**, the report: with at least five traces the printed number of timed traces is right and the divisor is the number of timed
iterations (if it fits); with exactly five the divisor is zero; with fewer the five warm-up traces still run and the printed number of timed
traces is a wrapped-around negative number. -/
theorem c74_report (W pt nt : Nat) (hnt : nt < W) :
    (5 ≤ nt → (report W pt nt).timed = nt - 5 ∧ (pt * (nt - 5) < W → (report W pt nt).divisor = pt * (nt - 5)) ∧
      pt * max warmupTraces nt = pt * 5 + pt * (report W pt nt).timed) ∧
    (nt = 5 → (report W pt nt).divisor = 0) ∧
    (nt < 5 → 5 ≤ W → (report W pt nt).timed = W - (5 - nt) ∧ pt * max warmupTraces nt = pt * 5) := by
  unfold report warmupTraces
  refine ⟨fun h5 => ?_, fun h5 => ?_, fun h5 hW => ?_⟩
  · have h1 : (nt + (W - 5)) % W = nt - 5 := by
      rw [show nt + (W - 5) = (nt - 5) + W from by omega, Nat.add_mod_right, Nat.mod_eq_of_lt (by omega)]
    simp only [h1]
    refine ⟨trivial, fun hp => Nat.mod_eq_of_lt hp, ?_⟩
    rw [← Nat.mul_add]
    congr 1
    omega
  · subst h5
    simp only
    rw [show 5 + (W - 5) = W from by omega, Nat.mod_self, Nat.mul_zero, Nat.zero_mod]
  · refine ⟨?_, ?_⟩
    · simp only
      rw [Nat.mod_eq_of_lt (by omega)]
      omega
    · congr 1
      omega

theorem Aborts.bind {P α β : Type} [DecidableEq P] {x : M P V α} {f : α → M P V β} (h : ∀ a, Aborts (f a)) : Aborts (x >>= f) := by
  intro e
  show (x e).bind (fun z => f z.1 z.2) = none
  cases x e with
  | none => rfl
  | some z => exact h z.1 z.2

theorem Aborts.first {P α β : Type} [DecidableEq P] {x : M P V α} {f : α → M P V β} (h : Aborts x) : Aborts (x >>= f) := by
  intro e
  show (x e).bind (fun z => f z.1 z.2) = none
  rw [h e]
  rfl

/-- **C74**, what the program does not accept: an unknown difference operator stops it, and so does, for a known solver, zero iterations per
trace. -/
theorem c74_rejects (pieces : List (Dom1 × Dom1)) (fuel : Nat) (junk : CSR Int Int V)
    (h : ¬(1 ≤ o.dim ∧ o.dim ≤ 4) ∨ (1 ≤ o.solver ∧ o.solver ≤ 3 ∧ o.pt = 0)) :
    Aborts (benchmark A lit sort pieces fuel junk G part d base W o) := by
  rcases h with hdim | ⟨hs1, hs3, hpt⟩
  · intro e
    have : benchOffsets A lit o.dim = none := by
      unfold benchOffsets
      rw [if_neg (by omega), if_neg (by omega), if_neg (by omega), if_neg (by omega)]
    unfold benchmark getLaplacian
    rw [this]
    rfl
  · have hl : ∀ {α : Type} (f : α → M Int V α) c, Aborts (benchLoops W o.it o.pt f c) := by
      intro α f c e
      unfold benchLoops numTraces
      rw [if_pos hpt]
      rfl
    refine Aborts.bind fun m => Aborts.bind fun _ => Aborts.bind fun _ => Aborts.bind fun _ => Aborts.bind fun _ => Aborts.bind fun _ =>
      Aborts.bind fun _ => Aborts.bind fun _ => Aborts.bind fun _ => Aborts.bind fun pl => ?_
    rcases (by omega : o.solver = 1 ∨ o.solver = 2 ∨ o.solver = 3) with hs | hs | hs
    · rw [if_pos hs]
      exact Aborts.first (Aborts.bind fun pl' => Aborts.bind fun c => Aborts.first (hl _ c))
    · rw [if_neg (by omega), if_pos hs]
      exact Aborts.first (Aborts.bind fun pl' => Aborts.bind fun c => Aborts.first (hl _ c))
    · rw [if_neg (by omega), if_neg (by omega), if_pos hs]
      exact Aborts.first (Aborts.bind fun pl' => Aborts.bind fun c => Aborts.first (hl _ c))

/-- **C74**, an unknown solver: the program ends without a report and leaves the solutions zero. -/
theorem c74_no_solver (h : Setting A lit sort G part d base W { o with solver := 1 }) (hs : ¬(1 ≤ o.solver ∧ o.solver ≤ 3)) :
    BenchmarkEnsures A lit sort G part d base W o fun r s' => r = none ∧ ∀ i, i < 2 → ∀ p ∈ G.points (G.parent part),
      s' (.elem (d (2 + i)) p) = A.zero := by
  obtain ⟨lt, hlt⟩ := h.sorts
  obtain ⟨offsets, hoff, size, hsize, N, hN⟩ := getLaplacian_holds h.options sort lt hlt
  refine ⟨N, fun fuel hf pieces hc junk t s => ?_⟩
  obtain ⟨m, hm, hr, hh⟩ := hN fuel hf pieces (hc offsets size hoff hsize) junk
  have hsys := h.vectors.system (holds_fits h.space hr hh)
  obtain ⟨pl, hpl⟩ := (c31_accepts_exactly G _ hsys.constructed).2 hsys.legal
  refine (WP.lift hm (h.vectors.wp hpl ?_)).ensures
  unfold branch
  rw [if_neg (by omega), if_neg (by omega), if_neg (by omega)]
  exact WP.pure ⟨rfl, fun i hi p hp => start_sol s hi hp⟩

end
end Verif.Programs
