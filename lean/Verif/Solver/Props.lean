import Verif.Solver.Setup
import Verif.Solver.ArnoldiMath
import Verif.Solver.BiMath

/-! # C34–C40, C46: the solvers

`cg`, `biCGStab`, `gmres` are user programs: construct the solver on the planner `pl` and call `step` `k` times.  Planner vector
0 is the solution, 1 the right-hand side; `pl'.operator G` is the block operator.  All statements are about every schedule
(`Ensures`). -/
set_option linter.dupNamespace false
set_option linter.unusedSectionVars false
namespace Verif.Solver
open Verif.Runtime Verif.Vector Verif.Matrix Verif.Planner Verif.Textbook
open scoped _root_.Matrix
variable {K P V : Type} [DecidableEq P] [DecidableEq K] [Field V] {A : Arith V}
variable {G : Geometry P} {pl pl' : Planner K P V} {base : Nat}

/-! ## C34 -/

theorem cg_wp (hA : A.Exact) (S : SolverSetup G pl pl' base 3) (k n : Nat) (s : Cell P → V)
    (hreg : CGRegular (pl'.operator G) (pl'.content G s 0) (pl'.content G s 1) k) :
    WP (cg A G pl base k) n s fun c n' s' => CGInv G pl' s k c n' s' ∧ Ext n s n' s' :=
  WP.allocate S.alloc (CGInv.solve hA S.ready S.order S.nonempty k n s hreg)

theorem CGInv.contents {s : Cell P → V} {k : Nat} {c : CG Scalar} {n' : Nat} {s' : Cell P → V} (I : CGInv G pl' s k c n' s') :
    pl'.content G s' 1 = pl'.content G s 1 ∧
    pl'.content G s' 0 = (Textbook.cg (pl'.operator G) (pl'.content G s 0) (pl'.content G s 1) k).x ∧
    pl'.content G s' 2 = (Textbook.cg (pl'.operator G) (pl'.content G s 0) (pl'.content G s 1) k).p ∧
    pl'.content G s' 4 = (Textbook.cg (pl'.operator G) (pl'.content G s 0) (pl'.content G s 1) k).r := by
  obtain ⟨x, v, h1, h2, h3, h4⟩ := I.view
  exact ⟨(v.vec 1 (by omega)).trans h1, (v.vec 0 (by omega)).trans h2, (v.vec 2 (by omega)).trans h3, (v.vec 4 (by omega)).trans h4⟩

/-- The program computes the textbook iteration (started with the right-hand side as residual). -/
theorem c34_iterates (hA : A.Exact) (S : SolverSetup G pl pl' base 3) (k n : Nat) (s : Cell P → V)
    (hreg : CGRegular (pl'.operator G) (pl'.content G s 0) (pl'.content G s 1) k) :
    Ensures (cg A G pl base k) n s fun _ s' =>
      pl'.content G s' 0 = (Textbook.cg (pl'.operator G) (pl'.content G s 0) (pl'.content G s 1) k).x ∧
      pl'.content G s' 2 = (Textbook.cg (pl'.operator G) (pl'.content G s 0) (pl'.content G s 1) k).p ∧
      pl'.content G s' 4 = (Textbook.cg (pl'.operator G) (pl'.content G s 0) (pl'.content G s 1) k).r := by
  refine WP.ensures ((cg_wp hA S k n s hreg).mono fun c n' s' h => ?_)
  exact h.1.contents.2

/-- From a zero initial solution, after `k` steps without division by zero: the residual vector is the true residual; the
right-hand side is unchanged; there are `k + 1` recorded values; there is a sequence of iterates, namely what the
program with `i` steps leaves in the solution, such that the `i`-th recorded value is the squared norm of the true residual
of iterate `i`. -/
theorem c34_true_residual (hA : A.Exact) (S : SolverSetup G pl pl' base 3) (k n : Nat) (s : Cell P → V)
    (hx0 : pl'.content G s 0 = 0) (hreg : CGRegular (pl'.operator G) (pl'.content G s 0) (pl'.content G s 1) k) :
    ∃ xs : Nat → pl'.U G → V,
      (∀ i, i ≤ k → Ensures (cg A G pl base i) n s fun _ s' => pl'.content G s' 0 = xs i) ∧
      Ensures (cg A G pl base k) n s fun c s' =>
        pl'.content G s' 4 = pl'.content G s' 1 - pl'.operator G *ᵥ pl'.content G s' 0 ∧
        pl'.content G s' 1 = pl'.content G s 1 ∧
        c.history.length = k + 1 ∧
        ∀ i, i ≤ k → ∃ a, c.history[i]? = some a ∧ s' (.fut a.fut) =
          (pl'.content G s 1 - pl'.operator G *ᵥ xs i) ⬝ᵥ (pl'.content G s 1 - pl'.operator G *ᵥ xs i) := by
  refine ⟨fun i => (Textbook.cg (pl'.operator G) (pl'.content G s 0) (pl'.content G s 1) i).x, fun i hi => ?_, ?_⟩
  · exact WP.ensures ((cg_wp hA S i n s (fun j hj => hreg j (by omega))).mono fun c n' s' h => h.1.contents.2.1)
  · refine WP.ensures ((cg_wp hA S k n s hreg).mono fun c n' s' h => ?_)
    obtain ⟨c1, c0, -, c4⟩ := h.1.contents
    have hres := fun i => cg_residual (pl'.operator G) (pl'.content G s 0) (pl'.content G s 1) i
    simp only [hx0, sub_zero] at hres
    refine ⟨?_, c1, ?_, fun i hi => ?_⟩
    · rw [c4, c1, c0, hx0, hres]
    · unfold CG.history
      rw [List.length_append, h.1.len]; rfl
    · obtain ⟨a, ha, hd⟩ := h.1.hist i hi
      refine ⟨a, ha, ?_⟩
      rw [hd.2, hx0, hres]

/-- With any initial solution: residual vector and records are those of the system `A (x - x0) = b`. -/
theorem c34_any_initial_guess (hA : A.Exact) (S : SolverSetup G pl pl' base 3) (k n : Nat) (s : Cell P → V)
    (hreg : CGRegular (pl'.operator G) (pl'.content G s 0) (pl'.content G s 1) k) :
    Ensures (cg A G pl base k) n s fun c s' =>
      pl'.content G s' 4 = pl'.content G s 1 - pl'.operator G *ᵥ (pl'.content G s' 0 - pl'.content G s 0) ∧
      ∃ a, c.history[k]? = some a ∧ s' (.fut a.fut) = pl'.content G s' 4 ⬝ᵥ pl'.content G s' 4 := by
  refine WP.ensures ((cg_wp hA S k n s hreg).mono fun c n' s' h => ?_)
  obtain ⟨c1, c0, -, c4⟩ := h.1.contents
  refine ⟨by rw [c4, c0, cg_residual], ?_⟩
  obtain ⟨a, ha, hd⟩ := h.1.hist k (le_refl k)
  exact ⟨a, ha, by rw [hd.2, c4]⟩

/-! ## C35 -/
section
variable [LinearOrder V] [IsStrictOrderedRing V]

/-- Symmetric positive definite operator, zero initial solution: after some number of steps, at most the number of unknowns,
the solution vector solves the system, and the last recorded value is zero; no earlier one is. -/
theorem c35_solves (hA : A.Exact) (S : SolverSetup G pl pl' base 3) (hspd : SPD (pl'.operator G)) (n : Nat) (s : Cell P → V)
    (hx0 : pl'.content G s 0 = 0) :
    ∃ k, k ≤ Fintype.card (pl'.U G) ∧ Ensures (cg A G pl base k) n s fun c s' =>
      pl'.operator G *ᵥ pl'.content G s' 0 = pl'.content G s 1 ∧
      c.history.length = k + 1 ∧
      ∀ (i : Nat) a, c.history[i]? = some a → (s' (.fut a.fut) = 0 ↔ i = k) := by
  obtain ⟨k, hk, hz, hnz⟩ := cg_terminates (A := pl'.operator G) (x0 := pl'.content G s 0) (b := pl'.content G s 1) hspd
  refine ⟨k, hk, ?_⟩
  refine WP.ensures ((cg_wp hA S k n s (cg_regular hspd k hnz)).mono fun c n' s' h => ?_)
  obtain ⟨c1, c0, -, c4⟩ := h.1.contents
  have hlen : c.history.length = k + 1 := by unfold CG.history; rw [List.length_append, h.1.len]; rfl
  refine ⟨?_, hlen, fun i a ha => ?_⟩
  · have hres := cg_residual (pl'.operator G) (pl'.content G s 0) (pl'.content G s 1) k
    rw [hz, ← c0, hx0, sub_zero] at hres
    exact (sub_eq_zero.1 hres.symm).symm
  · have hi : i < k + 1 := by rw [← hlen]; exact (List.getElem?_eq_some_iff.1 ha).1
    obtain ⟨a', ha', hd⟩ := h.1.hist i (by omega)
    rw [ha] at ha'
    cases ha'
    rw [hd.2]
    constructor
    · intro h0
      by_contra hne
      exact ne_of_gt (dot_self_pos (hnz i (by omega))) h0
    · rintro rfl
      rw [hz, zero_dotProduct]

/-- The same for every number of steps: either the program with `k` steps divides by nothing that is zero, or an earlier iterate
already solved the system. -/
theorem c35_no_division_by_zero (hspd : SPD (pl'.operator G)) (s : Cell P → V) (hx0 : pl'.content G s 0 = 0) (k : Nat)
    (hunsolved : ∀ i, i < k → pl'.operator G *ᵥ (Textbook.cg (pl'.operator G) (pl'.content G s 0) (pl'.content G s 1) i).x ≠
      pl'.content G s 1) : CGRegular (pl'.operator G) (pl'.content G s 0) (pl'.content G s 1) k := by
  apply cg_regular hspd
  intro i hi h0
  apply hunsolved i hi
  have hres := cg_residual (pl'.operator G) (pl'.content G s 0) (pl'.content G s 1) i
  have e : ∀ y : pl'.U G → V, y - pl'.content G s 0 = y := fun y => by rw [hx0, sub_zero]
  rw [h0, e] at hres
  exact (sub_eq_zero.1 hres.symm).symm

/-- As long as the system is not solved: the residuals of different steps are orthogonal, the directions conjugate, the error in
the energy norm strictly decreases, and each iterate minimises it over the Krylov space of the right-hand side. -/
theorem c35_optimality (hA : A.Exact) (S : SolverSetup G pl pl' base 3) (hspd : SPD (pl'.operator G)) (n : Nat) (s : Cell P → V)
    (hx0 : pl'.content G s 0 = 0) (z : pl'.U G → V) (hz : pl'.operator G *ᵥ z = pl'.content G s 1) (k : Nat)
    (hunsolved : ∀ i, i < k → ¬ Ensures (cg A G pl base i) n s fun _ s' => pl'.content G s' 0 = z) :
    ∃ xs rs ps : Nat → pl'.U G → V,
      (∀ i, i ≤ k → Ensures (cg A G pl base i) n s fun _ s' =>
        pl'.content G s' 0 = xs i ∧ pl'.content G s' 4 = rs i ∧ pl'.content G s' 2 = ps i) ∧
      (∀ i j, i < j → j ≤ k → rs j ⬝ᵥ rs i = 0) ∧
      (∀ i j, i < j → j ≤ k → ps i ⬝ᵥ pl'.operator G *ᵥ ps j = 0) ∧
      (∀ i, i < k → energy (pl'.operator G) (z - xs (i + 1)) < energy (pl'.operator G) (z - xs i)) ∧
      ∀ i, i ≤ k → xs i ∈ krylov (pl'.operator G) (pl'.content G s 1) i ∧
        ∀ y ∈ krylov (pl'.operator G) (pl'.content G s 1) i,
          energy (pl'.operator G) (z - xs i) ≤ energy (pl'.operator G) (z - y) := by
  have hz' : pl'.operator G *ᵥ z = pl'.content G s 1 + pl'.operator G *ᵥ pl'.content G s 0 := by
    rw [hx0, _root_.Matrix.mulVec_zero, add_zero, hz]
  -- the operator is injective
  have hinj : ∀ w, pl'.operator G *ᵥ w = 0 → w = 0 := by
    intro w hw
    by_contra hne
    have := hspd.2 w hne
    rw [hw, dotProduct_zero] at this
    exact lt_irrefl _ this
  have hnz : ∀ i, i < k → (Textbook.cg (pl'.operator G) (pl'.content G s 0) (pl'.content G s 1) i).r ≠ 0 := by
    intro i
    induction i using Nat.strong_induction_on with
    | _ i ih =>
      intro hi h0
      apply hunsolved i hi
      refine WP.ensures ((cg_wp hA S i n s (cg_regular hspd i (fun j hj => ih j hj (by omega)))).mono fun c n' s' h => ?_)
      rw [h.1.contents.2.1]
      have hres := cg_residual (pl'.operator G) (pl'.content G s 0) (pl'.content G s 1) i
      rw [h0, ← hz, ← _root_.Matrix.mulVec_sub] at hres
      have := hinj _ hres.symm
      have e : ∀ y : pl'.U G → V, y - pl'.content G s 0 = y := fun y => by rw [hx0, sub_zero]
      rw [e] at this
      rw [hz] at this
      exact (sub_eq_zero.1 this).symm
  have horth := CGOrth.all hspd k hnz
  refine ⟨fun i => (Textbook.cg (pl'.operator G) (pl'.content G s 0) (pl'.content G s 1) i).x,
    fun i => (Textbook.cg (pl'.operator G) (pl'.content G s 0) (pl'.content G s 1) i).r,
    fun i => (Textbook.cg (pl'.operator G) (pl'.content G s 0) (pl'.content G s 1) i).p, fun i hi => ?_, ?_, ?_, ?_, ?_⟩
  · refine WP.ensures ((cg_wp hA S i n s (cg_regular hspd i (fun j hj => hnz j (by omega)))).mono fun c n' s' h => ?_)
    obtain ⟨-, h0, h2, h4⟩ := h.1.contents
    exact ⟨h0, h4, h2⟩
  · intro i j hij hj
    exact (horth j hj).rr i hij
  · intro i j hij hj
    rw [symm_dot hspd.1]
    exact (horth j hj).pAp i hij
  · intro i hi
    exact cg_decrease hspd i (fun j hj => hnz j (by omega)) z hz'
  · intro i hi
    have hk := (cg_in_krylov (pl'.operator G) (pl'.content G s 0) (pl'.content G s 1) i).2.2
    rw [hx0, sub_zero, ← hx0] at hk
    refine ⟨hk, fun y hy => ?_⟩
    refine cg_minimises hspd i (fun j hj => hnz j (by omega)) z hz' y ?_
    rw [hx0, sub_zero]
    exact hy

/-- After an exact solution, the next step divides zero by zero: stopping is left to the caller. -/
theorem c35_next_step_divides_by_zero (s : Cell P → V) (k : Nat)
    (h0 : (Textbook.cg (pl'.operator G) (pl'.content G s 0) (pl'.content G s 1) k).r = 0) :
    ¬ CGRegular (pl'.operator G) (pl'.content G s 0) (pl'.content G s 1) (k + 1) := by
  intro h
  apply (h k (by omega)).1
  rw [h0, zero_dotProduct]

end

/-! ## C36, C46 -/

theorem bi_wp (hA : A.Exact) (S : SolverSetup G pl pl' base 5) (k n : Nat) (s : Cell P → V)
    (hreg : BiRegular (pl'.operator G) (pl'.content G s 0) (pl'.content G s 1) k) :
    WP (biCGStab A G pl base k) n s fun c n' s' => BiInv G pl' s k c n' s' ∧ Ext n s n' s' :=
  WP.allocate S.alloc (BiInv.solve hA S.ready S.order S.nonempty k n s hreg)

/-- The program computes the textbook iteration. -/
theorem c36_iterates (hA : A.Exact) (S : SolverSetup G pl pl' base 5) (k n : Nat) (s : Cell P → V)
    (hreg : BiRegular (pl'.operator G) (pl'.content G s 0) (pl'.content G s 1) k) :
    Ensures (biCGStab A G pl base k) n s fun c s' =>
      ∃ st, st = bi (pl'.operator G) (pl'.content G s 0) (pl'.content G s 1) k ∧
        pl'.content G s' 0 = st.x ∧ pl'.content G s' 3 = st.r ∧ pl'.content G s' 2 = st.p ∧ pl'.content G s' 6 = st.v ∧
        s' (.fut c.rho.fut) = st.ρ ∧ s' (.fut c.alpha.fut) = st.α ∧ s' (.fut c.omega.fut) = st.ω := by
  refine WP.ensures ((bi_wp hA S k n s hreg).mono fun c n' s' h => ?_)
  obtain ⟨y, w, h1, h4, h0, h2, h3, h6⟩ := h.1.view
  obtain ⟨a1, a2, a3, q1, q2, q3, r1, r2, r3⟩ := h.1.hist k (le_refl _)
  cases getElem?_last _ _ _ _ h.1.len.1 q1
  cases getElem?_last _ _ _ _ h.1.len.2.1 q2
  cases getElem?_last _ _ _ _ h.1.len.2.2 q3
  exact ⟨_, rfl, (w.vec 0 (by omega)).trans h0, (w.vec 3 (by omega)).trans h3, (w.vec 2 (by omega)).trans h2,
    (w.vec 6 (by omega)).trans h6, r1.2, r2.2, r3.2⟩

theorem BiInv.contents {s : Cell P → V} {k : Nat} {c : BiCGStab Scalar} {n' : Nat} {s' : Cell P → V} (I : BiInv G pl' s k c n' s') :
    pl'.content G s' 1 = pl'.content G s 1 ∧ pl'.content G s' 4 = pl'.content G s 1 ∧
    pl'.content G s' 0 = (bi (pl'.operator G) (pl'.content G s 0) (pl'.content G s 1) k).x ∧
    pl'.content G s' 2 = (bi (pl'.operator G) (pl'.content G s 0) (pl'.content G s 1) k).p ∧
    pl'.content G s' 3 = (bi (pl'.operator G) (pl'.content G s 0) (pl'.content G s 1) k).r := by
  obtain ⟨x, v, h1, h4, h0, h2, h3, -⟩ := I.view
  exact ⟨(v.vec 1 (by omega)).trans h1, (v.vec 4 (by omega)).trans h4, (v.vec 0 (by omega)).trans h0,
    (v.vec 2 (by omega)).trans h2, (v.vec 3 (by omega)).trans h3⟩

/-- From a zero initial solution, after `k` steps without division by zero, the residual vector is the true residual. -/
theorem c36_true_residual (hA : A.Exact) (S : SolverSetup G pl pl' base 5) (k n : Nat) (s : Cell P → V)
    (hx0 : pl'.content G s 0 = 0) (hreg : BiRegular (pl'.operator G) (pl'.content G s 0) (pl'.content G s 1) k) :
    Ensures (biCGStab A G pl base k) n s fun _ s' =>
      pl'.content G s' 3 = pl'.content G s' 1 - pl'.operator G *ᵥ pl'.content G s' 0 ∧
      pl'.content G s' 1 = pl'.content G s 1 := by
  refine WP.ensures ((bi_wp hA S k n s hreg).mono fun c n' s' h => ?_)
  obtain ⟨c1, -, c0, -, c3⟩ := h.1.contents
  refine ⟨?_, c1⟩
  rw [c3, c1, c0, bi_residual, hx0, sub_zero]

/-- With any initial solution the residual is that of `A (x - x0) = b`. -/
theorem c36_any_initial_guess (hA : A.Exact) (S : SolverSetup G pl pl' base 5) (k n : Nat) (s : Cell P → V)
    (hreg : BiRegular (pl'.operator G) (pl'.content G s 0) (pl'.content G s 1) k) :
    Ensures (biCGStab A G pl base k) n s fun _ s' =>
      pl'.content G s' 3 = pl'.content G s 1 - pl'.operator G *ᵥ (pl'.content G s' 0 - pl'.content G s 0) := by
  refine WP.ensures ((bi_wp hA S k n s hreg).mono fun c n' s' h => ?_)
  obtain ⟨c1, -, c0, -, c3⟩ := h.1.contents
  rw [c3, c0, bi_residual]

/-- The last step, in terms of the memory before (`k` steps) and after (`k + 1` steps): with the new direction `p` (vector 2), the
recorded coefficients `α`, `ω` and the old residual `r` (vector 3), the intermediate residual `m = r - α A p` is orthogonal to
the shadow residual (vector 4, the right-hand side), the new residual is `m - ω A m`, its norm is minimal among
`m - t A m`, and the solution moved by `α p + ω m`. -/
theorem c36_local_minimum [LinearOrder V] [IsStrictOrderedRing V] (hA : A.Exact) (S : SolverSetup G pl pl' base 5) (k n : Nat)
    (s : Cell P → V) (hreg : BiRegular (pl'.operator G) (pl'.content G s 0) (pl'.content G s 1) (k + 1)) :
    ∃ x r : pl'.U G → V,
      (Ensures (biCGStab A G pl base k) n s fun _ s' => pl'.content G s' 0 = x ∧ pl'.content G s' 3 = r) ∧
      Ensures (biCGStab A G pl base (k + 1)) n s fun c s' => ∃ m : pl'.U G → V,
        m = r - s' (.fut c.alpha.fut) • (pl'.operator G *ᵥ pl'.content G s' 2) ∧
        pl'.content G s' 4 = pl'.content G s 1 ∧
        pl'.content G s' 4 ⬝ᵥ m = 0 ∧
        pl'.content G s' 3 = m - s' (.fut c.omega.fut) • (pl'.operator G *ᵥ m) ∧
        (∀ t : V, pl'.content G s' 3 ⬝ᵥ pl'.content G s' 3 ≤ (m - t • (pl'.operator G *ᵥ m)) ⬝ᵥ (m - t • (pl'.operator G *ᵥ m))) ∧
        pl'.content G s' 0 = x + s' (.fut c.alpha.fut) • pl'.content G s' 2 + s' (.fut c.omega.fut) • m := by
  set st := bi (pl'.operator G) (pl'.content G s 0) (pl'.content G s 1) k with hst
  refine ⟨st.x, st.r, ?_, ?_⟩
  · refine WP.ensures ((bi_wp hA S k n s (fun i hi => hreg i (by omega))).mono fun c n' s' h => ?_)
    obtain ⟨-, -, c0, -, c3⟩ := h.1.contents
    exact ⟨c0, c3⟩
  · refine WP.ensures ((bi_wp hA S (k + 1) n s hreg).mono fun c n' s' h => ?_)
    obtain ⟨c1, c4, c0, c2, c3⟩ := h.1.contents
    obtain ⟨a1, a2, a3, q1, q2, q3, r1, r2, r3⟩ := h.1.hist (k + 1) (le_refl _)
    cases getElem?_last _ _ _ _ h.1.len.2.1 q2
    cases getElem?_last _ _ _ _ h.1.len.2.2 q3
    obtain ⟨g1, g2, g3, g4⟩ := hreg k (by omega)
    have e0 : (bi (pl'.operator G) (pl'.content G s 0) (pl'.content G s 1) (k + 1)) = biStep (pl'.operator G) (pl'.content G s 1) st := rfl
    rw [e0] at r2 r3 c0 c2 c3
    refine ⟨st.mid (pl'.operator G) (pl'.content G s 1), ?_, c4, ?_, ?_, ?_, ?_⟩
    · rw [r2.2, c2]; rfl
    · rw [c4]; exact bi_mid_orth _ _ st g3
    · rw [c3, r3.2]; rfl
    · intro t
      rw [c3]
      exact line_min _ _ g4 t
    · rw [c0, r2.2, c2, r3.2]; rfl

/-- **C46.**  `b` is the right-hand side, `n` the number of unknowns.  After `n - 1` steps without division by zero, let `x`, `r`, `p`,
`v`, `ρ`, `α`, `ω` be what is in memory.  If the first half of the next step divides by nothing that is zero, then it finds the
exact solution `x + α' p'` (of `A x = b` if the solution was started at zero) and the intermediate residual is zero;
the second half of the step then divides zero by zero. -/
theorem c46_half_step_solves (hA : A.Exact) (S : SolverSetup G pl pl' base 5) (n : Nat) (s : Cell P → V) (m : Nat)
    (hm : m + 1 = Fintype.card (pl'.U G))
    (hreg : BiRegular (pl'.operator G) (pl'.content G s 0) (pl'.content G s 1) m) :
    Ensures (biCGStab A G pl base m) n s fun c s' =>
      ∀ (b x r p v p' mid : pl'.U G → V) (ρ α ω ρ' α' : V), b = pl'.content G s 1 → x = pl'.content G s' 0 →
      r = pl'.content G s' 3 → p = pl'.content G s' 2 → v = pl'.content G s' 6 →
      ρ = s' (.fut c.rho.fut) → α = s' (.fut c.alpha.fut) → ω = s' (.fut c.omega.fut) →
      ρ' = r ⬝ᵥ b → p' = r + (ρ' / ρ * (α / ω)) • (p - ω • v) → α' = ρ' / (b ⬝ᵥ pl'.operator G *ᵥ p') →
      mid = r - α' • (pl'.operator G *ᵥ p') →
      ρ ≠ 0 → ω ≠ 0 → ρ' ≠ 0 → b ⬝ᵥ pl'.operator G *ᵥ p' ≠ 0 →
        pl'.operator G *ᵥ (x + α' • p' - pl'.content G s 0) = b ∧ mid = 0 ∧
        (pl'.operator G *ᵥ mid) ⬝ᵥ (pl'.operator G *ᵥ mid) = 0 := by
  refine WP.ensures ((bi_wp hA S _ n s hreg).mono fun c n' s' h => ?_)
  obtain ⟨y, w, h1, h4, h0, h2, h3, h6⟩ := h.1.view
  obtain ⟨a1, a2, a3, q1, q2, q3, r1, r2, r3⟩ := h.1.hist m (le_refl _)
  cases getElem?_last _ _ _ _ h.1.len.1 q1
  cases getElem?_last _ _ _ _ h.1.len.2.1 q2
  cases getElem?_last _ _ _ _ h.1.len.2.2 q3
  intro b x r p v p' mid ρ α ω ρ' α' eb ex er ep ev eρ eα eω eρ' ep' eα' em k1 k2 k3 k4
  rw [w.vec 0 (by omega), h0] at ex
  rw [w.vec 3 (by omega), h3] at er
  rw [w.vec 2 (by omega), h2] at ep
  rw [w.vec 6 (by omega), h6] at ev
  rw [r1.2] at eρ
  rw [r2.2] at eα
  rw [r3.2] at eω
  have hres := bi_residual (pl'.operator G) (pl'.content G s 0) (pl'.content G s 1) m
  have hhalf := fun h hr => bi_half (A := pl'.operator G) (x0 := pl'.content G s 0) (b := pl'.content G s 1) m hm hreg h hr
  rw [← eb] at *
  generalize hst : bi (pl'.operator G) (pl'.content G s 0) b m = st at *
  have ed : p' = st.dir b := by rw [ep', eρ', er, eρ, eα, eω, ep, ev]; rfl
  have ea : α' = st.alpha (pl'.operator G) b := by rw [eα', eρ', er, ed]; rfl
  have emid : mid = st.mid (pl'.operator G) b := by rw [em, er, ea, ed]; rfl
  have hz : mid = 0 := by
    rw [emid]
    refine hhalf ⟨eρ ▸ k1, eω ▸ k2, ?_⟩ ?_
    · rw [ed] at k4; exact k4
    · rw [← er, ← eρ']; exact k3
  refine ⟨?_, hz, by rw [hz, _root_.Matrix.mulVec_zero, zero_dotProduct]⟩
  rw [hz, er, hres, ← ex] at em
  rw [add_sub_right_comm, _root_.Matrix.mulVec_add, _root_.Matrix.mulVec_smul]
  have := em.symm
  rw [sub_sub] at this
  exact (sub_eq_zero.1 this).symm

/-- It cannot make more steps than there are unknowns without dividing by zero. -/
theorem c46_breaks_down (s : Cell P → V) :
    ¬ BiRegular (pl'.operator G) (pl'.content G s 0) (pl'.content G s 1) (Fintype.card (pl'.U G) + 1) :=
  bi_breaks_down _ rfl

/-! ## C37, C38 -/

theorem gmres_wp (hA : A.Exact) {m : Nat} (S : SolverSetup G pl pl' base (m + 1)) (k n : Nat) (s : Cell P → V)
    (hreg : CycleRegular A.sqrt (pl'.operator G) m (pl'.content G s 0) (pl'.content G s 1) k) :
    WP (gmres A G pl base m k) n s fun c n' s' => GMInv A.sqrt G pl' m s k c n' s' ∧ Ext n s n' s' :=
  WP.allocate S.alloc (GMInv.solve hA S.ready S.order S.nonempty k n s hreg)

/-- After any positive number of cycles of restart length `m ≥ 1` in which no vector that is scaled vanishes, and exact square
roots: the first `m` basis vectors (planner vectors 2, …, m+1) are orthonormal, the last one (m+2) is orthogonal to them; they
satisfy the Arnoldi relation with the recorded inner products `h`; the first one is the residual at the start of the cycle
(`x` is the solution at that time), scaled; the first `j` of them span the Krylov space of that residual. -/
theorem c37_arnoldi (hA : A.Exact) {m : Nat} (hm : 0 < m) (S : SolverSetup G pl pl' base (m + 1)) (k n : Nat) (s : Cell P → V)
    (hreg : CycleRegular A.sqrt (pl'.operator G) m (pl'.content G s 0) (pl'.content G s 1) (k + 1))
    (hroots : ∀ i, i ≤ k → RootsExact A.sqrt (pl'.operator G)
      (pl'.content G s 1 - pl'.operator G *ᵥ sumCycle A.sqrt (pl'.operator G) m (pl'.content G s 0) (pl'.content G s 1) i) m) :
    ∃ x : pl'.U G → V, (Ensures (gmres A G pl base m k) n s fun _ s' => pl'.content G s' 0 = x) ∧
      Ensures (gmres A G pl base m (k + 1)) n s fun c s' => ∃ (v : Nat → pl'.U G → V) (h : Nat → Nat → V) (r : pl'.U G → V),
        (∀ j, j ≤ m → v j = pl'.content G s' (j + 2)) ∧
        (∀ i j, j < m → i ≤ j + 1 → h i j = s' (.fut (c.inner i j).fut)) ∧
        r = pl'.content G s 1 - pl'.operator G *ᵥ x ∧
        (∀ i j, i < m → j < m → v i ⬝ᵥ v j = if i = j then 1 else 0) ∧
        (∀ i, i < m → v i ⬝ᵥ v m = 0) ∧
        (∀ j, j + 1 < m → pl'.operator G *ᵥ v j = ∑ i ∈ Finset.range (j + 2), h i j • v i) ∧
        pl'.operator G *ᵥ v (m - 1) = ∑ i ∈ Finset.range m, h i (m - 1) • v i + v m ∧
        h m (m - 1) = A.sqrt (v m ⬝ᵥ v m) ∧
        r = A.sqrt (r ⬝ᵥ r) • v 0 ∧
        ∀ j, j ≤ m → Submodule.span V {w | ∃ i, i < j ∧ w = v i} = krylov (pl'.operator G) r j := by
  refine ⟨sumCycle A.sqrt (pl'.operator G) m (pl'.content G s 0) (pl'.content G s 1) k, ?_, ?_⟩
  · refine WP.ensures ((gmres_wp hA S k n s (fun i hi => hreg i (by omega))).mono fun c n' s' h => ?_)
    obtain ⟨y, w, -, h0, -⟩ := h.1.view
    exact (w.vec 0 (by omega)).trans h0
  · refine WP.ensures ((gmres_wp hA S (k + 1) n s hreg).mono fun c n' s' h => ?_)
    obtain ⟨y, w, h1, h0, hb⟩ := h.1.view
    have hb := hb k rfl _ rfl
    have hreg := hreg k (by omega)
    have hroots := hroots k (le_refl k)
    generalize hr : pl'.content G s 1 - pl'.operator G *ᵥ
      sumCycle A.sqrt (pl'.operator G) m (pl'.content G s 0) (pl'.content G s 1) k = r at hb hreg hroots
    obtain ⟨hb1, hb2, hb3⟩ := hb
    have horth := arnoldi_orthonormal hroots hreg
    refine ⟨fun j => if j < m then arnoldi A.sqrt (pl'.operator G) r j else arnoldiRaw A.sqrt (pl'.operator G) r m,
      hess A.sqrt (pl'.operator G) r, r, ?_, ?_, rfl, ?_, ?_, ?_, ?_, ?_, ?_, ?_⟩
    · intro j hj
      rw [w.vec (j + 2) (by omega)]
      by_cases e : j < m
      · simp only [if_pos e]; rw [hb1 j e]
      · obtain rfl : j = m := by omega
        simp only [if_neg e]; rw [hb2 hm]
    · intro i j hj hi
      exact (hb3 i j hj hi).2.symm
    · intro i j hi hj
      simp only [if_pos hi, if_pos hj]
      rcases Nat.lt_trichotomy i j with e | e | e
      · rw [if_neg (by omega), (horth j hj).2 i e]
      · subst e; rw [if_pos rfl, (horth i hi).1]
      · rw [if_neg (by omega), dotProduct_comm, (horth i hi).2 j e]
    · intro i hi
      simp only [if_pos hi, if_neg (lt_irrefl m)]
      exact arnoldi_last_orth hroots hreg hm i hi
    · intro j hj
      simp only [if_pos (show j < m by omega)]
      rw [arnoldi_relation _ _ _ _ (hreg.2 j hj)]
      apply Finset.sum_congr rfl
      intro i hi
      have := Finset.mem_range.1 hi
      simp only [if_pos (show i < m by omega)]
    · simp only [if_pos (show m - 1 < m by omega), if_neg (lt_irrefl m)]
      rw [arnoldi_relation_raw, show m - 1 + 1 = m by omega]
      congr 1
      apply Finset.sum_congr rfl
      intro i hi
      have := Finset.mem_range.1 hi
      simp only [if_pos (show i < m by omega)]
    · simp only [if_neg (lt_irrefl m)]
      unfold hess
      rw [if_neg (by omega), show m - 1 + 1 = m by omega]
    · simp only [if_pos hm]
      exact raw_eq A.sqrt (pl'.operator G) r 0 hreg.1
    · intro j hj
      rw [← basisSpan_eq hreg j hj]
      unfold basisSpan
      congr 1
      ext w
      constructor
      · rintro ⟨i, hi, rfl⟩; exact ⟨i, hi, by simp only [if_pos (show i < m by omega)]⟩
      · rintro ⟨i, hi, rfl⟩; exact ⟨i, hi, by simp only [if_pos (show i < m by omega)]⟩

/-- What the cycle then does with the basis: it adds the sum of the basis vectors to the solution, whatever the recorded inner
products are, so that the solution always moves by the same distance, the square root of the restart length. -/
theorem c38_step_length (hA : A.Exact) {m : Nat} (S : SolverSetup G pl pl' base (m + 1)) (k n : Nat) (s : Cell P → V)
    (hreg : CycleRegular A.sqrt (pl'.operator G) m (pl'.content G s 0) (pl'.content G s 1) (k + 1))
    (hroots : ∀ i, i ≤ k → RootsExact A.sqrt (pl'.operator G)
      (pl'.content G s 1 - pl'.operator G *ᵥ sumCycle A.sqrt (pl'.operator G) m (pl'.content G s 0) (pl'.content G s 1) i) m) :
    ∃ x : pl'.U G → V, (Ensures (gmres A G pl base m k) n s fun _ s' => pl'.content G s' 0 = x) ∧
      Ensures (gmres A G pl base m (k + 1)) n s fun _ s' =>
        (pl'.content G s' 0 - x) ⬝ᵥ (pl'.content G s' 0 - x) = m ∧
        pl'.content G s' 0 = x + ∑ j ∈ Finset.range m, pl'.content G s' (j + 2) := by
  refine ⟨sumCycle A.sqrt (pl'.operator G) m (pl'.content G s 0) (pl'.content G s 1) k, ?_, ?_⟩
  · refine WP.ensures ((gmres_wp hA S k n s (fun i hi => hreg i (by omega))).mono fun c n' s' h => ?_)
    obtain ⟨y, w, -, h0, -⟩ := h.1.view
    exact (w.vec 0 (by omega)).trans h0
  · refine WP.ensures ((gmres_wp hA S (k + 1) n s hreg).mono fun c n' s' h => ?_)
    obtain ⟨y, w, h1, h0, hb⟩ := h.1.view
    obtain ⟨hb1, -, -⟩ := hb k rfl _ rfl
    have hc0 := (w.vec 0 (by omega)).trans h0
    rw [hc0]
    refine ⟨sumCycle_distance (hroots k (le_refl k)) (hreg k (by omega)), ?_⟩
    show sumCycle _ _ _ _ _ k + _ = _
    congr 1
    rw [Finset.sum_range, ← List.sum_ofFn]
    apply congrArg List.sum
    apply List.ext_getElem
    · simp
    · intro i hi1 hi2
      have hi : i < m := by simpa using hi1
      simp [w.vec (i + 2) (by omega), hb1 i hi]

/-- So the solver does not converge to anything: of two successive iterates at least one is at squared distance at least a quarter
of the restart length from the solution of the system, or from any other vector `z`. -/
theorem c38_stays_away [LinearOrder V] [IsStrictOrderedRing V] (hA : A.Exact) {m : Nat}
    (S : SolverSetup G pl pl' base (m + 1)) (k n : Nat) (s : Cell P → V)
    (hreg : CycleRegular A.sqrt (pl'.operator G) m (pl'.content G s 0) (pl'.content G s 1) (k + 1))
    (hroots : ∀ i, i ≤ k → RootsExact A.sqrt (pl'.operator G)
      (pl'.content G s 1 - pl'.operator G *ᵥ sumCycle A.sqrt (pl'.operator G) m (pl'.content G s 0) (pl'.content G s 1) i) m) :
    ∃ x : pl'.U G → V, (Ensures (gmres A G pl base m k) n s fun _ s' => pl'.content G s' 0 = x) ∧
      Ensures (gmres A G pl base m (k + 1)) n s fun _ s' => ∀ z : pl'.U G → V,
        (m : V) ≤ 4 * ((x - z) ⬝ᵥ (x - z)) ∨
        (m : V) ≤ 4 * ((pl'.content G s' 0 - z) ⬝ᵥ (pl'.content G s' 0 - z)) := by
  refine ⟨sumCycle A.sqrt (pl'.operator G) m (pl'.content G s 0) (pl'.content G s 1) k, ?_, ?_⟩
  · refine WP.ensures ((gmres_wp hA S k n s (fun i hi => hreg i (by omega))).mono fun c n' s' h => ?_)
    obtain ⟨y, w, -, h0, -⟩ := h.1.view
    exact (w.vec 0 (by omega)).trans h0
  · refine WP.ensures ((gmres_wp hA S (k + 1) n s hreg).mono fun c n' s' h => ?_)
    obtain ⟨y, w, h1, h0, hb⟩ := h.1.view
    have hc0 := (w.vec 0 (by omega)).trans h0
    rw [hc0]
    intro z
    have hd := sumCycle_distance (hroots k (le_refl k)) (hreg k (by omega))
    generalize sumCycle A.sqrt (pl'.operator G) m (pl'.content G s 0) (pl'.content G s 1) k = x at hd ⊢
    generalize sumCycle A.sqrt (pl'.operator G) m (pl'.content G s 0) (pl'.content G s 1) (k + 1) = x' at hd ⊢
    by_contra hcon
    rw [not_or, not_le, not_le] at hcon
    have hp : 0 ≤ ((x' - z) + (x - z)) ⬝ᵥ ((x' - z) + (x - z)) := Finset.sum_nonneg fun i _ => mul_self_nonneg _
    have e : x' - x = (x' - z) - (x - z) := by abel
    rw [e] at hd
    generalize x' - z = p at hd hcon hp
    generalize x - z = q at hd hcon hp
    simp only [sub_dotProduct, dotProduct_sub, add_dotProduct, dotProduct_add, dotProduct_comm q p] at hd hp
    linarith [hcon.1, hcon.2]

/-- **C38, partial**: what is missing is that the condition below can fail (see `c38_violated`).  A cycle does not increase the
residual norm exactly if the sum `y` of the basis vectors satisfies `‖A y‖² ≤ 2 r·A y`. -/
theorem c38_condition_partial [LinearOrder V] [IsStrictOrderedRing V] (hA : A.Exact) {m : Nat}
    (S : SolverSetup G pl pl' base (m + 1)) (k n : Nat) (s : Cell P → V)
    (hreg : CycleRegular A.sqrt (pl'.operator G) m (pl'.content G s 0) (pl'.content G s 1) (k + 1)) :
    ∃ r : pl'.U G → V, (Ensures (gmres A G pl base m k) n s fun _ s' =>
        pl'.content G s 1 - pl'.operator G *ᵥ pl'.content G s' 0 = r) ∧
      Ensures (gmres A G pl base m (k + 1)) n s fun _ s' => ∃ y r' : pl'.U G → V,
        y = ∑ j ∈ Finset.range m, pl'.content G s' (j + 2) ∧
        r' = pl'.content G s 1 - pl'.operator G *ᵥ pl'.content G s' 0 ∧
        (r' ⬝ᵥ r' ≤ r ⬝ᵥ r ↔ (pl'.operator G *ᵥ y) ⬝ᵥ (pl'.operator G *ᵥ y) ≤ 2 * (r ⬝ᵥ pl'.operator G *ᵥ y)) := by
  refine ⟨pl'.content G s 1 - pl'.operator G *ᵥ
    sumCycle A.sqrt (pl'.operator G) m (pl'.content G s 0) (pl'.content G s 1) k, ?_, ?_⟩
  · refine WP.ensures ((gmres_wp hA S k n s (fun i hi => hreg i (by omega))).mono fun c n' s' h => ?_)
    obtain ⟨y, w, -, h0, -⟩ := h.1.view
    rw [w.vec 0 (by omega), h0]
  · refine WP.ensures ((gmres_wp hA S (k + 1) n s hreg).mono fun c n' s' h => ?_)
    obtain ⟨y, w, h1, h0, hb⟩ := h.1.view
    obtain ⟨hb1, -, -⟩ := hb k rfl _ rfl
    refine ⟨_, _, rfl, rfl, ?_⟩
    rw [w.vec 0 (by omega), h0]
    have hsum : ((List.range m).map (arnoldi A.sqrt (pl'.operator G) (pl'.content G s 1 - pl'.operator G *ᵥ
        sumCycle A.sqrt (pl'.operator G) m (pl'.content G s 0) (pl'.content G s 1) k))).sum =
        ∑ j ∈ Finset.range m, pl'.content G s' (j + 2) := by
      rw [Finset.sum_range, ← List.sum_ofFn]
      apply congrArg List.sum
      apply List.ext_getElem
      · simp
      · intro i hi1 hi2
        have hi : i < m := by simpa using hi1
        simp [w.vec (i + 2) (by omega), hb1 i hi]
    have hsucc : sumCycle A.sqrt (pl'.operator G) m (pl'.content G s 0) (pl'.content G s 1) (k + 1) =
      sumCycle A.sqrt (pl'.operator G) m (pl'.content G s 0) (pl'.content G s 1) k +
        ∑ j ∈ Finset.range m, pl'.content G s' (j + 2) := by rw [← hsum]; rfl
    rw [hsucc, _root_.Matrix.mulVec_add]
    generalize pl'.operator G *ᵥ ∑ j ∈ Finset.range m, pl'.content G s' (j + 2) = u
    generalize hr : pl'.content G s 1 - pl'.operator G *ᵥ
      sumCycle A.sqrt (pl'.operator G) m (pl'.content G s 0) (pl'.content G s 1) k = r
    rw [← sub_sub, hr]
    rw [sub_dotProduct, dotProduct_sub, dotProduct_sub, dotProduct_comm u r]
    constructor
    · intro h; linarith
    · intro h; linarith

/-! ## C39 -/

/-- **C39 is false** for CG: started from any solution vector `x0`, when the residual vector the solver maintains becomes zero, the
solution vector solves `A x = b + A x0`; so it solves `A x = b` only if `A x0 = 0`. -/
theorem c39_violated_cg (hA : A.Exact) (S : SolverSetup G pl pl' base 3) (k n : Nat) (s : Cell P → V)
    (hreg : CGRegular (pl'.operator G) (pl'.content G s 0) (pl'.content G s 1) k) :
    Ensures (cg A G pl base k) n s fun _ s' => pl'.content G s' 4 = 0 →
      pl'.operator G *ᵥ pl'.content G s' 0 = pl'.content G s 1 + pl'.operator G *ᵥ pl'.content G s 0 ∧
      (pl'.operator G *ᵥ pl'.content G s' 0 = pl'.content G s 1 ↔ pl'.operator G *ᵥ pl'.content G s 0 = 0) := by
  refine WP.ensures ((cg_wp hA S k n s hreg).mono fun c n' s' h => ?_)
  obtain ⟨c1, c0, -, c4⟩ := h.1.contents
  intro h4
  have e : pl'.operator G *ᵥ pl'.content G s' 0 = pl'.content G s 1 + pl'.operator G *ᵥ pl'.content G s 0 := by
    rw [c4, cg_residual, ← c0, _root_.Matrix.mulVec_sub] at h4
    have := sub_eq_zero.1 h4
    rw [this]; simp
  refine ⟨e, ?_⟩
  rw [e]
  exact add_eq_left

/-- The same for BiCGStab. -/
theorem c39_violated_bicgstab (hA : A.Exact) (S : SolverSetup G pl pl' base 5) (k n : Nat) (s : Cell P → V)
    (hreg : BiRegular (pl'.operator G) (pl'.content G s 0) (pl'.content G s 1) k) :
    Ensures (biCGStab A G pl base k) n s fun _ s' => pl'.content G s' 3 = 0 →
      pl'.operator G *ᵥ pl'.content G s' 0 = pl'.content G s 1 + pl'.operator G *ᵥ pl'.content G s 0 ∧
      (pl'.operator G *ᵥ pl'.content G s' 0 = pl'.content G s 1 ↔ pl'.operator G *ᵥ pl'.content G s 0 = 0) := by
  refine WP.ensures ((bi_wp hA S k n s hreg).mono fun c n' s' h => ?_)
  obtain ⟨c1, -, c0, -, c3⟩ := h.1.contents
  intro h3
  have e : pl'.operator G *ᵥ pl'.content G s' 0 = pl'.content G s 1 + pl'.operator G *ᵥ pl'.content G s 0 := by
    rw [c3, bi_residual, ← c0, _root_.Matrix.mulVec_sub] at h3
    have := sub_eq_zero.1 h3
    rw [this]; simp
  refine ⟨e, ?_⟩
  rw [e]
  exact add_eq_left

/-- **C39, partial** (missing: initial solutions with `A x0 ≠ 0`, for which it is false): if `A x0 = 0`, in particular if `x0 = 0`,
CG's solution vector solves the system as soon as the residual vector it maintains is zero. -/
theorem c39_null_guess_partial (hA : A.Exact) (S : SolverSetup G pl pl' base 3) (k n : Nat) (s : Cell P → V)
    (hx0 : pl'.operator G *ᵥ pl'.content G s 0 = 0)
    (hreg : CGRegular (pl'.operator G) (pl'.content G s 0) (pl'.content G s 1) k) :
    Ensures (cg A G pl base k) n s fun _ s' => pl'.content G s' 4 = 0 →
      pl'.operator G *ᵥ pl'.content G s' 0 = pl'.content G s 1 := by
  refine WP.ensures ((cg_wp hA S k n s hreg).mono fun c n' s' h => ?_)
  obtain ⟨c1, c0, -, c4⟩ := h.1.contents
  intro h4
  rw [c4, cg_residual, ← c0, _root_.Matrix.mulVec_sub, hx0, sub_zero] at h4
  exact (sub_eq_zero.1 h4).symm

end Verif.Solver
