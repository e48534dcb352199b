import Verif.Device.Client

/-! # C62: the results do not depend on the devices the tasks run on -/
set_option linter.dupNamespace false
set_option linter.unusedSectionVars false
namespace Verif.Device
open Verif.Runtime Verif.Vector Verif.Matrix Verif.Planner Verif.Solver Verif.Textbook

variable {V α : Type} [Field V] {dev : Devices} {rp : RowPtr V} {A : Arith V} {G : Geometry Int}

/-- What the client must respect when its tasks may run on GPUs: pieces are intervals, every matrix is stored such that the GPU tasks
can work on it with the pieces of its block row, and a CSR matrix is the first one added to its block row. -/
structure GpuSystem (rp : RowPtr V) (G : Geometry Int) (calls : List (Setup Int Int V)) : Prop where
  pieces : ∀ v ∈ sols calls, GpuPieces (G.pieces v.part)
  matrices : ∀ m d r, (m, d, r) ∈ mats calls → ∀ v, (sols calls)[r]? = some v → GpuMatrix rp (G.pieces v.part) m
  csrFirst : CSRFirst (mats calls)

variable {calls : List (Setup Int Int V)} {base : Nat}

theorem gpuReady_of {pl' : Planner Int Int V} {nw : Nat} (R : Ready G pl' nw) {vs : List Vec} {ms : List (Op Int Int V × Nat × Nat)}
    (h0 : pl'.sol = vs) (hm : pl'.ops.map (fun r => (r.matrix, r.dom, r.rng)) = ms)
    (h1 : ∀ v ∈ vs, GpuPieces (G.pieces v.part))
    (h2 : ∀ m d r, (m, d, r) ∈ ms → ∀ v, vs[r]? = some v → GpuMatrix rp (G.pieces v.part) m) (h3 : CSRFirst ms) :
    GpuReady rp G pl' := by
  have hs := R.sizes
  unfold Planner.sizesAgree at hs
  simp only [Bool.and_eq_true, decide_eq_true_iff] at hs
  have hlen : pl'.parts.length = pl'.spaces.length := hs.1.1.1.1.1.symm
  have key : ∀ i, i < pl'.spaces.length → ∃ v, vs[i]? = some v ∧ v.part = pl'.parts.getD i 0 := by
    intro i hi
    obtain ⟨v, g1, -, g2, -⟩ := R.blocks 0 i (by omega) hi
    unfold Planner.lookup at g1
    rw [if_pos rfl, h0] at g1
    exact ⟨v, g1, g2⟩
  refine ⟨fun part hp => ?_, fun r hr => ?_, by rw [hm]; exact h3⟩
  · obtain ⟨i, hi, rfl⟩ := List.getElem_of_mem hp
    obtain ⟨v, g1, g2⟩ := key i (by omega)
    rw [List.getD_eq_getElem _ _ hi] at g2
    rw [← g2]
    exact h1 v (List.mem_of_getElem? g1)
  · obtain ⟨v, g1, g2⟩ := key r.rng (R.ops r hr).2.1
    rw [← g2]
    exact h2 r.matrix r.dom r.rng (hm ▸ List.mem_map.2 ⟨r, hr, rfl⟩) v g1

theorem gpuReady {pl' : Planner Int Int V} {b nw : Nat} (hc : Complete G calls pl' b nw) (hg : GpuSystem rp G calls) :
    GpuReady rp G pl' := by
  obtain ⟨h0, -, -, -, -, -, -, hm, -⟩ := c31_consistent G calls hc.constructed pl' hc.accepted
  exact gpuReady_of hc.ready h0 hm hg.pieces hg.matrices hg.csrFirst

theorem solverReady (h : ClientSystem G calls base) (hg : GpuSystem rp G calls) (nw : Nat) {pl : Planner Int Int V}
    (hpl : Planner.empty.setupAll G calls = some pl) : SolverReady rp G pl base nw := by
  obtain ⟨pl₁, pl₂, h1, S, hc⟩ := h.complete nw
  rw [hpl] at h1
  obtain rfl := Option.some.inj h1
  intro pl' ha
  rw [S.alloc] at ha
  obtain rfl := Option.some.inj ha
  refine ⟨S.ready, gpuReady hc ?_⟩
  have e1 : sols (calls ++ [.allocate base nw]) = sols calls := by simp [sols, List.filterMap_append]
  have e2 : mats (calls ++ [.allocate base nw]) = mats calls := by simp [mats, List.filterMap_append]
  exact ⟨by rw [e1]; exact hg.pieces, by rw [e1, e2]; exact hg.matrices, by rw [e2]; exact hg.csrFirst⟩

/-- **C62**, client programs: whatever the program, wherever its point tasks run and whatever the GPUs leave open, it has the same effect
as with all tasks on CPUs (exact arithmetic). -/
theorem c62_client (hdev : dev.Ok) (hA : A.Exact) (hG : ∀ part, GpuPieces (G.pieces part)) {m m' : M Int V α}
    (h : OnDevices dev rp A G m m') : SameEffect m m' := (Same.client hdev hA hG h).effect

/-- **C62**: what a client program ensures on CPUs it ensures on any devices. -/
theorem c62_client_ensures (hdev : dev.Ok) (hA : A.Exact) (hG : ∀ part, GpuPieces (G.pieces part)) {m m' : M Int V α}
    (h : OnDevices dev rp A G m m') {n : Nat} {s : Cell Int → V} {Q : α → (Cell Int → V) → Prop} (hm : Ensures m n s Q) :
    Ensures m' n s Q := (Same.client hdev hA hG h).ensures hm

/-- **C62**, products: a product with the system's matrices has the same effect on any devices. -/
theorem c62_matvec (hdev : dev.Ok) (hA : A.Exact) {pl : Planner Int Int V} {b nw : Nat} (hc : Complete G calls pl b nw)
    (hg : GpuSystem rp G calls) (d x : Nat) : SameEffect (pl.matvec A G.toEnv d x) (pMatvec dev rp A G.toEnv pl d x) :=
  (Same.pMatvec hdev hA hc.ready (gpuReady hc hg) d x).effect

/-- **C62**, CG: the set-up succeeds, and constructing the solver and any number of steps have the same effect on any devices. -/
theorem c62_cg (hdev : dev.Ok) (hA : A.Exact) (h : ClientSystem G calls base) (hg : GpuSystem rp G calls) (k : Nat) :
    ∃ pl, Planner.empty.setupAll G calls = some pl ∧ SameEffect (Solver.cg A G pl base k) (Device.cg dev rp A G pl base k) := by
  obtain ⟨pl, hpl⟩ := (c31_accepts_exactly G calls h.constructed).2 h.legal
  exact ⟨pl, hpl, (Same.cg hdev hA pl base k (solverReady h hg 3 hpl)).effect⟩

/-- **C62**, BiCGStab. -/
theorem c62_bicgstab (hdev : dev.Ok) (hA : A.Exact) (h : ClientSystem G calls base) (hg : GpuSystem rp G calls) (k : Nat) :
    ∃ pl, Planner.empty.setupAll G calls = some pl ∧
      SameEffect (Solver.biCGStab A G pl base k) (Device.biCGStab dev rp A G pl base k) := by
  obtain ⟨pl, hpl⟩ := (c31_accepts_exactly G calls h.constructed).2 h.legal
  exact ⟨pl, hpl, (Same.biCGStab hdev hA pl base k (solverReady h hg 5 hpl)).effect⟩

/-- **C62**, GMRES. -/
theorem c62_gmres (hdev : dev.Ok) (hA : A.Exact) (h : ClientSystem G calls base) (hg : GpuSystem rp G calls) (restart k : Nat) :
    ∃ pl, Planner.empty.setupAll G calls = some pl ∧
      SameEffect (Solver.gmres A G pl base restart k) (Device.gmres dev rp A G pl base restart k) := by
  obtain ⟨pl, hpl⟩ := (c31_accepts_exactly G calls h.constructed).2 h.legal
  exact ⟨pl, hpl, (Same.gmres hdev hA pl base restart k (solverReady h hg (restart + 1) hpl)).effect⟩

/-- **C62**: CG solves a symmetric positive definite system within as many steps as unknowns on any devices (C35 on any devices). -/
theorem c62_cg_solves [LinearOrder V] [IsStrictOrderedRing V] (hdev : dev.Ok) (hA : A.Exact) (h : ClientSystem G calls base)
    (hg : GpuSystem rp G calls) (hspd : SPD (fun u u' : clientUnknowns G calls => clientCoef calls u.1 u'.1)) (n : Nat)
    (s : Cell Int → V) (hx0 : ∀ v ∈ sols calls, ∀ p ∈ G.points v.space, s (.elem v.data p) = 0) :
    ∃ pl, Planner.empty.setupAll G calls = some pl ∧
      ∃ k, k ≤ (clientUnknowns G calls).card ∧ Ensures (Device.cg dev rp A G pl base k) n s fun c s' =>
        (∀ (i : Nat) v, (rhss calls)[i]? = some v → ∀ p ∈ G.points v.space, clientRow G calls 0 s' i p = s (.elem v.data p)) ∧
        c.history.length = k + 1 ∧ ∀ (i : Nat) a, c.history[i]? = some a → (s' (.fut a.fut) = 0 ↔ i = k) := by
  obtain ⟨pl, hpl, k, hk, he⟩ := c35_client hA h hspd n s hx0
  exact ⟨pl, hpl, k, hk, (Same.cg hdev hA pl base k (solverReady h hg 3 hpl)).ensures he⟩

end Verif.Device
