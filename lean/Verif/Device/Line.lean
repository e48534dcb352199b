import Verif.Device.Props
import Verif.EndToEnd.Line

/-! # C62 for the library's test programs: the one-dimensional Laplacian on any devices -/
set_option linter.dupNamespace false
set_option linter.unusedSectionVars false
namespace Verif.Device
open Verif.Runtime Verif.Vector Verif.Matrix Verif.Planner Verif.Solver Verif.EndToEnd Verif.Laplacian

variable {V : Type} [Field V] {dev : Devices} {rp : RowPtr V} {A : Arith V} {G : Geometry Int}
variable {part d0 d1 base : Nat} {v0 v1 : Vec}

theorem single_ready {m : Op Int Int V} (h : Single G part d0 d1 base v0 v1 m) (hp : GpuPieces (G.pieces part))
    (hm : GpuMatrix rp (G.pieces part) m) (nw : Nat) {pl : Planner Int Int V}
    (hpl : Planner.empty.setupAll G (singleCalls v0 v1 m) = some pl) : SolverReady rp G pl base nw := by
  obtain ⟨pl₁, pl₂, h1, S, -, h2, -, h3⟩ := h.setup nw
  rw [hpl] at h1
  obtain rfl := Option.some.inj h1
  intro pl' ha
  rw [S.alloc] at ha
  obtain rfl := Option.some.inj ha
  have e0 : v0.part = part := by rw [newVector_eq h.sol]
  refine ⟨S.ready, gpuReady_of S.ready h2 h3 ?_ ?_ ?_⟩
  · intro v hv
    obtain rfl := List.mem_singleton.1 hv
    rw [e0]; exact hp
  · intro m' d r hmem v hv
    have hmem := List.mem_singleton.1 hmem
    simp only [Prod.mk.injEq] at hmem
    obtain ⟨rfl, rfl, rfl⟩ := hmem
    obtain rfl : v = v0 := by simpa using hv.symm
    rw [e0]; exact hm
  · intro a m' d r b e _ t ht
    cases a with
    | nil => simp at ht
    | cons x a =>
      have := congrArg List.length e
      simp at this

theorem mem_interval {pts : List Int} (h : Interval pts) : ∃ (lo : Int) (n : Nat), ∀ p, p ∈ pts ↔ lo ≤ p ∧ p < lo + n := by
  obtain ⟨lo, n, rfl⟩ := h
  refine ⟨lo, n, fun p => ?_⟩
  simp only [List.mem_map, List.mem_range]
  constructor
  · rintro ⟨j, hj, rfl⟩; omega
  · exact fun hp => ⟨(p - lo).toNat, by omega, by omega⟩

theorem indices_nodup (n : Nat) : (indices n).Nodup :=
  List.nodup_range.map fun _ _ h => Int.ofNat.inj h

/-- The COO Laplacian is stored row by row. -/
theorem coo_line_gpu (rp : RowPtr V) (n : Int) (pieces : List (List Int)) (hp : Covers pieces (kernelSize n)) (junk : COO Int Int V)
    {cut : List (List Int)} (hcut : GpuPieces cut) :
    GpuMatrix rp cut (.coo (createCOOLaplacian (fun z : Int => (z : V)) n pieces junk)) := by
  refine ⟨indices_nodup _, fun pc hpc => ?_⟩
  obtain ⟨lo, w, hlo⟩ := mem_interval (hcut pc hpc).1
  have hrow : ∀ k : Int, 0 ≤ k → k < kernelSize n →
      (createCOOLaplacian (fun z : Int => (z : V)) n pieces junk).row k = (k + 1) / 3 := by
    intro k h0 h1
    have h2 := (coo_line_holds n pieces hp junk).row k.toNat (by rw [lineTriples_length]; omega)
    have e : ((k.toNat : Nat) : Int) = k := by omega
    rw [e] at h2
    rw [h2]
    simp only [lineTriples, List.getElem_map, List.getElem_range, e]
    exact rowOf_eq h0
  have key : ∀ k, k ∈ (createCOOLaplacian (fun z : Int => (z : V)) n pieces junk).kernel.filter
      (fun k => decide ((createCOOLaplacian (fun z : Int => (z : V)) n pieces junk).row k ∈ pc)) ↔
      (0 ≤ k ∧ k < kernelSize n) ∧ 3 * lo - 1 ≤ k ∧ k < 3 * (lo + w) - 1 := by
    intro k
    rw [List.mem_filter, decide_eq_true_iff]
    show k ∈ indices _ ∧ _ ↔ _
    rw [mem_indices]
    constructor
    · rintro ⟨⟨h0, h1⟩, h2⟩
      have h1 : k < kernelSize n := by omega
      rw [hrow k h0 h1, hlo] at h2
      omega
    · rintro ⟨⟨h0, h1⟩, h2⟩
      refine ⟨⟨h0, by omega⟩, ?_⟩
      rw [hrow k h0 h1, hlo]
      omega
  refine ⟨max 0 (3 * lo - 1), (min (kernelSize n) (3 * (lo + w) - 1) - max 0 (3 * lo - 1)).toNat, fun k => ?_⟩
  rw [key k]
  omega

/-- The row pointers the library writes (`ExampleSystems.cpp` 404-470), whatever the other fields. -/
def lineRowptr (V : Type) (n : Int) : RowPtr V := fun m => ⟨fun p => (rowptrOf n p).1, fun p => (rowptrOf n p).2, m.col, m.entry⟩

/-- The CSR Laplacian has gapless row pointers. -/
theorem csr_line_gpu (n : Int) (hn : 2 ≤ n) (pieces rowPieces : List (List Int)) (hr : Covers rowPieces n) (junk : CSR Int Int V)
    (cut : List (List Int)) :
    GpuMatrix (lineRowptr V n) cut (.csr (createCSRLaplacian (fun z : Int => (z : V)) n pieces rowPieces junk)) := by
  have hrows : ∀ p, p ∈ (createCSRLaplacian (fun z : Int => (z : V)) n pieces rowPieces junk).rows ↔ 0 ≤ p ∧ p < n := by
    intro p
    show p ∈ indices n.toNat ↔ _
    rw [mem_indices]
    omega
  have hin : ∀ k, k ∈ (createCSRLaplacian (fun z : Int => (z : V)) n pieces rowPieces junk).kernel ↔ 0 ≤ k ∧ k < 3 * n - 2 := by
    intro k
    show k ∈ indices (3 * n - 2).toNat ↔ _
    rw [mem_indices]
    omega
  refine ⟨indices_nodup _, fun p hp k => ?_, fun _ => rfl, fun _ => rfl, fun p hp hp' => ?_, fun p hp => ?_, fun p hp k h1 h2 => ?_⟩
  · rw [hrows] at hp
    show storedRange (csrLaplacian n pieces rowPieces).2 junk.range p k = true ↔ _
    unfold storedRange
    rw [rowptr_written n pieces rowPieces hr p hp.1 hp.2]
    simp [lineRowptr]
  · rw [hrows] at hp hp'
    simp only [lineRowptr, rowptrOf]
    split_ifs <;> simp only [] <;> omega
  · rw [hrows] at hp
    simp only [lineRowptr, rowptrOf]
    split_ifs <;> simp only [] <;> omega
  · rw [hrows] at hp
    rw [hin]
    simp only [lineRowptr, rowptrOf] at h1 h2
    split_ifs at h1 h2 <;> simp only [] at h1 h2 <;> omega

variable [LinearOrder V] [IsStrictOrderedRing V]

/-- **C62**, `Test05COOSolveCG.cpp` on any devices: solution and right-hand side cut into any intervals, every grid size, every mapping
of the point tasks to CPUs and GPUs: CG from zero solves `2 x_i - x_{i-1} - x_{i+1} = b_i` within `n` steps (exact arithmetic). -/
theorem c62_coo_laplacian (hdev : dev.Ok) (hA : A.Exact) (n : Int) (pieces : List (List Int)) (hp : Covers pieces (kernelSize n))
    (junk : COO Int Int V) (hv : TwoVectors G part d0 d1 base v0 v1) (hG : ∀ i, i ∈ G.points (G.parent part) ↔ 0 ≤ i ∧ i < n)
    (hcut : GpuPieces (G.pieces part)) (t : Nat) (s : Cell Int → V) (hx0 : ∀ i, 0 ≤ i → i < n → s (.elem d0 i) = 0) :
    ∃ pl, Planner.empty.setupAll G
        (singleCalls v0 v1 (Op.coo (createCOOLaplacian (fun z : Int => (z : V)) n pieces junk))) = some pl ∧
      ∃ k, k ≤ n.toNat ∧ Ensures (Device.cg dev rp A G pl base k) t s fun c s' =>
        SolvesLine n (fun i => s' (.elem d0 i)) (fun i => s (.elem d1 i)) ∧
        c.history.length = k + 1 ∧ ∀ (i : Nat) a, c.history[i]? = some a → (s' (.fut a.fut) = 0 ↔ i = k) := by
  have h2 := coo_line_holds n pieces hp junk
  have h : Single G part d0 d1 base v0 v1 (Op.coo (createCOOLaplacian (fun z : Int => (z : V)) n pieces junk)) :=
    ⟨hv, h2.col_mem fun e he => (hG _).2 (lineTriples_col n e he)⟩
  obtain ⟨pl, hpl, k, hk, he⟩ := c50_coo_laplacian hA n pieces hp junk hv hG t s hx0
  exact ⟨pl, hpl, k, hk, (Same.cg hdev hA pl base k (single_ready h hcut (coo_line_gpu rp n pieces hp junk hcut) 3 hpl)).ensures he⟩

/-- **C62**, `Test06CSRSolveCG.cpp` on any devices. -/
theorem c62_csr_laplacian (hdev : dev.Ok) (hA : A.Exact) (n : Int) (hn : 2 ≤ n) (pieces rowPieces : List (List Int))
    (hp : Covers pieces (kernelSize n)) (hr : Covers rowPieces n) (junk : CSR Int Int V)
    (hv : TwoVectors G part d0 d1 base v0 v1) (hG : ∀ i, i ∈ G.points (G.parent part) ↔ 0 ≤ i ∧ i < n)
    (hcut : GpuPieces (G.pieces part)) (t : Nat) (s : Cell Int → V) (hx0 : ∀ i, 0 ≤ i → i < n → s (.elem d0 i) = 0) :
    ∃ pl, Planner.empty.setupAll G
        (singleCalls v0 v1 (Op.csr (createCSRLaplacian (fun z : Int => (z : V)) n pieces rowPieces junk))) = some pl ∧
      ∃ k, k ≤ n.toNat ∧ Ensures (Device.cg dev (lineRowptr V n) A G pl base k) t s fun c s' =>
        SolvesLine n (fun i => s' (.elem d0 i)) (fun i => s (.elem d1 i)) ∧
        c.history.length = k + 1 ∧ ∀ (i : Nat) a, c.history[i]? = some a → (s' (.fut a.fut) = 0 ↔ i = k) := by
  have h2 := csr_line_holds n hn pieces rowPieces hp hr junk
  have hrows : ∀ i, i ∈ (createCSRLaplacian (fun z : Int => (z : V)) n pieces rowPieces junk).rows ↔ 0 ≤ i ∧ i < n := by
    intro i
    show i ∈ indices n.toNat ↔ _
    rw [mem_indices]
    omega
  have h : Single G part d0 d1 base v0 v1 (Op.csr (createCSRLaplacian (fun z : Int => (z : V)) n pieces rowPieces junk)) :=
    ⟨hv, h2.col_mem fun e he => (hG _).2 (lineTriples_col n e he), fun i => by rw [hrows, hG], h2.rowsDisjoint⟩
  obtain ⟨pl, hpl, k, hk, he⟩ := c50_csr_laplacian hA n hn pieces rowPieces hp hr junk hv hG t s hx0
  exact ⟨pl, hpl, k, hk, (Same.cg hdev hA pl base k
    (single_ready h hcut (csr_line_gpu n hn pieces rowPieces hr junk _) 3 hpl)).ensures he⟩

end Verif.Device
