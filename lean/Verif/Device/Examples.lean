import Verif.Device.Grid
import Verif.EndToEnd.Examples

/-! # C62: concrete cases, and what happens without the conditions -/
set_option linter.dupNamespace false
set_option linter.unusedSectionVars false
set_option linter.unusedSimpArgs false
namespace Verif.Device
open Verif.Runtime Verif.Vector Verif.Matrix Verif.Planner Verif.Solver Verif.EndToEnd Verif.Laplacian Verif.Stencil Verif.Grid

/-! ## A GPU -/

/-- Add up from the end. -/
def comb : Nat → Tree
  | 0 => .leaf 0
  | n + 1 => .node (.leaf (n + 1)) (comb n)

theorem comb_leaves (n : Nat) : (comb n).leaves.Perm (List.range (n + 1)) := by
  induction n with
  | zero => exact List.Perm.refl _
  | succ n ih =>
    rw [List.range_succ]
    exact ((List.Perm.cons _ ih).trans (List.perm_append_singleton _ _).symm)

/-- Everything in reverse order. -/
def exGpu : Gpu := ⟨List.reverse, List.reverse, fun n => comb (n - 1)⟩

theorem exGpu_ok : exGpu.Ok where
  elems := List.reverse_perm
  threads := List.reverse_perm
  tree := fun n hn => by
    have := comb_leaves (n - 1)
    rw [show n - 1 + 1 = n by omega] at this
    exact this

/-- Every third point task stays on a CPU. -/
def exDev : Devices := fun i => if i % 3 = 0 then none else some exGpu

theorem exDev_ok : exDev.Ok := by
  intro i g h
  unfold exDev at h
  split at h
  · cases h
  · cases h; exact exGpu_ok

/-- All point tasks on GPUs. -/
def allGpu : Devices := fun _ => some exGpu

theorem allGpu_ok : allGpu.Ok := fun _ _ h => by cases h; exact exGpu_ok

/-! ## The test programs -/

theorem lineG_gpu : GpuPieces (lineG.pieces 0) := by
  intro pts h
  have h : pts ∈ [[(2 : Int)], [0, 1]] := h
  simp only [List.mem_cons, List.not_mem_nil, or_false] at h
  rcases h with rfl | rfl
  · exact ⟨⟨2, 1, by decide⟩, by decide⟩
  · exact ⟨⟨0, 2, by decide⟩, by decide⟩

/-- C62 for `Test05COOSolveCG.cpp` with three points and two pieces, some tasks on GPUs: the solution is `3/2, 2, 3/2`. -/
example (rp : RowPtr ℚ) (junk : COO Int Int ℚ) : ∃ pl, Planner.empty.setupAll lineG
      (singleCalls ⟨0, 0, 0, 0⟩ ⟨1, 0, 0, 0⟩
        (Op.coo (createCOOLaplacian (fun z : Int => (z : ℚ)) 3 [[4, 5, 6], [0, 1, 2, 3]] junk))) = some pl ∧
    ∃ k, k ≤ 3 ∧ Ensures (Device.cg exDev rp ratArith lineG pl 10 k) 0 onesMem fun _ s' =>
      s' (.elem 0 0) = 3 / 2 ∧ s' (.elem 0 1) = 2 ∧ s' (.elem 0 2) = 3 / 2 := by
  obtain ⟨pl, h1, k, h2, a, n', ts, q1, q2, q3⟩ := c62_coo_laplacian exDev_ok (A := ratArith) (exactArith_exact ℚ _) 3 _ line_pieces
    junk lineG_vectors lineG_points lineG_gpu 0 onesMem (fun i _ _ => rfl)
  refine ⟨pl, h1, k, h2, a, n', ts, q1, q2, fun M' h5 h6 => ?_⟩
  have h7 := c50_ones 3 _ _ (fun i _ _ => rfl) (q3 M' h5 h6).1
  have e0 := h7 0 (by decide) (by decide)
  have e1 := h7 1 (by decide) (by decide)
  have e2 := h7 2 (by decide) (by decide)
  norm_num at e0 e1 e2
  exact ⟨e0, e1, e2⟩

example (junk : CSR Int Int ℚ) : ∃ pl, Planner.empty.setupAll lineG
      (singleCalls ⟨0, 0, 0, 0⟩ ⟨1, 0, 0, 0⟩
        (Op.csr (createCSRLaplacian (fun z : Int => (z : ℚ)) 3 [[4, 5, 6], [0, 1, 2, 3]] [[1, 2], [0]] junk))) = some pl ∧
    ∃ k, k ≤ 3 ∧ Ensures (Device.cg exDev (lineRowptr ℚ 3) ratArith lineG pl 10 k) 0 onesMem fun _ s' => s' (.elem 0 1) = 2 := by
  obtain ⟨pl, h1, k, h2, a, n', ts, q1, q2, q3⟩ := c62_csr_laplacian exDev_ok (A := ratArith) (exactArith_exact ℚ _) 3 (by decide) _ _
    line_pieces line_rows junk lineG_vectors lineG_points lineG_gpu 0 onesMem (fun i _ _ => rfl)
  refine ⟨pl, h1, k, h2, a, n', ts, q1, q2, fun M' h5 h6 => ?_⟩
  have e1 := c50_ones 3 _ _ (fun i _ _ => rfl) (q3 M' h5 h6).1 1 (by decide) (by decide)
  norm_num at e1
  exact e1

/-! ## Several matrices -/

/-- Three points in two pieces. -/
def devG : Geometry Int where
  pieces := fun _ => [[0, 1], [2]]
  redOrder := fun _ l => l.reverse
  points := fun _ => [0, 1, 2]
  parent := fun part => part
  colorSpace := fun part => part

theorem devG_gpu (part : Nat) : GpuPieces (devG.pieces part) := by
  intro pts h
  have h : pts ∈ [[(0 : Int), 1], [2]] := h
  simp only [List.mem_cons, List.not_mem_nil, or_false] at h
  rcases h with rfl | rfl
  · exact ⟨⟨0, 2, by decide⟩, by decide⟩
  · exact ⟨⟨2, 1, by decide⟩, by decide⟩

/-- `c I` as a CSR matrix. -/
def csrI (c : ℚ) : CSR Int Int ℚ := ⟨[0, 1, 2], [0, 1, 2], fun p k => decide (p = k), id, fun _ => c⟩

/-- `c I` as a COO matrix. -/
def cooI (c : ℚ) : COO Int Int ℚ := ⟨[0, 1, 2], id, id, fun _ => c⟩

/-- The row pointers of a matrix with one entry per row. -/
def diagRowptr : RowPtr ℚ := fun m => ⟨id, id, m.col, m.entry⟩

theorem csrI_gpu (c : ℚ) (pieces : List (List Int)) : GpuMatrix diagRowptr pieces (.csr (csrI c)) where
  kernel := (by decide : [(0 : Int), 1, 2].Nodup)
  range := fun p _ k => by simp [csrI, diagRowptr]; omega
  col := fun _ => rfl
  entry := fun _ => rfl
  next := fun _ _ _ => rfl
  order := fun p _ => by simp only [diagRowptr, id]; omega
  inside := fun p hp k h1 h2 => by
    simp only [diagRowptr, id] at h1 h2
    obtain rfl : p = k := by omega
    exact hp

theorem cooI_gpu (rp : RowPtr ℚ) (c : ℚ) (part : Nat) : GpuMatrix rp (devG.pieces part) (.coo (cooI c)) := by
  refine ⟨(by decide : [(0 : Int), 1, 2].Nodup), fun pc h => ?_⟩
  have h : pc ∈ [[(0 : Int), 1], [2]] := h
  simp only [List.mem_cons, List.not_mem_nil, or_false] at h
  rcases h with rfl | rfl
  · refine ⟨0, 2, fun k => ?_⟩
    simp [cooI]; omega
  · refine ⟨2, 1, fun k => ?_⟩
    simp [cooI]; omega

/-- The client's calls with the given matrices, two blocks. -/
def devCalls (ms : List (Op Int Int ℚ × Nat × Nat)) : List (Setup Int Int ℚ) :=
  [.addSol ⟨0, 0, 0, 0⟩, .addSol ⟨1, 0, 0, 0⟩, .addRhs ⟨2, 0, 0, 0⟩, .addRhs ⟨3, 0, 0, 0⟩] ++
    ms.map fun t => .addMatrix t.1 t.2.1 t.2.2

theorem devCalls_mats (ms : List (Op Int Int ℚ × Nat × Nat)) : mats (devCalls ms) = ms := by
  unfold mats devCalls
  rw [List.filterMap_append, List.filterMap_map]
  simp only [List.filterMap_cons, List.filterMap_nil, List.nil_append]
  induction ms with
  | nil => rfl
  | cons t l ih => rw [List.filterMap_cons]; exact congrArg (t :: ·) ih

/-- A CSR matrix first in the first block row, only COO matrices in the second. -/
def goodMats : List (Op Int Int ℚ × Nat × Nat) :=
  [(.csr (csrI 2), 0, 0), (.coo (cooI 1), 1, 0), (.coo (cooI 1), 0, 1), (.coo (cooI 2), 1, 1), (.coo (cooI 3), 1, 1)]

theorem devFits (o : Op Int Int ℚ) (h : (∃ c, o = .csr (csrI c)) ∨ ∃ c, o = .coo (cooI c)) : o.Fits [0, 1, 2] [0, 1, 2] := by
  rcases h with ⟨c, rfl⟩ | ⟨c, rfl⟩
  · refine ⟨(by decide : ∀ k ∈ [(0 : Int), 1, 2], id k ∈ [(0 : Int), 1, 2]), fun p => Iff.rfl, ?_⟩
    intro k _ p q _ _ h3 h4
    simp [csrI] at h3 h4
    omega
  · show ∀ k ∈ [(0 : Int), 1, 2], id k ∈ [(0 : Int), 1, 2]
    decide

theorem devConstructed (ms : List (Op Int Int ℚ × Nat × Nat)) : ∀ c ∈ devCalls ms, c.Constructed devG := by
  intro c hc
  rcases List.mem_append.1 hc with hc | hc
  · simp only [List.mem_cons, List.not_mem_nil, or_false] at hc
    rcases hc with rfl | rfl | rfl | rfl <;> rfl
  · obtain ⟨t, -, rfl⟩ := List.mem_map.1 hc
    trivial

theorem devSystem {ms : List (Op Int Int ℚ × Nat × Nat)} (h : ∀ t ∈ ms, (∃ c, t.1 = .csr (csrI c)) ∨ ∃ c, t.1 = .coo (cooI c))
    (hl : (Planner.empty.setupAll devG (devCalls ms)).isSome = true) : ClientSystem devG (devCalls ms) 10 where
  valid := fun part p => by simp [devG]
  order := fun f l => List.reverse_perm l
  constructed := devConstructed ms
  legal := (c31_accepts_exactly devG _ (devConstructed ms)).1 (Option.isSome_iff_exists.1 hl)
  noWorkspace := by
    unfold allocs devCalls
    rw [List.filterMap_append, List.filterMap_map]
    simp [Function.comp_def]
  lengths := by
    simp [sols, rhss, devCalls, List.filterMap_append, List.filterMap_map, Function.comp_def]
  nonempty := by
    simp [sols, devCalls, List.filterMap_append, List.filterMap_map, Function.comp_def]
  data := by
    simp [sols, rhss, devCalls, List.filterMap_append, List.filterMap_map, Function.comp_def]
  fresh := by
    simp [sols, rhss, devCalls, List.filterMap_append, List.filterMap_map, Function.comp_def]
  fits := by
    intro m d r hm vd vr _ _
    rw [devCalls_mats] at hm
    exact devFits m (h _ hm)

theorem devMatrices {ms : List (Op Int Int ℚ × Nat × Nat)} (h : ∀ t ∈ ms, (∃ c, t.1 = .csr (csrI c)) ∨ ∃ c, t.1 = .coo (cooI c))
    (t : Op Int Int ℚ × Nat × Nat) (ht : t ∈ ms) (part : Nat) : GpuMatrix diagRowptr (devG.pieces part) t.1 := by
  rcases h t ht with ⟨c, e⟩ | ⟨c, e⟩
  · rw [e]; exact csrI_gpu c _
  · rw [e]; exact cooI_gpu _ c part

theorem goodMats_shape : ∀ t ∈ goodMats, (∃ c, t.1 = .csr (csrI c)) ∨ ∃ c, t.1 = .coo (cooI c) := by
  intro t ht
  simp only [goodMats, List.mem_cons, List.not_mem_nil, or_false] at ht
  rcases ht with rfl | rfl | rfl | rfl | rfl
  · exact Or.inl ⟨_, rfl⟩
  all_goals exact Or.inr ⟨_, rfl⟩

theorem goodSystem : ClientSystem devG (devCalls goodMats) 10 := devSystem goodMats_shape (by decide +kernel)

theorem goodGpu : GpuSystem diagRowptr devG (devCalls goodMats) where
  pieces := fun v _ => devG_gpu v.part
  matrices := by
    intro m d r hm v _
    rw [devCalls_mats] at hm
    exact devMatrices goodMats_shape _ hm v.part
  csrFirst := by
    rw [devCalls_mats]
    intro a m d r b e hc t ht
    cases a with
    | nil => simp at ht
    | cons x a =>
      exfalso
      simp only [goodMats, List.cons_append, List.cons.injEq] at e
      have hm : (m, d, r) ∈ [((.coo (cooI 1) : Op Int Int ℚ), 1, 0), (.coo (cooI 1), 0, 1), (.coo (cooI 2), 1, 1), (.coo (cooI 3), 1, 1)] := by
        rw [e.2]; simp
      simp only [List.mem_cons, List.not_mem_nil, or_false, Prod.mk.injEq] at hm
      rcases hm with ⟨rfl, -⟩ | ⟨rfl, -⟩ | ⟨rfl, -⟩ | ⟨rfl, -⟩ <;> exact hc

/-- C62 for this system: 7 CG, BiCGStab and GMRES steps on mixed devices. -/
example : ∃ pl, Planner.empty.setupAll devG (devCalls goodMats) = some pl ∧
    SameEffect (Solver.cg ratArith devG pl 10 7) (Device.cg exDev diagRowptr ratArith devG pl 10 7) :=
  c62_cg exDev_ok (exactArith_exact ℚ _) goodSystem goodGpu 7
example : ∃ pl, Planner.empty.setupAll devG (devCalls goodMats) = some pl ∧
    SameEffect (Solver.biCGStab ratArith devG pl 10 7) (Device.biCGStab allGpu diagRowptr ratArith devG pl 10 7) :=
  c62_bicgstab allGpu_ok (exactArith_exact ℚ _) goodSystem goodGpu 7
example : ∃ pl, Planner.empty.setupAll devG (devCalls goodMats) = some pl ∧
    SameEffect (Solver.gmres ratArith devG pl 10 3 7) (Device.gmres exDev diagRowptr ratArith devG pl 10 3 7) :=
  c62_gmres exDev_ok (exactArith_exact ℚ _) goodSystem goodGpu 3 7

/-- A client program: two scalars, an update, a product of a planner and an inner product on mixed devices. -/
example (pl : Planner Int Int ℚ) (nw : Nat) (R : Ready devG pl nw) (H : GpuReady diagRowptr devG pl) (u w : Vec) :
    SameEffect
      (do let a ← scalarOf (3 : ℚ); let b ← sMul ratArith a a; Vector.axpy ratArith devG.toEnv u b w
          pl.matvec ratArith devG.toEnv 0 1; pl.dot ratArith devG.toEnv 0 1)
      (do let a ← scalarOf (3 : ℚ); let b ← sMul ratArith a a; axpyWith exDev ratArith devG.toEnv u [b.fut] w
          pMatvec exDev diagRowptr ratArith devG.toEnv pl 0 1; pDot exDev ratArith devG.toEnv pl 0 1) :=
  c62_client (rp := diagRowptr) exDev_ok (exactArith_exact ℚ _) devG_gpu
    (.andThen (.scalarOf 3) fun a => .andThen (.sMul a a) fun b => .andThen (.axpy u b w) fun _ =>
      .andThen (.pMatvec pl nw R H 0 1) fun _ => .pDot pl 0 1)

/-! ## Without the conditions -/

/-- Some complete execution runs the tasks one after the other. -/
theorem serial_execution {C V : Type} [DecidableEq C] (s : C → V) (ts : List (Task C V)) :
    ∃ x, (Machine.start s ts).Steps x ∧ x.Done ∧ x.store = runTasks s ts := by
  have trans : ∀ {a b c : Machine C V}, a.Steps b → b.Steps c → a.Steps c := by
    intro a b c h1 h2
    induction h2 with
    | refl => exact h1
    | tail _ h ih => exact .tail ih h
  have one : ∀ (before : List (Running C V)) (t : Task C V) (after : List (Running C V)), (∀ r ∈ before, r.todo = []) →
      ∀ (todo : List (Update C V)) (s : C → V),
      Machine.Steps ⟨s, before ++ ⟨t, todo⟩ :: after⟩ ⟨runUpdates s todo, before ++ ⟨t, []⟩ :: after⟩ := by
    intro before t after hb todo
    induction todo with
    | nil => exact fun s => .refl _
    | cons u rest ih => exact fun s => trans (.tail (.refl _) (.advance s before t u rest after fun r hr => Or.inl (hb r hr))) (ih _)
  have key : ∀ (ts : List (Task C V)) (before : List (Running C V)) (s : C → V), (∀ r ∈ before, r.todo = []) →
      ∃ x : Machine C V, Machine.Steps ⟨s, before ++ ts.map fun t => ⟨t, t.body⟩⟩ x ∧ x.Done ∧ x.store = runTasks s ts := by
    intro ts
    induction ts with
    | nil => exact fun before s hb => ⟨_, .refl _, by simpa [Machine.Done] using hb, rfl⟩
    | cons t ts ih =>
      intro before s hb
      obtain ⟨x, h1, h2, h3⟩ := ih (before ++ [⟨t, []⟩]) (runUpdates s t.body) (by
        intro r hr
        rcases List.mem_append.1 hr with hr | hr
        · exact hb r hr
        · obtain rfl := List.mem_singleton.1 hr; rfl)
      refine ⟨x, trans (one before t _ hb t.body s) ?_, h2, h3⟩
      rw [List.append_assoc] at h1
      exact h1
  exact key ts [] s (by simp)

/-- Programs whose tasks, run one after the other, leave different memory have different effects. -/
theorem SameEffect.serial {V α : Type} {m m' : M Int V α} (h : SameEffect m m') {a a' : α} {k k' : Nat} {ts ts' : List (Task (Cell Int) V)}
    (h1 : m ⟨0, []⟩ = some (a, ⟨k, ts⟩)) (h2 : m' ⟨0, []⟩ = some (a', ⟨k', ts'⟩)) (s : Cell Int → V) :
    runTasks s ts = runTasks s ts' := by
  rcases h ⟨0, []⟩ ⟨0, []⟩ rfl with ⟨g, -⟩ | ⟨b, j, us, us', g1, g2, g⟩
  · rw [h1] at g; cases g
  · rw [h1] at g1
    rw [h2] at g2
    simp only [List.nil_append, Option.some.injEq, Prod.mk.injEq, Emit.mk.injEq] at g1 g2
    obtain ⟨-, -, rfl⟩ := g1
    obtain ⟨-, -, rfl⟩ := g2
    obtain ⟨x, s1, d1, e1⟩ := serial_execution s ts
    obtain ⟨x', s2, d2, e2⟩ := serial_execution s ts'
    rw [← e1, ← e2]
    exact (g s).2.2 x x' s1 d1 s2 d2

/-- Element 0 of vector 0 after the program, run from memory `1`, tasks one after the other. -/
def outcome {α : Type} (m : M Int ℚ α) (d : Nat) : Option ℚ :=
  (m ⟨0, []⟩).map fun r => runTasks (fun _ => 1) r.2.out (.elem d 0)

theorem not_sameEffect {α : Type} {m m' : M Int ℚ α} (d : Nat) (h : (outcome m d).isSome = true) (h' : (outcome m' d).isSome = true)
    (hne : outcome m d ≠ outcome m' d) : ¬ SameEffect m m' := by
  intro he
  unfold outcome at h h' hne
  cases h1 : m ⟨0, []⟩ with
  | none => rw [h1] at h; cases h
  | some r =>
    cases h2 : m' ⟨0, []⟩ with
    | none => rw [h2] at h'; cases h'
    | some r' =>
      obtain ⟨a, k, ts⟩ := r
      obtain ⟨a', k', ts'⟩ := r'
      rw [h1, h2] at hne
      apply hne
      simp only [Option.map_some]
      rw [he.serial h1 h2]

/-- The planner after the client's calls and with one workspace vector. -/
def devPl (ms : List (Op Int Int ℚ × Nat × Nat)) : Planner Int Int ℚ :=
  ((Planner.empty.setupAll devG (devCalls ms)).bind fun pl => pl.allocateWorkspace devG 10 1).getD Planner.empty

/-- Two CSR matrices in one block row. -/
def twoCsr : List (Op Int Int ℚ × Nat × Nat) := [(.csr (csrI 2), 0, 0), (.csr (csrI 3), 1, 0), (.coo (cooI 1), 1, 1)]

/-- A CSR matrix after a COO matrix. -/
def csrLast : List (Op Int Int ℚ × Nat × Nat) := [(.coo (cooI 2), 0, 0), (.csr (csrI 3), 1, 0), (.coo (cooI 1), 1, 1)]

/-- **C62**, why a CSR matrix must come first in its block row: with two CSR matrices in a block row, everything else being as
required, a product computed on GPUs keeps only the last one's contribution (`beta = 0`, `CSRMatrixTasks.cu` 118). -/
theorem c62_two_csr_violated : ClientSystem devG (devCalls twoCsr) 10 ∧ (∀ v ∈ sols (devCalls twoCsr), GpuPieces (devG.pieces v.part)) ∧
    (∀ t ∈ mats (devCalls twoCsr), GpuMatrix diagRowptr (devG.pieces 0) t.1) ∧ allGpu.Ok ∧
    ¬ SameEffect ((devPl twoCsr).matvec ratArith devG.toEnv 2 0) (pMatvec allGpu diagRowptr ratArith devG.toEnv (devPl twoCsr) 2 0) := by
  have hs : ∀ t ∈ twoCsr, (∃ c, t.1 = .csr (csrI c)) ∨ ∃ c, t.1 = .coo (cooI c) := by
    intro t ht
    simp only [twoCsr, List.mem_cons, List.not_mem_nil, or_false] at ht
    rcases ht with rfl | rfl | rfl
    · exact Or.inl ⟨_, rfl⟩
    · exact Or.inl ⟨_, rfl⟩
    · exact Or.inr ⟨_, rfl⟩
  refine ⟨devSystem hs (by decide +kernel), fun v _ => devG_gpu _, fun t ht => ?_, allGpu_ok, not_sameEffect 10 ?_ ?_ ?_⟩
  · rw [devCalls_mats] at ht
    exact devMatrices hs t ht 0
  · decide +kernel
  · decide +kernel
  · decide +kernel

/-- **C62**: the same happens with a CSR matrix added after a COO matrix of the block row. -/
theorem c62_csr_last_violated : ClientSystem devG (devCalls csrLast) 10 ∧ (∀ v ∈ sols (devCalls csrLast), GpuPieces (devG.pieces v.part)) ∧
    (∀ t ∈ mats (devCalls csrLast), GpuMatrix diagRowptr (devG.pieces 0) t.1) ∧ allGpu.Ok ∧
    outcome ((devPl csrLast).matvec ratArith devG.toEnv 2 0) 10 = some 5 ∧
    outcome (pMatvec allGpu diagRowptr ratArith devG.toEnv (devPl csrLast) 2 0) 10 = some 3 ∧
    ¬ SameEffect ((devPl csrLast).matvec ratArith devG.toEnv 2 0) (pMatvec allGpu diagRowptr ratArith devG.toEnv (devPl csrLast) 2 0) := by
  have hs : ∀ t ∈ csrLast, (∃ c, t.1 = .csr (csrI c)) ∨ ∃ c, t.1 = .coo (cooI c) := by
    intro t ht
    simp only [csrLast, List.mem_cons, List.not_mem_nil, or_false] at ht
    rcases ht with rfl | rfl | rfl
    · exact Or.inr ⟨_, rfl⟩
    · exact Or.inl ⟨_, rfl⟩
    · exact Or.inr ⟨_, rfl⟩
  have e1 : outcome ((devPl csrLast).matvec ratArith devG.toEnv 2 0) 10 = some 5 := by decide +kernel
  have e2 : outcome (pMatvec allGpu diagRowptr ratArith devG.toEnv (devPl csrLast) 2 0) 10 = some 3 := by decide +kernel
  refine ⟨devSystem hs (by decide +kernel), fun v _ => devG_gpu _, fun t ht => ?_, allGpu_ok, e1, e2, not_sameEffect 10 ?_ ?_ ?_⟩
  · rw [devCalls_mats] at ht
    exact devMatrices hs t ht 0
  · rw [e1]; rfl
  · rw [e2]; rfl
  · rw [e1, e2]; decide +kernel

/-! A COO matrix whose entries are not sorted by row -/

/-- The unit matrix with the entries of rows 0, 2, 1 in this order. -/
def shuffled : COO Int Int ℚ := ⟨[0, 1, 2], fun k => if k = 1 then 2 else if k = 2 then 1 else 0,
  fun k => if k = 1 then 2 else if k = 2 then 1 else 0, fun k => 5 + k⟩

/-- **C62**, why the entries of a piece of rows must be stored next to each other: the GPU task reads as many entries as the piece
has, from its first one on (`COOMatrixTasks.cu` 76-99): row 1 loses its entry. -/
theorem c62_scattered_violated : (∀ part, GpuPieces (devG.pieces part)) ∧ allGpu.Ok ∧ (Op.coo shuffled).Fits [0, 1, 2] [0, 1, 2] ∧
    let kp := (Op.coo shuffled).kernelFromRange (devG.pieces 0)
    ∀ rp : RowPtr ℚ, ¬ SameEffect
      ((Op.coo shuffled).matvec ratArith devG.toEnv ⟨0, 0, 0, 0⟩ ⟨1, 0, 0, 0⟩ kp ((Op.coo shuffled).domainFromKernel [0, 1, 2] kp))
      (opMatvec allGpu rp ratArith devG.toEnv (.coo shuffled) ⟨0, 0, 0, 0⟩ ⟨1, 0, 0, 0⟩ kp
        ((Op.coo shuffled).domainFromKernel [0, 1, 2] kp)) := by
  refine ⟨devG_gpu, allGpu_ok, (by decide : ∀ k ∈ [(0 : Int), 1, 2], shuffled.col k ∈ [(0 : Int), 1, 2]), ?_⟩
  intro kp rp h
  have h1 := h.serial (a := ()) (a' := ()) (k := 0) (k' := 0) rfl rfl (fun _ => 1)
  have h2 := congrFun h1 (.elem 0 1)
  exact absurd h2 (by decide +kernel)

/-! ## A grid -/

/-- Two vectors of four elements in two pieces. -/
def gridG : Geometry Int where
  pieces := fun _ => [[2, 3], [0, 1]]
  redOrder := fun _ l => l.reverse
  points := fun _ => [0, 1, 2, 3]
  parent := fun part => part
  colorSpace := fun part => part

theorem gridG_vectors : TwoVectors gridG 0 0 1 10 ⟨0, 0, 0, 0⟩ ⟨1, 0, 0, 0⟩ where
  valid := fun part p => by simp [gridG]; omega
  order := fun f l => List.reverse_perm l
  sol := by decide
  rhs := by decide
  distinct := by decide
  fresh0 := by decide
  fresh1 := by decide

theorem gridG_gpu : GpuPieces (gridG.pieces 0) := by
  intro pts h
  have h : pts ∈ [[(2 : Int), 3], [0, 1]] := h
  simp only [List.mem_cons, List.not_mem_nil, or_false] at h
  rcases h with rfl | rfl
  · exact ⟨⟨2, 2, by decide⟩, by decide⟩
  · exact ⟨⟨0, 2, by decide⟩, by decide⟩

/-- C62 for the five-point stencil on the 2 × 2 grid, built in two pieces as a linearised CSR matrix, every task on a GPU: the
hypotheses of `c62_linearized_stencil` hold. -/
example : ∃ N : Nat, ∀ fuel, N ≤ fuel → ∀ junk,
    ∃ m, createLinCSRStencil (fun _ => fiveSorted) .rowMajor sqB fiveOffsets [(seg 0 5, seg 0 1), (seg 6 11, seg 2 3)] fuel junk = some m ∧
    ∃ pl, Planner.empty.setupAll gridG (singleCalls ⟨0, 0, 0, 0⟩ ⟨1, 0, 0, 0⟩ (Op.csr m)) = some pl ∧
    ∃ k, k ≤ 4 ∧ Ensures (Device.cg allGpu (gridRowptr .rowMajor sqB fiveSorted) ratArith gridG pl 10 k) 0 (fun _ => 0) fun c _ =>
      c.history.length = k + 1 := by
  obtain ⟨h1, h2, h3, h4, h5⟩ := five_dirs
  have hvol : Rect.volume sqB = 4 := by decide
  obtain ⟨N, hN⟩ := c62_linearized_stencil allGpu_ok (A := ratArith) (exactArith_exact ℚ _) (fun _ => fiveSorted) _ .rowMajor sqB fiveOffsets
    (by simp [sqB]) five_sort fiveDirs h1 h2 h3 h4 (by rw [h5])
  refine ⟨N, fun fuel hf junk => ?_⟩
  obtain ⟨m, g1, g2⟩ := hN fuel hf [(seg 0 5, seg 0 1), (seg 6 11, seg 2 3)]
    (fun size hs k hk => by
      rw [five_size] at hs
      cases hs
      by_cases h : (k : Int) ≤ 5
      · exact ⟨(seg 0 5).contains, by simp, by simp [seg]; omega⟩
      · exact ⟨(seg 6 11).contains, by simp, by simp [seg]; omega⟩)
    (fun size hs D hD j hj => by
      rw [five_size] at hs
      cases hs
      simp only [List.mem_cons, List.not_mem_nil, or_false] at hD
      rcases hD with rfl | rfl <;> simp [seg] at hj ⊢ <;> omega)
    (fun D hD j hj => by
      rw [hvol]
      simp only [List.mem_cons, List.not_mem_nil, or_false] at hD
      rcases hD with rfl | rfl <;> simp [seg] at hj ⊢ <;> omega)
    (fun j h0 h1 => by
      rw [hvol] at h1
      by_cases h : j ≤ 1
      · exact ⟨_, List.mem_cons_self, by simp [seg]; omega⟩
      · exact ⟨_, List.mem_cons_of_mem _ List.mem_cons_self, by simp [seg]; omega⟩) junk
  obtain ⟨pl, e1, k, e2, a, n', ts, q1, q2, q3⟩ := g2 gridG_vectors (fun j => by rw [hvol]; simp [gridG]; omega) gridG_gpu 0 (fun _ => 0)
    (fun p _ => rfl)
  exact ⟨m, g1, pl, e1, k, by rw [hvol] at e2; exact_mod_cast e2, a, n', ts, q1, q2, fun M' h5 h6 => (q3 M' h5 h6).2.1⟩

end Verif.Device
