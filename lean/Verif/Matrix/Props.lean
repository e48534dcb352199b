import Verif.Matrix.Lemmas
import Verif.Matrix.Gpu
import Mathlib.Tactic.Ring
import Mathlib.Tactic.Linarith
import Mathlib.Algebra.Field.Rat
import Mathlib.Data.List.Nodup

/-! # C25–C30: partition derivation and matrix-vector products -/
set_option linter.unusedSectionVars false
namespace Verif.Matrix
open Verif.Runtime Verif.Vector

variable {K P V : Type} [DecidableEq P] [DecidableEq K]

/-! ## C25 -/

theorem getD_map_nil {α β : Type} (f : List α → List β) (h0 : f [] = []) (l : List (List α)) (c : Nat) :
    (l.map f).getD c [] = f (l.getD c []) := by
  induction l generalizing c with
  | nil => simp [h0]
  | cons a l ih =>
    cases c with
    | zero => rfl
    | succ c => simpa using ih c

/-- Row-first: kernel piece `c` has exactly the entries whose row is in row piece `c`; input piece `c` exactly the columns
of these entries; one piece per colour. -/
theorem c25_row_first (m : COO K P V) (dspace : List P) (pieces : List (List P)) :
    (m.kernelFromRange pieces).length = pieces.length ∧ (m.domainFromRange dspace pieces).length = pieces.length ∧
    (∀ c k, k ∈ (m.kernelFromRange pieces).getD c [] ↔ k ∈ m.kernel ∧ m.row k ∈ pieces.getD c []) ∧
    ∀ c q, q ∈ (m.domainFromRange dspace pieces).getD c [] ↔
      q ∈ dspace ∧ ∃ k ∈ m.kernel, m.row k ∈ pieces.getD c [] ∧ m.col k = q := by
  have hk : ∀ c k, k ∈ (m.kernelFromRange pieces).getD c [] ↔ k ∈ m.kernel ∧ m.row k ∈ pieces.getD c [] := by
    intro c k
    unfold COO.kernelFromRange byPreimage
    rw [getD_map_nil _ (by simp), List.mem_filter, decide_eq_true_iff]
  refine ⟨by simp [COO.kernelFromRange, byPreimage],
    by simp [COO.domainFromRange, COO.domainFromKernel, byImage, COO.kernelFromRange, byPreimage], hk, fun c q => ?_⟩
  unfold COO.domainFromRange COO.domainFromKernel byImage
  rw [getD_map_nil _ (by simp), List.mem_filter, decide_eq_true_iff, List.mem_map]
  constructor
  · rintro ⟨h, k, h1, h2⟩
    exact ⟨h, k, ((hk c k).1 h1).1, ((hk c k).1 h1).2, h2⟩
  · rintro ⟨h, k, h1, h2, h3⟩
    exact ⟨h, k, (hk c k).2 ⟨h1, h2⟩, h3⟩

/-- Column-first. -/
theorem c25_column_first (m : COO K P V) (rspace : List P) (pieces : List (List P)) :
    (m.kernelFromDomain pieces).length = pieces.length ∧ (m.rangeFromDomain rspace pieces).length = pieces.length ∧
    (∀ c k, k ∈ (m.kernelFromDomain pieces).getD c [] ↔ k ∈ m.kernel ∧ m.col k ∈ pieces.getD c []) ∧
    ∀ c q, q ∈ (m.rangeFromDomain rspace pieces).getD c [] ↔
      q ∈ rspace ∧ ∃ k ∈ m.kernel, m.col k ∈ pieces.getD c [] ∧ m.row k = q := by
  have hk : ∀ c k, k ∈ (m.kernelFromDomain pieces).getD c [] ↔ k ∈ m.kernel ∧ m.col k ∈ pieces.getD c [] := by
    intro c k
    unfold COO.kernelFromDomain byPreimage
    rw [getD_map_nil _ (by simp), List.mem_filter, decide_eq_true_iff]
  refine ⟨by simp [COO.kernelFromDomain, byPreimage],
    by simp [COO.rangeFromDomain, COO.rangeFromKernel, byImage, COO.kernelFromDomain, byPreimage], hk, fun c q => ?_⟩
  unfold COO.rangeFromDomain COO.rangeFromKernel byImage
  rw [getD_map_nil _ (by simp), List.mem_filter, decide_eq_true_iff, List.mem_map]
  constructor
  · rintro ⟨h, k, h1, h2⟩
    exact ⟨h, k, ((hk c k).1 h1).1, ((hk c k).1 h1).2, h2⟩
  · rintro ⟨h, k, h1, h2, h3⟩
    exact ⟨h, k, (hk c k).2 ⟨h1, h2⟩, h3⟩

theorem flatten_filter_nodup (kernel : List K) (hk : kernel.Nodup) (sel : List P → K → Bool) (pieces : List (List P))
    (hdis : ∀ k, pieces.Pairwise fun a b => ¬ (sel a k = true ∧ sel b k = true)) :
    (pieces.map fun pc => kernel.filter (sel pc)).flatten.Nodup := by
  induction pieces with
  | nil => simp
  | cons pc l ih =>
    rw [List.map_cons, List.flatten_cons, List.nodup_append]
    refine ⟨hk.filter _, ih (fun k => (List.pairwise_cons.1 (hdis k)).2), ?_⟩
    intro a ha b hb hab
    subst hab
    obtain ⟨L, hL, hbL⟩ := List.mem_flatten.1 hb
    obtain ⟨pc', hpc', rfl⟩ := List.mem_map.1 hL
    exact (List.pairwise_cons.1 (hdis a)).1 pc' hpc' ⟨(List.mem_filter.1 ha).2, (List.mem_filter.1 hbL).2⟩

theorem pieces_pairwise {pieces : List (List P)} (h : pieces.flatten.Nodup) (p : P) :
    pieces.Pairwise fun a b => ¬ (p ∈ a ∧ p ∈ b) := by
  induction pieces with
  | nil => exact List.Pairwise.nil
  | cons pc l ih =>
    rw [List.flatten_cons, List.nodup_append] at h
    refine List.pairwise_cons.2 ⟨fun b hb hpb => ?_, ih h.2.1⟩
    exact h.2.2 p hpb.1 p (List.mem_flatten.2 ⟨b, hb, hpb.2⟩) rfl

/-- The derived kernel partition of a complete and disjoint row partition is complete and disjoint, when every row is in
the row space. -/
theorem c25_kernel_partition (m : COO K P V) (hk : m.kernel.Nodup) (space : List P) (pieces : List (List P))
    (hp : IsPartition space pieces) (hrow : ∀ k ∈ m.kernel, m.row k ∈ space) :
    IsPartition m.kernel (m.kernelFromRange pieces) := by
  refine ⟨flatten_filter_nodup m.kernel hk (fun pc k => decide (m.row k ∈ pc)) pieces (fun k => ?_), fun k => ?_⟩
  · exact (pieces_pairwise hp.1 (m.row k)).imp (fun h hh => h ⟨of_decide_eq_true hh.1, of_decide_eq_true hh.2⟩)
  · unfold COO.kernelFromRange byPreimage
    rw [List.mem_flatten]
    constructor
    · rintro ⟨L, hL, hkL⟩
      obtain ⟨pc, -, rfl⟩ := List.mem_map.1 hL
      exact (List.mem_filter.1 hkL).1
    · intro h
      obtain ⟨pc, hpc, hr⟩ := List.mem_flatten.1 ((hp.2 (m.row k)).2 (hrow k h))
      exact ⟨_, List.mem_map.2 ⟨pc, hpc, rfl⟩, List.mem_filter.2 ⟨h, by simpa using hr⟩⟩

/-- Same, column-first. -/
theorem c25_kernel_partition_column_first (m : COO K P V) (hk : m.kernel.Nodup) (space : List P) (pieces : List (List P))
    (hp : IsPartition space pieces) (hcol : ∀ k ∈ m.kernel, m.col k ∈ space) :
    IsPartition m.kernel (m.kernelFromDomain pieces) :=
  c25_kernel_partition ⟨m.kernel, m.col, m.row, m.entry⟩ hk space pieces hp hcol

/-! ## C26 -/

/-- Kernel piece `c`: exactly the kernel points in the rectangle of a row of piece `c`; input piece `c`: exactly their
columns. -/
theorem c26_row_first (m : CSR K P V) (dspace : List P) (pieces : List (List P)) :
    (m.kernelFromRange pieces).length = pieces.length ∧ (m.domainFromRange dspace pieces).length = pieces.length ∧
    (∀ c k, k ∈ (m.kernelFromRange pieces).getD c [] ↔ k ∈ m.kernel ∧ ∃ p ∈ pieces.getD c [], m.range p k = true) ∧
    ∀ c q, q ∈ (m.domainFromRange dspace pieces).getD c [] ↔
      q ∈ dspace ∧ ∃ k ∈ m.kernel, (∃ p ∈ pieces.getD c [], m.range p k = true) ∧ m.col k = q := by
  have hk : ∀ c k, k ∈ (m.kernelFromRange pieces).getD c [] ↔
      k ∈ m.kernel ∧ ∃ p ∈ pieces.getD c [], m.range p k = true := by
    intro c k
    unfold CSR.kernelFromRange byImageRange
    rw [getD_map_nil _ (by simp), List.mem_filter, List.any_eq_true]
  refine ⟨by simp [CSR.kernelFromRange, byImageRange],
    by simp [CSR.domainFromRange, CSR.domainFromKernel, byImage, CSR.kernelFromRange, byImageRange], hk, fun c q => ?_⟩
  unfold CSR.domainFromRange CSR.domainFromKernel byImage
  rw [getD_map_nil _ (by simp), List.mem_filter, decide_eq_true_iff, List.mem_map]
  constructor
  · rintro ⟨h, k, h1, h2⟩
    exact ⟨h, k, ((hk c k).1 h1).1, ((hk c k).1 h1).2, h2⟩
  · rintro ⟨h, k, h1, h2, h3⟩
    exact ⟨h, k, (hk c k).2 ⟨h1, h2⟩, h3⟩

/-- Complete and disjoint for well-formed row pointers (every kernel point in exactly one row). -/
theorem c26_kernel_partition (m : CSR K P V) (hk : m.kernel.Nodup) (hd : m.RowsDisjoint)
    (hcomplete : ∀ k ∈ m.kernel, ∃ p ∈ m.rows, m.range p k = true) (pieces : List (List P))
    (hp : IsPartition m.rows pieces) : IsPartition m.kernel (m.kernelFromRange pieces) := by
  have hmem : ∀ k, k ∈ (m.kernelFromRange pieces).flatten ↔
      k ∈ m.kernel ∧ ∃ pc ∈ pieces, ∃ p ∈ pc, m.range p k = true := by
    intro k
    unfold CSR.kernelFromRange byImageRange
    rw [List.mem_flatten]
    constructor
    · rintro ⟨L, hL, hkL⟩
      obtain ⟨pc, hpc, rfl⟩ := List.mem_map.1 hL
      obtain ⟨h1, h2⟩ := List.mem_filter.1 hkL
      obtain ⟨p, hpp, hr⟩ := List.any_eq_true.1 h2
      exact ⟨h1, pc, hpc, p, hpp, hr⟩
    · rintro ⟨h1, pc, hpc, p, hpp, hr⟩
      exact ⟨_, List.mem_map.2 ⟨pc, hpc, rfl⟩, List.mem_filter.2 ⟨h1, List.any_eq_true.2 ⟨p, hpp, hr⟩⟩⟩
  constructor
  · have : ∀ (l : List (List P)), l.flatten.Nodup → (∀ p ∈ l.flatten, p ∈ m.rows) →
        (l.map fun pc => m.kernel.filter fun k => pc.any fun p => m.range p k).flatten.Nodup := by
      intro l
      induction l with
      | nil => intro _ _; simp
      | cons pc l ih =>
        intro hnd hin
        rw [List.flatten_cons, List.nodup_append] at hnd
        rw [List.flatten_cons] at hin
        rw [List.map_cons, List.flatten_cons, List.nodup_append]
        refine ⟨hk.filter _, ih hnd.2.1 (fun p hp => hin p (List.mem_append_right _ hp)), ?_⟩
        intro a ha b hb hab
        subst hab
        obtain ⟨L, hL, hbL⟩ := List.mem_flatten.1 hb
        obtain ⟨pc', hpc', rfl⟩ := List.mem_map.1 hL
        obtain ⟨hak, h1⟩ := List.mem_filter.1 ha
        obtain ⟨p, hpp, hr⟩ := List.any_eq_true.1 h1
        obtain ⟨q, hqq, hr'⟩ := List.any_eq_true.1 (List.mem_filter.1 hbL).2
        have hq : q ∈ l.flatten := List.mem_flatten.2 ⟨pc', hpc', hqq⟩
        have := hd a hak p q (hin p (List.mem_append_left _ hpp)) (hin q (List.mem_append_right _ hq)) hr hr'
        exact hnd.2.2 p hpp q hq this
    exact this pieces hp.1 (fun p h => (hp.2 p).1 h)
  · intro k
    rw [hmem]
    constructor
    · exact fun h => h.1
    · intro h
      obtain ⟨p, hpr, hr⟩ := hcomplete k h
      obtain ⟨pc, hpc, hpp⟩ := List.mem_flatten.1 ((hp.2 p).2 hpr)
      exact ⟨h, pc, hpc, p, hpp, hr⟩

/-- A derived range partition has in piece `c` exactly the rows that own an entry of kernel piece `c`; it is only offered
for the matrix's own row space. -/
theorem c26_range_from_kernel (m : CSR K P V) (rspace : List P) (kp : List (List K)) :
    (rspace ≠ m.rows → m.rangeFromKernel rspace kp = none) ∧
    (rspace = m.rows → ∃ rp, m.rangeFromKernel rspace kp = some rp ∧ rp.length = kp.length ∧
      ∀ c p, p ∈ rp.getD c [] ↔ p ∈ m.rows ∧ ∃ k ∈ kp.getD c [], m.range p k = true) := by
  constructor
  · intro h
    unfold CSR.rangeFromKernel
    rw [if_neg h]
  · intro h
    refine ⟨_, if_pos h, by simp [byPreimageRange], fun c p => ?_⟩
    unfold byPreimageRange
    rw [getD_map_nil _ (by simp), List.mem_filter, List.any_eq_true]

/-- Column-first derivation through the kernel. -/
theorem c26_column_first (m : CSR K P V) (pieces : List (List P)) :
    ∃ rp, m.rangeFromDomain m.rows pieces = some rp ∧ ∀ c p, p ∈ rp.getD c [] ↔
      p ∈ m.rows ∧ ∃ k ∈ m.kernel, m.col k ∈ pieces.getD c [] ∧ m.range p k = true := by
  obtain ⟨rp, h1, -, h2⟩ := (c26_range_from_kernel m m.rows (m.kernelFromDomain pieces)).2 rfl
  refine ⟨rp, h1, fun c p => ?_⟩
  rw [h2]
  have hk : ∀ k, k ∈ (m.kernelFromDomain pieces).getD c [] ↔ k ∈ m.kernel ∧ m.col k ∈ pieces.getD c [] := by
    intro k
    unfold CSR.kernelFromDomain byPreimage
    rw [getD_map_nil _ (by simp), List.mem_filter, decide_eq_true_iff]
  constructor
  · rintro ⟨h, k, h3, h4⟩
    exact ⟨h, k, ((hk k).1 h3).1, ((hk k).1 h3).2, h4⟩
  · rintro ⟨h, k, h3, h4, h5⟩
    exact ⟨h, k, (hk k).2 ⟨h3, h4⟩, h5⟩

/-! ## C27 -/

/-- Any arithmetic, every partition, every schedule: output element `p` becomes its old value with the products of the
entries of row `p` added one by one in kernel order (so the result, even in floating point, does not depend on the
partition or the schedule); nothing else changes. -/
theorem c27_coo_matvec (A : Arith V) (E : Env P) (m : COO K P V) (dst src : Vec) (hne : src.data ≠ dst.data)
    (space dspace : List P) (hp : IsPartition space (E.pieces dst.part)) (hcol : ∀ k ∈ m.kernel, m.col k ∈ dspace)
    (n : Nat) (s : Cell P → V) :
    Ensures (m.matvec A E dst src (m.kernelFromRange (E.pieces dst.part)) (m.domainFromRange dspace (E.pieces dst.part)))
      n s fun _ s' => OnlyChanged s s' dst space fun p =>
        (m.kernel.filter fun k => decide (m.row k = p)).foldl
          (fun acc k => A.add acc (A.mul (m.entry k) (s (.elem src.data (m.col k))))) (s (.elem dst.data p)) := by
  refine (Runs.cooMatvec A E m dst src hne space dspace hp hcol n s).ensures ?_
  have h := setVec_only s dst space fun p => accList A (fun q => s (.elem src.data q)) (s (.elem dst.data p))
        ((m.kernel.filter fun k => decide (m.row k = p)).map m.triple)
  refine ⟨fun p hp => ?_, h.2⟩
  rw [h.1 p hp]
  simp only [accList, List.foldl_map]
  rfl

/-- Every point task of a product launch, for whatever partitions the caller passes, touches only its output piece and
reads only its ghost piece. -/
theorem c27_tasks_within_requirements (A : Arith V) (m : COO K P V) (dst src : Vec) (out : List P) (kp : List K)
    (inp : List P) : ∀ u ∈ (cooTask A m dst src out kp inp).body,
      (∃ p ∈ out, u.dst = .elem dst.data p) ∧
      ∀ s s' : Cell P → V, (∀ p ∈ out, s (.elem dst.data p) = s' (.elem dst.data p)) →
        (∀ q ∈ inp, s (.elem src.data q) = s' (.elem src.data q)) → u.f s = u.f s' := by
  intro u hu
  obtain ⟨h1, h2⟩ := cooTask_honest A m dst src out kp inp u hu
  refine ⟨h1, fun s s' ho hi => h2 s s' ?_⟩
  rintro c (⟨p, hp, rfl⟩ | ⟨p, hp, rfl⟩)
  · exact ho p hp
  · exact hi p hp

/-- Exact arithmetic: `y p + Σ over the stored entries of row p`, repeated entries adding up. -/
theorem c27_coo_matvec_exact [Field V] (A : Arith V) (hA : A.Exact) (E : Env P) (m : COO K P V) (dst src : Vec)
    (hne : src.data ≠ dst.data)
    (space dspace : List P) (hp : IsPartition space (E.pieces dst.part)) (hcol : ∀ k ∈ m.kernel, m.col k ∈ dspace)
    (n : Nat) (s : Cell P → V) :
    Ensures (m.matvec A E dst src (m.kernelFromRange (E.pieces dst.part)) (m.domainFromRange dspace (E.pieces dst.part)))
      n s fun _ s' => OnlyChanged s s' dst space fun p => s (.elem dst.data p) +
        ((m.kernel.filter fun k => decide (m.row k = p)).map fun k => m.entry k * s (.elem src.data (m.col k))).sum := by
  refine (Runs.cooMatvec A E m dst src hne space dspace hp hcol n s).ensures ?_
  have h := setVec_only s dst space fun p => accList A (fun q => s (.elem src.data q)) (s (.elem dst.data p))
        ((m.kernel.filter fun k => decide (m.row k = p)).map m.triple)
  refine ⟨fun p hp => ?_, h.2⟩
  rw [h.1 p hp]
  simp only [accList_exact hA, List.map_map]
  rfl

/-- Non-vacuity for C25–C27: a 3×3 COO matrix with a repeated entry, two row pieces. -/
example : let m : COO Nat Nat ℚ := ⟨[0, 1, 2, 3], fun k => [0, 2, 0, 1].getD k 0, fun k => [1, 0, 1, 2].getD k 0, fun _ => 1⟩
    IsPartition [0, 1, 2] [[0, 2], [1]] ∧ (∀ k ∈ m.kernel, m.col k ∈ [0, 1, 2]) ∧ (∀ k ∈ m.kernel, m.row k ∈ [0, 1, 2]) ∧
    m.kernelFromRange [[0, 2], [1]] = [[0, 1, 2], [3]] ∧ m.domainFromRange [0, 1, 2] [[0, 2], [1]] = [[0, 1], [2]] := by
  refine ⟨⟨by decide, fun p => by simp; omega⟩, by decide, by decide, by decide, by decide⟩

/-! ## C28 -/

/-- Any arithmetic, every partition, every schedule; in particular the 'row found' assertion does not fire. -/
theorem c28_csr_matvec (A : Arith V) (E : Env P) (m : CSR K P V) (hd : m.RowsDisjoint) (dst src : Vec)
    (hne : src.data ≠ dst.data) (dspace : List P) (hp : IsPartition m.rows (E.pieces dst.part))
    (hcol : ∀ k ∈ m.kernel, m.col k ∈ dspace) (n : Nat) (s : Cell P → V) :
    Ensures (m.matvec A E dst src (m.kernelFromRange (E.pieces dst.part)) (m.domainFromRange dspace (E.pieces dst.part)))
      n s fun _ s' => OnlyChanged s s' dst m.rows fun p =>
        (m.kernel.filter fun k => m.range p k).foldl
          (fun acc k => A.add acc (A.mul (m.entry k) (s (.elem src.data (m.col k))))) (s (.elem dst.data p)) := by
  refine (Runs.csrMatvec A E m hd dst src hne dspace hp hcol n s).ensures ?_
  have h := setVec_only s dst m.rows fun p => accList A (fun q => s (.elem src.data q)) (s (.elem dst.data p))
        ((m.kernel.filter fun k => m.range p k).map fun k => (p, m.col k, m.entry k))
  refine ⟨fun p hp => ?_, h.2⟩
  rw [h.1 p hp]
  simp only [accList, List.foldl_map]
  try rfl

/-- Exact arithmetic. -/
theorem c28_csr_matvec_exact [Field V] (A : Arith V) (hA : A.Exact) (E : Env P) (m : CSR K P V) (hd : m.RowsDisjoint)
    (dst src : Vec) (hne : src.data ≠ dst.data) (dspace : List P) (hp : IsPartition m.rows (E.pieces dst.part))
    (hcol : ∀ k ∈ m.kernel, m.col k ∈ dspace) (n : Nat) (s : Cell P → V) :
    Ensures (m.matvec A E dst src (m.kernelFromRange (E.pieces dst.part)) (m.domainFromRange dspace (E.pieces dst.part)))
      n s fun _ s' => OnlyChanged s s' dst m.rows fun p => s (.elem dst.data p) +
        ((m.kernel.filter fun k => m.range p k).map fun k => m.entry k * s (.elem src.data (m.col k))).sum := by
  refine (Runs.csrMatvec A E m hd dst src hne dspace hp hcol n s).ensures ?_
  have h := setVec_only s dst m.rows fun p => accList A (fun q => s (.elem src.data q)) (s (.elem dst.data p))
        ((m.kernel.filter fun k => m.range p k).map fun k => (p, m.col k, m.entry k))
  refine ⟨fun p hp => ?_, h.2⟩
  rw [h.1 p hp]
  simp only [accList_exact hA, List.map_map]
  rfl

/-- The assertion does fire when a kernel piece contains a point of a row outside the output piece: the partitions must be
the derived ones. -/
theorem c28_foreign_kernel_piece_aborts (A : Arith V) (m : CSR K P V) (dst src : Vec) (out : List P) (kp : List K)
    (inp : List P) (k : K) (hk : k ∈ kp) (hout : ∀ p ∈ out, m.range p k = false) :
    csrTask A m dst src out kp inp = none := by
  unfold csrTask
  rw [if_neg]
  intro h
  have := List.all_eq_true.1 h k hk
  obtain ⟨p, hp⟩ := Option.isSome_iff_exists.1 this
  rcases findRow_some m k out none p hp with ⟨h1, h2⟩ | h
  · rw [hout p h1] at h2; cases h2
  · cases h

/-- Non-vacuity: the row pointers `[0,1] [2,1] [2,3]` (the middle row is empty). -/
example : let m : CSR Nat Nat ℚ := ⟨[0, 1, 2, 3], [0, 1, 2],
    fun p k => decide (([0, 2, 2].getD p 0) ≤ k ∧ k ≤ ([1, 1, 3].getD p 0)), fun k => k % 3, fun _ => 1⟩
    m.RowsDisjoint ∧ IsPartition m.rows [[2], [1, 0]] ∧ (∀ k ∈ m.kernel, m.col k ∈ [0, 1, 2]) ∧
    m.kernelFromRange [[2], [1, 0]] = [[2, 3], [0, 1]] := by
  refine ⟨?_, ⟨by decide, fun p => by simp; omega⟩, by decide, by decide⟩
  intro k hk p q hp hq h1 h2
  revert h1 h2
  simp only [List.mem_cons, List.not_mem_nil, or_false] at hk hp hq
  rcases hk with rfl | rfl | rfl | rfl <;> rcases hp with rfl | rfl | rfl <;> rcases hq with rfl | rfl | rfl <;> decide

/-! ## C29 -/

/-- A CSR matrix and the COO matrix with each entry's row written out leave the same values in every output element, on
every input, for every pair of partitions and schedules, in any arithmetic. -/
theorem c29_coo_csr_agree (A : Arith V) (E E' : Env P) (m : CSR K P V) (hd : m.RowsDisjoint) (row : K → P)
    (hrow : ∀ k ∈ m.kernel, row k ∈ m.rows ∧ m.range (row k) k = true) (dst src : Vec) (hne : src.data ≠ dst.data)
    (dspace : List P) (hp : IsPartition m.rows (E.pieces dst.part)) (hp' : IsPartition m.rows (E'.pieces dst.part))
    (hcol : ∀ k ∈ m.kernel, m.col k ∈ dspace) (n n' : Nat) (s : Cell P → V) :
    ∃ g : P → V,
      Ensures (m.matvec A E dst src (m.kernelFromRange (E.pieces dst.part)) (m.domainFromRange dspace (E.pieces dst.part)))
        n s (fun _ s' => OnlyChanged s s' dst m.rows g) ∧
      Ensures ((m.toCOO row).matvec A E' dst src ((m.toCOO row).kernelFromRange (E'.pieces dst.part))
        ((m.toCOO row).domainFromRange dspace (E'.pieces dst.part)))
        n' s (fun _ s' => OnlyChanged s s' dst m.rows g) := by
  refine ⟨_, c28_csr_matvec A E m hd dst src hne dspace hp hcol n s, ?_⟩
  obtain ⟨a, k, ts, h1, h2, h3⟩ := c27_coo_matvec A E' (m.toCOO row) dst src hne m.rows dspace hp' hcol n' s
  refine ⟨a, k, ts, h1, h2, fun M' h4 h5 => ?_⟩
  obtain ⟨h6, h7⟩ := h3 M' h4 h5
  refine ⟨fun p hp => ?_, h7⟩
  rw [h6 p hp]
  show List.foldl _ _ (m.kernel.filter fun k => decide (row k = p)) = _
  congr 1
  apply List.filter_congr
  intro k hk
  obtain ⟨hr1, hr2⟩ := hrow k hk
  rw [Bool.eq_iff_iff, decide_eq_true_iff]
  constructor
  · rintro rfl; exact hr2
  · intro h; exact hd k hk (row k) p hr1 hp hr2 h

/-! ## C30 -/

/-- Kernel coordinates contained in a row's rectangle. -/
def Csr1.toCSR {V : Type} (m : Csr1 V) (kernel rows : List Int) : CSR Int Int V :=
  ⟨kernel, rows, fun p k => decide (m.lo p ≤ k ∧ k ≤ m.hi p), m.col, m.entry⟩

/-- What the CPU product leaves in output element `p` (`c28_csr_matvec_exact`). -/
def cpuCsr {V : Type} [Field V] (m : Csr1 V) (kernel : List Int) (x y : Int → V) (p : Int) : V :=
  y p + ((kernel.filter fun k => decide (m.lo p ≤ k ∧ k ≤ m.hi p)).map fun k => m.entry k * x (m.col k)).sum

theorem indptr_succ {V : Type} (m : Csr1 V) (rows : Nat) (first : Int) (hcont : ∀ p, first ≤ p → p + 1 < first + rows →
    m.lo (p + 1) = m.hi p + 1) (i : Nat) (hi : i < rows) :
    indptr m rows first i = m.lo (i + first) - m.lo first ∧
    indptr m rows first (i + 1) = m.hi (i + first) + 1 - m.lo first := by
  constructor
  · unfold indptr
    rw [if_neg (by omega)]
  · unfold indptr
    split
    · next h =>
      have : ((rows : Int) - 1 + first) = i + first := by omega
      rw [this]
    · next h =>
      have h1 := hcont (i + first) (by omega) (by omega)
      have : ((i + 1 : Nat) : Int) + first = i + first + 1 := by omega
      rw [this, h1]

/-- With contiguous row rectangles the GPU product leaves in every element of its piece the row sum alone: this is the CPU
product exactly when the output element was zero before, i.e. for the first operator applied to it after the planner's
zero fill.  (Full property, false: for every previous output; missing: further operators on the same output.) -/
theorem c30_csr_gpu_partial {V : Type} [Field V] (m : Csr1 V) (kernel : List Int) (hnd : kernel.Nodup) (rows : Nat)
    (first kLo : Int) (hcont : ∀ p, first ≤ p → p + 1 < first + rows → m.lo (p + 1) = m.hi p + 1)
    (hlo : kLo = m.lo first)
    (hin : ∀ p, first ≤ p → p < first + rows → ∀ k, m.lo p ≤ k → k ≤ m.hi p → k ∈ kernel) (x y : Int → V) (p : Int)
    (hp : first ≤ p ∧ p < first + rows) :
    gpuCsr m rows first kLo x y p = cpuCsr m kernel x (fun _ => 0) p ∧
    (y p = 0 → gpuCsr m rows first kLo x y p = cpuCsr m kernel x y p) := by
  have key : gpuCsr m rows first kLo x y p = cpuCsr m kernel x (fun _ => 0) p := by
    unfold gpuCsr cpuCsr spmvCsr
    rw [if_pos hp]
    obtain ⟨e1, e2⟩ := indptr_succ m rows first hcont (p - first).toNat (by omega)
    have hpp : ((p - first).toNat : Int) + first = p := by omega
    rw [hpp] at e1 e2
    rw [e1, e2, one_mul, zero_mul, add_zero, zero_add]
    have hperm : (kernel.filter fun k => decide (m.lo p ≤ k ∧ k ≤ m.hi p)).Perm
        ((List.range (m.hi p + 1 - m.lo first - (m.lo p - m.lo first)).toNat).map fun (j : Nat) => m.lo p + (j : Int)) := by
      rw [List.perm_ext_iff_of_nodup (hnd.filter _)]
      · intro k
        rw [List.mem_filter, decide_eq_true_iff, List.mem_map]
        constructor
        · rintro ⟨-, h1, h2⟩
          exact ⟨(k - m.lo p).toNat, List.mem_range.2 (by omega), by omega⟩
        · rintro ⟨j, hj, rfl⟩
          have := List.mem_range.1 hj
          exact ⟨hin p hp.1 hp.2 _ (by omega) (by omega), by omega, by omega⟩
      · refine List.Nodup.map_on ?_ List.nodup_range
        intro a _ b _ hab
        omega
    rw [(hperm.map _).sum_eq, List.map_map]
    congr 1
    apply List.map_congr_left
    intro j _
    have : kLo + (m.lo p - m.lo first + (j : Int)) = m.lo p + j := by rw [hlo]; omega
    simp only [Function.comp, this]
  refine ⟨key, fun h => ?_⟩
  rw [key]
  unfold cpuCsr
  rw [h]

/-- The kernel piece starts where the piece's first row starts (what the GPU code assumes), for the derived partition. -/
theorem c30_kernel_lower_bound {V : Type} (m : Csr1 V) (kernel : List Int) (rows : Nat) (first : Int)
    (hcont : ∀ p, first ≤ p → p + 1 < first + rows → m.lo (p + 1) = m.hi p + 1)
    (hle : ∀ p, first ≤ p → p < first + rows → m.lo p ≤ m.hi p + 1)
    (hin : ∀ p, first ≤ p → p < first + rows → ∀ k, m.lo p ≤ k → k ≤ m.hi p → k ∈ kernel) (kLo : Int)
    (hmem : kLo ∈ kernel.filter fun k => ((List.range rows).map fun (j : Nat) => first + (j : Int)).any fun p =>
      decide (m.lo p ≤ k ∧ k ≤ m.hi p))
    (hmin : ∀ k ∈ kernel.filter fun k => ((List.range rows).map fun (j : Nat) => first + (j : Int)).any fun p =>
      decide (m.lo p ≤ k ∧ k ≤ m.hi p), kLo ≤ k) : kLo = m.lo first := by
  have memiff : ∀ k, (k ∈ kernel.filter fun k => ((List.range rows).map fun (j : Nat) => first + (j : Int)).any fun p =>
      decide (m.lo p ≤ k ∧ k ≤ m.hi p)) ↔ ∃ j : Nat, j < rows ∧ m.lo (first + j) ≤ k ∧ k ≤ m.hi (first + j) := by
    intro k
    rw [List.mem_filter, List.any_eq_true]
    constructor
    · rintro ⟨-, p, hp, h⟩
      obtain ⟨j, hj, rfl⟩ := List.mem_map.1 hp
      exact ⟨j, List.mem_range.1 hj, of_decide_eq_true h⟩
    · rintro ⟨j, hj, h⟩
      exact ⟨hin (first + j) (by omega) (by omega) k h.1 h.2, first + j,
        List.mem_map.2 ⟨j, List.mem_range.2 hj, rfl⟩, by rw [decide_eq_true_iff]; exact h⟩
  have mono : ∀ j : Nat, j < rows → m.lo first ≤ m.lo (first + j) := by
    intro j
    induction j with
    | zero => intro _; simp
    | succ j ih =>
      intro hj
      have h1 := ih (by omega)
      have h2 := hcont (first + j) (by omega) (by omega)
      have h3 := hle (first + j) (by omega) (by omega)
      have : first + ((j + 1 : Nat) : Int) = first + j + 1 := by omega
      rw [this, h2]
      omega
  obtain ⟨j, hj, h1, h2⟩ := (memiff kLo).1 hmem
  have hge : m.lo first ≤ kLo := le_trans (mono j hj) h1
  -- the first point `lo first` is covered: walk through empty rows
  have cover : ∀ j : Nat, j < rows → (∀ i : Nat, i < j → m.hi (first + i) < m.lo (first + i)) →
      m.lo (first + j) = m.lo first := by
    intro j
    induction j with
    | zero => intro _ _; simp
    | succ j ih =>
      intro hj hempty
      have h2 := hcont (first + j) (by omega) (by omega)
      have h3 := hle (first + j) (by omega) (by omega)
      have h4 := hempty j (by omega)
      have h5 := ih (by omega) (fun i hi => hempty i (by omega))
      have : first + ((j + 1 : Nat) : Int) = first + j + 1 := by omega
      rw [this, h2]
      omega
  by_cases hex : ∃ i : Nat, i < rows ∧ m.lo (first + i) ≤ m.hi (first + i)
  · have hfind := Nat.find_spec hex
    have hmin' : ∀ i : Nat, i < Nat.find hex → m.hi (first + i) < m.lo (first + i) := by
      intro i hi
      have := Nat.find_min hex hi
      by_contra hc
      exact this ⟨by omega, by omega⟩
    have hc := cover (Nat.find hex) hfind.1 hmin'
    have : kLo ≤ m.lo first := hmin _ ((memiff _).2 ⟨Nat.find hex, hfind.1, by omega, by rw [← hc]; exact hfind.2⟩)
    omega
  · exact absurd ⟨j, hj, by omega⟩ hex

/-- The property fails on the GPU when two operators contribute to the same output: the second product overwrites the
first.  One-by-one matrices `(1)`, input 1, output zero-filled: CPU 2, GPU 1. -/
theorem c30_violated_two_operators : ∃ (m : Csr1 ℚ) (kernel : List Int) (x : Int → ℚ),
    (∀ p, (0 : Int) ≤ p → p + 1 < 0 + 1 → m.lo (p + 1) = m.hi p + 1) ∧
    (∀ p, (0 : Int) ≤ p → p < 0 + 1 → ∀ k, m.lo p ≤ k → k ≤ m.hi p → k ∈ kernel) ∧
    cpuCsr m kernel x (cpuCsr m kernel x fun _ => 0) 0 = 2 ∧
    gpuCsr m 1 0 0 x (gpuCsr m 1 0 0 x fun _ => 0) 0 = 1 := by
  refine ⟨⟨fun _ => 0, fun _ => 0, fun _ => 0, fun _ => 1⟩, [0], fun _ => 1, ?_, ?_, ?_, ?_⟩
  · intro p h1 h2; omega
  · intro p _ _ k h1 h2; simp at h1 h2 ⊢; omega
  · norm_num [cpuCsr]
  · norm_num [gpuCsr, spmvCsr, indptr]

/-- COO: if the kernel piece is a contiguous interval, the GPU product equals the CPU product. -/
theorem c30_coo_gpu_partial {V : Type} [Field V] (m : COO Int Int V) (kp : List Int) (kLo : Int) (hnd : kp.Nodup)
    (hcont : ∀ k, k ∈ kp ↔ kLo ≤ k ∧ k < kLo + kp.length) (x y : Int → V) (p : Int) :
    gpuCoo m kp kLo x y p = y p + ((kp.filter fun k => decide (m.row k = p)).map fun k => m.entry k * x (m.col k)).sum := by
  unfold gpuCoo
  split
  · next h => subst h; simp
  · have hperm : kp.Perm ((List.range kp.length).map fun (j : Nat) => kLo + (j : Int)) := by
      rw [List.perm_ext_iff_of_nodup hnd]
      · intro k
        rw [hcont, List.mem_map]
        constructor
        · rintro ⟨h1, h2⟩
          exact ⟨(k - kLo).toNat, List.mem_range.2 (by omega), by omega⟩
        · rintro ⟨j, hj, rfl⟩
          have := List.mem_range.1 hj
          omega
      · refine List.Nodup.map_on ?_ List.nodup_range
        intro a _ b _ hab
        omega
    rw [one_mul, one_mul, add_comm]
    congr 1
    rw [((hperm.filter _).map _).sum_eq, List.filter_map, List.map_map]
    rfl

/-- The property fails for COO on the GPU when a derived kernel piece is not contiguous: entries stored in the order of
rows 0, 1, 0, output pieces `{0}` and `{1}`; the derived kernel piece of `{0}` is `{0, 2}`, the GPU task reads the entries 0
and 1.  Input all 1, entries all 1: CPU gives 2 in row 0, GPU 1. -/
theorem c30_violated_noncontiguous : ∃ m : COO Int Int ℚ, m.kernelFromRange [[0], [1]] = [[0, 2], [1]] ∧
    ((m.kernel.filter fun k => decide (m.row k = 0)).map fun k => m.entry k * (1 : ℚ)).sum = 2 ∧
    gpuCoo m [0, 2] 0 (fun _ => 1) (fun _ => 0) 0 = 1 := by
  refine ⟨⟨[0, 1, 2], fun k => if k = 1 then 1 else 0, fun _ => 0, fun _ => 1⟩, by decide, ?_, ?_⟩
  · norm_num
  · have h : ¬ (([0, 2] : List Int) = []) := by decide
    unfold gpuCoo
    rw [if_neg h]
    norm_num [List.range, List.range.loop]

/-- Non-vacuity of the CSR hypotheses: rows 3, 4, 5 with rectangles `[7,8] [9,8] [9,11]`. -/
example : let m : Csr1 ℚ := ⟨fun p => if p = 3 then 7 else 9, fun p => if p ≤ 4 then 8 else 11, fun k => k, fun _ => 1⟩
    (∀ p, (3 : Int) ≤ p → p + 1 < 3 + (3 : Nat) → m.lo (p + 1) = m.hi p + 1) ∧ (7 : Int) = m.lo 3 ∧
    (∀ p, (3 : Int) ≤ p → p < 3 + (3 : Nat) → ∀ k, m.lo p ≤ k → k ≤ m.hi p → k ∈ ([7, 8, 9, 10, 11] : List Int)) := by
  refine ⟨?_, rfl, ?_⟩
  · intro p h1 h2
    have : p = 3 ∨ p = 4 := by omega
    rcases this with rfl | rfl <;> decide
  · intro p h1 h2 k
    have : p = 3 ∨ p = 4 ∨ p = 5 := by omega
    rcases this with rfl | rfl | rfl <;> simp <;> omega

end Verif.Matrix
