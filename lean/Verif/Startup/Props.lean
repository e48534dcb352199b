import Verif.Startup.Names
import Verif.Driver.Props

/-! # C87: what `initialize` registers and reports -/
set_option linter.dupNamespace false
namespace Verif.Startup
open Verif.Tasks Verif.Driver Verif.Programs

/-! ## Specification -/

/-- What the information at start-up is about. -/
inductive Feature
  | cuda | kokkos
  | entry (t : EntryTy)
  | index (i : IndexTy)
  | dim (n : Nat)

/-- The line that announces a feature. -/
def announcement : Feature → Text
  | .cuda => bytes "[LegionSolvers] CUDA support enabled."
  | .kokkos => bytes "[LegionSolvers] Kokkos support enabled."
  | .entry .float => bytes "[LegionSolvers]   * 32-bit floating-point"
  | .entry .double => bytes "[LegionSolvers]   * 64-bit floating-point"
  | .index .int => bytes "[LegionSolvers]   * signed 32-bit integer"
  | .index .unsigned => bytes "[LegionSolvers]   * unsigned 32-bit integer"
  | .index .longlong => bytes "[LegionSolvers]   * signed 64-bit integer"
  | .dim n => bytes "[LegionSolvers]   * " ++ showNat n

/-- The feature is in the build.  There is code for at most three dimensions, whatever the maximum is set to. -/
def Enabled (b : Build) : Feature → Prop
  | .cuda => b.cuda = true
  | .kokkos => b.kokkos = true
  | .entry t => b.cfg.entryOn t = true
  | .index i => b.cfg.indexOn i = true
  | .dim n => 1 ≤ n ∧ n ≤ 3 ∧ n ≤ b.cfg.maxDim

/-- GPU variants are compiled in. -/
def GpuBuild (b : Build) : Prop := b.cuda = true ∧ b.kokkos = false

/-- The tasks that have code for GPUs. -/
def OnGpu : Inst → Prop
  | .vec k _ _ _ => k = .scal ∨ k = .axpy ∨ k = .xpay ∨ k = .dot
  | .mat k _ _ _ _ _ _ _ => k = .cooMatvec ∨ k = .cooRmatvec ∨ k = .csrMatvec ∨ k = .csrRmatvec
  | _ => False

/-! ## Which calls -/

theorem hasCudaBody_iff (a : Inst) : hasCudaBody a = true ↔ OnGpu a := by
  cases a with
  | scalar k t => simp [hasCudaBody, OnGpu]
  | printIndex n i => simp [hasCudaBody, OnGpu]
  | vec k t n i => cases k <;> simp [hasCudaBody, OnGpu]
  | mat k => cases k <;> simp [hasCudaBody, OnGpu]

theorem gpu_iff (b : Build) : (b.cuda && !b.kokkos) = true ↔ GpuBuild b := by
  unfold GpuBuild; simp

theorem mem_unguarded (a : Inst) : a ∈ unguarded ↔ ∃ m ∈ matTasks, ∃ t ∈ [EntryTy.float, EntryTy.double], mat64 m.1 t m.2.1 m.2.2.1 m.2.2.2 = a := by
  constructor
  · intro h
    have key : ∀ a ∈ unguarded, ∃ m ∈ matTasks, ∃ t ∈ [EntryTy.float, EntryTy.double], mat64 m.1 t m.2.1 m.2.2.1 m.2.2.2 = a := by decide
    exact key a h
  · rintro ⟨m, hm, t, ht, rfl⟩
    revert t m
    decide

theorem mem_group {c : Config} {ks : List VecTask} {a : Inst} :
    a ∈ group c ks ↔ ∃ t ∈ c.enabledEntries, ∃ i ∈ c.enabledIndices, ∃ n ∈ c.registeredDims, ∃ k ∈ ks, Inst.vec k t n i = a := by
  simp only [group, List.mem_flatMap, List.mem_map]

/-- The calls are those of the list used for C15 to C17. -/
theorem mem_calls (c : Config) (a : Inst) : a ∈ calls c ↔ a ∈ c.registered := by
  unfold calls Config.registered
  simp only [List.mem_append, mem_group, mem_unguarded, List.mem_flatMap, List.mem_map, mat64]
  constructor
  · rintro (((((h | h) | ⟨t, ht, i, hi, n, hn, k, hk, e⟩) | ⟨t, ht, i, hi, n, hn, k, hk, e⟩) | ⟨t, ht, i, hi, n, hn, k, hk, e⟩) | h)
    · exact Or.inl (Or.inl (Or.inl h))
    · exact Or.inl (Or.inl (Or.inr h))
    · exact Or.inl (Or.inr ⟨t, ht, i, hi, n, hn, k, mem_vecTasks k, e⟩)
    · exact Or.inl (Or.inr ⟨t, ht, i, hi, n, hn, k, mem_vecTasks k, e⟩)
    · exact Or.inl (Or.inr ⟨t, ht, i, hi, n, hn, k, mem_vecTasks k, e⟩)
    · exact Or.inr h
  · rintro (((h | h) | ⟨t, ht, i, hi, n, hn, k, -, e⟩) | h)
    · exact Or.inl (Or.inl (Or.inl (Or.inl (Or.inl h))))
    · exact Or.inl (Or.inl (Or.inl (Or.inl (Or.inr h))))
    · have : k ∈ [VecTask.randomFill] ∨ k ∈ linearAlgebra ∨ k ∈ stencils := by cases k <;> decide
      rcases this with hk | hk | hk
      · exact Or.inl (Or.inl (Or.inl (Or.inr ⟨t, ht, i, hi, n, hn, k, hk, e⟩)))
      · exact Or.inl (Or.inl (Or.inr ⟨t, ht, i, hi, n, hn, k, hk, e⟩))
      · exact Or.inl (Or.inr ⟨t, ht, i, hi, n, hn, k, hk, e⟩)
    · exact Or.inr h

theorem mem_entries_iff {c : Config} {t : EntryTy} : t ∈ c.enabledEntries ↔ c.entryOn t = true := by
  refine ⟨fun h => ?_, mem_entries⟩
  revert h; unfold Config.entryOn Config.enabledEntries; cases t <;> cases c.useF32 <;> cases c.useF64 <;> simp

theorem mem_indices_iff {c : Config} {i : IndexTy} : i ∈ c.enabledIndices ↔ c.indexOn i = true := by
  refine ⟨fun h => ?_, mem_indices⟩
  revert h; unfold Config.indexOn Config.enabledIndices
  cases i <;> cases c.useS32 <;> cases c.useU32 <;> cases c.useS64 <;> simp

theorem mem_dims_iff {c : Config} {n : Nat} : n ∈ c.registeredDims ↔ 1 ≤ n ∧ n ≤ 3 ∧ n ≤ c.maxDim := by
  unfold Config.registeredDims
  simp only [List.mem_filter, List.mem_cons, List.not_mem_nil, or_false, decide_eq_true_eq]
  omega

/-- Nothing is registered that the build options exclude, and all that they include. -/
theorem mem_calls_iff (c : Config) : ∀ a, a ∈ calls c ↔ match a with
    | .scalar _ t => c.entryOn t = true
    | .printIndex n i => c.indexOn i = true ∧ 1 ≤ n ∧ n ≤ 3 ∧ n ≤ c.maxDim
    | .vec _ t n i => c.entryOn t = true ∧ c.indexOn i = true ∧ 1 ≤ n ∧ n ≤ 3 ∧ n ≤ c.maxDim
    | .mat k _ n₁ n₂ n₃ i₁ i₂ i₃ => (i₁ = .longlong ∧ i₂ = .longlong ∧ i₃ = .longlong) ∧ n₁ = 1 ∧ n₂ = n₃ ∧ 1 ≤ n₃ ∧ n₃ ≤ 3 ∧
        (n₃ = 1 ∨ k = .cooPrint ∨ k = .csrPrint) := by
  intro a
  rw [mem_calls]
  unfold Config.registered
  simp only [List.mem_append, List.mem_flatMap, List.mem_map]
  cases a with
  | scalar k t =>
    dsimp only
    rw [← mem_entries_iff]
    constructor
    · rintro (((⟨t', ht, k', -, e⟩ | ⟨_, _, _, _, e⟩) | ⟨_, _, _, _, _, _, _, _, e⟩) | ⟨_, _, _, _, e⟩) <;> cases e
      exact ht
    · exact fun h => Or.inl (Or.inl (Or.inl ⟨t, h, k, mem_scalarTasks k, rfl⟩))
  | printIndex n i =>
    dsimp only
    rw [← mem_indices_iff, ← mem_dims_iff]
    constructor
    · rintro (((⟨t', ht, k', -, e⟩ | ⟨_, hi, _, hn, e⟩) | ⟨_, _, _, _, _, _, _, _, e⟩) | ⟨_, _, _, _, e⟩) <;> cases e
      exact ⟨hi, hn⟩
    · exact fun h => Or.inl (Or.inl (Or.inr ⟨i, h.1, n, h.2, rfl⟩))
  | vec k t n i =>
    dsimp only
    rw [← mem_entries_iff, ← mem_indices_iff, ← mem_dims_iff]
    constructor
    · rintro (((⟨t', ht, k', -, e⟩ | ⟨_, hi, _, hn, e⟩) | ⟨_, ht, _, hi, _, hn, _, _, e⟩) | ⟨_, _, _, _, e⟩) <;> cases e
      exact ⟨ht, hi, hn⟩
    · exact fun h => Or.inl (Or.inr ⟨t, h.1, i, h.2.1, n, h.2.2, k, mem_vecTasks k, rfl⟩)
  | mat k t n₁ n₂ n₃ i₁ i₂ i₃ =>
    dsimp only
    constructor
    · rintro (((⟨t', ht, k', -, e⟩ | ⟨_, hi, _, hn, e⟩) | ⟨_, ht, _, hi, _, hn, _, _, e⟩) | ⟨m, hm, t', ht, e⟩) <;> cases e
      refine ⟨⟨rfl, rfl, rfl⟩, ?_⟩
      revert m
      decide
    · rintro ⟨⟨rfl, rfl, rfl⟩, rfl, rfl, h1, h3, h⟩
      refine Or.inr ⟨(k, 1, n₂, n₂), ?_, t, by cases t <;> decide, rfl⟩
      have : n₂ = 1 ∨ n₂ = 2 ∨ n₂ = 3 := by omega
      rcases this with rfl | rfl | rfl
      · cases k <;> decide
      · rcases h with h | rfl | rfl
        · cases h
        all_goals decide
      · rcases h with h | rfl | rfl
        · cases h
        all_goals decide

/-! ## The list of variants -/

/-- The variants of one task with a given identifier. -/
def regs (b : Build) (a : Inst) : List Variant := (preregister b a).getD []

theorem mapM_some {α β : Type} (f : α → Option (List β)) : ∀ l : List α, (∀ a ∈ l, ∃ y, f a = some y) →
    l.mapM f = some (l.map fun a => (f a).getD [])
  | [], _ => rfl
  | a :: l, h => by
    obtain ⟨y, hy⟩ := h a (List.mem_cons_self ..)
    rw [List.mapM_cons, hy, mapM_some f l fun x hx => h x (List.mem_cons_of_mem _ hx)]
    simp [hy]

theorem mapM_none {α β : Type} (f : α → Option β) {x : α} (hx : f x = none) : ∀ l : List α, x ∈ l → l.mapM f = none
  | a :: l, h => by
    rw [List.mapM_cons]
    rcases List.mem_cons.1 h with rfl | h
    · rw [hx]; rfl
    · rw [mapM_none f hx l h]
      cases f a <;> rfl

/-- The three types that the unguarded registrations name. -/
def Complete (c : Config) : Prop := c.useF32 = true ∧ c.useF64 = true ∧ c.useS64 = true

theorem staticId_calls {c : Config} (h : Complete c) {a : Inst} (ha : a ∈ calls c) : ∃ x, c.staticId a = some x := by
  rw [mem_calls_iff] at ha
  have ht : ∀ t, ∃ e, c.entryTypeIndex t = some e := by
    intro t
    refine Option.isSome_iff_exists.1 ?_
    rw [entryTypeIndex_isSome]
    cases t
    exacts [h.1, h.2.1]
  have h64 : c.indexOn .longlong = true := h.2.2
  cases a with
  | scalar k t => obtain ⟨e, he⟩ := ht t; exact ⟨_, staticId_scalar.2 ⟨e, he, rfl⟩⟩
  | printIndex n i => exact ⟨_, staticId_printIndex.2 ⟨ha.1, rfl⟩⟩
  | vec k t n i => obtain ⟨e, he⟩ := ht t; exact ⟨_, staticId_vec.2 ⟨e, he, ha.2.1, rfl⟩⟩
  | mat k t n₁ n₂ n₃ i₁ i₂ i₃ =>
    obtain ⟨e, he⟩ := ht t
    obtain ⟨⟨rfl, rfl, rfl⟩, -⟩ := ha
    exact ⟨_, staticId_mat.2 ⟨e, he, h64, h64, h64, rfl⟩⟩

theorem preregister_none {b : Build} {a : Inst} (h : b.cfg.staticId a = none) : preregister b a = none := by
  unfold preregister; rw [h]; rfl

theorem preregister_some {b : Build} {a : Inst} {x : Nat} (h : b.cfg.staticId a = some x) :
    preregister b a = some (if b.cuda && !b.kokkos && hasCudaBody a then
      [⟨.inst a, x, taskName a, .loc, registrarOf a.block.flags⟩, ⟨.inst a, x, taskName a, .toc, registrarOf a.block.flags⟩]
      else [⟨.inst a, x, taskName a, .loc, registrarOf a.block.flags⟩]) := by
  unfold preregister; rw [h]; rfl

/-- **C87** (it compiles): the library compiles exactly with both entry types and 64-bit coordinates, because the matrix tasks are registered without
guards. -/
theorem c87_compiles (b : Build) (printInfo verbose : Bool) : (initLib b printInfo verbose).isSome = true ↔
    b.cfg.entryOn .float = true ∧ b.cfg.entryOn .double = true ∧ b.cfg.indexOn .longlong = true := by
  have hv : (initLib b printInfo verbose).isSome = (variants b).isSome := by
    unfold initLib; cases variants b <;> rfl
  have hm : (variants b).isSome = ((calls b.cfg).mapM (preregister b)).isSome := by
    unfold variants; cases (calls b.cfg).mapM (preregister b) <;> rfl
  rw [hv, hm]
  constructor
  · intro h
    have key : ∀ a ∈ calls b.cfg, ∃ x, b.cfg.staticId a = some x := by
      intro a ha
      cases e : b.cfg.staticId a with
      | some x => exact ⟨x, rfl⟩
      | none => rw [mapM_none _ (preregister_none e) _ ha] at h; cases h
    obtain ⟨x, hx⟩ := key (mat64 .cooLaplacian .float 1 1 1) ((mem_calls_iff _ _).2 (by simp [mat64]))
    obtain ⟨y, hy⟩ := key (mat64 .cooLaplacian .double 1 1 1) ((mem_calls_iff _ _).2 (by simp [mat64]))
    obtain ⟨e, he, h64, -⟩ := staticId_mat.1 hx
    obtain ⟨e', he', -⟩ := staticId_mat.1 hy
    exact ⟨by rw [← entryTypeIndex_isSome, he]; rfl, by rw [← entryTypeIndex_isSome, he']; rfl, h64⟩
  · rintro ⟨h1, h2, h3⟩
    rw [mapM_some _ _ fun a ha => ?_]
    · rfl
    · obtain ⟨x, hx⟩ := staticId_calls ⟨h1, h2, h3⟩ ha
      exact ⟨_, preregister_some hx⟩

theorem complete_of {b : Build} {printInfo verbose : Bool} {r : List Text × List Variant} (h : initLib b printInfo verbose = some r) :
    Complete b.cfg := (c87_compiles b printInfo verbose).1 (by rw [h]; rfl)

theorem initLib_eq {b : Build} (hc : Complete b.cfg) (printInfo verbose : Bool) :
    initLib b printInfo verbose = some ((if printInfo then infoLines b else []) ++ (if verbose then ((calls b.cfg).flatMap (regs b) ++
      if b.cuda && !b.kokkos then [loadCudaLibs b] else []).map registerLine else []),
      (calls b.cfg).flatMap (regs b) ++ if b.cuda && !b.kokkos then [loadCudaLibs b] else []) := by
  unfold initLib variants
  rw [mapM_some _ _ fun a ha => ?_]
  · have e : (fun a => (preregister b a).getD []) = regs b := rfl
    rw [e, List.flatMap_def]
    simp
  · obtain ⟨x, hx⟩ := staticId_calls hc ha
    exact ⟨_, preregister_some hx⟩

theorem mem_regs {b : Build} {a : Inst} {x : Nat} (h : b.cfg.staticId a = some x) (v : Variant) : v ∈ regs b a ↔
    v = ⟨.inst a, x, taskName a, .loc, registrarOf a.block.flags⟩ ∨
    (GpuBuild b ∧ OnGpu a ∧ v = ⟨.inst a, x, taskName a, .toc, registrarOf a.block.flags⟩) := by
  unfold regs
  rw [preregister_some h, Option.getD_some]
  rw [← gpu_iff, ← hasCudaBody_iff]
  split
  · rename_i hg
    rw [Bool.and_eq_true] at hg
    simp [hg.1, hg.2]
  · rename_i hg
    rw [Bool.and_eq_true] at hg
    simp only [List.mem_singleton]
    exact ⟨Or.inl, fun h => h.elim id fun h => absurd ⟨h.1, h.2.1⟩ hg⟩

/-- **C87** (what is registered): a variant is registered exactly if it is the CPU variant of a task of the library whose types and dimensions are in
the build, or, in builds with CUDA and without Kokkos, the GPU variant of such a task that has code for GPUs, or the task that loads the CUDA
libraries; with the name, the identifier and the options of its task. -/
theorem c87_registered {b : Build} {printInfo verbose : Bool} {lines : List Text} {vs : List Variant}
    (h : initLib b printInfo verbose = some (lines, vs)) (v : Variant) : v ∈ vs ↔
    (∃ a ∈ b.cfg.registered, ∃ x, b.cfg.staticId a = some x ∧
      (v = ⟨.inst a, x, taskName a, .loc, registrarOf a.block.flags⟩ ∨
        (GpuBuild b ∧ OnGpu a ∧ v = ⟨.inst a, x, taskName a, .toc, registrarOf a.block.flags⟩))) ∨
    (GpuBuild b ∧ v = ⟨.loadCudaLibs, b.cfg.origin, bytes "load_cuda_libs", .toc, ⟨true, false, false, false⟩⟩) := by
  have hc := complete_of h
  rw [initLib_eq hc] at h
  cases h
  rw [List.mem_append, List.mem_flatMap]
  refine or_congr ⟨?_, ?_⟩ ?_
  · rintro ⟨a, ha, hv⟩
    obtain ⟨x, hx⟩ := staticId_calls hc ha
    exact ⟨a, (mem_calls _ a).1 ha, x, hx, (mem_regs hx v).1 hv⟩
  · rintro ⟨a, ha, x, hx, hv⟩
    exact ⟨a, (mem_calls _ a).2 ha, (mem_regs hx v).2 hv⟩
  · rw [← gpu_iff]
    split
    · rename_i hg
      simp only [List.mem_singleton, hg, true_and]
      rfl
    · rename_i hg
      simp [hg]

/-! ## Identifiers -/

/-- The shape of the calls of a build that compiles depends on two options and on the dimensions up to 3. -/
def shape (s32 u32 : Bool) (d : Nat) : Config := ⟨true, true, s32, u32, true, d, 0⟩

theorem calls_shape {c : Config} (h : Complete c) (d : Nat) (hd : c.registeredDims = (shape c.useS32 c.useU32 d).registeredDims) :
    calls c = calls (shape c.useS32 c.useU32 d) := by
  have h1 : c.enabledEntries = (shape c.useS32 c.useU32 d).enabledEntries := by
    unfold Config.enabledEntries; rw [h.1, h.2.1]; rfl
  have h2 : c.enabledIndices = (shape c.useS32 c.useU32 d).enabledIndices := by
    unfold Config.enabledIndices; rw [h.2.2]; rfl
  unfold calls group
  rw [h1, h2, hd]

theorem shape_nodup : ∀ s32 u32 : Bool, ∀ d ∈ [0, 1, 2, 3], (calls (shape s32 u32 d)).Nodup := by decide +kernel

/-- No call is made twice. -/
theorem calls_nodup {c : Config} (h : Complete c) : (calls c).Nodup := by
  have hd : c.registeredDims = (shape c.useS32 c.useU32 (min c.maxDim 3)).registeredDims := by
    unfold Config.registeredDims
    refine List.filter_congr fun n hn => ?_
    have : n ≤ 3 := by revert n; decide
    simp only [shape]
    exact decide_eq_decide.2 (by omega)
  rw [calls_shape h _ hd]
  refine shape_nodup _ _ _ ?_
  have : min c.maxDim 3 = 0 ∨ min c.maxDim 3 = 1 ∨ min c.maxDim 3 = 2 ∨ min c.maxDim 3 = 3 := by omega
  rcases this with e | e | e | e <;> rw [e] <;> decide

theorem staticId_shift {c : Config} {a : Inst} {x : Nat} (h : c.staticId a = some x) :
    ∃ y, ({ c with origin := 0 } : Config).staticId a = some y ∧ x = c.origin + y := by
  cases a with
  | scalar k t =>
    obtain ⟨e, he, rfl⟩ := staticId_scalar.1 h
    refine ⟨_, staticId_scalar.2 ⟨e, he, rfl⟩, ?_⟩
    simp only [Config.idT, Config.blockOrigin, Nat.add_assoc, Nat.zero_add]
    rfl
  | printIndex n i =>
    obtain ⟨hi, rfl⟩ := staticId_printIndex.1 h
    refine ⟨_, staticId_printIndex.2 ⟨hi, rfl⟩, ?_⟩
    simp only [Config.idDI, Config.blockOrigin, Nat.add_assoc, Nat.zero_add]
    rfl
  | vec k t n i =>
    obtain ⟨e, he, hi, rfl⟩ := staticId_vec.1 h
    refine ⟨_, staticId_vec.2 ⟨e, he, hi, rfl⟩, ?_⟩
    simp only [Config.idTDI, Config.blockOrigin, Nat.add_assoc, Nat.zero_add]
    rfl
  | mat k t n₁ n₂ n₃ i₁ i₂ i₃ =>
    obtain ⟨e, he, h1, h2, h3, rfl⟩ := staticId_mat.1 h
    refine ⟨_, staticId_mat.2 ⟨e, he, h1, h2, h3, rfl⟩, ?_⟩
    simp only [Config.idTDDDIII, Config.blockOrigin, Nat.add_assoc, Nat.zero_add]
    rfl

theorem shape_ids : ∀ s32 u32 : Bool, ((calls (shape s32 u32 2)).map (shape s32 u32 2).staticId).Nodup := by decide +kernel

/-- Different calls use different identifiers, if the maximum dimension is at least 2. -/
theorem calls_ids {c : Config} (hc : Complete c) (h2 : 2 ≤ c.maxDim) {a b : Inst} (ha : a ∈ calls c) (hb : b ∈ calls c) {x : Nat}
    (h1 : c.staticId a = some x) (h3 : c.staticId b = some x) : a = b := by
  rcases Nat.lt_or_ge 2 c.maxDim with h | h
  · exact c15_ids_injective c a b (by omega) (registered_dims h ((mem_calls c a).1 ha)) (registered_dims h ((mem_calls c b).1 hb)) x h1 h3
  · have hm : c.maxDim = 2 := by omega
    have e : ({ c with origin := 0 } : Config) = shape c.useS32 c.useU32 2 := by
      unfold shape; rw [hc.1, hc.2.1, hc.2.2, hm]
    obtain ⟨y, hy, ey⟩ := staticId_shift h1
    obtain ⟨z, hz, ez⟩ := staticId_shift h3
    rw [e] at hy hz
    have hyz : y = z := by omega
    have hd : c.registeredDims = (shape c.useS32 c.useU32 2).registeredDims := by
      unfold Config.registeredDims; rw [hm]; rfl
    rw [calls_shape hc 2 hd] at ha hb
    refine List.inj_on_of_nodup_map (shape_ids c.useS32 c.useU32) ha hb ?_
    rw [hy, hz, hyz]

theorem staticId_pos {c : Config} {a : Inst} {x : Nat} (h : c.staticId a = some x) : c.origin + 1 ≤ x := by
  have hb : ∀ k, c.origin + 1 ≤ c.blockOrigin k := fun k => Nat.le_add_right _ _
  cases a with
  | scalar k t =>
    obtain ⟨e, he, rfl⟩ := staticId_scalar.1 h
    exact (hb _).trans (Nat.le_add_right _ _)
  | printIndex n i =>
    obtain ⟨hi, rfl⟩ := staticId_printIndex.1 h
    have := hb .printIndex
    unfold Config.idDI
    omega
  | vec k t n i =>
    obtain ⟨e, he, hi, rfl⟩ := staticId_vec.1 h
    have := hb k.block
    unfold Config.idTDI
    omega
  | mat k t n₁ n₂ n₃ i₁ i₂ i₃ =>
    obtain ⟨e, he, h1, h2, h3, rfl⟩ := staticId_mat.1 h
    have := hb k.block
    unfold Config.idTDDDIII
    omega

/-- Two registrations that Legion cannot tell apart: one identifier, one kind of processor. -/
def Clash (v w : Variant) : Prop := v.id = w.id ∧ v.proc = w.proc

theorem regs_clash {b : Build} {a : Inst} {x : Nat} (h : b.cfg.staticId a = some x) : (regs b a).Pairwise fun v w => ¬ Clash v w := by
  unfold regs
  rw [preregister_some h, Option.getD_some]
  split
  · simp [Clash]
  · simp

theorem regs_id {b : Build} {a : Inst} {x : Nat} (h : b.cfg.staticId a = some x) {v : Variant} (hv : v ∈ regs b a) :
    v.id = x ∧ v.task = .inst a ∧ v.name = taskName a := by
  rcases (mem_regs h v).1 hv with rfl | ⟨-, -, rfl⟩ <;> exact ⟨rfl, rfl, rfl⟩

/-- **C87** (identifiers): with a maximum dimension of at least 2 no two registrations have the same identifier and the same kind of processor
(nothing is registered twice, and no task hides another), and an identifier belongs to one task with one name. -/
theorem c87_ids {b : Build} (h2 : 2 ≤ b.cfg.maxDim) {printInfo verbose : Bool} {lines : List Text} {vs : List Variant}
    (h : initLib b printInfo verbose = some (lines, vs)) :
    (vs.Pairwise fun v w => ¬ Clash v w) ∧ ∀ v ∈ vs, ∀ w ∈ vs, v.id = w.id → v.task = w.task ∧ v.name = w.name := by
  have hc := complete_of h
  rw [initLib_eq hc] at h
  cases h
  have hid : ∀ a ∈ calls b.cfg, ∀ v ∈ regs b a, b.cfg.staticId a = some v.id ∧ v.task = .inst a ∧ v.name = taskName a := by
    intro a ha v hv
    obtain ⟨x, hx⟩ := staticId_calls hc ha
    obtain ⟨e, e'⟩ := regs_id hx hv
    exact ⟨by rw [e, hx], e'⟩
  have hmeta : ∀ v ∈ (if b.cuda && !b.kokkos then [loadCudaLibs b] else []), v = loadCudaLibs b := by
    intro v hv
    split at hv
    · exact List.mem_singleton.1 hv
    · cases hv
  have hne : ∀ v ∈ (calls b.cfg).flatMap (regs b), v.id ≠ (loadCudaLibs b).id := by
    intro v hv e
    obtain ⟨a, ha, hv⟩ := List.mem_flatMap.1 hv
    have := staticId_pos (hid a ha v hv).1
    rw [e] at this
    exact absurd this (by show ¬ b.cfg.origin + 1 ≤ b.cfg.origin + 0; omega)
  constructor
  · refine List.pairwise_append.2 ⟨?_, ?_, ?_⟩
    · refine List.pairwise_flatMap.2 ⟨fun a ha => ?_, ?_⟩
      · obtain ⟨x, hx⟩ := staticId_calls hc ha
        exact regs_clash hx
      · refine (calls_nodup hc).imp_of_mem fun {a a'} ha ha' hn v hv w hw hcl => hn ?_
        exact calls_ids hc h2 ha ha' (hid a ha v hv).1 (by rw [hcl.1]; exact (hid a' ha' w hw).1)
    · split <;> simp
    · intro v hv w hw hcl
      rw [hmeta w hw] at hcl
      exact hne v hv hcl.1
  · intro v hv w hw e
    rcases List.mem_append.1 hv with hv | hv <;> rcases List.mem_append.1 hw with hw | hw
    · obtain ⟨a, ha, hv⟩ := List.mem_flatMap.1 hv
      obtain ⟨a', ha', hw⟩ := List.mem_flatMap.1 hw
      obtain ⟨p, q, r⟩ := hid a ha v hv
      obtain ⟨p', q', r'⟩ := hid a' ha' w hw
      have := calls_ids hc h2 ha ha' p (by rw [e]; exact p')
      rw [q, q', r, r', this]
      exact ⟨rfl, rfl⟩
    · rw [hmeta w hw] at e
      exact absurd e (hne v hv)
    · rw [hmeta v hv] at e
      exact absurd e.symm (hne w hw)
    · rw [hmeta v hv, hmeta w hw]
      exact ⟨rfl, rfl⟩

/-- **C87** (the bound is needed): with a maximum dimension of 1 the task that builds the COO Laplacian and a task that prints matrices over
three-dimensional spaces are registered under one identifier for the CPU, and so are the transposed CSR product and another one, and the task that
builds the CSR Laplacian and a third one. -/
theorem c87_ids_clash {b : Build} (h1 : b.cfg.maxDim = 1) {printInfo verbose : Bool} {lines : List Text} {vs : List Variant}
    (h : initLib b printInfo verbose = some (lines, vs)) (t : EntryTy) :
    ∀ p ∈ [(mat64 .cooLaplacian t 1 1 1, mat64 .cooPrint t 1 3 3), (mat64 .csrRmatvec t 1 1 1, mat64 .cooPrint t 1 2 2),
      (mat64 .csrLaplacian t 1 1 1, mat64 .csrPrint t 1 2 2)],
    ∃ v ∈ vs, ∃ w ∈ vs, v.task = .inst p.1 ∧ w.task = .inst p.2 ∧ v.proc = .loc ∧ Clash v w := by
  have hc := complete_of h
  intro p hp
  have hm : p.1 ∈ calls b.cfg ∧ p.2 ∈ calls b.cfg := by
    simp only [mem_calls_iff]
    simp only [List.mem_cons, List.not_mem_nil, or_false] at hp
    rcases hp with rfl | rfl | rfl <;> simp [mat64]
  have he : b.cfg.staticId p.1 = b.cfg.staticId p.2 := by
    simp only [List.mem_cons, List.not_mem_nil, or_false] at hp
    obtain ⟨e, he⟩ : ∃ e, b.cfg.entryTypeIndex t = some e := by
      refine Option.isSome_iff_exists.1 ?_
      rw [entryTypeIndex_isSome]
      cases t
      exacts [hc.1, hc.2.1]
    have h64 : b.cfg.indexOn .longlong = true := hc.2.2
    have key : ∀ (k k' : MatTask) (n : Nat), b.cfg.idTDDDIII k.block e 1 1 1 2 2 2 = b.cfg.idTDDDIII k'.block e 1 n n 2 2 2 →
        b.cfg.staticId (mat64 k t 1 1 1) = b.cfg.staticId (mat64 k' t 1 n n) := by
      intro k k' n hk
      unfold mat64
      rw [staticId_mat.2 ⟨e, he, h64, h64, h64, rfl⟩, staticId_mat.2 ⟨e, he, h64, h64, h64, rfl⟩]
      exact congrArg some hk
    rcases hp with rfl | rfl | rfl <;> refine key _ _ _ ?_ <;>
      simp [Config.idTDDDIII, Config.blockOrigin, Config.blockSize, h1, MatTask.block, Block.val, Nat.mul_comm] <;> omega
  obtain ⟨x, hx⟩ := staticId_calls hc hm.1
  have hy : b.cfg.staticId p.2 = some x := by rw [← he, hx]
  exact ⟨_, (c87_registered h _).2 (Or.inl ⟨p.1, (mem_calls _ _).1 hm.1, x, hx, Or.inl rfl⟩), _,
    (c87_registered h _).2 (Or.inl ⟨p.2, (mem_calls _ _).1 hm.2, x, hy, Or.inl rfl⟩), rfl, rfl, rfl, rfl, rfl⟩

end Verif.Startup
