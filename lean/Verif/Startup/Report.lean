import Verif.Startup.Props

/-! # C87: what `initialize` prints -/
set_option linter.dupNamespace false
namespace Verif.Startup
open Verif.Tasks Verif.Driver Verif.Programs

/-! ## The information -/

theorem cancel_left {p s t : Text} : p ++ s = p ++ t ↔ s = t := ⟨List.append_cancel_left, fun h => by rw [h]⟩

theorem dim_line (n : Nat) {s : Text} (hs : ∃ d ∈ s, d.toNat < 48 ∨ 57 < d.toNat) : showNat n ≠ s := by
  rintro rfl
  obtain ⟨d, hd, h⟩ := hs
  have := showNat_range hd
  omega

/-- The lines for a dimension are none of the other lines. -/
theorem dim_mem (b : Build) (n : Nat) : announcement (.dim n) ∈ infoLines b ↔ 1 ≤ n ∧ n ≤ 3 ∧ n ≤ b.cfg.maxDim := by
  have hp : ∀ {s : Text}, (∃ d ∈ s, d.toNat < 48 ∨ 57 < d.toNat) → announcement (.dim n) ≠ bytes "[LegionSolvers]   * " ++ s :=
    fun hs h => dim_line n hs (List.append_cancel_left h)
  have hh : ∀ {s : Text}, s.take 18 ≠ bytes "[LegionSolvers]   " → announcement (.dim n) ≠ s := by
    rintro s hs rfl
    refine hs ?_
    unfold announcement
    rw [List.take_append_of_le_length (by decide)]
    decide
  have hd : ∀ m, m ≤ 9 → (announcement (.dim n) = bytes "[LegionSolvers]   * " ++ showNat m ↔ n = m) := by
    intro m _
    exact ⟨fun h => showNat_injective (List.append_cancel_left h), fun h => by rw [h]; rfl⟩
  have e1 : announcement (.dim n) ≠ bytes "[LegionSolvers] Initializing library..." := hh (by decide)
  have e2 : announcement (.dim n) ≠ bytes "[LegionSolvers] CUDA support enabled." := hh (by decide)
  have e3 : announcement (.dim n) ≠ bytes "[LegionSolvers] CUDA support disabled." := hh (by decide)
  have e4 : announcement (.dim n) ≠ bytes "[LegionSolvers] Kokkos support enabled." := hh (by decide)
  have e5 : announcement (.dim n) ≠ bytes "[LegionSolvers] Kokkos support disabled." := hh (by decide)
  have e6 : announcement (.dim n) ≠ bytes "[LegionSolvers] Supported entry types:" := hh (by decide)
  have e7 : announcement (.dim n) ≠ bytes "[LegionSolvers] Supported index types:" := hh (by decide)
  have e8 : announcement (.dim n) ≠ bytes "[LegionSolvers] Supported dimensions:" := hh (by decide)
  have f1 : announcement (.dim n) ≠ bytes "[LegionSolvers]   * 32-bit floating-point" := hp (s := bytes "32-bit floating-point") (by decide)
  have f2 : announcement (.dim n) ≠ bytes "[LegionSolvers]   * 64-bit floating-point" := hp (s := bytes "64-bit floating-point") (by decide)
  have f3 : announcement (.dim n) ≠ bytes "[LegionSolvers]   * signed 32-bit integer" := hp (s := bytes "signed 32-bit integer") (by decide)
  have f4 : announcement (.dim n) ≠ bytes "[LegionSolvers]   * unsigned 32-bit integer" := hp (s := bytes "unsigned 32-bit integer") (by decide)
  have f5 : announcement (.dim n) ≠ bytes "[LegionSolvers]   * signed 64-bit integer" := hp (s := bytes "signed 64-bit integer") (by decide)
  have d1 : announcement (.dim n) = bytes "[LegionSolvers]   * 1" ↔ n = 1 := hd 1 (by decide)
  have d2 : announcement (.dim n) = bytes "[LegionSolvers]   * 2" ↔ n = 2 := hd 2 (by decide)
  have d3 : announcement (.dim n) = bytes "[LegionSolvers]   * 3" ↔ n = 3 := hd 3 (by decide)
  have hi : ∀ (p : Prop) [Decidable p] (x y : Text), x ∈ (if p then [y] else []) ↔ p ∧ x = y := by
    intro p _ x y; split <;> simp [*]
  have hs : ∀ (c : Bool) (x y z : Text), x ∈ [if c = true then y else z] ↔ (c = true ∧ x = y) ∨ (c = false ∧ x = z) := by
    intro c x y z; cases c <;> simp
  generalize announcement (.dim n) = x at *
  unfold infoLines
  simp only [List.mem_append, hi, hs, List.mem_singleton, e1, e2, e3, e4, e5, e6, e7, e8, f1, f2, f3, f4, f5, d1, d2, d3, and_false, false_or, or_false]
  omega

theorem info_mem (b : Build) (f : Feature) : announcement f ∈ infoLines b ↔ Enabled b f := by
  have key : ∀ x : Text, (∀ n, n ≤ 3 → x ≠ bytes "[LegionSolvers]   * " ++ showNat n) → (x ∈ infoLines b ↔
      x ∈ infoLines ⟨{ b.cfg with maxDim := 0, origin := 0 }, b.cuda, b.kokkos⟩) := by
    intro x hx
    have d1 : x ≠ bytes "[LegionSolvers]   * 1" := hx 1 (by decide)
    have d2 : x ≠ bytes "[LegionSolvers]   * 2" := hx 2 (by decide)
    have d3 : x ≠ bytes "[LegionSolvers]   * 3" := hx 3 (by decide)
    have hi : ∀ (p : Prop) [Decidable p] (x y : Text), x ∈ (if p then [y] else []) ↔ p ∧ x = y := by
      intro p _ x y; split <;> simp [*]
    unfold infoLines
    simp only [List.mem_append, hi, d1, d2, d3, and_false, or_false]
  have flat : ∀ f : Feature, (∀ n, f ≠ .dim n) → ∀ n, n ≤ 3 → announcement f ≠ bytes "[LegionSolvers]   * " ++ showNat n := by
    intro f hf n hn
    have : n = 0 ∨ n = 1 ∨ n = 2 ∨ n = 3 := by omega
    rcases this with rfl | rfl | rfl | rfl <;> rcases f with _ | _ | _ | _ | n <;> first | decide | skip
    all_goals first | exact absurd rfl (hf _) | (rename_i t; cases t <;> decide)
  have all : ∀ f32 f64 s32 u32 s64 cuda kokkos : Bool,
      (announcement .cuda ∈ infoLines ⟨⟨f32, f64, s32, u32, s64, 0, 0⟩, cuda, kokkos⟩ ↔ cuda = true) ∧
      (announcement .kokkos ∈ infoLines ⟨⟨f32, f64, s32, u32, s64, 0, 0⟩, cuda, kokkos⟩ ↔ kokkos = true) ∧
      (announcement (.entry .float) ∈ infoLines ⟨⟨f32, f64, s32, u32, s64, 0, 0⟩, cuda, kokkos⟩ ↔ f32 = true) ∧
      (announcement (.entry .double) ∈ infoLines ⟨⟨f32, f64, s32, u32, s64, 0, 0⟩, cuda, kokkos⟩ ↔ f64 = true) ∧
      (announcement (.index .int) ∈ infoLines ⟨⟨f32, f64, s32, u32, s64, 0, 0⟩, cuda, kokkos⟩ ↔ s32 = true) ∧
      (announcement (.index .unsigned) ∈ infoLines ⟨⟨f32, f64, s32, u32, s64, 0, 0⟩, cuda, kokkos⟩ ↔ u32 = true) ∧
      (announcement (.index .longlong) ∈ infoLines ⟨⟨f32, f64, s32, u32, s64, 0, 0⟩, cuda, kokkos⟩ ↔ s64 = true) := by decide +kernel
  obtain ⟨a1, a2, a3, a4, a5, a6, a7⟩ := all b.cfg.useF32 b.cfg.useF64 b.cfg.useS32 b.cfg.useU32 b.cfg.useS64 b.cuda b.kokkos
  cases f with
  | cuda => rw [key _ (flat _ (by simp))]; exact a1
  | kokkos => rw [key _ (flat _ (by simp))]; exact a2
  | entry t =>
    rw [key _ (flat _ (by simp))]
    cases t
    exacts [a3, a4]
  | index i =>
    rw [key _ (flat _ (by simp))]
    cases i
    exacts [a5, a6, a7]
  | dim n => exact dim_mem b n

theorem info_each (b : Build) : ∀ t ∈ infoLines b, OneLine t ∧ keep t = true ∧ t.take 17 ≠ bytes "[LegionSolvers] R" := by
  intro t ht
  have hi : ∀ (p : Prop) [Decidable p] (x y : Text), x ∈ (if p then [y] else []) → x = y := by
    intro p _ x y; split <;> simp
  have hs : ∀ (c : Bool) (x y z : Text), x ∈ [if c = true then y else z] → x = y ∨ x = z := by
    intro c x y z hx
    cases c
    · exact Or.inr (List.mem_singleton.1 hx)
    · exact Or.inl (List.mem_singleton.1 hx)
  simp only [infoLines, List.mem_append] at ht
  rcases ht with (((((((((((((ht | ht) | ht) | ht) | ht) | ht) | ht) | ht) | ht) | ht) | ht) | ht) | ht) | ht)
  all_goals first
    | (rcases hs _ _ _ _ ht with rfl | rfl <;> decide)
    | (rw [hi _ _ _ ht]; decide)
    | (rw [List.mem_singleton.1 ht]; decide)

/-! ## The registration lines -/

theorem registerLine_head (v : Variant) : (registerLine v).take 17 = bytes "[LegionSolvers] R" := by
  unfold registerLine
  rw [List.take_append_of_le_length (by decide)]
  decide

theorem announcement_head (f : Feature) : (announcement f).take 17 ≠ bytes "[LegionSolvers] R" := by
  rcases f with _ | _ | t | i | n
  · decide
  · decide
  · cases t <;> decide
  · cases i <;> decide
  · unfold announcement
    rw [List.take_append_of_le_length (by decide)]
    decide

/-- **C87** (information): `initialize(true, …)` announces exactly the features of the build: CUDA, Kokkos, the entry types, the coordinate types,
the dimensions (at most three, whatever the maximum is set to). -/
theorem c87_info {b : Build} {verbose : Bool} {lines : List Text} {vs : List Variant} (h : initLib b true verbose = some (lines, vs)) (f : Feature) :
    announcement f ∈ lines ↔ Enabled b f := by
  rw [initLib_eq (complete_of h)] at h
  cases h
  rw [← info_mem, List.mem_append]
  refine ⟨fun h => h.elim id fun h => ?_, Or.inl⟩
  cases verbose with
  | false => cases h
  | true =>
    obtain ⟨v, -, e⟩ := List.mem_map.1 h
    exact absurd (by rw [← e]; exact registerLine_head v) (announcement_head f)

/-- **C87** (the information is true of vectors): the element-wise operations on vectors with an entry type, over index spaces with a coordinate
type and a dimension, are registered exactly if all three are announced. -/
theorem c87_truthful {b : Build} {verbose : Bool} {lines : List Text} {vs : List Variant} (h : initLib b true verbose = some (lines, vs))
    (k : VecTask) (t : EntryTy) (n : Nat) (i : IndexTy) :
    (∃ v ∈ vs, v.task = .inst (.vec k t n i)) ↔
    announcement (.entry t) ∈ lines ∧ announcement (.index i) ∈ lines ∧ announcement (.dim n) ∈ lines := by
  rw [c87_info h, c87_info h, c87_info h]
  have e := mem_calls_iff b.cfg (.vec k t n i)
  dsimp only at e
  rw [show Enabled b (.entry t) ∧ Enabled b (.index i) ∧ Enabled b (.dim n) ↔ Inst.vec k t n i ∈ calls b.cfg from e.symm]
  constructor
  · rintro ⟨v, hv, ht⟩
    rcases (c87_registered h v).1 hv with ⟨a, ha, x, hx, rfl | ⟨-, -, rfl⟩⟩ | ⟨-, rfl⟩
    · cases ht; exact (mem_calls _ _).2 ha
    · cases ht; exact (mem_calls _ _).2 ha
    · cases ht
  · intro ha
    obtain ⟨x, hx⟩ := staticId_calls (complete_of h) ha
    exact ⟨_, (c87_registered h _).2 (Or.inl ⟨_, (mem_calls _ _).1 ha, x, hx, Or.inl rfl⟩), rfl⟩

/-- **C87** (but not of matrices): whatever is announced, the matrix tasks that are registered have 64-bit coordinates, and products and builders are
registered for one-dimensional spaces only. -/
theorem c87_matrices {b : Build} {printInfo verbose : Bool} {lines : List Text} {vs : List Variant}
    (h : initLib b printInfo verbose = some (lines, vs)) {v : Variant} (hv : v ∈ vs) {k : MatTask} {t : EntryTy} {n₁ n₂ n₃ : Nat} {i₁ i₂ i₃ : IndexTy}
    (ht : v.task = .inst (.mat k t n₁ n₂ n₃ i₁ i₂ i₃)) :
    (i₁ = .longlong ∧ i₂ = .longlong ∧ i₃ = .longlong) ∧ (k ≠ .cooPrint → k ≠ .csrPrint → n₁ = 1 ∧ n₂ = 1 ∧ n₃ = 1) := by
  have ha : Inst.mat k t n₁ n₂ n₃ i₁ i₂ i₃ ∈ calls b.cfg := by
    rcases (c87_registered h v).1 hv with ⟨a, ha, x, hx, rfl | ⟨-, -, rfl⟩⟩ | ⟨-, rfl⟩
    · cases ht; exact (mem_calls _ _).2 ha
    · cases ht; exact (mem_calls _ _).2 ha
    · cases ht
  rw [mem_calls_iff] at ha
  obtain ⟨h1, h2, h3, h4, h5, h6⟩ := ha
  refine ⟨h1, fun hk hk' => ?_⟩
  rcases h6 with h6 | h6 | h6
  · exact ⟨h2, by omega, h6⟩
  · exact absurd h6 hk
  · exact absurd h6 hk'

/-- **C87** (nor of GPUs): with Kokkos nothing is registered for GPUs, although CUDA support is announced. -/
theorem c87_kokkos {b : Build} (hk : b.kokkos = true) {printInfo verbose : Bool} {lines : List Text} {vs : List Variant}
    (h : initLib b printInfo verbose = some (lines, vs)) : ∀ v ∈ vs, v.proc = .loc := by
  intro v hv
  have hg : ¬ GpuBuild b := fun hg => by rw [hg.2] at hk; cases hk
  rcases (c87_registered h v).1 hv with ⟨a, ha, x, hx, rfl | ⟨g, -, rfl⟩⟩ | ⟨g, rfl⟩
  · rfl
  · exact absurd g hg
  · exact absurd g hg

theorem name_plain {b : Build} {printInfo verbose : Bool} {lines : List Text} {vs : List Variant} (h : initLib b printInfo verbose = some (lines, vs))
    {v : Variant} (hv : v ∈ vs) : ∀ d ∈ v.name, d = 95 ∨ (48 ≤ d.toNat ∧ d.toNat ≤ 57) ∨ (97 ≤ d.toNat ∧ d.toNat ≤ 122) := by
  rcases (c87_registered h v).1 hv with ⟨a, ha, x, hx, rfl | ⟨-, -, rfl⟩⟩ | ⟨-, rfl⟩
  · exact taskName_bytes a
  · exact taskName_bytes a
  · show ∀ d ∈ bytes "load_cuda_libs", _
    decide

theorem line_parts {m n : Text} {x y : Nat} (hm : (32 : UInt8) ∉ m) (hn : (32 : UInt8) ∉ n)
    (h : bytes "[LegionSolvers] Registering task " ++ (m ++ (bytes " with ID " ++ (showNat x ++ bytes "."))) =
      bytes "[LegionSolvers] Registering task " ++ (n ++ (bytes " with ID " ++ (showNat y ++ bytes ".")))) : m = n ∧ x = y := by
  have h := List.append_cancel_left h
  have e : bytes " with ID " = 32 :: bytes "with ID " := by decide
  rw [e, List.cons_append, List.cons_append] at h
  obtain ⟨e1, e2⟩ := split_first hm hn h
  exact ⟨e1, showNat_injective (List.append_cancel_right (List.append_cancel_left e2))⟩

theorem name_no_space {t : Text} (h : ∀ d ∈ t, d = 95 ∨ (48 ≤ d.toNat ∧ d.toNat ≤ 57) ∨ (97 ≤ d.toNat ∧ d.toNat ≤ 122)) :
    (32 : UInt8) ∉ t ∧ OneLine t := by
  have e1 : (32 : UInt8).toNat = 32 := rfl
  have e2 : (10 : UInt8).toNat = 10 := rfl
  have e3 : (13 : UInt8).toNat = 13 := rfl
  refine ⟨fun hd => ?_, fun hd => ?_, fun hd => ?_⟩ <;> rcases h _ hd with h | h | h <;> first | omega | exact absurd h (by decide)

theorem oneDigit_registered {c : Config} {a : Inst} (h : a ∈ calls c) : OneDigit a := by
  rw [mem_calls_iff] at h
  cases a with
  | mat k t n₁ n₂ n₃ => obtain ⟨-, h1, h2, h3, h4, -⟩ := h; exact ⟨by omega, by omega, by omega⟩
  | _ => trivial

/-- **C87** (names of registered tasks): two registered variants with one name belong to one task; two builds never use one name for two tasks. -/
theorem c87_names_registered {b b' : Build} {p q p' q' : Bool} {lines lines' : List Text} {vs vs' : List Variant}
    (h : initLib b p q = some (lines, vs)) (h' : initLib b' p' q' = some (lines', vs')) {v w : Variant} (hv : v ∈ vs) (hw : w ∈ vs')
    (e : v.name = w.name) : v.task = w.task := by
  have key : ∀ {b : Build} {p q : Bool} {lines : List Text} {vs : List Variant}, initLib b p q = some (lines, vs) → ∀ v ∈ vs,
      (∃ a, OneDigit a ∧ v.task = .inst a ∧ v.name = taskName a) ∨ (v.task = .loadCudaLibs ∧ v.name = loadCudaLibsName) := by
    intro b p q lines vs h v hv
    rcases (c87_registered h v).1 hv with ⟨a, ha, x, hx, rfl | ⟨-, -, rfl⟩⟩ | ⟨-, rfl⟩
    · exact Or.inl ⟨a, oneDigit_registered ((mem_calls _ _).2 ha), rfl, rfl⟩
    · exact Or.inl ⟨a, oneDigit_registered ((mem_calls _ _).2 ha), rfl, rfl⟩
    · exact Or.inr ⟨rfl, rfl⟩
  rcases key h v hv with ⟨a, ha, ht, hn⟩ | ⟨ht, hn⟩ <;> rcases key h' w hw with ⟨a', ha', ht', hn'⟩ | ⟨ht', hn'⟩
  · rw [ht, ht', c87_names ha ha' (by rw [← hn, ← hn', e])]
  · exact absurd (by rw [← hn, e, hn']) (c87_meta_name a)
  · exact absurd (by rw [← hn', ← e, hn]) (c87_meta_name a')
  · rw [ht, ht']

/-- **C87** (the log): in verbose mode there is one line for every registered variant, in order, after the information; each is one line of text, and
tells the task and its identifier: the text printed by two calls (of two builds) is the same only if they registered the same tasks with the
same names and the same identifiers in the same order. -/
theorem c87_log {b b' : Build} {printInfo : Bool} {lines lines' : List Text} {vs vs' : List Variant}
    (h : initLib b printInfo true = some (lines, vs)) (h' : initLib b' printInfo true = some (lines', vs')) :
    lines = (if printInfo then infoLines b else []) ++ vs.map registerLine ∧ (∀ t ∈ lines, OneLine t) ∧
    (inLines lines = inLines lines' → vs.map (fun v => (v.task, v.name, v.id)) = vs'.map fun v => (v.task, v.name, v.id)) := by
  have shape : ∀ {b : Build} {lines : List Text} {vs : List Variant}, initLib b printInfo true = some (lines, vs) →
      lines = (if printInfo then infoLines b else []) ++ vs.map registerLine := by
    intro b lines vs h
    rw [initLib_eq (complete_of h)] at h
    cases h
    rfl
  have one : ∀ {b : Build} {lines : List Text} {vs : List Variant}, initLib b printInfo true = some (lines, vs) → ∀ t ∈ lines, OneLine t := by
    intro b lines vs h t ht
    rw [shape h] at ht
    rcases List.mem_append.1 ht with ht | ht
    · cases printInfo with
      | false => cases ht
      | true =>
        exact (info_each b t ht).1
    · obtain ⟨v, hv, rfl⟩ := List.mem_map.1 ht
      exact oneLine_append.2 ⟨by decide, oneLine_append.2 ⟨(name_no_space (name_plain h hv)).2,
        oneLine_append.2 ⟨by decide, oneLine_append.2 ⟨oneLine_showNat _, by decide⟩⟩⟩⟩
  refine ⟨shape h, one h, fun e => ?_⟩
  have el : lines = lines' := by rw [← splitlines_inLines lines (one h), ← splitlines_inLines lines' (one h'), e]
  have keep : ∀ {b : Build} {lines : List Text} {vs : List Variant}, initLib b printInfo true = some (lines, vs) →
      lines.filter (fun t => t.take 17 = bytes "[LegionSolvers] R") = vs.map registerLine := by
    intro b lines vs h
    have e1 : (if printInfo then infoLines b else []).filter (fun t => t.take 17 = bytes "[LegionSolvers] R") = [] := by
      refine List.filter_eq_nil_iff.2 ?_
      intro t ht
      cases printInfo with
      | false => cases ht
      | true =>
        simpa using (info_each b t ht).2.2
    have e2 : (vs.map registerLine).filter (fun t => t.take 17 = bytes "[LegionSolvers] R") = vs.map registerLine := by
      refine List.filter_eq_self.2 ?_
      intro t ht
      obtain ⟨v, -, rfl⟩ := List.mem_map.1 ht
      exact decide_eq_true (registerLine_head v)
    rw [shape h, List.filter_append, e1, e2, List.nil_append]
  have em : vs.map registerLine = vs'.map registerLine := by rw [← keep h, ← keep h', el]
  have go : ∀ l l' : List Variant, (∀ v ∈ l, v ∈ vs) → (∀ v ∈ l', v ∈ vs') → l.map registerLine = l'.map registerLine →
      l.map (fun v => (v.task, v.name, v.id)) = l'.map fun v => (v.task, v.name, v.id) := by
    intro l
    induction l with
    | nil => intro l' _ _ e; cases l' with
      | nil => rfl
      | cons w l' => cases e
    | cons v l ih => intro l' hl hl' e; cases l' with
      | nil => cases e
      | cons w l' =>
        rw [List.map_cons, List.map_cons] at e ⊢
        obtain ⟨e1, e2⟩ := List.cons.inj e
        have hv := hl v (List.mem_cons_self ..)
        have hw := hl' w (List.mem_cons_self ..)
        obtain ⟨p1, p2⟩ := line_parts (name_no_space (name_plain h hv)).1 (name_no_space (name_plain h' hw)).1 e1
        rw [ih l' (fun x hx => hl x (List.mem_cons_of_mem _ hx)) (fun x hx => hl' x (List.mem_cons_of_mem _ hx)) e2,
          c87_names_registered h h' hv hw p1, p1, p2]
  exact go vs vs' (fun _ h => h) (fun _ h => h) em

/-! ## The test driver -/

theorem splitlines_prefix (l : List Text) (h : ∀ t ∈ l, OneLine t) (rest : Text) : splitlines (inLines l ++ rest) = l ++ splitlines rest := by
  induction l with
  | nil => rfl
  | cons t l ih =>
    have ih := ih fun x hx => h x (List.mem_cons_of_mem _ hx)
    unfold splitlines inLines at *
    rw [List.flatMap_cons, List.append_assoc, List.append_assoc, List.singleton_append, splitFrom_line t [] _ (h t (List.mem_cons_self ..)), ih]
    simp

theorem registerLine_dropped (v : Variant) : keep (registerLine v) = false := by
  rw [keep_iff]
  refine Or.inl ⟨32 :: (v.name ++ (bytes " with ID " ++ (showNat v.id ++ bytes "."))), ?_⟩
  unfold registerLine
  have e : bytes "[LegionSolvers] Registering task " = bytes "[LegionSolvers] Registering task" ++ [32] := by decide
  rw [e]
  simp

/-- **C87** (silence): called as the test programs call it (`initialize(false, false)`), nothing is printed. -/
theorem c87_silent {b : Build} {lines : List Text} {vs : List Variant} (h : initLib b false false = some (lines, vs)) : lines = [] := by
  rw [initLib_eq (complete_of h)] at h
  cases h
  rfl

/-- **C87** (the log and the tests): in front of the output of any program, the log of the registrations changes nothing that the test driver looks
at, while the information is always seen by it. -/
theorem c87_driver {b : Build} {printInfo verbose : Bool} {lines : List Text} {vs : List Variant}
    (h : initLib b printInfo verbose = some (lines, vs)) (out err : Text) (code : Int) :
    shown ⟨inLines lines ++ out, err, code⟩ = (if printInfo then infoLines b else []) ++ shown ⟨out, err, code⟩ := by
  have hv : ∀ t ∈ (if verbose then vs.map registerLine else []), OneLine t ∧ keep t = false := by
    intro t ht
    cases verbose with
    | false => cases ht
    | true =>
      obtain ⟨v, hv, rfl⟩ := List.mem_map.1 ht
      exact ⟨oneLine_append.2 ⟨by decide, oneLine_append.2 ⟨(name_no_space (name_plain h hv)).2,
        oneLine_append.2 ⟨by decide, oneLine_append.2 ⟨oneLine_showNat _, by decide⟩⟩⟩⟩, registerLine_dropped v⟩
  have hi : ∀ t ∈ (if printInfo then infoLines b else []), OneLine t ∧ keep t = true := by
    intro t ht
    cases printInfo with
    | false => cases ht
    | true => exact ⟨(info_each b t ht).1, (info_each b t ht).2.1⟩
  have el : lines = (if printInfo then infoLines b else []) ++ (if verbose then vs.map registerLine else []) := by
    rw [initLib_eq (complete_of h)] at h
    cases h
    rfl
  have e1 : (if verbose then vs.map registerLine else []).filter keep = [] :=
    List.filter_eq_nil_iff.2 fun t ht => by rw [(hv t ht).2]; simp
  unfold shown
  rw [el, splitlines_prefix _ (fun t ht => (List.mem_append.1 ht).elim (fun ht => (hi t ht).1) (fun ht => (hv t ht).1)),
    List.filter_append, List.filter_append, List.filter_eq_self.2 (fun t ht => (hi t ht).2), e1, List.append_nil]

end Verif.Startup
