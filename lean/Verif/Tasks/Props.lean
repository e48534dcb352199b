import Verif.Tasks.Lemmas

/-! # C15–C20: identifiers, dispatch, registration, mapper, sharding, flags -/
namespace Verif.Tasks

/-- The dimensions of an instantiation are between 1 and the library's maximum. -/
def Inst.DimsOk (d : Nat) : Inst → Prop
  | .scalar _ _ => True
  | .printIndex n _ => 1 ≤ n ∧ n ≤ d
  | .vec _ _ n _ => 1 ≤ n ∧ n ≤ d
  | .mat _ _ n₁ n₂ n₃ _ _ _ => (1 ≤ n₁ ∧ n₁ ≤ d) ∧ (1 ≤ n₂ ∧ n₂ ≤ d) ∧ (1 ≤ n₃ ∧ n₃ ≤ d)

/-- Block and offset of an identifier (helper): the offset stays inside the block. -/
theorem staticId_off {c : Config} {a : Inst} {x : Nat} (hd : a.DimsOk c.maxDim) (hm : 1 ≤ c.maxDim)
    (h : c.staticId a = some x) : ∃ o, o < c.blockSize ∧ x = c.blockOrigin a.block + o := by
  cases a with
  | scalar k t =>
    obtain ⟨e, he, rfl⟩ := staticId_scalar.1 h
    exact ⟨_, offT_lt (entryTypeIndex_lt he) hm, rfl⟩
  | printIndex n i =>
    obtain ⟨-, rfl⟩ := staticId_printIndex.1 h
    exact ⟨_, offDI_lt hd.1 hd.2 (i := i.num) (by have := i.num_lt; omega), idDI_off _ _ _ _⟩
  | vec k t n i =>
    obtain ⟨e, he, -, rfl⟩ := staticId_vec.1 h
    exact ⟨_, offTDI_lt (entryTypeIndex_lt he) hd.1 hd.2 (i := i.num) (by have := i.num_lt; omega), idTDI_off _ _ _ _ _⟩
  | mat k t n₁ n₂ n₃ i₁ i₂ i₃ =>
    obtain ⟨e, he, -, -, -, rfl⟩ := staticId_mat.1 h
    obtain ⟨⟨a1, a2⟩, ⟨b1, b2⟩, ⟨c1, c2⟩⟩ := hd
    exact ⟨_, offTDDDIII_lt (i₁ := i₁.num) (i₂ := i₂.num) (i₃ := i₃.num) (entryTypeIndex_lt he) a1 a2 b1 b2 c1 c2
      (by have := i₁.num_lt; omega) (by have := i₂.num_lt; omega) (by have := i₃.num_lt; omega),
      idTDDDIII_off _ _ _ _ _ _ _ _ _⟩

/-- **C15** (injectivity): for every library configuration, two task instantiations with dimensions up to the maximum
that get the same identifier are the same instantiation. -/
theorem c15_ids_injective (c : Config) (a b : Inst) (hm : 1 ≤ c.maxDim) (ha : a.DimsOk c.maxDim) (hb : b.DimsOk c.maxDim)
    (x : Nat) (h1 : c.staticId a = some x) (h2 : c.staticId b = some x) : a = b := by
  obtain ⟨o, ho, e⟩ := staticId_off ha hm h1
  obtain ⟨o', ho', e'⟩ := staticId_off hb hm h2
  have hblk := (block_off ho ho' (e.symm.trans e')).1
  clear e e' ho ho' o o'
  cases a with
  | scalar k t =>
    cases b with
    | scalar k' t' =>
      have hk : k = k' := by
        revert hblk; unfold Inst.block ScalarTask.block; cases k <;> cases k' <;> simp
      subst hk
      obtain ⟨e, ht, h1⟩ := staticId_scalar.1 h1
      obtain ⟨e', ht', h2⟩ := staticId_scalar.1 h2
      unfold Config.idT at h1 h2
      have : t = t' := entryTypeIndex_inj ht (by rw [ht']; congr 1; omega)
      rw [this]
    | printIndex => revert hblk; unfold Inst.block ScalarTask.block; cases k <;> simp
    | vec k' => revert hblk; unfold Inst.block ScalarTask.block VecTask.block; cases k <;> cases k' <;> simp
    | mat k' => revert hblk; unfold Inst.block ScalarTask.block MatTask.block; cases k <;> cases k' <;> simp
  | printIndex n i =>
    cases b with
    | scalar k' => revert hblk; unfold Inst.block ScalarTask.block; cases k' <;> simp
    | printIndex n' i' =>
      obtain ⟨-, h1⟩ := staticId_printIndex.1 h1
      obtain ⟨-, h2⟩ := staticId_printIndex.1 h2
      rw [idDI_off] at h1 h2
      obtain ⟨a1, a2⟩ := ha
      obtain ⟨b1, b2⟩ := hb
      have := mix (a := n - 1) (a' := n' - 1) (m := c.maxDim) (b := i.num) (b' := i'.num) (by omega) (by omega) (by omega)
      rw [IndexTy.num_inj this.2]
      have : n = n' := by omega
      rw [this]
    | vec k' => revert hblk; unfold Inst.block VecTask.block; cases k' <;> simp
    | mat k' => revert hblk; unfold Inst.block MatTask.block; cases k' <;> simp
  | vec k t n i =>
    cases b with
    | scalar k' => revert hblk; unfold Inst.block ScalarTask.block VecTask.block; cases k <;> cases k' <;> simp
    | printIndex => revert hblk; unfold Inst.block VecTask.block; cases k <;> simp
    | vec k' t' n' i' =>
      have hk : k = k' := by
        revert hblk; unfold Inst.block VecTask.block; cases k <;> cases k' <;> simp
      subst hk
      obtain ⟨e, ht, -, h1⟩ := staticId_vec.1 h1
      obtain ⟨e', ht', -, h2⟩ := staticId_vec.1 h2
      rw [idTDI_off] at h1 h2
      obtain ⟨a1, a2⟩ := ha
      obtain ⟨b1, b2⟩ := hb
      have e1 := mix (entryTypeIndex_lt ht) (entryTypeIndex_lt ht') (Nat.add_left_cancel (h1.symm.trans h2))
      have e2 := mix (by omega) (by omega) e1.2
      have e3 : t = t' := entryTypeIndex_inj ht (by rw [ht', e1.1])
      have e4 : n = n' := by omega
      rw [IndexTy.num_inj e2.2, e3, e4]
    | mat k' => revert hblk; unfold Inst.block VecTask.block MatTask.block; cases k <;> cases k' <;> simp
  | mat k t n₁ n₂ n₃ i₁ i₂ i₃ =>
    cases b with
    | scalar k' => revert hblk; unfold Inst.block ScalarTask.block MatTask.block; cases k <;> cases k' <;> simp
    | printIndex => revert hblk; unfold Inst.block MatTask.block; cases k <;> simp
    | vec k' => revert hblk; unfold Inst.block VecTask.block MatTask.block; cases k <;> cases k' <;> simp
    | mat k' t' n₁' n₂' n₃' i₁' i₂' i₃' =>
      have hk : k = k' := by
        revert hblk; unfold Inst.block MatTask.block; cases k <;> cases k' <;> simp
      subst hk
      obtain ⟨e, ht, -, -, -, h1⟩ := staticId_mat.1 h1
      obtain ⟨e', ht', -, -, -, h2⟩ := staticId_mat.1 h2
      rw [idTDDDIII_off] at h1 h2
      obtain ⟨⟨a1, a2⟩, ⟨b1, b2⟩, ⟨c1, c2⟩⟩ := ha
      obtain ⟨⟨a1', a2'⟩, ⟨b1', b2'⟩, ⟨c1', c2'⟩⟩ := hb
      have lt4 : ∀ i : IndexTy, i.num < c.numIndexTypes := fun i => by
        rw [numIndexTypes_eq]; have := i.num_lt; omega
      have e1 := mix (entryTypeIndex_lt ht) (entryTypeIndex_lt ht') (Nat.add_left_cancel (h1.symm.trans h2))
      have e2 := mix (lt4 _) (lt4 _) e1.2
      have e3 := mix (lt4 _) (lt4 _) e2.2
      have e4 := mix (lt4 _) (lt4 _) e3.2
      have e5 := mix (by omega) (by omega) e4.2
      have e6 := mix (by omega) (by omega) e5.2
      have et : t = t' := entryTypeIndex_inj ht (by rw [ht', e1.1])
      have en1 : n₁ = n₁' := by omega
      have en2 : n₂ = n₂' := by omega
      have en3 : n₃ = n₃' := by omega
      rw [et, en1, en2, en3, IndexTy.num_inj e2.1, IndexTy.num_inj e3.1, IndexTy.num_inj e4.1]

/-- **C15** (range): every identifier lies in the reserved range directly above the meta tasks, in the sub-range of its
own kind, and is not the meta task's identifier. -/
theorem c15_ids_in_range (c : Config) (a : Inst) (hm : 1 ≤ c.maxDim) (ha : a.DimsOk c.maxDim) (x : Nat)
    (h : c.staticId a = some x) :
    c.origin + 1 ≤ x ∧ x < c.origin + 1 + 28 * c.blockSize ∧ x ≠ c.loadCudaLibsId := by
  obtain ⟨o, ho, e⟩ := staticId_off ha hm h
  unfold Config.blockOrigin numMetaTaskIds at e
  have hb : c.blockSize * a.block.val + c.blockSize ≤ 28 * c.blockSize := by
    have := Nat.mul_le_mul_left c.blockSize (Nat.succ_le_of_lt a.block.val_lt)
    rw [Nat.mul_succ] at this
    omega
  unfold Config.loadCudaLibsId
  refine ⟨by omega, by omega, by omega⟩

/-- **C15** (machine arithmetic): with the committed options the whole range fits in the 32-bit identifier type, so
computing modulo 2^32 changes no identifier; the whole library occupies identifiers 500000 … 645152. -/
theorem c15_default_fits_32_bits (a : Inst) (ha : a.DimsOk 3) (x : Nat) (h : Config.default.staticId a = some x) :
    500001 ≤ x ∧ x < 645153 ∧ x % 2 ^ 32 = x := by
  have := c15_ids_in_range Config.default a (by decide) ha x h
  have hb : Config.default.blockSize = 5184 := by decide
  have ho : Config.default.origin = 500000 := rfl
  rw [hb, ho] at this
  refine ⟨by omega, by omega, Nat.mod_eq_of_lt (by omega)⟩

/-- Non-vacuity: two concrete different instantiations of the same kind and their (different) identifiers. -/
example : Config.default.staticId (.mat .csrMatvec .double 1 2 2 .longlong .int .unsigned) = some 594181 ∧
    Config.default.staticId (.mat .csrMatvec .double 1 2 3 .longlong .int .unsigned) = some 594373 ∧
    (Inst.mat .csrMatvec .double 1 2 2 .longlong .int .unsigned).DimsOk Config.default.maxDim := by
  refine ⟨by decide, by decide, by decide, by decide, by decide⟩

theorem registered_default_nodup : Config.default.registered.Nodup := by
  decide +kernel

/-- **C15** (committed options): initialisation registers no task twice, all registered instantiations have an
identifier, no two registered tasks share one, and no identifier is handed to the runtime twice. -/
theorem c15_default_no_double_registration :
    Config.default.registered.Nodup ∧ Config.default.registeredIds.Nodup ∧
    (∀ a ∈ Config.default.registered, (Config.default.staticId a).isSome) ∧
    (∀ a ∈ Config.default.registered, ∀ b ∈ Config.default.registered,
      Config.default.staticId a = Config.default.staticId b → a = b) := by
  have h0 : Config.default.registered.Nodup := registered_default_nodup
  have h1 : ∀ a ∈ Config.default.registered, (Config.default.staticId a).isSome := by decide +kernel
  have h2 : ∀ a ∈ Config.default.registered, a.DimsOk 3 := by
    have : ∀ a ∈ Config.default.registered, (match a with
        | .scalar _ _ => true
        | .printIndex n _ => decide (1 ≤ n ∧ n ≤ 3)
        | .vec _ _ n _ => decide (1 ≤ n ∧ n ≤ 3)
        | .mat _ _ n₁ n₂ n₃ _ _ _ => decide ((1 ≤ n₁ ∧ n₁ ≤ 3) ∧ (1 ≤ n₂ ∧ n₂ ≤ 3) ∧ (1 ≤ n₃ ∧ n₃ ≤ 3))) = true := by
      decide +kernel
    intro a ha
    have h := this a ha
    clear this ha
    cases a with
    | scalar => trivial
    | printIndex n i => simpa [Inst.DimsOk] using h
    | vec k t n i => simpa [Inst.DimsOk] using h
    | mat k t n₁ n₂ n₃ i₁ i₂ i₃ => simpa [Inst.DimsOk] using h
  have h3 : ∀ a ∈ Config.default.registered, ∀ b ∈ Config.default.registered,
      Config.default.staticId a = Config.default.staticId b → a = b := by
    intro a ha b hb e
    obtain ⟨x, hx⟩ := Option.isSome_iff_exists.1 (h1 a ha)
    exact c15_ids_injective Config.default a b (by decide) (h2 a ha) (h2 b hb) x hx (e ▸ hx)
  refine ⟨h0, ?_, h1, h3⟩
  unfold Config.registeredIds
  rw [List.nodup_iff_pairwise_ne, List.pairwise_map]
  exact List.Pairwise.imp_of_mem (fun {a b} ha hb hne e => hne (h3 a ha b hb e)) (List.nodup_iff_pairwise_ne.1 h0)

/-! ## C16 -/

/-- **C16**: the run-time identifier for index spaces with the given dimensions and (enabled) coordinate types is the
compile-time identifier of the instantiation for exactly these dimensions and types … -/
theorem c16_dynamic_is_static (c : Config) (t : EntryTy) :
    (∀ n i, c.indexOn i → some (c.dynDI .printIndex (legionSpace n i)) = c.staticId (.printIndex n i)) ∧
    (∀ k n i, c.indexOn i → c.dynTDI (VecTask.block k) t (legionSpace n i) = c.staticId (.vec k t n i)) ∧
    (∀ k n₁ n₂ n₃ i₁ i₂ i₃, c.indexOn i₁ → c.indexOn i₂ → c.indexOn i₃ →
      c.dynTDDDIII (MatTask.block k) t (legionSpace n₁ i₁) (legionSpace n₂ i₂) (legionSpace n₃ i₃) =
        c.staticId (.mat k t n₁ n₂ n₃ i₁ i₂ i₃)) := by
  refine ⟨?_, ?_, ?_⟩
  · intro n i hi
    rw [eq_comm, staticId_printIndex]
    refine ⟨hi, ?_⟩
    show c.idDI .printIndex n (legionSpace n i).code = _
    rw [legionSpace_code]
  · intro k n i hi
    ext x
    rw [dynTDI_eq, staticId_vec]
    simp [hi]
  · intro k n₁ n₂ n₃ i₁ i₂ i₃ h1 h2 h3
    ext x
    rw [dynTDDDIII_eq, staticId_mat]
    simp [h1, h2, h3]

/-- **C16**: … and of no other instantiation: whichever task is registered under the identifier computed for a vector
operation is the one for the vector's own dimension, coordinate type and entry type.  (Dimension up to the maximum; see
`c16_violated_above_max_dim`.) -/
theorem c16_vector_dispatch_exact_partial (c : Config) (k : VecTask) (t : EntryTy) (n : Nat) (i : IndexTy)
    (hn : 1 ≤ n) (hn' : n ≤ c.maxDim) (hi : c.indexOn i) (b : Inst) (hb : b.DimsOk c.maxDim) (x : Nat)
    (h : c.dynTDI k.block t (legionSpace n i) = some x) (hx : c.staticId b = some x) : b = .vec k t n i := by
  rw [(c16_dynamic_is_static c t).2.1 k n i hi] at h
  exact c15_ids_injective c b (.vec k t n i) (by omega) hb ⟨hn, hn'⟩ x hx h

/-- **C16** for matrices. -/
theorem c16_matrix_dispatch_exact_partial (c : Config) (k : MatTask) (t : EntryTy) (n₁ n₂ n₃ : Nat) (i₁ i₂ i₃ : IndexTy)
    (hd : (Inst.mat k t n₁ n₂ n₃ i₁ i₂ i₃).DimsOk c.maxDim) (h1 : c.indexOn i₁) (h2 : c.indexOn i₂) (h3 : c.indexOn i₃)
    (b : Inst) (hb : b.DimsOk c.maxDim) (x : Nat)
    (h : c.dynTDDDIII k.block t (legionSpace n₁ i₁) (legionSpace n₂ i₂) (legionSpace n₃ i₃) = some x)
    (hx : c.staticId b = some x) : b = .mat k t n₁ n₂ n₃ i₁ i₂ i₃ := by
  rw [(c16_dynamic_is_static c t).2.2 k n₁ n₂ n₃ i₁ i₂ i₃ h1 h2 h3] at h
  exact c15_ids_injective c b _ (by have := hd.1; omega) hb hd x hx h

/-- **C16**, disabled coordinate types: thanks to the `void` placeholders, data of a coordinate type that is not enabled
never hits a task registered for another type. -/
theorem c16_disabled_type_hits_nothing (c : Config) (k : VecTask) (t : EntryTy) (n : Nat) (i : IndexTy)
    (hn : 1 ≤ n) (hn' : n ≤ c.maxDim) (hi : c.indexOn i = false) (b : Inst) (hb : b.DimsOk c.maxDim) (x : Nat)
    (h : c.dynTDI k.block t (legionSpace n i) = some x) : c.staticId b ≠ some x := by
  intro hx
  -- enable the type: the position of nothing else changes, so `b` keeps its identifier
  let c' : Config := match i with
    | .int => { c with useS32 := true } | .unsigned => { c with useU32 := true } | .longlong => { c with useS64 := true }
  have hon : c'.indexOn i = true := by cases i <;> rfl
  have hmono : ∀ j, c.indexOn j = true → c'.indexOn j = true := by
    intro j hj; cases i <;> cases j <;> first | exact hj | rfl
  have hne : c'.numEntryTypes = c.numEntryTypes := by cases i <;> rfl
  have hmd : c'.maxDim = c.maxDim := by cases i <;> rfl
  have hor : c'.origin = c.origin := by cases i <;> rfl
  have hent : ∀ s, c'.entryTypeIndex s = c.entryTypeIndex s := by intro s; cases i <;> rfl
  have hbo : ∀ b, c'.blockOrigin b = c.blockOrigin b := by
    intro b; unfold Config.blockOrigin Config.blockSize; rw [hne, hmd, hor]; rfl
  have hx' : c'.staticId b = some x := by
    cases b with
    | scalar k t =>
      obtain ⟨e, he, hx⟩ := staticId_scalar.1 hx
      refine staticId_scalar.2 ⟨e, by rw [hent, he], ?_⟩
      unfold Config.idT at *; rw [hbo, hx]
    | printIndex n j =>
      obtain ⟨hj, hx⟩ := staticId_printIndex.1 hx
      refine staticId_printIndex.2 ⟨hmono j hj, ?_⟩
      unfold Config.idDI at *; rw [hbo, hmd, hx]
    | vec k t n j =>
      obtain ⟨e, he, hj, hx⟩ := staticId_vec.1 hx
      refine staticId_vec.2 ⟨e, by rw [hent, he], hmono j hj, ?_⟩
      unfold Config.idTDI at *; rw [hbo, hmd, hne, hx]
    | mat k t n₁ n₂ n₃ i₁ i₂ i₃ =>
      obtain ⟨e, he, h1, h2, h3, hx⟩ := staticId_mat.1 hx
      refine staticId_mat.2 ⟨e, by rw [hent, he], hmono _ h1, hmono _ h2, hmono _ h3, ?_⟩
      unfold Config.idTDDDIII at *
      rw [hbo, hmd, hne, hx]; rfl
  have h' : c'.dynTDI k.block t (legionSpace n i) = some x := by
    obtain ⟨e, he, hx⟩ := dynTDI_eq.1 h
    refine dynTDI_eq.2 ⟨e, by rw [hent, he], ?_⟩
    unfold Config.idTDI at *; rw [hbo, hmd, hne, hx]
  have heq := c16_vector_dispatch_exact_partial c' k t n i hn (by omega) hon b (by rw [hmd]; exact hb) x h' hx'
  subst heq
  obtain ⟨-, -, h2, -⟩ := staticId_vec.1 hx
  rw [hi] at h2
  cases h2

/-- **C16 is violated above the library's maximum dimension** (Legion may be built with a larger `LEGION_MAX_DIM`;
only `LEGION_SOLVERS_MAX_DIM <= LEGION_MAX_DIM` is asserted): a vector operation on a space of dimension
`maxDim + 1` with `int` coordinates silently selects the task registered for 1-D spaces with `unsigned` coordinates. -/
theorem c16_violated_above_max_dim (c : Config) (hu : c.useU32 = true) (k : VecTask) (t : EntryTy) :
    c.dynTDI k.block t (legionSpace (c.maxDim + 1) .int) = c.staticId (.vec k t 1 .unsigned) := by
  ext x
  rw [dynTDI_eq, staticId_vec]
  have : ∀ e, c.idTDI k.block e (c.maxDim + 1) IndexTy.int.num = c.idTDI k.block e 1 IndexTy.unsigned.num := by
    intro e; unfold Config.idTDI IndexTy.num; simp
  simp [this, Config.indexOn, hu]

/-- With the committed options this wrong task really is registered, so the launch succeeds. -/
example : (Config.default.staticId (.vec .axpy .double 1 .unsigned)) ∈ Config.default.registeredIds ∧
    Config.default.dynTDI (VecTask.block .axpy) .double (legionSpace 4 .int) =
      Config.default.staticId (.vec .axpy .double 1 .unsigned) :=
  ⟨List.mem_map.2 ⟨.vec .axpy .double 1 .unsigned, by decide, rfl⟩, by decide⟩

/-! ## C17 -/

/-- The operation's dimensions and types are ones the library supports. -/
def Operation.Supported (c : Config) : Operation → Prop
  | .scalar _ t => c.entryOn t
  | .vector _ t n i => c.entryOn t ∧ c.indexOn i ∧ 1 ≤ n ∧ n ≤ c.maxDim
  | .matvec _ t k s d => c.entryOn t ∧ (c.indexOn k.2 ∧ 1 ≤ k.1 ∧ k.1 ≤ c.maxDim) ∧
      (c.indexOn s.2 ∧ 1 ≤ s.1 ∧ s.1 ≤ c.maxDim) ∧ (c.indexOn d.2 ∧ 1 ≤ d.1 ∧ d.1 ≤ c.maxDim)
  | .printMatrix _ t k s => c.entryOn t ∧ (c.indexOn k.2 ∧ 1 ≤ k.1 ∧ k.1 ≤ c.maxDim) ∧
      (c.indexOn s.2 ∧ 1 ≤ s.1 ∧ s.1 ≤ c.maxDim)
  | .printPartition s => c.indexOn s.2 ∧ 1 ≤ s.1 ∧ s.1 ≤ c.maxDim
  | .laplacian k t => c.entryOn t ∧ c.useS64 ∧ (k = .cooLaplacian ∨ k = .csrLaplacian ∨ k = .csrLaplacianRowptr)
  | .stencil _ t n i => c.entryOn t ∧ c.indexOn i ∧ 1 ≤ n ∧ n ≤ c.maxDim

/-- What initialisation additionally insists on: matrix products only 1-D with 64-bit coordinates, printing only for a
1-D kernel space, an index space of dimension at most 3 and 64-bit coordinates. -/
def Operation.Restricted : Operation → Prop
  | .matvec _ _ k s d => k = (1, .longlong) ∧ s = (1, .longlong) ∧ d = (1, .longlong)
  | .printMatrix _ _ k s => k = (1, .longlong) ∧ s.2 = .longlong ∧ 1 ≤ s.1 ∧ s.1 ≤ 3
  | _ => True

/-- Specification: the task instance each operation is meant to run.  Matrix tasks are instantiated over (kernel, domain,
range); a product reads its source over the domain and writes its destination over the range. -/
def Operation.intended : Operation → Inst
  | .scalar k t => .scalar k t
  | .vector k t n i => .vec k t n i
  | .matvec true t k s d => .mat .csrMatvec t k.1 s.1 d.1 k.2 s.2 d.2
  | .matvec false t k s d => .mat .cooMatvec t k.1 s.1 d.1 k.2 s.2 d.2
  | .printMatrix true t k s => .mat .csrPrint t k.1 s.1 s.1 k.2 s.2 s.2
  | .printMatrix false t k s => .mat .cooPrint t k.1 s.1 s.1 k.2 s.2 s.2
  | .printPartition s => .printIndex s.1 s.2
  | .laplacian k t => .mat k t 1 1 1 .longlong .longlong .longlong
  | .stencil k t n i => .vec k t n i

/-- **C16**: every supported operation launches an identifier, and among all task instances with dimensions up to the
maximum the intended instance, and no other, has it. -/
theorem c16_operation_dispatch_partial (c : Config) (hm : 1 ≤ c.maxDim) (op : Operation) (hs : op.Supported c) :
    ∃ x, c.launchedId op = some x ∧ ∀ b : Inst, b.DimsOk c.maxDim → (c.staticId b = some x ↔ b = op.intended) := by
  have hent : ∀ t, c.entryOn t = true → ∃ e, c.entryTypeIndex t = some e := by
    intro t ht; rw [← entryTypeIndex_isSome] at ht; exact Option.isSome_iff_exists.1 ht
  suffices h : (∃ x, c.launchedId op = some x) ∧ c.launchedId op = c.staticId op.intended ∧ op.intended.DimsOk c.maxDim by
    obtain ⟨⟨x, hx⟩, e, hd⟩ := h
    refine ⟨x, hx, fun b hb => ⟨fun h => c15_ids_injective c b _ hm hb hd x h (e ▸ hx), ?_⟩⟩
    rintro rfl; rw [← e, hx]
  cases op with
  | scalar k t =>
    obtain ⟨e, he⟩ := hent t hs
    exact ⟨⟨_, staticId_scalar.2 ⟨e, he, rfl⟩⟩, rfl, trivial⟩
  | vector k t n i =>
    obtain ⟨ht, hi, h1, h2⟩ := hs
    obtain ⟨e, he⟩ := hent t ht
    have := (c16_dynamic_is_static c t).2.1 k n i hi
    exact ⟨⟨_, this.trans (staticId_vec.2 ⟨e, he, hi, rfl⟩)⟩, this, h1, h2⟩
  | matvec csr t k s d =>
    obtain ⟨ht, ⟨hk, hk'⟩, ⟨hs, hs'⟩, ⟨hd, hd'⟩⟩ := hs
    obtain ⟨e, he⟩ := hent t ht
    cases csr
    · have := (c16_dynamic_is_static c t).2.2 .cooMatvec k.1 s.1 d.1 k.2 s.2 d.2 hk hs hd
      exact ⟨⟨_, dynTDDDIII_eq.2 ⟨e, he, rfl⟩⟩, this, hk', hs', hd'⟩
    · have := (c16_dynamic_is_static c t).2.2 .csrMatvec k.1 s.1 d.1 k.2 s.2 d.2 hk hs hd
      exact ⟨⟨_, dynTDDDIII_eq.2 ⟨e, he, rfl⟩⟩, this, hk', hs', hd'⟩
  | printMatrix csr t k s =>
    obtain ⟨ht, ⟨hk, hk'⟩, ⟨hs, hs'⟩⟩ := hs
    obtain ⟨e, he⟩ := hent t ht
    cases csr
    · have := (c16_dynamic_is_static c t).2.2 .cooPrint k.1 s.1 s.1 k.2 s.2 s.2 hk hs hs
      exact ⟨⟨_, dynTDDDIII_eq.2 ⟨e, he, rfl⟩⟩, this, hk', hs', hs'⟩
    · have := (c16_dynamic_is_static c t).2.2 .csrPrint k.1 s.1 s.1 k.2 s.2 s.2 hk hs hs
      exact ⟨⟨_, dynTDDDIII_eq.2 ⟨e, he, rfl⟩⟩, this, hk', hs', hs'⟩
  | printPartition s =>
    exact ⟨⟨_, rfl⟩, (c16_dynamic_is_static c .double).1 s.1 s.2 hs.1, hs.2⟩
  | laplacian k t =>
    obtain ⟨ht, hi, -⟩ := hs
    obtain ⟨e, he⟩ := hent t ht
    exact ⟨⟨_, staticId_mat.2 ⟨e, he, hi, hi, hi, rfl⟩⟩, rfl, ⟨le_refl _, hm⟩, ⟨le_refl _, hm⟩, ⟨le_refl _, hm⟩⟩
  | stencil k t n i =>
    obtain ⟨ht, hi, h1, h2⟩ := hs
    obtain ⟨e, he⟩ := hent t ht
    exact ⟨⟨_, staticId_vec.2 ⟨e, he, hi, rfl⟩⟩, rfl, h1, h2⟩

/-- Instance: a product with three different spaces under the committed options. -/
example : (Operation.matvec true .double (1, .longlong) (2, .int) (3, .unsigned)).Supported Config.default := by
  simp [Operation.Supported, Config.default, Config.entryOn, Config.indexOn]

theorem mem_entries {c : Config} {t : EntryTy} (h : c.entryOn t) : t ∈ c.enabledEntries := by
  revert h; unfold Config.entryOn Config.enabledEntries; cases t <;> cases c.useF32 <;> cases c.useF64 <;> simp
theorem mem_indices {c : Config} {i : IndexTy} (h : c.indexOn i) : i ∈ c.enabledIndices := by
  revert h; unfold Config.indexOn Config.enabledIndices
  cases i <;> cases c.useS32 <;> cases c.useU32 <;> cases c.useS64 <;> simp
theorem mem_dims {c : Config} {n : Nat} (h : 1 ≤ n) (h' : n ≤ c.maxDim) (h3 : c.maxDim ≤ 3) : n ∈ c.registeredDims := by
  unfold Config.registeredDims
  have : n = 1 ∨ n = 2 ∨ n = 3 := by omega
  rcases this with rfl | rfl | rfl <;> simp [h']
theorem mem_vecTasks (k : VecTask) : k ∈ vecTasks := by cases k <;> decide
theorem mem_scalarTasks (k : ScalarTask) : k ∈ scalarTasks := by cases k <;> decide

theorem registered_scalar {c : Config} {k : ScalarTask} {t : EntryTy} (h : c.entryOn t) : Inst.scalar k t ∈ c.registered := by
  unfold Config.registered
  simp only [List.mem_append, List.mem_flatMap, List.mem_map]
  exact Or.inl (Or.inl (Or.inl ⟨t, mem_entries h, k, mem_scalarTasks k, rfl⟩))
theorem registered_print {c : Config} {n : Nat} {i : IndexTy} (h : 1 ≤ n) (h' : n ≤ c.maxDim) (h3 : c.maxDim ≤ 3)
    (hi : c.indexOn i) : Inst.printIndex n i ∈ c.registered := by
  unfold Config.registered
  simp only [List.mem_append, List.mem_flatMap, List.mem_map]
  exact Or.inl (Or.inl (Or.inr ⟨i, mem_indices hi, n, mem_dims h h' h3, rfl⟩))
theorem registered_vec {c : Config} {k : VecTask} {t : EntryTy} {n : Nat} {i : IndexTy} (ht : c.entryOn t) (h : 1 ≤ n)
    (h' : n ≤ c.maxDim) (h3 : c.maxDim ≤ 3) (hi : c.indexOn i) : Inst.vec k t n i ∈ c.registered := by
  unfold Config.registered
  simp only [List.mem_append, List.mem_flatMap, List.mem_map]
  exact Or.inl (Or.inr ⟨t, mem_entries ht, i, mem_indices hi, n, mem_dims h h' h3, k, mem_vecTasks k, rfl⟩)
theorem registered_mat {c : Config} {k : MatTask} {t : EntryTy} {n₁ n₂ n₃ : Nat} (h : (k, n₁, n₂, n₃) ∈ matTasks) :
    Inst.mat k t n₁ n₂ n₃ .longlong .longlong .longlong ∈ c.registered := by
  unfold Config.registered
  simp only [List.mem_append, List.mem_flatMap, List.mem_map]
  exact Or.inr ⟨_, h, t, by cases t <;> simp, rfl⟩

theorem some_of {α : Type} {o : Option α} {x : α} (h : o = some x) : o.isSome = true := by rw [h]; rfl

/-- **C17**, the part that holds: for every configuration with maximum dimension at most 3, every supported operation
that also meets `Restricted` launches a registered task.  Missing from the full property: matrix products and matrix
printing on other dimensions/coordinate types (`c17_violated_*`) and maximum dimension above 3. -/
theorem c17_launches_registered_partial (c : Config) (h3 : c.maxDim ≤ 3) (op : Operation) (hs : op.Supported c)
    (hr : op.Restricted) : ∃ x, c.launchedId op = some x ∧ some x ∈ c.registeredIds := by
  suffices h : ∃ i ∈ c.registered, c.launchedId op = c.staticId i ∧ (c.launchedId op).isSome by
    obtain ⟨i, hi, e, h⟩ := h
    obtain ⟨x, hx⟩ := Option.isSome_iff_exists.1 h
    exact ⟨x, hx, List.mem_map.2 ⟨i, hi, by rw [← e, hx]⟩⟩
  have hent : ∀ t, c.entryOn t = true → ∃ e, c.entryTypeIndex t = some e := by
    intro t ht; rw [← entryTypeIndex_isSome] at ht; exact Option.isSome_iff_exists.1 ht
  cases op with
  | scalar k t =>
    obtain ⟨e, he⟩ := hent t hs
    exact ⟨_, registered_scalar hs, rfl, some_of (staticId_scalar.2 ⟨e, he, rfl⟩)⟩
  | vector k t n i =>
    obtain ⟨ht, hi, h1, h2⟩ := hs
    obtain ⟨e, he⟩ := hent t ht
    exact ⟨_, registered_vec (k := k) ht h1 h2 h3 hi, (c16_dynamic_is_static c t).2.1 k n i hi,
      some_of (dynTDI_eq.2 ⟨e, he, rfl⟩)⟩
  | matvec csr t k s d =>
    obtain ⟨ht, ⟨hk, -⟩, -, -⟩ := hs
    obtain ⟨e, he⟩ := hent t ht
    obtain ⟨rfl, rfl, rfl⟩ := hr
    cases csr
    · exact ⟨_, registered_mat (k := .cooMatvec) (t := t) (n₁ := 1) (n₂ := 1) (n₃ := 1) (by decide),
        (c16_dynamic_is_static c t).2.2 .cooMatvec 1 1 1 _ _ _ hk hk hk, some_of (dynTDDDIII_eq.2 ⟨e, he, rfl⟩)⟩
    · exact ⟨_, registered_mat (k := .csrMatvec) (t := t) (n₁ := 1) (n₂ := 1) (n₃ := 1) (by decide),
        (c16_dynamic_is_static c t).2.2 .csrMatvec 1 1 1 _ _ _ hk hk hk, some_of (dynTDDDIII_eq.2 ⟨e, he, rfl⟩)⟩
  | printMatrix csr t k s =>
    obtain ⟨ht, ⟨hk, -⟩, -⟩ := hs
    obtain ⟨e, he⟩ := hent t ht
    obtain ⟨rfl, h1, h2, h4⟩ := hr
    obtain ⟨m, j⟩ := s
    simp only at h1 h2 h4 hk
    subst h1
    have hm : m = 1 ∨ m = 2 ∨ m = 3 := by omega
    cases csr
    · refine ⟨.mat .cooPrint t 1 m m .longlong .longlong .longlong, registered_mat ?_,
        (c16_dynamic_is_static c t).2.2 .cooPrint 1 m m _ _ _ hk hk hk, some_of (dynTDDDIII_eq.2 ⟨e, he, rfl⟩)⟩
      rcases hm with rfl | rfl | rfl <;> decide
    · refine ⟨.mat .csrPrint t 1 m m .longlong .longlong .longlong, registered_mat ?_,
        (c16_dynamic_is_static c t).2.2 .csrPrint 1 m m _ _ _ hk hk hk, some_of (dynTDDDIII_eq.2 ⟨e, he, rfl⟩)⟩
      rcases hm with rfl | rfl | rfl <;> decide
  | printPartition s =>
    obtain ⟨hi, h1, h2⟩ := hs
    exact ⟨_, registered_print h1 h2 h3 hi, (c16_dynamic_is_static c .float).1 s.1 s.2 hi, rfl⟩
  | laplacian k t =>
    obtain ⟨ht, h64, hk⟩ := hs
    obtain ⟨e, he⟩ := hent t ht
    refine ⟨_, registered_mat (k := k) (t := t) (n₁ := 1) (n₂ := 1) (n₃ := 1) ?_, rfl, ?_⟩
    · rcases hk with rfl | rfl | rfl <;> decide
    · exact some_of (staticId_mat.2 ⟨e, he, h64, h64, h64, rfl⟩)
  | stencil k t n i =>
    obtain ⟨ht, hi, h1, h2⟩ := hs
    obtain ⟨e, he⟩ := hent t ht
    exact ⟨_, registered_vec (k := k) ht h1 h2 h3 hi, rfl,
      some_of (staticId_vec.2 ⟨e, he, hi, rfl⟩)⟩

/-- Everything registered has dimensions up to the maximum (maximum dimension at least 3, as committed). -/
theorem registered_dims {c : Config} (h : 3 ≤ c.maxDim) {i : Inst} (hi : i ∈ c.registered) : i.DimsOk c.maxDim := by
  unfold Config.registered at hi
  simp only [List.mem_append, List.mem_flatMap, List.mem_map] at hi
  have hdim : ∀ n ∈ c.registeredDims, 1 ≤ n ∧ n ≤ c.maxDim := by
    intro n hn
    unfold Config.registeredDims at hn
    simp only [List.mem_filter, decide_eq_true_eq] at hn
    refine ⟨?_, hn.2⟩
    rcases hn.1 with _ | ⟨_, _ | ⟨_, _ | ⟨_, h⟩⟩⟩ <;> first | omega | cases h
  rcases hi with ((⟨t, -, k, -, rfl⟩ | ⟨j, -, n, hn, rfl⟩) | ⟨t, -, j, -, n, hn, k, -, rfl⟩) | ⟨m, hm, t, -, rfl⟩
  · trivial
  · exact hdim n hn
  · exact hdim n hn
  · have : ∀ m ∈ matTasks, (1 ≤ m.2.1 ∧ m.2.1 ≤ 3) ∧ (1 ≤ m.2.2.1 ∧ m.2.2.1 ≤ 3) ∧ (1 ≤ m.2.2.2 ∧ m.2.2.2 ≤ 3) := by
      decide
    obtain ⟨⟨a, b⟩, ⟨d, e⟩, ⟨f, g⟩⟩ := this m hm
    exact ⟨⟨a, b.trans h⟩, ⟨d, e.trans h⟩, ⟨f, g.trans h⟩⟩

/-- A matrix product whose spaces are not all (1-D, 64-bit) launches an unregistered task. -/
theorem c17_violated_matvec (c : Config) (h3 : 3 ≤ c.maxDim) (csr : Bool) (t : EntryTy) (k s d : Nat × IndexTy)
    (hs : (Operation.matvec csr t k s d).Supported c) (hr : ¬ (Operation.matvec csr t k s d).Restricted) :
    c.launchedId (.matvec csr t k s d) ∉ c.registeredIds := by
  intro hmem
  obtain ⟨i, hi, e⟩ := List.mem_map.1 hmem
  obtain ⟨ht, ⟨hk, hk1, hk2⟩, ⟨hs, hs1, hs2⟩, ⟨hd, hd1, hd2⟩⟩ := hs
  rw [← entryTypeIndex_isSome] at ht
  obtain ⟨e', he⟩ := Option.isSome_iff_exists.1 ht
  have key : ∀ K : MatTask, K = .cooMatvec ∨ K = .csrMatvec →
      c.staticId i = c.dynTDDDIII K.block t (legionSpace k.1 k.2) (legionSpace s.1 s.2) (legionSpace d.1 d.2) → False := by
    intro K hK e
    obtain ⟨x, hx⟩ : ∃ x, c.dynTDDDIII K.block t (legionSpace k.1 k.2) (legionSpace s.1 s.2) (legionSpace d.1 d.2) = some x := by
      exact ⟨_, dynTDDDIII_eq.2 ⟨e', he, rfl⟩⟩
    have hi' := c16_matrix_dispatch_exact_partial c K t k.1 s.1 d.1 k.2 s.2 d.2 ⟨⟨hk1, hk2⟩, ⟨hs1, hs2⟩, ⟨hd1, hd2⟩⟩
      hk hs hd i (registered_dims h3 hi) x hx (e.trans hx)
    subst hi'
    unfold Config.registered at hi
    simp only [List.mem_append, List.mem_flatMap, List.mem_map] at hi
    rcases hi with ((⟨t, -, k, -, h⟩ | ⟨j, -, n, hn, h⟩) | ⟨t, -, j, -, n, hn, k, -, h⟩) | ⟨m, hm, t', -, h⟩
    · cases h
    · cases h
    · cases h
    · simp only [Inst.mat.injEq] at h
      obtain ⟨h1, -, h4, h5, h6, h7, h8, h9⟩ := h
      have hm' : ∀ m ∈ matTasks, (m.1 = .cooMatvec ∨ m.1 = .csrMatvec) → m.2 = (1, 1, 1) := by decide
      have := hm' m hm (h1 ▸ hK)
      apply hr
      refine ⟨Prod.ext ?_ h7.symm, Prod.ext ?_ h8.symm, Prod.ext ?_ h9.symm⟩
      · rw [← h4, this]
      · rw [← h5, this]
      · rw [← h6, this]
  cases csr
  · exact key .cooMatvec (Or.inl rfl) e
  · exact key .csrMatvec (Or.inr rfl) e

/-- **C17 is violated**: the product of a 2-D stencil matrix (1-D kernel space, 2-D vectors, all 64-bit) launches an
unregistered task although vectors, matrix and partitions of these types are supported. -/
example : (Operation.matvec false .double (1, .longlong) (2, .longlong) (2, .longlong)).Supported Config.default ∧
    Config.default.launchedId (.matvec false .double (1, .longlong) (2, .longlong) (2, .longlong)) ∉
      Config.default.registeredIds := by
  have hs : (Operation.matvec false .double (1, .longlong) (2, .longlong) (2, .longlong)).Supported Config.default := by
    simp [Operation.Supported, Config.default, Config.entryOn, Config.indexOn]
  exact ⟨hs, c17_violated_matvec Config.default (by decide) _ _ _ _ _ hs (by simp [Operation.Restricted])⟩

/-! ## C18 -/

/-- **C18**: for every configuration the mapper's test accepts the identifier of a task for exactly the task's own
kind, and rejects the meta task for every kind. -/
theorem c18_is_task (c : Config) (a : Inst) (hm : 1 ≤ c.maxDim) (ha : a.DimsOk c.maxDim) (x : Nat)
    (h : c.staticId a = some x) (b : Block) :
    (c.isTask x b.val = true ↔ b = a.block) ∧ c.isTask c.loadCudaLibsId b.val = false := by
  obtain ⟨o, ho, e⟩ := staticId_off ha hm h
  unfold Config.isTask Config.loadCudaLibsId
  unfold Config.blockOrigin numMetaTaskIds at *
  constructor
  · simp only [Bool.and_eq_true, decide_eq_true_eq]
    constructor
    · rintro ⟨h1, h2⟩
      apply Block.val_inj
      have : (x - c.origin - 1 - c.blockSize * b.val) + c.blockSize * b.val = o + c.blockSize * a.block.val := by omega
      exact (mix (by omega) ho this).2
    · rintro rfl; omega
  · simp only [Bool.and_eq_false_iff, decide_eq_false_iff_not]
    left; omega

/-! ## C19 -/

/-- **C19**: on a launch space `[0, V)` with `S ≥ 1` shards every point gets a shard below `S`; the assignment is
monotone; a shard's points are exactly the contiguous block of `ceil(V/S)` points starting at `s * ceil(V/S)` (cut off at
`V`), so no shard owns more than `ceil(V/S)` points. -/
theorem c19_sharding (V S : Nat) (hS : 1 ≤ S) :
    (∀ p : Int, 0 ≤ p → p < V → ∃ s, shard p 0 ((V : Int) - 1) 1 true S = some s ∧ s < S) ∧
    (∀ p q : Int, 0 ≤ p → p ≤ q → q < V → ∀ s t, shard p 0 ((V : Int) - 1) 1 true S = some s →
      shard q 0 ((V : Int) - 1) 1 true S = some t → s ≤ t) ∧
    (∀ p : Int, 0 ≤ p → p < V → ∀ s, shard p 0 ((V : Int) - 1) 1 true S = some s ↔
      (s * ((V + S - 1) / S) : Nat) ≤ p.toNat ∧ p.toNat < (s + 1) * ((V + S - 1) / S)) := by
  have hvol : ((V : Int) - 1 + 1 - 0).toNat = V := by omega
  have hsh : ∀ p, shard p 0 ((V : Int) - 1) 1 true S = some (p.toNat / ((V + S - 1) / S)) := by
    intro p; simp [shard]
  have hpos : 0 < V → 0 < (V + S - 1) / S := fun h => Nat.div_pos (by omega) (by omega)
  have hbig : V ≤ ((V + S - 1) / S) * S := by
    have h1 := Nat.div_add_mod (V + S - 1) S
    have h2 := Nat.mod_lt (V + S - 1) (by omega : S > 0)
    rw [Nat.mul_comm] at h1
    generalize (V + S - 1) / S * S = z at h1 ⊢
    omega
  refine ⟨?_, ?_, ?_⟩
  · intro p h0 h1
    refine ⟨_, hsh p, ?_⟩
    rw [Nat.div_lt_iff_lt_mul (hpos (by omega))]
    rw [Nat.mul_comm]
    omega
  · intro p q h0 h1 h2 s t hs ht
    rw [hsh] at hs ht
    cases hs; cases ht
    exact Nat.div_le_div_right (by omega)
  · intro p h0 h1 s
    rw [hsh, Option.some.injEq, Nat.div_eq_iff (hpos (by omega))]
    rw [Nat.add_mul, Nat.one_mul]
    have := hpos (by omega)
    constructor <;> rintro ⟨a, b⟩ <;> constructor <;> omega

/-- **C19** (rejected launch spaces): anything but a dense one-dimensional domain starting at 0 is an assertion failure,
never a wrong shard. -/
theorem c19_rejects (p lo hi : Int) (dim : Nat) (dense : Bool) (S : Nat) :
    shard p lo hi dim dense S = none ↔ ¬ (dim = 1 ∧ dense ∧ lo = 0) := by
  unfold shard; split <;> simp_all

/-- Non-vacuity: 10 points on 4 shards: blocks of 3, 3, 3, 1. -/
example : (List.range 10).map (fun p => shard (p : Nat) 0 9 1 true 4) =
    [some 0, some 0, some 0, some 1, some 1, some 1, some 2, some 2, some 2, some 3] := by decide

/-! ## C20 -/

/-- A flag set written as an `|` of a list of flags, left to right, starting from `first`. -/
def combine (first : Flag) (rest : List Flag) : BitVec 8 := rest.foldl (fun a f => flagOr a f.bits) first.bits

theorem flagAnd_or (a : BitVec 8) (g f : Flag) : flagAnd (flagOr a g.bits) f.bits = (flagAnd a f.bits || decide (g = f)) := by
  have h0 : ∀ b : BitVec 8, ∀ f : Flag, flagAnd b f.bits = b.getLsbD (match f with | .leaf => 0 | .inner => 1 | .idempotent => 2 | .replicable => 3) := by
    have : ∀ b : BitVec 8, ∀ f : Flag, f = .leaf ∨ f = .inner ∨ f = .idempotent ∨ f = .replicable := by
      intro _ f; cases f <;> simp
    intro b f
    revert b
    cases f <;> decide
  rw [h0, h0]
  unfold flagOr
  rw [BitVec.getLsbD_or]
  congr 1
  cases g <;> cases f <;> decide

/-- **C20**: testing a combination of flags for one flag answers yes exactly if that flag is among those combined,
whatever the order and repetitions. -/
theorem c20_flags (first : Flag) (rest : List Flag) (f : Flag) :
    flagAnd (combine first rest) f.bits = true ↔ f ∈ first :: rest := by
  have key : ∀ (l : List Flag) (a : BitVec 8),
      flagAnd (l.foldl (fun a f => flagOr a f.bits) a) f.bits = (flagAnd a f.bits || decide (f ∈ l)) := by
    intro l
    induction l with
    | nil => intro a; simp
    | cons g l ih =>
      intro a
      rw [List.foldl_cons, ih, flagAnd_or, Bool.or_assoc]
      congr 1
      by_cases h : g = f
      · subst h; simp
      · have h' : ¬ f = g := fun e => h e.symm
        simp [h, h']
  unfold combine
  rw [key]
  have h1 : flagAnd first.bits f.bits = decide (first = f) := by cases first <;> cases f <;> decide
  rw [h1, Bool.or_eq_true, decide_eq_true_eq, decide_eq_true_eq, List.mem_cons, @eq_comm _ first f]

/-- **C20** (registration): the runtime options set for a task are exactly the flags combined in its class. -/
theorem c20_registrar (first : Flag) (rest : List Flag) :
    let r := registrarOf (combine first rest)
    (r.leaf = true ↔ Flag.leaf ∈ first :: rest) ∧ (r.inner = true ↔ Flag.inner ∈ first :: rest) ∧
    (r.idempotent = true ↔ Flag.idempotent ∈ first :: rest) ∧ (r.replicable = true ↔ Flag.replicable ∈ first :: rest) :=
  ⟨c20_flags _ _ _, c20_flags _ _ _, c20_flags _ _ _, c20_flags _ _ _⟩

/-- Every task class is registered as a leaf task and none as an inner task; the printing tasks and the random fill are
the only ones registered neither idempotent nor replicable. -/
theorem c20_task_classes (b : Block) :
    (registrarOf b.flags).leaf = true ∧ (registrarOf b.flags).inner = false ∧
    ((registrarOf b.flags).idempotent = true ↔
      b ∉ [Block.printScalar, .printIndex, .randomFill, .cooPrint, .csrPrint]) ∧
    ((registrarOf b.flags).replicable = true ↔
      b ∉ [Block.printScalar, .printIndex, .randomFill, .cooPrint, .csrPrint]) := by
  cases b <;> decide

end Verif.Tasks
