import Verif.Tasks.Model
import Mathlib.Tactic.Ring
import Mathlib.Tactic.Linarith

/-! Helper lemmas: mixed-radix numbers are unique, the offset of every identifier inside its block. -/
namespace Verif.Tasks

theorem mix {a a' b b' m : Nat} (h : a < m) (h' : a' < m) (e : a + m * b = a' + m * b') : a = a' ∧ b = b' := by
  have hm : 0 < m := by omega
  have h1 : (a + m * b) % m = a := by rw [Nat.add_mul_mod_self_left, Nat.mod_eq_of_lt h]
  have h2 : (a' + m * b') % m = a' := by rw [Nat.add_mul_mod_self_left, Nat.mod_eq_of_lt h']
  have h3 : (a + m * b) / m = b := by rw [Nat.add_mul_div_left _ _ hm, Nat.div_eq_of_lt h, Nat.zero_add]
  have h4 : (a' + m * b') / m = b' := by rw [Nat.add_mul_div_left _ _ hm, Nat.div_eq_of_lt h', Nat.zero_add]
  rw [e] at h1 h3
  exact ⟨h1.symm.trans h2, h3.symm.trans h4⟩

theorem mix_lt {a b m k : Nat} (h : a < m) (h' : b < k) : a + m * b < m * k := by
  have : m * (b + 1) ≤ m * k := Nat.mul_le_mul_left m h'
  rw [Nat.mul_add, Nat.mul_one] at this
  omega

theorem numIndexTypes_eq (c : Config) : c.numIndexTypes = 4 := rfl

theorem entryTypeIndex_lt {c : Config} {t : EntryTy} {k : Nat} (h : c.entryTypeIndex t = some k) :
    k < c.numEntryTypes := by
  revert h
  unfold Config.entryTypeIndex Config.numEntryTypes Config.entryTypes
  cases c.useF32 <;> cases c.useF64 <;> cases t <;> simp [listIndex, listLength] <;> omega

theorem entryTypeIndex_inj {c : Config} {t t' : EntryTy} {k : Nat} (h : c.entryTypeIndex t = some k)
    (h' : c.entryTypeIndex t' = some k) : t = t' := by
  revert h h'
  unfold Config.entryTypeIndex Config.entryTypes
  cases c.useF32 <;> cases c.useF64 <;> cases t <;> cases t' <;> simp [listIndex] <;> omega

/-- The number of a coordinate type in Legion's tag encoding. -/
def IndexTy.num : IndexTy → Nat
  | .int => 0 | .unsigned => 1 | .longlong => 2

theorem legionSpace_code (n : Nat) (i : IndexTy) : (legionSpace n i).code = i.num := by
  unfold legionSpace SpaceInfo.code IndexTy.num
  cases i <;> simp

theorem IndexTy.num_lt (i : IndexTy) : i.num < 3 := by cases i <;> decide
theorem IndexTy.num_inj {i j : IndexTy} (h : i.num = j.num) : i = j := by
  cases i <;> cases j <;> first | rfl | (exact absurd h (by decide))

/-- Is the coordinate type enabled? -/
def Config.indexOn (c : Config) : IndexTy → Bool
  | .int => c.useS32 | .unsigned => c.useU32 | .longlong => c.useS64

/-- Is the entry type enabled? -/
def Config.entryOn (c : Config) : EntryTy → Bool
  | .float => c.useF32 | .double => c.useF64

theorem indexTypeIndex_eq (c : Config) (i : IndexTy) :
    c.indexTypeIndex i = if c.indexOn i then some i.num else none := by
  unfold Config.indexTypeIndex Config.indexTypes Config.indexOn IndexTy.num
  cases c.useS32 <;> cases c.useU32 <;> cases c.useS64 <;> cases i <;> simp [listIndex]

theorem entryTypeIndex_isSome (c : Config) (t : EntryTy) : (c.entryTypeIndex t).isSome = c.entryOn t := by
  unfold Config.entryTypeIndex Config.entryTypes Config.entryOn
  cases c.useF32 <;> cases c.useF64 <;> cases t <;> simp [listIndex]

theorem Block.val_inj {a b : Block} (h : a.val = b.val) : a = b := by
  cases a <;> cases b <;> first | rfl | (exact absurd h (by decide))
theorem Block.val_lt (a : Block) : a.val < 28 := by cases a <;> decide

/-- Offset of an identifier in its block. -/
theorem idTDI_off (c : Config) (b : Block) (t n i : Nat) :
    c.idTDI b t n i = c.blockOrigin b + (t + c.numEntryTypes * ((n - 1) + c.maxDim * i)) := by
  unfold Config.idTDI; ring
theorem idDI_off (c : Config) (b : Block) (n i : Nat) :
    c.idDI b n i = c.blockOrigin b + ((n - 1) + c.maxDim * i) := by
  unfold Config.idDI; ring
theorem idTDDDIII_off (c : Config) (b : Block) (t n₁ n₂ n₃ i₁ i₂ i₃ : Nat) :
    c.idTDDDIII b t n₁ n₂ n₃ i₁ i₂ i₃ = c.blockOrigin b +
      (t + c.numEntryTypes * (i₃ + c.numIndexTypes * (i₂ + c.numIndexTypes * (i₁ + c.numIndexTypes *
        ((n₃ - 1) + c.maxDim * ((n₂ - 1) + c.maxDim * (n₁ - 1))))))) := by
  unfold Config.idTDDDIII; ring

theorem blockSize_eq (c : Config) :
    c.blockSize = c.numEntryTypes * (c.numIndexTypes * (c.numIndexTypes * (c.numIndexTypes *
      (c.maxDim * (c.maxDim * c.maxDim))))) := by
  unfold Config.blockSize; ring

/-- Identifiers with offsets inside the block size determine block and offset. -/
theorem block_off {c : Config} {b b' : Block} {o o' : Nat} (h : o < c.blockSize) (h' : o' < c.blockSize)
    (e : c.blockOrigin b + o = c.blockOrigin b' + o') : b = b' ∧ o = o' := by
  unfold Config.blockOrigin at e
  have e' : o + c.blockSize * b.val = o' + c.blockSize * b'.val := by omega
  have := mix h h' e'
  exact ⟨Block.val_inj this.2, this.1⟩

theorem offT_lt {c : Config} {t : Nat} (ht : t < c.numEntryTypes) (hm : 1 ≤ c.maxDim) : t < c.blockSize := by
  have h1 : 1 ≤ c.maxDim ^ 3 * c.numIndexTypes ^ 3 :=
    Nat.one_le_iff_ne_zero.2 (Nat.mul_ne_zero (pow_ne_zero _ (by omega)) (by rw [numIndexTypes_eq]; decide))
  unfold Config.blockSize
  rw [Nat.mul_assoc]
  calc t < c.numEntryTypes := ht
    _ = c.numEntryTypes * 1 := (Nat.mul_one _).symm
    _ ≤ _ := Nat.mul_le_mul_left _ h1

theorem numEntryTypes_pos (c : Config) : 1 ≤ c.numEntryTypes := by
  unfold Config.numEntryTypes Config.entryTypes
  cases c.useF32 <;> cases c.useF64 <;> simp [listLength]

theorem offTDI_lt {c : Config} {t n i : Nat} (ht : t < c.numEntryTypes) (hn : 1 ≤ n) (hn' : n ≤ c.maxDim)
    (hi : i < 4) : t + c.numEntryTypes * ((n - 1) + c.maxDim * i) < c.blockSize := by
  have h1 : (n - 1) + c.maxDim * i < c.maxDim * 4 := mix_lt (by omega) hi
  refine lt_of_lt_of_le (mix_lt ht h1) ?_
  rw [blockSize_eq, numIndexTypes_eq]
  apply Nat.mul_le_mul_left
  have : 1 ≤ c.maxDim * c.maxDim := Nat.one_le_iff_ne_zero.2 (Nat.mul_ne_zero (by omega) (by omega))
  calc c.maxDim * 4 = 4 * (1 * (1 * (c.maxDim * 1))) := by ring
    _ ≤ 4 * (4 * (4 * (c.maxDim * (c.maxDim * c.maxDim)))) := by gcongr <;> omega

theorem offDI_lt {c : Config} {n i : Nat} (hn : 1 ≤ n) (hn' : n ≤ c.maxDim)
    (hi : i < 4) : (n - 1) + c.maxDim * i < c.blockSize := by
  have h := offTDI_lt (t := 0) (numEntryTypes_pos c) hn hn' hi
  have : (n - 1) + c.maxDim * i ≤ c.numEntryTypes * ((n - 1) + c.maxDim * i) :=
    Nat.le_mul_of_pos_left _ (numEntryTypes_pos c)
  omega

theorem offTDDDIII_lt {c : Config} {t n₁ n₂ n₃ i₁ i₂ i₃ : Nat} (ht : t < c.numEntryTypes)
    (h1 : 1 ≤ n₁) (h1' : n₁ ≤ c.maxDim) (h2 : 1 ≤ n₂) (h2' : n₂ ≤ c.maxDim) (h3 : 1 ≤ n₃) (h3' : n₃ ≤ c.maxDim)
    (hi1 : i₁ < 4) (hi2 : i₂ < 4) (hi3 : i₃ < 4) :
    t + c.numEntryTypes * (i₃ + c.numIndexTypes * (i₂ + c.numIndexTypes * (i₁ + c.numIndexTypes *
        ((n₃ - 1) + c.maxDim * ((n₂ - 1) + c.maxDim * (n₁ - 1)))))) < c.blockSize := by
  rw [blockSize_eq]
  refine mix_lt ht (mix_lt hi3 (mix_lt hi2 (mix_lt hi1 ?_)))
  exact mix_lt (by omega) (mix_lt (by omega) (by omega))

/-! Inversion of `staticId`. -/

theorem staticId_scalar {c : Config} {k : ScalarTask} {t : EntryTy} {x : Nat} :
    c.staticId (.scalar k t) = some x ↔ ∃ e, c.entryTypeIndex t = some e ∧ x = c.idT k.block e := by
  show (c.entryTypeIndex t >>= fun t => pure (c.idT k.block t)) = some x ↔ _
  cases c.entryTypeIndex t <;> simp [eq_comm]

theorem staticId_printIndex {c : Config} {n : Nat} {i : IndexTy} {x : Nat} :
    c.staticId (.printIndex n i) = some x ↔ c.indexOn i = true ∧ x = c.idDI .printIndex n i.num := by
  show (c.indexTypeIndex i >>= fun i => pure (c.idDI .printIndex n i)) = some x ↔ _
  rw [indexTypeIndex_eq]
  cases c.indexOn i <;> simp [eq_comm]

theorem staticId_vec {c : Config} {k : VecTask} {t : EntryTy} {n : Nat} {i : IndexTy} {x : Nat} :
    c.staticId (.vec k t n i) = some x ↔
      ∃ e, c.entryTypeIndex t = some e ∧ c.indexOn i = true ∧ x = c.idTDI k.block e n i.num := by
  show (c.entryTypeIndex t >>= fun t => c.indexTypeIndex i >>= fun i => pure (c.idTDI k.block t n i)) = some x ↔ _
  rw [indexTypeIndex_eq]
  cases c.entryTypeIndex t <;> cases c.indexOn i <;> simp [eq_comm]

theorem staticId_mat {c : Config} {k : MatTask} {t : EntryTy} {n₁ n₂ n₃ : Nat} {i₁ i₂ i₃ : IndexTy} {x : Nat} :
    c.staticId (.mat k t n₁ n₂ n₃ i₁ i₂ i₃) = some x ↔
      ∃ e, c.entryTypeIndex t = some e ∧ c.indexOn i₁ = true ∧ c.indexOn i₂ = true ∧ c.indexOn i₃ = true ∧
        x = c.idTDDDIII k.block e n₁ n₂ n₃ i₁.num i₂.num i₃.num := by
  show (c.entryTypeIndex t >>= fun t => c.indexTypeIndex i₁ >>= fun i₁ => c.indexTypeIndex i₂ >>= fun i₂ =>
    c.indexTypeIndex i₃ >>= fun i₃ => pure (c.idTDDDIII k.block t n₁ n₂ n₃ i₁ i₂ i₃)) = some x ↔ _
  simp only [indexTypeIndex_eq]
  cases c.entryTypeIndex t <;> cases c.indexOn i₁ <;> cases c.indexOn i₂ <;> cases c.indexOn i₃ <;> simp [eq_comm]

theorem dynTDI_eq {c : Config} {b : Block} {t : EntryTy} {n : Nat} {i : IndexTy} {x : Nat} :
    c.dynTDI b t (legionSpace n i) = some x ↔ ∃ e, c.entryTypeIndex t = some e ∧ x = c.idTDI b e n i.num := by
  show (c.entryTypeIndex t >>= fun t => pure (c.idTDI b t n (legionSpace n i).code)) = some x ↔ _
  rw [legionSpace_code]
  cases c.entryTypeIndex t <;> simp [eq_comm]

theorem dynTDDDIII_eq {c : Config} {b : Block} {t : EntryTy} {n₁ n₂ n₃ : Nat} {i₁ i₂ i₃ : IndexTy} {x : Nat} :
    c.dynTDDDIII b t (legionSpace n₁ i₁) (legionSpace n₂ i₂) (legionSpace n₃ i₃) = some x ↔
      ∃ e, c.entryTypeIndex t = some e ∧ x = c.idTDDDIII b e n₁ n₂ n₃ i₁.num i₂.num i₃.num := by
  show (c.entryTypeIndex t >>= fun t => pure (c.idTDDDIII b t n₁ n₂ n₃ (legionSpace n₁ i₁).code (legionSpace n₂ i₂).code
    (legionSpace n₃ i₃).code)) = some x ↔ _
  simp only [legionSpace_code]
  cases c.entryTypeIndex t <;> simp [eq_comm]

end Verif.Tasks
