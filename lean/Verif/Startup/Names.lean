import Verif.Startup.Model
import Verif.Tasks.Props

/-! # C87: task names are unambiguous -/
set_option linter.dupNamespace false
namespace Verif.Startup
open Verif.Tasks Verif.Driver Verif.Programs

theorem entryText_injective {t u : EntryTy} (h : entryText t = entryText u) : t = u := by
  cases t <;> cases u <;> first | rfl | exact absurd h (by decide)

theorem indexText_injective {i j : IndexTy} (h : indexText i = indexText j) : i = j := by
  cases i <;> cases j <;> first | rfl | exact absurd h (by decide)

theorem entry_ne_index (t : EntryTy) (i : IndexTy) : entryText t ≠ indexText i := by
  cases t <;> cases i <;> decide

theorem scalarBase_injective {k l : ScalarTask} (h : scalarBase k = scalarBase l) : k = l := by
  cases k <;> cases l <;> first | rfl | exact absurd h (by decide)

theorem vecBase_injective {k l : VecTask} (h : vecBase k = vecBase l) : k = l := by
  cases k <;> cases l <;> first | rfl | exact absurd h (by decide)

theorem matBase_injective {k l : MatTask} (h : matBase k = matBase l) : k = l := by
  cases k <;> cases l <;> first | rfl | exact absurd h (by decide)

theorem entryText_plain (t : EntryTy) : (95 : UInt8) ∉ entryText t := by cases t <;> decide
theorem indexText_plain (i : IndexTy) : (95 : UInt8) ∉ indexText i := by cases i <;> decide

theorem showNat_plain (n : Nat) : (95 : UInt8) ∉ showNat n := fun h => by
  have := showNat_range h
  have e : (95 : UInt8).toNat = 95 := rfl
  omega

theorem digits3_plain (a b c : Nat) : (95 : UInt8) ∉ showNat a ++ showNat b ++ showNat c := by
  simp only [List.mem_append, not_or]
  exact ⟨⟨showNat_plain a, showNat_plain b⟩, showNat_plain c⟩

/-- Every byte of a number is a digit; a type's name starts with a letter. -/
theorem number_ne_index {l : Text} (hl : ∀ d ∈ l, 48 ≤ d.toNat ∧ d.toNat ≤ 57) (i : IndexTy) : l ≠ indexText i := by
  rintro rfl
  revert hl
  cases i <;> decide

theorem digits3_range {a b c : Nat} {d : UInt8} (h : d ∈ showNat a ++ showNat b ++ showNat c) : 48 ≤ d.toNat ∧ d.toNat ≤ 57 := by
  rcases List.mem_append.1 h with h | h
  · rcases List.mem_append.1 h with h | h <;> exact showNat_range h
  · exact showNat_range h

theorem showNat_digit {n : Nat} (h : n ≤ 9) : showNat n = [UInt8.ofNat (48 + n)] := by
  unfold showNat digits
  rw [if_pos (by omega)]

/-- One-digit numbers can be written without separators. -/
theorem digits3_injective {a b c a' b' c' : Nat} (ha : a ≤ 9) (hb : b ≤ 9) (hc : c ≤ 9) (ha' : a' ≤ 9) (hb' : b' ≤ 9) (hc' : c' ≤ 9)
    (h : showNat a ++ showNat b ++ showNat c = showNat a' ++ showNat b' ++ showNat c') : a = a' ∧ b = b' ∧ c = c' := by
  have e : ∀ {m n : Nat}, m ≤ 9 → n ≤ 9 → UInt8.ofNat (48 + m) = UInt8.ofNat (48 + n) → m = n := by
    intro m n hm hn he
    exact showNat_injective (by rw [showNat_digit hm, showNat_digit hn, he])
  rw [showNat_digit ha, showNat_digit hb, showNat_digit hc, showNat_digit ha', showNat_digit hb', showNat_digit hc'] at h
  simp only [List.cons_append, List.nil_append, List.cons.injEq, and_true] at h
  exact ⟨e ha ha' h.1, e hb hb' h.2.1, e hc hc' h.2.2⟩

/-- The dimensions of a matrix task have one digit (Legion supports at most nine dimensions). -/
def OneDigit : Inst → Prop
  | .mat _ _ n₁ n₂ n₃ _ _ _ => n₁ ≤ 9 ∧ n₂ ≤ 9 ∧ n₃ ≤ 9
  | _ => True

theorem vecBase_tail (k : VecTask) (t : EntryTy) : vecBase k ++ 95 :: entryText t ≠ printIndexBase := by
  cases k <;> cases t <;> decide

/-- **C87** (names): two instantiations with the same task name are the same instantiation, for every kind of task, every entry type, every coordinate
type and all dimensions (of matrix tasks: with one digit). -/
theorem c87_names {a b : Inst} (ha : OneDigit a) (hb : OneDigit b) (h : taskName a = taskName b) : a = b := by
  cases a with
  | scalar k t =>
    cases b with
    | scalar k' t' =>
      obtain ⟨e1, e2⟩ := split_last (entryText_plain t) (entryText_plain t') h
      rw [scalarBase_injective e2, entryText_injective e1]
    | printIndex n' i' => exact absurd (split_last (entryText_plain t) (indexText_plain i') h).1 (entry_ne_index t i')
    | vec k' t' n' i' => exact absurd (split_last (entryText_plain t) (indexText_plain i') h).1 (entry_ne_index t i')
    | mat k' t' a' b' c' i' j' l' => exact absurd (split_last (entryText_plain t) (indexText_plain l') h).1 (entry_ne_index t l')
  | printIndex n i =>
    cases b with
    | scalar k' t' => exact absurd (split_last (indexText_plain i) (entryText_plain t') h).1.symm (entry_ne_index t' i)
    | printIndex n' i' =>
      obtain ⟨e1, e2⟩ := split_last (indexText_plain i) (indexText_plain i') h
      obtain ⟨e3, -⟩ := split_last (showNat_plain n) (showNat_plain n') e2
      rw [indexText_injective e1, showNat_injective e3]
    | vec k' t' n' i' =>
      obtain ⟨-, e2⟩ := split_last (indexText_plain i) (indexText_plain i') h
      obtain ⟨-, e3⟩ := split_last (showNat_plain n) (showNat_plain n') e2
      exact absurd e3.symm (vecBase_tail k' t')
    | mat k' t' a' b' c' i' j' l' =>
      obtain ⟨-, e2⟩ := split_last (indexText_plain i) (indexText_plain l') h
      obtain ⟨e3, -⟩ := split_last (showNat_plain n) (indexText_plain j') e2
      exact absurd e3 (number_ne_index (fun _ => showNat_range) j')
  | vec k t n i =>
    cases b with
    | scalar k' t' => exact absurd (split_last (indexText_plain i) (entryText_plain t') h).1.symm (entry_ne_index t' i)
    | printIndex n' i' =>
      obtain ⟨-, e2⟩ := split_last (indexText_plain i) (indexText_plain i') h
      obtain ⟨-, e3⟩ := split_last (showNat_plain n) (showNat_plain n') e2
      exact absurd e3 (vecBase_tail k t)
    | vec k' t' n' i' =>
      obtain ⟨e1, e2⟩ := split_last (indexText_plain i) (indexText_plain i') h
      obtain ⟨e3, e4⟩ := split_last (showNat_plain n) (showNat_plain n') e2
      obtain ⟨e5, e6⟩ := split_last (entryText_plain t) (entryText_plain t') e4
      rw [indexText_injective e1, showNat_injective e3, entryText_injective e5, vecBase_injective e6]
    | mat k' t' a' b' c' i' j' l' =>
      obtain ⟨-, e2⟩ := split_last (indexText_plain i) (indexText_plain l') h
      obtain ⟨e3, -⟩ := split_last (showNat_plain n) (indexText_plain j') e2
      exact absurd e3 (number_ne_index (fun _ => showNat_range) j')
  | mat k t a b c i j l =>
    rename_i b₀
    cases b₀ with
    | scalar k' t' => exact absurd (split_last (indexText_plain l) (entryText_plain t') h).1.symm (entry_ne_index t' l)
    | printIndex n' i' =>
      obtain ⟨-, e2⟩ := split_last (indexText_plain l) (indexText_plain i') h
      obtain ⟨e3, -⟩ := split_last (indexText_plain j) (showNat_plain n') e2
      exact absurd e3.symm (number_ne_index (fun _ => showNat_range) j)
    | vec k' t' n' i' =>
      obtain ⟨-, e2⟩ := split_last (indexText_plain l) (indexText_plain i') h
      obtain ⟨e3, -⟩ := split_last (indexText_plain j) (showNat_plain n') e2
      exact absurd e3.symm (number_ne_index (fun _ => showNat_range) j)
    | mat k' t' a' b' c' i' j' l' =>
      obtain ⟨e1, e2⟩ := split_last (indexText_plain l) (indexText_plain l') h
      obtain ⟨e3, e4⟩ := split_last (indexText_plain j) (indexText_plain j') e2
      obtain ⟨e5, e6⟩ := split_last (indexText_plain i) (indexText_plain i') e4
      obtain ⟨e7, e8⟩ := split_last (digits3_plain a b c) (digits3_plain a' b' c') e6
      obtain ⟨e9, e10⟩ := split_last (entryText_plain t) (entryText_plain t') e8
      obtain ⟨x, y, z⟩ := digits3_injective ha.1 ha.2.1 ha.2.2 hb.1 hb.2.1 hb.2.2 e7
      rw [indexText_injective e1, indexText_injective e3, indexText_injective e5, x, y, z, entryText_injective e9, matBase_injective e10]

/-- The bound is needed: without separators a dimension of two digits makes two names equal. -/
theorem c87_names_two_digits : taskName (.mat .cooMatvec .double 1 1 11 .longlong .longlong .longlong) =
    taskName (.mat .cooMatvec .double 1 11 1 .longlong .longlong .longlong) := by decide

/-- No library task has the name of the task that loads the CUDA libraries. -/
theorem c87_meta_name (a : Inst) : taskName a ≠ loadCudaLibsName := by
  intro h
  have e : loadCudaLibsName = bytes "load_cuda" ++ 95 :: bytes "libs" := by decide
  rw [e] at h
  have hp : (95 : UInt8) ∉ bytes "libs" := by decide
  have ht : ∀ t, entryText t ≠ bytes "libs" := by intro t; cases t <;> decide
  have hi : ∀ i, indexText i ≠ bytes "libs" := by intro t; cases t <;> decide
  cases a with
  | scalar k t => exact ht t (split_last (entryText_plain t) hp h).1
  | printIndex n i => exact hi i (split_last (indexText_plain i) hp h).1
  | vec k t n i => exact hi i (split_last (indexText_plain i) hp h).1
  | mat k t a b c i j l => exact hi l (split_last (indexText_plain l) hp h).1

/-- Names are made of letters, digits and underscores: no space, no line end. -/
theorem taskName_bytes (a : Inst) : ∀ d ∈ taskName a, d = 95 ∨ (48 ≤ d.toNat ∧ d.toNat ≤ 57) ∨ (97 ≤ d.toNat ∧ d.toNat ≤ 122) := by
  have hn : ∀ n, ∀ d ∈ showNat n, d = 95 ∨ (48 ≤ d.toNat ∧ d.toNat ≤ 57) ∨ (97 ≤ d.toNat ∧ d.toNat ≤ 122) :=
    fun n d hd => Or.inr (Or.inl (showNat_range hd))
  have ht : ∀ t, ∀ d ∈ entryText t, d = 95 ∨ (48 ≤ d.toNat ∧ d.toNat ≤ 57) ∨ (97 ≤ d.toNat ∧ d.toNat ≤ 122) := by
    intro t; cases t <;> decide
  have hi : ∀ t, ∀ d ∈ indexText t, d = 95 ∨ (48 ≤ d.toNat ∧ d.toNat ≤ 57) ∨ (97 ≤ d.toNat ∧ d.toNat ≤ 122) := by
    intro t; cases t <;> decide
  have hs : ∀ t, ∀ d ∈ scalarBase t, d = 95 ∨ (48 ≤ d.toNat ∧ d.toNat ≤ 57) ∨ (97 ≤ d.toNat ∧ d.toNat ≤ 122) := by
    intro t; cases t <;> decide
  have hv : ∀ t, ∀ d ∈ vecBase t, d = 95 ∨ (48 ≤ d.toNat ∧ d.toNat ≤ 57) ∨ (97 ≤ d.toNat ∧ d.toNat ≤ 122) := by
    intro t; cases t <;> decide
  have hm : ∀ t, ∀ d ∈ matBase t, d = 95 ∨ (48 ≤ d.toNat ∧ d.toNat ≤ 57) ∨ (97 ≤ d.toNat ∧ d.toNat ≤ 122) := by
    intro t; cases t <;> decide
  have hp : ∀ d ∈ printIndexBase, d = 95 ∨ (48 ≤ d.toNat ∧ d.toNat ≤ 57) ∨ (97 ≤ d.toNat ∧ d.toNat ≤ 122) := by decide
  intro d hd
  cases a <;> simp only [taskName, List.mem_append, List.mem_cons] at hd
  · rcases hd with h | h | h
    exacts [hs _ d h, Or.inl h, ht _ d h]
  · rcases hd with (h | h | h) | h | h
    exacts [hp d h, Or.inl h, hn _ d h, Or.inl h, hi _ d h]
  · rcases hd with ((h | h | h) | h | h) | h | h
    exacts [hv _ d h, Or.inl h, ht _ d h, Or.inl h, hn _ d h, Or.inl h, hi _ d h]
  · rcases hd with ((((h | h | h) | h | (h | h) | h) | h | h) | h | h) | h | h
    exacts [hm _ d h, Or.inl h, ht _ d h, Or.inl h, hn _ d h, hn _ d h, hn _ d h, Or.inl h, hi _ d h, Or.inl h, hi _ d h, Or.inl h, hi _ d h]

/-- An instance with all parts. -/
example : taskName (.mat .csrPrint .float 1 3 3 .longlong .longlong .longlong) = bytes "csr_print_float_133_longlong_longlong_longlong" ∧
    OneDigit (.mat .csrPrint .float 1 3 3 .longlong .longlong .longlong) ∧
    taskName (.vec .dot .double 2 .unsigned) = bytes "dot_product_double_2_unsigned" := by
  refine ⟨by decide, ⟨by decide, by decide, by decide⟩, by decide⟩

end Verif.Startup
