import Verif.Driver.Model
import Verif.Programs.TestCG
import Verif.Programs.Basic

/-! # C82: what the test driver notices -/
set_option linter.dupNamespace false
set_option linter.unusedSectionVars false
namespace Verif.Driver
open Verif.Grid Verif.Tasks Verif.Matrix Verif.Print Verif.Programs Verif.EndToEnd Verif.Laplacian

/-! ## Specification -/

/-- The lines of a test program with `shards` copies of the top-level task: every copy writes its headers, the lines of a printing task
are written once; anything may come between two lines. -/
def Screens (shards : Nat) (outs : List Printout) (screen : List Item) : Prop :=
  Interleave (List.replicate shards (outs.map fun o => Item.header o.1 o.2.1) ++ outs.flatMap fun o => o.2.2.map fun l => l.map Item.line) screen

/-- The output when other lines, all of the kind the driver drops, come between the lines of the program. -/
def Output (lines : List Text) (text : Text) : Prop :=
  ∃ noise all, (∀ t ∈ noise, OneLine t ∧ keep t = false) ∧ Interleave [lines, noise] all ∧ text = inLines all

/-- Nothing on the error output but the three lines the cluster's wrapper of MPI writes. -/
def QuietErrors (t : Text) : Prop := ∀ line ∈ splitlines t,
  line = bytes "Warning: Overriding spectrum-mpi/rolling-release (module loaded must exactly match)" ∨
  line = bytes "Warning: Using      spectrum-mpi/2020.08.19 to match app's MPI" ∨
  line = bytes "Please tell John Gyllenhaal (gyllen@llnl.gov, 4-5485) if this MPI env fix doesn't work"

theorem quiet_ignored {t : Text} : QuietErrors t ↔ ∀ line ∈ splitlines t, line ∈ ignoredStderr := by
  unfold QuietErrors ignoredStderr
  simp only [List.mem_cons, List.not_mem_nil, or_false]

/-- The lines the driver expects from the two programs that print partitions: three headers, and the twelve blocks. -/
def expectedItems : List Item :=
  [.header (bytes "range_partition") 4, .header (bytes "matrix_partition") 4, .header (bytes "domain_partition") 4] ++
  showPoints (bytes "range_partition") 0 (fromTo 0 4) ++ showPoints (bytes "range_partition") 1 (fromTo 5 9) ++
  showPoints (bytes "range_partition") 2 (fromTo 10 14) ++ showPoints (bytes "range_partition") 3 (fromTo 15 19) ++
  showPoints (bytes "matrix_partition") 0 (fromTo 0 13) ++ showPoints (bytes "matrix_partition") 1 (fromTo 14 28) ++
  showPoints (bytes "matrix_partition") 2 (fromTo 29 43) ++ showPoints (bytes "matrix_partition") 3 (fromTo 44 57) ++
  showPoints (bytes "domain_partition") 0 (fromTo 0 5) ++ showPoints (bytes "domain_partition") 1 (fromTo 4 10) ++
  showPoints (bytes "domain_partition") 2 (fromTo 9 15) ++ showPoints (bytes "domain_partition") 3 (fromTo 14 19)

/-! ## Sorted sets -/

theorem before_irrefl : ∀ t, before t t = false
  | [] => rfl
  | a :: t => by simp [before, before_irrefl t]

theorem before_trans : ∀ {s t u}, before s t = true → before t u = true → before s u = true
  | [], [], _, h, _ => by cases h
  | [], _ :: _, [], _, h => by cases h
  | [], _ :: _, _ :: _, _, _ => rfl
  | _ :: _, [], _, h, _ => by cases h
  | _ :: _, _ :: _, [], _, h => by cases h
  | a :: s, b :: t, c :: u, h1, h2 => by
    simp only [before, Bool.or_eq_true, decide_eq_true_eq, Bool.and_eq_true, beq_iff_eq] at h1 h2 ⊢
    rcases h1 with h1 | ⟨rfl, h1⟩
    · rcases h2 with h2 | ⟨rfl, h2⟩
      · exact Or.inl (by omega)
      · exact Or.inl h1
    · rcases h2 with h2 | ⟨rfl, h2⟩
      · exact Or.inl h2
      · exact Or.inr ⟨rfl, before_trans h1 h2⟩

theorem before_total : ∀ s t, before s t = false → s ≠ t → before t s = true
  | [], [], _, h => absurd rfl h
  | [], _ :: _, h, _ => by cases h
  | _ :: _, [], _, _ => rfl
  | a :: s, b :: t, h, hne => by
    simp only [before, Bool.or_eq_false_iff, decide_eq_false_iff_not, Bool.and_eq_false_iff, beq_eq_false_iff_ne, Bool.or_eq_true,
      decide_eq_true_eq, Bool.and_eq_true, beq_iff_eq] at h ⊢
    by_cases e : a = b
    · subst e
      rcases h.2 with h2 | h2
      · exact absurd rfl h2
      · exact Or.inr ⟨rfl, before_total s t h2 fun e => hne (by rw [e])⟩
    · refine Or.inl ?_
      have : a.toNat ≠ b.toNat := fun e' => e (UInt8.toNat_inj.1 e')
      omega

/-- Strictly increasing. -/
abbrev Increasing (l : List Text) : Prop := l.Pairwise fun s t => before s t = true

theorem mem_insertNew (x y : Text) : ∀ l, y ∈ insertNew x l ↔ y = x ∨ y ∈ l
  | [] => by simp [insertNew]
  | z :: l => by
    unfold insertNew
    split
    · simp
    · split
      · rename_i h; subst h; simp
      · simp only [List.mem_cons, mem_insertNew x y l]
        constructor
        · rintro (h | h | h)
          · exact Or.inr (Or.inl h)
          · exact Or.inl h
          · exact Or.inr (Or.inr h)
        · rintro (h | h | h)
          · exact Or.inr (Or.inl h)
          · exact Or.inl h
          · exact Or.inr (Or.inr h)

theorem insertNew_increasing (x : Text) : ∀ l, Increasing l → Increasing (insertNew x l)
  | [], _ => by simp [insertNew]
  | z :: l, h => by
    obtain ⟨h1, h2⟩ := List.pairwise_cons.1 h
    unfold insertNew
    split
    · rename_i hx
      refine List.pairwise_cons.2 ⟨fun y hy => ?_, h⟩
      rcases List.mem_cons.1 hy with rfl | hy
      · exact hx
      · exact before_trans hx (h1 y hy)
    · split
      · exact h
      · rename_i hx hne
        refine List.pairwise_cons.2 ⟨fun y hy => ?_, insertNew_increasing x l h2⟩
        rcases (mem_insertNew x y l).1 hy with rfl | hy
        · exact before_total _ _ (by simpa using hx) hne
        · exact h1 y hy

theorem mem_sortedSet (y : Text) : ∀ l, y ∈ sortedSet l ↔ y ∈ l
  | [] => Iff.rfl
  | x :: l => by
    show y ∈ insertNew x (sortedSet l) ↔ _
    rw [mem_insertNew, mem_sortedSet y l, List.mem_cons]

theorem sortedSet_increasing : ∀ l, Increasing (sortedSet l)
  | [] => List.Pairwise.nil
  | x :: l => insertNew_increasing x _ (sortedSet_increasing l)

theorem increasing_eq : ∀ {l l' : List Text}, Increasing l → Increasing l' → (∀ y, y ∈ l ↔ y ∈ l') → l = l' := by
  intro l l' h h' e
  have nd : ∀ {l : List Text}, Increasing l → l.Nodup := fun h => h.imp fun {a b} hab e => by
    subst e; rw [before_irrefl] at hab; cases hab
  refine ((List.perm_ext_iff_of_nodup (nd h) (nd h')).2 e).eq_of_pairwise (fun a b _ _ h1 h2 => ?_) h h'
  have := before_trans h1 h2
  rw [before_irrefl] at this
  cases this

theorem sortedSet_eq_iff {l e : List Text} (he : Increasing e) : sortedSet l = e ↔ ∀ y, y ∈ l ↔ y ∈ e := by
  constructor
  · rintro rfl y; exact (mem_sortedSet y l).symm
  · intro h
    exact increasing_eq (sortedSet_increasing l) he fun y => (mem_sortedSet y l).trans (h y)

theorem expectedPartition_eq : sortedSet (expectedItems.map showItem) = expectedPartitionOutput := by decide +kernel

theorem expectedPartition_increasing : Increasing expectedPartitionOutput := by
  rw [← expectedPartition_eq]; exact sortedSet_increasing _

theorem expectedCG_eq : sortedSet ((List.range 11).map fun j : Nat => showInt (if j = 0 then 100 else (50 - j) * (102 - 2 * j))) =
    expectedCGOutput := by decide +kernel

/-! ## Reports -/

theorem quiet_errors {p : Process} (h : QuietErrors p.stderr) : assertEmpty (errors p) = [] := by
  have : errors p = [] := by
    unfold errors
    rw [List.filter_eq_nil_iff]
    intro line hl
    have := quiet_ignored.1 h line hl
    simp [this]
  rw [this]; rfl

theorem Interleave.oneLine {lines noise all : List Text} (h : Interleave [lines, noise] all) (h1 : ∀ t ∈ lines, OneLine t)
    (h2 : ∀ t ∈ noise, OneLine t) : ∀ t ∈ all, OneLine t := by
  intro t ht
  obtain ⟨l, hl, hx⟩ := (h.mem t).1 ht
  rcases List.mem_cons.1 hl with rfl | hl
  · exact h1 t hx
  · rw [List.mem_singleton.1 hl] at hx
    exact h2 t hx

theorem mem_shown {lines : List Text} {text : Text} (h : Output lines text) (h1 : ∀ t ∈ lines, OneLine t ∧ keep t = true) (err : Text) (code : Int) (y : Text) :
    y ∈ shown ⟨text, err, code⟩ ↔ y ∈ lines := by
  obtain ⟨noise, all, hn, hi, rfl⟩ := h
  unfold shown
  rw [splitlines_inLines all (Interleave.oneLine hi (fun t ht => (h1 t ht).1) fun t ht => (hn t ht).1), List.mem_filter, hi.mem]
  constructor
  · rintro ⟨⟨l, hl, hy⟩, hk⟩
    rcases List.mem_cons.1 hl with rfl | hl
    · exact hy
    · rw [List.mem_singleton.1 hl] at hy
      rw [(hn y hy).2] at hk
      cases hk
  · intro hy
    exact ⟨⟨lines, by simp, hy⟩, (h1 y hy).2⟩

/-! ## C82 -/

/-- **C82**: the verdict depends on the return code alone, whatever the program has printed. -/
theorem c82_verdict (p : Process) : ((test01 p).passed = true ↔ p.code = 0) ∧ ((test02 p).passed = true ↔ p.code = 0) ∧
    ((test0304 p).passed = true ↔ p.code = 0) ∧ ((test0506 p).passed = true ↔ p.code = 0) := by
  refine ⟨?_, ?_, ?_, ?_⟩ <;> exact beq_iff_eq

theorem unequal_iff {x y : List Text} {z : List Text} : Complaint.unequal ∈ assertEqual x y ++ assertEmpty z ↔ x ≠ y := by
  unfold assertEqual assertEmpty
  by_cases h : x = y <;> by_cases h' : z = [] <;> simp [h, h']

/-- **C82**, the comparison of tests 03 to 06: it notices a line that should not be there and a line that is missing, and nothing else:
neither the order of the lines nor how often each is printed. -/
theorem c82_set (p : Process) :
    (Complaint.unequal ∈ (test0304 p).complaints ↔ ¬ ∀ y, y ∈ shown p ↔ y ∈ expectedPartitionOutput) ∧
    (Complaint.unequal ∈ (test0506 p).complaints ↔ ¬ ∀ y, y ∈ shown p ↔ y ∈ expectedCGOutput) := by
  have hcg : Increasing expectedCGOutput := by rw [← expectedCG_eq]; exact sortedSet_increasing _
  exact ⟨unequal_iff.trans (not_congr (sortedSet_eq_iff expectedPartition_increasing)),
    unequal_iff.trans (not_congr (sortedSet_eq_iff hcg))⟩

/-- **C82**, test 02: exactly six lines `0`. -/
theorem c82_six (p : Process) : Complaint.unequal ∈ (test02 p).complaints ↔ shown p ≠ List.replicate 6 (bytes "0") := unequal_iff

theorem occursIn_iff (b : Text) : ∀ t, occursIn b t = true ↔ b <:+: t
  | [] => by simp [occursIn]
  | c :: t => by simp [occursIn, occursIn_iff b t, List.infix_cons_iff]

theorem assertEmpty_iff {x : List Text} : assertEmpty x = [] ↔ x = [] := by
  unfold assertEmpty
  by_cases h : x = [] <;> simp [h]

/-- A line every test drops: it starts with one of three words. -/
def Dropped (line : Text) : Prop :=
  bytes "[LegionSolvers] Registering task" <+: line ∨ bytes "[LegionSolvers] Constructing" <+: line ∨
    bytes "[LegionSolvers] Finished constructing" <+: line

theorem keep_iff (line : Text) : keep line = false ↔ Dropped line := by
  unfold keep Dropped
  rw [Bool.not_eq_false', Bool.or_eq_true, Bool.or_eq_true, List.isPrefixOf_iff_prefix, List.isPrefixOf_iff_prefix,
    List.isPrefixOf_iff_prefix, or_assoc]

/-- **C82**, test 01: no complaint exactly if every line of the output is one the tests drop, or is part of the message of warning 1047
(which the test provokes on purpose), or is empty, and the error output holds nothing but the three known lines. -/
theorem c82_quiet (p : Process) : (test01 p).complaints = [] ↔
    (∀ line ∈ splitlines p.stdout, Dropped line ∨ bytes "[warning 1047]" <:+: line ∨ bytes "warning_code_1047" <:+: line ∨
      line = bytes "For more information see:" ∨ line = []) ∧ QuietErrors p.stderr := by
  rw [quiet_ignored]
  unfold test01 errors
  simp only [List.append_eq_nil_iff, assertEmpty_iff, List.filter_eq_nil_iff]
  refine and_congr (forall₂_congr fun line _ => ?_) (forall₂_congr fun line _ => by simp)
  rw [← keep_iff, ← occursIn_iff, ← occursIn_iff]
  by_cases h1 : line = bytes "For more information see:" <;> by_cases h2 : line = [] <;> cases h : keep line <;>
    cases occursIn (bytes "[warning 1047]") line <;> cases occursIn (bytes "warning_code_1047") line <;> simp [h1, h2]

theorem keep_header (n : Text) (c : Nat) : keep (showHeader n c) = true := by
  have : ∀ w : Text, (bytes "[LegionSolvers] Printing index partition " ++ w) = bytes "[LegionSolvers] P" ++ (bytes "rinting index partition " ++ w) := by
    intro w
    rw [← List.append_assoc]
    rfl
  unfold showHeader
  rw [this]
  generalize bytes "rinting index partition " ++ _ = w
  rfl

/-- **C82** for programs that print partitions: the driver is silent about the output exactly if every expected line has been printed at
least once, and no other. -/
theorem c82_sees (screen : List Item) {text : Text} (ht : Output (screen.map showItem) text) (err : Text) (code : Int)
    (hn : ∀ i ∈ screen, ∀ name, itemName i = some name → OneLine name) (hk : ∀ i ∈ screen, keep (showItem i) = true) :
    Complaint.unequal ∉ (test0304 ⟨text, err, code⟩).complaints ↔ ∀ i, i ∈ screen ↔ i ∈ expectedItems := by
  rw [(c82_set _).1, Classical.not_not]
  have hl : ∀ t ∈ screen.map showItem, OneLine t ∧ keep t = true := by
    intro t ht
    obtain ⟨i, hi, rfl⟩ := List.mem_map.1 ht
    exact ⟨oneLine_item (hn i hi), hk i hi⟩
  have key : ∀ y, y ∈ shown ⟨text, err, code⟩ ↔ y ∈ screen.map showItem := mem_shown ht hl err code
  have kex : ∀ y, y ∈ expectedPartitionOutput ↔ y ∈ expectedItems.map showItem := fun y => by
    rw [← expectedPartition_eq, mem_sortedSet]
  have inj : ∀ (l : List Item) i, showItem i ∈ l.map showItem ↔ i ∈ l := fun l i => by
    rw [List.mem_map]
    exact ⟨fun ⟨j, hj, e⟩ => c81_item e ▸ hj, fun h => ⟨i, h, rfl⟩⟩
  constructor
  · intro h i
    have := h (showItem i)
    rwa [key, kex, inj, inj] at this
  · intro h y
    rw [key, kex, List.mem_map, List.mem_map]
    exact ⟨fun ⟨i, hi, e⟩ => ⟨i, (h i).1 hi, e⟩, fun ⟨i, hi, e⟩ => ⟨i, (h i).2 hi, e⟩⟩

/-- What is on a screen that shows the shipped partitions. -/
theorem shows_mem {screen : List Item} (h : ShowsPartitions 20 shippedRows screen) (i : Item) : i ∈ screen ↔ i ∈ expectedItems := by
  obtain ⟨m0, m1, m2, m3, d0, d1, d2, d3⟩ := c75_shipped h
  have r0 := h.own_rows 0 (by decide)
  have r1 := h.own_rows 1 (by decide)
  have r2 := h.own_rows 2 (by decide)
  have r3 := h.own_rows 3 (by decide)
  have sub : ∀ name (c : Int) ps, linesOf screen name c = showPoints name c ps → ∀ x ∈ showPoints name c ps, x ∈ screen := by
    intro name c ps e x hx
    rw [← e] at hx
    exact (List.mem_filter.1 hx).1
  cases i with
  | header n c =>
    have e1 : Item.header n c ∈ screen ↔ (n, c) ∈ screen.filterMap Item.asHeader := by
      rw [List.mem_filterMap]
      constructor
      · intro hm; exact ⟨_, hm, rfl⟩
      · rintro ⟨j, hj, e⟩
        cases j with
        | header n' c' => cases e; exact hj
        | line l => cases e
    rw [e1, h.headers]
    simp [expectedItems, showPoints, shippedRows]
  | line l =>
    constructor
    · intro hm
      obtain ⟨name, hname, c, hc, e1, e2⟩ := h.nothing_else l hm
      have hin : Item.line l ∈ linesOf screen name c := by
        rw [linesOf_eq, List.mem_filter]
        exact ⟨hm, by simp [isLine, e1, e2]⟩
      have hc : c < 4 := hc
      simp only [List.mem_cons, List.not_mem_nil, or_false] at hname
      unfold expectedItems
      simp only [List.mem_append]
      have hc : c = 0 ∨ c = 1 ∨ c = 2 ∨ c = 3 := by omega
      rcases hname with rfl | rfl | rfl <;> rcases hc with rfl | rfl | rfl | rfl
      · rw [r0] at hin; simp only [show Item.line l ∈ showPoints (bytes "range_partition") 0 (fromTo 0 4) from hin, true_or, or_true]
      · rw [r1] at hin; simp only [show Item.line l ∈ showPoints (bytes "range_partition") 1 (fromTo 5 9) from hin, true_or, or_true]
      · rw [r2] at hin; simp only [show Item.line l ∈ showPoints (bytes "range_partition") 2 (fromTo 10 14) from hin, true_or, or_true]
      · rw [r3] at hin; simp only [show Item.line l ∈ showPoints (bytes "range_partition") 3 (fromTo 15 19) from hin, true_or, or_true]
      · have hin := m0 ▸ hin; simp only [hin, true_or, or_true]
      · have hin := m1 ▸ hin; simp only [hin, true_or, or_true]
      · have hin := m2 ▸ hin; simp only [hin, true_or, or_true]
      · have hin := m3 ▸ hin; simp only [hin, true_or, or_true]
      · have hin := d0 ▸ hin; simp only [hin, true_or, or_true]
      · have hin := d1 ▸ hin; simp only [hin, true_or, or_true]
      · have hin := d2 ▸ hin; simp only [hin, true_or, or_true]
      · have hin := d3 ▸ hin; simp only [hin, or_true]
    · intro hm
      unfold expectedItems at hm
      simp only [List.mem_append] at hm
      rcases hm with (((((((((((hm | hm) | hm) | hm) | hm) | hm) | hm) | hm) | hm) | hm) | hm) | hm) | hm
      · simp at hm
      · exact sub _ _ _ r0 _ hm
      · exact sub _ _ _ r1 _ hm
      · exact sub _ _ _ r2 _ hm
      · exact sub _ _ _ r3 _ hm
      · exact sub _ _ _ m0 _ hm
      · exact sub _ _ _ m1 _ hm
      · exact sub _ _ _ m2 _ hm
      · exact sub _ _ _ m3 _ hm
      · exact sub _ _ _ d0 _ hm
      · exact sub _ _ _ d1 _ hm
      · exact sub _ _ _ d2 _ hm
      · exact sub _ _ _ d3 _ hm

theorem screens_mem {shards : Nat} (hs : 1 ≤ shards) {outs : List Printout} {screen screen' : List Item} (h : Screens shards outs screen)
    (h' : Screen outs screen') (i : Item) : i ∈ screen ↔ i ∈ screen' := by
  rw [Interleave.mem h, Interleave.mem h']
  constructor
  · rintro ⟨l, hl, hi⟩
    rcases List.mem_append.1 hl with hl | hl
    · exact ⟨l, by rw [(List.mem_replicate.1 hl).2]; exact List.mem_cons_self .., hi⟩
    · exact ⟨l, List.mem_cons_of_mem _ hl, hi⟩
  · rintro ⟨l, hl, hi⟩
    rcases List.mem_cons.1 hl with rfl | hl
    · exact ⟨_, List.mem_append.2 (Or.inl (List.mem_replicate.2 ⟨by omega, rfl⟩)), hi⟩
    · exact ⟨l, List.mem_append.2 (Or.inr hl), hi⟩

theorem expected_names : ∀ i ∈ expectedItems, (∀ name, itemName i = some name → OneLine name) ∧ keep (showItem i) = true := by
  have h : ∀ i ∈ expectedItems, (match itemName i with | none => true | some n => decide (OneLine n)) = true ∧ keep (showItem i) = true := by
    decide +kernel
  intro i hi
  refine ⟨fun name e => ?_, (h i hi).2⟩
  have := (h i hi).1
  rw [e] at this
  exact of_decide_eq_true this

theorem shipped_silent {shards : Nat} (hs : 1 ≤ shards) {outs : List Printout} (h : ∀ screen, Screen outs screen → ShowsPartitions 20 shippedRows screen)
    {screen : List Item} (hsc : Screens shards outs screen) {text : Text} (ht : Output (screen.map showItem) text) {err : Text}
    (he : QuietErrors err) (code : Int) : (test0304 ⟨text, err, code⟩).complaints = [] := by
  obtain ⟨screen', h'⟩ := c75_some_screen outs
  have hm : ∀ i, i ∈ screen ↔ i ∈ expectedItems := fun i => (screens_mem hs hsc h' i).trans (shows_mem (h _ h') i)
  have := (c82_sees screen ht err code (fun i hi => (expected_names i ((hm i).1 hi)).1) (fun i hi => (expected_names i ((hm i).1 hi)).2)).2 hm
  have e : (test0304 ⟨text, err, code⟩).complaints = assertEqual _ _ ++ assertEmpty (errors ⟨text, err, code⟩) := rfl
  rw [e, quiet_errors (p := ⟨text, err, code⟩) he, List.append_nil] at this ⊢
  unfold assertEqual at this ⊢
  split
  · rfl
  · rename_i hne
    rw [if_neg hne] at this
    exact absurd (List.mem_singleton.2 rfl) this

/-- **C82** for tests 03 and 04: with the shipped sizes, whatever the schedule, the number of copies of the top-level task and the way the
fill tasks were cut, the driver has nothing to complain about as long as no line is torn. -/
theorem c82_partitions {V : Type} (c : Config) (hs : Supported c (1, .longlong)) (ofInt : Int → V) (fill fillRows : List (List Int))
    (junk : COO Int Int V) (junk' : CSR Int Int V) (hf : Covers fill (kernelSize 20)) (hr : Covers fillRows 20) {shards : Nat} (hsh : 1 ≤ shards) :
    ∃ outs, test03 c ofInt 20 fill junk shippedRows = some outs ∧ test04 c ofInt 20 fill fillRows junk' shippedRows = some outs ∧
      ∀ screen text err code, Screens shards outs screen → Output (screen.map showItem) text → QuietErrors err →
        (test0304 ⟨text, err, code⟩).complaints = [] := by
  have hrows : ∀ piece ∈ shippedRows, ∀ i ∈ piece, 0 ≤ i ∧ i < 20 := by
    intro piece hp i hi
    simp [shippedRows] at hp
    rcases hp with rfl | rfl | rfl | rfl <;> rw [mem_fromTo] at hi <;> omega
  obtain ⟨outs, e, h⟩ := c75_coo c hs ofInt 20 fill junk hf shippedRows hrows
  refine ⟨outs, e, ?_, fun screen text err code h1 h2 h3 => shipped_silent hsh h h1 h2 h3 code⟩
  rw [(c75_csr c hs ofInt 20 fill fill fillRows junk' junk hf hf hr shippedRows hrows).1, e]

end Verif.Driver
