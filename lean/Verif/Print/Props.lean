import Verif.Print.Model
import Verif.Tasks.Props
import Verif.Matrix.Lemmas
/-
C44 (printing index partitions) and C48 (printing matrices).
-/
set_option linter.unusedSectionVars false
set_option linter.dupNamespace false
namespace Verif.Print
open Verif.Grid Verif.Tasks Verif.Matrix

/-! ## Specification -/

/-- `out` is some interleaving of the sequences `ls` (the point tasks print in any relative order; a line is not split). -/
inductive Interleave {α : Type} : List (List α) → List α → Prop
  | done {ls} : (∀ l ∈ ls, l = []) → Interleave ls []
  | step {pre post xs x out} : Interleave (pre ++ xs :: post) out → Interleave (pre ++ (x :: xs) :: post) (x :: out)

theorem Interleave.cons_nil {α : Type} {ls : List (List α)} {out : List α} (h : Interleave ls out) : Interleave ([] :: ls) out := by
  induction h with
  | done h => exact .done fun l hl => by rcases List.mem_cons.1 hl with rfl | hl; rfl; exact h l hl
  | @step pre post xs x out h ih => exact .step (pre := [] :: pre) ih

/-- Printing colour after colour is one of the possible outputs. -/
theorem Interleave.flatten {α : Type} : ∀ ls : List (List α), Interleave ls ls.flatten
  | [] => .done (by simp)
  | l :: ls => by
    induction l with
    | nil => exact (Interleave.flatten ls).cons_nil
    | cons x xs ih => exact .step (pre := []) ih

theorem Interleave.filter {α : Type} (p : α → Bool) {ls : List (List α)} {out : List α} (h : Interleave ls out) :
    ∀ A l B, ls = A ++ l :: B → (∀ a ∈ A, ∀ x ∈ a, p x = false) → (∀ a ∈ B, ∀ x ∈ a, p x = false) → (∀ x ∈ l, p x = true) →
      out.filter p = l := by
  induction h with
  | done h =>
    intro A l B e _ _ _
    have := h l (by rw [e]; simp)
    simp [this]
  | @step pre post xs x out h ih =>
    intro A l B e hA hB hl
    rcases List.append_eq_append_iff.1 e with ⟨as, e1, e2⟩ | ⟨bs, e1, e2⟩
    · cases as with
      | nil =>
        simp only [List.nil_append, List.cons.injEq] at e2
        obtain ⟨rfl, rfl⟩ := e2
        rw [List.append_nil] at e1
        subst e1
        rw [List.filter_cons_of_pos (hl x (by simp)), ih A xs post rfl hA hB (fun y hy => hl y (by simp [hy]))]
      | cons a as =>
        simp only [List.cons_append, List.cons.injEq] at e2
        obtain ⟨rfl, rfl⟩ := e2
        subst e1
        have hx : p x = false := hA (x :: xs) (by simp) x (by simp)
        rw [List.filter_cons_of_neg (by simp [hx])]
        refine ih (pre ++ xs :: as) l B (by simp) ?_ hB hl
        intro a ha y hy
        rcases List.mem_append.1 ha with ha | ha
        · exact hA a (by simp [ha]) y hy
        · rcases List.mem_cons.1 ha with rfl | ha
          · exact hA (x :: a) (by simp) y (by simp [hy])
          · exact hA a (by simp [ha]) y hy
    · cases bs with
      | nil =>
        simp only [List.nil_append, List.cons.injEq] at e2
        obtain ⟨rfl, rfl⟩ := e2
        rw [List.append_nil] at e1
        subst e1
        rw [List.filter_cons_of_pos (hl x (by simp)), ih _ xs _ rfl hA hB (fun y hy => hl y (by simp [hy]))]
      | cons b bs =>
        simp only [List.cons_append, List.cons.injEq] at e2
        obtain ⟨rfl, rfl⟩ := e2
        subst e1
        have hx : p x = false := hB (x :: xs) (by simp) x (by simp)
        rw [List.filter_cons_of_neg (by simp [hx])]
        refine ih A l (bs ++ xs :: post) (by simp) hA ?_ hl
        intro a ha y hy
        rcases List.mem_append.1 ha with ha | ha
        · exact hB a (by simp [ha]) y hy
        · rcases List.mem_cons.1 ha with rfl | ha
          · exact hB (x :: a) (by simp) y (by simp [hy])
          · exact hB a (by simp [ha]) y hy

theorem Interleave.mem {α : Type} {ls : List (List α)} {out : List α} (h : Interleave ls out) (x : α) :
    x ∈ out ↔ ∃ l ∈ ls, x ∈ l := by
  induction h with
  | done h =>
    simp only [List.not_mem_nil, false_iff, not_exists, not_and]
    intro l hl; rw [h l hl]; simp
  | @step pre post xs y out h ih =>
    rw [List.mem_cons, ih]
    simp only [List.mem_append, List.mem_cons]
    constructor
    · rintro (rfl | ⟨l, hl | rfl | hl, hx⟩)
      · exact ⟨_, Or.inr (Or.inl rfl), by simp⟩
      · exact ⟨l, Or.inl hl, hx⟩
      · exact ⟨_, Or.inr (Or.inl rfl), by simp [hx]⟩
      · exact ⟨l, Or.inr (Or.inr hl), hx⟩
    · rintro ⟨l, hl | rfl | hl, hx⟩
      · exact Or.inr ⟨l, Or.inl hl, hx⟩
      · rcases List.mem_cons.1 hx with rfl | hx
        · exact Or.inl rfl
        · exact Or.inr ⟨xs, Or.inr (Or.inl rfl), hx⟩
      · exact Or.inr ⟨l, Or.inr (Or.inr hl), hx⟩

/-! ## Dispatch -/

theorem registered_dims {c : Config} (h3 : c.maxDim = 3) {a : Inst} (ha : a ∈ c.registered) : a.DimsOk c.maxDim := by
  unfold Config.registered at ha
  simp only [List.mem_append, List.mem_flatMap, List.mem_map] at ha
  have hd : ∀ n ∈ c.registeredDims, 1 ≤ n ∧ n ≤ 3 := by
    intro n hn
    unfold Config.registeredDims at hn
    simp at hn
    omega
  rw [h3]
  rcases ha with ((⟨t, -, k, -, rfl⟩ | ⟨i, -, n, hn, rfl⟩) | ⟨t, -, i, -, n, hn, k, -, rfl⟩) | ⟨m, hm, t, -, rfl⟩
  · trivial
  · exact hd n hn
  · exact hd n hn
  · revert hm
    have : ∀ m ∈ matTasks, (1 ≤ m.2.1 ∧ m.2.1 ≤ 3) ∧ (1 ≤ m.2.2.1 ∧ m.2.2.1 ≤ 3) ∧ (1 ≤ m.2.2.2 ∧ m.2.2.2 ≤ 3) := by decide
    intro hm
    have := this m hm
    simp only [Inst.DimsOk]
    omega

theorem findTask_eq {c : Config} (h3 : c.maxDim = 3) {a : Inst} (ha : a ∈ c.registered) {id : Nat} (h : c.staticId a = some id) :
    findTask c id = some a := by
  unfold findTask
  cases hf : c.registered.find? fun a => c.staticId a = some id with
  | none => exact absurd h (by simpa using List.find?_eq_none.1 hf a ha)
  | some b =>
    have hb := List.mem_of_find?_eq_some hf
    have he : c.staticId b = some id := by simpa using List.find?_some hf
    rw [c15_ids_injective c b a (by omega) (registered_dims h3 hb) (registered_dims h3 ha) id he h]

theorem cString_argBytes {name : List UInt8} (h : (0 : UInt8) ∉ name) : cString (argBytes name) = name := by
  unfold cString argBytes
  induction name with
  | nil => rfl
  | cons a l ih =>
    simp only [List.mem_cons, not_or] at h
    rw [List.cons_append, List.takeWhile_cons_of_pos (by simpa using Ne.symm h.1), ih h.2]

/-- The library as committed allows dimensions up to three; the space's dimension and coordinate type are supported. -/
def Supported (c : Config) (s : SpaceTy) : Prop := c.maxDim = 3 ∧ 1 ≤ s.1 ∧ s.1 ≤ 3 ∧ c.indexOn s.2

theorem printIndexPartition_eq (c : Config) (name : List UInt8) (hn : (0 : UInt8) ∉ name) (P : Partition) (hs : Supported c P.colorTy) :
    printIndexPartition c name P = (P.colors.mapM fun col => (iterate P.colorTy P.parentTy (P.piece col)).map fun ps =>
      ps.map fun p => (⟨some name, col, p⟩ : Line)).map fun out => (P.colors.length, out) := by
  obtain ⟨⟨n, i⟩, pt, colors, piece⟩ := P
  obtain ⟨h3, h1, h2, hi⟩ := hs
  have hreg := registered_print (c := c) (n := n) (i := i) h1 (by rw [h3]; exact h2) (by omega) hi
  have hid := (c16_dynamic_is_static c .float).1 n i hi
  unfold printIndexPartition
  simp only [Config.launchedId, Option.bind_eq_bind, Option.bind_some]
  rw [findTask_eq h3 hreg hid.symm]
  have hb : ∀ col, printIndexBody (n, i) (argBytes name) col pt (piece col) =
      (iterate (n, i) pt (piece col)).map fun ps => ps.map fun p => (⟨some name, col, p⟩ : Line) := by
    intro col
    unfold printIndexBody
    rw [if_neg (by simp [argBytes])]
    rw [cString_argBytes hn]
    cases iterate (n, i) pt (piece col) <;> rfl
  simp only [Option.bind_some, hb]
  cases (colors.mapM fun col => (iterate (n, i) pt (piece col)).map fun ps => ps.map fun p => (⟨some name, col, p⟩ : Line)) <;> rfl

/-- **C44**, the part that holds: if the colour space and the partitioned space have the same dimension and coordinate type (and
the name has no zero byte), printing succeeds; in every interleaving of the point tasks' lines the header counts the pieces,
the lines of each colour are exactly the points of its piece in order, each with the given name, and there are no
other lines.  Missing: other combinations of types, where the call stops with an error (`c44_violated`). -/
theorem c44_print_partial (c : Config) (name : List UInt8) (hn : (0 : UInt8) ∉ name) (P : Partition) (hs : Supported c P.colorTy)
    (hc : P.colors.Nodup) (ht : P.colorTy = P.parentTy) :
    ∃ out, printIndexPartition c name P = some (P.colors.length, out) ∧
      ∀ screen, Interleave out screen →
        (∀ col ∈ P.colors, screen.filter (fun l => l.color = col) = (P.piece col).map fun p => ⟨some name, col, p⟩) ∧
        (∀ l ∈ screen, l.color ∈ P.colors) := by
  refine ⟨P.colors.map fun col => (P.piece col).map fun p => ⟨some name, col, p⟩, ?_, ?_⟩
  · rw [printIndexPartition_eq c name hn P hs]
    simp only [iterate, ht, if_true, Option.map_some]
    have : ∀ cs : List Point, cs.mapM (fun col => some ((P.piece col).map fun p => (⟨some name, col, p⟩ : Line))) =
        some (cs.map fun col => (P.piece col).map fun p => (⟨some name, col, p⟩ : Line)) := by
      intro cs
      induction cs with
      | nil => rfl
      | cons a cs ih => rw [List.mapM_cons, ih]; rfl
    rw [this]; rfl
  · intro screen hi
    constructor
    · intro col hcol
      obtain ⟨A, B, e⟩ := List.append_of_mem hcol
      rw [e] at hi
      rw [List.map_append, List.map_cons] at hi
      have hd : ∀ a, (a ∈ A ∨ a ∈ B) → a ≠ col := by
        rw [e] at hc
        have h := List.nodup_append.1 hc
        rintro a (ha | ha) rfl
        · exact h.2.2 a ha a (by simp) rfl
        · exact (List.nodup_cons.1 h.2.1).1 ha
      refine hi.filter (fun l => decide (l.color = col)) _ _ _ rfl ?_ ?_ ?_
      · intro a ha x hx
        obtain ⟨a, ha', rfl⟩ := List.mem_map.1 ha
        obtain ⟨p, -, rfl⟩ := List.mem_map.1 hx
        simpa using hd a (Or.inl ha')
      · intro a ha x hx
        obtain ⟨a, ha', rfl⟩ := List.mem_map.1 ha
        obtain ⟨p, -, rfl⟩ := List.mem_map.1 hx
        simpa using hd a (Or.inr ha')
      · intro x hx
        obtain ⟨p, -, rfl⟩ := List.mem_map.1 hx
        simp
    · intro l hl
      obtain ⟨ls, hls, hl⟩ := (hi.mem l).1 hl
      obtain ⟨col, hcol, rfl⟩ := List.mem_map.1 hls
      obtain ⟨p, -, rfl⟩ := List.mem_map.1 hl
      exact hcol

/-- Violation: whenever the colour space has another dimension or coordinate type than the partitioned space (and there is a
colour at all), printing the partition stops with a type error. -/
theorem c44_violated (c : Config) (name : List UInt8) (hn : (0 : UInt8) ∉ name) (P : Partition) (hs : Supported c P.colorTy)
    (hc : P.colors ≠ []) (ht : P.colorTy ≠ P.parentTy) : printIndexPartition c name P = none := by
  rw [printIndexPartition_eq c name hn P hs]
  simp only [iterate, if_neg ht, Option.map_none]
  cases h : P.colors with
  | nil => exact absurd h hc
  | cons a cs => rw [List.mapM_cons]; rfl

/-- A two-dimensional grid split into two pieces by a one-dimensional colour space: an ordinary partition that cannot be
printed. -/
example : Supported Config.default (1, .longlong) ∧
    printIndexPartition Config.default [112] ⟨(1, .longlong), (2, .longlong), [[0], [1]], fun c => [[0] ++ c, [1] ++ c]⟩ = none := by
  have hs : Supported Config.default (1, .longlong) := ⟨rfl, by decide, by decide, rfl⟩
  exact ⟨hs, c44_violated _ _ (by decide) _ hs (by simp) (by decide)⟩

/-- A partition that can be printed, and two of its possible outputs. -/
example : let P : Partition := ⟨(1, .longlong), (1, .longlong), [[0], [1]], fun c => if c = [0] then [[0], [1]] else [[2]]⟩
    P.colors.Nodup ∧ P.colorTy = P.parentTy ∧ Supported Config.default P.colorTy ∧
    Interleave [[1, 2], [3]] [1, 2, 3] ∧ Interleave [[1, 2], [3]] [1, 3, 2] := by
  refine ⟨by decide, rfl, ⟨rfl, by decide, by decide, rfl⟩, Interleave.flatten _, ?_⟩
  exact .step (pre := []) (.step (pre := [[2]]) (.step (pre := []) (.done (by simp))))

/-! ## C48: matrices -/

variable {K P V : Type} [DecidableEq K] [DecidableEq P]

theorem printMatrix_eq {α : Type} (c : Config) (h3 : c.maxDim = 3) (csr : Bool) (t : EntryTy) (ht : c.entryOn t) (hi : c.indexOn .longlong)
    (n : Nat) (h1 : 1 ≤ n) (h2 : n ≤ 3) (rowTy colTy : SpaceTy) (body : Option α) :
    printMatrix c csr t (1, .longlong) rowTy colTy (n, .longlong) body =
      if rowTy = (n, .longlong) ∧ colTy = (n, .longlong) then body else none := by
  have hreg : Inst.mat (if csr then MatTask.csrPrint else .cooPrint) t 1 n n .longlong .longlong .longlong ∈ c.registered := by
    apply registered_mat
    have : n = 1 ∨ n = 2 ∨ n = 3 := by omega
    rcases this with rfl | rfl | rfl <;> cases csr <;> decide
  have hid := (c16_dynamic_is_static c t).2.2 (if csr then MatTask.csrPrint else .cooPrint) 1 n n .longlong .longlong .longlong hi hi hi
  have hb : (if csr then MatTask.csrPrint else .cooPrint).block = (if csr then Block.csrPrint else Block.cooPrint) := by cases csr <;> rfl
  rw [hb] at hid
  have hsome : ∃ x, c.staticId (.mat (if csr then MatTask.csrPrint else .cooPrint) t 1 n n .longlong .longlong .longlong) = some x := by
    rw [← entryTypeIndex_isSome] at ht
    obtain ⟨e, he⟩ := Option.isSome_iff_exists.1 ht
    exact ⟨_, staticId_mat.2 ⟨e, he, hi, hi, hi, rfl⟩⟩
  obtain ⟨x, hx⟩ := hsome
  unfold printMatrix
  simp only [Config.launchedId]
  rw [hid, hx]
  simp only [Option.bind_eq_bind, Option.bind_some]
  rw [findTask_eq h3 hreg hx]
  simp only [Option.bind_some, true_and]
  by_cases hr : rowTy = (n, .longlong)
  · by_cases hc : colTy = (n, .longlong)
    · simp [hr, hc]
    · simp [hr, hc, Ne.symm hc]
  · simp [hr, eq_comm]

/-- **C48** for COO: with the types the library registers, printing a matrix with the index space its rows and columns live in prints every
stored entry once, with its value, row and column. -/
theorem c48_coo_print (c : Config) (h3 : c.maxDim = 3) (t : EntryTy) (ht : c.entryOn t) (hi : c.indexOn .longlong)
    (n : Nat) (h1 : 1 ≤ n) (h2 : n ≤ 3) (m : COO K P V) (hk : m.kernel.Nodup) :
    ∃ out, printMatrix c false t (1, .longlong) (n, .longlong) (n, .longlong) (n, .longlong) (some (cooPrint m)) = some out ∧
      out.map (·.index) = m.kernel ∧ (out.map (·.index)).Nodup ∧
      ∀ l ∈ out, l.entry = m.entry l.index ∧ l.row = m.row l.index ∧ l.col = m.col l.index := by
  have e : (cooPrint m).map (·.index) = m.kernel := by
    unfold cooPrint; rw [List.map_map]; exact List.map_id _
  refine ⟨cooPrint m, ?_, e, e ▸ hk, ?_⟩
  · rw [printMatrix_eq c h3 false t ht hi n h1 h2, if_pos ⟨rfl, rfl⟩]
  · intro l hl
    obtain ⟨k, -, rfl⟩ := List.mem_map.1 hl
    exact ⟨rfl, rfl, rfl⟩

/-- **C48** for CSR: if every stored entry lies in the range of exactly one row, printing prints every stored entry once, with its value, its
row and its column. -/
theorem c48_csr_print (c : Config) (h3 : c.maxDim = 3) (t : EntryTy) (ht : c.entryOn t) (hi : c.indexOn .longlong)
    (n : Nat) (h1 : 1 ≤ n) (h2 : n ≤ 3) (m : CSR K P V) (hk : m.kernel.Nodup)
    (hrow : ∀ k ∈ m.kernel, ∃! r, r ∈ m.rows ∧ m.range r k = true) :
    ∃ out, printMatrix c true t (1, .longlong) (n, .longlong) (n, .longlong) (n, .longlong) (csrPrint m) = some out ∧
      out.map (·.index) = m.kernel ∧ (out.map (·.index)).Nodup ∧
      ∀ l ∈ out, l.entry = m.entry l.index ∧ l.col = m.col l.index ∧ l.row ∈ m.rows ∧ m.range l.row l.index = true := by
  have hd : m.RowsDisjoint := fun k hk p q hp hq h h' => (hrow k hk).unique ⟨hp, h⟩ ⟨hq, h'⟩
  have key : ∀ ks : List K, (∀ k ∈ ks, k ∈ m.kernel) → ∃ out : List (EntryLine K P V),
      ks.mapM (fun k => (m.findRow m.rows k).map fun row => (⟨k, m.entry k, row, m.col k⟩ : EntryLine K P V)) = some out ∧
      out.map (·.index) = ks ∧
      ∀ l ∈ out, l.entry = m.entry l.index ∧ l.col = m.col l.index ∧ l.row ∈ m.rows ∧ m.range l.row l.index = true := by
    intro ks
    induction ks with
    | nil => intro _; exact ⟨[], rfl, rfl, by simp⟩
    | cons k ks ih =>
      intro hks
      obtain ⟨out, e, e1, e2⟩ := ih fun k hk => hks k (by simp [hk])
      obtain ⟨r, ⟨hr, hrk⟩, -⟩ := hrow k (hks k (by simp))
      have hf := (findRow_eq m hd k (hks k (by simp)) m.rows (fun _ h => h) r).2 ⟨hr, hrk⟩
      refine ⟨⟨k, m.entry k, r, m.col k⟩ :: out, ?_, by simp [e1], ?_⟩
      · rw [List.mapM_cons, hf, e]; rfl
      · intro l hl
        rcases List.mem_cons.1 hl with rfl | hl
        · exact ⟨rfl, rfl, hr, hrk⟩
        · exact e2 l hl
  obtain ⟨out, e, e1, e2⟩ := key m.kernel fun _ h => h
  refine ⟨out, ?_, e1, by rw [e1]; exact hk, e2⟩
  rw [printMatrix_eq c h3 true t ht hi n h1 h2, if_pos ⟨rfl, rfl⟩]
  exact e

/-- **C48**: a stored entry outside all rows makes the CSR print abort. -/
theorem c48_csr_print_aborts (m : CSR K P V) (k : K) (hk : k ∈ m.kernel) (h : ∀ r ∈ m.rows, m.range r k = false) : csrPrint m = none := by
  have hf : m.findRow m.rows k = none := by
    cases e : m.findRow m.rows k with
    | none => rfl
    | some p =>
      rcases findRow_some m k m.rows none p e with ⟨h1, h2⟩ | h'
      · rw [h p h1] at h2; cases h2
      · cases h'
  unfold csrPrint
  obtain ⟨A, B, e⟩ := List.append_of_mem hk
  rw [e]
  clear e hk
  induction A with
  | nil => rw [List.nil_append, List.mapM_cons, hf]; rfl
  | cons a A ih =>
    rw [List.cons_append, List.mapM_cons, ih]
    cases (m.findRow m.rows a) <;> rfl

/-- **C48**: the COO and CSR forms of a matrix print the same lines. -/
theorem c48_coo_csr_agree (m : CSR K P V) (hd : m.RowsDisjoint) (row : K → P)
    (hrow : ∀ k ∈ m.kernel, row k ∈ m.rows ∧ m.range (row k) k = true) : csrPrint m = some (cooPrint (m.toCOO row)) := by
  unfold csrPrint cooPrint
  show m.kernel.mapM _ = some (m.kernel.map _)
  have key : ∀ ks : List K, (∀ k ∈ ks, k ∈ m.kernel) →
      ks.mapM (fun k => (m.findRow m.rows k).map fun row => (⟨k, m.entry k, row, m.col k⟩ : EntryLine K P V)) =
        some (ks.map fun k => ⟨k, m.entry k, row k, m.col k⟩) := by
    intro ks
    induction ks with
    | nil => intro _; rfl
    | cons k ks ih =>
      intro hks
      rw [List.mapM_cons, ih fun k hk => hks k (by simp [hk]),
        (findRow_eq m hd k (hks k (by simp)) m.rows (fun _ h => h) (row k)).2 (hrow k (hks k (by simp)))]
      rfl
  exact key m.kernel fun _ h => h

/-- Printing with an index space of another type than the rows and columns (here rows in a two-dimensional space) stops with an error. -/
theorem c48_wrong_space (c : Config) (h3 : c.maxDim = 3) (csr : Bool) (t : EntryTy) (ht : c.entryOn t) (hi : c.indexOn .longlong)
    (n : Nat) (h1 : 1 ≤ n) (h2 : n ≤ 3) (rowTy colTy : SpaceTy) (h : rowTy ≠ (n, .longlong) ∨ colTy ≠ (n, .longlong)) {α : Type} (body : Option α) :
    printMatrix c csr t (1, .longlong) rowTy colTy (n, .longlong) body = none := by
  rw [printMatrix_eq c h3 csr t ht hi n h1 h2, if_neg (by rintro ⟨rfl, rfl⟩; simp at h)]

/-- A concrete CSR matrix with two rows and three entries. -/
example : let m : CSR Int Int Int := ⟨[0, 1, 2], [0, 1], fun r k => if r = 0 then decide (k = 0) else decide (1 ≤ k ∧ k ≤ 2), fun k => k % 2, fun k => 10 * k⟩
    (∀ k ∈ m.kernel, ∃! r, r ∈ m.rows ∧ m.range r k = true) ∧ m.kernel.Nodup ∧
    (csrPrint m).map (fun o => o.map fun l => (l.index, l.entry, l.row, l.col)) = some [(0, 0, 0, 0), (1, 10, 1, 1), (2, 20, 1, 0)] := by
  refine ⟨?_, by decide, by decide⟩
  intro k hk
  have hk' : k = 0 ∨ k = 1 ∨ k = 2 := by simpa using hk
  rcases hk' with rfl | rfl | rfl
  · refine ⟨0, by decide, ?_⟩; rintro r ⟨hr, h⟩
    have hr' : r = 0 ∨ r = 1 := by simpa using hr
    rcases hr' with rfl | rfl <;> simp_all
  · refine ⟨1, by decide, ?_⟩; rintro r ⟨hr, h⟩
    have hr' : r = 0 ∨ r = 1 := by simpa using hr
    rcases hr' with rfl | rfl <;> simp_all
  · refine ⟨1, by decide, ?_⟩; rintro r ⟨hr, h⟩
    have hr' : r = 0 ∨ r = 1 := by simpa using hr
    rcases hr' with rfl | rfl <;> simp_all

end Verif.Print
