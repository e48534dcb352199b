import Verif.Programs.Partitions

/-!
# Printed text

Models what the printing functions write to `std::cout`, byte for byte: `print_index_partition` (`LegionUtilities.cpp` 32-34),
`PrintIndexTask` (`UtilityTasks.cpp` 112-124), `PrintScalarTask` (25-31), `COOPrintTask` (`COOMatrixTasks.cpp` 117-123) and `CSRPrintTask`
(`CSRMatrixTasks.cpp` 151-152).

Legion's formats, part of its contract: a `DomainPoint` is written `(x,y)`, a `Point` is written `<x,y>`, coordinates in decimal.  How a
floating-point number is written is a parameter.
-/
set_option linter.dupNamespace false
namespace Verif.Driver
open Verif.Grid Verif.Print Verif.Programs

/-- Bytes. -/
abbrev Text := List UInt8

/-- Decimal digits, most significant first; the first argument bounds their number. -/
def digits : Nat → Nat → Text
  | 0, _ => []
  | f + 1, n => if n < 10 then [UInt8.ofNat (48 + n)] else digits f (n / 10) ++ [UInt8.ofNat (48 + n % 10)]

/-- A non-negative integer in decimal. -/
def showNat (n : Nat) : Text := digits (n + 1) n

/-- An integer in decimal. -/
def showInt (z : Int) : Text := if z < 0 then 45 :: showNat z.natAbs else showNat z.natAbs

/-- Texts separated by commas. -/
def commas : List Text → Text
  | [] => []
  | [t] => t
  | t :: ts => t ++ 44 :: commas ts

/-- `operator<<(std::ostream &, const Legion::DomainPoint &)`. -/
def showDomainPoint (p : Point) : Text := 40 :: (commas (p.map showInt) ++ [41])

/-- `operator<<(std::ostream &, const Legion::Point<DIM, COORD_T> &)`. -/
def showPoint (p : Point) : Text := 60 :: (commas (p.map showInt) ++ [62])

/-- A line of `PrintIndexTask` (`UtilityTasks.cpp` 115, 121), without the final newline. -/
def showLine (l : Line) : Text :=
  (match l.name with
    | none => []
    | some name => name ++ [32]) ++ (showDomainPoint l.color ++ 32 :: showPoint l.point)

/-- The header of `print_index_partition` (`LegionUtilities.cpp` 32-34), without the final newline. -/
def showHeader (name : Text) (count : Nat) : Text :=
  bytes "[LegionSolvers] Printing index partition " ++ (name ++ (bytes " with " ++ (showNat count ++ bytes " pieces.")))

/-- A line of the output of a program that prints partitions. -/
def showItem : Item → Text
  | .header name count => showHeader name count
  | .line l => showLine l

/-- A line of `COOPrintTask`, `CSRPrintTask` (`COOMatrixTasks.cpp` 121-122, `CSRMatrixTasks.cpp` 151-152), without the final newline. -/
def showEntry {V : Type} (showV : V → Text) (e : EntryLine Point Point V) : Text :=
  showPoint e.index ++ (bytes ": entry " ++ (showV e.entry ++ (bytes " at (" ++ (showPoint e.row ++ (bytes ", " ++ (showPoint e.col ++ [41]))))))

/-- Lines, each followed by `'\n'` or `std::endl`. -/
def inLines (l : List Text) : Text := l.flatMap fun t => t ++ [10]

/-- Python's `bytes.splitlines()`: lines end with `\n`, `\r` or `\r\n`; the flag says that a `\r` has just ended a line. -/
def splitFrom : Bool → Text → Text → List Text
  | _, cur, [] => if cur = [] then [] else [cur]
  | cr, cur, c :: t =>
    if c = 10 then (if cr then splitFrom false cur t else cur :: splitFrom false [] t)
    else if c = 13 then cur :: splitFrom true [] t
    else splitFrom false (cur ++ [c]) t

/-- `splitlines()`. -/
def splitlines (t : Text) : List Text := splitFrom false [] t

/-! ## Decimal numbers -/

theorem digit_toNat {d : Nat} (h : d < 10) : (UInt8.ofNat (48 + d)).toNat = 48 + d := by
  rw [UInt8.toNat_ofNat']
  omega

/-- The number a text of digits denotes. -/
def value (t : Text) : Nat := t.foldl (fun a d => 10 * a + (d.toNat - 48)) 0

theorem value_digits : ∀ f n, n < f → value (digits f n) = n := by
  intro f
  induction f with
  | zero => intro n h; omega
  | succ f ih =>
    intro n h
    unfold digits
    split
    · rename_i hn
      show 10 * 0 + ((UInt8.ofNat (48 + n)).toNat - 48) = n
      rw [digit_toNat hn]
      omega
    · rename_i hn
      have := ih (n / 10) (by omega)
      unfold value at this ⊢
      rw [List.foldl_append, this]
      show 10 * (n / 10) + ((UInt8.ofNat (48 + n % 10)).toNat - 48) = n
      rw [digit_toNat (by omega)]
      omega

theorem digits_range : ∀ f n, ∀ d ∈ digits f n, 48 ≤ d.toNat ∧ d.toNat ≤ 57 := by
  intro f
  induction f with
  | zero => intro n d hd; cases hd
  | succ f ih =>
    intro n d hd
    unfold digits at hd
    split at hd
    · rename_i hn
      rw [List.mem_singleton.1 hd, digit_toNat hn]
      omega
    · rcases List.mem_append.1 hd with hd | hd
      · exact ih _ _ hd
      · rw [List.mem_singleton.1 hd, digit_toNat (by omega)]
        omega

theorem showNat_injective {m n : Nat} (h : showNat m = showNat n) : m = n := by
  have := congrArg value h
  unfold showNat at this
  rwa [value_digits _ _ (by omega), value_digits _ _ (by omega)] at this

theorem showNat_ne_nil (n : Nat) : showNat n ≠ [] := by
  unfold showNat digits
  split <;> simp

theorem showNat_range {n : Nat} {d : UInt8} (h : d ∈ showNat n) : 48 ≤ d.toNat ∧ d.toNat ≤ 57 := digits_range _ _ _ h

theorem showInt_range {z : Int} {d : UInt8} (h : d ∈ showInt z) : d.toNat = 45 ∨ (48 ≤ d.toNat ∧ d.toNat ≤ 57) := by
  unfold showInt at h
  split at h
  · rcases List.mem_cons.1 h with rfl | h
    · exact Or.inl rfl
    · exact Or.inr (showNat_range h)
  · exact Or.inr (showNat_range h)

theorem showInt_ne_nil (z : Int) : showInt z ≠ [] := by
  unfold showInt
  split
  · exact fun h => by cases h
  · exact showNat_ne_nil _

theorem showInt_injective {y z : Int} (h : showInt y = showInt z) : y = z := by
  have minus : ∀ n t, showNat n ≠ 45 :: t := fun n t e => by
    have := showNat_range (n := n) (d := 45) (by rw [e]; exact List.mem_cons_self ..)
    have e : (45 : UInt8).toNat = 45 := rfl
    omega
  unfold showInt at h
  split at h <;> split at h
  · have := showNat_injective (List.cons.inj h).2
    omega
  · exact absurd h.symm (minus _ _)
  · exact absurd h (minus _ _)
  · have := showNat_injective h
    omega

/-! ## Points -/

theorem split_first {α : Type} {a : α} {xs ys s t : List α} (hx : a ∉ xs) (hy : a ∉ ys) (h : xs ++ a :: s = ys ++ a :: t) :
    xs = ys ∧ s = t := by
  induction xs generalizing ys with
  | nil =>
    cases ys with
    | nil => exact ⟨rfl, (List.cons.inj h).2⟩
    | cons y ys => exact absurd (List.mem_cons.2 (Or.inl (List.cons.inj h).1)) hy
  | cons x xs ih =>
    cases ys with
    | nil => exact absurd (List.mem_cons.2 (Or.inl (List.cons.inj h).1.symm)) hx
    | cons y ys =>
      obtain ⟨e1, e2⟩ := List.cons.inj h
      obtain ⟨e3, e4⟩ := ih (fun h => hx (List.mem_cons_of_mem _ h)) (fun h => hy (List.mem_cons_of_mem _ h)) e2
      exact ⟨by rw [e1, e3], e4⟩

theorem split_last {α : Type} {a : α} {xs ys s t : List α} (hx : a ∉ xs) (hy : a ∉ ys) (h : s ++ a :: xs = t ++ a :: ys) :
    xs = ys ∧ s = t := by
  have h' := congrArg List.reverse h
  simp only [List.reverse_append, List.reverse_cons, List.append_assoc, List.singleton_append] at h'
  obtain ⟨e1, e2⟩ := split_first (by simpa using hx) (by simpa using hy) h'
  exact ⟨List.reverse_injective e1, List.reverse_injective e2⟩

theorem commas_injective : ∀ l l' : List Text, (∀ t ∈ l, t ≠ [] ∧ 44 ∉ t) → (∀ t ∈ l', t ≠ [] ∧ 44 ∉ t) → commas l = commas l' → l = l' := by
  intro l
  induction l with
  | nil =>
    intro l' _ h' e
    match l' with
    | [] => rfl
    | [t] => exact absurd e.symm (h' t (by simp)).1
    | t :: u :: v =>
      have e : [] = t ++ 44 :: commas (u :: v) := e
      simp at e
  | cons t ts ih =>
    intro l' h h' e
    have ht := h t (by simp)
    match l' with
    | [] =>
      match ts with
      | [] => exact absurd e ht.1
      | u :: v =>
        have e : t ++ 44 :: commas (u :: v) = [] := e
        simp at e
    | [t'] =>
      have ht' := h' t' (by simp)
      match ts with
      | [] => exact congrArg (· :: []) e
      | u :: v =>
        have e : t ++ 44 :: commas (u :: v) = t' := e
        exact absurd (by rw [← e]; simp) ht'.2
    | t' :: u' :: v' =>
      have ht' := h' t' (by simp)
      match ts with
      | [] =>
        have e : t = t' ++ 44 :: commas (u' :: v') := e
        exact absurd (by rw [e]; simp) ht.2
      | u :: v =>
        have e : t ++ 44 :: commas (u :: v) = t' ++ 44 :: commas (u' :: v') := e
        obtain ⟨e1, e2⟩ := split_first ht.2 ht'.2 e
        rw [e1, ih _ (fun x hx => h x (List.mem_cons_of_mem _ hx)) (fun x hx => h' x (List.mem_cons_of_mem _ hx)) e2]

theorem commas_range : ∀ l : List Text, ∀ d ∈ commas l, d = 44 ∨ ∃ t ∈ l, d ∈ t
  | [], d, h => by cases h
  | [t], d, h => Or.inr ⟨t, by simp, h⟩
  | t :: u :: v, d, h => by
    have h : d ∈ t ++ 44 :: commas (u :: v) := h
    rcases List.mem_append.1 h with h | h
    · exact Or.inr ⟨t, by simp, h⟩
    · rcases List.mem_cons.1 h with h | h
      · exact Or.inl h
      · rcases commas_range _ d h with h | ⟨x, h1, h2⟩
        · exact Or.inl h
        · exact Or.inr ⟨x, List.mem_cons_of_mem _ h1, h2⟩

/-- The characters of coordinates. -/
theorem coords_range {p : Point} {d : UInt8} (h : d ∈ commas (p.map showInt)) : d.toNat = 44 ∨ d.toNat = 45 ∨ (48 ≤ d.toNat ∧ d.toNat ≤ 57) := by
  rcases commas_range _ d h with rfl | ⟨t, h1, h2⟩
  · exact Or.inl rfl
  · obtain ⟨z, -, rfl⟩ := List.mem_map.1 h1
    rcases showInt_range h2 with h | h
    · exact Or.inr (Or.inl h)
    · exact Or.inr (Or.inr h)

theorem coords_injective {p q : Point} (h : commas (p.map showInt) = commas (q.map showInt)) : p = q := by
  have ok : ∀ p : Point, ∀ t ∈ p.map showInt, t ≠ [] ∧ 44 ∉ t := by
    intro p t ht
    obtain ⟨z, -, rfl⟩ := List.mem_map.1 ht
    refine ⟨showInt_ne_nil z, fun hm => ?_⟩
    have := showInt_range hm
    have e : (44 : UInt8).toNat = 44 := rfl
    omega
  exact List.map_injective_iff.2 (fun _ _ => showInt_injective) (commas_injective _ _ (ok p) (ok q) h)

theorem not_in_coords {p : Point} {d : UInt8} (h : d.toNat ≠ 44 ∧ d.toNat ≠ 45 ∧ (d.toNat < 48 ∨ 57 < d.toNat)) :
    d ∉ commas (p.map showInt) := fun hm => by
  have := coords_range hm
  omega

theorem showDomainPoint_injective {p q : Point} (h : showDomainPoint p = showDomainPoint q) : p = q :=
  coords_injective (List.append_cancel_right (List.cons.inj h).2)

theorem showPoint_injective {p q : Point} (h : showPoint p = showPoint q) : p = q :=
  coords_injective (List.append_cancel_right (List.cons.inj h).2)

/-! ## Lines -/

theorem showLine_injective {l m : Line} (h : showLine l = showLine m) : l = m := by
  obtain ⟨n, c, p⟩ := l
  obtain ⟨n', c', p'⟩ := m
  unfold showLine at h
  simp only [showDomainPoint, showPoint] at h
  have h1 : ∀ p : Point, (60 : UInt8) ∉ commas (p.map showInt) ++ [62] := fun p hm => by
    rcases List.mem_append.1 hm with hm | hm
    · exact not_in_coords (by decide) hm
    · exact absurd (List.mem_singleton.1 hm) (by decide)
  have h2 : ∀ p : Point, (40 : UInt8) ∉ commas (p.map showInt) ++ [41] ++ [32] := fun p hm => by
    rcases List.mem_append.1 hm with hm | hm
    · rcases List.mem_append.1 hm with hm | hm
      · exact not_in_coords (by decide) hm
      · exact absurd (List.mem_singleton.1 hm) (by decide)
    · exact absurd (List.mem_singleton.1 hm) (by decide)
  have shape : ∀ (x u v : Text), x ++ ((40 : UInt8) :: u ++ 32 :: 60 :: v) = x ++ 40 :: (u ++ [32]) ++ 60 :: v := by
    intro x u v; simp
  rw [shape, shape] at h
  obtain ⟨e1, e2⟩ := split_last (h1 p) (h1 p') h
  obtain ⟨e3, e4⟩ := split_last (h2 c) (h2 c') e2
  have hp : p = p' := coords_injective (List.append_cancel_right e1)
  have hc : c = c' := coords_injective (List.append_cancel_right (List.append_cancel_right e3))
  subst hp hc
  cases n <;> cases n'
  · rfl
  · simp at e4
  · simp at e4
  · have e4 := List.append_cancel_right e4
    rw [e4]

theorem showHeader_injective {n n' : Text} {c c' : Nat} (h : showHeader n c = showHeader n' c') : n = n' ∧ c = c' := by
  unfold showHeader at h
  have h := List.append_cancel_left h
  rw [← List.append_assoc, ← List.append_assoc, ← List.append_assoc, ← List.append_assoc] at h
  have h := List.append_cancel_right h
  have shape : ∀ (n u : Text), n ++ bytes " with " ++ u = (n ++ bytes " with") ++ 32 :: u := by
    intro n u
    rw [show bytes " with " = bytes " with" ++ [32] by decide]
    simp
  rw [shape, shape] at h
  have h1 : ∀ c, (32 : UInt8) ∉ showNat c := fun c hm => by
    have := showNat_range hm
    have e : (32 : UInt8).toNat = 32 := rfl
    omega
  obtain ⟨e1, e2⟩ := split_last (h1 c) (h1 c') h
  exact ⟨List.append_cancel_right e2, showNat_injective e1⟩

theorem header_ne_line (n : Text) (c : Nat) (l : Line) : showHeader n c ≠ showLine l := by
  intro h
  have h' := congrArg List.getLast? h
  have e1 : (showHeader n c).getLast? = some 46 := by
    unfold showHeader
    rw [show bytes " pieces." = bytes " pieces" ++ [46] by decide]
    simp only [← List.append_assoc]
    exact List.getLast?_concat ..
  have e2 : (showLine l).getLast? = some 62 := by
    unfold showLine
    simp only [showPoint, ← List.append_assoc, ← List.cons_append]
    exact List.getLast?_concat ..
  rw [e1, e2] at h'
  exact absurd h' (by decide)

/-- **C81**: different lines have different texts: the text of a line shows whether it is a header, the name, the number of pieces, the
colour and the point, whatever the name is. -/
theorem c81_item {a b : Item} (h : showItem a = showItem b) : a = b := by
  cases a with
  | header n c =>
    cases b with
    | header n' c' => obtain ⟨rfl, rfl⟩ := showHeader_injective h; rfl
    | line l => exact absurd h (header_ne_line n c l)
  | line l =>
    cases b with
    | header n' c' => exact absurd h.symm (header_ne_line n' c' l)
    | line l' => rw [showLine_injective h]

/-- **C81** for matrices: the text of a line shows the index, the row and the column of the entry, and the text of the value (of which
`std::ostream` writes six digits), whatever that text is. -/
theorem c81_entry {V : Type} (showV : V → Text) {e e' : EntryLine Point Point V} (h : showEntry showV e = showEntry showV e') :
    e.index = e'.index ∧ showV e.entry = showV e'.entry ∧ e.row = e'.row ∧ e.col = e'.col := by
  unfold showEntry at h
  simp only [showPoint] at h
  have shape : ∀ i v r c : Text, (60 : UInt8) :: (i ++ [62]) ++ (bytes ": entry " ++ (v ++ (bytes " at (" ++ (60 :: (r ++ [62]) ++
      (bytes ", " ++ (60 :: (c ++ [62]) ++ [41])))))) =
      (60 :: (i ++ 62 :: (bytes ": entry " ++ (v ++ bytes " at (")))) ++ 60 :: (r ++ 62 :: bytes ", ") ++ 60 :: (c ++ [62, 41]) := by
    intros; simp
  rw [shape, shape] at h
  have h1 : ∀ p : Point, (60 : UInt8) ∉ commas (p.map showInt) ++ [62, 41] := fun p hm => by
    rcases List.mem_append.1 hm with hm | hm
    · exact not_in_coords (by decide) hm
    · exact absurd hm (by decide)
  have h2 : ∀ p : Point, (60 : UInt8) ∉ commas (p.map showInt) ++ 62 :: bytes ", " := fun p hm => by
    rcases List.mem_append.1 hm with hm | hm
    · exact not_in_coords (by decide) hm
    · exact absurd hm (by decide)
  obtain ⟨e1, e2⟩ := split_last (h1 _) (h1 _) h
  obtain ⟨e3, e4⟩ := split_last (h2 _) (h2 _) e2
  obtain ⟨e5, e6⟩ := split_first (a := 62) (not_in_coords (by decide)) (not_in_coords (by decide)) (List.cons.inj e4).2
  exact ⟨coords_injective e5, List.append_cancel_right (List.append_cancel_left e6), coords_injective (List.append_cancel_right e3),
    coords_injective (List.append_cancel_right e1)⟩

/-! ## Texts -/

/-- A text without line ends. -/
def OneLine (t : Text) : Prop := 10 ∉ t ∧ 13 ∉ t

instance (t : Text) : Decidable (OneLine t) := inferInstanceAs (Decidable (_ ∧ _))

theorem splitFrom_line : ∀ (t cur rest : Text), OneLine t → splitFrom false cur (t ++ 10 :: rest) = (cur ++ t) :: splitFrom false [] rest
  | [], cur, rest, _ => by simp [splitFrom]
  | c :: t, cur, rest, h => by
    have h10 : c ≠ 10 := fun e => h.1 (by rw [e]; exact List.mem_cons_self ..)
    have h13 : c ≠ 13 := fun e => h.2 (by rw [e]; exact List.mem_cons_self ..)
    rw [List.cons_append, splitFrom, if_neg h10, if_neg h13,
      splitFrom_line t _ rest ⟨fun hm => h.1 (List.mem_cons_of_mem _ hm), fun hm => h.2 (List.mem_cons_of_mem _ hm)⟩]
    simp

theorem splitlines_inLines : ∀ l : List Text, (∀ t ∈ l, OneLine t) → splitlines (inLines l) = l
  | [], _ => rfl
  | t :: l, h => by
    have ih := splitlines_inLines l fun x hx => h x (List.mem_cons_of_mem _ hx)
    unfold splitlines inLines at *
    rw [List.flatMap_cons, List.append_assoc, List.singleton_append, splitFrom_line t [] _ (h t (List.mem_cons_self ..)), ih]
    simp

theorem oneLine_append {s t : Text} : OneLine (s ++ t) ↔ OneLine s ∧ OneLine t := by
  unfold OneLine
  simp only [List.mem_append, not_or]
  constructor
  · rintro ⟨⟨a, b⟩, c, d⟩; exact ⟨⟨a, c⟩, b, d⟩
  · rintro ⟨⟨a, c⟩, b, d⟩; exact ⟨⟨a, b⟩, c, d⟩

theorem oneLine_coords (p : Point) : OneLine (commas (p.map showInt)) := ⟨not_in_coords (by decide), not_in_coords (by decide)⟩

theorem oneLine_showNat (n : Nat) : OneLine (showNat n) := by
  have e : (10 : UInt8).toNat = 10 := rfl
  have e' : (13 : UInt8).toNat = 13 := rfl
  constructor <;> intro hm <;> have := showNat_range hm <;> omega

theorem oneLine_domainPoint (p : Point) : OneLine (showDomainPoint p) := by
  unfold showDomainPoint
  rw [← List.singleton_append]
  exact oneLine_append.2 ⟨by decide, oneLine_append.2 ⟨oneLine_coords p, by decide⟩⟩

theorem oneLine_point (p : Point) : OneLine (showPoint p) := by
  unfold showPoint
  rw [← List.singleton_append]
  exact oneLine_append.2 ⟨by decide, oneLine_append.2 ⟨oneLine_coords p, by decide⟩⟩

/-- The name in a line, if any. -/
def itemName : Item → Option Text
  | .header name _ => some name
  | .line l => l.name

theorem oneLine_item {i : Item} (h : ∀ name, itemName i = some name → OneLine name) : OneLine (showItem i) := by
  cases i with
  | header n c =>
    refine oneLine_append.2 ⟨by decide, oneLine_append.2 ⟨h n rfl, oneLine_append.2 ⟨by decide, oneLine_append.2 ⟨oneLine_showNat c, by decide⟩⟩⟩⟩
  | line l =>
    obtain ⟨n, c, p⟩ := l
    refine oneLine_append.2 ⟨?_, oneLine_append.2 ⟨oneLine_domainPoint c, ?_⟩⟩
    · cases n with
      | none => exact ⟨by simp, by simp⟩
      | some n => exact oneLine_append.2 ⟨h n rfl, by decide⟩
    · rw [← List.singleton_append]
      exact oneLine_append.2 ⟨by decide, oneLine_point p⟩

/-- The output of a program that prints partitions. -/
def screenText (screen : List Item) : Text := inLines (screen.map showItem)

/-- **C81**: splitting the output into lines gives back the lines that were printed, and the output determines them: who sees the text
knows every header, every name, every colour, every point and their order.  Names must not contain line ends. -/
theorem c81_text (screen screen' : List Item) (h : ∀ i ∈ screen, ∀ name, itemName i = some name → OneLine name)
    (h' : ∀ i ∈ screen', ∀ name, itemName i = some name → OneLine name) :
    splitlines (screenText screen) = screen.map showItem ∧ (screenText screen = screenText screen' → screen = screen') := by
  have key : ∀ s : List Item, (∀ i ∈ s, ∀ name, itemName i = some name → OneLine name) → splitlines (screenText s) = s.map showItem := by
    intro s hs
    refine splitlines_inLines _ fun t ht => ?_
    obtain ⟨i, hi, rfl⟩ := List.mem_map.1 ht
    exact oneLine_item (hs i hi)
  refine ⟨key screen h, fun e => ?_⟩
  have := key screen h
  rw [e, key screen' h'] at this
  exact (List.map_injective_iff.2 (fun _ _ => c81_item) this).symm

/-- **C81**: a name with a line end in it can forge lines: two different screens with the same text. -/
theorem c81_newline : ∃ screen screen' : List Item, screen ≠ screen' ∧ screenText screen = screenText screen' := by
  refine ⟨[.line ⟨some (bytes "p (0) <0>\np"), [1], [1]⟩], [.line ⟨some (bytes "p"), [0], [0]⟩, .line ⟨some (bytes "p"), [1], [1]⟩], by decide, by decide⟩

example : showItem (.line ⟨some (bytes "domain_partition"), [1], [10]⟩) = bytes "domain_partition (1) <10>" := by decide
example : showItem (.header (bytes "p") 4) = bytes "[LegionSolvers] Printing index partition p with 4 pieces." := by decide
example : showEntry (fun z : Int => showInt z) ⟨[7], -1, [2], [3]⟩ = bytes "<7>: entry -1 at (<2>, <3>)" := by decide
example : showPoint [-12, 305] = bytes "<-12,305>" := by decide
example : splitlines (bytes "a\r\n\nb\rc") = [bytes "a", [], bytes "b", bytes "c"] := by decide

end Verif.Driver
