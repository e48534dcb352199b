import Verif.Grid.Linear
/-
Property theorems C01 (traversal), C02 (linearisation), C03 (comparison).
-/
namespace Verif.Grid

/-- The traversal loop run with a body that only records the visited point: the sequence of visited points. -/
def visited (o : IndexOrder) (b : Rect) (fuel : Nat) : Option (List Point) :=
  doWhile (increment o b) (fun acc p => acc ++ [p]) fuel [] (Rect.lo b)

/-- **C01**: on a non-empty rectangle the loop stops after exactly `volume` iterations (it stops for every fuel at
least the volume and for no smaller one); the visited sequence contains every point of the rectangle exactly once and
nothing else, in increasing order, starts at the low and ends at the high corner. -/
theorem c01_traversal (o : IndexOrder) (b : Rect) (hb : Nonempty b) :
    ∃ l : List Point,
      (∀ fuel, Rect.volume b ≤ fuel → visited o b fuel = some l) ∧
      (∀ fuel, fuel < Rect.volume b → visited o b fuel = none) ∧
      (∀ p, p ∈ l ↔ InBox b p) ∧ l.Nodup ∧ l.Pairwise (Before o) ∧
      l.head? = some (Rect.lo b) ∧ l.getLast? = some (Rect.hi b) := by
  obtain ⟨c, hd, tl⟩ := pointsOf_chain o b hb
  refine ⟨pointsOf o b, ?_, ?_, mem_pointsOf o b, pointsOf_nodup o b, pointsOf_pairwise o b, hd, tl⟩
  · intro fuel hf
    have foldl_snoc : ∀ (l acc : List Point), l.foldl (fun acc p => acc ++ [p]) acc = acc ++ l := by
      intro l
      induction l with
      | nil => simp
      | cons a l ih => intro acc; simp [ih]
    rw [visited, doWhile_points o b hb _ _ fuel hf, foldl_snoc]
    simp
  · intro fuel hf
    have gen : ∀ (l : List Point) (fuel : Nat) (s : List Point) (p : Point),
        List.IsChain (fun a b' => increment o b a = (true, b')) (p :: l) → fuel < (p :: l).length →
        doWhile (increment o b) (fun acc p => acc ++ [p]) fuel s p = none := by
      intro l
      induction l with
      | nil =>
        intro fuel s p _ hf
        have : fuel = 0 := by simpa using hf
        subst this; rfl
      | cons q l ih =>
        intro fuel s p hc hf
        cases fuel with
        | zero => rfl
        | succ fuel =>
          rw [List.isChain_cons_cons] at hc
          unfold doWhile
          rw [hc.1]
          exact ih fuel _ q hc.2 (by simpa using hf)
    have hl := length_pointsOf o b
    rcases hp : pointsOf o b with _ | ⟨p, l⟩
    · rw [hp] at hd; simp at hd
    · rw [hp] at c hd hl
      have : p = Rect.lo b := by simpa using hd
      subst this
      exact gen l fuel [] _ c (by omega)

/-- **C01**, local form: advancing from a point of the rectangle either yields its immediate successor in the order
(no point lies strictly between), or reports the end, and that exactly at the high corner. -/
theorem c01_successor (o : IndexOrder) (b : Rect) (p : Point) (hp : InBox b p) :
    (∀ q, increment o b p = (true, q) →
      InBox b q ∧ Before o p q ∧ ∀ r, InBox b r → Before o p r → r = q ∨ Before o q r) ∧
    ((increment o b p).1 = false ↔ p = Rect.hi b) := by
  constructor
  · intro q hq
    obtain ⟨h1, h2⟩ := increment_true o hp hq
    refine ⟨h1, (linearize_lt_iff o hp h1).1 (by omega), ?_⟩
    intro r hr hpr
    have h3 := (linearize_lt_iff o hp hr).2 hpr
    rcases before_total o q r with h | h | h
    · exact Or.inr h
    · exact Or.inl h.symm
    · have := (linearize_lt_iff o hr h1).2 h
      omega
  · constructor
    · intro h
      rcases e : increment o b p with ⟨r, q⟩
      rw [e] at h
      simp only at h
      subst h
      exact (increment_false o hp e).1
    · rintro rfl
      rw [increment_hi]

-- a two-dimensional box with a negative corner meets the hypotheses; the loop really enumerates its six points
example : Nonempty [(-1, 1), (3, 4)] := by decide
example : visited .rowMajor [(-1, 1), (3, 4)] 6 =
    some [[-1, 3], [-1, 4], [0, 3], [0, 4], [1, 3], [1, 4]] := by decide
example : visited .columnMajor [(-1, 1), (3, 4)] 6 =
    some [[-1, 3], [0, 3], [1, 3], [-1, 4], [0, 4], [1, 4]] := by decide
example : InBox [(-1, 1), (3, 4)] [0, 4] := by
  exact .cons (by decide) (.cons (by decide) .nil)

/-- **C02**: the number of a point is in `[0, volume)`; numbers determine points; every number in the range is taken;
numbers compare as points do in the order; advancing increases the number by exactly one; the low corner is number 0. -/
theorem c02_linearize_bijection (o : IndexOrder) (b : Rect) :
    (∀ p, InBox b p → 0 ≤ linearize o b p ∧ linearize o b p < Rect.volume b) ∧
    (∀ p q, InBox b p → InBox b q → linearize o b p = linearize o b q → p = q) ∧
    (∀ k : Int, 0 ≤ k → k < Rect.volume b → ∃ p, InBox b p ∧ linearize o b p = k) ∧
    (∀ p q, InBox b p → InBox b q → (linearize o b p < linearize o b q ↔ Before o p q)) ∧
    (∀ p q, InBox b p → increment o b p = (true, q) → linearize o b q = linearize o b p + 1) ∧
    linearize o b (Rect.lo b) = 0 := by
  refine ⟨linearize_bounds o b, fun p q hp hq => linearize_inj o hp hq, ?_, fun p q => linearize_lt_iff o,
    fun p q hp h => (increment_true o hp h).2, linearize_lo o b⟩
  intro k h0 h1
  have hk : k.toNat < (pointsOf o b).length := by rw [length_pointsOf]; omega
  refine ⟨(pointsOf o b)[k.toNat], (mem_pointsOf o b _).1 (List.getElem_mem _), ?_⟩
  rw [linearize_getElem]
  omega

/-- The rectangle's volume really is its number of points: the witness list of `c01_traversal` has that length. -/
theorem c02_volume (o : IndexOrder) (b : Rect) (l : List Point) (hn : l.Nodup) (hm : ∀ p, p ∈ l ↔ InBox b p) :
    l.length = Rect.volume b := by
  rw [← length_pointsOf o b]
  exact ((List.perm_ext_iff_of_nodup hn (pointsOf_nodup o b)).2
    (fun p => by rw [hm, mem_pointsOf])).length_eq

example : linearize .rowMajor [(-1, 1), (3, 4)] [1, 3] = 4 ∧ linearize .columnMajor [(-1, 1), (3, 4)] [1, 3] = 2 := by
  decide

/-- **C03**: on points of one dimension the comparison is the lexicographic order from the first (last) coordinate and
a strict total order. -/
theorem c03_compare_strict_total (o : IndexOrder) :
    (∀ p q : Point, p.length = q.length → (compare o p q = true ↔ Before o p q)) ∧
    (∀ p : Point, compare o p p = false) ∧
    (∀ p q r : Point, p.length = q.length → q.length = r.length →
      compare o p q = true → compare o q r = true → compare o p r = true) ∧
    (∀ p q : Point, p.length = q.length → compare o p q = false → compare o q p = false → p = q) := by
  refine ⟨compare_iff o, ?_, ?_, ?_⟩
  · intro p
    have := before_irrefl o p
    rw [← compare_iff o p p rfl] at this
    simpa using this
  · intro p q r h1 h2 h3 h4
    rw [compare_iff o _ _ h1] at h3
    rw [compare_iff o _ _ h2] at h4
    rw [compare_iff o _ _ (h1.trans h2)]
    exact before_trans o h3 h4
  · intro p q hl h1 h2
    rcases before_total o p q with h | h | h
    · rw [← compare_iff o _ _ hl] at h; simp [h] at h1
    · exact h
    · rw [← compare_iff o _ _ hl.symm] at h; simp [h] at h2

/-- **C03**, coordinate-wise reading of the two orders: some coordinate decides, all coordinates before (row-major) or
after (column-major) it agree. -/
theorem c03_compare_coordinates (p q : Point) (hl : p.length = q.length) :
    (compareRowMajor p q = true ↔
      ∃ i, ∃ (h : i < p.length), p[i] < q[i]'(hl ▸ h) ∧ ∀ j, ∀ (hj : j < i), p[j] = q[j]'(by omega)) ∧
    (compareColumnMajor p q = true ↔
      ∃ i, ∃ (h : i < p.length), p[i] < q[i]'(hl ▸ h) ∧
        ∀ j, ∀ (hj : j < p.length), i < j → p[j] = q[j]'(by omega)) := by
  have row : ∀ p q : Point, ∀ hl : p.length = q.length, (compareRowMajor p q = true ↔
      ∃ i, ∃ (h : i < p.length), p[i] < q[i]'(hl ▸ h) ∧ ∀ j, ∀ (hj : j < i), p[j] = q[j]'(by omega)) := by
    intro p
    induction p with
    | nil => intro q hl
             cases q with
             | nil => simp [compareRowMajor]
             | cons _ _ => simp at hl
    | cons x p ih =>
      intro q hl
      cases q with
      | nil => simp at hl
      | cons y q =>
        have hl' : p.length = q.length := by simpa using hl
        rw [compareRM_iff _ _ hl, lt_cons_iff, ← compareRM_iff _ _ hl', ih q hl']
        constructor
        · rintro (h | ⟨rfl, i, hi, h1, h2⟩)
          · exact ⟨0, by simp, by simpa using h, by intro j hj; omega⟩
          · refine ⟨i + 1, by simpa using hi, by simpa using h1, ?_⟩
            intro j hj
            cases j with
            | zero => rfl
            | succ j => simpa using h2 j (by omega)
        · rintro ⟨i, hi, h1, h2⟩
          cases i with
          | zero => exact Or.inl (by simpa using h1)
          | succ i =>
            refine Or.inr ⟨by simpa using h2 0 (by omega), i, by simpa using hi, by simpa using h1, ?_⟩
            intro j hj
            simpa using h2 (j + 1) (by omega)
  refine ⟨row p q hl, ?_⟩
  have hr : p.reverse.length = q.reverse.length := by simpa using hl
  rw [compareCM_iff p q hl, ← compareRM_iff _ _ hr, row _ _ hr]
  constructor
  · rintro ⟨i, hi, h1, h2⟩
    simp only [List.length_reverse] at hi
    refine ⟨p.length - 1 - i, by omega, ?_, ?_⟩
    · simp only [List.getElem_reverse] at h1
      have e : q.length - 1 - i = p.length - 1 - i := by omega
      simpa [e] using h1
    · intro j hj hij
      have := h2 (p.length - 1 - j) (by omega)
      simp only [List.getElem_reverse] at this
      have e1 : p.length - 1 - (p.length - 1 - j) = j := by omega
      have e2 : q.length - 1 - (p.length - 1 - j) = j := by omega
      simpa [e1, e2] using this
  · rintro ⟨i, hi, h1, h2⟩
    refine ⟨p.length - 1 - i, by simp; omega, ?_, ?_⟩
    · simp only [List.getElem_reverse]
      have e1 : p.length - 1 - (p.length - 1 - i) = i := by omega
      have e2 : q.length - 1 - (p.length - 1 - i) = i := by omega
      simpa [e1, e2] using h1
    · intro j hj
      simp only [List.getElem_reverse]
      have := h2 (p.length - 1 - j) (by omega) (by omega)
      have e2 : q.length - 1 - j = p.length - 1 - j := by omega
      simpa [e2] using this

example : compare .rowMajor [0, 5] [1, -2] = true ∧ compare .columnMajor [0, 5] [1, -2] = false := by decide

end Verif.Grid
