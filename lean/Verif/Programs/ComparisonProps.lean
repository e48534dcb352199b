import Verif.Programs.Comparison

/-! # C77: the comparison programs assemble the library's matrix -/
set_option linter.dupNamespace false
set_option linter.unusedSectionVars false
namespace Verif.Programs
open Verif.Runtime Verif.Vector Verif.Matrix Verif.Planner Verif.Solver Verif.EndToEnd Verif.Grid Verif.Stencil

/-! ## The offsets in row-major order -/

/-- The offsets in the order of their points. -/
def sortedCodes (dim : Int) : List (Point × Int) :=
  if dim = 1 then [([-1], -1), ([0], 2), ([1], -1)]
  else if dim = 2 then [([-1, 0], -1), ([0, -1], -1), ([0, 0], 4), ([0, 1], -1), ([1, 0], -1)]
  else if dim = 3 then
    [([-1, 0, 0], -1), ([0, -1, 0], -1), ([0, 0, -1], -1), ([0, 0, 0], 6), ([0, 0, 1], -1), ([0, 1, 0], -1), ([1, 0, 0], -1)]
  else
    [([-1, -1, -1], -2), ([-1, -1, 0], -3), ([-1, -1, 1], -2), ([-1, 0, -1], -3), ([-1, 0, 0], -6), ([-1, 0, 1], -3),
     ([-1, 1, -1], -2), ([-1, 1, 0], -3), ([-1, 1, 1], -2),
     ([0, -1, -1], -3), ([0, -1, 0], -6), ([0, -1, 1], -3), ([0, 0, -1], -6), ([0, 0, 0], 88), ([0, 0, 1], -6),
     ([0, 1, -1], -3), ([0, 1, 0], -6), ([0, 1, 1], -3),
     ([1, -1, -1], -2), ([1, -1, 0], -3), ([1, -1, 1], -2), ([1, 0, -1], -3), ([1, 0, 0], -6), ([1, 0, 1], -3),
     ([1, 1, -1], -2), ([1, 1, 0], -3), ([1, 1, 1], -2)]

theorem sortedCodes_perm {dim : Int} (h : dim = 1 ∨ dim = 2 ∨ dim = 3 ∨ dim = 4) : (sortedCodes dim).Perm (offsetCodes dim) := by
  rcases h with rfl | rfl | rfl | rfl <;> decide +kernel

theorem sortedCodes_ordered {dim : Int} (h : dim = 1 ∨ dim = 2 ∨ dim = 3 ∨ dim = 4) :
    (sortedCodes dim).Pairwise fun p q => compareRowMajor q.1 p.1 = false ∧ compareRowMajor p.1 q.1 = true := by
  rcases h with rfl | rfl | rfl | rfl <;> decide +kernel

theorem codes_distinct {dim : Int} (h : dim = 1 ∨ dim = 2 ∨ dim = 3 ∨ dim = 4) :
    ∀ s ∈ sortedCodes dim, ∀ t ∈ sortedCodes dim, compareRowMajor s.1 t.1 = false → compareRowMajor t.1 s.1 = false → s = t := by
  rcases h with rfl | rfl | rfl | rfl <;> decide +kernel

section
variable {V : Type} {A : Arith V} {lit : Int → V}

/-- Sorting has only one possible result here. -/
theorem sort_offsets {dim : Int} (h : dim = 1 ∨ dim = 2 ∨ dim = 3 ∨ dim = 4) {lt : V → V → Bool} {offsets sorted : List (Point × V)}
    (ho : benchOffsets A lit dim = some offsets) (hs : IsSort .rowMajor lt offsets sorted) :
    sorted = (sortedCodes dim).map fun t => (t.1, litOf A lit dim t.2) := by
  rw [benchOffsets_eq h] at ho
  cases ho
  have hp : sorted.Perm ((sortedCodes dim).map fun t => (t.1, litOf A lit dim t.2)) :=
    hs.perm.trans ((sortedCodes_perm h).map _).symm
  refine List.Perm.eq_of_pairwise (le := fun p q => offsetLess .rowMajor lt q p = false) ?_ hs.ordered ?_ hp
  · intro a b ha hb h1 h2
    obtain ⟨s, hs', rfl⟩ := List.mem_map.1 (hp.mem_iff.1 ha)
    obtain ⟨t, ht', rfl⟩ := List.mem_map.1 hb
    have e : s = t := by
      apply codes_distinct h s hs' t ht'
      · by_cases hc : compareRowMajor s.1 t.1 = true
        · simp only [offsetLess, Grid.compare, hc, if_true] at h2
          cases h2
        · simpa using hc
      · by_cases hc : compareRowMajor t.1 s.1 = true
        · simp only [offsetLess, Grid.compare, hc, if_true] at h1
          cases h1
        · simpa using hc
    rw [e]
  · rw [List.pairwise_map]
    refine (sortedCodes_ordered h).imp fun {s t} hst => ?_
    simp [offsetLess, Grid.compare, hst.1, hst.2]

/-! ## One row -/

theorem inBox1 {n x : Int} : InBox (boxOf [n]) [x] ↔ 0 ≤ x ∧ x < n := by
  rw [inBox_cons]
  constructor
  · rintro ⟨h, -⟩; omega
  · intro h; exact ⟨by omega, List.Forall₂.nil⟩

theorem inBox2 {n m x y : Int} : InBox (boxOf [n, m]) [x, y] ↔ (0 ≤ x ∧ x < n) ∧ 0 ≤ y ∧ y < m := by
  rw [inBox_cons, inBox1]
  constructor <;> (rintro ⟨h, h'⟩; omega)

theorem inBox3 {n m l x y z : Int} : InBox (boxOf [n, m, l]) [x, y, z] ↔ (0 ≤ x ∧ x < n) ∧ (0 ≤ y ∧ y < m) ∧ 0 ≤ z ∧ z < l := by
  rw [inBox_cons, inBox2]
  constructor <;> (rintro ⟨h, h'⟩; omega)

theorem lin1 (n x : Int) : linearize .rowMajor (boxOf [n]) [x] = x := by
  simp [linearize, linearizeRowMajor, linearizeRowMajorAux, boxOf]

theorem lin2 (n m x y : Int) : linearize .rowMajor (boxOf [n, m]) [x, y] = m * x + y := by
  simp [linearize, linearizeRowMajor, linearizeRowMajorAux, boxOf]
  try ring

theorem lin3 (n m l x y z : Int) : linearize .rowMajor (boxOf [n, m, l]) [x, y, z] = m * l * x + l * y + z := by
  simp [linearize, linearizeRowMajor, linearizeRowMajorAux, boxOf]
  try ring

theorem rowEntries_put (b : Rect) (codes : List (Point × Int)) (f : Int → V) (p : Point) :
    ((rowEntries b (codes.map fun t => (t.1, f t.2)) p).map fun e => (linearize .rowMajor b e.2.1, e.2.2)) =
      codes.flatMap fun t => put (InBox b (addPoint p t.1)) (linearize .rowMajor b (addPoint p t.1)) (f t.2) := by
  induction codes with
  | nil => rfl
  | cons t codes ih =>
    rw [List.flatMap_cons, ← ih]
    simp only [rowEntries, put, List.map_cons, List.filterMap_cons]
    by_cases h : InBox b (addPoint p t.1)
    · simp only [if_pos h, List.map_cons, List.singleton_append]
    · simp only [if_neg h, List.nil_append]

theorem put_congr {c c' : Prop} [Decidable c] [Decidable c'] {i i' : Int} {v v' : V} (h : c ↔ c') (hi : i = i') (hv : v = v') :
    put c i v = put c' i' v' := by
  subst hi hv
  simp only [put, h]

theorem put_append {c c' : Prop} [Decidable c] [Decidable c'] {i i' : Int} {v v' : V} {l l' : List (Int × V)} (h : c ↔ c') (hi : i = i')
    (hv : v = v') (hl : l = l') : put c i v ++ l = put c' i' v' ++ l' := by
  rw [put_congr h hi hv, hl]

/-- One row of the specification, in the form of the comparison programs. -/
def specRow (A : Arith V) (lit : Int → V) (dim : Int) (b : Rect) (p : Point) : List (Int × V) :=
  (sortedCodes dim).flatMap fun t => put (InBox b (addPoint p t.1)) (linearize .rowMajor b (addPoint p t.1)) (litOf A lit dim t.2)

/-- Solves equations of lists of guarded entries. -/
macro "puts" : tactic => `(tactic| (
  simp only [List.append_assoc]
  repeat' (first
    | exact put_congr (by omega) (by ring) rfl
    | exact put_congr (iff_of_true trivial (by omega)) (by ring) rfl
    | refine put_append (by omega) (by ring) rfl ?_
    | refine put_append (iff_of_true trivial (by omega)) (by ring) rfl ?_)))

theorem petscRow_spec1 {nx gx : Int} (hx : 0 ≤ gx ∧ gx < nx) :
    petscRow1 (consts A lit) nx gx = specRow A lit 1 (boxOf [nx]) [gx] := by
  simp only [specRow, sortedCodes, if_true, List.flatMap_cons, List.flatMap_nil, List.append_nil, addPoint, List.zipWith, inBox1, lin1, petscRow1,
    consts, litOf]
  puts

theorem split2 {nx ny gx gy : Int} (hx : 0 ≤ gx ∧ gx < nx) (hy : 0 ≤ gy ∧ gy < ny) :
    (ny * gx + gy).tmod ny = gy ∧ (ny * gx + gy).tdiv ny = gx := by
  have h0 : 0 ≤ ny * gx := mul_nonneg (by omega) hx.1
  rw [Int.tmod_eq_emod_of_nonneg (by omega), Int.tdiv_eq_ediv_of_nonneg (by omega)]
  rw [Int.mul_add_emod_self_left, Int.emod_eq_of_lt hy.1 hy.2, Int.mul_add_ediv_left _ _ (by omega), Int.ediv_eq_zero_of_lt hy.1 hy.2]
  simp

theorem petscRow_spec2 {nx ny gx gy : Int} (hx : 0 ≤ gx ∧ gx < nx) (hy : 0 ≤ gy ∧ gy < ny) :
    petscRow2 (consts A lit) nx ny (ny * gx + gy) = specRow A lit 2 (boxOf [nx, ny]) [gx, gy] := by
  have h2 : ¬((2 : Int) = 1) := by decide
  simp only [specRow, sortedCodes, if_true, h2, if_false, List.flatMap_cons, List.flatMap_nil, List.append_nil, addPoint, List.zipWith, inBox2, lin2,
    petscRow2, split2 hx hy, consts, litOf]
  puts

theorem split3 {nx ny nz gx gy gz : Int} (hx : 0 ≤ gx ∧ gx < nx) (hy : 0 ≤ gy ∧ gy < ny) (hz : 0 ≤ gz ∧ gz < nz) :
    (ny * nz * gx + nz * gy + gz).tmod nz = gz ∧ ((ny * nz * gx + nz * gy + gz).tdiv nz).tmod ny = gy ∧
      ((ny * nz * gx + nz * gy + gz).tdiv nz).tdiv ny = gx := by
  have e : ny * nz * gx + nz * gy + gz = nz * (ny * gx + gy) + gz := by ring
  have h0 : 0 ≤ ny * gx := mul_nonneg (by omega) hx.1
  have h := split2 (nx := ny * gx + gy + 1) (ny := nz) (gx := ny * gx + gy) (gy := gz) (by omega) hz
  rw [e, h.1, h.2]
  exact ⟨rfl, split2 hx hy⟩

theorem petscRow_spec3 {nx ny nz gx gy gz : Int} (hx : 0 ≤ gx ∧ gx < nx) (hy : 0 ≤ gy ∧ gy < ny) (hz : 0 ≤ gz ∧ gz < nz) :
    petscRow3 (consts A lit) nx ny nz (ny * nz * gx + nz * gy + gz) = specRow A lit 3 (boxOf [nx, ny, nz]) [gx, gy, gz] := by
  have h1 : ¬((3 : Int) = 1) := by decide
  have h2 : ¬((3 : Int) = 2) := by decide
  simp only [specRow, sortedCodes, if_true, h1, h2, if_false, List.flatMap_cons, List.flatMap_nil, List.append_nil, addPoint, List.zipWith, inBox3, lin3,
    petscRow3, split3 hx hy hz, consts, litOf]
  puts


theorem petscRow_spec4 {nx ny nz gx gy gz : Int} (hx : 0 ≤ gx ∧ gx < nx) (hy : 0 ≤ gy ∧ gy < ny) (hz : 0 ≤ gz ∧ gz < nz) :
    petscRow4 (consts A lit) nx ny nz (ny * nz * gx + nz * gy + gz) = specRow A lit 4 (boxOf [nx, ny, nz]) [gx, gy, gz] := by
  have h1 : ¬((4 : Int) = 1) := by decide
  have h2 : ¬((4 : Int) = 2) := by decide
  have h3 : ¬((4 : Int) = 3) := by decide
  delta petscRow4
  simp only [specRow, sortedCodes, if_true, h1, h2, h3, if_false, List.flatMap_cons, List.flatMap_nil, List.append_nil, addPoint, List.zipWith, inBox3,
    lin3, split3 hx hy hz, consts, litOf]
  puts

/-- The row a comparison program assembles is the row of the specification at the grid point with that number. -/
theorem petscRow_spec {o : Options} (hd : o.dim = 1 ∨ o.dim = 2 ∨ o.dim = 3 ∨ o.dim = 4) {p : Point} (hp : InBox (boxOf (benchSizes o)) p) :
    petscRow (consts A lit) o.dim o.nx o.ny o.nz (linearize .rowMajor (boxOf (benchSizes o)) p) = specRow A lit o.dim (boxOf (benchSizes o)) p := by
  have hl := hp.length_eq
  rw [boxOf_length, benchSizes_length] at hl
  rcases hd with h | h | h | h <;> simp only [h, benchSizes, gridDim] at hl hp ⊢
  · match p, hl with
    | [x], _ =>
      simp only [if_true] at hp ⊢
      rw [lin1]
      exact petscRow_spec1 (inBox1.1 hp)
  · match p, hl with
    | [x, y], _ =>
      norm_num at hp ⊢
      rw [lin2]
      exact petscRow_spec2 (inBox2.1 hp).1 (inBox2.1 hp).2
  · match p, hl with
    | [x, y, z], _ =>
      norm_num at hp ⊢
      rw [lin3]
      exact petscRow_spec3 (inBox3.1 hp).1 (inBox3.1 hp).2.1 (inBox3.1 hp).2.2
  · match p, hl with
    | [x, y, z], _ =>
      norm_num at hp ⊢
      rw [lin3]
      exact petscRow_spec4 (inBox3.1 hp).1 (inBox3.1 hp).2.1 (inBox3.1 hp).2.2

theorem exists_point {b : Rect} {j : Int} (h : 0 ≤ j ∧ j < Rect.volume b) : ∃ p, InBox b p ∧ linearize .rowMajor b p = j := by
  have hm : j ∈ (pointsOf .rowMajor b).map (linearize .rowMajor b) := by
    rw [map_linearize]
    exact List.mem_map.2 ⟨j.toNat, List.mem_range.2 (by omega), by simp [h.1]⟩
  obtain ⟨p, hp, e⟩ := List.mem_map.1 hm
  exact ⟨p, (mem_pointsOf .rowMajor b p).1 hp, e⟩

/-! ## Trilinos: the same rows -/

/-- Appending a row to the two vectors. -/
def Buffers.append (s : Buffers V) (l : List (Int × V)) : Buffers V := ⟨s.indices ++ l.map Prod.fst, s.values ++ l.map Prod.snd⟩

theorem push_eq (c : Prop) [Decidable c] (i : Int) (v : V) (s : Buffers V) : push c i v s = s.append (put c i v) := by
  unfold push put Buffers.append
  by_cases h : c <;> simp [h]

theorem append_append (s : Buffers V) (l l' : List (Int × V)) : (s.append l).append l' = s.append (l ++ l') := by
  simp [Buffers.append]

theorem trilinosRow_eq (k : Consts V) (dim nx ny nz g : Int) (s : Buffers V) :
    trilinosRow k dim nx ny nz g s = s.append (petscRow k dim nx ny nz g) := by
  unfold trilinosRow petscRow
  split
  · delta trilinosRow1 petscRow1
    simp only [push_eq, append_append, List.append_assoc]
  split
  · delta trilinosRow2 petscRow2
    simp only [push_eq, append_append, List.append_assoc]
  split
  · delta trilinosRow3 petscRow3
    simp only [push_eq, append_append, List.append_assoc]
  · delta trilinosRow4 petscRow4
    simp only [push_eq, append_append, List.append_assoc]

theorem trilinosLoop_eq (k : Consts V) (dim nx ny nz : Int) (rows : List Int) :
    trilinosLoop k dim nx ny nz rows ⟨[], []⟩ =
      rows.map fun g => (g, (petscRow k dim nx ny nz g).map Prod.fst, (petscRow k dim nx ny nz g).map Prod.snd) := by
  induction rows with
  | nil => rfl
  | cons g rows ih =>
    simp only [trilinosLoop, trilinosRow_eq, ih, List.map_cons]
    simp [Buffers.append]

/-! ## Specification -/

/-- A comparison program run with sizes `z` has the grid of the library's benchmark: the directions in use have the same numbers of points, and
the others one. -/
structure SameGrid (o : Options) (z : Sizes) : Prop where
  nx : z.nx = o.nx
  ny : z.ny = if o.dim = 1 then 1 else o.ny
  nz : z.nz = if o.dim = 1 ∨ o.dim = 2 then 1 else o.nz

/-- The rows of the ranks, consecutive ranges from `row_start` up to but without `row_end`, are all the rows in order. -/
def OwnedRanges (n : Nat) (owned : List (Int × Int)) : Prop := (owned.flatMap fun r => (indices (r.2 - r.1).toNat).map (r.1 + ·)) = indices n

/-- The rows of the ranks, in any distribution, are all the rows, each once. -/
def OwnedRows (n : Nat) (owned : List (List Int)) : Prop := owned.flatten.Perm (indices n)

/-- The assembled matrix has the entry `v` in row `i` and column `j` if and only if the library's matrix stores it there; the library's matrix has
`n` rows and stores at most one entry in each place. -/
structure SameMatrix (n : Nat) (m : CSR Int Int V) (assembled : Int → Int → Option V) : Prop where
  rows : m.rows = indices n
  once : ∀ i : Int, 0 ≤ i ∧ i < n → (((Op.csr m).stored i).map Prod.fst).Nodup
  same : ∀ (i j : Int) (v : V), assembled i j = some v ↔ (0 ≤ i ∧ i < n) ∧ (j, v) ∈ (Op.csr m).stored i

/-! ## The matrices -/

theorem volume_size {o : Options} {z : Sizes} (hs : 1 ≤ o.nx ∧ 1 ≤ o.ny ∧ 1 ≤ o.nz) (hd : o.dim = 1 ∨ o.dim = 2 ∨ o.dim = 3 ∨ o.dim = 4)
    (hz : SameGrid o z) : Rect.volume (boxOf (benchSizes o)) = problemSize z.nx z.ny z.nz := by
  unfold problemSize
  rw [hz.nx, hz.ny, hz.nz]
  rcases hd with h | h | h | h <;> simp only [h, benchSizes, boxOf] <;> norm_num [Rect.volume]
  · rw [Int.toNat_mul (by omega) (by omega)]
  · rw [Int.toNat_mul (Int.mul_nonneg (by omega) (by omega)) (by omega), Int.toNat_mul (by omega) (by omega), mul_assoc]
  · rw [Int.toNat_mul (Int.mul_nonneg (by omega) (by omega)) (by omega), Int.toNat_mul (by omega) (by omega), mul_assoc]

theorem petscRow_sizes (k : Consts V) {o : Options} {z : Sizes} (hd : o.dim = 1 ∨ o.dim = 2 ∨ o.dim = 3 ∨ o.dim = 4) (hz : SameGrid o z) (g : Int) :
    petscRow k o.dim z.nx z.ny z.nz g = petscRow k o.dim o.nx o.ny o.nz g := by
  rw [hz.nx, hz.ny, hz.nz]
  rcases hd with h | h | h | h <;> simp only [h, petscRow] <;> norm_num

theorem addPoint_inj (p a b : Point) (ha : a.length = p.length) (hb : b.length = p.length) (h : addPoint p a = addPoint p b) : a = b := by
  induction p generalizing a b with
  | nil => rw [List.eq_nil_of_length_eq_zero ha, List.eq_nil_of_length_eq_zero hb]
  | cons x p ih =>
    cases a with
    | nil => simp at ha
    | cons a as =>
      cases b with
      | nil => simp at hb
      | cons b bs =>
        simp only [addPoint, List.zipWith_cons_cons, List.cons.injEq] at h
        rw [ih as bs (by simpa using ha) (by simpa using hb) h.2, show a = b by omega]

theorem codes_nodup {dim : Int} (h : dim = 1 ∨ dim = 2 ∨ dim = 3 ∨ dim = 4) : ((sortedCodes dim).map Prod.fst).Nodup := by
  rcases h with rfl | rfl | rfl | rfl <;> decide +kernel

theorem specRow_nodup {dim : Int} (h : dim = 1 ∨ dim = 2 ∨ dim = 3 ∨ dim = 4) (b : Rect) {p : Point} (hl : p.length = gridDim dim) :
    ((specRow A lit dim b p).map Prod.fst).Nodup := by
  have hlen : ∀ t ∈ sortedCodes dim, t.1.length = p.length := fun t ht => by
    rw [hl]; exact offsetCodes_length h t ((sortedCodes_perm h).mem_iff.1 ht)
  have hn := codes_nodup h
  unfold specRow
  generalize sortedCodes dim = codes at hlen hn
  induction codes with
  | nil => simp
  | cons t codes ih =>
    have hn' := List.nodup_cons.1 hn
    have ih' := ih (fun s hs => hlen s (List.mem_cons_of_mem _ hs)) hn'.2
    rw [List.flatMap_cons]
    by_cases hin : InBox b (addPoint p t.1)
    · simp only [put, if_pos hin, List.singleton_append, List.map_cons]
      refine List.nodup_cons.2 ⟨fun hm => ?_, ih'⟩
      obtain ⟨e, he, hee⟩ := List.mem_map.1 hm
      obtain ⟨s, hs, hse⟩ := List.mem_flatMap.1 he
      by_cases hin' : InBox b (addPoint p s.1)
      · rw [if_pos hin', List.mem_singleton] at hse
        subst hse
        have := addPoint_inj p _ _ (hlen s (List.mem_cons_of_mem _ hs)) (hlen t List.mem_cons_self) (linearize_inj .rowMajor hin' hin hee)
        exact hn'.1 (this ▸ List.mem_map_of_mem hs)
      · rw [if_neg hin'] at hse
        cases hse
    · rw [put, if_neg hin]
      exact ih'

/-- The library's matrix stores, row by row, what the comparison programs assemble. -/
theorem library_rows {o : Options} {W : Nat} (ho : o.Ok W) {offs sorted : List (Point × V)} {lt : V → V → Bool}
    (hoff : benchOffsets A lit o.dim = some offs) (hs : IsSort .rowMajor lt offs sorted) {m : CSR Int Int V}
    (hr : m.rows = indices (Rect.volume (boxOf (benchSizes o))))
    (hm : HoldsCSR m ((stencilEntries (boxOf (benchSizes o)) sorted (pointsOf .rowMajor (boxOf (benchSizes o)))).map
      (linTriple .rowMajor (boxOf (benchSizes o))))) {i : Int} (hi : 0 ≤ i ∧ i < Rect.volume (boxOf (benchSizes o))) :
    (Op.csr m).stored i = petscRow (consts A lit) o.dim o.nx o.ny o.nz i ∧ (((Op.csr m).stored i).map Prod.fst).Nodup := by
  obtain ⟨p, hp, rfl⟩ := exists_point hi
  rw [stored_row hr hm hp, sort_offsets ho.dim hoff hs, rowEntries_put, petscRow_spec ho.dim hp]
  refine ⟨rfl, ?_⟩
  have hl := hp.length_eq
  rw [boxOf_length, benchSizes_length] at hl
  exact specRow_nodup ho.dim _ hl.symm

/-! ## What is assembled in one place -/

theorem one_row (l : List (Int × V)) (hl : (l.map Prod.fst).Nodup) (j : Int) :
    (∃ v, (j, v) ∈ l ∧ (l.filter fun e => decide (e.1 = j)).map Prod.snd = [v]) ∨
      (∀ v, (j, v) ∉ l) ∧ (l.filter fun e => decide (e.1 = j)).map Prod.snd = [] := by
  induction l with
  | nil => right; simp
  | cons e l ih =>
    obtain ⟨c, w⟩ := e
    have hn := List.nodup_cons.1 hl
    by_cases hc : c = j
    · subst hc
      left
      refine ⟨w, List.mem_cons_self, ?_⟩
      have : (l.filter fun e => decide (e.1 = c)) = [] := by
        rw [List.filter_eq_nil_iff]
        intro e he h
        exact hn.1 (List.mem_map.2 ⟨e, he, by simpa using h⟩)
      simp [this]
    · rcases ih hn.2 with ⟨v, hv, h⟩ | ⟨hv, h⟩
      · exact Or.inl ⟨v, List.mem_cons_of_mem _ hv, by simpa [hc] using h⟩
      · refine Or.inr ⟨fun v hm => ?_, by simpa [hc] using h⟩
        rcases List.mem_cons.1 hm with h' | h'
        · cases h'; exact hc rfl
        · exact hv v h'

theorem one_place (f : Int → List (Int × V)) (R : List Int) (hR : R.Nodup) (i j : Int) :
    (((R.flatMap fun g => (f g).map fun e => (g, e.1, e.2)).filter fun e => decide (e.1 = i ∧ e.2.1 = j)).map fun e => e.2.2) =
      if i ∈ R then ((f i).filter fun e => decide (e.1 = j)).map Prod.snd else [] := by
  induction R with
  | nil => simp
  | cons g R ih =>
    have hn := List.nodup_cons.1 hR
    rw [List.flatMap_cons, List.filter_append, List.map_append, ih hn.2, List.filter_map, List.map_map]
    by_cases hg : g = i
    · subst hg
      have e : ((fun e : Int × Int × V => decide (e.1 = g ∧ e.2.1 = j)) ∘ fun e : Int × V => (g, e.1, e.2)) = fun e => decide (e.1 = j) := by
        funext e; simp
      rw [e, if_neg hn.1, if_pos List.mem_cons_self, List.append_nil]
      rfl
    · have e : ((f g).filter ((fun e : Int × Int × V => decide (e.1 = i ∧ e.2.1 = j)) ∘ fun e : Int × V => (g, e.1, e.2))) = [] := by
        rw [List.filter_eq_nil_iff]
        intro e _ h
        simp [hg] at h
      rw [e, List.map_nil, List.nil_append]
      have : (i ∈ g :: R) = (i ∈ R) := by simp [Ne.symm hg]
      simp only [this]

/-- The values assembled in one place: the one in the row, if any. -/
theorem place_values (f : Int → List (Int × V)) {R : List Int} (hR : R.Nodup) {c : Int → Prop} (hc : ∀ k, k ∈ R ↔ c k)
    (hf : ∀ k, c k → ((f k).map Prod.fst).Nodup) (i j : Int) :
    (∃ w, (∀ v, w = v ↔ c i ∧ (j, v) ∈ f i) ∧
      (((R.flatMap fun g => (f g).map fun e => (g, e.1, e.2)).filter fun e => decide (e.1 = i ∧ e.2.1 = j)).map fun e => e.2.2) = [w]) ∨
    (∀ v, ¬(c i ∧ (j, v) ∈ f i)) ∧
      (((R.flatMap fun g => (f g).map fun e => (g, e.1, e.2)).filter fun e => decide (e.1 = i ∧ e.2.1 = j)).map fun e => e.2.2) = [] := by
  rw [one_place f R hR]
  by_cases hi : i ∈ R
  · have hci := (hc i).1 hi
    rw [if_pos hi]
    rcases one_row _ (hf i hci) j with ⟨w, hw, h⟩ | ⟨hw, h⟩
    · refine Or.inl ⟨w, fun v => ⟨fun e => e ▸ ⟨hci, hw⟩, fun hv => ?_⟩, h⟩
      have : v ∈ (((f i).filter fun e => decide (e.1 = j)).map Prod.snd) :=
        List.mem_map.2 ⟨(j, v), List.mem_filter.2 ⟨hv.2, by simp⟩, rfl⟩
      rw [h] at this
      exact (List.mem_singleton.1 this).symm
    · exact Or.inr ⟨fun v hv => hw v hv.2, h⟩
  · rw [if_neg hi]
    exact Or.inr ⟨fun v hv => hi ((hc i).2 hv.1), rfl⟩

theorem zip_parts : ∀ l : List (Int × V), (l.map Prod.fst).zip (l.map Prod.snd) = l
  | [] => rfl
  | _ :: l => by simp [zip_parts l]

theorem nodup_indices (n : Nat) : (indices n).Nodup :=
  (List.nodup_range).map fun _ _ h => Int.ofNat_inj.1 h

/-- **C77, PETSc**: for every difference operator and non-empty grid, and however the rows are distributed in ranges, the program sets exactly the
entries the library's benchmark matrix stores, in the same order and in each place once, so the assembled matrix is the same (whatever the
arithmetic). -/
theorem c77_petsc {o : Options} {W : Nat} (ho : o.Ok W) (sort : List (Point × V) → List (Point × V)) (lt : V → V → Bool)
    (hsort : ∀ offsets, benchOffsets A lit o.dim = some offsets → IsSort .rowMajor lt offsets (sort offsets)) {z : Sizes} (hz : SameGrid o z) :
    ∃ offsets, benchOffsets A lit o.dim = some offsets ∧ ∃ size, calculateStencilSize (boxOf (benchSizes o)) offsets = some size ∧
    ∃ N : Nat, ∀ fuel, N ≤ fuel → ∀ pieces, Cuts (boxOf (benchSizes o)) size pieces → ∀ junk,
    ∃ m, getLaplacian A lit sort o.dim o.nx o.ny o.nz pieces fuel junk = some m ∧
    ∀ owned, OwnedRanges (problemSize z.nx z.ny z.nz) owned →
      petscSets (consts A lit) o.dim z.nx z.ny z.nz owned =
        ((indices (problemSize z.nx z.ny z.nz)).flatMap fun i => ((Op.csr m).stored i).map fun e => (i, e.1, e.2)) ∧
      SameMatrix (problemSize z.nx z.ny z.nz) m (insertedAt (petscSets (consts A lit) o.dim z.nx z.ny z.nz owned)) := by
  obtain ⟨offsets, hoff, size, hsize, N, hN⟩ := getLaplacian_holds ho sort lt hsort
  refine ⟨offsets, hoff, size, hsize, N, fun fuel hf pieces hp junk => ?_⟩
  obtain ⟨m, hm, hr, hh⟩ := hN fuel hf pieces hp junk
  refine ⟨m, hm, fun owned hown => ?_⟩
  have hvol := volume_size ho.sizes ho.dim hz
  have hrow : ∀ i : Int, 0 ≤ i ∧ i < problemSize z.nx z.ny z.nz →
      (Op.csr m).stored i = petscRow (consts A lit) o.dim z.nx z.ny z.nz i ∧ (((Op.csr m).stored i).map Prod.fst).Nodup := by
    intro i hi
    rw [petscRow_sizes _ ho.dim hz]
    exact library_rows ho hoff (hsort _ hoff) hr hh (by rw [hvol]; exact hi)
  have e : petscSets (consts A lit) o.dim z.nx z.ny z.nz owned =
      ((indices (problemSize z.nx z.ny z.nz)).flatMap fun i => ((Op.csr m).stored i).map fun e => (i, e.1, e.2)) := by
    have : petscSets (consts A lit) o.dim z.nx z.ny z.nz owned = (indices (problemSize z.nx z.ny z.nz)).flatMap fun g =>
        (petscRow (consts A lit) o.dim z.nx z.ny z.nz g).map fun e => (g, e.1, e.2) := by
      rw [← hown, List.flatMap_assoc]
      rfl
    rw [this]
    apply List.flatMap_congr
    intro i hi
    rw [(hrow i ((EndToEnd.mem_indices _ _).1 hi)).1]
  refine ⟨e, by rw [hr, hvol], fun i hi => (hrow i hi).2, fun i j v => ?_⟩
  rw [e]
  unfold insertedAt
  rcases place_values (fun i => (Op.csr m).stored i) (nodup_indices _) (fun k => EndToEnd.mem_indices _ k) (fun k hk => (hrow k hk).2) i j with
    ⟨w, hw, h⟩ | ⟨hw, h⟩
  · rw [h, List.getLast?_singleton, Option.some.injEq]
    exact hw v
  · rw [h, List.getLast?_nil]
    exact ⟨fun h => (by cases h), fun h => absurd h (hw v)⟩

/-- **C77, Trilinos**: however the rows are distributed, the program inserts every row once, with the entries the library's benchmark matrix
stores in that row, in the same order and in each place once, so the assembled matrix is the same (whatever the arithmetic). -/
theorem c77_trilinos {o : Options} {W : Nat} (ho : o.Ok W) (sort : List (Point × V) → List (Point × V)) (lt : V → V → Bool)
    (hsort : ∀ offsets, benchOffsets A lit o.dim = some offsets → IsSort .rowMajor lt offsets (sort offsets)) {z : Sizes} (hz : SameGrid o z) :
    ∃ offsets, benchOffsets A lit o.dim = some offsets ∧ ∃ size, calculateStencilSize (boxOf (benchSizes o)) offsets = some size ∧
    ∃ N : Nat, ∀ fuel, N ≤ fuel → ∀ pieces, Cuts (boxOf (benchSizes o)) size pieces → ∀ junk,
    ∃ m, getLaplacian A lit sort o.dim o.nx o.ny o.nz pieces fuel junk = some m ∧
    ∀ owned, OwnedRows (problemSize z.nx z.ny z.nz) owned →
      (trilinosInserts (consts A lit) o.dim z.nx z.ny z.nz owned).Perm
        ((indices (problemSize z.nx z.ny z.nz)).map fun i => (i, ((Op.csr m).stored i).map Prod.fst, ((Op.csr m).stored i).map Prod.snd)) ∧
      SameMatrix (problemSize z.nx z.ny z.nz) m (summedAt A (trilinosInserts (consts A lit) o.dim z.nx z.ny z.nz owned)) := by
  obtain ⟨offsets, hoff, size, hsize, N, hN⟩ := getLaplacian_holds ho sort lt hsort
  refine ⟨offsets, hoff, size, hsize, N, fun fuel hf pieces hp junk => ?_⟩
  obtain ⟨m, hm, hr, hh⟩ := hN fuel hf pieces hp junk
  refine ⟨m, hm, fun owned hown => ?_⟩
  have hvol := volume_size ho.sizes ho.dim hz
  have hrow : ∀ i : Int, 0 ≤ i ∧ i < problemSize z.nx z.ny z.nz →
      (Op.csr m).stored i = petscRow (consts A lit) o.dim z.nx z.ny z.nz i ∧ (((Op.csr m).stored i).map Prod.fst).Nodup := by
    intro i hi
    rw [petscRow_sizes _ ho.dim hz]
    exact library_rows ho hoff (hsort _ hoff) hr hh (by rw [hvol]; exact hi)
  have hmem : ∀ k, k ∈ owned.flatten ↔ 0 ≤ k ∧ k < (problemSize z.nx z.ny z.nz : Int) := fun k => by
    rw [hown.mem_iff, EndToEnd.mem_indices]
  have e : trilinosInserts (consts A lit) o.dim z.nx z.ny z.nz owned =
      owned.flatten.map fun i => (i, ((Op.csr m).stored i).map Prod.fst, ((Op.csr m).stored i).map Prod.snd) := by
    have : trilinosInserts (consts A lit) o.dim z.nx z.ny z.nz owned = owned.flatten.map fun g =>
        (g, (petscRow (consts A lit) o.dim z.nx z.ny z.nz g).map Prod.fst, (petscRow (consts A lit) o.dim z.nx z.ny z.nz g).map Prod.snd) := by
      unfold trilinosInserts
      simp only [trilinosLoop_eq]
      rw [List.flatMap_def, List.map_flatten]
    rw [this]
    apply List.map_congr_left
    intro i hi
    rw [(hrow i ((hmem i).1 hi)).1]
  refine ⟨by rw [e]; exact hown.map _, by rw [hr, hvol], fun i hi => (hrow i hi).2, fun i j v => ?_⟩
  have e2 : ((trilinosInserts (consts A lit) o.dim z.nx z.ny z.nz owned).flatMap fun t => (t.2.1.zip t.2.2).map fun e => (t.1, e.1, e.2)) =
      owned.flatten.flatMap fun i => ((Op.csr m).stored i).map fun e => (i, e.1, e.2) := by
    rw [e, List.flatMap_map]
    apply List.flatMap_congr
    intro i _
    simp only
    rw [zip_parts]
  unfold summedAt
  rw [e2]
  rcases place_values (fun i => (Op.csr m).stored i) (hown.nodup_iff.2 (nodup_indices _)) hmem (fun k hk => (hrow k hk).2) i j with
    ⟨w, hw, h⟩ | ⟨hw, h⟩
  · rw [h]
    simp only [List.foldl_nil, Option.some.injEq]
    exact hw v
  · rw [h]
    exact ⟨fun h => (by cases h), fun h => absurd h (hw v)⟩

end

/-- **C77, the scripts**: `bench_all_ls.py` runs all three programs on the same grid, for every operator and every problem size it can pass. -/
theorem c77_scripts {dim : Int} {size : List Int} {s p t : Sizes} (hs : librarySizesLs dim size = some s) (hp : petscSizes dim size = some p)
    (ht : trilinosSizes dim size = some t) (solver : Int) (it pt : Nat) :
    SameGrid ⟨dim, solver, s.nx, s.ny, s.nz, it, pt⟩ p ∧ SameGrid ⟨dim, solver, s.nx, s.ny, s.nz, it, pt⟩ t := by
  match size with
  | [x] =>
    simp only [librarySizesLs, petscSizes, trilinosSizes] at hs hp ht
    by_cases h : dim = 1
    · rw [if_pos h] at hs hp ht
      cases hs; cases hp; cases ht
      exact ⟨⟨rfl, by simp [h], by simp [h]⟩, ⟨rfl, by simp [h], by simp [h]⟩⟩
    · rw [if_neg h] at hs; cases hs
  | [x, y] =>
    simp only [librarySizesLs, petscSizes, trilinosSizes] at hs hp ht
    by_cases h : dim = 2
    · rw [if_pos h] at hs hp ht
      cases hs; cases hp; cases ht
      exact ⟨⟨rfl, by simp [h], by simp [h]⟩, ⟨rfl, by simp [h], by simp [h]⟩⟩
    · rw [if_neg h] at hs; cases hs
  | [x, y, z] =>
    simp only [librarySizesLs, petscSizes, trilinosSizes] at hs hp ht
    by_cases h : dim = 3 ∨ dim = 4
    · rw [if_pos h] at hs hp ht
      cases hs; cases hp; cases ht
      have h1 : ¬dim = 1 := by omega
      have h2 : ¬dim = 2 := by omega
      exact ⟨⟨rfl, by simp [h1], by simp [h1, h2]⟩, ⟨rfl, by simp [h1], by simp [h1, h2]⟩⟩
    · rw [if_neg h] at hs; cases hs
  | [] => cases hs
  | _ :: _ :: _ :: _ :: _ => cases hs

/-- **C77, the scripts**: `bench_all.py` runs the library on the grid of the other programs exactly when the problem has at most two dimensions or
its second and third sizes are equal; otherwise the systems do not even have the same number of unknowns. -/
theorem c77_bench_all {dim : Int} {size : List Int} {s p : Sizes} (hs : librarySizes dim size = some s) (hp : petscSizes dim size = some p)
    (hpos : ∀ n ∈ size, 1 ≤ n) (solver : Int) (it pt : Nat) :
    (SameGrid ⟨dim, solver, s.nx, s.ny, s.nz, it, pt⟩ p ↔ ∀ x y z, size = [x, y, z] → y = z) ∧
    ((∃ x y z, size = [x, y, z] ∧ y ≠ z) →
      Rect.volume (boxOf (benchSizes ⟨dim, solver, s.nx, s.ny, s.nz, it, pt⟩)) ≠ problemSize p.nx p.ny p.nz) := by
  match size with
  | [x] =>
    simp only [librarySizes, petscSizes] at hs hp
    by_cases h : dim = 1
    · rw [if_pos h] at hs hp
      cases hs; cases hp
      refine ⟨⟨fun _ _ _ _ h => (by cases h), fun _ => ⟨rfl, by simp [h], by simp [h]⟩⟩, ?_⟩
      rintro ⟨_, _, _, h, -⟩; cases h
    · rw [if_neg h] at hs; cases hs
  | [x, y] =>
    simp only [librarySizes, petscSizes] at hs hp
    by_cases h : dim = 2
    · rw [if_pos h] at hs hp
      cases hs; cases hp
      refine ⟨⟨fun _ _ _ _ h => (by cases h), fun _ => ⟨rfl, by simp [h], by simp [h]⟩⟩, ?_⟩
      rintro ⟨_, _, _, h, -⟩; cases h
    · rw [if_neg h] at hs; cases hs
  | [x, y, z] =>
    simp only [librarySizes, petscSizes] at hs hp
    by_cases h : dim = 3 ∨ dim = 4
    · rw [if_pos h] at hs hp
      cases hs; cases hp
      have h1 : ¬dim = 1 := by omega
      have h2 : ¬dim = 2 := by omega
      have hx := hpos x (by simp)
      have hy := hpos y (by simp)
      have hz := hpos z (by simp)
      constructor
      · constructor
        · intro hg x' y' z' e
          cases e
          have := hg.nz
          simp [h1, h2] at this
          exact this.symm
        · intro he
          have := he x y z rfl
          subst this
          exact ⟨rfl, by simp [h1], by simp [h1, h2]⟩
      · rintro ⟨x', y', z', e, hne⟩
        cases e
        intro hv
        apply hne
        simp only [benchSizes, h1, h2, if_false, boxOf, List.map, Rect.volume, problemSize] at hv
        norm_num at hv
        rw [Int.toNat_mul (Int.mul_nonneg (by omega) (by omega)) (by omega), Int.toNat_mul (by omega) (by omega), mul_assoc] at hv
        have a := Nat.eq_of_mul_eq_mul_left (by omega) hv
        have b := Nat.eq_of_mul_eq_mul_left (by omega) a
        omega
    · rw [if_neg h] at hs; cases hs
  | [] => cases hs
  | _ :: _ :: _ :: _ :: _ => cases hs

end Verif.Programs
