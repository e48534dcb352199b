import Verif.EndToEnd.Single
import Verif.EndToEnd.Stores
import Verif.Laplacian.Props

/-! # C50 in one dimension: `Test05COOSolveCG.cpp`, `Test06CSRSolveCG.cpp`

The one-dimensional negative Laplacian made by the library, right-hand side, zero solution vector, conjugate gradients. -/
set_option linter.dupNamespace false
set_option linter.unusedSectionVars false
namespace Verif.EndToEnd
open Verif.Runtime Verif.Vector Verif.Matrix Verif.Planner Verif.Textbook Verif.Solver Verif.Laplacian

variable {V : Type} [Field V]

/-! ## Specification -/

/-- A grid function on `0 … n - 1` continued by zero. -/
def onLine (n : Int) (u : Int → V) (i : Int) : V := if 0 ≤ i ∧ i < n then u i else 0

/-- `x` solves the discrete Poisson equation `2 x_i - x_{i-1} - x_{i+1} = b_i`, `0 ≤ i < n`, with zero boundary values. -/
def SolvesLine (n : Int) (x b : Int → V) : Prop :=
  ∀ i, 0 ≤ i → i < n → 2 * onLine n x i - onLine n x (i - 1) - onLine n x (i + 1) = b i

/-! ## The stored triples -/

/-- The triples of the matrix. -/
def lineTriples (n : Int) : List (Int × Int × V) :=
  (List.range (kernelSize n).toNat).map fun k : Nat => (rowOf (k : Int), colOf (k : Int), ((entryOf (k : Int) : Int) : V))

theorem lineTriples_length (n : Int) : (lineTriples (V := V) n).length = (kernelSize n).toNat := by simp [lineTriples]

theorem coo_line_holds (n : Int) (pieces : List (List Int)) (hp : Covers pieces (kernelSize n)) (junk : COO Int Int V) :
    HoldsCOO (createCOOLaplacian (fun z : Int => (z : V)) n pieces junk) (lineTriples n) := by
  have key : ∀ k : Nat, k < (lineTriples (V := V) n).length → (∃ piece ∈ pieces, (k : Int) ∈ piece) := by
    intro k hk
    rw [lineTriples_length] at hk
    exact (hp k).2 ⟨by omega, by omega⟩
  refine ⟨by rw [lineTriples_length]; rfl, ?_, ?_, ?_⟩
  all_goals
    intro k hk
    simp only [createCOOLaplacian, cooLaplacian_eq, fold_pieces, stored, key k hk, if_true, Option.getD_some,
      lineTriples, List.getElem_map, List.getElem_range, Option.map_some]

theorem csr_line_holds (n : Int) (hn : 2 ≤ n) (pieces rowPieces : List (List Int)) (hp : Covers pieces (kernelSize n))
    (hr : Covers rowPieces n) (junk : CSR Int Int V) :
    HoldsCSR (createCSRLaplacian (fun z : Int => (z : V)) n pieces rowPieces junk) (lineTriples n) := by
  have key : ∀ k : Nat, k < (lineTriples (V := V) n).length → (∃ piece ∈ pieces, (k : Int) ∈ piece) := by
    intro k hk
    rw [lineTriples_length] at hk
    exact (hp k).2 ⟨by omega, by omega⟩
  obtain ⟨-, -, -, hrow⟩ := c12_csr_laplacian_partial n hn pieces rowPieces pieces hp hr hp
  refine ⟨by rw [lineTriples_length]; rfl, ?_, ?_, ?_⟩
  · intro p hpm k hk
    have hpm : p ∈ indices n.toNat := hpm
    rw [mem_indices] at hpm
    have h1 := hrow p hpm.1 (by omega) k
    have h2 : (cooLaplacian pieces).row k = some (rowOf k) := by
      simp only [cooLaplacian_eq, fold_pieces, key k hk, if_true]
    rw [h2] at h1
    have h3 := rowptr_written n pieces rowPieces hr p hpm.1 (by omega)
    have h4 : storedRange (csrLaplacian n pieces rowPieces).2 junk.range p k = true ↔
        (rowptrOf n p).1 ≤ (k : Int) ∧ (k : Int) ≤ (rowptrOf n p).2 := by
      unfold storedRange
      rw [h3]
      simp
    show storedRange (csrLaplacian n pieces rowPieces).2 junk.range p k = true ↔ _
    rw [h4]
    simp only [lineTriples, List.getElem_map, List.getElem_range]
    rw [h3] at h1
    rw [Option.some.injEq] at h1
    rw [← h1]
    constructor
    · intro h; exact ⟨_, _, rfl, h⟩
    · rintro ⟨lo, hi, h, h'⟩
      rw [Option.some.injEq] at h
      rw [h]
      exact h'
  all_goals
    intro k hk
    simp only [createCSRLaplacian, csrLaplacian_eq, fold_pieces, stored, key k hk, if_true, Option.getD_some,
      lineTriples, List.getElem_map, List.getElem_range, Option.map_some]

theorem sum_filter_unique {α M : Type} [AddCommMonoid M] (l : List α) (hl : l.Nodup) (P : α → Bool) (f : α → M) (a : α)
    (ha : a ∈ l) (h : ∀ x ∈ l, P x = true ↔ x = a) : ((l.filter P).map f).sum = f a := by
  have : l.filter P = [a] := by
    have h1 : (l.filter P).Nodup := hl.filter _
    have h2 : ∀ x, x ∈ l.filter P ↔ x ∈ [a] := by
      intro x
      rw [List.mem_filter, List.mem_singleton]
      exact ⟨fun hx => (h x hx.1).1 hx.2, fun hx => by rw [hx]; exact ⟨ha, (h a ha).2 rfl⟩⟩
    exact List.perm_singleton.1 ((List.perm_ext_iff_of_nodup h1 (by simp)).2 h2)
  rw [this]
  simp

/-- The shift by one. -/
def lineShift : Equiv.Perm Int := Equiv.addRight 1

theorem line_coef (n i j : Int) (hi0 : 0 ≤ i) (hi : i < n) (hj0 : 0 ≤ j) (hj : j < n) :
    (((lineTriples (V := V) n).filter fun e => decide (e.1 = i ∧ e.2.1 = j)).map fun e => e.2.2).sum =
      shiftCoef [(lineShift, (1 : V))] i j := by
  have hs : shiftCoef [(lineShift, (1 : V))] i j = ((laplacian i j : Int) : V) := by
    have e : shiftCoef [(lineShift, (1 : V))] i j =
        1 * (2 * (if i = j then 1 else 0) - (if i + 1 = j then 1 else 0) - (if j + 1 = i then 1 else 0)) + 0 := rfl
    rw [e]
    unfold laplacian
    by_cases h1 : i = j
    · rw [if_pos h1, if_pos h1, if_neg (by omega), if_neg (by omega)]; push_cast; ring
    · rw [if_neg h1, if_neg h1]
      by_cases h2 : i + 1 = j
      · rw [if_pos h2, if_neg (by omega), if_pos (by omega)]; push_cast; ring
      · by_cases h3 : j + 1 = i
        · rw [if_neg h2, if_pos h3, if_pos (by omega)]; push_cast; ring
        · rw [if_neg h2, if_neg h3, if_neg (by omega)]; push_cast; ring
  rw [hs, lineTriples, List.filter_map, List.map_map]
  have hf : ∀ k : Nat, (decide ((rowOf k, colOf k, ((entryOf k : Int) : V)).1 = i ∧ (rowOf k, colOf k, ((entryOf k : Int) : V)).2.1 = j)) = true ↔
      ((k : Int) = 2 * i + j ∧ (i = j ∨ i = j + 1 ∨ j = i + 1)) := by
    intro k
    rw [decide_eq_true_iff, ← index_iff (by omega)]
  by_cases hb : i = j ∨ i = j + 1 ∨ j = i + 1
  · have hks : (2 * i + j).toNat < (kernelSize n).toNat := by unfold kernelSize; omega
    rw [sum_filter_unique (List.range (kernelSize n).toNat) List.nodup_range _ _ (2 * i + j).toNat (List.mem_range.2 hks)]
    · simp only [Function.comp]
      congr 1
      have e : (((2 * i + j).toNat : Nat) : Int) = 2 * i + j := by omega
      rw [e]
      exact entryOf_at (by omega) ((index_iff (by omega)).2 ⟨rfl, hb⟩)
    · intro k _
      rw [Function.comp, hf k]
      omega
  · have : (List.range (kernelSize n).toNat).filter
        ((fun e : Int × Int × V => decide (e.1 = i ∧ e.2.1 = j)) ∘ fun k : Nat => (rowOf k, colOf k, ((entryOf k : Int) : V))) = [] := by
      rw [List.filter_eq_nil_iff]
      intro k _ h
      exact hb ((hf k).1 h).2
    rw [this]
    unfold laplacian
    rw [if_neg (by omega), if_neg (by omega)]
    simp

theorem lineTriples_col (n : Int) (e : Int × Int × V) (he : e ∈ lineTriples n) : 0 ≤ e.2.1 ∧ e.2.1 < n := by
  obtain ⟨k, hk, rfl⟩ := List.mem_map.1 he
  rw [List.mem_range] at hk
  simp only
  rw [colOf_eq (by omega)]
  unfold kernelSize at hk
  omega

/-! ## C50 -/

variable [LinearOrder V] [IsStrictOrderedRing V]

theorem lineShift_pow (k : Nat) (i : Int) : (lineShift ^ k) i = i + k := by
  induction k with
  | zero => simp
  | succ k ih => rw [pow_succ', Equiv.Perm.mul_apply, ih]; simp only [lineShift, Equiv.coe_addRight]; push_cast; ring

theorem lineShift_symm (i : Int) : lineShift.symm i = i - 1 := by
  rw [Equiv.symm_apply_eq]; simp [lineShift]

theorem line_escapes (n : Int) (S : Finset Int) (hS : ∀ i, i ∈ S ↔ 0 ≤ i ∧ i < n) (i : Int) (hi : i ∈ S) :
    ∃ k : Nat, (lineShift ^ k) i ∉ S := by
  refine ⟨n.toNat, ?_⟩
  rw [lineShift_pow, hS]
  have := (hS i).1 hi
  omega

theorem line_SPD (n : Int) (S : Finset Int) (hS : ∀ i, i ∈ S ↔ 0 ≤ i ∧ i < n) :
    SPD (fun u u' : S => shiftCoef [(lineShift, (1 : V))] u.1 u'.1) := by
  apply shift_SPD
  · simp
  · intro t ht; rw [List.mem_singleton] at ht; subst ht; exact one_pos
  · intro t ht i hi
    rw [List.mem_singleton] at ht
    subst ht
    exact line_escapes n S hS i hi

theorem line_cg {A : Arith V} (hA : A.Exact) (n : Int) (m : Op Int Int V) {G : Geometry Int} {part d0 d1 base : Nat} {v0 v1 : Vec}
    (hG : ∀ i, i ∈ G.points (G.parent part) ↔ 0 ≤ i ∧ i < n) (h : Single G part d0 d1 base v0 v1 m)
    (hc : ∀ i j, 0 ≤ i → i < n → 0 ≤ j → j < n → m.coef i j = shiftCoef [(lineShift, (1 : V))] i j) (t : Nat) (s : Cell Int → V)
    (hx0 : ∀ i, 0 ≤ i → i < n → s (.elem d0 i) = 0) :
    ∃ pl, Planner.empty.setupAll G (singleCalls v0 v1 m) = some pl ∧
      ∃ k, k ≤ n.toNat ∧ Ensures (cg A G pl base k) t s fun c s' =>
        SolvesLine n (fun i => s' (.elem d0 i)) (fun i => s (.elem d1 i)) ∧
        c.history.length = k + 1 ∧ ∀ (i : Nat) a, c.history[i]? = some a → (s' (.fut a.fut) = 0 ↔ i = k) := by
  have hS : ∀ i, i ∈ (G.points (G.parent part)).toFinset ↔ 0 ≤ i ∧ i < n := fun p => by rw [List.mem_toFinset, hG]
  have hspd : SPD (fun u u' : (G.points (G.parent part)).toFinset => m.coef u.1 u'.1) := by
    have : (fun u u' : (G.points (G.parent part)).toFinset => m.coef u.1 u'.1) =
        fun u u' => shiftCoef [(lineShift, (1 : V))] u.1 u'.1 := by
      funext u u'
      have h1 := (hS _).1 u.2
      have h2 := (hS _).1 u'.2
      exact hc _ _ h1.1 h1.2 h2.1 h2.2
    rw [this]
    exact line_SPD n _ hS
  obtain ⟨pl, h1, k, h2, a, n', ts, q1, q2, q3⟩ := single_cg hA h hspd t s fun p hp => hx0 p ((hG p).1 hp).1 ((hG p).1 hp).2
  refine ⟨pl, h1, k, ?_, a, n', ts, q1, q2, fun M' h5 h6 => ?_⟩
  · have : (G.points (G.parent part)).toFinset = Finset.Ico 0 n := by ext i; rw [hS, Finset.mem_Ico]
    rw [this, Int.card_Ico] at h2
    simpa using h2
  · obtain ⟨h7, h8⟩ := q3 M' h5 h6
    refine ⟨fun i hi0 hi => ?_, h8⟩
    show _ = s (.elem d1 i)
    rw [← h7 i ((hG i).2 ⟨hi0, hi⟩)]
    have e : ∀ j ∈ (G.points (G.parent part)).toFinset, m.coef i j * M'.store (.elem d0 j) =
        shiftCoef [(lineShift, (1 : V))] i j * onLine n (fun i => M'.store (.elem d0 i)) j := by
      intro j hj
      have hj' := (hS j).1 hj
      rw [hc i j hi0 hi hj'.1 hj'.2, onLine, if_pos hj']
    rw [Finset.sum_congr rfl e, shiftCoef_apply [(lineShift, (1 : V))] _ (onLine n fun i => M'.store (.elem d0 i))
      (fun j hj => by rw [onLine, if_neg fun h => hj ((hS j).2 h)]) i]
    simp only [List.map_cons, List.map_nil, List.sum_cons, List.sum_nil, lineShift_symm]
    show _ = 1 * (2 * _ - onLine n _ (i + 1) - _) + 0
    ring

/-- **C50**, `coo_negative_laplacian_1d` (`Test05COOSolveCG.cpp`): for every grid size, every cutting of the kernel space, every
initial memory, every client partition, the set-up succeeds and some number `k ≤ n` of CG steps from zero solves
`2 x_i - x_{i-1} - x_{i+1} = b_i` (exact arithmetic, every schedule). -/
theorem c50_coo_laplacian {A : Arith V} (hA : A.Exact) (n : Int) (pieces : List (List Int)) (hp : Covers pieces (kernelSize n))
    (junk : COO Int Int V) {G : Geometry Int} {part d0 d1 base : Nat} {v0 v1 : Vec}
    (hv : TwoVectors G part d0 d1 base v0 v1) (hG : ∀ i, i ∈ G.points (G.parent part) ↔ 0 ≤ i ∧ i < n) (t : Nat)
    (s : Cell Int → V) (hx0 : ∀ i, 0 ≤ i → i < n → s (.elem d0 i) = 0) :
    ∃ pl, Planner.empty.setupAll G
        (singleCalls v0 v1 (Op.coo (createCOOLaplacian (fun z : Int => (z : V)) n pieces junk))) = some pl ∧
      ∃ k, k ≤ n.toNat ∧ Ensures (cg A G pl base k) t s fun c s' =>
        SolvesLine n (fun i => s' (.elem d0 i)) (fun i => s (.elem d1 i)) ∧
        c.history.length = k + 1 ∧ ∀ (i : Nat) a, c.history[i]? = some a → (s' (.fut a.fut) = 0 ↔ i = k) := by
  have h2 := coo_line_holds n pieces hp junk
  refine line_cg hA n _ hG ⟨hv, ?_⟩ (fun i j hi0 hi hj0 hj => ?_) t s hx0
  · exact h2.col_mem fun e he => (hG _).2 (lineTriples_col n e he)
  · rw [h2.coef, line_coef n i j hi0 hi hj0 hj]

/-- **C50**, `csr_negative_laplacian_1d` (`Test06CSRSolveCG.cpp`), at least two grid points (with one the row range
written leaves the kernel space, `c12_violated_single_point`). -/
theorem c50_csr_laplacian {A : Arith V} (hA : A.Exact) (n : Int) (hn : 2 ≤ n) (pieces rowPieces : List (List Int))
    (hp : Covers pieces (kernelSize n)) (hr : Covers rowPieces n)
    (junk : CSR Int Int V) {G : Geometry Int} {part d0 d1 base : Nat} {v0 v1 : Vec}
    (hv : TwoVectors G part d0 d1 base v0 v1) (hG : ∀ i, i ∈ G.points (G.parent part) ↔ 0 ≤ i ∧ i < n) (t : Nat)
    (s : Cell Int → V) (hx0 : ∀ i, 0 ≤ i → i < n → s (.elem d0 i) = 0) :
    ∃ pl, Planner.empty.setupAll G
        (singleCalls v0 v1 (Op.csr (createCSRLaplacian (fun z : Int => (z : V)) n pieces rowPieces junk))) = some pl ∧
      ∃ k, k ≤ n.toNat ∧ Ensures (cg A G pl base k) t s fun c s' =>
        SolvesLine n (fun i => s' (.elem d0 i)) (fun i => s (.elem d1 i)) ∧
        c.history.length = k + 1 ∧ ∀ (i : Nat) a, c.history[i]? = some a → (s' (.fut a.fut) = 0 ↔ i = k) := by
  have h2 := csr_line_holds n hn pieces rowPieces hp hr junk
  have hrows : ∀ i, i ∈ (createCSRLaplacian (fun z : Int => (z : V)) n pieces rowPieces junk).rows ↔ 0 ≤ i ∧ i < n := by
    intro i
    show i ∈ indices n.toNat ↔ _
    rw [mem_indices]
    omega
  refine line_cg hA n _ hG ⟨hv, ?_⟩ (fun i j hi0 hi hj0 hj => ?_) t s hx0
  · exact ⟨h2.col_mem fun e he => (hG _).2 (lineTriples_col n e he), fun i => by rw [hrows, hG], h2.rowsDisjoint⟩
  · rw [h2.coef i j ((hrows i).2 ⟨hi0, hi⟩), line_coef n i j hi0 hi hj0 hj]

/-- The equation has only one solution. -/
theorem solvesLine_unique (n : Int) (x y b : Int → V) (hx : SolvesLine n x b) (hy : SolvesLine n y b) (i : Int) (h0 : 0 ≤ i)
    (h1 : i < n) : x i = y i := by
  by_contra hne
  have hS : ∀ i, i ∈ Finset.Ico 0 n ↔ 0 ≤ i ∧ i < n := fun i => Finset.mem_Ico
  set f : Int → V := fun i => onLine n x i - onLine n y i with hf
  have hpos := shift_form_pos lineShift (Finset.Ico 0 n) (line_escapes n _ hS) f
    (fun j hj => by simp only [hf, onLine, if_neg fun h => hj ((hS j).2 h), sub_zero]) i
    (by simp only [hf, onLine, if_pos (And.intro h0 h1)]; exact sub_ne_zero.2 hne)
  have hz : ∑ p ∈ Finset.Ico 0 n, f p * (2 * f p - f (lineShift p) - f (lineShift.symm p)) = 0 := by
    refine Finset.sum_eq_zero fun p hp => ?_
    have hp' := (hS p).1 hp
    have e1 := hx p hp'.1 hp'.2
    have e2 := hy p hp'.1 hp'.2
    have : 2 * f p - f (lineShift p) - f (lineShift.symm p) = 0 := by
      rw [lineShift_symm, show lineShift p = p + 1 from rfl]
      simp only [hf]
      linear_combination e1 - e2
    rw [this, mul_zero]
  rw [hz] at hpos
  exact lt_irrefl _ hpos

/-- **C50**: with the right-hand side of the tests, constantly 1, the solution is `(i + 1) (n - i) / 2`. -/
theorem c50_ones (n : Int) (x b : Int → V) (hb : ∀ i, 0 ≤ i → i < n → b i = 1) (hx : SolvesLine n x b) (i : Int) (h0 : 0 ≤ i)
    (h1 : i < n) : x i = ((i : V) + 1) * ((n : V) - i) / 2 := by
  refine solvesLine_unique n x (fun i => ((i : V) + 1) * ((n : V) - i) / 2) b hx (fun j hj0 hj => ?_) i h0 h1
  have ext : ∀ j : Int, -1 ≤ j → j ≤ n → onLine n (fun i : Int => ((i : V) + 1) * ((n : V) - i) / 2) j =
      ((j : V) + 1) * ((n : V) - j) / 2 := by
    intro j hj hj'
    unfold onLine
    by_cases h : 0 ≤ j ∧ j < n
    · rw [if_pos h]
    · rw [if_neg h]
      rcases (by omega : j = -1 ∨ j = n) with rfl | rfl
      · push_cast; ring
      · ring
  rw [ext j (by omega) (by omega), ext (j - 1) (by omega) (by omega), ext (j + 1) (by omega) (by omega), hb j hj0 hj]
  push_cast
  have : (2 : V) ≠ 0 := two_ne_zero
  field_simp
  ring

end Verif.EndToEnd
