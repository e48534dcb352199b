import Verif.EndToEnd.Stencil
import Verif.EndToEnd.Single

/-! # C50: conjugate gradients on difference operators built by the library

The benchmark of the library (`test/BenchmarkStencil.cpp` 30-200) and its CG tests solve with difference operators: a centre value
and pairs of opposite offsets with equal negative values. -/
set_option linter.dupNamespace false
set_option linter.unusedSectionVars false
namespace Verif.EndToEnd
open Verif.Grid Verif.Stencil Verif.Runtime Verif.Vector Verif.Matrix Verif.Planner Verif.Textbook Verif.Solver

variable {V : Type} [Field V]

/-! ## Specification -/

/-- The opposite offset. -/
def negPoint (v : Point) : Point := v.map (- ·)

/-- The offset list of a difference operator in dimension `d`: the centre with twice the sum of the weights, and for each direction
its two offsets with minus its weight.  (`BenchmarkStencil.cpp` 37-39: `d = 1`, direction `[1]`, weight 1; 50-54: directions `[1, 0]`
and `[0, 1]`; 65-71; the 27-point stencil of 82-125 has 13 directions, weights 6/26, 3/26 and 2/26.) -/
def diffOffsets (d : Nat) (dirs : List (Point × V)) : List (Point × V) :=
  (List.replicate d 0, 2 * (dirs.map Prod.snd).sum) :: dirs.flatMap fun t => [(negPoint t.1, -t.2), (t.1, -t.2)]

/-- The difference operator: `Σ w * (2 u(p) - u(p + v) - u(p - v))` over the directions `v` with weight `w`. -/
def diffOp (dirs : List (Point × V)) (u : Point → V) (p : Point) : V :=
  (dirs.map fun t => t.2 * (2 * u p - u (addPoint p t.1) - u (addPoint p (negPoint t.1)))).sum

/-- A grid function continued by zero outside the grid. -/
def zeroOutside (b : Rect) (u : Point → V) (p : Point) : V := if InBox b p then u p else 0

/-! ## Translations as bijections -/

theorem addPoint_neg (p v : Point) (h : p.length = v.length) : addPoint (addPoint p v) (negPoint v) = p := by
  apply List.ext_getElem
  · simp [addPoint, negPoint, h]
  · intro i h1 h2
    simp [addPoint, negPoint]

theorem addPoint_neg' (p v : Point) (h : p.length = v.length) : addPoint (addPoint p (negPoint v)) v = p := by
  apply List.ext_getElem
  · simp [addPoint, negPoint, h]
  · intro i h1 h2
    simp [addPoint, negPoint]

theorem length_addPoint (p v : Point) (h : p.length = v.length) : (addPoint p v).length = v.length := by simp [addPoint, h]
theorem length_negPoint (v : Point) : (negPoint v).length = v.length := by simp [negPoint]

/-- Translation by `v` (points of another dimension stay). -/
def translate (v : Point) : Equiv.Perm Point where
  toFun p := if p.length = v.length then addPoint p v else p
  invFun p := if p.length = v.length then addPoint p (negPoint v) else p
  left_inv p := by
    by_cases h : p.length = v.length
    · simp only [h, if_true, length_addPoint p v h]
      exact addPoint_neg p v h
    · simp [h]
  right_inv p := by
    by_cases h : p.length = v.length
    · have : (addPoint p (negPoint v)).length = v.length := by
        rw [length_addPoint p _ (by rw [length_negPoint, h]), length_negPoint]
      simp only [h, if_true, this]
      exact addPoint_neg' p v h
    · simp [h]

theorem translate_apply {v p : Point} (h : p.length = v.length) : translate v p = addPoint p v := by simp [translate, h]
theorem translate_symm_apply {v p : Point} (h : p.length = v.length) : (translate v).symm p = addPoint p (negPoint v) := by
  show (if p.length = v.length then addPoint p (negPoint v) else p) = _
  rw [if_pos h]

theorem translate_pow (v : Point) (n : Nat) (p : Point) (h : p.length = v.length) :
    (((translate v) ^ n) p).length = v.length ∧
      ∀ i (h1 : i < (((translate v) ^ n) p).length) (h2 : i < p.length) (h3 : i < v.length),
        (((translate v) ^ n) p)[i] = p[i] + n * v[i] := by
  induction n with
  | zero => exact ⟨by simpa using h, fun i h1 h2 h3 => by simp⟩
  | succ n ih =>
    obtain ⟨ih1, ih2⟩ := ih
    have e : (translate v ^ (n + 1)) p = addPoint ((translate v ^ n) p) v := by
      rw [pow_succ']
      exact translate_apply ih1
    refine ⟨by rw [e]; exact length_addPoint _ _ ih1, fun i h1 h2 h3 => ?_⟩
    have h4 : i < ((translate v ^ n) p).length := by rw [ih1]; exact h3
    have : ((translate v ^ (n + 1)) p)[i] = ((translate v ^ n) p)[i] + v[i] := by
      simp only [e, addPoint, List.getElem_zipWith]
    rw [this, ih2 i h4 h2 h3]
    push_cast
    ring

theorem inBox_getElem {b : Rect} {p : Point} (h : InBox b p) (i : Nat) (h1 : i < b.length) (h2 : i < p.length) :
    b[i].1 ≤ p[i] ∧ p[i] ≤ b[i].2 := by
  have := (List.forall₂_iff_get.1 h).2 i h1 h2
  simpa using this

/-- Repeating a nonzero translation leads out of every grid. -/
theorem translate_escapes (b : Rect) (v : Point) (hl : v.length = b.length) (hnz : ∃ c ∈ v, c ≠ 0) (p : Point) (hp : InBox b p) :
    ∃ n : Nat, ¬ InBox b (((translate v) ^ n) p) := by
  obtain ⟨c, hc, hc0⟩ := hnz
  obtain ⟨i, hi, rfl⟩ := List.getElem_of_mem hc
  have hpl : p.length = v.length := by rw [← hp.length_eq, hl]
  have hib : i < b.length := by rw [← hl]; exact hi
  have hip : i < p.length := by rw [hpl]; exact hi
  refine ⟨(b[i].2 - b[i].1 + 1).toNat, fun hq => ?_⟩
  obtain ⟨h1, h2⟩ := translate_pow v (b[i].2 - b[i].1 + 1).toNat p hpl
  have hq1 := inBox_getElem hq i hib (by rw [h1]; exact hi)
  have hp1 := inBox_getElem hp i hib hip
  rw [h2 i (by rw [h1]; exact hi) hip hi] at hq1
  have h3 : (((b[i].2 - b[i].1 + 1).toNat : Nat) : Int) = b[i].2 - b[i].1 + 1 := by omega
  rw [h3] at hq1
  rcases lt_or_gt_of_ne hc0 with h | h
  · nlinarith
  · nlinarith

/-! ## The coefficients -/

theorem addPoint_zero (p : Point) : addPoint p (List.replicate p.length 0) = p := by
  apply List.ext_getElem
  · simp [addPoint]
  · intro i h1 h2; simp [addPoint]

/-- The coefficients of a stencil: the sum of the values of the offsets that lead from `p` to `q`. -/
theorem stencil_coef (o : IndexOrder) (b : Rect) (offsets sorted : List (Point × V)) (hperm : sorted.Perm offsets) (p q : Point)
    (hp : InBox b p) (hq : InBox b q) :
    (((stencilEntries b sorted (pointsOf o b)).filter fun e => decide (e.1 = p ∧ e.2.1 = q)).map fun e => e.2.2).sum =
      (offsets.map fun oe => if addPoint p oe.1 = q then oe.2 else 0).sum := by
  have h1 : (stencilEntries b sorted (pointsOf o b)).filter (fun e => decide (e.1 = p ∧ e.2.1 = q)) =
      (rowEntries b sorted p).filter fun e => decide (e.2.1 = q) := by
    rw [← filter_row b sorted _ (pointsOf_nodup o b) p ((mem_pointsOf o b p).2 hp), List.filter_filter]
    apply List.filter_congr
    intro e _
    rw [Bool.eq_iff_iff]
    simp [and_comm]
  rw [h1, ← (hperm.map _).sum_eq]
  clear h1 hperm
  unfold rowEntries
  induction sorted with
  | nil => rfl
  | cons oe l ih =>
    rw [List.map_cons, List.sum_cons, ← ih]
    by_cases h : addPoint p oe.1 = q
    · have hin : InBox b (addPoint p oe.1) := by rw [h]; exact hq
      simp [h, hq]
    · by_cases hin : InBox b (addPoint p oe.1)
      · simp [h, hin]
      · simp [h, hin]

/-- The weighted shifts of a difference operator. -/
def shiftsOf (dirs : List (Point × V)) : List (Equiv.Perm Point × V) := dirs.map fun t => (translate t.1, t.2)

theorem diff_coef (dirs : List (Point × V)) (p q : Point) (hlp : ∀ t ∈ dirs, t.1.length = p.length) :
    ((diffOffsets p.length dirs).map fun oe => if addPoint p oe.1 = q then oe.2 else 0).sum = shiftCoef (shiftsOf dirs) p q := by
  unfold diffOffsets
  rw [List.map_cons, List.sum_cons, addPoint_zero]
  induction dirs with
  | nil => simp [shiftCoef, shiftsOf]
  | cons t dirs ih =>
    have ih := ih fun t' h => hlp t' (by simp [h])
    have ht := hlp t (by simp)
    have e1 : (addPoint p t.1 = q) ↔ (translate t.1 p = q) := by rw [translate_apply ht.symm]
    have e2 : (addPoint p (negPoint t.1) = q) ↔ (translate t.1 q = p) := by
      rw [← translate_symm_apply ht.symm, Equiv.symm_apply_eq]
      exact eq_comm
    have : shiftCoef (shiftsOf (t :: dirs)) p q = t.2 * (2 * (if p = q then 1 else 0) - (if translate t.1 p = q then 1 else 0) -
        (if translate t.1 q = p then 1 else 0)) + shiftCoef (shiftsOf dirs) p q := by
      simp [shiftCoef, shiftsOf]
    rw [this, ← ih]
    simp only [List.flatMap_cons, List.cons_append, List.nil_append, List.map_cons, List.sum_cons, e1, e2]
    split_ifs <;> ring

/-! ## Conjugate gradients on the operator -/

variable [LinearOrder V] [IsStrictOrderedRing V]

theorem diff_SPD (b : Rect) (dirs : List (Point × V)) (hne : dirs ≠ []) (hl : ∀ t ∈ dirs, t.1.length = b.length)
    (hnz : ∀ t ∈ dirs, ∃ c ∈ t.1, c ≠ 0) (hw : ∀ t ∈ dirs, 0 < t.2) (S : Finset Point) (hS : ∀ p, p ∈ S ↔ InBox b p) :
    SPD (fun u u' : S => shiftCoef (shiftsOf dirs) u.1 u'.1) := by
  apply shift_SPD
  · simpa [shiftsOf] using hne
  · intro t ht
    obtain ⟨t', ht', rfl⟩ := List.mem_map.1 ht
    exact hw t' ht'
  · intro t ht p hp
    obtain ⟨t', ht', rfl⟩ := List.mem_map.1 ht
    obtain ⟨n, hn⟩ := translate_escapes b t'.1 (hl t' ht') (hnz t' ht') p ((hS p).1 hp)
    exact ⟨n, fun h => hn ((hS _).1 h)⟩

theorem shiftCoef_diffOp (b : Rect) (dirs : List (Point × V)) (hl : ∀ t ∈ dirs, t.1.length = b.length)
    (S : Finset Point) (hS : ∀ p, p ∈ S ↔ InBox b p) (u : Point → V) (p : Point) (hp : InBox b p) :
    ∑ q ∈ S, shiftCoef (shiftsOf dirs) p q * u q = diffOp dirs (zeroOutside b u) p := by
  have h1 : ∑ q ∈ S, shiftCoef (shiftsOf dirs) p q * u q = ∑ q ∈ S, shiftCoef (shiftsOf dirs) p q * zeroOutside b u q :=
    Finset.sum_congr rfl fun q hq => by rw [zeroOutside, if_pos ((hS q).1 hq)]
  rw [h1, shiftCoef_apply (shiftsOf dirs) S (zeroOutside b u)
    (fun q hq => by rw [zeroOutside, if_neg fun h => hq ((hS q).2 h)]) p]
  unfold diffOp shiftsOf
  rw [List.map_map]
  congr 1
  apply List.map_congr_left
  intro t ht
  have hlen : p.length = t.1.length := by rw [hl t ht, hp.length_eq]
  simp only [Function.comp, translate_apply hlen, translate_symm_apply hlen]

theorem card_box (b : Rect) (S : Finset Point) (hS : ∀ p, p ∈ S ↔ InBox b p) : S.card = Rect.volume b := by
  have : S = (pointsOf .rowMajor b).toFinset := by
    ext p
    rw [hS, List.mem_toFinset, mem_pointsOf]
  rw [this, List.toFinset_card_of_nodup (pointsOf_nodup _ b), length_pointsOf]

/-- A matrix with the coefficients of a difference operator on a grid: CG solves the difference equation. -/
theorem diff_cg {A : Arith V} (hA : A.Exact) (b : Rect) (dirs : List (Point × V)) (hne : dirs ≠ [])
    (hl : ∀ t ∈ dirs, t.1.length = b.length) (hnz : ∀ t ∈ dirs, ∃ c ∈ t.1, c ≠ 0) (hw : ∀ t ∈ dirs, 0 < t.2)
    (m : Op Int Point V) {G : Geometry Point} {part d0 d1 base : Nat} {v0 v1 : Vec}
    (hG : ∀ p, p ∈ G.points (G.parent part) ↔ InBox b p)
    (h : Single G part d0 d1 base v0 v1 m)
    (hc : ∀ p q, InBox b p → InBox b q → m.coef p q = shiftCoef (shiftsOf dirs) p q) (n : Nat) (s : Cell Point → V)
    (hx0 : ∀ p, InBox b p → s (.elem d0 p) = 0) :
    ∃ pl, Planner.empty.setupAll G (singleCalls v0 v1 m) = some pl ∧
      ∃ k, k ≤ Rect.volume b ∧ Ensures (cg A G pl base k) n s fun c s' =>
        (∀ p, InBox b p → diffOp dirs (zeroOutside b fun q => s' (.elem d0 q)) p = s (.elem d1 p)) ∧
        c.history.length = k + 1 ∧ ∀ (i : Nat) a, c.history[i]? = some a → (s' (.fut a.fut) = 0 ↔ i = k) := by
  have hS : ∀ p, p ∈ (G.points (G.parent part)).toFinset ↔ InBox b p := fun p => by rw [List.mem_toFinset, hG]
  have hspd : SPD (fun u u' : (G.points (G.parent part)).toFinset => m.coef u.1 u'.1) := by
    have : (fun u u' : (G.points (G.parent part)).toFinset => m.coef u.1 u'.1) =
        fun u u' => shiftCoef (shiftsOf dirs) u.1 u'.1 := by
      funext u u'
      exact hc _ _ ((hS _).1 u.2) ((hS _).1 u'.2)
    rw [this]
    exact diff_SPD b dirs hne hl hnz hw _ hS
  obtain ⟨pl, h1, k, h2, h3⟩ := single_cg hA h hspd n s fun p hp => hx0 p ((hG p).1 hp)
  refine ⟨pl, h1, k, by rw [← card_box b _ hS]; exact h2, ?_⟩
  obtain ⟨a, n', ts, q1, q2, q3⟩ := h3
  refine ⟨a, n', ts, q1, q2, fun M' h5 h6 => ?_⟩
  obtain ⟨h7, h8⟩ := q3 M' h5 h6
  refine ⟨fun p hp => ?_, h8⟩
  rw [← h7 p ((hG p).2 hp), ← shiftCoef_diffOp b dirs hl _ hS _ p hp]
  exact Finset.sum_congr rfl fun q hq => by rw [hc p q hp ((hS q).1 hq)]

theorem diff_lengths {b : Rect} {dirs : List (Point × V)} {offsets : List (Point × V)} (hl : ∀ t ∈ dirs, t.1.length = b.length)
    (hoff : offsets.Perm (diffOffsets b.length dirs)) : ∀ oe ∈ offsets, oe.1.length = b.length := by
  intro oe h
  have h := hoff.mem_iff.1 h
  unfold diffOffsets at h
  rcases List.mem_cons.1 h with rfl | h
  · simp
  · obtain ⟨t, ht, h⟩ := List.mem_flatMap.1 h
    simp only [List.mem_cons, List.not_mem_nil, or_false] at h
    rcases h with rfl | rfl
    · rw [length_negPoint]; exact hl t ht
    · exact hl t ht

/-! ## C50 -/

/-- **C50**, COO: for every grid in every dimension, every difference operator (at least one direction, nonzero directions, positive
weights) whose offset list is given in any order, every sort result, every cutting of the kernel space and initial memory: building
the matrix succeeds; for every client that makes solution and right-hand side vectors on any partition of the grid and registers the
three, the set-up succeeds, and some number of CG steps, at most the number of grid points, from a zero solution vector makes - in
exact arithmetic, under every schedule - the solution vector solve the difference equation at every grid point.  The residual norms
recorded are zero exactly at the end. -/
theorem c50_coo_stencil {A : Arith V} (hA : A.Exact) (sort : List (Point × V) → List (Point × V)) (lt : V → V → Bool)
    (o : IndexOrder) (b : Rect) (offsets : List (Point × V)) (hb : b ≠ []) (hsort : IsSort o lt offsets (sort offsets))
    (dirs : List (Point × V)) (hne : dirs ≠ []) (hl : ∀ t ∈ dirs, t.1.length = b.length)
    (hnz : ∀ t ∈ dirs, ∃ c ∈ t.1, c ≠ 0) (hw : ∀ t ∈ dirs, 0 < t.2) (hoff : offsets.Perm (diffOffsets b.length dirs)) :
    ∃ N : Nat, ∀ fuel, N ≤ fuel → ∀ pieces, CoversSize b offsets pieces → ∀ junk,
      ∃ m, createCOOStencil sort o b offsets pieces fuel junk = some m ∧
        ∀ {G : Geometry Point} {part d0 d1 base : Nat} {v0 v1 : Vec}, TwoVectors G part d0 d1 base v0 v1 →
          (∀ p, p ∈ G.points (G.parent part) ↔ InBox b p) →
        ∀ (n : Nat) (s : Cell Point → V), (∀ p, InBox b p → s (.elem d0 p) = 0) →
        ∃ pl, Planner.empty.setupAll G (singleCalls v0 v1 (Op.coo m)) = some pl ∧
          ∃ k, k ≤ Rect.volume b ∧ Ensures (cg A G pl base k) n s fun c s' =>
            (∀ p, InBox b p → diffOp dirs (zeroOutside b fun q => s' (.elem d0 q)) p = s (.elem d1 p)) ∧
            c.history.length = k + 1 ∧ ∀ (i : Nat) a, c.history[i]? = some a → (s' (.fut a.fut) = 0 ↔ i = k) := by
  have ho := diff_lengths hl hoff
  obtain ⟨N, hN⟩ := cooStencil_holds sort lt o b offsets hb ho hsort
  refine ⟨N, fun fuel hf pieces hc junk => ?_⟩
  obtain ⟨m, h1, h2⟩ := hN fuel hf pieces hc junk
  refine ⟨m, h1, fun hv hG n s hx0 => ?_⟩
  refine diff_cg hA b dirs hne hl hnz hw (Op.coo m) hG ⟨hv, ?_⟩ (fun p q hp hq => ?_) n s hx0
  · exact h2.col_mem fun e he => (hG _).2 (mem_stencilEntries he).2
  · rw [h2.coef, stencil_coef o b offsets _ hsort.perm p q hp hq, (hoff.map _).sum_eq, hp.length_eq]
    exact diff_coef dirs p q (fun t ht => by rw [hl t ht, hp.length_eq])

/-- **C50**, CSR: the same. -/
theorem c50_csr_stencil {A : Arith V} (hA : A.Exact) (sort : List (Point × V) → List (Point × V)) (lt : V → V → Bool)
    (o : IndexOrder) (b : Rect) (offsets : List (Point × V)) (hb : b ≠ []) (hsort : IsSort o lt offsets (sort offsets))
    (dirs : List (Point × V)) (hne : dirs ≠ []) (hl : ∀ t ∈ dirs, t.1.length = b.length)
    (hnz : ∀ t ∈ dirs, ∃ c ∈ t.1, c ≠ 0) (hw : ∀ t ∈ dirs, 0 < t.2) (hoff : offsets.Perm (diffOffsets b.length dirs)) :
    ∃ N : Nat, ∀ fuel, N ≤ fuel → ∀ (rows : List Point) (pieces : List ((Int → Bool) × (Point → Bool))),
      (∀ p, p ∈ rows ↔ InBox b p) → CoversSize b offsets (pieces.map Prod.fst) →
      (∀ D ∈ pieces, ∀ p, D.2 p = true → InBox b p) → (∀ p, InBox b p → ∃ D ∈ pieces, D.2 p = true) → ∀ junk,
      ∃ m, createCSRStencil sort o b offsets rows pieces fuel junk = some m ∧
        ∀ {G : Geometry Point} {part d0 d1 base : Nat} {v0 v1 : Vec}, TwoVectors G part d0 d1 base v0 v1 →
          (∀ p, p ∈ G.points (G.parent part) ↔ InBox b p) →
        ∀ (n : Nat) (s : Cell Point → V), (∀ p, InBox b p → s (.elem d0 p) = 0) →
        ∃ pl, Planner.empty.setupAll G (singleCalls v0 v1 (Op.csr m)) = some pl ∧
          ∃ k, k ≤ Rect.volume b ∧ Ensures (cg A G pl base k) n s fun c s' =>
            (∀ p, InBox b p → diffOp dirs (zeroOutside b fun q => s' (.elem d0 q)) p = s (.elem d1 p)) ∧
            c.history.length = k + 1 ∧ ∀ (i : Nat) a, c.history[i]? = some a → (s' (.fut a.fut) = 0 ↔ i = k) := by
  have ho := diff_lengths hl hoff
  obtain ⟨N, hN⟩ := csrStencil_holds sort lt o b offsets hb ho hsort
  refine ⟨N, fun fuel hf rows pieces hsp hc h3 h4 junk => ?_⟩
  obtain ⟨m, h1, hr, h2⟩ := hN fuel hf rows pieces hsp hc h3 h4 junk
  refine ⟨m, h1, fun hv hG n s hx0 => ?_⟩
  refine diff_cg hA b dirs hne hl hnz hw (Op.csr m) hG ⟨hv, ?_⟩ (fun p q hp hq => ?_) n s hx0
  · exact ⟨h2.col_mem fun e he => (hG _).2 (mem_stencilEntries he).2, fun p => by rw [hr, hsp, hG], h2.rowsDisjoint⟩
  · rw [h2.coef p q (by rw [hr]; exact (hsp p).2 hp), stencil_coef o b offsets _ hsort.perm p q hp hq,
      (hoff.map _).sum_eq, hp.length_eq]
    exact diff_coef dirs p q (fun t ht => by rw [hl t ht, hp.length_eq])

/-- **C50**, linearised CSR (the form the library's benchmark uses): one-dimensional vectors hold grid point `p` at its linear number. -/
theorem c50_linearized_stencil {A : Arith V} (hA : A.Exact) (sort : List (Point × V) → List (Point × V)) (lt : V → V → Bool)
    (o : IndexOrder) (b : Rect) (offsets : List (Point × V)) (hb : b ≠ [])
    (hsort : IsSort o lt offsets (sort offsets))
    (dirs : List (Point × V)) (hne : dirs ≠ []) (hl : ∀ t ∈ dirs, t.1.length = b.length)
    (hnz : ∀ t ∈ dirs, ∃ c ∈ t.1, c ≠ 0) (hw : ∀ t ∈ dirs, 0 < t.2) (hoff : offsets.Perm (diffOffsets b.length dirs)) :
    ∃ N : Nat, ∀ fuel, N ≤ fuel → ∀ (pieces : List (Dom1 × Dom1)),
      CoversSize b offsets (pieces.map fun D => D.1.contains) →
      (∀ size, calculateStencilSize b offsets = some size → ∀ D ∈ pieces, ∀ j, D.1.contains j = true →
        D.1.lo ≤ j ∧ j ≤ D.1.hi ∧ 0 ≤ j ∧ j < size) →
      (∀ D ∈ pieces, ∀ j, D.2.contains j = true → D.2.lo ≤ j ∧ j ≤ D.2.hi ∧ 0 ≤ j ∧ j < Rect.volume b) →
      (∀ j : Int, 0 ≤ j → j < Rect.volume b → ∃ D ∈ pieces, D.2.contains j = true) → ∀ junk,
      ∃ m, createLinCSRStencil sort o b offsets pieces fuel junk = some m ∧
        ∀ {G : Geometry Int} {part d0 d1 base : Nat} {v0 v1 : Vec}, TwoVectors G part d0 d1 base v0 v1 →
          (∀ j, j ∈ G.points (G.parent part) ↔ 0 ≤ j ∧ j < Rect.volume b) →
        ∀ (n : Nat) (s : Cell Int → V), (∀ p, InBox b p → s (.elem d0 (linearize o b p)) = 0) →
        ∃ pl, Planner.empty.setupAll G (singleCalls v0 v1 (Op.csr m)) = some pl ∧
          ∃ k, k ≤ Rect.volume b ∧ Ensures (cg A G pl base k) n s fun c s' =>
            (∀ p, InBox b p → diffOp dirs (zeroOutside b fun q => s' (.elem d0 (linearize o b q))) p =
              s (.elem d1 (linearize o b p))) ∧
            c.history.length = k + 1 ∧ ∀ (i : Nat) a, c.history[i]? = some a → (s' (.fut a.fut) = 0 ↔ i = k) := by
  have ho := diff_lengths hl hoff
  obtain ⟨N, hN⟩ := linCsrStencil_holds sort lt o b offsets hb ho hsort
  refine ⟨N, fun fuel hf pieces hc h3 h4 h5 junk => ?_⟩
  obtain ⟨m, h1, hr, h2⟩ := hN fuel hf pieces hc h3 h4 h5 junk
  refine ⟨m, h1, fun {G part d0 d1 base v0 v1} hv hG n s hx0 => ?_⟩
  have hlin : ∀ p, InBox b p → linearize o b p ∈ G.points (G.parent part) := fun p hp => (hG _).2 (linearize_bounds o b p hp)
  have hcoef : ∀ p q, InBox b p → InBox b q →
      (Op.csr m).coef (linearize o b p) (linearize o b q) = shiftCoef (shiftsOf dirs) p q := by
    intro p q hp hq
    rw [h2.coef _ _ (by rw [hr, mem_indices]; exact linearize_bounds o b p hp), List.filter_map, List.map_map]
    rw [← diff_coef dirs p q (fun t ht => by rw [hl t ht, hp.length_eq]), ← hp.length_eq,
      ← (hoff.map _).sum_eq, ← stencil_coef o b offsets _ hsort.perm p q hp hq]
    congr 1
    have : (stencilEntries b (sort offsets) (pointsOf o b)).filter
        ((fun e => decide (e.1 = linearize o b p ∧ e.2.1 = linearize o b q)) ∘ linTriple o b) =
        (stencilEntries b (sort offsets) (pointsOf o b)).filter fun e => decide (e.1 = p ∧ e.2.1 = q) := by
      apply List.filter_congr
      intro e he
      have hrow := (mem_pointsOf o b _).1 (mem_stencilEntries he).1
      have hcol := (mem_stencilEntries he).2
      show decide (linearize o b e.1 = linearize o b p ∧ linearize o b e.2.1 = linearize o b q) = decide (e.1 = p ∧ e.2.1 = q)
      rw [Bool.eq_iff_iff, decide_eq_true_iff, decide_eq_true_iff]
      exact ⟨fun h => ⟨linearize_inj o hrow hp h.1, linearize_inj o hcol hq h.2⟩, fun h => by rw [h.1, h.2]; exact ⟨rfl, rfl⟩⟩
    rw [this]
    rfl
  -- the grid points as a finite set, and its numbering
  set S : Finset Point := (pointsOf o b).toFinset with hSdef
  have hS : ∀ p, p ∈ S ↔ InBox b p := fun p => by rw [hSdef, List.mem_toFinset, mem_pointsOf]
  set T : Finset Int := (G.points (G.parent part)).toFinset with hTdef
  have hT : ∀ j, j ∈ T ↔ 0 ≤ j ∧ j < Rect.volume b := fun j => by rw [hTdef, List.mem_toFinset, hG]
  let f : S → T := fun p => ⟨linearize o b p.1, (hT _).2 (linearize_bounds o b p.1 ((hS _).1 p.2))⟩
  have hf : Function.Bijective f := by
    constructor
    · intro p q h
      exact Subtype.ext (linearize_inj o ((hS _).1 p.2) ((hS _).1 q.2) (congrArg Subtype.val h))
    · rintro ⟨j, hj⟩
      obtain ⟨hj1, hj2⟩ := (hT j).1 hj
      obtain ⟨p, h9, h10⟩ := (c02_linearize_bijection o b).2.2.1 j hj1 hj2
      exact ⟨⟨p, (hS p).2 h9⟩, Subtype.ext h10⟩
  let e : S ≃ T := Equiv.ofBijective f hf
  have he : ∀ p, (e p).1 = linearize o b p.1 := fun p => rfl
  have hspd : SPD (fun u u' : T => (Op.csr m).coef u.1 u'.1) := by
    refine SPD_of_equiv e.symm _ (fun u u' : S => shiftCoef (shiftsOf dirs) u.1 u'.1) (fun i j => ?_)
      (diff_SPD b dirs hne hl hnz hw S hS)
    obtain ⟨p, rfl⟩ := e.surjective i
    obtain ⟨q, rfl⟩ := e.surjective j
    rw [Equiv.symm_apply_apply, Equiv.symm_apply_apply, he, he, hcoef _ _ ((hS _).1 p.2) ((hS _).1 q.2)]
  have hfit : Single G part d0 d1 base v0 v1 (Op.csr m) := by
    refine ⟨hv, h2.col_mem fun e he => ?_, fun j => ?_, h2.rowsDisjoint⟩
    · obtain ⟨e', he', rfl⟩ := List.mem_map.1 he
      exact hlin _ (mem_stencilEntries he').2
    · rw [hr, mem_indices, hG]
  obtain ⟨pl, g1, k, g2, a, n', ts, q1, q2, q3⟩ := single_cg hA hfit hspd n s (by
    intro j hj
    obtain ⟨hj1, hj2⟩ := (hG j).1 hj
    obtain ⟨p, h9, h10⟩ := (c02_linearize_bijection o b).2.2.1 j hj1 hj2
    rw [← h10]
    exact hx0 p h9)
  refine ⟨pl, g1, k, ?_, a, n', ts, q1, q2, fun M' h5 h6 => ?_⟩
  · have : T.card = S.card := by
      rw [← Fintype.card_coe T, ← Fintype.card_coe S]
      exact (Fintype.card_congr e).symm
    rw [card_box b S hS] at this
    rw [← this]
    exact g2
  · obtain ⟨h7, h8⟩ := q3 M' h5 h6
    refine ⟨fun p hp => ?_, h8⟩
    rw [← h7 _ (hlin p hp), ← shiftCoef_diffOp b dirs hl S hS _ p hp, ← Finset.sum_attach, ← Finset.sum_attach T]
    rw [← Finset.univ_eq_attach, ← Finset.univ_eq_attach, ← e.sum_comp]
    refine Finset.sum_congr rfl fun q _ => ?_
    rw [he, hcoef p q.1 hp ((hS _).1 q.2)]

end Verif.EndToEnd
