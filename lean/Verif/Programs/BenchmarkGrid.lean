import Verif.Programs.BenchmarkSystem

/-! # Conjugate gradients on the grid of the benchmark program -/
set_option linter.dupNamespace false
set_option linter.unusedSectionVars false
namespace Verif.Programs
open Verif.Runtime Verif.Vector Verif.Matrix Verif.Planner Verif.Solver Verif.EndToEnd Verif.Grid Verif.Stencil Verif.Special Verif.Textbook
open _root_.Matrix (mulVec)
open scoped _root_.Matrix

/-- The points of the grid. -/
abbrev gridPoints (ns : List Int) : Finset Point := (pointsOf .rowMajor (boxOf ns)).toFinset

section
variable {V : Type} [Field V]

/-- The matrix of a difference operator on the grid. -/
def gridMatrix (dirs : List (Point × V)) (ns : List Int) : _root_.Matrix (gridPoints ns) (gridPoints ns) V :=
  fun p q => shiftCoef (shiftsOf dirs) p.1 q.1

/-- A vector on the grid as a function of points. -/
def onGrid {ns : List Int} (y : gridPoints ns → V) (p : Point) : V := if h : p ∈ gridPoints ns then y ⟨p, h⟩ else 0

variable [LinearOrder V] [IsStrictOrderedRing V] {dirs : List (Point × V)} {ns : List Int}

theorem gridMatrix_mulVec (hl : ∀ t ∈ dirs, t.1.length = ns.length) (y : gridPoints ns → V) (p : gridPoints ns) :
    (gridMatrix dirs ns *ᵥ y) p = diffOp dirs (zeroOutside (boxOf ns) (onGrid y)) p.1 := by
  rw [← shiftCoef_diffOp (boxOf ns) dirs (fun t ht => by rw [boxOf_length]; exact hl t ht) _ mem_S _ _ ((mem_S _).1 p.2)]
  show ∑ q, gridMatrix dirs ns p q * y q = _
  rw [← Finset.sum_attach (gridPoints ns), Finset.univ_eq_attach]
  refine Finset.sum_congr rfl fun q _ => ?_
  unfold onGrid gridMatrix
  rw [dif_pos q.2]

theorem gridMatrix_spd (hl : ∀ t ∈ dirs, t.1.length = ns.length) (hne : dirs ≠ [])
    (hnz : ∀ t ∈ dirs, ∃ c ∈ t.1, c ≠ 0) (hw : ∀ t ∈ dirs, 0 < t.2) : SPD (gridMatrix dirs ns) :=
  diff_SPD (boxOf ns) dirs hne (fun t ht => by rw [boxOf_length]; exact hl t ht) hnz hw (gridPoints ns) mem_S

/-- The class of a grid point: the point mirrored into the half box. -/
def halfPoint {ns : List Int} (p : gridPoints ns) : (pointsOf .rowMajor (halfOf ns)).toFinset :=
  ⟨toHalf ns p.1, by
    rw [List.mem_toFinset, mem_pointsOf]
    exact toHalf_inBox ns _ ((mem_S _).1 p.2)⟩

theorem gridMatrix_in (hl : ∀ t ∈ dirs, t.1.length = ns.length)
    (hflip : ∀ cs : List Bool, cs.length = ns.length → ((arms dirs).map fun t => (flip cs t.1, t.2)).Perm (arms dirs))
    (y : gridPoints ns → V) (hy : y ∈ constantOn V (halfPoint (ns := ns))) : gridMatrix dirs ns *ᵥ y ∈ constantOn V (halfPoint (ns := ns)) := by
  rw [constantOn_iff] at hy ⊢
  intro p q hpq
  rw [gridMatrix_mulVec hl, gridMatrix_mulVec hl]
  have hp := length_of_box ((mem_S _).1 p.2)
  have hq := length_of_box ((mem_S _).1 q.2)
  obtain ⟨cs, hcs, hm⟩ := toHalf_eq ns _ _ hp hq (Subtype.ext_iff.1 hpq)
  rw [hm]
  refine (diffOp_mirror ns dirs hl cs hcs (hflip cs hcs) _ (fun a ha => ?_) _ hp).symm
  unfold zeroOutside
  by_cases hin : InBox (boxOf ns) a
  · have hin' : InBox (boxOf ns) (mirror ns cs a) := (inBox_mirror ns cs a ha hcs).2 hin
    rw [if_pos hin, if_pos hin']
    unfold onGrid
    rw [dif_pos ((mem_S _).2 hin), dif_pos ((mem_S _).2 hin')]
    exact hy _ _ (Subtype.ext (toHalf_mirror ns cs a ha hcs))
  · rw [if_neg hin, if_neg (fun h => hin ((inBox_mirror ns cs a ha hcs).1 h))]

theorem card_half (ns : List Int) : Fintype.card (pointsOf .rowMajor (halfOf ns)).toFinset = Rect.volume (halfOf ns) := by
  rw [Fintype.card_coe]
  exact card_box _ _ fun p => by rw [List.mem_toFinset, mem_pointsOf]

/-- Conjugate gradients on the difference equation with right-hand side one. -/
theorem grid_cg (hl : ∀ t ∈ dirs, t.1.length = ns.length) (hne : dirs ≠ [])
    (hnz : ∀ t ∈ dirs, ∃ c ∈ t.1, c ≠ 0) (hw : ∀ t ∈ dirs, 0 < t.2)
    (hflip : ∀ cs : List Bool, cs.length = ns.length → ((arms dirs).map fun t => (flip cs t.1, t.2)).Perm (arms dirs)) :
    ∃ k0, k0 ≤ Rect.volume (halfOf ns) ∧ (∀ k, k ≤ k0 → CGDefined (gridMatrix dirs ns) 0 (fun _ => 1) k) ∧
      (∀ p, InBox (boxOf ns) p → diffOp dirs (zeroOutside (boxOf ns) (onGrid (Textbook.cg (gridMatrix dirs ns) 0 (fun _ => 1) k0).x)) p = 1) ∧
      ∀ k, k0 < k → ¬CGDefined (gridMatrix dirs ns) 0 (fun _ => 1) k := by
  obtain ⟨k0, h1, h2, h3, h4⟩ := cg_defined_in (x0 := 0) (b := fun _ => (1 : V)) (gridMatrix_spd hl hne hnz hw)
    (constantOn_iff.2 fun _ _ _ => rfl) (gridMatrix_in hl hflip)
  refine ⟨k0, h1.trans ((finrank_constantOn _).trans (card_half ns).le), h2, fun p hp => ?_, h4⟩
  rw [sub_zero] at h3
  have := congrFun h3 ⟨p, (mem_S p).2 hp⟩
  rw [gridMatrix_mulVec hl] at this
  exact this

end

/-! ## Two copies of a system -/
section
variable {V S ι : Type} [Field V] [Fintype S] [Fintype ι] {e : Fin 2 × S ≃ ι} {N0 : _root_.Matrix S S V} {N : _root_.Matrix ι ι V}

/-- The vector `y` is two copies of `y0`. -/
def TwoCopies (e : Fin 2 × S ≃ ι) (y : ι → V) (y0 : S → V) : Prop := ∀ x, y (e x) = y0 x.2

theorem TwoCopies.dot {y z : ι → V} {y0 z0 : S → V} (h : TwoCopies e y y0) (h' : TwoCopies e z z0) : y ⬝ᵥ z = 2 * (y0 ⬝ᵥ z0) := by
  show ∑ u, y u * z u = _
  rw [← e.sum_comp, Fintype.sum_prod_type]
  simp only [h _, h' _]
  rw [Fin.sum_univ_two, two_mul]
  rfl

theorem TwoCopies.mulVec (hN : ∀ x y, N (e x) (e y) = if x.1 = y.1 then N0 x.2 y.2 else 0) {y : ι → V} {y0 : S → V} (h : TwoCopies e y y0) :
    TwoCopies e (N *ᵥ y) (N0 *ᵥ y0) := by
  intro x
  show ∑ w, N (e x) w * y w = ∑ q, N0 x.2 q * y0 q
  rw [← e.sum_comp, Fintype.sum_prod_type, Finset.sum_eq_single x.1]
  · refine Finset.sum_congr rfl fun q _ => ?_
    rw [hN, if_pos rfl, h]
  · intro j _ hj
    apply Finset.sum_eq_zero
    intro q _
    rw [hN, if_neg (fun e => hj e.symm), zero_mul]
  · intro hn; exact absurd (Finset.mem_univ _) hn

theorem TwoCopies.add_smul {y z : ι → V} {y0 z0 : S → V} (h : TwoCopies e y y0) (h' : TwoCopies e z z0) (c : V) :
    TwoCopies e (y + c • z) (y0 + c • z0) := fun x => by simp [h x, h' x]

theorem TwoCopies.sub_smul {y z : ι → V} {y0 z0 : S → V} (h : TwoCopies e y y0) (h' : TwoCopies e z z0) (c : V) :
    TwoCopies e (y - c • z) (y0 - c • z0) := fun x => by simp [h x, h' x]

variable {x0 b : ι → V} {x00 b0 : S → V}

theorem TwoCopies.cg (h2 : (2 : V) ≠ 0) (hN : ∀ x y, N (e x) (e y) = if x.1 = y.1 then N0 x.2 y.2 else 0) (hx : TwoCopies e x0 x00)
    (hb : TwoCopies e b b0) (k : Nat) : TwoCopies e (Textbook.cg N x0 b k).x (Textbook.cg N0 x00 b0 k).x ∧
      TwoCopies e (Textbook.cg N x0 b k).r (Textbook.cg N0 x00 b0 k).r ∧ TwoCopies e (Textbook.cg N x0 b k).p (Textbook.cg N0 x00 b0 k).p := by
  induction k with
  | zero => exact ⟨hx, hb, hb⟩
  | succ k ih =>
    obtain ⟨ix, ir, ip⟩ := ih
    have hα : cgAlpha N x0 b k = cgAlpha N0 x00 b0 k := by
      unfold cgAlpha
      rw [ir.dot ir, ip.dot (ip.mulVec hN), mul_div_mul_left _ _ h2]
    have ir' : TwoCopies e (Textbook.cg N x0 b (k + 1)).r (Textbook.cg N0 x00 b0 (k + 1)).r := by
      rw [cg_r, cg_r, hα]
      exact ir.sub_smul (ip.mulVec hN) _
    refine ⟨?_, ir', ?_⟩
    · rw [cg_x, cg_x, hα]
      exact ix.add_smul ip _
    · have hβ : cgBeta N x0 b k = cgBeta N0 x00 b0 k := by
        unfold cgBeta
        rw [ir'.dot ir', ir.dot ir, mul_div_mul_left _ _ h2]
      rw [cg_p, cg_p, hβ]
      exact ir'.add_smul ip _

theorem TwoCopies.defined (h2 : (2 : V) ≠ 0) (hN : ∀ x y, N (e x) (e y) = if x.1 = y.1 then N0 x.2 y.2 else 0) (hx : TwoCopies e x0 x00)
    (hb : TwoCopies e b b0) (k : Nat) : CGDefined N x0 b k ↔ CGDefined N0 x00 b0 k := by
  have hc := TwoCopies.cg h2 hN hx hb
  unfold CGDefined
  refine and_congr (forall_congr' fun i => forall_congr' fun _ => ?_) (forall_congr' fun i => forall_congr' fun _ => ?_)
  · rw [(hc i).2.2.dot ((hc i).2.2.mulVec hN), mul_ne_zero_iff]
    exact ⟨fun h => h.2, fun h => ⟨h2, h⟩⟩
  · rw [(hc i).2.1.dot (hc i).2.1, mul_ne_zero_iff]
    exact ⟨fun h => h.2, fun h => ⟨h2, h⟩⟩

end

/-! ## One dimension -/
section
variable {V : Type} [Field V] [LinearOrder V] [IsStrictOrderedRing V]

theorem inBox_one {n : Int} {p : Point} : InBox (boxOf [n]) p ↔ ∃ i, p = [i] ∧ 0 ≤ i ∧ i < n := by
  constructor
  · intro h
    match p, h with
    | [], h => cases h
    | [i], h =>
      rw [inBox_cons] at h
      exact ⟨i, rfl, by omega, by omega⟩
    | _ :: _ :: _, h => cases h with | cons _ h => cases h
  · rintro ⟨i, rfl, h1, h2⟩
    rw [inBox_cons]
    exact ⟨⟨h1, by omega⟩, .nil⟩

/-- The coordinate of a point of a one-dimensional grid. -/
def coord {n : Int} (p : gridPoints [n]) : Int := p.1.headD 0

theorem coord_spec {n : Int} (p : gridPoints [n]) : p.1 = [coord p] ∧ 0 ≤ coord p ∧ coord p < n := by
  obtain ⟨i, h1, h2, h3⟩ := inBox_one.1 ((mem_S _).1 p.2)
  unfold coord
  rw [h1]
  exact ⟨rfl, h2, h3⟩

theorem line_grid (n : Int) : LineSystem n (1 : V) (coord (n := n)) (gridMatrix (benchDirs V 1) [n]) where
  mem u := (coord_spec u).2
  sum f := by
    rw [one_mul]
    refine Finset.sum_bij (fun u _ => coord u) (fun u _ => Finset.mem_Ico.2 (coord_spec u).2) (fun u _ w _ h => ?_) (fun i hi => ?_) fun u _ => rfl
    · exact Subtype.ext ((coord_spec u).1.trans ((congrArg (fun x => [x]) h).trans (coord_spec w).1.symm))
    · exact ⟨⟨[i], (mem_S _).2 (inBox_one.2 ⟨i, rfl, Finset.mem_Ico.1 hi⟩)⟩, Finset.mem_univ _, rfl⟩
  mul f hf u := by
    rw [gridMatrix_mulVec (benchDirs_length (Or.inl rfl))]
    obtain ⟨h1, h2, h3⟩ := coord_spec u
    have hz : ∀ i : Int, zeroOutside (boxOf [n]) (onGrid fun v => f (coord (n := n) v)) [i] = f i := by
      intro i
      unfold zeroOutside
      by_cases h : 0 ≤ i ∧ i < n
      · have hin : InBox (boxOf [n]) [i] := inBox_one.2 ⟨i, rfl, h⟩
        rw [if_pos hin]
        unfold onGrid
        rw [dif_pos ((mem_S _).2 hin)]
        rfl
      · rw [if_neg, hf i h]
        intro hin
        obtain ⟨j, e, hj⟩ := inBox_one.1 hin
        cases e
        exact h hj
    rw [h1]
    show (([(([1] : Point), ((1 : Int) : V) / ((1 : Int) : V))]).map fun t => t.2 * (2 * _ - _ - _)).sum = _
    simp only [List.map_cons, List.map_nil, List.sum_cons, List.sum_nil]
    rw [show addPoint [coord u] [1] = [coord u + 1] from rfl, show addPoint [coord u] (negPoint [1]) = [coord u - 1] from rfl, hz, hz, hz]
    push_cast
    ring

/-- One dimension: CG needs `⌈n / 2⌉` steps. -/
theorem line_grid_cg {n : Int} (hn : 1 ≤ n) (k : Nat) :
    (2 * (k : Int) ≤ n + 1 → CGDefined (gridMatrix (benchDirs V 1) [n]) 0 (fun _ => 1) k ∧
      ∀ p, (Textbook.cg (gridMatrix (benchDirs V 1) [n]) 0 (fun _ => (1 : V)) k).x p = lineIterate V n k (coord p)) ∧
    (n + 1 < 2 * (k : Int) → ¬CGDefined (gridMatrix (benchDirs V 1) [n]) 0 (fun _ => 1) k) := by
  have L := line_grid (V := V) n
  constructor
  · intro hk
    have hreg := L.regular one_ne_zero (by omega) k hk
    refine ⟨⟨fun i hi => (hreg i hi).2, fun i hi => (hreg i (by omega)).1⟩, fun p => ?_⟩
    rw [L.cg one_ne_zero (by omega) k hk]
    rfl
  · intro hk hdef
    obtain ⟨k0, h1, h2, h3, h4⟩ := grid_cg (ns := [n]) (benchDirs_length (V := V) (Or.inl rfl)) (benchDirs_ne 1) (benchDirs_nonzero (Or.inl rfl))
      (benchDirs_pos (Or.inl rfl)) (fun cs hc => benchDirs_flip (Or.inl rfl) cs hc)
    have hv : ((Rect.volume (halfOf [n]) : Nat) : Int) = (n + 1) / 2 := by
      simp only [halfOf, List.map_cons, List.map_nil, Rect.volume]
      simp
      omega
    refine h4 k ?_ hdef
    omega

end
end Verif.Programs
