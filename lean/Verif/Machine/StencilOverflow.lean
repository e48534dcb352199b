import Verif.Machine.StencilBuild
/-! # C78: where the stencil builders overflow -/
set_option linter.dupNamespace false
set_option linter.unusedSectionVars false
namespace Verif.Machine
open Verif.Grid Verif.Stencil Verif.Matrix Verif.EndToEnd

variable {E : Type}

theorem foldlM_none {A S : Type} {f : S → A → Option S} (l : List A) (a : A) (ha : a ∈ l) (hf : ∀ s, f s a = none) (s : S) :
    l.foldlM f s = none := by
  induction l generalizing s with
  | nil => cases ha
  | cons b l ih =>
    rw [List.foldlM_cons]
    rcases List.mem_cons.1 ha with rfl | ha
    · rw [hf]; rfl
    · cases f s b with
      | none => rfl
      | some s' => exact ih ha s'

theorem addPoint_none {t : CType} (hsg : t.signed = true) (p d : Point) (h : ∃ z ∈ Grid.addPoint p d, ¬ t.Fits z) :
    addPoint t p d = none := by
  induction p generalizing d with
  | nil => obtain ⟨z, hz, -⟩ := h; simp [Grid.addPoint] at hz
  | cons x p ih =>
    cases d with
    | nil => obtain ⟨z, hz, -⟩ := h; simp [Grid.addPoint] at hz
    | cons y d =>
      obtain ⟨z, hz, hn⟩ := h
      simp only [addPoint]
      simp only [Grid.addPoint, List.zipWith_cons_cons, List.mem_cons] at hz
      rcases hz with rfl | hz
      · have : t.ev (x + y) = none := by simp [CType.ev, hsg, hn]
        rw [this]; rfl
      · rw [ih d ⟨z, hz, hn⟩]
        cases t.ev (x + y) <;> rfl

section
variable {t : CType} (hsg : t.signed = true) {b : Rect} (hb : Grid.Nonempty b) (hs : ∀ lh ∈ b, t.Fits lh.1 ∧ t.Fits lh.2)
  (sort : List (Point × E) → List (Point × E)) (offs : List (Point × E)) (hsort : (sort offs).Perm offs)
  {p : Point} (hp : InBox b p) {oe : Point × E} (ho : oe ∈ offs) (hov : ∃ z ∈ Grid.addPoint p oe.1, ¬ t.Fits z)
include hsg hb hs hsort hp ho hov

/-- **C78**, the condition on shifted points is needed: with a signed coordinate type, if some grid point shifted by some offset has
a coordinate that is not representable — whether or not the shifted point is in the grid — every task filling the COO matrix has
undefined behaviour, whatever its piece. -/
theorem c78_fill_coo_overflow (o : IndexOrder) (dom : Int → Bool) (fuel : Nat) (hf : Rect.volume b ≤ fuel)
    (row col : Int → Option Point) (entry : Int → Option E) : fillCOO t sort o b offs dom fuel row col entry = none := by
  unfold fillCOO
  simp only []
  rw [doWhile_points_m o hb hs _ _ _ hf]
  refine foldlM_none _ p ((mem_pointsOf o b p).2 hp) (fun s => ?_) _
  refine foldlM_none _ oe (hsort.mem_iff.2 ho) (fun s => ?_) _
  simp only [cooOffsetStep, addPoint_none hsg p oe.1 hov]; rfl

/-- The same for the linearised COO task. -/
theorem c78_fill_lin_coo_overflow (o : IndexOrder) (dom : Int → Bool) (fuel : Nat) (hf : Rect.volume b ≤ fuel)
    (row col : Int → Option Int) (entry : Int → Option E) : fillLinCOO t sort o b offs dom fuel row col entry = none := by
  unfold fillLinCOO
  simp only []
  rw [doWhile_points_m o hb hs _ _ _ hf]
  refine foldlM_none _ p ((mem_pointsOf o b p).2 hp) (fun s => ?_) _
  refine foldlM_none _ oe (hsort.mem_iff.2 ho) (fun s => ?_) _
  simp only [linCooOffsetStep, addPoint_none hsg p oe.1 hov]; rfl

/-- The same for the CSR task. -/
theorem c78_fill_csr_overflow (o : IndexOrder) (dom : Int → Bool) (rdom : Point → Bool) (fuel : Nat) (hf : Rect.volume b ≤ fuel)
    (col : Int → Option Point) (entry : Int → Option E) (rp : Point → Option (Int × Int)) :
    fillCSR t sort o b offs dom rdom fuel col entry rp = none := by
  unfold fillCSR
  simp only []
  rw [doWhile_points_m o hb hs _ _ _ hf]
  refine foldlM_none _ p ((mem_pointsOf o b p).2 hp) (fun s => ?_) _
  simp only [csrRowStep]
  rw [foldlM_none (sort offs) oe (hsort.mem_iff.2 ho) (fun s => ?_) _]
  · rfl
  · simp only [csrOffsetStep, addPoint_none hsg p oe.1 hov]; rfl

end

/-- **C78**, the condition on the number of points is needed: with a signed coordinate type that cannot hold the number of points,
every task filling a linearised CSR matrix has undefined behaviour, in its first iteration. -/
theorem c78_fill_lin_csr_overflow (t : CType) (hsg : t.signed = true) (b : Rect) (hb0 : b ≠ []) (hb : Grid.Nonempty b)
    (hv : t.max < Rect.volume b) (sort : List (Point × E) → List (Point × E)) (o : IndexOrder) (offs : List (Point × E))
    (dom rdom : Dom1) (fuel : Nat) (col : Int → Option Int) (entry : Int → Option E) (rp : Int → Option (Int × Int)) :
    fillLinCSR t sort o b offs dom rdom fuel col entry rp = none := by
  have hlo := inBox_lo hb
  cases o with
  | columnMajor =>
    unfold fillLinCSR
    simp only []
    cases fuel with
    | zero => rfl
    | succ fuel =>
      simp only [doWhile, c43_linearize_overflow t hsg .columnMajor b hb0 _ hlo hv]
      rfl
  | rowMajor =>
    unfold fillLinCSR
    simp only []
    cases fuel with
    | zero => rfl
    | succ fuel =>
      have key : ∀ r, bulkPrologue t (fuel + 1) b (leadingDimensionBounds (sort offs)).1 (leadingDimensionBounds (sort offs)).2 dom rdom
          (⟨⟨0, col, entry, rp⟩, 0, false⟩ : BulkState E) (Rect.lo b) = some r → r.2 = Rect.lo b := by
        intro r e
        have ht : tailEqual (Rect.lo b) (Rect.lo b) = true := by simp [tailEqual]
        simp only [bulkPrologue, ht, if_true, Bool.false_eq_true, if_false, Option.bind_eq_bind, Option.pure_def, Option.bind_some] at e
        cases h : inBulk t b (leadingDimensionBounds (sort offs)).1 (leadingDimensionBounds (sort offs)).2 (Rect.lo b) with
        | none => rw [h] at e; cases e
        | some c =>
          rw [h] at e
          cases c <;> (simp at e; rw [← e])
      simp only [bulkLoop, Option.bind_eq_bind]
      cases h : bulkPrologue t (fuel + 1) b (leadingDimensionBounds (sort offs)).1 (leadingDimensionBounds (sort offs)).2 dom rdom
          (⟨⟨0, col, entry, rp⟩, 0, false⟩ : BulkState E) (Rect.lo b) with
      | none => rfl
      | some r =>
        simp only [Option.bind_some]
        rw [key r h, c43_linearize_overflow t hsg .rowMajor b hb0 _ hlo hv]
        rfl

theorem runPieces_none {D S : Type} (fill : D → S → Option S) (h : ∀ d s, fill d s = none) (ds : List D) (hd : ds ≠ []) (s : S) :
    runPieces fill ds s = none := by
  cases ds with
  | nil => exact absurd rfl hd
  | cons d ds => simp only [runPieces, h]; rfl

/-- So `create_linearized_csr_stencil_matrix` fails on every grid with more points than the coordinate type can count, although
`create_csr_stencil_matrix` may succeed (`c78_create_csr`). -/
theorem c78_create_lin_csr_overflow (t : CType) (hsg : t.signed = true) (b : Rect) (hb0 : b ≠ []) (hb : Grid.Nonempty b)
    (hv : t.max < Rect.volume b) (sort : List (Point × E) → List (Point × E)) (o : IndexOrder) (offs : List (Point × E))
    (pieces : List (Dom1 × Dom1)) (hp : pieces ≠ []) (fuel : Nat) (junk : CSR Int Int E) :
    createLinCSRStencil t sort o b offs pieces fuel junk = none := by
  unfold createLinCSRStencil
  simp only [Option.bind_eq_bind]
  rw [runPieces_none _ (fun D s => c78_fill_lin_csr_overflow t hsg b hb0 hb hv sort o offs D.1 D.2 fuel s.col s.entry s.rowptr) pieces hp]
  cases calculateStencilSize t fuel b offs with
  | none => rfl
  | some n =>
    simp only [Option.bind_some]
    cases kernelPoints n with
    | none => rfl
    | some m => simp only [Option.bind_some]; cases rowPoints t b <;> rfl

/-- `create_coo_stencil_matrix` fails if a shifted grid point is not representable. -/
theorem c78_create_coo_overflow (t : CType) (hsg : t.signed = true) (b : Rect) (hb : Grid.Nonempty b)
    (hs : ∀ lh ∈ b, t.Fits lh.1 ∧ t.Fits lh.2) (sort : List (Point × E) → List (Point × E)) (offs : List (Point × E))
    (hsort : (sort offs).Perm offs) {p : Point} (hp : InBox b p) {oe : Point × E} (ho : oe ∈ offs)
    (hov : ∃ z ∈ Grid.addPoint p oe.1, ¬ t.Fits z) (o : IndexOrder) (pieces : List (Int → Bool)) (hpc : pieces ≠ []) (fuel : Nat)
    (hf : Rect.volume b ≤ fuel) (junk : COO Int Point E) : createCOOStencil t sort o b offs pieces fuel junk = none := by
  unfold createCOOStencil
  simp only [Option.bind_eq_bind]
  rw [runPieces_none _ (fun D s => c78_fill_coo_overflow hsg hb hs sort offs hsort hp ho hov o D fuel hf s.row s.col s.entry) pieces hpc]
  cases calculateStencilSize t fuel b offs with
  | none => rfl
  | some n => simp only [Option.bind_some]; cases kernelPoints n <;> rfl

theorem ev_le {t : CType} (hsg : t.signed = true) {z y : Int} (h : t.ev z = some y) : y ≤ t.max := by
  obtain ⟨rfl, f⟩ := ev_signed hsg h
  exact f.2

theorem sizeLoop_none {t : CType} (hsg : t.signed = true) (sub : List (Point × E) → Option Int) (l : Int) (offs : List (Point × E))
    (fuel : Nat) (i r : Int) (hi : i ≤ t.max) : sizeLoop t sub l t.max offs fuel i r = none := by
  induction fuel generalizing i r with
  | zero => rfl
  | succ fuel ih =>
    simp only [sizeLoop, if_pos hi, Option.bind_eq_bind]
    cases subOffsets t l t.max i offs with
    | none => rfl
    | some so =>
      simp only [Option.bind_some]
      split
      · cases t.ev (l - minOffset offs) with
        | none => rfl
        | some first =>
          simp only [Option.bind_some]
          split
          · cases t.ev (t.max - maxOffset offs) with
            | none => rfl
            | some iNew =>
              simp only [Option.bind_some]
              split
              · cases t.ev (iNew - i) with
                | none => rfl
                | some d =>
                  simp only [Option.bind_some]
                  cases t.ev (d + 1) with
                  | none => rfl
                  | some d =>
                    simp only [Option.bind_some]
                    cases sub so with
                    | none => rfl
                    | some s =>
                      simp only [Option.bind_some]
                      cases sizeT.ev (sizeT.conv d * s) with
                      | none => rfl
                      | some m =>
                        simp only [Option.bind_some]
                        cases sizeT.ev (r + m) with
                        | none => rfl
                        | some r' =>
                          simp only [Option.bind_some]
                          cases h : t.ev (iNew + 1) with
                          | none => rfl
                          | some i' => exact ih i' r' (ev_le hsg h)
              · rfl
          · rfl
      · cases sub so with
        | none => rfl
        | some s =>
          simp only [Option.bind_some]
          cases sizeT.ev (r + s) with
          | none => rfl
          | some r' =>
            simp only [Option.bind_some]
            cases h : t.ev (i + 1) with
            | none => rfl
            | some i' => exact ih i' r' (ev_le hsg h)

/-- **C78**, the condition on the upper bound is needed: if the grid has at least two dimensions and its first side reaches the
largest value of the (signed) coordinate type, computing the size has undefined behaviour for every stencil, and so do all builders. -/
theorem c78_size_overflow (t : CType) (hsg : t.signed = true) (l : Int) (hl : l ≤ t.max) (b : Rect) (hb : b ≠ [])
    (offs : List (Point × E)) (ho : offs ≠ []) (fuel : Nat) : calculateStencilSize t fuel ((l, t.max) :: b) offs = none := by
  unfold calculateStencilSize
  rw [if_pos hsg]
  cases b with
  | nil => exact absurd rfl hb
  | cons b2 b =>
    cases offs with
    | nil => exact absurd rfl ho
    | cons o os =>
      simp only [stencilSizeAux]
      exact sizeLoop_none hsg _ l _ fuel l 0 hl

/-! ## Examples -/

/-- The five-point stencil. -/
def fivePoint : List (Point × Int) := [([0, 0], 4), ([0, 1], -1), ([0, -1], -1), ([1, 0], -1), ([-1, 0], -1)]

/-- A grid of `2 ^ 31 - 2` times 100000 points with `int` coordinates meets the conditions for `create_csr_stencil_matrix`. -/
example : Representable int32 [(0, 2147483645), (0, 99999)] fivePoint ∧
    (Rect.volume [(0, 2147483645), (0, 99999)] * fivePoint.length : Nat) ≤ int64.max :=
  ⟨⟨by decide, by decide⟩, by decide⟩

/-- 46340 × 46340 points can be numbered in `int`, so the linearised matrix is exact… -/
example : Representable int32 [(0, 46339), (0, 46339)] fivePoint ∧ (Rect.volume [(0, 46339), (0, 46339)] : Int) ≤ int32.max ∧
    4 * (Rect.volume [(0, 46339), (0, 46339)] * fivePoint.length + 1 : Nat) ≤ int64.max := by
  refine ⟨⟨by decide, by decide⟩, by decide, by decide⟩

/-- … with 46341 × 46341 points it cannot be built, the CSR matrix with two-dimensional points can. -/
example (sort : List (Point × Int) → List (Point × Int)) (hsort : (sort fivePoint).Perm fivePoint) (o : IndexOrder) (fuel : Nat)
    (hf : Rect.volume [(0, 46340), (0, 46340)] < fuel) (D : Dom1 × Dom1) (junk : CSR Int Int Int) (junk' : CSR Int Point Int) :
    createLinCSRStencil int32 sort o [(0, 46340), (0, 46340)] fivePoint [D] fuel junk = none ∧
    createCSRStencil int32 sort o [(0, 46340), (0, 46340)] fivePoint [] [] fuel junk' =
      EndToEnd.createCSRStencil sort o [(0, 46340), (0, 46340)] fivePoint [] [] fuel junk' := by
  refine ⟨c78_create_lin_csr_overflow int32 rfl _ (by simp) (by decide) (by decide) sort o _ _ (by simp) fuel junk, ?_⟩
  exact c78_create_csr int32 rfl (by decide) sort o _ _ (by simp) hsort ⟨by decide, by decide⟩ (by decide) (by decide) _ _ fuel hf junk'

/-- A grid that touches the largest `int`: size computation overflows. -/
example (fuel : Nat) : calculateStencilSize int32 fuel [(2147483640, 2147483647), (0, 3)] fivePoint = none :=
  c78_size_overflow int32 rfl 2147483640 (by decide) [(0, 3)] (by simp) fivePoint (by decide) fuel

/-- A point at the edge of the type shifted beyond it, although the shifted point is outside the grid anyway. -/
example (sort : List (Point × Int) → List (Point × Int)) (hsort : (sort fivePoint).Perm fivePoint) (o : IndexOrder) (D : Int → Bool)
    (junk : COO Int Point Int) : createCOOStencil int32 sort o [(0, 3), (2147483640, 2147483647)] fivePoint [D] 32 junk = none :=
  c78_create_coo_overflow int32 rfl _ (by decide) (by decide) sort _ hsort (p := [0, 2147483647]) (by decide)
    (oe := ([0, 1], -1)) (by decide) (by decide) o _ (by simp) 32 (by decide) junk

end Verif.Machine
