import Verif.Machine.Model
import Verif.EndToEnd.Model
/-
The stencil builders in machine integers: `calculate_stencil_size` (/repo/src/StencilGenerator.hpp:270-323), the four fill
tasks (/repo/src/StencilGenerator.cpp) and the three builders (StencilGenerator.hpp:326-643), with every C++ operation evaluated in
its type, as in `Verif/Machine/Model.lean`.  `t` is the coordinate type `COORD_T`; `Legion::coord_t`, the type of kernel indices, is
`int64`; sizes are `size_t`.  `none` stands for undefined behaviour (signed overflow), for a failed `assert`, and for a loop that
exceeds `fuel` iterations.

Simplifications: `Legion::Rect::volume()` and `Legion::Rect::contains` are exact (the runtime's contract); the same as in
`Verif/Stencil/Size.lean`, `Verif/Stencil/Fill.lean` and `Verif/EndToEnd/Model.lean` otherwise.
-/
namespace Verif.Machine
open Verif.Grid Verif.Stencil Verif.Matrix Verif.EndToEnd

variable {E : Type}

/-! ### Points -/

/-- Legion `operator+(Point, Point)`, in the coordinate type (StencilGenerator.cpp:98, 113, 211, 227, 339, 359, 495, 524). -/
def addPoint (t : CType) : Point → Point → Option Point
  | x :: p, y :: q => do
    let z ← t.ev (x + y)
    let r ← addPoint t p q
    pure (z :: r)
  | _, _ => some []

/-- `increment_head`, StencilGenerator.hpp:139-145. -/
def incrementHead (t : CType) : Point → Option Point
  | [] => some []
  | x :: p => do
    let y ← t.ev (x + 1)
    pure (y :: p)

/-- `increment_row_major`, StencilGenerator.hpp:198-211. -/
def incrementRowMajor (t : CType) : Rect → Point → Option (Bool × Point)
  | (l, h) :: b, x :: p => do
    match (← incrementRowMajor t b p) with
    | (true, p') => pure (true, x :: p')
    | (false, p') => if x ≥ h then pure (false, l :: p') else do
        let y ← t.ev (x + 1)
        pure (true, y :: p')
  | _, p => some (false, p)

/-- `increment_column_major`, StencilGenerator.hpp:214-227. -/
def incrementColumnMajor (t : CType) : Rect → Point → Option (Bool × Point)
  | (l, h) :: b, x :: p =>
    if x ≥ h then do
      let r ← incrementColumnMajor t b p
      pure (r.1, l :: r.2)
    else do
      let y ← t.ev (x + 1)
      pure (true, y :: p)
  | _, p => some (false, p)

/-- The `switch (args.order)` choosing the increment function, StencilGenerator.cpp:93-125. -/
def increment (t : CType) : IndexOrder → Rect → Point → Option (Bool × Point)
  | .rowMajor => incrementRowMajor t
  | .columnMajor => incrementColumnMajor t

/-- The loop `do { body(point) } while (increment(point, bounds))`, StencilGenerator.cpp:95-107 and its copies. -/
def doWhile {S : Type} (inc : Point → Option (Bool × Point)) (body : S → Point → Option S) : Nat → S → Point → Option S
  | 0, _, _ => none
  | fuel + 1, s, p => do
    let s' ← body s p
    match (← inc p) with
    | (true, p') => doWhile inc body fuel s' p'
    | (false, _) => pure s'

/-! ### Size -/

/-- The loop building `sub_offsets`, StencilGenerator.hpp:302-309 (the second comparison is evaluated only if the first holds). -/
def subOffsets (t : CType) (l h i : Int) : List (Point × E) → Option (List (Point × E))
  | [] => some []
  | o :: os => do
    let x ← t.ev (i + headCoord o.1)
    let keep ← if l ≤ x then do
        let y ← t.ev (i + headCoord o.1)
        pure (decide (y ≤ h))
      else pure false
    let r ← subOffsets t l h i os
    pure (if keep then (tailPoint o.1, o.2) :: r else r)

/-- The `for` loop over the leading coordinate, StencilGenerator.hpp:297-319. -/
def sizeLoop (t : CType) (sub : List (Point × E) → Option Int) (l h : Int) (offsets : List (Point × E)) :
    Nat → Int → Int → Option Int
  | 0, _, _ => none
  | fuel + 1, i, result =>
    if i ≤ h then do
      let so ← subOffsets t l h i offsets
      if so.length = offsets.length then do
        let first ← t.ev (l - minOffset offsets)
        if i = first then do
          let iNew ← t.ev (h - maxOffset offsets)
          if iNew ≥ i then do
            let d ← t.ev (iNew - i)
            let d ← t.ev (d + 1)
            let s ← sub so
            let m ← sizeT.ev (sizeT.conv d * s)
            let result ← sizeT.ev (result + m)
            let i ← t.ev (iNew + 1)
            sizeLoop t sub l h offsets fuel i result
          else none
        else none
      else do
        let s ← sub so
        let result ← sizeT.ev (result + s)
        let i ← t.ev (i + 1)
        sizeLoop t sub l h offsets fuel i result
    else some result

/-- The one-dimensional base case, StencilGenerator.hpp:279-287: the loop over the offsets, with `length = bounds.volume()`. -/
def size1 (t : CType) (length : Int) : List (Point × E) → Int → Option Int
  | [], result => some result
  | o :: os, result => do
    let a ← t.ev |headCoord o.1|
    let distance := sizeT.conv a
    if distance ≤ length then do
      let d ← sizeT.ev (length - distance)
      let result ← sizeT.ev (result + d)
      size1 t length os result
    else size1 t length os result

/-- `calculate_stencil_size` for the rectangle's dimensions in turn, StencilGenerator.hpp:270-323. -/
def stencilSizeAux (t : CType) (fuel : Nat) : Rect → List (Point × E) → Option Int
  | _, [] => some 0
  | [], _ :: _ => none
  | [(l, h)], o :: os => size1 t (h - l + 1).toNat (o :: os) 0
  | (l, h) :: b2 :: b, o :: os => sizeLoop t (stencilSizeAux t fuel (b2 :: b)) l h (o :: os) fuel l 0

/-- `calculate_stencil_size`, StencilGenerator.hpp:270-323.  `std::abs(offset[0])` (line 284) is ambiguous for unsigned types, so the
function, and with it the builders, cannot be instantiated for them: `none`. -/
def calculateStencilSize (t : CType) (fuel : Nat) (b : Rect) (offsets : List (Point × E)) : Option Int :=
  if t.signed then stencilSizeAux t fuel b offsets else none

/-! ### COO fill -/

/-- Body of the loop over offsets, StencilGenerator.cpp:97-107 and 112-122. -/
def cooOffsetStep (t : CType) (b : Rect) (dom : Int → Bool) (point : Point) (s : COOState Point Point E) (oe : Point × E) :
    Option (COOState Point Point E) := do
  let shifted ← addPoint t point oe.1
  if Rect.contains b shifted then do
    let s' := if dom s.kernelIndex then
        { s with row := write s.row s.kernelIndex point,
                 col := write s.col s.kernelIndex shifted,
                 entry := write s.entry s.kernelIndex oe.2 }
      else s
    let k ← int64.ev (s.kernelIndex + 1)
    pure { s' with kernelIndex := k }
  else pure s

/-- `FillCOOStencilTask::task_body`, StencilGenerator.cpp:11-126. -/
def fillCOO (t : CType) (sort : List (Point × E) → List (Point × E)) (o : IndexOrder) (b : Rect) (offsets : List (Point × E))
    (dom : Int → Bool) (fuel : Nat) (row col : Int → Option Point) (entry : Int → Option E) :
    Option (COOState Point Point E) :=
  let sorted := sort offsets
  doWhile (increment t o b) (fun s p => sorted.foldlM (cooOffsetStep t b dom p) s) fuel ⟨0, row, col, entry⟩ (Rect.lo b)

/-- Body of the loop over offsets of the linearised COO task, StencilGenerator.cpp:210-222 and 226-238: the numbers are computed only
for entries of the task's piece. -/
def linCooOffsetStep (t : CType) (o : IndexOrder) (b : Rect) (dom : Int → Bool) (point : Point) (s : COOState Int Int E)
    (oe : Point × E) : Option (COOState Int Int E) := do
  let shifted ← addPoint t point oe.1
  if Rect.contains b shifted then do
    let s' ← if dom s.kernelIndex then do
        let r ← linearize t o b point
        let c ← linearize t o b shifted
        pure { s with row := write s.row s.kernelIndex r,
                      col := write s.col s.kernelIndex c,
                      entry := write s.entry s.kernelIndex oe.2 }
      else pure s
    let k ← int64.ev (s.kernelIndex + 1)
    pure { s' with kernelIndex := k }
  else pure s

/-- `FillLinearizedCOOStencilTask::task_body`, StencilGenerator.cpp:129-242. -/
def fillLinCOO (t : CType) (sort : List (Point × E) → List (Point × E)) (o : IndexOrder) (b : Rect) (offsets : List (Point × E))
    (dom : Int → Bool) (fuel : Nat) (row col : Int → Option Int) (entry : Int → Option E) : Option (COOState Int Int E) :=
  let sorted := sort offsets
  doWhile (increment t o b) (fun s p => sorted.foldlM (linCooOffsetStep t o b dom p) s) fuel ⟨0, row, col, entry⟩ (Rect.lo b)

/-! ### CSR fill -/

/-- Body of the loop over offsets, StencilGenerator.cpp:338-347 and 358-367, and, with linearised columns, 495-505 and 523-533. -/
def csrOffsetStep {R C : Type} (t : CType) (b : Rect) (dom : Int → Bool) (colOf : Point → Option C) (point : Point)
    (s : CSRState R C E) (oe : Point × E) : Option (CSRState R C E) := do
  let shifted ← addPoint t point oe.1
  if Rect.contains b shifted then do
    let s' ← if dom s.kernelIndex then do
        let c ← colOf shifted
        pure { s with col := write s.col s.kernelIndex c, entry := write s.entry s.kernelIndex oe.2 }
      else pure s
    let k ← int64.ev (s.kernelIndex + 1)
    pure { s' with kernelIndex := k }
  else pure s

/-- One iteration of the loop of `FillCSRStencilTask`, StencilGenerator.cpp:337-352 and 357-372. -/
def csrRowStep (t : CType) (b : Rect) (sorted : List (Point × E)) (dom : Int → Bool) (rdom : Point → Bool)
    (s : CSRState Point Point E) (point : Point) : Option (CSRState Point Point E) := do
  let rowBegin := s.kernelIndex
  let s1 ← sorted.foldlM (csrOffsetStep t b dom some point) s
  let rowEnd ← int64.ev (s1.kernelIndex - 1)
  pure (if rdom point then { s1 with rowptr := write s1.rowptr point (rowBegin, rowEnd) } else s1)

/-- `FillCSRStencilTask::task_body`, StencilGenerator.cpp:245-376. -/
def fillCSR (t : CType) (sort : List (Point × E) → List (Point × E)) (o : IndexOrder) (b : Rect) (offsets : List (Point × E))
    (dom : Int → Bool) (rdom : Point → Bool) (fuel : Nat) (col : Int → Option Point) (entry : Int → Option E)
    (rowptr : Point → Option (Int × Int)) : Option (CSRState Point Point E) :=
  let sorted := sort offsets
  doWhile (increment t o b) (csrRowStep t b sorted dom rdom) fuel ⟨0, col, entry, rowptr⟩ (Rect.lo b)

/-- The row part of an iteration of the linearised CSR task, StencilGenerator.cpp:493-511 and 520-539; `pointLin` is the point's
number, already computed. -/
def linCsrRowStep (t : CType) (o : IndexOrder) (b : Rect) (sorted : List (Point × E)) (dom rdom : Dom1)
    (s : CSRState Int Int E) (point : Point) (pointLin : Int) : Option (CSRState Int Int E) := do
  let rowBegin := s.kernelIndex
  let s1 ← sorted.foldlM (csrOffsetStep t b dom.contains (linearize t o b) point) s
  let rowEnd ← int64.ev (s1.kernelIndex - 1)
  pure (if rdom.contains pointLin then { s1 with rowptr := write s1.rowptr pointLin (rowBegin, rowEnd) } else s1)

/-- The condition `(point[0] + lower_bound >= lo[0]) && (point[0] + upper_bound <= hi[0])`, StencilGenerator.cpp:475-476 and
487-488. -/
def inBulk (t : CType) (b : Rect) (lower upper : Int) (point : Point) : Option Bool := do
  let x ← t.ev (headCoord point + lower)
  if x ≥ headCoord (Rect.lo b) then do
    let y ← t.ev (headCoord point + upper)
    pure (decide (y ≤ headCoord (Rect.hi b)))
  else pure false

/-- The condition of the inner `while` loop, StencilGenerator.cpp:475-481. -/
def skipCond (t : CType) (b : Rect) (lower upper size matLo rowLo : Int) (point : Point) (k : Int) : Option Bool := do
  if (← inBulk t b lower upper point) then do
    let k' ← int64.ev (k + size)
    if k' < matLo then do
      let p ← incrementHead t point
      let n ← linearize t .rowMajor b p
      pure (decide (n < rowLo))
    else pure false
  else pure false

/-- The inner `while` loop that skips bulk slices, StencilGenerator.cpp:475-484. -/
def bulkSkip (t : CType) (b : Rect) (lower upper size matLo rowLo : Int) : Nat → Point → Int → Option (Point × Int)
  | 0, _, _ => none
  | fuel + 1, point, k => do
    if (← skipCond t b lower upper size matLo rowLo point k) then do
      let point ← incrementHead t point
      let k ← int64.ev (k + size)
      bulkSkip t b lower upper size matLo rowLo fuel point k
    else pure (point, k)

/-- The part of the row-major loop before the row is processed, StencilGenerator.cpp:471-492. -/
def bulkPrologue (t : CType) (fuel : Nat) (b : Rect) (lower upper : Int) (dom rdom : Dom1) (s : BulkState E) (point : Point) :
    Option (BulkState E × Point) :=
  if tailEqual point (Rect.lo b) then do
    let r ← if s.found then do
        let size ← int64.ev (s.st.kernelIndex - s.origin)
        bulkSkip t b lower upper size dom.lo rdom.lo fuel point s.st.kernelIndex
      else pure (point, s.st.kernelIndex)
    let s1 := { s with st := { s.st with kernelIndex := r.2 } }
    if s1.found then pure (s1, r.1)
    else do
      if (← inBulk t b lower upper r.1) then
        pure ({ s1 with found := true, origin := s1.st.kernelIndex }, r.1)
      else pure (s1, r.1)
  else pure (s, point)

/-- The row-major do-while loop with early `break`, StencilGenerator.cpp:470-516. -/
def bulkLoop (t : CType) (b : Rect) (sorted : List (Point × E)) (lower upper : Int) (dom rdom : Dom1) :
    Nat → BulkState E → Point → Option (BulkState E)
  | 0, _, _ => none
  | fuel + 1, s, point => do
    let r ← bulkPrologue t (fuel + 1) b lower upper dom rdom s point
    let pointLin ← linearize t .rowMajor b r.2
    let st ← linCsrRowStep t .rowMajor b sorted dom rdom r.1.st r.2 pointLin
    let s1 := { r.1 with st := st }
    if s1.st.kernelIndex > dom.hi ∧ pointLin > rdom.hi then pure s1
    else do
      match (← incrementRowMajor t b r.2) with
      | (true, p') => bulkLoop t b sorted lower upper dom rdom fuel s1 p'
      | (false, _) => pure s1

/-- `FillLinearizedCSRStencilTask::task_body`, StencilGenerator.cpp:379-543. -/
def fillLinCSR (t : CType) (sort : List (Point × E) → List (Point × E)) (o : IndexOrder) (b : Rect) (offsets : List (Point × E))
    (dom rdom : Dom1) (fuel : Nat) (col : Int → Option Int) (entry : Int → Option E)
    (rowptr : Int → Option (Int × Int)) : Option (CSRState Int Int E) :=
  let sorted := sort offsets
  let lb := leadingDimensionBounds sorted
  match o with
  | .rowMajor =>
    (bulkLoop t b sorted lb.1 lb.2 dom rdom fuel ⟨⟨0, col, entry, rowptr⟩, 0, false⟩ (Rect.lo b)).map BulkState.st
  | .columnMajor =>
    doWhile (increment t .columnMajor b) (fun s p => do
      let n ← linearize t .columnMajor b p
      linCsrRowStep t .columnMajor b sorted dom rdom s p n) fuel ⟨0, col, entry, rowptr⟩ (Rect.lo b)

/-! ### Builders -/

/-- The point tasks of a fill launch, one after the other, as `Verif.Stencil.fillCOOPieces` and `Verif.EndToEnd.fillCSRPieces`. -/
def runPieces {D S : Type} (fill : D → S → Option S) : List D → S → Option S
  | [], s => some s
  | d :: ds, s => do
    let s' ← fill d s
    runPieces fill ds s'

/-- The number of points of `Rect<1, coord_t>(0, stencil_size - 1)` (StencilGenerator.hpp:339, 434, 548): the subtraction is in
`size_t`, its result is converted to `coord_t`. -/
def kernelPoints (size : Int) : Option Nat := do
  let last ← sizeT.ev (size - 1)
  pure (int64.conv last + 1).toNat

/-- The number of points of `Rect<1, COORD_T>(0, bounds.volume() - 1)` (StencilGenerator.hpp:551): in `size_t`, converted to the
coordinate type. -/
def rowPoints (t : CType) (b : Rect) : Option Nat := do
  let last ← sizeT.ev ((Rect.volume b : Int) - 1)
  pure (t.conv last + 1).toNat

/-- `create_coo_stencil_matrix`, StencilGenerator.hpp:326-416. -/
def createCOOStencil (t : CType) (sort : List (Point × E) → List (Point × E)) (o : IndexOrder) (b : Rect) (offsets : List (Point × E))
    (pieces : List (Int → Bool)) (fuel : Nat) (junk : COO Int Point E) : Option (COO Int Point E) := do
  let size ← calculateStencilSize t fuel b offsets
  let n ← kernelPoints size
  let s ← runPieces (fun D s => fillCOO t sort o b offsets D fuel s.row s.col s.entry) pieces
    ⟨0, fun _ => none, fun _ => none, fun _ => none⟩
  pure { kernel := indices n, row := stored s.row junk.row, col := stored s.col junk.col, entry := stored s.entry junk.entry }

/-- `create_csr_stencil_matrix`, StencilGenerator.hpp:419-530. -/
def createCSRStencil (t : CType) (sort : List (Point × E) → List (Point × E)) (o : IndexOrder) (b : Rect) (offsets : List (Point × E))
    (rows : List Point) (pieces : List ((Int → Bool) × (Point → Bool))) (fuel : Nat) (junk : CSR Int Point E) :
    Option (CSR Int Point E) := do
  let size ← calculateStencilSize t fuel b offsets
  let n ← kernelPoints size
  let s ← runPieces (fun D s => fillCSR t sort o b offsets D.1 D.2 fuel s.col s.entry s.rowptr) pieces
    ⟨0, fun _ => none, fun _ => none, fun _ => none⟩
  pure { kernel := indices n, rows := rows, range := storedRange s.rowptr junk.range, col := stored s.col junk.col,
         entry := stored s.entry junk.entry }

/-- `create_linearized_csr_stencil_matrix`, StencilGenerator.hpp:533-643. -/
def createLinCSRStencil (t : CType) (sort : List (Point × E) → List (Point × E)) (o : IndexOrder) (b : Rect)
    (offsets : List (Point × E)) (pieces : List (Dom1 × Dom1)) (fuel : Nat) (junk : CSR Int Int E) : Option (CSR Int Int E) := do
  let size ← calculateStencilSize t fuel b offsets
  let n ← kernelPoints size
  let m ← rowPoints t b
  let s ← runPieces (fun D s => fillLinCSR t sort o b offsets D.1 D.2 fuel s.col s.entry s.rowptr) pieces
    ⟨0, fun _ => none, fun _ => none, fun _ => none⟩
  pure { kernel := indices n, rows := indices m, range := storedRange s.rowptr junk.range, col := stored s.col junk.col,
         entry := stored s.entry junk.entry }

end Verif.Machine
