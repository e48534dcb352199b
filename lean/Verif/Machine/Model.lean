import Verif.Gpu.Model
import Verif.Laplacian.Model
/-
The index computations again, in machine integers: every C++ operation is evaluated in its type.  Signed overflow is
undefined behaviour (`none`), unsigned arithmetic wraps around, conversions between integer types are modular (as on all
compilers the library supports, and in C++20).
-/
namespace Verif.Machine
open Verif.Grid

/-- An integer type: its width and whether it is signed. -/
structure CType where
  bits : Nat
  signed : Bool
deriving DecidableEq

/-- The coordinate types of the library (`LibraryOptions.hpp`: `int`, `unsigned`, `long long`) and `size_t`. -/
def int32 : CType := ⟨32, true⟩
def uint32 : CType := ⟨32, false⟩
def int64 : CType := ⟨64, true⟩
def sizeT : CType := ⟨64, false⟩

/-- Smallest value. -/
def CType.min (t : CType) : Int := if t.signed then -(2 ^ (t.bits - 1)) else 0
/-- Largest value. -/
def CType.max (t : CType) : Int := if t.signed then 2 ^ (t.bits - 1) - 1 else 2 ^ t.bits - 1
/-- The value is representable. -/
def CType.Fits (t : CType) (z : Int) : Prop := t.min ≤ z ∧ z ≤ t.max

instance (t : CType) (z : Int) : Decidable (t.Fits z) := inferInstanceAs (Decidable (_ ∧ _))

/-- The result of an arithmetic operation with exact result `z` in type `t`; `none` is undefined behaviour. -/
def CType.ev (t : CType) (z : Int) : Option Int :=
  if t.signed then (if t.Fits z then some z else none) else some (z % 2 ^ t.bits)

/-- Conversion of a value to type `t`. -/
def CType.conv (t : CType) (z : Int) : Int :=
  if t.signed then (z + 2 ^ (t.bits - 1)) % 2 ^ t.bits - 2 ^ (t.bits - 1) else z % 2 ^ t.bits

/-- One step of the loops of `linearize_row_major` and `linearize_column_major` (StencilGenerator.hpp:239-240, 255-256). -/
def linStep (t : CType) (s : Int × Int) (l h x : Int) : Option (Int × Int) := do
  let d ← t.ev (x - l)
  let m ← t.ev (s.2 * d)
  let r ← t.ev (s.1 + m)
  let e ← t.ev (h - l)
  let e ← t.ev (e + 1)
  let a ← t.ev (s.2 * e)
  pure (r, a)

/-- Loop of `linearize_row_major`, StencilGenerator.hpp:238-241 (from the last coordinate). -/
def linRowAux (t : CType) : Rect → Point → Option (Int × Int)
  | (l, h) :: b, x :: p => do
    let s ← linRowAux t b p
    linStep t s l h x
  | _, _ => some (0, 1)

/-- Loop of `linearize_column_major`, StencilGenerator.hpp:254-257. -/
def linColAux (t : CType) : Int × Int → Rect → Point → Option (Int × Int)
  | s, (l, h) :: b, x :: p => do
    let s ← linStep t s l h x
    linColAux t s b p
  | s, _, _ => some s

/-- `linearize_row_major`, `linearize_column_major` in the coordinate type (StencilGenerator.hpp:230-259). -/
def linearize (t : CType) (o : IndexOrder) (b : Rect) (p : Point) : Option Int :=
  match o with
  | .rowMajor => (linRowAux t b p).map (·.1)
  | .columnMajor => (linColAux t (0, 1) b p).map (·.1)

/-- `3 * grid_size - 2` (ExampleSystems.cpp:35, 131). -/
def kernelSize (t : CType) (n : Int) : Option Int := do
  let a ← t.ev (3 * n)
  t.ev (a - 2)

/-- `(k + 1) / 3`, converted to the row type (ExampleSystems.cpp:314-316). -/
def rowOf (t r : CType) (k : Int) : Option Int := do
  let a ← t.ev (k + 1)
  let q ← t.ev (a.tdiv 3)
  pure (r.conv q)

/-- `k - 2 * ((k + 1) / 3)`, converted to the column type (ExampleSystems.cpp:317-319, 384-386). -/
def colOf (t c : CType) (k : Int) : Option Int := do
  let a ← t.ev (k + 1)
  let q ← t.ev (a.tdiv 3)
  let m ← t.ev (2 * q)
  let z ← t.ev (k - m)
  pure (c.conv z)

/-- The row range written for row `k` (ExampleSystems.cpp:448-464). -/
def rowptrOf (t : CType) (n k : Int) : Option (Int × Int) := do
  let n1 ← t.ev (n - 1)
  if k = 0 then pure (0, 1)
  else if k = n1 then do
    let a ← t.ev (3 * n)
    let x ← t.ev (a - 4)
    let y ← t.ev (a - 3)
    pure (x, y)
  else do
    let a ← t.ev (3 * k)
    let x ← t.ev (a - 1)
    let y ← t.ev (a + 1)
    pure (x, y)

/-- `laplacian_2d_kernel_size` (ExampleSystems.hpp:33-42), evaluated from left to right. -/
def laplacian2dKernelSize (t : CType) (height width : Int) : Option Int := do
  let h2 ← t.ev (height - 2)
  let a ← t.ev (h2 * 2)
  let a ← t.ev (a * 3)
  let s ← t.ev (8 + a)
  let w2 ← t.ev (width - 2)
  let b ← t.ev (w2 * 2)
  let b ← t.ev (b * 3)
  let s ← t.ev (s + b)
  let c ← t.ev (h2 * w2)
  let c ← t.ev (c * 4)
  let s ← t.ev (s + c)
  let d ← t.ev (width * height)
  t.ev (s + d)

/-- `const size_t diff = rect.hi[d] - rect.lo[d] + 1` (Pitches.hpp:36, 71). -/
def diff (t : CType) (l h : Int) : Option Int := do
  let e ← t.ev (h - l)
  let e ← t.ev (e + 1)
  pure (sizeT.conv e)

/-- `Pitches::flatten` in C order over the dimensions after the first (Pitches.hpp:31-42); `volume` and `pitch` agree there. -/
def flattenCAux (t : CType) : Rect → Option (Option (Int × List Int))
  | [] => some (some (1, []))
  | (l, h) :: b => do
    match (← flattenCAux t b) with
    | none => pure none
    | some (v, ps) => if l > h then pure none else do
        let d ← diff t l h
        let v ← sizeT.ev (v * d)
        pure (some (v, v :: ps))

/-- `Pitches<DIM, COORD_T, true>::flatten` (Pitches.hpp:30-44), as `Verif.Gpu.flattenC`; the outer `none` is undefined behaviour. -/
def flattenC (t : CType) : Rect → Option (Int × Option (List Int))
  | [] => some (1, some [])
  | (l, h) :: b => do
    match (← flattenCAux t b) with
    | none => pure (0, none)
    | some (v, ps) => if l > h then pure (0, some ps) else do
        let d ← diff t l h
        let v ← sizeT.ev (v * d)
        pure (v, some ps)

/-- `point[d] += index / pitches[d]` in the coordinate type: the sum is formed in `size_t` and converted back when the
coordinate type is not wider (Pitches.hpp:50, 53; also 85, 88, 107). -/
def addIndex (t : CType) (x : Int) (q : Int) : Option Int := do
  let s ← sizeT.ev (sizeT.conv x + q)
  pure (t.conv s)

/-- `Pitches<DIM, COORD_T, true>::unflatten` (Pitches.hpp:46-55). -/
def unflattenC (t : CType) : List Int → Int → Point → Option Point
  | q :: qs, index, x :: p => do
    let y ← addIndex t x (index / q)
    let p ← unflattenC t qs (index % q) p
    pure (y :: p)
  | [], index, x :: p => do
    let y ← addIndex t x index
    pure (y :: p)
  | _, _, [] => some []

/-- `Pitches<0, COORD_T, C_ORDER>` (Pitches.hpp:96-110) and the general C-order class. -/
def flatten (t : CType) (b : Rect) : Option (Int × Option (List Int)) :=
  match b with
  | [(l, h)] => if l > h then some (0, some []) else (diff t l h).map fun d => (d, some [])
  | _ => flattenC t b

/-- `get_num_blocks_1d` (CudaLibs.hpp:26-28), then the conversion of the launch argument to `unsigned`
(LinearAlgebraTasks.cu:169-172, `dim3`). -/
def launchedBlocks (threads : Int) : Option Int := do
  let a ← sizeT.ev (threads + 128)
  let a ← sizeT.ev (a - 1)
  pure (uint32.conv (a / 128))

/-- `global_tid_1d` (CudaLibs.hpp:21-23). -/
def globalTid (block thread : Int) : Option Int := do
  let a ← sizeT.ev (block * 128)
  sizeT.ev (a + thread)

end Verif.Machine
