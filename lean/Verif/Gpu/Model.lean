import Verif.Grid.Model
/-
Model of the flat-index helpers and element-wise GPU kernels: /repo/src/Pitches.hpp, /repo/src/CudaLibs.hpp and the
`xpay_kernel` of /repo/src/LinearAlgebraTasks.cu.
Simplifications: `size_t` values are natural numbers and coordinates mathematical integers.
-/
namespace Verif.Gpu
open Verif.Grid

/-! ### Pitches, C order -/

/-- Loop of `Pitches::flatten` (C order), Pitches.hpp:31-42, over the dimensions `d > 0` of a suffix; it runs from the last
dimension to the first.  Result: `(volume, pitches)` of the suffix (`pitch` and `volume` agree there), or `none` for the
early `return 0` of line 35. -/
def flattenCAux : Rect → Option (Nat × List Nat)
  | [] => some (1, [])
  | (l, h) :: b =>
    match flattenCAux b with
    | none => none
    | some (v, ps) => if l > h then none else some (v * (h - l + 1).toNat, v * (h - l + 1).toNat :: ps)

/-- `Pitches<DIM, COORD_T, true>::flatten`, Pitches.hpp:30-44: returned volume and the array `pitches` (`none`: not
completely set). For dimension `d = 0` only the volume is updated. -/
def flattenC : Rect → Nat × Option (List Nat)
  | [] => (1, some [])
  | (l, h) :: b =>
    match flattenCAux b with
    | none => (0, none)
    | some (v, ps) => if l > h then (0, some ps) else (v * (h - l + 1).toNat, some ps)

/-- `Pitches<DIM, COORD_T, true>::unflatten`, Pitches.hpp:46-55. -/
def unflattenC : List Nat → Nat → Point → Point
  | q :: qs, index, x :: p => (x + (index / q : Nat)) :: unflattenC qs (index % q) p
  | [], index, x :: p => (x + (index : Int)) :: p
  | _, _, [] => []

/-! ### Pitches, Fortran order -/

/-- Loop of `Pitches::flatten` (Fortran order), Pitches.hpp:67-76, with the current `pitch`; `none` for the early
`return 0`. -/
def flattenFAux : Nat → Rect → Option (Nat × List Nat)
  | pitch, [] => some (pitch, [])
  | pitch, [(l, h)] => if l > h then none else some (pitch * (h - l + 1).toNat, [])
  | pitch, (l, h) :: b2 :: b =>
    if l > h then none else
      match flattenFAux (pitch * (h - l + 1).toNat) (b2 :: b) with
      | none => none
      | some (v, ps) => some (v, pitch * (h - l + 1).toNat :: ps)

/-- `Pitches<DIM, COORD_T, false>::flatten`, Pitches.hpp:64-78. -/
def flattenF (b : Rect) : Nat × Option (List Nat) :=
  match flattenFAux 1 b with
  | none => (0, none)
  | some (v, ps) => (v, some ps)

/-- Loop of `Pitches<DIM, COORD_T, false>::unflatten`, Pitches.hpp:83-86, over dimensions `d + 1` from the last; returns
the remaining index and the updated coordinates. -/
def unflattenFAux : List Nat → Nat → Point → Nat × Point
  | q :: qs, index, x :: p =>
    let r := unflattenFAux qs index p
    (r.1 % q, (x + (r.1 / q : Nat)) :: r.2)
  | _, index, p => (index, p)

/-- `Pitches<DIM, COORD_T, false>::unflatten`, Pitches.hpp:80-89. -/
def unflattenF : List Nat → Nat → Point → Point
  | qs, index, x :: p =>
    let r := unflattenFAux qs index p
    (x + (r.1 : Int)) :: r.2
  | _, _, [] => []

/-! ### The specialisation for one-dimensional rectangles -/

/-- `Pitches<0, COORD_T, C_ORDER>::flatten`, Pitches.hpp:99-102. -/
def flatten0 (l h : Int) : Nat := if l > h then 0 else (h - l + 1).toNat

/-- `Pitches<0, COORD_T, C_ORDER>::unflatten`, Pitches.hpp:104-109. -/
def unflatten0 (index : Nat) (x : Int) : Int := x + (index : Int)

/-- `flatten` for either memory order (template parameter `C_ORDER`): the specialisation applies to one dimension. -/
def flatten (o : IndexOrder) (b : Rect) : Nat × Option (List Nat) :=
  match b with
  | [(l, h)] => (flatten0 l h, some [])
  | _ => match o with
    | .rowMajor => flattenC b
    | .columnMajor => flattenF b

/-- `unflatten` for either memory order. -/
def unflatten (o : IndexOrder) (pitches : List Nat) (index : Nat) (lo : Point) : Point :=
  match lo with
  | [x] => [unflatten0 index x]
  | _ => match o with
    | .rowMajor => unflattenC pitches index lo
    | .columnMajor => unflattenF pitches index lo

/-! ### Thread grid and the xpay kernel -/

/-- `THREADS_PER_BLOCK`, CudaLibs.hpp:15. -/
def threadsPerBlock : Nat := 128

/-- `get_num_blocks_1d`, CudaLibs.hpp:26-28. -/
def numBlocks (threads : Nat) : Nat := (threads + threadsPerBlock - 1) / threadsPerBlock

/-- `global_tid_1d`, CudaLibs.hpp:21-23, for block `t.1` and thread `t.2` of the block. -/
def globalTid (t : Nat × Nat) : Nat := t.1 * threadsPerBlock + t.2

/-- All threads of a launch `<<<numBlocks volume, threadsPerBlock>>>`. -/
def launchGrid (volume : Nat) : List (Nat × Nat) :=
  (List.range (numBlocks volume)).flatMap fun blk => (List.range threadsPerBlock).map fun t => (blk, t)

/-- `xpay_kernel`, LinearAlgebraTasks.cu:118-131, executed by one thread; `fma` is `std::fma`. -/
def xpayThread {E : Type _} (fma : E → E → E → E) (volume : Nat) (alpha : E) (pitches : List Nat) (lo : Point)
    (x : Point → E) (y : Point → E) (t : Nat × Nat) : Point → E :=
  let idx := globalTid t
  if idx ≥ volume then y
  else
    let point := unflatten .rowMajor pitches idx lo
    fun p => if p = point then fma alpha (y point) (x point) else y p

/-- `XpayTask::cuda_task_body`, LinearAlgebraTasks.cu:135-176, with the threads executed in the order `sched` (any
permutation of the launch grid).  `none`: the kernel would read unset pitches. -/
def xpayGpu {E : Type _} (fma : E → E → E → E) (alpha : E) (b : Rect) (sched : List (Nat × Nat))
    (x y : Point → E) : Option (Point → E) :=
  if Rect.volume b = 0 then some y
  else
    match (flatten .rowMajor b) with
    | (_, none) => none
    | (v, some ps) => some (sched.foldl (xpayThread fma v alpha ps (Rect.lo b) x) y)

/-- `XpayTask::task_body` on a piece whose points are visited in the order `pts`, LinearAlgebraTasks.cpp:91-132. -/
def xpayCpu {E : Type _} (fma : E → E → E → E) (alpha : E) (pts : List Point) (x y : Point → E) : Point → E :=
  pts.foldl (fun y point p => if p = point then fma alpha (y point) (x point) else y p) y

end Verif.Gpu
