import Verif.Grid.Model
/-
Model of `calculate_stencil_size`, /repo/src/StencilGenerator.hpp:270-323.
An outcome `none` stands for a failing `assert`.  `std::size_t` results are natural numbers (no wrap-around).
-/
namespace Verif.Stencil
open Verif.Grid

variable {E : Type _}

/-- The inner loop building `sub_offsets`, StencilGenerator.hpp:302-309: offsets whose first coordinate stays inside the
leading range when applied at `i`, with that coordinate removed. -/
def subOffsets (l h i : Int) (offsets : List (Point × E)) : List (Point × E) :=
  offsets.filterMap fun o =>
    if l ≤ i + headCoord o.1 ∧ i + headCoord o.1 ≤ h then some (tailPoint o.1, o.2) else none

/-- `min_offset`, StencilGenerator.hpp:290-293. -/
def minOffset (offsets : List (Point × E)) : Int := offsets.foldl (fun m o => min m (headCoord o.1)) 0

/-- `max_offset`, StencilGenerator.hpp:291-294. -/
def maxOffset (offsets : List (Point × E)) : Int := offsets.foldl (fun m o => max m (headCoord o.1)) 0

/-- The `for` loop over the leading coordinate, StencilGenerator.hpp:297-319; `sub` is the recursive call for the
remaining dimensions.  `none` is a failed assertion (lines 311, 313). -/
def sizeLoop (sub : List (Point × E) → Option Nat) (l h : Int) (offsets : List (Point × E))
    (i : Int) (result : Nat) : Option Nat :=
  if i ≤ h then
    let so := subOffsets l h i offsets
    if so.length = offsets.length then
      if i = l - minOffset offsets then
        let iNew := h - maxOffset offsets
        if _hi : iNew ≥ i then
          match sub so with
          | none => none
          | some s => sizeLoop sub l h offsets (iNew + 1) (result + (iNew - i + 1).toNat * s)
        else none
      else none
    else
      match sub so with
      | none => none
      | some s => sizeLoop sub l h offsets (i + 1) (result + s)
  else some result
termination_by (h + 1 - i).toNat
decreasing_by all_goals omega

/-- The one-dimensional base case, StencilGenerator.hpp:279-287. -/
def size1 (l h : Int) (offsets : List (Point × E)) : Nat :=
  let length := (h - l + 1).toNat
  offsets.foldl (fun result o =>
    let distance := (headCoord o.1).natAbs
    if distance ≤ length then result + (length - distance) else result) 0

/-- `calculate_stencil_size`, StencilGenerator.hpp:270-323.  `DIM = 0` cannot be instantiated in the code; the model
returns `none` there for a non-empty list. -/
def calculateStencilSize : Rect → List (Point × E) → Option Nat
  | _, [] => some 0
  | [], _ :: _ => none
  | [(l, h)], o :: os => some (size1 l h (o :: os))
  | (l, h) :: b2 :: b, o :: os => sizeLoop (calculateStencilSize (b2 :: b)) l h (o :: os) l 0

end Verif.Stencil
