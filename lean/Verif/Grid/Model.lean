/-
Model of the point/rectangle helpers of /repo/src/StencilGenerator.hpp.

Simplifications: `Legion::Point<DIM, COORD_T>` is a list of `DIM` mathematical integers (overflow of `COORD_T` is the
subject of `Verif/Machine`), `Legion::Rect<DIM, COORD_T>` is the list of its `(lo[i], hi[i])` pairs.  The C++ loops
over `i = 0 .. DIM-1` or `i = DIM-1 .. 0` become structural recursion over these lists.
-/
namespace Verif.Grid

/-- `Legion::Point<DIM, COORD_T>` (Legion type, used throughout StencilGenerator.hpp). -/
abbrev Point := List Int

/-- `Legion::Rect<DIM, COORD_T>`: the pairs `(lo[i], hi[i])`. -/
abbrev Rect := List (Int × Int)

/-- `bounds.lo` of a `Legion::Rect`. -/
def Rect.lo (b : Rect) : Point := b.map Prod.fst

/-- `bounds.hi` of a `Legion::Rect`. -/
def Rect.hi (b : Rect) : Point := b.map Prod.snd

/-- Legion `Rect::contains(Point)`: every coordinate between `lo` and `hi`
(used at StencilGenerator.cpp:99, 209, 346, 500). -/
def Rect.contains : Rect → Point → Bool
  | [], [] => true
  | (l, h) :: b, x :: p => decide (l ≤ x) && decide (x ≤ h) && Rect.contains b p
  | _, _ => false

/-- Legion `Rect::volume()`: product of the side lengths, 0 if some side is empty
(used at StencilGenerator.hpp:281). -/
def Rect.volume : Rect → Nat
  | [] => 1
  | (l, h) :: b => (h - l + 1).toNat * Rect.volume b

/-- Legion `operator+(Point, Point)` (StencilGenerator.cpp:98, 208, 345, 499). -/
def addPoint (p q : Point) : Point := List.zipWith (· + ·) p q

/-- `point[0]`; points have dimension at least one wherever the code uses it (0 for the empty list). -/
def headCoord : Point → Int
  | [] => 0
  | x :: _ => x

/-- `increment_head`, StencilGenerator.hpp:139-145. -/
def incrementHead : Point → Point
  | [] => []
  | x :: p => (x + 1) :: p

/-- `tail_equal`, StencilGenerator.hpp:148-156: coordinates `1 .. DIM-1` agree. -/
def tailEqual (p q : Point) : Bool := p.tail == q.tail

/-- `leading_dimension_bounds`, StencilGenerator.hpp:159-171; the loop body for one offset. -/
def leadingStep (acc : Int × Int) (leading : Int) : Int × Int :=
  let lower := if leading < acc.1 then leading else acc.1
  let upper := if leading > acc.2 then leading else acc.2
  (lower, upper)

/-- `leading_dimension_bounds`, StencilGenerator.hpp:159-171.   -/
def leadingDimensionBounds {E : Type _} (offsets : List (Point × E)) : Int × Int :=
  offsets.foldl (fun acc o => leadingStep acc (headCoord o.1)) (0, 0)

/-- `compare_row_major`, StencilGenerator.hpp:174-183 (first coordinate first). -/
def compareRowMajor : Point → Point → Bool
  | x :: p, y :: q => if x < y then true else if x > y then false else compareRowMajor p q
  | _, _ => false

/-- `compare_column_major`, StencilGenerator.hpp:186-195 (loop from `DIM-1` down to `0`).  The recursion returns what
the loop has decided about the coordinates after the current one (`none`: all equal so far). -/
def compareColumnMajorAux : Point → Point → Option Bool
  | x :: p, y :: q =>
    match compareColumnMajorAux p q with
    | some r => some r
    | none => if x < y then some true else if x > y then some false else none
  | _, _ => none

/-- `compare_column_major`, StencilGenerator.hpp:186-195; `return false` when the loop ends. -/
def compareColumnMajor (p q : Point) : Bool := (compareColumnMajorAux p q).getD false

/-- `increment_row_major`, StencilGenerator.hpp:198-211: loop from the last coordinate; a coordinate at its upper bound
is reset and the loop continues, otherwise it is incremented and `true` is returned. -/
def incrementRowMajor : Rect → Point → Bool × Point
  | (l, h) :: b, x :: p =>
    match incrementRowMajor b p with
    | (true, p') => (true, x :: p')
    | (false, p') => if x ≥ h then (false, l :: p') else (true, (x + 1) :: p')
  | _, p => (false, p)

/-- `increment_column_major`, StencilGenerator.hpp:214-227: the same from the first coordinate. -/
def incrementColumnMajor : Rect → Point → Bool × Point
  | (l, h) :: b, x :: p =>
    if x ≥ h then
      let r := incrementColumnMajor b p
      (r.1, l :: r.2)
    else (true, (x + 1) :: p)
  | _, p => (false, p)

/-- Loop state `(result, acc)` of `linearize_row_major`, StencilGenerator.hpp:230-243, after the coordinates of the
given suffix have been processed (the C++ loop runs from the last coordinate to the first). -/
def linearizeRowMajorAux : Rect → Point → Int × Int
  | (l, h) :: b, x :: p =>
    let r := linearizeRowMajorAux b p
    (r.1 + r.2 * (x - l), r.2 * (h - l + 1))
  | _, _ => (0, 1)

/-- `linearize_row_major`, StencilGenerator.hpp:230-243. -/
def linearizeRowMajor (b : Rect) (p : Point) : Int := (linearizeRowMajorAux b p).1

/-- Loop of `linearize_column_major`, StencilGenerator.hpp:246-259, from the first coordinate. -/
def linearizeColumnMajorAux : Int × Int → Rect → Point → Int × Int
  | (result, acc), (l, h) :: b, x :: p =>
    linearizeColumnMajorAux (result + acc * (x - l), acc * (h - l + 1)) b p
  | s, _, _ => s

/-- `linearize_column_major`, StencilGenerator.hpp:246-259. -/
def linearizeColumnMajor (b : Rect) (p : Point) : Int := (linearizeColumnMajorAux (0, 1) b p).1

/-- `tail`, StencilGenerator.hpp:262-267. -/
def tailPoint (p : Point) : Point := p.tail

/-- `IndexOrder`, StencilGenerator.hpp:22-26. -/
inductive IndexOrder where
  | rowMajor
  | columnMajor
  deriving DecidableEq, Repr

/-- The `switch (args.order)` choosing the increment function, StencilGenerator.cpp:93-125. -/
def increment : IndexOrder → Rect → Point → Bool × Point
  | .rowMajor => incrementRowMajor
  | .columnMajor => incrementColumnMajor

/-- The `switch (args.order)` choosing the linearisation, StencilGenerator.cpp:204-241. -/
def linearize : IndexOrder → Rect → Point → Int
  | .rowMajor => linearizeRowMajor
  | .columnMajor => linearizeColumnMajor

/-- The `switch (args.order)` choosing the comparison, StencilGenerator.cpp:41-64. -/
def compare : IndexOrder → Point → Point → Bool
  | .rowMajor => compareRowMajor
  | .columnMajor => compareColumnMajor

/-- The loop `do { body(point) } while (increment(point, bounds))`, StencilGenerator.cpp:95-107 and its copies.
`fuel` bounds the number of iterations; `none` means the loop did not stop within `fuel` iterations. -/
def doWhile {S : Type _} (inc : Point → Bool × Point) (body : S → Point → S) : Nat → S → Point → Option S
  | 0, _, _ => none
  | fuel + 1, s, p =>
    let s' := body s p
    match inc p with
    | (true, p') => doWhile inc body fuel s' p'
    | (false, _) => some s'

end Verif.Grid
