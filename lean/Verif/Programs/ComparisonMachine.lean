import Verif.Machine.Props
import Verif.Programs.ComparisonProps

/-!
# C95: the comparison programs in machine integers

The assembly loops of `benchmarks/petsc/main.cpp` and `benchmarks/trilinos/main.cpp` again, with every operation on integers in its C++ type.
`PetscInt` is any signed type; the types of Tpetra are its defaults: `GlobalIndex` is `long long`, `global_size_t` is `size_t`, `LocalIndex` is
`int`.  Reading the sizes from the command line is not modelled here.
-/
set_option linter.dupNamespace false
set_option linter.unusedSectionVars false
namespace Verif.Programs
open Verif.Machine Verif.Runtime Verif.Vector Verif.Matrix Verif.Planner Verif.Solver Verif.EndToEnd Verif.Grid Verif.Stencil

/-- A value with its type. -/
structure CNum where
  ty : CType
  val : Int

/-- An expression's value; `none`: undefined behaviour. -/
structure CExp where
  run : Option CNum

/-- The common type of two operands (the usual arithmetic conversions; the rank of a type is its width). -/
def common (a b : CType) : CType :=
  if a.bits < b.bits then b else if b.bits < a.bits then a else ⟨a.bits, a.signed && b.signed⟩

/-- An operation on two operands. -/
def CExp.op (f : Int → Int → Int) (a b : CExp) : CExp :=
  ⟨do
    let x ← a.run
    let y ← b.run
    let t := common x.ty y.ty
    let z ← t.ev (f (t.conv x.val) (t.conv y.val))
    pure ⟨t, z⟩⟩

/-- A division or remainder: undefined for divisor zero. -/
def CExp.divOp (f : Int → Int → Int) (a b : CExp) : CExp :=
  ⟨do
    let x ← a.run
    let y ← b.run
    let t := common x.ty y.ty
    if t.conv y.val = 0 then none
    else
      let z ← t.ev (f (t.conv x.val) (t.conv y.val))
      pure ⟨t, z⟩⟩

instance : Add CExp := ⟨CExp.op (· + ·)⟩
instance : Sub CExp := ⟨CExp.op (· - ·)⟩
instance : Mul CExp := ⟨CExp.op (· * ·)⟩
instance : Div CExp := ⟨CExp.divOp Int.tdiv⟩
instance : Mod CExp := ⟨CExp.divOp Int.tmod⟩

/-- A variable of a type. -/
def var (t : CType) (z : Int) : CExp := ⟨some ⟨t, z⟩⟩

/-- The literals `0` and `1`, of type `int`. -/
def lit0 : CExp := var int32 0
def lit1 : CExp := var int32 1

/-- Assignment to a variable of type `t`. -/
def CExp.as (a : CExp) (t : CType) : CExp := ⟨a.run.map fun x => ⟨t, t.conv x.val⟩⟩

/-- A comparison. -/
def CExp.less (a b : CExp) : Option Bool := do
  let x ← a.run
  let y ← b.run
  let t := common x.ty y.ty
  pure (decide (t.conv x.val < t.conv y.val))

/-- `a && b`. -/
def both (a b : Option Bool) : Option Bool := a.bind fun x => if x then b else some false

/-- `if (c) set(col, v)`: the column, a parameter of type `t`, is computed only if the condition holds. -/
def putC {V : Type} (t : CType) (c : Option Bool) (col : CExp) (v : V) : Option (List (Int × V)) :=
  c.bind fun x => if x then (col.as t).run.map fun z => [(z.val, v)] else some []

/-- One statement after the other. -/
def seqC {V : Type} (a b : Option (List (Int × V))) : Option (List (Int × V)) := a.bind fun x => b.map fun y => x ++ y

infixl:60 " ;; " => seqC

section
variable {V : Type}

/-- `petsc/main.cpp` 117-126 with `t` = `u` = `PetscInt`; `trilinos/main.cpp` 172-184 with `t` = `GlobalIndex` and `u` = `global_size_t`, the type
of `nx`. -/
def rowC1 (t u : CType) (k : Consts V) (nx global_index : Int) : Option (List (Int × V)) :=
  let gx := var t global_index
  let nx := var u nx
  putC t (lit0.less gx) (gx - lit1) k.neg_one ;;
  putC t (some true) gx k.two ;;
  putC t ((gx + lit1).less nx) (gx + lit1) k.neg_one

/-- `petsc/main.cpp` 127-151, `trilinos/main.cpp` 185-206. -/
def rowC2 (t u : CType) (k : Consts V) (nx ny global_index : Int) : Option (List (Int × V)) :=
  let nx := var u nx
  let ny := var u ny
  let gy := (var t global_index % ny).as t
  let gx := (var t global_index / ny).as t
  putC t (lit0.less gx) (ny * (gx - lit1) + gy) k.neg_one ;;
  putC t (lit0.less gy) (ny * gx + (gy - lit1)) k.neg_one ;;
  putC t (some true) (ny * gx + gy) k.four ;;
  putC t ((gy + lit1).less ny) (ny * gx + (gy + lit1)) k.neg_one ;;
  putC t ((gx + lit1).less nx) (ny * (gx + lit1) + gy) k.neg_one

/-- `petsc/main.cpp` 152-214, `trilinos/main.cpp` 207-238. -/
def rowC3 (t u : CType) (k : Consts V) (nx ny nz global_index : Int) : Option (List (Int × V)) :=
  let nx := var u nx
  let ny := var u ny
  let nz := var u nz
  let gz := (var t global_index % nz).as t
  let gxy := (var t global_index / nz).as t
  let gy := (gxy % ny).as t
  let gx := (gxy / ny).as t
  putC t (lit0.less gx) (ny * nz * (gx - lit1) + nz * gy + gz) k.neg_one ;;
  putC t (lit0.less gy) (ny * nz * gx + nz * (gy - lit1) + gz) k.neg_one ;;
  putC t (lit0.less gz) (ny * nz * gx + nz * gy + (gz - lit1)) k.neg_one ;;
  putC t (some true) (ny * nz * gx + nz * gy + gz) k.six ;;
  putC t ((gz + lit1).less nz) (ny * nz * gx + nz * gy + (gz + lit1)) k.neg_one ;;
  putC t ((gy + lit1).less ny) (ny * nz * gx + nz * (gy + lit1) + gz) k.neg_one ;;
  putC t ((gx + lit1).less nx) (ny * nz * (gx + lit1) + nz * gy + gz) k.neg_one

/-- `petsc/main.cpp` 215-249, `trilinos/main.cpp` 239-366. -/
def rowC4 (t u : CType) (k : Consts V) (nx ny nz global_index : Int) : Option (List (Int × V)) :=
  let nx := var u nx
  let ny := var u ny
  let nz := var u nz
  let gz := (var t global_index % nz).as t
  let gxy := (var t global_index / nz).as t
  let gy := (gxy % ny).as t
  let gx := (gxy / ny).as t
  let xm := lit0.less gx
  let ym := lit0.less gy
  let zm := lit0.less gz
  let xp := (gx + lit1).less nx
  let yp := (gy + lit1).less ny
  let zp := (gz + lit1).less nz
  putC t (both (both xm ym) zm) (ny * nz * (gx - lit1) + nz * (gy - lit1) + (gz - lit1)) k.corner ;;
  putC t (both xm ym) (ny * nz * (gx - lit1) + nz * (gy - lit1) + gz) k.edge ;;
  putC t (both (both xm ym) zp) (ny * nz * (gx - lit1) + nz * (gy - lit1) + (gz + lit1)) k.corner ;;
  putC t (both xm zm) (ny * nz * (gx - lit1) + nz * gy + (gz - lit1)) k.edge ;;
  putC t xm (ny * nz * (gx - lit1) + nz * gy + gz) k.face ;;
  putC t (both xm zp) (ny * nz * (gx - lit1) + nz * gy + (gz + lit1)) k.edge ;;
  putC t (both (both xm yp) zm) (ny * nz * (gx - lit1) + nz * (gy + lit1) + (gz - lit1)) k.corner ;;
  putC t (both xm yp) (ny * nz * (gx - lit1) + nz * (gy + lit1) + gz) k.edge ;;
  putC t (both (both xm yp) zp) (ny * nz * (gx - lit1) + nz * (gy + lit1) + (gz + lit1)) k.corner ;;
  putC t (both ym zm) (ny * nz * gx + nz * (gy - lit1) + (gz - lit1)) k.edge ;;
  putC t ym (ny * nz * gx + nz * (gy - lit1) + gz) k.face ;;
  putC t (both ym zp) (ny * nz * gx + nz * (gy - lit1) + (gz + lit1)) k.edge ;;
  putC t zm (ny * nz * gx + nz * gy + (gz - lit1)) k.face ;;
  putC t (some true) (ny * nz * gx + nz * gy + gz) k.center ;;
  putC t zp (ny * nz * gx + nz * gy + (gz + lit1)) k.face ;;
  putC t (both yp zm) (ny * nz * gx + nz * (gy + lit1) + (gz - lit1)) k.edge ;;
  putC t yp (ny * nz * gx + nz * (gy + lit1) + gz) k.face ;;
  putC t (both yp zp) (ny * nz * gx + nz * (gy + lit1) + (gz + lit1)) k.edge ;;
  putC t (both (both xp ym) zm) (ny * nz * (gx + lit1) + nz * (gy - lit1) + (gz - lit1)) k.corner ;;
  putC t (both xp ym) (ny * nz * (gx + lit1) + nz * (gy - lit1) + gz) k.edge ;;
  putC t (both (both xp ym) zp) (ny * nz * (gx + lit1) + nz * (gy - lit1) + (gz + lit1)) k.corner ;;
  putC t (both xp zm) (ny * nz * (gx + lit1) + nz * gy + (gz - lit1)) k.edge ;;
  putC t xp (ny * nz * (gx + lit1) + nz * gy + gz) k.face ;;
  putC t (both xp zp) (ny * nz * (gx + lit1) + nz * gy + (gz + lit1)) k.edge ;;
  putC t (both (both xp yp) zm) (ny * nz * (gx + lit1) + nz * (gy + lit1) + (gz - lit1)) k.corner ;;
  putC t (both xp yp) (ny * nz * (gx + lit1) + nz * (gy + lit1) + gz) k.edge ;;
  putC t (both (both xp yp) zp) (ny * nz * (gx + lit1) + nz * (gy + lit1) + (gz + lit1)) k.corner

/-- The `switch` on the kind of matrix (`petsc/main.cpp` 116-250, `trilinos/main.cpp` 171-367). -/
def rowC (t u : CType) (k : Consts V) (dim nx ny nz global_index : Int) : Option (List (Int × V)) :=
  if dim = 1 then rowC1 t u k nx global_index else if dim = 2 then rowC2 t u k nx ny global_index
  else if dim = 3 then rowC3 t u k nx ny nz global_index else rowC4 t u k nx ny nz global_index

/-- `nx * ny * nz` in the type of the sizes (`petsc/main.cpp` 87, `trilinos/main.cpp` 130). -/
def problemSizeC (u : CType) (nx ny nz : Int) : Option Int := (var u nx * var u ny * var u nz).run.map (·.val)

/-- A loop whose body can be undefined. -/
def loopC {α β : Type} (f : α → Option β) : List α → Option (List β)
  | [] => some []
  | a :: l => (f a).bind fun b => (loopC f l).map fun bs => b :: bs

/-- The program for PETSc from the sizes on (`petsc/main.cpp` 87-251): the number of rows of the matrix, the rows each rank sets (`owned` says
which, given that number).  The loop counter is in range with the bounds. -/
def petscC (t : CType) (k : Consts V) (dim nx ny nz : Int) (owned : Int → List (Int × Int)) : Option (Int × List (Int × Int × V)) := do
  let n ← problemSizeC t nx ny nz
  let rows ← loopC (fun g => (rowC t t k dim nx ny nz g).map fun l => l.map fun e => (g, e.1, e.2))
    ((owned n).flatMap fun r => (indices (r.2 - r.1).toNat).map (r.1 + ·))
  pure (n, rows.flatten)

/-- The program for Trilinos from the sizes on (`trilinos/main.cpp` 130-371): each rank counts its rows with a `LocalIndex`; a row is inserted with
its columns and values. -/
def trilinosC (k : Consts V) (dim nx ny nz : Int) (owned : Int → List (List Int)) : Option (Int × List (Int × List Int × List V)) := do
  let n ← problemSizeC sizeT nx ny nz
  let rows ← loopC (fun g => (rowC int64 sizeT k dim nx ny nz g).map fun l => (g, l.map Prod.fst, l.map Prod.snd))
    ((owned n).flatMap fun rows => rows.take (int32.conv rows.length).toNat)
  pure (n, rows)

end

end Verif.Programs
