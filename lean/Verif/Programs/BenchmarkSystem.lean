import Verif.Programs.BenchmarkLoops
import Verif.Programs.Mirror
import Verif.Special.Classes

/-! # The linear system of the benchmark program -/
set_option linter.dupNamespace false
set_option linter.unusedSectionVars false
namespace Verif.Programs
open Verif.Runtime Verif.Vector Verif.Matrix Verif.Planner Verif.Solver Verif.EndToEnd Verif.Grid Verif.Stencil Verif.Special Verif.Textbook
open scoped _root_.Matrix

/-! ## Specification -/

/-- The numbers of grid points in the directions used. -/
def benchSizes (o : Options) : List Int :=
  if o.dim = 1 then [o.nx] else if o.dim = 2 then [o.nx, o.ny] else [o.nx, o.ny, o.nz]

/-- The directions of the difference operators, one of each opposite pair, with numerators of the weights: the axes; for `dim = 4` also the
diagonals of the faces and of the cube. -/
def dirCodes (dim : Int) : List (Point × Int) :=
  if dim = 1 then [([1], 1)]
  else if dim = 2 then [([1, 0], 1), ([0, 1], 1)]
  else if dim = 3 then [([1, 0, 0], 1), ([0, 1, 0], 1), ([0, 0, 1], 1)]
  else [([1, 0, 0], 6), ([0, 1, 0], 6), ([0, 0, 1], 6),
    ([1, 1, 0], 3), ([1, -1, 0], 3), ([1, 0, 1], 3), ([1, 0, -1], 3), ([0, 1, 1], 3), ([0, 1, -1], 3),
    ([1, 1, 1], 2), ([1, 1, -1], 2), ([1, -1, 1], 2), ([1, -1, -1], 2)]

/-- The denominator of the weights. -/
def denom (dim : Int) : Int := if dim = 4 then 26 else 1

/-- The directions and weights of the difference operator. -/
def benchDirs (V : Type) [Field V] (dim : Int) : List (Point × V) := (dirCodes dim).map fun t => (t.1, (t.2 : V) / denom dim)

/-- The dimension of the grid. -/
def gridDim (dim : Int) : Nat := if dim = 1 then 1 else if dim = 2 then 2 else 3

/-- The number of points of the half box. -/
def halfVolume (o : Options) : Nat := Rect.volume (halfOf (benchSizes o))

/-- Options the program accepts: a known difference operator and solver, a non-empty grid, at least one iteration per trace, numbers of
iterations that do not overflow. -/
structure Options.Ok (o : Options) (W : Nat) : Prop where
  dim : o.dim = 1 ∨ o.dim = 2 ∨ o.dim = 3 ∨ o.dim = 4
  solver : o.solver = 1 ∨ o.solver = 2 ∨ o.solver = 3
  sizes : 1 ≤ o.nx ∧ 1 ≤ o.ny ∧ 1 ≤ o.nz
  pt : 0 < o.pt
  range : o.it + o.pt ≤ W

/-- The pieces of the kernel and of the rows are inside, and cover, the kernel of the given size and the rows. -/
structure Cuts (b : Rect) (size : Nat) (pieces : List (Dom1 × Dom1)) : Prop where
  kernel : ∀ D ∈ pieces, ∀ j, D.1.contains j = true → D.1.lo ≤ j ∧ j ≤ D.1.hi ∧ 0 ≤ j ∧ j < size
  rows : ∀ D ∈ pieces, ∀ j, D.2.contains j = true → D.2.lo ≤ j ∧ j ≤ D.2.hi ∧ 0 ≤ j ∧ j < Rect.volume b
  kernelAll : ∀ k : Nat, k < size → ∃ D ∈ pieces, D.1.contains k = true
  rowsAll : ∀ j : Int, 0 ≤ j → j < Rect.volume b → ∃ D ∈ pieces, D.2.contains j = true

/-! ## Offset lists -/

/-- The integer codes of the offsets. -/
def offsetCodes (dim : Int) : List (Point × Int) :=
  if dim = 1 then offsets1 else if dim = 2 then offsets2 else if dim = 3 then offsets3 else offsets4

/-- `diffOffsets` for integer weights. -/
def diffCodes (d : Nat) (dirs : List (Point × Int)) : List (Point × Int) :=
  (List.replicate d 0, 2 * (dirs.map Prod.snd).sum) :: dirs.flatMap fun t => [(negPoint t.1, -t.2), (t.1, -t.2)]

/-- `arms` for integer weights. -/
def armCodes (dirs : List (Point × Int)) : List (Point × Int) := dirs.flatMap fun t => [(t.1, t.2), (negPoint t.1, t.2)]

theorem offsets_perm1 : offsets1.Perm (diffCodes 1 (dirCodes 1)) := by decide +kernel
theorem offsets_perm2 : offsets2.Perm (diffCodes 2 (dirCodes 2)) := by decide +kernel
theorem offsets_perm3 : offsets3.Perm (diffCodes 3 (dirCodes 3)) := by decide +kernel
theorem offsets_perm4 : offsets4.Perm (diffCodes 3 (dirCodes 4)) := by decide +kernel

theorem offsetCodes_perm {dim : Int} (h : dim = 1 ∨ dim = 2 ∨ dim = 3 ∨ dim = 4) :
    (offsetCodes dim).Perm (diffCodes (gridDim dim) (dirCodes dim)) := by
  rcases h with rfl | rfl | rfl | rfl
  · exact offsets_perm1
  · exact offsets_perm2
  · exact offsets_perm3
  · exact offsets_perm4

/-- All choices of coordinates. -/
def choices : Nat → List (List Bool)
  | 0 => [[]]
  | n + 1 => (choices n).flatMap fun c => [true :: c, false :: c]

theorem mem_choices : ∀ cs : List Bool, cs ∈ choices cs.length
  | [] => List.mem_singleton.2 rfl
  | c :: cs => by
    refine List.mem_flatMap.2 ⟨cs, mem_choices cs, ?_⟩
    cases c <;> simp

theorem flip_perm1 : ∀ cs ∈ choices 1, ((armCodes (dirCodes 1)).map fun t => (flip cs t.1, t.2)).Perm (armCodes (dirCodes 1)) := by decide +kernel
theorem flip_perm2 : ∀ cs ∈ choices 2, ((armCodes (dirCodes 2)).map fun t => (flip cs t.1, t.2)).Perm (armCodes (dirCodes 2)) := by decide +kernel
theorem flip_perm3 : ∀ cs ∈ choices 3, ((armCodes (dirCodes 3)).map fun t => (flip cs t.1, t.2)).Perm (armCodes (dirCodes 3)) := by decide +kernel
theorem flip_perm4 : ∀ cs ∈ choices 3, ((armCodes (dirCodes 4)).map fun t => (flip cs t.1, t.2)).Perm (armCodes (dirCodes 4)) := by decide +kernel

theorem flip_perm {dim : Int} (h : dim = 1 ∨ dim = 2 ∨ dim = 3 ∨ dim = 4) (cs : List Bool) (hc : cs.length = gridDim dim) :
    ((armCodes (dirCodes dim)).map fun t => (flip cs t.1, t.2)).Perm (armCodes (dirCodes dim)) := by
  have hm := mem_choices cs
  rcases h with rfl | rfl | rfl | rfl <;> rw [hc] at hm
  · exact flip_perm1 cs hm
  · exact flip_perm2 cs hm
  · exact flip_perm3 cs hm
  · exact flip_perm4 cs hm

section
variable {V : Type} [Field V]

theorem diffOffsets_codes (d : Nat) (z : Int) (dirs : List (Point × Int)) :
    diffOffsets d (dirs.map fun t => (t.1, (t.2 : V) / z)) = (diffCodes d dirs).map fun t => (t.1, (t.2 : V) / z) := by
  unfold diffOffsets diffCodes
  rw [List.map_cons]
  congr 1
  · congr 1
    have : ((dirs.map fun t => (t.1, (t.2 : V) / z)).map Prod.snd).sum = (((dirs.map Prod.snd).sum : Int) : V) / z := by
      induction dirs with
      | nil => simp
      | cons t dirs ih => simp only [List.map_cons, List.sum_cons, ih]; push_cast; rw [add_div]
    rw [this]
    push_cast
    rw [mul_div_assoc]
  · rw [List.flatMap_map, List.map_flatMap]
    congr 1
    funext t
    simp [neg_div]

theorem arms_codes (z : Int) (dirs : List (Point × Int)) :
    arms (dirs.map fun t => (t.1, (t.2 : V) / z)) = (armCodes dirs).map fun t => (t.1, (t.2 : V) / z) := by
  unfold arms armCodes
  rw [List.flatMap_map, List.map_flatMap]
  rfl

theorem benchDirs_flip {dim : Int} (h : dim = 1 ∨ dim = 2 ∨ dim = 3 ∨ dim = 4) (cs : List Bool) (hc : cs.length = gridDim dim) :
    ((arms (benchDirs V dim)).map fun t => (flip cs t.1, t.2)).Perm (arms (benchDirs V dim)) := by
  unfold benchDirs
  rw [arms_codes, List.map_map]
  have := (flip_perm h cs hc).map fun t : Point × Int => (t.1, (t.2 : V) / denom dim)
  rw [List.map_map] at this
  exact this

theorem benchDirs_length {dim : Int} (h : dim = 1 ∨ dim = 2 ∨ dim = 3 ∨ dim = 4) : ∀ t ∈ benchDirs V dim, t.1.length = gridDim dim := by
  intro t ht
  obtain ⟨t', ht', rfl⟩ := List.mem_map.1 ht
  show t'.1.length = _
  clear ht
  revert t'
  rcases h with rfl | rfl | rfl | rfl <;> decide

theorem benchDirs_nonzero {dim : Int} (h : dim = 1 ∨ dim = 2 ∨ dim = 3 ∨ dim = 4) : ∀ t ∈ benchDirs V dim, ∃ c ∈ t.1, c ≠ 0 := by
  intro t ht
  obtain ⟨t', ht', rfl⟩ := List.mem_map.1 ht
  show ∃ c ∈ t'.1, c ≠ 0
  clear ht
  revert t'
  rcases h with rfl | rfl | rfl | rfl <;> decide

theorem benchDirs_ne (dim : Int) : benchDirs V dim ≠ [] := by
  unfold benchDirs dirCodes
  split
  · simp
  · split
    · simp
    · split <;> simp

theorem benchDirs_pos [LinearOrder V] [IsStrictOrderedRing V] {dim : Int} (h : dim = 1 ∨ dim = 2 ∨ dim = 3 ∨ dim = 4) : ∀ t ∈ benchDirs V dim, 0 < t.2 := by
  intro t ht
  obtain ⟨t', ht', rfl⟩ := List.mem_map.1 ht
  have h1 : 0 < t'.2 := by
    clear ht
    revert t'
    rcases h with rfl | rfl | rfl | rfl <;> decide
  have h2 : 0 < denom dim := by unfold denom; split <;> decide
  exact div_pos (Int.cast_pos.2 h1) (Int.cast_pos.2 h2)

end

/-! ## The grid -/

theorem benchBounds_eq {o : Options} : benchBounds o.dim o.nx o.ny o.nz = boxOf (benchSizes o) := by
  unfold benchBounds benchSizes
  split
  · rfl
  · split <;> rfl

theorem benchSizes_length (o : Options) : (benchSizes o).length = gridDim o.dim := by
  unfold benchSizes gridDim
  split
  · rfl
  · split <;> rfl

theorem boxOf_length (ns : List Int) : (boxOf ns).length = ns.length := by simp [boxOf]

theorem Options.Ok.grid {o : Options} {W : Nat} (h : o.Ok W) : boxOf (benchSizes o) ≠ [] ∧ Grid.Nonempty (boxOf (benchSizes o)) := by
  obtain ⟨h1, h2, h3⟩ := h.sizes
  unfold benchSizes boxOf Grid.Nonempty
  constructor
  · split
    · simp
    · split <;> simp
  · intro lh hlh
    split at hlh
    · simp only [List.map_cons, List.map_nil, List.mem_cons, List.not_mem_nil, or_false] at hlh
      subst hlh
      show (0 : Int) ≤ o.nx - 1
      omega
    · split at hlh
      · simp only [List.map_cons, List.map_nil, List.mem_cons, List.not_mem_nil, or_false] at hlh
        rcases hlh with rfl | rfl
        · show (0 : Int) ≤ o.nx - 1; omega
        · show (0 : Int) ≤ o.ny - 1; omega
      · simp only [List.map_cons, List.map_nil, List.mem_cons, List.not_mem_nil, or_false] at hlh
        rcases hlh with rfl | rfl | rfl
        · show (0 : Int) ≤ o.nx - 1; omega
        · show (0 : Int) ≤ o.ny - 1; omega
        · show (0 : Int) ≤ o.nz - 1; omega

/-! ## The matrix, in any arithmetic -/
section
variable {V : Type} {A : Arith V} {lit : Int → V}

/-- The value of the offset with numerator `z`. -/
def litOf (A : Arith V) (lit : Int → V) (dim z : Int) : V := if dim = 4 then A.div (lit z) (lit 26) else lit z

theorem benchOffsets_eq {dim : Int} (h : dim = 1 ∨ dim = 2 ∨ dim = 3 ∨ dim = 4) :
    benchOffsets A lit dim = some ((offsetCodes dim).map fun t => (t.1, litOf A lit dim t.2)) := by
  rcases h with rfl | rfl | rfl | rfl <;> rfl

theorem offsetCodes_length {dim : Int} (h : dim = 1 ∨ dim = 2 ∨ dim = 3 ∨ dim = 4) : ∀ t ∈ offsetCodes dim, t.1.length = gridDim dim := by
  rcases h with rfl | rfl | rfl | rfl <;> decide

theorem getLaplacian_holds {o : Options} {W : Nat} (ho : o.Ok W) (sort : List (Point × V) → List (Point × V)) (lt : V → V → Bool)
    (hsort : ∀ offsets, benchOffsets A lit o.dim = some offsets → IsSort .rowMajor lt offsets (sort offsets)) :
    ∃ offsets, benchOffsets A lit o.dim = some offsets ∧ ∃ size, calculateStencilSize (boxOf (benchSizes o)) offsets = some size ∧
    ∃ N : Nat, ∀ fuel, N ≤ fuel → ∀ pieces, Cuts (boxOf (benchSizes o)) size pieces → ∀ junk,
      ∃ m, getLaplacian A lit sort o.dim o.nx o.ny o.nz pieces fuel junk = some m ∧ m.rows = indices (Rect.volume (boxOf (benchSizes o))) ∧
        HoldsCSR m ((stencilEntries (boxOf (benchSizes o)) (sort offsets) (pointsOf .rowMajor (boxOf (benchSizes o)))).map
          (linTriple .rowMajor (boxOf (benchSizes o)))) := by
  have hoff := benchOffsets_eq (A := A) (lit := lit) ho.dim
  set offsets := (offsetCodes o.dim).map fun t => (t.1, litOf A lit o.dim t.2) with hdef
  have hlen : ∀ oe ∈ offsets, oe.1.length = (boxOf (benchSizes o)).length := by
    intro oe hoe
    obtain ⟨t, ht, rfl⟩ := List.mem_map.1 hoe
    rw [boxOf_length, benchSizes_length]
    exact offsetCodes_length ho.dim t ht
  refine ⟨offsets, hoff, _, calculateStencilSize_eq _ offsets ho.grid.1 hlen, ?_⟩
  obtain ⟨N, hN⟩ := linCsrStencil_holds sort lt .rowMajor (boxOf (benchSizes o)) offsets ho.grid.1 hlen (hsort _ hoff)
  refine ⟨N, fun fuel hf pieces hc junk => ?_⟩
  have hsz := calculateStencilSize_eq _ offsets ho.grid.1 hlen
  obtain ⟨m, h1, h2, h3⟩ := hN fuel hf pieces (fun size hs k hk => by
      rw [hsz] at hs
      obtain ⟨D, hD, hk'⟩ := hc.kernelAll k (by cases hs; exact hk)
      exact ⟨_, List.mem_map.2 ⟨D, hD, rfl⟩, hk'⟩)
    (fun size hs D hD j hj => by
      rw [hsz] at hs
      cases hs
      exact hc.kernel D hD j hj) hc.rows hc.rowsAll junk
  refine ⟨m, ?_, h2, h3⟩
  unfold getLaplacian
  rw [hoff, benchBounds_eq]
  exact h1

variable {G : Geometry Int} {part : Nat} {d : Nat → Nat} {m : CSR Int Int V} {b : Rect} {offs : List (Point × V)}

theorem holds_fits (hG : ∀ j, j ∈ G.points (G.parent part) ↔ 0 ≤ j ∧ j < Rect.volume b) (hr : m.rows = indices (Rect.volume b))
    (h : HoldsCSR m ((stencilEntries b offs (pointsOf .rowMajor b)).map (linTriple .rowMajor b))) :
    (Op.csr m).Fits (G.points (G.parent part)) (G.points (G.parent part)) := by
  refine ⟨h.col_mem fun e he => ?_, fun j => ?_, h.rowsDisjoint⟩
  · obtain ⟨e', he', rfl⟩ := List.mem_map.1 he
    exact (hG _).2 (linearize_bounds .rowMajor b _ (mem_stencilEntries he').2)
  · rw [hr, mem_indices, hG]

theorem stored_row (hr : m.rows = indices (Rect.volume b))
    (h : HoldsCSR m ((stencilEntries b offs (pointsOf .rowMajor b)).map (linTriple .rowMajor b))) {p : Point} (hp : InBox b p) :
    (Op.csr m).stored (linearize .rowMajor b p) = (rowEntries b offs p).map fun e => (linearize .rowMajor b e.2.1, e.2.2) := by
  show (m.kernel.filter fun k => m.range (linearize .rowMajor b p) k).map (fun k => (m.col k, m.entry k)) = _
  rw [h.row_entries _ (by rw [hr, mem_indices]; exact linearize_bounds .rowMajor b p hp), List.filter_map, List.map_map]
  have : (stencilEntries b offs (pointsOf .rowMajor b)).filter
      ((fun e : Int × Int × V => decide (e.1 = linearize .rowMajor b p)) ∘ linTriple .rowMajor b) = rowEntries b offs p := by
    rw [← filter_row b offs _ (pointsOf_nodup .rowMajor b) p ((mem_pointsOf .rowMajor b p).2 hp)]
    apply List.filter_congr
    intro e he
    have hrow := (mem_pointsOf .rowMajor b _).1 (mem_stencilEntries he).1
    show decide (linearize .rowMajor b e.1 = linearize .rowMajor b p) = decide (e.1 = p)
    rw [Bool.eq_iff_iff, decide_eq_true_iff, decide_eq_true_iff]
    exact ⟨fun h => linearize_inj .rowMajor hrow hp h, fun h => by rw [h]⟩
  rw [this]
  rfl

theorem theCalls_stored {P : Type} {K : Type} [DecidableEq P] [DecidableEq K] {G : Geometry P} {m : Op K P V} {i : Nat} (hi : i < 2) (j : P) :
    clientStored (theCalls G part d m) ⟨i, j⟩ = (m.stored j).map fun e => (⟨i, e.1⟩, e.2) := by
  rw [clientStored_filter]
  have : mats (theCalls G part d m) = [(m, 0, 0), (m, 1, 1)] := rfl
  rw [this]
  rcases (by omega : i = 0 ∨ i = 1) with rfl | rfl <;> simp

end

theorem mem_unknowns {K P V : Type} [DecidableEq P] [DecidableEq K] {G : Geometry P} {part : Nat} {d : Nat → Nat} {m : Op K P V}
    {u : Σ _ : Nat, P} : u ∈ clientUnknowns G (theCalls G part d m) ↔ u.1 < 2 ∧ u.2 ∈ G.points (G.parent part) := by
  unfold clientUnknowns
  rw [Finset.mem_sigma, Finset.mem_range, List.mem_toFinset]
  have hs : sols (theCalls G part d m) = [vecOf G part (d 2), vecOf G part (d 3)] := rfl
  rw [hs]
  refine and_congr_right fun hi => ?_
  obtain ⟨i, p⟩ := u
  have hi : i < 2 := hi
  rcases (by omega : i = 0 ∨ i = 1) with rfl | rfl <;> rfl

/-! ## The matrix of exact arithmetic -/
section
variable {V : Type} [Field V] [DecidableEq V] {G : Geometry Int} {part : Nat} {d : Nat → Nat} {m : CSR Int Int (Option V)} {b : Rect}
  {offs : List (Point × Option V)}

theorem exact_entry (hr : m.rows = indices (Rect.volume b))
    (h : HoldsCSR m ((stencilEntries b offs (pointsOf .rowMajor b)).map (linTriple .rowMajor b)))
    (u w : clientUnknowns G (theCalls G part d (Op.csr m))) {p q : Point} (hp : InBox b p) (hq : InBox b q)
    (hu : u.1.2 = linearize .rowMajor b p) (hw : w.1.2 = linearize .rowMajor b q) :
    exactMatrix G (theCalls G part d (Op.csr m)) u w =
      if u.1.1 = w.1.1 then (offs.map fun oe => if addPoint p oe.1 = q then oe.2.getD 0 else 0).sum else 0 := by
  obtain ⟨⟨i, j⟩, hu'⟩ := u
  obtain ⟨⟨i', j'⟩, hw'⟩ := w
  simp only at hu hw
  subst hu hw
  show ((clientStored _ ⟨i, _⟩).map fun t : (Σ _ : Nat, Int) × Option V => if t.1 = (⟨i', _⟩ : Σ _ : Nat, Int) then t.2.getD 0 else 0).sum = _
  rw [theCalls_stored (mem_unknowns.1 hu').1, stored_row hr h hp, List.map_map, List.map_map]
  show ((rowEntries b offs p).map fun e => if (⟨i, linearize .rowMajor b e.2.1⟩ : Σ _ : Nat, Int) = ⟨i', linearize .rowMajor b q⟩ then
    e.2.2.getD 0 else 0).sum = if i = i' then _ else 0
  by_cases hii : i = i'
  · subst hii
    rw [if_pos rfl]
    unfold rowEntries
    clear h hr
    induction offs with
    | nil => rfl
    | cons oe offs ih =>
      rw [List.map_cons, List.sum_cons, ← ih]
      by_cases hin : InBox b (addPoint p oe.1)
      · rw [List.filterMap_cons_some (by rw [if_pos hin]), List.map_cons, List.sum_cons]
        congr 1
        simp only
        by_cases e : addPoint p oe.1 = q
        · rw [if_pos e, if_pos (by rw [e])]
        · rw [if_neg e, if_neg]
          intro h'
          have : linearize .rowMajor b (addPoint p oe.1) = linearize .rowMajor b q := by
            have := (Sigma.mk.inj h').2
            exact eq_of_heq this
          exact e (linearize_inj .rowMajor hin hq this)
      · rw [List.filterMap_cons_none (by rw [if_neg hin]), if_neg (fun e : addPoint p oe.1 = q => hin (e ▸ hq)), zero_add]
  · rw [if_neg hii]
    apply List.sum_eq_zero
    intro x hx
    obtain ⟨e, -, rfl⟩ := List.mem_map.1 hx
    rw [if_neg fun h' => hii (congrArg Sigma.fst h')]

/-- The unknowns: two blocks of grid points. -/
theorem unknownsEquiv (hG : ∀ j, j ∈ G.points (G.parent part) ↔ 0 ≤ j ∧ j < Rect.volume b) (o : Op Int Int (Option V)) :
    ∃ e : Fin 2 × (pointsOf .rowMajor b).toFinset ≃ clientUnknowns G (theCalls G part d o),
      ∀ x, (e x).1 = ⟨x.1.1, linearize .rowMajor b x.2.1⟩ := by
  have hS : ∀ p, p ∈ (pointsOf .rowMajor b).toFinset ↔ InBox b p := fun p => by rw [List.mem_toFinset, mem_pointsOf]
  let f : Fin 2 × (pointsOf .rowMajor b).toFinset → clientUnknowns G (theCalls G part d o) := fun x =>
    ⟨⟨x.1.1, linearize .rowMajor b x.2.1⟩, mem_unknowns.2 ⟨x.1.2, (hG _).2 (linearize_bounds .rowMajor b _ ((hS _).1 x.2.2))⟩⟩
  have hf : Function.Bijective f := by
    constructor
    · rintro ⟨i, p⟩ ⟨j, q⟩ h
      have h := congrArg Subtype.val h
      have h1 : i.1 = j.1 := congrArg Sigma.fst h
      have h2 : linearize .rowMajor b p.1 = linearize .rowMajor b q.1 := congrArg (fun x : Σ _ : Nat, Int => x.2) h
      rw [Prod.mk.injEq]
      exact ⟨Fin.ext h1, Subtype.ext (linearize_inj .rowMajor ((hS _).1 p.2) ((hS _).1 q.2) h2)⟩
    · rintro ⟨⟨i, j⟩, hu⟩
      obtain ⟨hi, hj⟩ := mem_unknowns.1 hu
      obtain ⟨hj1, hj2⟩ := (hG j).1 hj
      obtain ⟨p, h9, h10⟩ := (c02_linearize_bijection .rowMajor b).2.2.1 j hj1 hj2
      refine ⟨⟨⟨i, hi⟩, ⟨p, (hS p).2 h9⟩⟩, Subtype.ext ?_⟩
      show (⟨i, linearize .rowMajor b p⟩ : Σ _ : Nat, Int) = ⟨i, j⟩
      rw [h10]
  exact ⟨Equiv.ofBijective f hf, fun x => rfl⟩

theorem SPD_blocks {S : Type} [Fintype S] [LinearOrder V] [IsStrictOrderedRing V] (N : _root_.Matrix S S V) (h : SPD N) :
    SPD (fun x y : Fin 2 × S => if x.1 = y.1 then N x.2 y.2 else 0) := by
  have hN : ∀ p q, N p q = N q p := fun p q => congrFun (congrFun h.1 q) p
  refine ⟨?_, fun x hx => ?_⟩
  · funext x y
    show (if y.1 = x.1 then N y.2 x.2 else 0) = if x.1 = y.1 then N x.2 y.2 else 0
    by_cases e : x.1 = y.1
    · rw [if_pos e, if_pos e.symm, hN]
    · rw [if_neg e, if_neg (Ne.symm e)]
  · have hform : x ⬝ᵥ (fun x y : Fin 2 × S => if x.1 = y.1 then N x.2 y.2 else 0) *ᵥ x =
        ∑ i : Fin 2, (fun p => x (i, p)) ⬝ᵥ N *ᵥ fun p => x (i, p) := by
      show ∑ u : Fin 2 × S, x u * ∑ w : Fin 2 × S, (if u.1 = w.1 then N u.2 w.2 else 0) * x w = _
      rw [Fintype.sum_prod_type]
      refine Finset.sum_congr rfl fun i _ => ?_
      show _ = ∑ p, x (i, p) * ∑ q, N p q * x (i, q)
      refine Finset.sum_congr rfl fun p _ => ?_
      congr 1
      rw [Fintype.sum_prod_type, Finset.sum_eq_single i]
      · simp
      · intro j _ hj
        apply Finset.sum_eq_zero
        intro q _
        rw [if_neg (fun e => hj e.symm), zero_mul]
      · intro hn; exact absurd (Finset.mem_univ _) hn
    rw [hform]
    obtain ⟨⟨i, p⟩, hip⟩ := Function.ne_iff.1 hx
    refine Finset.sum_pos' (fun j _ => ?_) ⟨i, Finset.mem_univ _, h.2 _ fun h0 => hip (congrFun h0 p)⟩
    by_cases h0 : (fun p => x (j, p)) = 0
    · rw [h0, zero_dotProduct]
    · exact (h.2 _ h0).le

/-- What the theorems need to know about the matrix that was built: its coefficients. -/
structure Built (G : Geometry Int) (part : Nat) (d : Nat → Nat) (m : Op Int Int (Option V)) (ns : List Int) (dirs : List (Point × V))
    (e : Fin 2 × (pointsOf .rowMajor (boxOf ns)).toFinset ≃ clientUnknowns G (theCalls G part d m)) : Prop where
  place : ∀ x, (e x).1 = ⟨x.1.1, linearize .rowMajor (boxOf ns) x.2.1⟩
  coef : ∀ x y, exactMatrix G (theCalls G part d m) (e x) (e y) = if x.1 = y.1 then shiftCoef (shiftsOf dirs) x.2.1 y.2.1 else 0
  length : ∀ t ∈ dirs, t.1.length = ns.length

variable {o : Op Int Int (Option V)} {ns : List Int} {dirs : List (Point × V)}
  {e : Fin 2 × (pointsOf .rowMajor (boxOf ns)).toFinset ≃ clientUnknowns G (theCalls G part d o)}

theorem mem_S {ns : List Int} (p : Point) : p ∈ (pointsOf .rowMajor (boxOf ns)).toFinset ↔ InBox (boxOf ns) p := by
  rw [List.mem_toFinset, mem_pointsOf]

theorem Built.spd [LinearOrder V] [IsStrictOrderedRing V] (h : Built G part d o ns dirs e) (hne : dirs ≠ [])
    (hnz : ∀ t ∈ dirs, ∃ c ∈ t.1, c ≠ 0) (hw : ∀ t ∈ dirs, 0 < t.2) : SPD (exactMatrix G (theCalls G part d o)) := by
  refine SPD_of_equiv e.symm _ _ (fun u w => ?_) (SPD_blocks _ (diff_SPD (boxOf ns) dirs hne
    (fun t ht => by rw [boxOf_length]; exact h.length t ht) hnz hw (pointsOf .rowMajor (boxOf ns)).toFinset mem_S))
  obtain ⟨x, rfl⟩ := e.surjective u
  obtain ⟨y, rfl⟩ := e.surjective w
  rw [Equiv.symm_apply_apply, Equiv.symm_apply_apply, h.coef]

/-- A vector of unknowns as a grid function of one block. -/
def gridOf (e : Fin 2 × (pointsOf .rowMajor (boxOf ns)).toFinset ≃ clientUnknowns G (theCalls G part d o))
    (F : clientUnknowns G (theCalls G part d o) → V) (i : Fin 2) (p : Point) : V :=
  if h : p ∈ (pointsOf .rowMajor (boxOf ns)).toFinset then F (e (i, ⟨p, h⟩)) else 0

theorem Built.mulVec [LinearOrder V] [IsStrictOrderedRing V] (h : Built G part d o ns dirs e) (F : clientUnknowns G (theCalls G part d o) → V)
    (x : Fin 2 × (pointsOf .rowMajor (boxOf ns)).toFinset) :
    (exactMatrix G (theCalls G part d o) *ᵥ F) (e x) = diffOp dirs (zeroOutside (boxOf ns) (gridOf e F x.1)) x.2.1 := by
  rw [← shiftCoef_diffOp (boxOf ns) dirs (fun t ht => by rw [boxOf_length]; exact h.length t ht) _ mem_S _ _ ((mem_S _).1 x.2.2)]
  show ∑ w, exactMatrix G (theCalls G part d o) (e x) w * F w = _
  rw [← e.sum_comp, Fintype.sum_prod_type, Finset.sum_eq_single x.1, ← Finset.sum_attach (pointsOf .rowMajor (boxOf ns)).toFinset, Finset.univ_eq_attach]
  · refine Finset.sum_congr rfl fun q _ => ?_
    rw [h.coef, if_pos rfl]
    unfold gridOf
    rw [dif_pos q.2]
  · intro j _ hj
    apply Finset.sum_eq_zero
    intro q _
    rw [h.coef, if_neg (fun e => hj e.symm), zero_mul]
  · intro hn; exact absurd (Finset.mem_univ _) hn

/-- The class of an unknown: its grid point mirrored into the half box. -/
def halfClass (e : Fin 2 × (pointsOf .rowMajor (boxOf ns)).toFinset ≃ clientUnknowns G (theCalls G part d o))
    (u : clientUnknowns G (theCalls G part d o)) : (pointsOf .rowMajor (halfOf ns)).toFinset :=
  ⟨toHalf ns (e.symm u).2.1, by
    rw [List.mem_toFinset, mem_pointsOf]
    exact toHalf_inBox ns _ ((mem_S _).1 (e.symm u).2.2)⟩

theorem Built.rows [LinearOrder V] [IsStrictOrderedRing V] (h : Built G part d o ns dirs e)
    (hflip : ∀ cs : List Bool, cs.length = ns.length → ((arms dirs).map fun t => (flip cs t.1, t.2)).Perm (arms dirs))
    (u u' : clientUnknowns G (theCalls G part d o)) (c : (pointsOf .rowMajor (halfOf ns)).toFinset) (hc : halfClass e u = halfClass e u') :
    (∑ w, if halfClass e w = c then exactMatrix G (theCalls G part d o) u w else 0) =
      ∑ w, if halfClass e w = c then exactMatrix G (theCalls G part d o) u' w else 0 := by
  have key : ∀ u, (∑ w, if halfClass e w = c then exactMatrix G (theCalls G part d o) u w else 0) =
      diffOp dirs (zeroOutside (boxOf ns) fun p => if toHalf ns p = c.1 then 1 else 0) (e.symm u).2.1 := by
    intro u
    obtain ⟨x, rfl⟩ := e.surjective u
    have h1 := h.mulVec (fun w => if halfClass e w = c then 1 else 0) x
    rw [Equiv.symm_apply_apply]
    have h2 : zeroOutside (boxOf ns) (gridOf e (fun w => if halfClass e w = c then (1 : V) else 0) x.1) =
        zeroOutside (boxOf ns) fun p => if toHalf ns p = c.1 then 1 else 0 := by
      funext p
      unfold zeroOutside
      by_cases hp : InBox (boxOf ns) p
      · rw [if_pos hp, if_pos hp]
        unfold gridOf
        rw [dif_pos ((mem_S p).2 hp)]
        refine if_congr ?_ rfl rfl
        rw [Subtype.ext_iff]
        show toHalf ns (e.symm (e _)).2.1 = c.1 ↔ _
        rw [Equiv.symm_apply_apply]
      · rw [if_neg hp, if_neg hp]
    rw [← h2, ← h1]
    show _ = ∑ w, exactMatrix G (theCalls G part d o) (e x) w * (if halfClass e w = c then 1 else 0)
    refine Finset.sum_congr rfl fun w _ => ?_
    rw [mul_ite, mul_one, mul_zero]
  rw [key, key]
  have hp := length_of_box ((mem_S _).1 (e.symm u).2.2)
  have hp' := length_of_box ((mem_S _).1 (e.symm u').2.2)
  obtain ⟨cs, hcs, hm⟩ := toHalf_eq ns _ _ hp hp' (Subtype.ext_iff.1 hc)
  rw [hm]
  refine (diffOp_mirror ns dirs h.length cs hcs (hflip cs hcs) _ (fun p hp => ?_) _ hp).symm
  unfold zeroOutside
  simp only [inBox_mirror ns cs p hp hcs, toHalf_mirror ns cs p hp hcs]

end
end Verif.Programs
