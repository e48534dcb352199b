import Verif.Programs.BenchmarkProps

/-! # C74 in exact arithmetic with undefined division by zero -/
set_option linter.dupNamespace false
set_option linter.unusedSectionVars false
namespace Verif.Programs
open Verif.Runtime Verif.Vector Verif.Matrix Verif.Planner Verif.Solver Verif.EndToEnd Verif.Grid Verif.Stencil Verif.Special Verif.Textbook
open scoped _root_.Matrix

section
variable {V : Type} [Field V] [DecidableEq V] [LinearOrder V] [IsStrictOrderedRing V] {root : V → V}

/-- Integral literals are exact. -/
def exactLit (V : Type) [Field V] (z : Int) : Option V := some z

theorem litOf_exact {dim : Int} (z : Int) : litOf (partialArith root) (exactLit V) dim z = some ((z : V) / denom dim) := by
  unfold litOf denom
  split
  · show (if ((26 : Int) : V) = 0 then none else some ((z : V) / ((26 : Int) : V))) = _
    rw [if_neg]
    exact_mod_cast (by decide : (26 : Int) ≠ 0)
  · show some (z : V) = some ((z : V) / ((1 : Int) : V))
    rw [Int.cast_one, div_one]

variable {G : Geometry Int} {part : Nat} {d : Nat → Nat} {m : CSR Int Int (Option V)} {o : Options} {W base : Nat}
  {offs offsets : List (Point × Option V)}

theorem built_of_holds (hdim : o.dim = 1 ∨ o.dim = 2 ∨ o.dim = 3 ∨ o.dim = 4)
    (hG : ∀ j, j ∈ G.points (G.parent part) ↔ 0 ≤ j ∧ j < Rect.volume (boxOf (benchSizes o)))
    (hoff : benchOffsets (partialArith root) (exactLit V) o.dim = some offsets) (hperm : offs.Perm offsets)
    (hr : m.rows = indices (Rect.volume (boxOf (benchSizes o))))
    (h : HoldsCSR m ((stencilEntries (boxOf (benchSizes o)) offs (pointsOf .rowMajor (boxOf (benchSizes o)))).map
      (linTriple .rowMajor (boxOf (benchSizes o))))) :
    ∃ e : Fin 2 × (pointsOf .rowMajor (boxOf (benchSizes o))).toFinset ≃ clientUnknowns G (theCalls G part d (Op.csr m)),
      Built G part d (Op.csr m) (benchSizes o) (benchDirs V o.dim) e := by
  obtain ⟨e, he⟩ := unknownsEquiv (d := d) hG (Op.csr m)
  refine ⟨e, he, fun x y => ?_, fun t ht => ?_⟩
  · have hp := (mem_S _).1 x.2.2
    have hq := (mem_S _).1 y.2.2
    rw [exact_entry hr h (e x) (e y) hp hq (by rw [he]) (by rw [he])]
    have hsum : (offs.map fun oe => if addPoint x.2.1 oe.1 = y.2.1 then oe.2.getD 0 else 0).sum =
        shiftCoef (shiftsOf (benchDirs V o.dim)) x.2.1 y.2.1 := by
      rw [benchOffsets_eq hdim] at hoff
      cases hoff
      have hl : x.2.1.length = gridDim o.dim := by rw [length_of_box hp, benchSizes_length]
      rw [(hperm.map _).sum_eq, List.map_map, ← diff_coef _ _ _ (fun t ht => by rw [benchDirs_length hdim t ht, hl]), hl]
      unfold benchDirs
      rw [diffOffsets_codes, List.map_map, ((offsetCodes_perm hdim).symm.map _).sum_eq]
      congr 1
      apply List.map_congr_left
      intro t _
      simp only [Function.comp, litOf_exact, Option.getD_some]
    rw [hsum, he, he]
    simp only [Fin.ext_iff]
  · rw [benchDirs_length hdim t ht, benchSizes_length]

theorem coefs_defined (hdim : o.dim = 1 ∨ o.dim = 2 ∨ o.dim = 3 ∨ o.dim = 4) {b : Rect}
    (hG : ∀ j, j ∈ G.points (G.parent part) ↔ 0 ≤ j ∧ j < Rect.volume b)
    (hoff : benchOffsets (partialArith root) (exactLit V) o.dim = some offsets) (hperm : offs.Perm offsets)
    (hr : m.rows = indices (Rect.volume b))
    (h : HoldsCSR m ((stencilEntries b offs (pointsOf .rowMajor b)).map (linTriple .rowMajor b))) :
    AllCoefs G (theCalls G part d (Op.csr m)) fun a => a.isSome := by
  rintro ⟨i, j⟩ hu t ht
  obtain ⟨hi, hj⟩ := mem_unknowns.1 hu
  obtain ⟨hj1, hj2⟩ := (hG j).1 hj
  obtain ⟨p, h9, rfl⟩ := (c02_linearize_bijection .rowMajor b).2.2.1 j hj1 hj2
  rw [theCalls_stored hi, stored_row hr h h9, List.map_map] at ht
  obtain ⟨e, he, rfl⟩ := List.mem_map.1 ht
  obtain ⟨oe, hoe, he⟩ := List.mem_filterMap.1 he
  split at he
  · cases he
    rw [benchOffsets_eq hdim] at hoff
    cases hoff
    obtain ⟨t, -, rfl⟩ := List.mem_map.1 (hperm.mem_iff.1 hoe)
    show (litOf (partialArith root) (exactLit V) o.dim t.2).isSome = true
    rw [litOf_exact]
    rfl
  · cases he

theorem start_defined (hv : FourVectors G part d base) (s : Cell Int → Option V)
    (hc : AllCoefs G (theCalls G part d (Op.csr m)) fun a => a.isSome) :
    Defined G (theCalls G part d (Op.csr m)) (benchStart (partialArith root) G part d s) := by
  refine ⟨hc, ?_, ?_⟩
  · intro v hmem p hp
    have hmem : v ∈ [vecOf G part (d 0), vecOf G part (d 1)] := hmem
    simp only [List.mem_cons, List.not_mem_nil, or_false] at hmem
    rcases hmem with rfl | rfl
    · rw [show (vecOf G part (d 0)).data = d 0 from rfl, hv.start_rhs s (i := 0) (by decide) hp]; rfl
    · rw [show (vecOf G part (d 1)).data = d 1 from rfl, hv.start_rhs s (i := 1) (by decide) hp]; rfl
  · intro v hmem p hp
    have hmem : v ∈ [vecOf G part (d 2), vecOf G part (d 3)] := hmem
    simp only [List.mem_cons, List.not_mem_nil, or_false] at hmem
    rcases hmem with rfl | rfl
    · rw [show (vecOf G part (d 2)).data = d (2 + 0) from rfl, start_sol s (i := 0) (by decide) hp]; rfl
    · rw [show (vecOf G part (d 3)).data = d (2 + 1) from rfl, start_sol s (i := 1) (by decide) hp]; rfl

theorem start_vectors (hv : FourVectors G part d base) (s : Cell Int → Option V) (op : Op Int Int (Option V)) :
    exactVector G (theCalls G part d op) (rhss (theCalls G part d op)) (benchStart (partialArith root) G part d s) = (fun _ => 1) ∧
      exactVector G (theCalls G part d op) (sols (theCalls G part d op)) (benchStart (partialArith root) G part d s) = 0 := by
  constructor
  · funext ⟨⟨i, p⟩, hu⟩
    obtain ⟨hi, hp⟩ := mem_unknowns.1 hu
    have hi : i < 2 := hi
    have : valueAt (partialArith id) (rhss (theCalls G part d op)) (benchStart (partialArith root) G part d s) ⟨i, p⟩ = some (1 : V) := by
      rcases (by omega : i = 0 ∨ i = 1) with rfl | rfl
      · exact hv.start_rhs s (i := 0) (by decide) hp
      · exact hv.start_rhs s (i := 1) (by decide) hp
    unfold exactVector
    rw [this]
    rfl
  · funext ⟨⟨i, p⟩, hu⟩
    obtain ⟨hi, hp⟩ := mem_unknowns.1 hu
    have hi : i < 2 := hi
    have : valueAt (partialArith id) (sols (theCalls G part d op)) (benchStart (partialArith root) G part d s) ⟨i, p⟩ = some (0 : V) := by
      rcases (by omega : i = 0 ∨ i = 1) with rfl | rfl
      · exact start_sol s (i := 0) (by decide) hp
      · exact start_sol s (i := 1) (by decide) hp
    unfold exactVector
    rw [this]
    rfl

/-- The solution of both blocks in memory is the grid function `u`. -/
def BothHold (ns : List Int) (d : Nat → Nat) (s : Cell Int → Option V) (u : Point → V) : Prop :=
  ∀ i, i < 2 → ∀ p, InBox (boxOf ns) p → s (.elem (d (2 + i)) (linearize .rowMajor (boxOf ns) p)) = some (u p)

/-- No element of the solutions is defined. -/
def BothUndefined (ns : List Int) (d : Nat → Nat) (s : Cell Int → Option V) : Prop :=
  ∀ i, i < 2 → ∀ p, InBox (boxOf ns) p → s (.elem (d (2 + i)) (linearize .rowMajor (boxOf ns) p)) = none

theorem bothUndefined {ns : List Int} (hG : ∀ j, j ∈ G.points (G.parent part) ↔ 0 ≤ j ∧ j < Rect.volume (boxOf ns)) {op : Op Int Int (Option V)}
    {s : Cell Int → Option V} (h : SolutionUndefined G (theCalls G part d op) s) : BothUndefined ns d s := by
  intro i hi p hp
  have hp' := (hG _).2 (linearize_bounds .rowMajor _ p hp)
  rcases (by omega : i = 0 ∨ i = 1) with rfl | rfl
  · exact h (vecOf G part (d 2)) (List.mem_cons_self ..) _ hp'
  · exact h (vecOf G part (d 3)) (List.mem_cons_of_mem _ (List.mem_cons_self ..)) _ hp'

theorem Built.holds {ns : List Int} {dirs : List (Point × V)} {op : Op Int Int (Option V)}
    {e : Fin 2 × (pointsOf .rowMajor (boxOf ns)).toFinset ≃ clientUnknowns G (theCalls G part d op)} (h : Built G part d op ns dirs e)
    {s : Cell Int → Option V} {y : clientUnknowns G (theCalls G part d op) → V} {y0 : gridPoints ns → V} (hy : TwoCopies e y y0)
    (hs : SolutionIs G (theCalls G part d op) s y) : BothHold ns d s (onGrid y0) := by
  intro i hi p hp
  have hx := hs (e (⟨i, hi⟩, ⟨p, (mem_S p).2 hp⟩))
  rw [hy, h.place] at hx
  unfold onGrid
  rw [dif_pos ((mem_S p).2 hp)]
  rw [← hx]
  rcases (by omega : i = 0 ∨ i = 1) with rfl | rfl <;> rfl

variable {sort : List (Point × Option V) → List (Point × Option V)}

/-- The iterates of the textbook algorithm on the grid, started at zero. -/
def gridIterate (V : Type) [Field V] (o : Options) (k : Nat) (p : Point) : V :=
  onGrid (Textbook.cg (gridMatrix (benchDirs V o.dim) (benchSizes o)) 0 (fun _ => 1) k).x p

theorem cg_exact (hroot : root 0 = 0) (h : Setting (partialArith root) (exactLit V) sort G part d base W o) (hsol : o.solver = 1) :
    ∃ nt, Groups o.it o.pt nt ∧ BenchmarkEnsures (partialArith root) (exactLit V) sort G part d base W o fun r s' =>
      r = some (report W o.pt nt) ∧
      (CGDefined (gridMatrix (benchDirs V o.dim) (benchSizes o)) 0 (fun _ => 1) (o.pt * max warmupTraces nt) →
        BothHold (benchSizes o) d s' (gridIterate V o (o.pt * max warmupTraces nt))) ∧
      (¬CGDefined (gridMatrix (benchDirs V o.dim) (benchSizes o)) 0 (fun _ => 1) (o.pt * max warmupTraces nt) →
        BothUndefined (benchSizes o) d s') := by
  obtain ⟨nt, hg, offsets, hoff, N, hN⟩ := h.run
  refine ⟨nt, hg, N, fun fuel hf pieces hc junk t s => ?_⟩
  obtain ⟨m, pl, hr, hh, hperm, hsys, hpl, hrun⟩ := hN fuel hf pieces hc junk
  refine hrun t s _ ?_
  obtain ⟨e, hb⟩ := built_of_holds (d := d) h.options.dim h.space hoff hperm hr hh
  have hdef := start_defined (root := root) h.vectors s (coefs_defined h.options.dim h.space hoff hperm hr hh)
  obtain ⟨pl', hpl', hcg⟩ := c72_cg hsys hdef hroot t
  rw [hpl] at hpl'
  cases hpl'
  obtain ⟨hv1, hv2⟩ := start_vectors (root := root) h.vectors s (Op.csr m)
  have hcg := hcg _ 0 (fun _ => 1) rfl hv2.symm hv1.symm (o.pt * max warmupTraces nt)
  have hx : TwoCopies e (0 : clientUnknowns G (theCalls G part d (Op.csr m)) → V) 0 := fun x => rfl
  have hbb : TwoCopies e (fun _ => (1 : V)) (fun _ => 1) := fun x => rfl
  have hcp := (TwoCopies.cg two_ne_zero hb.coef hx hbb (N0 := gridMatrix (benchDirs V o.dim) (benchSizes o)) (o.pt * max warmupTraces nt)).1
  have hdd := TwoCopies.defined two_ne_zero hb.coef hx hbb (N0 := gridMatrix (benchDirs V o.dim) (benchSizes o)) (o.pt * max warmupTraces nt)
  unfold solverRun
  rw [if_pos hsol]
  exact Ensures.forget (ensures_weaken hcg fun _ s' g => ⟨fun hd => hb.holds hcp (g.1 (hdd.2 hd)),
    fun hd => bothUndefined h.space (g.2 fun hd' => hd (hdd.1 hd'))⟩)

/-- **C74**, conjugate gradients in exact arithmetic (division by zero undefined): there is a number `k0` of steps, at most the number of
points of the half grid (half the size in every direction, rounded up), which depends on the operator and the grid alone, such that the
program ends with both solutions entirely defined if it makes at most `k0` steps, solves the difference equation with right-hand side one and
zero boundary values if it makes `k0`, and ends with no element of either solution defined if it makes more.  The number of steps is the
iterations per trace times the number of traces, at least five. -/
theorem c74_cg (dim nx ny nz : Int) (hdim : 1 ≤ dim ∧ dim ≤ 4) : ∃ k0 : Nat, ∃ u : Nat → Point → V, ∀ o : Options, o.dim = dim → o.nx = nx → o.ny = ny →
    o.nz = nz → o.solver = 1 → k0 ≤ halfVolume o ∧
    (∀ p, InBox (boxOf (benchSizes o)) p → diffOp (benchDirs V dim) (zeroOutside (boxOf (benchSizes o)) (u k0)) p = 1) ∧
    ∀ (root : V → V) sort G part d base W, root 0 = 0 → Setting (partialArith root) (exactLit V) sort G part d base W o →
      ∃ nt, Groups o.it o.pt nt ∧ BenchmarkEnsures (partialArith root) (exactLit V) sort G part d base W o fun r s' =>
        r = some (report W o.pt nt) ∧ (o.pt * max 5 nt ≤ k0 → BothHold (benchSizes o) d s' (u (o.pt * max 5 nt))) ∧
        (k0 < o.pt * max 5 nt → BothUndefined (benchSizes o) d s') := by
  have hd4 : dim = 1 ∨ dim = 2 ∨ dim = 3 ∨ dim = 4 := by omega
  let o0 : Options := ⟨dim, 1, nx, ny, nz, 0, 0⟩
  have hlen : (benchSizes o0).length = gridDim dim := benchSizes_length o0
  obtain ⟨k0, h1, h2, h3, h4⟩ := grid_cg (V := V) (dirs := benchDirs V dim) (ns := benchSizes o0)
    (fun t ht => by rw [benchDirs_length hd4 t ht, hlen]) (benchDirs_ne dim) (benchDirs_nonzero hd4) (benchDirs_pos hd4)
    (fun cs hc => benchDirs_flip hd4 cs (by rw [hc, hlen]))
  refine ⟨k0, gridIterate V o0, ?_⟩
  rintro ⟨dim', sv, nx', ny', nz', it, pt⟩ rfl rfl rfl rfl hsv
  refine ⟨h1, h3, fun root sort G part d base W hroot h => ?_⟩
  obtain ⟨nt, hg, N, hN⟩ := cg_exact hroot h hsv
  refine ⟨nt, hg, N, fun fuel hf pieces hc junk t s => ensures_weaken (hN fuel hf pieces hc junk t s) fun r s' g => ⟨g.1, fun hk => ?_, fun hk => ?_⟩⟩
  · exact g.2.1 (h2 _ hk)
  · exact g.2.2 (h4 _ hk)

/-- **C74**, one dimension: `k0` is half the number of points, rounded up, and the iterates are known. -/
theorem c74_cg_line (hroot : root 0 = 0) (h : Setting (partialArith root) (exactLit V) sort G part d base W o) (hsol : o.solver = 1)
    (hdim : o.dim = 1) :
    ∃ nt, Groups o.it o.pt nt ∧ BenchmarkEnsures (partialArith root) (exactLit V) sort G part d base W o fun r s' =>
      r = some (report W o.pt nt) ∧
      (2 * ((o.pt * max 5 nt : Nat) : Int) ≤ o.nx + 1 → ∀ i, i < 2 → ∀ j : Int, 0 ≤ j → j < o.nx →
        s' (.elem (d (2 + i)) j) = some (lineIterate V o.nx (o.pt * max 5 nt : Nat) j)) ∧
      (o.nx + 1 < 2 * ((o.pt * max 5 nt : Nat) : Int) → ∀ i, i < 2 → ∀ j : Int, 0 ≤ j → j < o.nx → s' (.elem (d (2 + i)) j) = none) := by
  obtain ⟨nt, hg, N, hN⟩ := cg_exact hroot h hsol
  have hns : benchSizes o = [o.nx] := by unfold benchSizes; rw [if_pos hdim]
  have hlin : ∀ j, linearize .rowMajor (boxOf [o.nx]) [j] = j := by
    intro j
    simp [linearize, linearizeRowMajor, linearizeRowMajorAux, boxOf]
  rw [hdim, hns] at hN
  have hL := line_grid_cg (V := V) h.options.sizes.1 (o.pt * max warmupTraces nt)
  refine ⟨nt, hg, N, fun fuel hf pieces hc junk t s => ensures_weaken (hN fuel hf pieces hc junk t s) fun r s' g => ⟨g.1, fun hk i hi j h0 h1 => ?_, fun hk i hi j h0 h1 => ?_⟩⟩
  · obtain ⟨q1, q2⟩ := hL.1 hk
    have hin : InBox (boxOf [o.nx]) [j] := inBox_one.2 ⟨j, rfl, h0, h1⟩
    have := g.2.1 q1 i hi [j] hin
    rw [hlin] at this
    rw [this]
    unfold gridIterate
    rw [hdim, hns]
    unfold onGrid
    rw [dif_pos ((mem_S _).2 hin), q2]
    rfl
  · have hin : InBox (boxOf [o.nx]) [j] := inBox_one.2 ⟨j, rfl, h0, h1⟩
    have := g.2.2 (hL.2 hk) i hi [j] hin
    rw [hlin] at this
    exact this

/-- **C74**, BiCGStab and GMRES in exact arithmetic (division by zero undefined; for GMRES exact roots): more steps of BiCGStab than the half
grid has points, and any number of GMRES cycles if the half grid has less than ten, leave no element of either solution defined. -/
theorem c74_overrun (hroot : root 0 = 0) (h : Setting (partialArith root) (exactLit V) sort G part d base W o) :
    ∃ nt, Groups o.it o.pt nt ∧ BenchmarkEnsures (partialArith root) (exactLit V) sort G part d base W o fun r s' =>
      r = some (report W o.pt nt) ∧
      ((o.solver = 1 ∨ o.solver = 2) ∧ halfVolume o < o.pt * max 5 nt → BothUndefined (benchSizes o) d s') ∧
      (o.solver = 3 ∧ halfVolume o < 10 ∧ (∀ a, 0 ≤ a → root a * root a = a) → BothUndefined (benchSizes o) d s') := by
  obtain ⟨nt, hg, offsets, hoff, N, hN⟩ := h.run
  refine ⟨nt, hg, N, fun fuel hf pieces hc junk t s => ?_⟩
  obtain ⟨m, pl, hr, hh, hperm, hsys, hpl, hrun⟩ := hN fuel hf pieces hc junk
  refine hrun t s _ ?_
  obtain ⟨e, hb⟩ := built_of_holds (d := d) h.options.dim h.space hoff hperm hr hh
  have hdef := start_defined (root := root) h.vectors s (coefs_defined h.options.dim h.space hoff hperm hr hh)
  obtain ⟨hv1, hv2⟩ := start_vectors (root := root) h.vectors s (Op.csr m)
  have hcl : Classes G (theCalls G part d (Op.csr m)) (benchStart (partialArith root) G part d s) (halfClass e) :=
    ⟨fun u u' _ => by rw [hv1], fun u u' c hcc => hb.rows (fun cs hc => benchDirs_flip h.options.dim cs (by rw [hc, benchSizes_length])) u u' c hcc⟩
  have hcard : Fintype.card (pointsOf .rowMajor (halfOf (benchSizes o))).toFinset = halfVolume o := card_half _
  have hpos : 1 ≤ o.pt * max warmupTraces nt := Nat.mul_pos h.options.pt (lt_of_lt_of_le (by decide) (Nat.le_max_left _ _))
  unfold solverRun
  rcases h.options.solver with hs | hs | hs
  · rw [if_pos hs]
    obtain ⟨pl', hpl', k0, hk0, -, -, hk⟩ := c73_cg hsys hdef hroot t (hb.spd (benchDirs_ne o.dim) (benchDirs_nonzero h.options.dim)
      (benchDirs_pos h.options.dim)) hcl
    rw [hpl] at hpl'
    cases hpl'
    by_cases hlt : halfVolume o < o.pt * max warmupTraces nt
    · exact Ensures.forget (ensures_weaken (hk _ (by omega)) fun _ s' g => ⟨fun _ => bothUndefined h.space g, fun h3 => by omega⟩)
    · obtain ⟨pl', hpl', hcg⟩ := c72_cg hsys hdef hroot t
      rw [hpl] at hpl'
      cases hpl'
      exact Ensures.forget (ensures_weaken (hcg _ _ _ rfl rfl rfl (o.pt * max warmupTraces nt)) fun _ s' g =>
        ⟨fun h2 => absurd h2.2 hlt, fun h3 => by omega⟩)
  · rw [if_neg (by omega), if_pos hs]
    by_cases hlt : halfVolume o < o.pt * max warmupTraces nt
    · obtain ⟨pl', hpl', hk⟩ := c73_bicgstab hsys hdef hroot t hcl
      rw [hpl] at hpl'
      cases hpl'
      exact Ensures.forget (ensures_weaken (hk _ (by omega)) fun _ s' g => ⟨fun _ => bothUndefined h.space g, fun h3 => by omega⟩)
    · obtain ⟨pl', hpl', hcg⟩ := c72_bicgstab hsys hdef hroot t
      rw [hpl] at hpl'
      cases hpl'
      exact Ensures.forget (ensures_weaken (hcg _ _ _ rfl rfl rfl (o.pt * max warmupTraces nt)) fun _ s' g =>
        ⟨fun h2 => absurd h2.2 hlt, fun h3 => by omega⟩)
  · rw [if_neg (by omega), if_neg (by omega)]
    by_cases hlt : halfVolume o < 10 ∧ ∀ a, 0 ≤ a → root a * root a = a
    · obtain ⟨pl', hpl', hk⟩ := c73_gmres hsys hdef hroot t hlt.2 hcl (fun u u' _ => by rw [hv2]; rfl) (m := 10) (by omega)
      rw [hpl] at hpl'
      cases hpl'
      exact Ensures.forget (ensures_weaken (hk _ hpos) fun _ s' g => ⟨fun h2 => by omega, fun h3 => bothUndefined h.space g⟩)
    · obtain ⟨pl', hpl', hcg⟩ := c72_gmres hsys hdef hroot t (m := 10) (by decide)
      rw [hpl] at hpl'
      cases hpl'
      exact Ensures.forget (ensures_weaken (hcg _ _ _ rfl rfl rfl (o.pt * max warmupTraces nt)) fun _ s' g =>
        ⟨fun h2 => by omega, fun h3 => absurd h3.2 hlt⟩)

/-- **C74**, the defaults (one dimension, 16 points, 20 iterations), with any of the three solvers: in exact arithmetic with exact roots
the program makes more steps than the system allows, and no element of either solution is defined at the end. -/
theorem c74_defaults (hroot : root 0 = 0) (hsq : ∀ a, 0 ≤ a → root a * root a = a) (solver : Int)
    (h : Setting (partialArith root) (exactLit V) sort G part d base W { defaultOptions with solver := solver }) :
    BenchmarkEnsures (partialArith root) (exactLit V) sort G part d base W { defaultOptions with solver := solver } fun _ s' =>
      BothUndefined [16] d s' := by
  obtain ⟨nt, hg, N, hN⟩ := c74_overrun hroot h
  have hnt : nt = 20 := hg.unique ⟨by show 20 ≤ 20 * 1; decide, fun j hj => by
    have hj : 20 ≤ j * 1 := hj
    omega⟩
  subst hnt
  refine ⟨N, fun fuel hf pieces hc junk t s => ensures_weaken (hN fuel hf pieces hc junk t s) fun r s' g => ?_⟩
  rcases h.options.solver with hs | hs | hs
  · exact g.2.1 ⟨Or.inl hs, by show (8 : Nat) < 1 * max 5 20; decide⟩
  · exact g.2.1 ⟨Or.inr hs, by show (8 : Nat) < 1 * max 5 20; decide⟩
  · exact g.2.2 ⟨hs, by show (8 : Nat) < 10; decide, hsq⟩

end
end Verif.Programs
