import Verif.Planner.Spec
import Mathlib.Data.List.GetD

/-! Invariant of planner set-up. -/
set_option linter.dupNamespace false
set_option linter.unusedSectionVars false
namespace Verif.Planner
open Verif.Runtime Verif.Vector Verif.Matrix
variable {K P V : Type} [DecidableEq P] [DecidableEq K]

theorem newVector_some {G : Geometry P} {part data : Nat} {v : Vec} (h : newVector G part data = some v) :
    G.disjoint part = true ∧ G.complete part = true ∧ v = ⟨data, G.parent part, G.colorSpace part, part⟩ := by
  unfold newVector at h
  split at h
  · next hc =>
    rw [Bool.and_eq_true] at hc
    exact ⟨hc.1, hc.2, (Option.some.inj h).symm⟩
  · cases h

theorem newVector_ok {G : Geometry P} {part : Nat} (data : Nat) (h1 : G.disjoint part = true) (h2 : G.complete part = true) :
    newVector G part data = some ⟨data, G.parent part, G.colorSpace part, part⟩ := by
  unfold newVector; rw [h1, h2]; rfl

@[simp] theorem sols_snoc (h : List (Setup K P V)) (c : Setup K P V) :
    sols (h ++ [c]) = sols h ++ (match c with | .addSol v => [v] | _ => []) := by
  unfold sols; rw [List.filterMap_append]; cases c <;> rfl
@[simp] theorem rhss_snoc (h : List (Setup K P V)) (c : Setup K P V) :
    rhss (h ++ [c]) = rhss h ++ (match c with | .addRhs v => [v] | _ => []) := by
  unfold rhss; rw [List.filterMap_append]; cases c <;> rfl
@[simp] theorem allocs_snoc (h : List (Setup K P V)) (c : Setup K P V) :
    allocs (h ++ [c]) = allocs h ++ (match c with | .allocate b n => [(b, n)] | _ => []) := by
  unfold allocs; rw [List.filterMap_append]; cases c <;> rfl
@[simp] theorem mats_snoc (h : List (Setup K P V)) (c : Setup K P V) :
    mats (h ++ [c]) = mats h ++ (match c with | .addMatrix m d r => [(m, d, r)] | _ => []) := by
  unfold mats; rw [List.filterMap_append]; cases c <;> rfl

/-- The workspace vectors made by `allocate_workspace base n`. -/
def workspaceOf (G : Geometry P) (parts : List Nat) (base n : Nat) : List (List Vec) :=
  (List.range n).map fun j => (List.range parts.length).map fun i =>
    ⟨base + i * n + j, G.parent (parts.getD i 0), G.colorSpace (parts.getD i 0), parts.getD i 0⟩

structure Inv (G : Geometry P) (h : List (Setup K P V)) (pl : Planner K P V) : Prop where
  sol : pl.sol = sols h
  rhs : pl.rhs = rhss h
  nspaces : pl.spaces.length = max (sols h).length (rhss h).length
  nparts : pl.parts.length = max (sols h).length (rhss h).length
  solAt : ∀ (i : Nat) (v : Vec), (sols h)[i]? = some v → pl.spaces[i]? = some v.space ∧ pl.parts[i]? = some v.part
  rhsAt : ∀ (i : Nat) (v : Vec), (rhss h)[i]? = some v → pl.spaces[i]? = some v.space ∧ pl.parts[i]? = some v.part
  parts : ∀ (i q : Nat), pl.parts[i]? = some q → G.complete q = true ∧ G.disjoint q = true ∧ pl.spaces[i]? = some (G.parent q)
  fresh : allocs h = [] → pl.hasFields = false ∧ pl.wRegions = [] ∧ pl.wParts = [] ∧ pl.workspace = []
  alloc : allocs h ≠ [] → ∃ b n, allocs h = [(b, n)] ∧ pl.hasFields = true ∧ pl.wRegions.length = pl.spaces.length ∧
    pl.wParts.length = pl.spaces.length ∧ pl.workspace = workspaceOf G pl.parts b n
  ops : pl.ops.map (fun r => (r.matrix, r.dom, r.rng)) = mats h
  opsAt : ∀ r ∈ pl.ops, r.dom < min (sols h).length (rhss h).length ∧ r.rng < min (sols h).length (rhss h).length ∧
    r.kernel = r.matrix.kernelFromRange (G.pieces (pl.parts.getD r.rng 0)) ∧
    r.ghost = r.matrix.domainFromKernel (pl.pts G r.dom) r.kernel

theorem Inv.noWorkspace {G : Geometry P} {h : List (Setup K P V)} {pl : Planner K P V} (I : Inv G h pl) :
    pl.noWorkspace = true ↔ allocs h = [] := by
  constructor
  · intro hw
    by_contra hc
    obtain ⟨b, n, -, h1, -⟩ := I.alloc hc
    simp [Planner.noWorkspace, h1] at hw
  · intro hc
    obtain ⟨h1, h2, h3, h4⟩ := I.fresh hc
    simp [Planner.noWorkspace, h1, h2, h3, h4]

theorem Inv.empty (G : Geometry P) : Inv G ([] : List (Setup K P V)) Planner.empty where
  sol := rfl
  rhs := rfl
  nspaces := rfl
  nparts := rfl
  solAt i v h := by simp [sols] at h
  rhsAt i v h := by simp [rhss] at h
  parts i q h := by simp [Planner.empty] at h
  fresh _ := ⟨rfl, rfl, rfl, rfl⟩
  alloc h := absurd rfl h
  ops := rfl
  opsAt r hr := by cases hr

theorem getElem?_snoc_lt {α : Type} {l : List α} {i : Nat} {a b : α} (h : l[i]? = some a) : (l ++ [b])[i]? = some a := by
  have hi := (List.getElem?_eq_some_iff.1 h).1
  rw [List.getElem?_append_left hi, h]

theorem getElem?_snoc {α : Type} {l : List α} {i : Nat} {a b : α} (h : (l ++ [b])[i]? = some a) :
    l[i]? = some a ∨ i = l.length ∧ a = b := by
  by_cases hi : i < l.length
  · rw [List.getElem?_append_left hi] at h; exact Or.inl h
  · rw [List.getElem?_append_right (by omega)] at h
    by_cases h0 : i - l.length = 0
    · rw [h0] at h
      exact Or.inr ⟨by omega, by simpa using h.symm⟩
    · rw [List.getElem?_eq_none (by simp; omega)] at h; cases h

theorem getD_of_some {l : List Nat} {i a d : Nat} (h : l[i]? = some a) : l.getD i d = a := by
  rw [List.getD_eq_getElem?_getD, h]; rfl

/-- What `admit` does on the canonical lists at position `idx ≤ length`. -/
theorem admit_spec (G : Geometry P) (pl : Planner K P V) (idx : Nat) (v : Vec)
    (hv : newVector G v.part v.data = some v) (hlen : pl.spaces.length = pl.parts.length) :
    (idx < pl.spaces.length → pl.spaces[idx]? = some v.space ∧ pl.parts[idx]? = some v.part →
      pl.admit G idx v = some pl) ∧
    (idx < pl.spaces.length → ¬ (pl.spaces[idx]? = some v.space ∧ pl.parts[idx]? = some v.part) →
      pl.admit G idx v = none) ∧
    (idx = pl.spaces.length → pl.admit G idx v =
      some { pl with spaces := pl.spaces ++ [v.space], parts := pl.parts ++ [v.part] }) := by
  obtain ⟨h1, h2, -⟩ := newVector_some hv
  refine ⟨fun hlt hc => ?_, fun hlt hc => ?_, fun he => ?_⟩
  · unfold Planner.admit
    rw [if_pos hlt, if_pos hc.1, if_pos (show idx < pl.parts.length by omega), if_pos hc.2]
    rfl
  · unfold Planner.admit
    rw [if_pos hlt]
    by_cases hs : pl.spaces[idx]? = some v.space
    · rw [if_pos hs, if_pos (show idx < pl.parts.length by omega), if_neg (fun hp => hc ⟨hs, hp⟩)]
      rfl
    · rw [if_neg hs]
      rfl
  · unfold Planner.admit
    rw [if_neg (show ¬ idx < pl.spaces.length by omega), if_pos he.symm, if_neg (show ¬ idx < pl.parts.length by omega),
      if_pos]
    · rfl
    · simp [h1, h2, he, hlen]

/-- Adding a vector to the solution side. -/
theorem Inv.addSol {G : Geometry P} {h : List (Setup K P V)} {pl : Planner K P V} (I : Inv G h pl) (v : Vec)
    (hv : newVector G v.part v.data = some v) :
    (Allowed h (.addSol v) → ∃ pl', pl.addSol G v = some pl' ∧ Inv G (h ++ [.addSol v]) pl') ∧
    (¬ Allowed h (.addSol v) → pl.addSol G v = none) := by
  have hlen : pl.spaces.length = pl.parts.length := I.nspaces.trans I.nparts.symm
  have hidx : pl.sol.length ≤ pl.spaces.length := by rw [I.sol, I.nspaces]; exact le_max_left _ _
  obtain ⟨a1, a2, a3⟩ := admit_spec G pl pl.sol.length v hv hlen
  obtain ⟨n1, n2, n3⟩ := newVector_some hv
  have hparent : v.space = G.parent v.part := by rw [n3]
  have halloc : allocs (h ++ [Setup.addSol v]) = allocs h := by simp
  constructor
  · rintro ⟨hw, hmatch⟩
    unfold Planner.addSol
    rw [if_pos (I.noWorkspace.2 hw)]
    by_cases hlt : pl.sol.length < pl.spaces.length
    · have hr : (sols h).length < (rhss h).length := by rw [I.sol, I.nspaces] at hlt; omega
      obtain ⟨h1, h2⟩ := hmatch _ (List.getElem?_eq_getElem hr)
      obtain ⟨g1, g2⟩ := I.rhsAt _ _ (List.getElem?_eq_getElem hr)
      rw [← h1, ← I.sol] at g1
      rw [← h2, ← I.sol] at g2
      rw [a1 hlt ⟨g1, g2⟩]
      refine ⟨_, rfl, ?_⟩
      refine ⟨by simp [I.sol, copyConstruct], by simp [I.rhs], ?_, ?_, ?_, ?_, I.parts, ?_, ?_, by simpa using I.ops, ?_⟩
      · simp; rw [I.nspaces]; omega
      · simp; rw [I.nparts]; omega
      · intro i w hw'
        rw [sols_snoc] at hw'
        rcases getElem?_snoc hw' with h' | ⟨rfl, rfl⟩
        · exact I.solAt i w h'
        · rw [I.sol] at g1 g2; exact ⟨g1, g2⟩
      · intro i w hw'
        rw [rhss_snoc] at hw'
        exact I.rhsAt i w (by simpa using hw')
      · intro _; exact I.fresh hw
      · intro hc; rw [halloc] at hc; exact absurd hw hc
      · intro r hr'
        obtain ⟨b1, b2, b3, b4⟩ := I.opsAt r hr'
        refine ⟨?_, ?_, b3, b4⟩
        · simp; omega
        · simp; omega
    · have he : pl.sol.length = pl.spaces.length := by omega
      have hr : (rhss h).length ≤ (sols h).length := by rw [I.sol, I.nspaces] at he; omega
      rw [a3 he]
      refine ⟨_, rfl, ?_⟩
      have hsl : (sols h).length = pl.spaces.length := by rw [← I.sol]; exact he
      refine ⟨by simp [I.sol, copyConstruct], by simp [I.rhs], ?_, ?_, ?_, ?_, ?_, ?_, ?_, by simpa using I.ops, ?_⟩
      · simp; rw [I.nspaces]; omega
      · simp; rw [I.nparts]; omega
      · intro i w hw'
        rw [sols_snoc] at hw'
        rcases getElem?_snoc hw' with h' | ⟨rfl, rfl⟩
        · exact ⟨getElem?_snoc_lt (I.solAt i w h').1, getElem?_snoc_lt (I.solAt i w h').2⟩
        · rw [hsl]
          refine ⟨by simp, ?_⟩
          show (pl.parts ++ [w.part])[pl.spaces.length]? = _
          rw [hlen]
          simp
      · intro i w hw'
        rw [rhss_snoc] at hw'
        have h' : (rhss h)[i]? = some w := by simpa using hw'
        exact ⟨getElem?_snoc_lt (I.rhsAt i w h').1, getElem?_snoc_lt (I.rhsAt i w h').2⟩
      · intro i q hq
        rcases getElem?_snoc hq with h' | ⟨rfl, rfl⟩
        · obtain ⟨b1, b2, b3⟩ := I.parts i q h'
          exact ⟨b1, b2, getElem?_snoc_lt b3⟩
        · refine ⟨n2, n1, ?_⟩
          show (pl.spaces ++ [v.space])[pl.parts.length]? = _
          rw [← hlen, hparent]
          simp
      · intro _; exact I.fresh hw
      · intro hc; rw [halloc] at hc; exact absurd hw hc
      · intro r hr'
        obtain ⟨b1, b2, b3, b4⟩ := I.opsAt r hr'
        have hm1 := I.nspaces
        have hm2 := I.nparts
        refine ⟨?_, ?_, ?_, ?_⟩
        · simp; omega
        · simp; omega
        · show r.kernel = r.matrix.kernelFromRange (G.pieces ((pl.parts ++ [v.part]).getD r.rng 0))
          rw [List.getD_append _ _ _ _ (by omega)]
          exact b3
        · show r.ghost = r.matrix.domainFromKernel (G.points ((pl.spaces ++ [v.space]).getD r.dom 0)) r.kernel
          rw [List.getD_append _ _ _ _ (by omega)]
          exact b4
  · intro hna
    unfold Planner.addSol
    by_cases hw : allocs h = []
    · rw [if_pos (I.noWorkspace.2 hw)]
      have hex : ∃ w, (rhss h)[(sols h).length]? = some w ∧ ¬ (v.space = w.space ∧ v.part = w.part) := by
        by_contra hc
        apply hna
        refine ⟨hw, fun w hw' => ?_⟩
        by_contra hcc
        exact hc ⟨w, hw', hcc⟩
      obtain ⟨w, hw', hcc⟩ := hex
      obtain ⟨g1, g2⟩ := I.rhsAt _ _ hw'
      rw [a2]
      · rfl
      · rw [I.sol]; exact (List.getElem?_eq_some_iff.1 g1).1
      · rw [I.sol, g1, g2]
        rintro ⟨e1, e2⟩
        exact hcc ⟨(Option.some.inj e1).symm, (Option.some.inj e2).symm⟩
    · rw [if_neg (fun hh => hw (I.noWorkspace.1 hh))]

/-- Adding a vector to the right-hand side. -/
theorem Inv.addRhs {G : Geometry P} {h : List (Setup K P V)} {pl : Planner K P V} (I : Inv G h pl) (v : Vec)
    (hv : newVector G v.part v.data = some v) :
    (Allowed h (.addRhs v) → ∃ pl', pl.addRhs G v = some pl' ∧ Inv G (h ++ [.addRhs v]) pl') ∧
    (¬ Allowed h (.addRhs v) → pl.addRhs G v = none) := by
  have hlen : pl.spaces.length = pl.parts.length := I.nspaces.trans I.nparts.symm
  have hidx : pl.rhs.length ≤ pl.spaces.length := by rw [I.rhs, I.nspaces]; exact le_max_right _ _
  obtain ⟨a1, a2, a3⟩ := admit_spec G pl pl.rhs.length v hv hlen
  obtain ⟨n1, n2, n3⟩ := newVector_some hv
  have hparent : v.space = G.parent v.part := by rw [n3]
  have halloc : allocs (h ++ [Setup.addRhs v]) = allocs h := by simp
  constructor
  · rintro ⟨hw, hmatch⟩
    unfold Planner.addRhs
    rw [if_pos (I.noWorkspace.2 hw)]
    by_cases hlt : pl.rhs.length < pl.spaces.length
    · have hr : (rhss h).length < (sols h).length := by rw [I.rhs, I.nspaces] at hlt; omega
      obtain ⟨h1, h2⟩ := hmatch _ (List.getElem?_eq_getElem hr)
      obtain ⟨g1, g2⟩ := I.solAt _ _ (List.getElem?_eq_getElem hr)
      rw [← h1, ← I.rhs] at g1
      rw [← h2, ← I.rhs] at g2
      rw [a1 hlt ⟨g1, g2⟩]
      refine ⟨_, rfl, ?_⟩
      refine ⟨by simp [I.sol], by simp [I.rhs, copyConstruct], ?_, ?_, ?_, ?_, I.parts, ?_, ?_, by simpa using I.ops, ?_⟩
      · simp; rw [I.nspaces]; omega
      · simp; rw [I.nparts]; omega
      · intro i w hw'
        rw [sols_snoc] at hw'
        exact I.solAt i w (by simpa using hw')
      · intro i w hw'
        rw [rhss_snoc] at hw'
        rcases getElem?_snoc hw' with h' | ⟨rfl, rfl⟩
        · exact I.rhsAt i w h'
        · rw [I.rhs] at g1 g2; exact ⟨g1, g2⟩
      · intro _; exact I.fresh hw
      · intro hc; rw [halloc] at hc; exact absurd hw hc
      · intro r hr'
        obtain ⟨b1, b2, b3, b4⟩ := I.opsAt r hr'
        refine ⟨?_, ?_, b3, b4⟩
        · simp; omega
        · simp; omega
    · have he : pl.rhs.length = pl.spaces.length := by omega
      have hr : (sols h).length ≤ (rhss h).length := by rw [I.rhs, I.nspaces] at he; omega
      rw [a3 he]
      refine ⟨_, rfl, ?_⟩
      have hsl : (rhss h).length = pl.spaces.length := by rw [← I.rhs]; exact he
      refine ⟨by simp [I.sol], by simp [I.rhs, copyConstruct], ?_, ?_, ?_, ?_, ?_, ?_, ?_, by simpa using I.ops, ?_⟩
      · simp; rw [I.nspaces]; omega
      · simp; rw [I.nparts]; omega
      · intro i w hw'
        rw [sols_snoc] at hw'
        have h' : (sols h)[i]? = some w := by simpa using hw'
        exact ⟨getElem?_snoc_lt (I.solAt i w h').1, getElem?_snoc_lt (I.solAt i w h').2⟩
      · intro i w hw'
        rw [rhss_snoc] at hw'
        rcases getElem?_snoc hw' with h' | ⟨rfl, rfl⟩
        · exact ⟨getElem?_snoc_lt (I.rhsAt i w h').1, getElem?_snoc_lt (I.rhsAt i w h').2⟩
        · rw [hsl]
          refine ⟨by simp, ?_⟩
          show (pl.parts ++ [w.part])[pl.spaces.length]? = _
          rw [hlen]
          simp
      · intro i q hq
        rcases getElem?_snoc hq with h' | ⟨rfl, rfl⟩
        · obtain ⟨b1, b2, b3⟩ := I.parts i q h'
          exact ⟨b1, b2, getElem?_snoc_lt b3⟩
        · refine ⟨n2, n1, ?_⟩
          show (pl.spaces ++ [v.space])[pl.parts.length]? = _
          rw [← hlen, hparent]
          simp
      · intro _; exact I.fresh hw
      · intro hc; rw [halloc] at hc; exact absurd hw hc
      · intro r hr'
        obtain ⟨b1, b2, b3, b4⟩ := I.opsAt r hr'
        have hm1 := I.nspaces
        have hm2 := I.nparts
        refine ⟨?_, ?_, ?_, ?_⟩
        · simp; omega
        · simp; omega
        · show r.kernel = r.matrix.kernelFromRange (G.pieces ((pl.parts ++ [v.part]).getD r.rng 0))
          rw [List.getD_append _ _ _ _ (by omega)]
          exact b3
        · show r.ghost = r.matrix.domainFromKernel (G.points ((pl.spaces ++ [v.space]).getD r.dom 0)) r.kernel
          rw [List.getD_append _ _ _ _ (by omega)]
          exact b4
  · intro hna
    unfold Planner.addRhs
    by_cases hw : allocs h = []
    · rw [if_pos (I.noWorkspace.2 hw)]
      have hex : ∃ w, (sols h)[(rhss h).length]? = some w ∧ ¬ (v.space = w.space ∧ v.part = w.part) := by
        by_contra hc
        apply hna
        refine ⟨hw, fun w hw' => ?_⟩
        by_contra hcc
        exact hc ⟨w, hw', hcc⟩
      obtain ⟨w, hw', hcc⟩ := hex
      obtain ⟨g1, g2⟩ := I.solAt _ _ hw'
      rw [a2]
      · rfl
      · rw [I.rhs]; exact (List.getElem?_eq_some_iff.1 g1).1
      · rw [I.rhs, g1, g2]
        rintro ⟨e1, e2⟩
        exact hcc ⟨(Option.some.inj e1).symm, (Option.some.inj e2).symm⟩
    · rw [if_neg (fun hh => hw (I.noWorkspace.1 hh))]

theorem mapM_eq_map {α β : Type} (l : List α) (f : α → Option β) (g : α → β) (h : ∀ a ∈ l, f a = some (g a)) :
    l.mapM f = some (l.map g) := by
  induction l with
  | nil => rfl
  | cons a l ih =>
    rw [List.mapM_cons, h a (List.mem_cons_self ..), ih (fun b hb => h b (List.mem_cons_of_mem _ hb))]
    rfl

/-- Allocating the workspace. -/
theorem Inv.allocate {G : Geometry P} {h : List (Setup K P V)} {pl : Planner K P V} (I : Inv G h pl) (b n : Nat) :
    (Allowed h (.allocate b n) → ∃ pl', pl.allocateWorkspace G b n = some pl' ∧ Inv G (h ++ [.allocate b n]) pl') ∧
    (¬ Allowed h (.allocate b n) → pl.allocateWorkspace G b n = none) := by
  have hlen : pl.spaces.length = pl.parts.length := I.nspaces.trans I.nparts.symm
  constructor
  · intro hw
    have hw : allocs h = [] := hw
    have hcond : (pl.noWorkspace && decide (pl.spaces.length = pl.parts.length)) = true := by
      rw [I.noWorkspace.2 hw, decide_eq_true hlen]; rfl
    have hws : (List.range n).mapM (fun j => (List.zipWith Prod.mk ((List.range pl.spaces.length).map fun i => b + i * n)
        pl.parts).mapM fun rp => newVector G rp.2 (rp.1 + j)) = some (workspaceOf G pl.parts b n) := by
      unfold workspaceOf
      apply mapM_eq_map
      intro j _
      rw [mapM_eq_map _ _ (fun rp => ⟨rp.1 + j, G.parent rp.2, G.colorSpace rp.2, rp.2⟩)]
      · congr 1
        apply List.ext_getElem
        · simp [hlen]
        · intro i h1 h2
          simp only [List.length_map, List.length_range] at h2
          simp [List.getElem?_eq_getElem h2]
      · intro rp hrp
        obtain ⟨i, hi, e⟩ := List.getElem_of_mem hrp
        rw [List.getElem_zipWith] at e
        have hip : i < pl.parts.length := by rw [List.length_zipWith] at hi; omega
        obtain ⟨c1, c2, -⟩ := I.parts i _ (List.getElem?_eq_getElem hip)
        rw [← e]
        exact newVector_ok _ c2 c1
    refine ⟨{ pl with
      hasFields := true
      wRegions := (List.range pl.spaces.length).map fun i => b + i * n
      wParts := List.zipWith Prod.mk ((List.range pl.spaces.length).map fun i => b + i * n) pl.parts
      workspace := workspaceOf G pl.parts b n }, ?_, ?_⟩
    · unfold Planner.allocateWorkspace
      rw [if_pos hcond]
      show Option.bind _ _ = _
      rw [hws]
      rfl
    · refine ⟨by simp [I.sol], by simp [I.rhs], by simpa using I.nspaces, by simpa using I.nparts,
        fun i v hv => I.solAt i v (by simpa using hv), fun i v hv => I.rhsAt i v (by simpa using hv), I.parts, ?_, ?_,
        by simpa using I.ops, fun r hr => by simpa [Planner.pts] using I.opsAt r hr⟩
      · intro hc; simp at hc
      · intro _
        exact ⟨b, n, by simp [hw], rfl, by simp, by simp [hlen], rfl⟩
  · intro hna
    unfold Planner.allocateWorkspace
    rw [if_neg]
    intro hc
    rw [Bool.and_eq_true] at hc
    exact hna (I.noWorkspace.1 hc.1)

theorem Inv.sizesAgree {G : Geometry P} {h : List (Setup K P V)} {pl : Planner K P V} (I : Inv G h pl) :
    pl.sizesAgree = true ↔ (sols h).length = (rhss h).length := by
  have h1 := I.nspaces
  have h2 := I.nparts
  have h3 : pl.sol.length = (sols h).length := by rw [I.sol]
  have h4 : pl.rhs.length = (rhss h).length := by rw [I.rhs]
  unfold Planner.sizesAgree
  simp only [Bool.and_eq_true, decide_eq_true_eq, Bool.or_eq_true, List.all_eq_true]
  constructor
  · rintro ⟨⟨⟨-, h5⟩, h6⟩, -⟩; omega
  · intro he
    refine ⟨⟨⟨⟨⟨by omega, ?_⟩, ?_⟩, by omega⟩, by omega⟩, ?_⟩
    · by_cases hw : allocs h = []
      · rw [(I.fresh hw).2.1]; exact Or.inl rfl
      · obtain ⟨b, n, -, -, h5, -, -⟩ := I.alloc hw; exact Or.inr h5.symm
    · by_cases hw : allocs h = []
      · rw [(I.fresh hw).2.2.1]; exact Or.inl rfl
      · obtain ⟨b, n, -, -, -, h5, -⟩ := I.alloc hw; exact Or.inr h5.symm
    · by_cases hw : allocs h = []
      · rw [(I.fresh hw).2.2.2]; intro _ hc; cases hc
      · obtain ⟨b, n, -, -, -, -, h5⟩ := I.alloc hw
        rw [h5]
        intro L hL
        obtain ⟨j, -, rfl⟩ := List.mem_map.1 hL
        rw [List.length_map, List.length_range]; omega

/-- Adding a matrix. -/
theorem Inv.addMatrix {G : Geometry P} {h : List (Setup K P V)} {pl : Planner K P V} (I : Inv G h pl) (m : Op K P V)
    (d r : Nat) :
    (Allowed h (.addMatrix m d r) → ∃ pl', pl.addMatrix G m d r = some pl' ∧ Inv G (h ++ [.addMatrix m d r]) pl') ∧
    (¬ Allowed h (.addMatrix m d r) → pl.addMatrix G m d r = none) := by
  constructor
  · rintro ⟨h1, h2, h3⟩
    have hn := I.nspaces
    have hcond : (pl.sizesAgree && decide (d < pl.spaces.length) && decide (r < pl.spaces.length)) = true := by
      rw [I.sizesAgree.2 h1, decide_eq_true (show d < pl.spaces.length by omega),
        decide_eq_true (show r < pl.spaces.length by omega)]
      rfl
    unfold Planner.addMatrix
    rw [if_pos hcond]
    refine ⟨_, rfl, ⟨by simp [I.sol], by simp [I.rhs], by simpa using I.nspaces, by simpa using I.nparts,
        fun i v hv => I.solAt i v (by simpa using hv), fun i v hv => I.rhsAt i v (by simpa using hv), I.parts,
        fun hc => I.fresh (by simpa using hc), fun hc => by simpa using I.alloc (by simpa using hc), ?_, ?_⟩⟩
    · rw [List.map_append, I.ops, mats_snoc]; rfl
    · intro q hq
      rcases List.mem_append.1 hq with hq | hq
      · simpa [Planner.pts] using I.opsAt q hq
      · rw [List.mem_singleton] at hq
        subst hq
        refine ⟨?_, ?_, rfl, rfl⟩
        · simp; omega
        · simp; omega
  · intro hna
    unfold Planner.addMatrix
    rw [if_neg]
    intro hc
    rw [Bool.and_eq_true, Bool.and_eq_true, decide_eq_true_eq, decide_eq_true_eq, I.sizesAgree] at hc
    have hn := I.nspaces
    exact hna ⟨hc.1.1, by omega, by omega⟩

theorem Inv.step {G : Geometry P} {h : List (Setup K P V)} {pl : Planner K P V} (I : Inv G h pl) (c : Setup K P V)
    (hc : c.Constructed G) :
    (Allowed h c → ∃ pl', pl.setup G c = some pl' ∧ Inv G (h ++ [c]) pl') ∧ (¬ Allowed h c → pl.setup G c = none) := by
  cases c with
  | addSol v => exact I.addSol v hc
  | addRhs v => exact I.addRhs v hc
  | allocate b n => exact I.allocate b n
  | addMatrix m d r => exact I.addMatrix m d r

theorem Inv.run {G : Geometry P} (cs : List (Setup K P V)) : ∀ (h : List (Setup K P V)) (pl : Planner K P V), Inv G h pl →
    (∀ c ∈ cs, c.Constructed G) →
    ((∀ a c b, cs = a ++ c :: b → Allowed (h ++ a) c) → ∃ pl', pl.setupAll G cs = some pl' ∧ Inv G (h ++ cs) pl') ∧
    ((∃ a c b, cs = a ++ c :: b ∧ ¬ Allowed (h ++ a) c) → pl.setupAll G cs = none) := by
  induction cs with
  | nil =>
    intro h pl I _
    refine ⟨fun _ => ⟨pl, rfl, by rw [List.append_nil]; exact I⟩, ?_⟩
    rintro ⟨a, c, b, e, -⟩
    simp at e
  | cons c cs ih =>
    intro h pl I hcs
    obtain ⟨s1, s2⟩ := I.step c (hcs c (List.mem_cons_self ..))
    constructor
    · intro hall
      obtain ⟨pl', e, I'⟩ := s1 (by simpa using hall [] c cs rfl)
      obtain ⟨r1, -⟩ := ih (h ++ [c]) pl' I' (fun c hc => hcs c (List.mem_cons_of_mem _ hc))
      obtain ⟨pl'', e', I''⟩ := r1 (fun a d b he => by
        have := hall (c :: a) d b (by rw [he]; rfl)
        simpa using this)
      refine ⟨pl'', ?_, by simpa using I''⟩
      show (pl.setup G c).bind _ = _
      rw [e]
      exact e'
    · rintro ⟨a, d, b, he, hna⟩
      show (pl.setup G c).bind _ = _
      by_cases hc : Allowed h c
      · obtain ⟨pl', e, I'⟩ := s1 hc
        rw [e]
        refine (ih (h ++ [c]) pl' I' (fun c hc => hcs c (List.mem_cons_of_mem _ hc))).2 ?_
        cases a with
        | nil =>
          rw [List.nil_append] at he
          injection he with h1 h2
          subst h1
          rw [List.append_nil] at hna
          exact absurd hc hna
        | cons x a =>
          rw [List.cons_append] at he
          injection he with h1 h2
          subst h1
          exact ⟨a, d, b, h2, by simpa using hna⟩
      · rw [s2 hc]; rfl

end Verif.Planner
