import Verif.Solver.Frame
import Verif.Solver.Refine
import Verif.Planner.Props

/-! From a user's set-up to a solver. -/
set_option linter.dupNamespace false
set_option linter.unusedSectionVars false
namespace Verif.Solver
open Verif.Runtime Verif.Vector Verif.Matrix Verif.Planner
variable {K P V : Type} [DecidableEq P] [DecidableEq K]

/-- The situation in which a solver with `nw` workspace vectors is constructed on the user's planner `pl`: its workspace
request is granted and gives `pl'`, which is `Ready` (see `c31_ready`, `solver_setup`); a reduction combines its
contributions in some order; there is at least one block. -/
structure SolverSetup (G : Geometry P) (pl pl' : Planner K P V) (base nw : Nat) : Prop where
  alloc : pl.allocateWorkspace G base nw = some pl'
  ready : Ready G pl' nw
  order : ∀ f l, (G.redOrder f l).Perm l
  nonempty : 0 < pl'.spaces.length

theorem setupAll_append (G : Geometry P) (l l' : List (Setup K P V)) : ∀ pl : Planner K P V,
    pl.setupAll G (l ++ l') = (pl.setupAll G l).bind fun pl' => pl'.setupAll G l' := by
  induction l with
  | nil => intro pl; rfl
  | cons c l ih =>
    intro pl
    show (pl.setup G c).bind _ = ((pl.setup G c).bind _).bind _
    rw [Option.bind_assoc]
    congr 1
    funext pl'
    exact ih pl'

/-- Every user program that legally sets up a planner with equally many solution and right-hand-side vectors not sharing
data, and matrices between the right spaces, can construct a solver; the planner still holds the user's vectors and
matrices. -/
theorem solver_setup (G : Geometry P) (hG : G.Valid) (hord : ∀ f l, (G.redOrder f l).Perm l) (calls : List (Setup K P V))
    (hc : ∀ c ∈ calls, c.Constructed G) (pl : Planner K P V) (hpl : Planner.empty.setupAll G calls = some pl)
    (hno : allocs calls = []) (base nw : Nat) (hlen : (sols calls).length = (rhss calls).length) (hpos : 0 < (sols calls).length)
    (hdata : ((sols calls ++ rhss calls).map Vec.data).Nodup) (hfresh : ∀ v ∈ sols calls ++ rhss calls, v.data < base)
    (hfit : ∀ m d r, (m, d, r) ∈ mats calls → ∀ vd vr, (sols calls)[d]? = some vd → (sols calls)[r]? = some vr →
      m.Fits (G.points vr.space) (G.points vd.space)) :
    ∃ pl', SolverSetup G pl pl' base nw ∧ pl'.sol = sols calls ∧ pl'.rhs = rhss calls ∧
      pl'.ops.map (fun r => (r.matrix, r.dom, r.rng)) = mats calls := by
  have hc' : ∀ c ∈ calls ++ [.allocate base nw], c.Constructed G := by
    intro c h
    rcases List.mem_append.1 h with h | h
    · exact hc c h
    · rw [List.mem_singleton] at h; subst h; trivial
  have hall := (c31_accepts_exactly G calls hc).1 ⟨pl, hpl⟩
  obtain ⟨pl', hpl'⟩ : ∃ pl', Planner.empty.setupAll G (calls ++ [.allocate base nw]) = some pl' := by
    apply (c31_accepts_exactly G _ hc').2
    intro a c b he
    rcases List.eq_nil_or_concat b with rfl | ⟨b', x, rfl⟩
    · have := List.append_inj' he (by simp)
      rw [List.singleton_inj] at this
      rw [← this.1, ← this.2]
      exact hno
    · have he' : calls ++ [Setup.allocate base nw] = (a ++ c :: b') ++ [x] := by simpa using he
      have := (List.append_inj' he' (by simp)).1
      exact hall a c b' this
  have hal : pl.allocateWorkspace G base nw = some pl' := by
    rw [setupAll_append, hpl] at hpl'
    have h2 : (pl.allocateWorkspace G base nw).bind some = some pl' := hpl'
    rwa [Option.bind_fun_some] at h2
  have hs : sols (calls ++ [.allocate base nw]) = sols calls := by simp [sols, List.filterMap_append]
  have hr : rhss (calls ++ [.allocate base nw]) = rhss calls := by simp [rhss, List.filterMap_append]
  have hm : mats (calls ++ [.allocate base nw]) = mats calls := by simp [mats, List.filterMap_append]
  have hw : (base, nw) ∈ allocs (calls ++ [.allocate base nw]) := by
    simp [allocs, List.filterMap_append]
  have hready : Ready G pl' nw := by
    apply c31_ready G hG _ hc' pl' hpl' base nw hw
    · rw [hs, hr]; exact hlen
    · rw [hs, hr]; exact hdata
    · rw [hs, hr]; exact hfresh
    · rw [hm, hs]; exact hfit
  obtain ⟨k1, k2, -, -, -, -, -, k3, -⟩ := c31_consistent G _ hc' pl' hpl'
  rw [hs] at k1
  rw [hr] at k2
  rw [hm] at k3
  refine ⟨pl', ⟨hal, hready, hord, ?_⟩, k1, k2, k3⟩
  have hsz := hready.sizes
  simp only [Planner.sizesAgree, Bool.and_eq_true, decide_eq_true_eq] at hsz
  rw [hsz.1.1.2, k1]
  exact hpos

theorem Runs.allocate {G : Geometry P} {pl pl' : Planner K P V} {base nw : Nat} (h : pl.allocateWorkspace G base nw = some pl')
    (n : Nat) (s : Cell P → V) : Runs (allocate G pl base nw) n s pl' n s := by
  refine ⟨[], fun out => ?_, (fun t ht => by cases ht), rfl⟩
  unfold Verif.Solver.allocate
  rw [h, List.append_nil]
  rfl

theorem WP.allocate {G : Geometry P} {pl pl' : Planner K P V} {base nw : Nat} (h : pl.allocateWorkspace G base nw = some pl')
    {α : Type} {f : Planner K P V → M P V α} {n : Nat} {s : Cell P → V} {Φ : α → Nat → (Cell P → V) → Prop}
    (hf : WP (f pl') n s Φ) : WP (Verif.Solver.allocate G pl base nw >>= f) n s Φ :=
  WP.bind ⟨pl', n, s, Runs.allocate h n s, hf⟩

theorem Safe.ensures {G : Geometry P} {pl pl' : Planner K P V} {base nw : Nat} (h : pl.allocateWorkspace G base nw = some pl')
    {α : Type} {f : Planner K P V → M P V α} {Q : α → Prop} (hf : Safe G pl' nw (f pl') Q) (n : Nat) (s : Cell P → V) :
    Ensures (Verif.Solver.allocate G pl base nw >>= f) n s fun a s' => Q a ∧
      ∀ d p, (∀ k, k < nw + 2 → k ≠ 1 → ∀ u : pl'.U G, (d, p) ≠ ((pl'.vec k u.1.1).data, u.1.2)) →
        s' (.elem d p) = s (.elem d p) := by
  obtain ⟨a, n', s', h1, h2, h3⟩ := hf n s
  exact ((Runs.allocate h n s).bind h1).ensures ⟨h2, h3.elem⟩

end Verif.Solver
