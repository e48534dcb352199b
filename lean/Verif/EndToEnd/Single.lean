import Verif.EndToEnd.Shift
import Verif.Solver.Props
import Verif.Solver.Calls

/-! # One matrix, one solution vector, one right-hand side

The set-up of the library's tests (`test/Test05COOSolveCG.cpp` 26-80, `test/Test06CSRSolveCG.cpp`): solution and right-hand side
on the same partition, one matrix at position `(0, 0)`, then a solver. -/
set_option linter.dupNamespace false
set_option linter.unusedSectionVars false
namespace Verif.EndToEnd
open Verif.Runtime Verif.Vector Verif.Matrix Verif.Planner Verif.Textbook Verif.Solver
open scoped _root_.Matrix

variable {K P V : Type} [DecidableEq P] [DecidableEq K] [Field V]

/-- The client's set-up calls. -/
def singleCalls (v0 v1 : Vec) (m : Op K P V) : List (Setup K P V) := [.addSol v0, .addRhs v1, .addMatrix m 0 0]

/-- What the client must respect: partition pieces inside the space (Legion), contributions to a reduction combined in some
order (Legion), two vectors made by the vector constructor on the same partition with different data, workspace on fresh data
from `base` on (Legion). -/
structure TwoVectors (G : Geometry P) (part d0 d1 base : Nat) (v0 v1 : Vec) : Prop where
  valid : G.Valid
  order : ∀ f l, (G.redOrder f l).Perm l
  sol : newVector G part d0 = some v0
  rhs : newVector G part d1 = some v1
  distinct : d0 ≠ d1
  fresh0 : d0 < base
  fresh1 : d1 < base

/-- Also, the matrix fits the space. -/
structure Single (G : Geometry P) (part d0 d1 base : Nat) (v0 v1 : Vec) (m : Op K P V) : Prop
    extends TwoVectors G part d0 d1 base v0 v1 where
  fits : m.Fits (G.points (G.parent part)) (G.points (G.parent part))

variable {G : Geometry P} {part d0 d1 base : Nat} {v0 v1 : Vec} {m : Op K P V}

theorem newVector_eq {d : Nat} {v : Vec} (h : newVector G part d = some v) :
    v = ⟨d, G.parent part, G.colorSpace part, part⟩ := by
  unfold newVector at h
  split at h
  · exact (Option.some.inj h).symm
  · cases h

/-- The set-up succeeds, a solver with `nw` workspace vectors can be constructed, and its planner has one block. -/
theorem Single.setup (h : Single G part d0 d1 base v0 v1 m) (nw : Nat) :
    ∃ pl pl', Planner.empty.setupAll G (singleCalls v0 v1 m) = some pl ∧ SolverSetup G pl pl' base nw ∧
      pl'.spaces = [G.parent part] ∧ pl'.sol = [v0] ∧ pl'.rhs = [v1] ∧
      pl'.ops.map (fun r => (r.matrix, r.dom, r.rng)) = [(m, 0, 0)] := by
  have e0 := newVector_eq h.sol
  have e1 := newVector_eq h.rhs
  have hc : ∀ c ∈ singleCalls v0 v1 m, c.Constructed G := by
    intro c hc
    simp only [singleCalls, List.mem_cons, List.not_mem_nil, or_false] at hc
    rcases hc with rfl | rfl | rfl
    · show newVector G v0.part v0.data = some v0
      have hp : v0.part = part ∧ v0.data = d0 := by rw [e0]; exact ⟨rfl, rfl⟩
      rw [hp.1, hp.2]; exact h.sol
    · show newVector G v1.part v1.data = some v1
      have hp : v1.part = part ∧ v1.data = d1 := by rw [e1]; exact ⟨rfl, rfl⟩
      rw [hp.1, hp.2]; exact h.rhs
    · trivial
  obtain ⟨pl, hpl⟩ : ∃ pl, Planner.empty.setupAll G (singleCalls v0 v1 m) = some pl := by
    apply (c31_accepts_exactly G _ hc).2
    intro a c b he
    unfold singleCalls at he
    rcases a with _ | ⟨x, _ | ⟨y, _ | ⟨z, a⟩⟩⟩
    · simp only [List.nil_append, List.cons.injEq] at he
      obtain ⟨rfl, -⟩ := he
      exact ⟨rfl, fun w hw => by simp [rhss] at hw⟩
    · simp only [List.cons_append, List.nil_append, List.cons.injEq] at he
      obtain ⟨rfl, rfl, -⟩ := he
      refine ⟨rfl, fun w hw => ?_⟩
      have : w = v0 := by simpa [sols, rhss] using hw.symm
      rw [this, e0, e1]
      exact ⟨rfl, rfl⟩
    · simp only [List.cons_append, List.nil_append, List.cons.injEq] at he
      obtain ⟨rfl, rfl, rfl, -⟩ := he
      simp [Allowed, sols, rhss]
    · simp at he
  have hs : sols (singleCalls v0 v1 m) = [v0] := rfl
  have hr : rhss (singleCalls v0 v1 m) = [v1] := rfl
  obtain ⟨pl', S, h1, h2, h3⟩ := solver_setup G h.valid h.order (singleCalls v0 v1 m) hc pl hpl rfl base nw
    (by rw [hs, hr]; rfl) (by rw [hs]; exact Nat.one_pos)
    (by rw [hs, hr, e0, e1]; simpa using h.distinct)
    (by
      rw [hs, hr, e0, e1]
      intro v hv
      simp only [List.cons_append, List.nil_append, List.mem_cons, List.not_mem_nil, or_false] at hv
      rcases hv with rfl | rfl
      · exact h.fresh0
      · exact h.fresh1)
    (by
      intro m' d r hm vd vr hd hr'
      have hm : (m', d, r) ∈ [(m, 0, 0)] := hm
      rw [List.mem_singleton] at hm
      obtain ⟨rfl, rfl, rfl⟩ : m' = m ∧ d = 0 ∧ r = 0 := by simpa using hm
      rw [hs] at hd hr'
      have hd : vd = v0 := by simpa using hd.symm
      have hr' : vr = v0 := by simpa using hr'.symm
      rw [hd, hr', e0]
      exact h.fits)
  rw [hs] at h1
  rw [hr] at h2
  refine ⟨pl, pl', hpl, S, ?_, h1, h2, h3⟩
  have hsz := S.ready.sizes
  simp only [Planner.sizesAgree, Bool.and_eq_true, decide_eq_true_eq] at hsz
  have hl : pl'.spaces.length = 1 := by rw [hsz.1.1.2, h1]; rfl
  obtain ⟨a, ha⟩ := List.length_eq_one_iff.1 hl
  obtain ⟨v, hv1, hv2, -⟩ := S.ready.blocks 0 0 (by omega) (by rw [hl]; decide)
  have : v = v0 := by
    unfold Planner.lookup at hv1
    rw [if_pos rfl, h1] at hv1
    simpa using hv1.symm
  rw [this, e0, ha] at hv2
  rw [ha, show a = G.parent part from by simpa using hv2.symm]

section
variable {pl' : Planner K P V} (hsp : pl'.spaces = [G.parent part]) (hso : pl'.sol = [v0]) (hrh : pl'.rhs = [v1])
    (hop : pl'.ops.map (fun r => (r.matrix, r.dom, r.rng)) = [(m, 0, 0)])
include hsp

theorem single_mem (u : Σ _ : Nat, P) : u ∈ pl'.unknowns G ↔ u.1 = 0 ∧ u.2 ∈ (G.points (G.parent part)).toFinset := by
  unfold Planner.unknowns Planner.pts
  rw [Finset.mem_sigma, hsp]
  simp only [List.length_singleton, Finset.mem_range, Nat.lt_one_iff]
  constructor
  · rintro ⟨h1, h2⟩
    rw [h1] at h2
    exact ⟨h1, by simpa using h2⟩
  · rintro ⟨h1, h2⟩
    rw [h1]
    exact ⟨rfl, by simpa using h2⟩

/-- The unknowns of the system are the points of the space. -/
def singleEquiv : pl'.U G ≃ (G.points (G.parent part)).toFinset where
  toFun u := ⟨u.1.2, ((single_mem hsp u.1).1 u.2).2⟩
  invFun p := ⟨⟨0, p.1⟩, (single_mem hsp _).2 ⟨rfl, p.2⟩⟩
  left_inv u := by
    apply Subtype.ext
    have := ((single_mem hsp u.1).1 u.2).1
    obtain ⟨⟨i, p⟩, hu⟩ := u
    simp only at this
    subst this
    rfl
  right_inv p := rfl

include hso in
theorem single_content0 (s : Cell P → V) (u : pl'.U G) : pl'.content G s 0 u = s (.elem v0.data u.1.2) := by
  have h0 := ((single_mem hsp u.1).1 u.2).1
  unfold Planner.content Planner.vec Planner.lookup
  rw [if_pos rfl, hso, h0]
  rfl

include hrh in
theorem single_content1 (s : Cell P → V) (u : pl'.U G) : pl'.content G s 1 u = s (.elem v1.data u.1.2) := by
  have h0 := ((single_mem hsp u.1).1 u.2).1
  unfold Planner.content Planner.vec Planner.lookup
  rw [if_neg (by decide), if_pos rfl, hrh, h0]
  rfl

include hop in
theorem single_operator (u u' : pl'.U G) : pl'.operator G u u' = m.coef u.1.2 u'.1.2 := by
  have h0 := ((single_mem hsp u.1).1 u.2).1
  have h1 := ((single_mem hsp u'.1).1 u'.2).1
  unfold Planner.operator
  have : (pl'.ops.map fun r => if r.rng = u.1.1 ∧ r.dom = u'.1.1 then r.matrix.coef u.1.2 u'.1.2 else (0 : V)) =
      (pl'.ops.map (fun r => (r.matrix, r.dom, r.rng))).map fun t =>
        if t.2.2 = u.1.1 ∧ t.2.1 = u'.1.1 then t.1.coef u.1.2 u'.1.2 else 0 := by
    rw [List.map_map]; rfl
  rw [this, hop, h0, h1]
  simp

end

theorem SPD_of_equiv {ι κ : Type} [Fintype ι] [Fintype κ] [LinearOrder V] (e : ι ≃ κ) (M : _root_.Matrix ι ι V)
    (N : _root_.Matrix κ κ V) (h : ∀ i j, M i j = N (e i) (e j)) (hN : SPD N) : SPD M := by
  refine ⟨?_, fun x hx => ?_⟩
  · funext i j
    show M j i = M i j
    rw [h, h]
    exact congrFun (congrFun hN.1 (e i)) (e j)
  · have h1 : x ⬝ᵥ M *ᵥ x = (fun k => x (e.symm k)) ⬝ᵥ N *ᵥ (fun k => x (e.symm k)) := by
      show ∑ i, x i * ∑ j, M i j * x j = ∑ k, x (e.symm k) * ∑ l, N k l * x (e.symm l)
      rw [← e.sum_comp]
      refine Finset.sum_congr rfl fun i _ => ?_
      rw [← e.sum_comp]
      simp only [Equiv.symm_apply_apply, h]
    rw [h1]
    apply hN.2
    intro h0
    apply hx
    funext i
    have := congrFun h0 (e i)
    simpa using this

/-- **CG on a client's system**: symmetric positive definite coefficients, solution vector zero.  After some number `k` of steps, at most
the number of points, under every schedule, the solution vector solves `Σ_q coef p q * x q = b p` at every point, where `b` is the
right-hand side before (and after) the run. -/
theorem single_cg [LinearOrder V] [IsStrictOrderedRing V] {A : Arith V} (hA : A.Exact)
    (h : Single G part d0 d1 base v0 v1 m)
    (hspd : SPD (fun u u' : (G.points (G.parent part)).toFinset => m.coef u.1 u'.1)) (n : Nat) (s : Cell P → V)
    (hx0 : ∀ p ∈ G.points (G.parent part), s (.elem d0 p) = 0) :
    ∃ pl, Planner.empty.setupAll G (singleCalls v0 v1 m) = some pl ∧
      ∃ k, k ≤ (G.points (G.parent part)).toFinset.card ∧ Ensures (cg A G pl base k) n s fun c s' =>
        (∀ p ∈ G.points (G.parent part), ∑ q ∈ (G.points (G.parent part)).toFinset, m.coef p q * s' (.elem d0 q) =
          s (.elem d1 p)) ∧
        c.history.length = k + 1 ∧ ∀ (i : Nat) a, c.history[i]? = some a → (s' (.fut a.fut) = 0 ↔ i = k) := by
  obtain ⟨pl, pl', hpl, S, hsp, hso, hrh, hop⟩ := h.setup 3
  have e0 : v0.data = d0 := by rw [newVector_eq h.sol]
  have e1 : v1.data = d1 := by rw [newVector_eq h.rhs]
  refine ⟨pl, hpl, ?_⟩
  have hspd' : SPD (pl'.operator G) := SPD_of_equiv (singleEquiv hsp) _ _
    (fun u u' => single_operator hsp hop u u') hspd
  obtain ⟨k, hk, hens⟩ := c35_solves hA S hspd' n s (by
    funext u
    rw [single_content0 hsp hso, e0]
    exact hx0 _ (List.mem_toFinset.1 ((single_mem hsp u.1).1 u.2).2))
  refine ⟨k, ?_, ?_⟩
  · rw [Fintype.card_congr (singleEquiv hsp), Fintype.card_coe] at hk
    exact hk
  · obtain ⟨a, n', ts, q1, q2, q3⟩ := hens
    refine ⟨a, n', ts, q1, q2, fun M' h5 h6 => ?_⟩
    obtain ⟨h7, h8, h9⟩ := q3 M' h5 h6
    refine ⟨fun p hp => ?_, h8, h9⟩
    have hp' : p ∈ (G.points (G.parent part)).toFinset := List.mem_toFinset.2 hp
    have h10 := congrFun h7 ((singleEquiv hsp).symm ⟨p, hp'⟩)
    rw [single_content1 hsp hrh, e1] at h10
    rw [← Finset.sum_attach]
    rw [← show s (.elem d1 ((singleEquiv hsp).symm ⟨p, hp'⟩).1.2) = s (.elem d1 p) from rfl, ← h10]
    show _ = ∑ u', pl'.operator G _ u' * pl'.content G M'.store 0 u'
    rw [← (singleEquiv hsp).symm.sum_comp, Finset.univ_eq_attach]
    refine Finset.sum_congr rfl fun q _ => ?_
    rw [single_operator hsp hop, single_content0 hsp hso, e0]
    rfl

end Verif.EndToEnd
