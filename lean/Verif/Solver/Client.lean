import Verif.Planner.Client
import Verif.Solver.Props

/-! # C35 in terms of the client's calls: any number of blocks and matrices -/
set_option linter.dupNamespace false
set_option linter.unusedSectionVars false
namespace Verif.Solver
open Verif.Runtime Verif.Vector Verif.Matrix Verif.Planner Verif.Textbook
open scoped _root_.Matrix

variable {K P V : Type} [DecidableEq P] [DecidableEq K]

/-- The system a client described with set-up calls (without workspace: the solver requests it, on fresh data from `base` on). -/
structure ClientSystem (G : Geometry P) (calls : List (Setup K P V)) (base : Nat) : Prop where
  valid : G.Valid
  order : ∀ f l, (G.redOrder f l).Perm l
  constructed : ∀ c ∈ calls, c.Constructed G
  legal : ∀ a c b, calls = a ++ c :: b → Allowed a c
  noWorkspace : allocs calls = []
  lengths : (sols calls).length = (rhss calls).length
  nonempty : 0 < (sols calls).length
  data : ((sols calls ++ rhss calls).map Vec.data).Nodup
  fresh : ∀ v ∈ sols calls ++ rhss calls, v.data < base
  fits : ∀ m d r, (m, d, r) ∈ mats calls → ∀ vd vr, (sols calls)[d]? = some vd → (sols calls)[r]? = some vr →
      m.Fits (G.points vr.space) (G.points vd.space)

/-- The unknowns of the client's system: the points of the solution vectors. -/
def clientUnknowns (G : Geometry P) (calls : List (Setup K P V)) : Finset (Σ _ : Nat, P) :=
  (Finset.range (sols calls).length).sigma fun i => (((sols calls)[i]?).elim [] fun v => G.points v.space).toFinset

/-- The coefficients of the client's system: the sum over the matrices added between the two blocks. -/
def clientCoef [AddCommMonoid V] (calls : List (Setup K P V)) (u u' : Σ _ : Nat, P) : V :=
  ((mats calls).map fun t => if t.2.2 = u.1 ∧ t.2.1 = u'.1 then t.1.coef u.2 u'.2 else 0).sum

variable {G : Geometry P} {calls : List (Setup K P V)} {base : Nat}

theorem ClientSystem.complete (h : ClientSystem G calls base) (nw : Nat) :
    ∃ pl pl', Planner.empty.setupAll G calls = some pl ∧ SolverSetup G pl pl' base nw ∧
      Complete G (calls ++ [.allocate base nw]) pl' base nw := by
  obtain ⟨pl, hpl⟩ := (c31_accepts_exactly G calls h.constructed).2 h.legal
  obtain ⟨pl', S, -⟩ := solver_setup G h.valid h.order calls h.constructed pl hpl h.noWorkspace base nw h.lengths h.nonempty h.data
    h.fresh h.fits
  have hs : sols (calls ++ [.allocate base nw]) = sols calls := by simp [sols, List.filterMap_append]
  have hr : rhss (calls ++ [.allocate base nw]) = rhss calls := by simp [rhss, List.filterMap_append]
  have hm : mats (calls ++ [.allocate base nw]) = mats calls := by simp [mats, List.filterMap_append]
  refine ⟨pl, pl', hpl, S, h.valid, ?_, ?_, by simp [allocs, List.filterMap_append], by rw [hs, hr]; exact h.lengths,
    by rw [hs, hr]; exact h.data, by rw [hs, hr]; exact h.fresh, by rw [hm, hs]; exact h.fits⟩
  · intro c hc
    rcases List.mem_append.1 hc with hc | hc
    · exact h.constructed c hc
    · rw [List.mem_singleton] at hc; subst hc; trivial
  · rw [setupAll_append, hpl]
    show (pl.allocateWorkspace G base nw).bind some = some pl'
    rw [Option.bind_fun_some]
    exact S.alloc

theorem sols_alloc (nw : Nat) : sols (calls ++ [.allocate base nw]) = sols calls := by simp [sols, List.filterMap_append]
theorem rhss_alloc (nw : Nat) : rhss (calls ++ [.allocate base nw]) = rhss calls := by simp [rhss, List.filterMap_append]
theorem mats_alloc (nw : Nat) : mats (calls ++ [.allocate base nw]) = mats calls := by simp [mats, List.filterMap_append]
theorem given_alloc (nw k : Nat) : given (calls ++ [.allocate base nw]) k = given calls k := by
  unfold given; rw [sols_alloc, rhss_alloc]
theorem clientRow_alloc [Field V] (nw k : Nat) (s : Cell P → V) (i : Nat) (p : P) :
    clientRow G (calls ++ [.allocate base nw]) k s i p = clientRow G calls k s i p := by
  unfold clientRow; rw [mats_alloc, given_alloc]

theorem unknowns_eq {pl' : Planner K P V} {nw : Nat} (h : Complete G (calls ++ [.allocate base nw]) pl' base nw) :
    pl'.unknowns G = clientUnknowns G calls := by
  have R := h.ready
  obtain ⟨c1, c2⟩ := c33_client_vectors h 0 (by omega)
  rw [given_alloc] at c1 c2
  have hg : given calls 0 = sols calls := rfl
  rw [hg] at c1 c2
  ext u
  unfold clientUnknowns
  rw [Finset.mem_sigma, Finset.mem_range, List.mem_toFinset]
  constructor
  · intro hu
    obtain ⟨v, h1, h2, -⟩ := c1 ⟨u, hu⟩
    refine ⟨(List.getElem?_eq_some_iff.1 h1).1, ?_⟩
    simp only at h1 h2
    rw [h1]
    exact h2
  · rintro ⟨h1, h2⟩
    have h3 := List.getElem?_eq_getElem h1
    rw [h3] at h2
    obtain ⟨⟨u', hu'⟩, e1, e2⟩ := c2 u.1 _ h3 u.2 h2
    have : u' = u := by
      obtain ⟨i, p⟩ := u
      obtain ⟨i', p'⟩ := u'
      simp only at e1 e2
      subst e1 e2
      rfl
    rw [← this]; exact hu'

theorem SPD_transfer {ι κ : Type} [Fintype ι] [Fintype κ] [Field V] [LinearOrder V] (e : ι ≃ κ) (M : _root_.Matrix ι ι V)
    (N : _root_.Matrix κ κ V) (h : ∀ i j, M i j = N (e i) (e j)) (hN : SPD N) : SPD M := by
  refine ⟨?_, fun x hx => ?_⟩
  · funext i j
    show M j i = M i j
    rw [h, h]
    exact congrFun (congrFun hN.1 (e i)) (e j)
  · have h1 : x ⬝ᵥ M *ᵥ x = (fun k => x (e.symm k)) ⬝ᵥ N *ᵥ (fun k => x (e.symm k)) := by
      show ∑ i, x i * ∑ j, M i j * x j = ∑ k, x (e.symm k) * ∑ l, N k l * x (e.symm l)
      rw [← e.sum_comp]
      refine Finset.sum_congr rfl fun i _ => ?_
      rw [← e.sum_comp]
      simp only [Equiv.symm_apply_apply, h]
    rw [h1]
    apply hN.2
    intro h0
    apply hx
    funext i
    have := congrFun h0 (e i)
    simpa using this

/-- The contents of a list of vectors, one per block. -/
def clientVec [Zero V] (vs : List Vec) (s : Cell P → V) (u : Σ _ : Nat, P) : V := (vs[u.1]?).elim 0 fun v => s (.elem v.data u.2)

/-- The planner of a client's system: its unknowns, operator and vectors are those the calls describe. -/
theorem client_view [Field V] (h : ClientSystem G calls base) (nw : Nat) :
    ∃ pl pl', Planner.empty.setupAll G calls = some pl ∧ SolverSetup G pl pl' base nw ∧
      ∃ e : pl'.U G ≃ clientUnknowns G calls, (∀ u u', pl'.operator G u u' = clientCoef calls (e u).1 (e u').1) ∧
        ∀ k, k < 2 → ∀ (s : Cell P → V) u, pl'.content G s k u = clientVec (given calls k) s (e u).1 := by
  obtain ⟨pl, pl', hpl, S, hc⟩ := h.complete nw
  have hu := unknowns_eq hc
  refine ⟨pl, pl', hpl, S, Equiv.subtypeEquivRight fun u => by rw [hu], fun u u' => ?_, fun k hk s u => ?_⟩
  · unfold Planner.operator clientCoef
    have hm := (c31_consistent G _ hc.constructed pl' hc.accepted).2.2.2.2.2.2.2.1
    rw [mats_alloc] at hm
    rw [← hm, List.map_map]
    rfl
  · obtain ⟨v, h1, -, h3⟩ := (c33_client_vectors hc k hk).1 u
    rw [given_alloc] at h1
    rw [h3]
    show _ = clientVec (given calls k) s u.1
    unfold clientVec
    rw [h1]
    rfl

theorem clientVec_zero [Field V] {s : Cell P → V} (hx0 : ∀ v ∈ sols calls, ∀ p ∈ G.points v.space, s (.elem v.data p) = 0)
    (u : clientUnknowns G calls) : clientVec (given calls 0) s u.1 = 0 := by
  obtain ⟨⟨i, p⟩, hu⟩ := u
  unfold clientUnknowns at hu
  rw [Finset.mem_sigma, Finset.mem_range, List.mem_toFinset] at hu
  obtain ⟨h1, h2⟩ := hu
  have h3 := List.getElem?_eq_getElem h1
  rw [h3] at h2
  show ((sols calls)[i]?).elim 0 _ = _
  rw [h3]
  exact hx0 _ (List.mem_of_getElem? h3) _ h2

/-- Transport of products along a bijection of the unknowns. -/
theorem transport [Field V] {ι κ : Type} [Fintype ι] [Fintype κ] (e : ι ≃ κ) (M : _root_.Matrix ι ι V) (N : _root_.Matrix κ κ V)
    (h : ∀ i j, M i j = N (e i) (e j)) : (∀ v w : κ → V, (v ∘ e) ⬝ᵥ (w ∘ e) = v ⬝ᵥ w) ∧
      (∀ v : κ → V, M *ᵥ (v ∘ e) = (N *ᵥ v) ∘ e) ∧ ∀ v : κ → V, energy M (v ∘ e) = energy N v := by
  have hdot : ∀ v w : κ → V, (v ∘ e) ⬝ᵥ (w ∘ e) = v ⬝ᵥ w := fun v w => by
    show ∑ i, v (e i) * w (e i) = _
    rw [e.sum_comp fun i => v i * w i]
    rfl
  have hmv : ∀ v : κ → V, M *ᵥ (v ∘ e) = (N *ᵥ v) ∘ e := fun v => by
    funext i
    show ∑ j, M i j * v (e j) = ∑ j, N (e i) j * v j
    rw [← e.sum_comp fun j => N (e i) j * v j]
    exact Finset.sum_congr rfl fun j _ => by rw [h]
  refine ⟨hdot, hmv, fun v => ?_⟩
  unfold energy
  rw [hmv, hdot]

/-- **C35** in terms of the calls: if the coefficients of the system described by the calls are symmetric positive definite and the
solution vectors are zero, CG solves every row of every block after at most as many steps as there are unknowns; the recorded values
are zero exactly at the end. -/
theorem c35_client [Field V] [LinearOrder V] [IsStrictOrderedRing V] {A : Arith V} (hA : A.Exact) (h : ClientSystem G calls base)
    (hspd : SPD (fun u u' : clientUnknowns G calls => clientCoef calls u.1 u'.1)) (n : Nat) (s : Cell P → V)
    (hx0 : ∀ v ∈ sols calls, ∀ p ∈ G.points v.space, s (.elem v.data p) = 0) :
    ∃ pl, Planner.empty.setupAll G calls = some pl ∧
      ∃ k, k ≤ (clientUnknowns G calls).card ∧ Ensures (cg A G pl base k) n s fun c s' =>
        (∀ (i : Nat) v, (rhss calls)[i]? = some v → ∀ p ∈ G.points v.space, clientRow G calls 0 s' i p = s (.elem v.data p)) ∧
        c.history.length = k + 1 ∧ ∀ (i : Nat) a, c.history[i]? = some a → (s' (.fut a.fut) = 0 ↔ i = k) := by
  obtain ⟨pl, pl', hpl, S, hc⟩ := h.complete 3
  refine ⟨pl, hpl, ?_⟩
  have hu := unknowns_eq hc
  let e : pl'.U G ≃ clientUnknowns G calls := Equiv.subtypeEquivRight fun u => by rw [hu]
  have he : ∀ u : pl'.U G, (e u).1 = u.1 := fun u => rfl
  have hop : ∀ u u', pl'.operator G u u' = clientCoef calls (e u).1 (e u').1 := by
    intro u u'
    unfold Planner.operator clientCoef
    have hm := (c31_consistent G _ hc.constructed pl' hc.accepted).2.2.2.2.2.2.2.1
    rw [mats_alloc] at hm
    rw [← hm, List.map_map]
    rfl
  have hspd' : SPD (pl'.operator G) := SPD_transfer e _ _ hop hspd
  obtain ⟨k, hk, a, n', ts, q1, q2, q3⟩ := c35_solves hA S hspd' n s (by
    funext u
    obtain ⟨v, h1, h2, h3⟩ := (c33_client_vectors hc 0 (by omega)).1 u
    rw [given_alloc] at h1
    rw [h3]
    exact hx0 v (List.mem_of_getElem? h1) _ h2)
  refine ⟨k, ?_, a, n', ts, q1, q2, fun M' h5 h6 => ?_⟩
  · rw [Fintype.card_congr e, Fintype.card_coe] at hk
    exact hk
  · obtain ⟨h7, h8⟩ := q3 M' h5 h6
    refine ⟨fun i v hv p hp => ?_, h8⟩
    obtain ⟨c1, c2⟩ := c33_client_vectors hc 1 (by omega)
    rw [given_alloc] at c1 c2
    obtain ⟨u, rfl, rfl⟩ := c2 i v hv p hp
    obtain ⟨v', e1, -, e2⟩ := c1 u
    have hg : given calls 1 = rhss calls := rfl
    rw [hg, hv] at e1
    cases e1
    rw [← e2 s, ← congrFun h7 u, hc.operator_row 0 (by omega) M'.store u, clientRow_alloc]

end Verif.Solver
