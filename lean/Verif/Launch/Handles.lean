import Verif.Launch.Props
import Verif.Solver.ClientExamples

/-! # C54: partitions are applied to the regions they partition -/
set_option linter.dupNamespace false
set_option linter.unusedSectionVars false
namespace Verif.Launch
open Verif.Runtime Verif.Vector Verif.Matrix Verif.Planner Verif.Solver

variable {K P V : Type} [DecidableEq P] [DecidableEq K]
variable {G : Geometry P} {calls : List (Setup K P V)} {pl : Planner K P V} {b nw : Nat}

theorem Complete.inv (h : Complete G calls pl b nw) : Inv G calls pl := by
  obtain ⟨h1, h2⟩ := Inv.run (G := G) calls [] Planner.empty (Inv.empty G) h.constructed
  have hall := (c31_accepts_exactly G calls h.constructed).1 ⟨pl, h.accepted⟩
  obtain ⟨pl', e, I⟩ := h1 (fun a c b he => by simpa using hall a c b he)
  rw [h.accepted] at e
  cases e
  rwa [List.nil_append] at I

/-- All handles of a block agree: its space is what its partition partitions. -/
theorem Complete.block (h : Complete G calls pl b nw) {k i : Nat} (hk : k < nw + 2) (hi : i < pl.spaces.length) :
    (pl.vec k i).space = pl.spaces.getD i 0 ∧ (pl.vec k i).part = pl.parts.getD i 0 ∧
      (pl.vec k i).colors = G.colorSpace (pl.parts.getD i 0) ∧ G.parent (pl.parts.getD i 0) = pl.spaces.getD i 0 := by
  obtain ⟨v, h1, h2, h3, h4⟩ := h.ready.blocks k i hk hi
  have I := Complete.inv h
  have hp : pl.parts[i]? = some (pl.parts.getD i 0) := by
    have : i < pl.parts.length := by have := I.nspaces; have := I.nparts; omega
    rw [List.getD_eq_getElem?_getD, List.getElem?_eq_getElem this]
    rfl
  have hs := (I.parts i _ hp).2.2
  unfold Planner.vec
  rw [h1]
  exact ⟨h2, h3, h4, (getD_of_some hs).symm⟩

/-- A planner call on existing vectors. -/
def InRange (top : Nat) : Call → Prop
  | .zeroFill d => d < top
  | .copy d x => d < top ∧ x < top
  | .scal d => d < top
  | .axpy d x => d < top ∧ x < top
  | .xpay d x => d < top ∧ x < top
  | .dot v w => v < top ∧ w < top
  | .matvec d x => d < top ∧ x < top

/-- The product of the `i`-th registered matrix is well formed exactly when it is not a CSR matrix, or its row pointers live on the
very index space (the handle, not an equal one) of the destination block. -/
theorem registered_wellFormed (h : Complete G calls pl b nw) (g : Handles) {r : Registered K P V} (hr : r ∈ pl.ops) {d x : Nat}
    (hd : d < nw + 2) (hx : x < nw + 2) :
    (registeredLaunch G pl g r d x).WellFormed ↔ ∀ m, r.matrix = .csr m → g.rowSpace = pl.spaces.getD r.rng 0 := by
  obtain ⟨h1, h2, -⟩ := h.ready.ops r hr
  obtain ⟨a1, a2, a3, a4⟩ := Complete.block h hd h2
  obtain ⟨b1, -, -, -⟩ := Complete.block h hx h1
  have e1 : (pl.lookup d r.rng).getD ⟨0, 0, 0, 0⟩ = pl.vec d r.rng := rfl
  have e2 : (pl.lookup x r.dom).getD ⟨0, 0, 0, 0⟩ = pl.vec x r.dom := rfl
  unfold registeredLaunch
  simp only [e1, e2]
  cases hm : r.matrix with
  | coo m =>
    refine ⟨fun _ m' hm' => (by cases hm'), fun _ q hq => ?_⟩
    simp only [opLaunch, cooLaunch, over, List.mem_cons, List.not_mem_nil, or_false] at hq
    rcases hq with rfl | rfl | rfl
    · exact ⟨by rw [requirement, vectorPart, a2, a4, a1], by simp [requirement, vectorPart, opLaunch, cooLaunch, over, a2, a3]⟩
    · exact ⟨rfl, by simp [kernelPart, opLaunch, cooLaunch, over, a3]⟩
    · exact ⟨by simp [ghostPart, b1], by simp [ghostPart, kernelPart, opLaunch, cooLaunch, over, a3]⟩
  | csr m =>
    constructor
    · intro hw m' _
      have := (hw _ (List.mem_cons_of_mem _ (List.mem_cons_of_mem _ (List.mem_cons_self ..)))).1
      simp only [vectorPart, a2, a4] at this
      exact this.symm
    · intro hrow q hq
      have hrow := hrow m rfl
      simp only [opLaunch, csrLaunch, over, List.mem_cons, List.not_mem_nil, or_false] at hq
      rcases hq with rfl | rfl | rfl | rfl
      · exact ⟨by rw [requirement, vectorPart, a2, a4, a1], by simp [requirement, vectorPart, opLaunch, csrLaunch, over, a2, a3]⟩
      · exact ⟨rfl, by simp [kernelPart, opLaunch, csrLaunch, over, a3]⟩
      · exact ⟨by rw [vectorPart, a2, a4, hrow], by simp [vectorPart, opLaunch, csrLaunch, over, a2, a3]⟩
      · exact ⟨by simp [ghostPart, b1], by simp [ghostPart, kernelPart, opLaunch, csrLaunch, over, a3]⟩

theorem vec_wellFormed (h : Complete G calls pl b nw) {k k' i : Nat} (hk : k < nw + 2) (hk' : k' < nw + 2) (hi : i < pl.spaces.length)
    (p : Priv) : (requirement G p (pl.vec k' i) : Requirement (K ⊕ P)).part.parent = (requirement G p (pl.vec k' i) : Requirement (K ⊕ P)).space ∧
      (requirement G p (pl.vec k' i) : Requirement (K ⊕ P)).part.colors = (pl.vec k i).colors := by
  obtain ⟨a1, a2, a3, a4⟩ := Complete.block h hk hi
  obtain ⟨b1, b2, b3, b4⟩ := Complete.block h hk' hi
  exact ⟨by rw [requirement, vectorPart, b2, b4, b1], by rw [requirement, vectorPart, b2, a3]⟩

theorem fill_wellFormed (h : Complete G calls pl b nw) {d : Nat} (hd : d < nw + 2) :
    ∀ L ∈ ((pl.blocksOf d).getD []).map (fillLaunch G), (L : IndexLaunch (K ⊕ P)).WellFormed := by
  intro L hL
  obtain ⟨v, hv, rfl⟩ := List.mem_map.1 hL
  obtain ⟨i, hi, e⟩ := blocksOf_lookup h.ready hv
  have : v = pl.vec d i := by unfold Planner.vec; rw [e]; rfl
  intro q hq
  simp only [fillLaunch, over, List.mem_cons, List.not_mem_nil, or_false] at hq
  subst hq
  rw [this]
  exact vec_wellFormed h hd hd hi _

/-- **C54**: for every accepted complete set-up, every planner operation on existing vectors hands Legion only partitions of the
region's own index space, coloured by the launch space, exactly when (for products) every registered CSR matrix has its row pointers
on the index space of the solution vector at its range index.  The planner does not check this. -/
theorem c54_calls_partial (h : Complete G calls pl b nw) (H : Nat → Handles) (c : Call) (hc : InRange (nw + 2) c) :
    (∀ L ∈ launches G pl H c, L.WellFormed) ↔
      ∀ d x, c = .matvec d x → ∀ (i : Nat) m dom rng, (mats calls)[i]? = some (.csr m, dom, rng) →
        ∀ v, (sols calls)[rng]? = some v → (H i).rowSpace = v.space := by
  have hblock : ∀ (f : Nat → IndexLaunch (K ⊕ P)) , (∀ i, i < pl.spaces.length → (f i).WellFormed) → ∀ L ∈ perBlock pl f, L.WellFormed := by
    intro f hf L hL
    obtain ⟨i, hi, rfl⟩ := List.mem_map.1 hL
    exact hf i (List.mem_range.1 hi)
  have htwo : ∀ d x, d < nw + 2 → x < nw + 2 → ∀ i, i < pl.spaces.length → ∀ p p',
      (over G (pl.vec d i) [requirement G p (pl.vec d i), requirement G p' (pl.vec x i)] : IndexLaunch (K ⊕ P)).WellFormed := by
    intro d x hd hx i hi p p' q hq
    simp only [over, List.mem_cons, List.not_mem_nil, or_false] at hq
    rcases hq with rfl | rfl
    · exact vec_wellFormed h hd hd hi _
    · exact vec_wellFormed h hd hx hi _
  cases c with
  | zeroFill d => exact ⟨fun _ d' x' e => (by cases e), fun _ => fill_wellFormed h hc⟩
  | copy d x =>
    refine ⟨fun _ d' x' e => (by cases e), fun _ => hblock _ fun i hi q hq => htwo d x hc.1 hc.2 i hi .writeDiscard .readOnly q ?_⟩
    simp only [copyLaunch, over, List.mem_cons, List.not_mem_nil, or_false] at hq ⊢
    exact hq.symm
  | scal d =>
    refine ⟨fun _ d' x' e => (by cases e), fun _ => hblock _ fun i hi q hq => ?_⟩
    simp only [scalLaunch, over, List.mem_cons, List.not_mem_nil, or_false] at hq
    subst hq
    exact vec_wellFormed h hc hc hi _
  | axpy d x => exact ⟨fun _ d' x' e => (by cases e), fun _ => hblock _ fun i hi => htwo d x hc.1 hc.2 i hi _ _⟩
  | xpay d x => exact ⟨fun _ d' x' e => (by cases e), fun _ => hblock _ fun i hi => htwo d x hc.1 hc.2 i hi _ _⟩
  | dot v w => exact ⟨fun _ d' x' e => (by cases e), fun _ => hblock _ fun i hi => htwo v w hc.1 hc.2 i hi _ _⟩
  | matvec d x =>
    have hops := (c31_consistent G calls h.constructed pl h.accepted).2.2.2.2.2.2.2.1
    have hspace : ∀ (i : Nat) v, (sols calls)[i]? = some v → pl.spaces.getD i 0 = v.space :=
      fun i v hv => getD_of_some ((Complete.inv h).solAt i v hv).1
    constructor
    · intro hw d' x' e i m dom rng hm v hv
      cases e
      rw [← hops, List.getElem?_map, Option.map_eq_some_iff] at hm
      obtain ⟨r, hr, e⟩ := hm
      have hmem : registeredLaunch G pl (H i) r d x ∈ launches G pl H (.matvec d x) := by
        refine List.mem_append_right _ (List.mem_of_getElem? (i := i) ?_)
        rw [List.getElem?_mapIdx, hr]
        rfl
      simp only [Prod.mk.injEq] at e
      have := (registered_wellFormed h (H i) (List.mem_of_getElem? hr) hc.1 hc.2).1 (hw _ hmem) m e.1
      rw [this, e.2.2, hspace rng v hv]
    · intro hrow L hL
      rcases List.mem_append.1 hL with hL | hL
      · exact fill_wellFormed h hc.1 L hL
      · obtain ⟨i, hi, e⟩ := List.getElem_of_mem hL
        rw [List.getElem_mapIdx] at e
        subst e
        have hi' : i < pl.ops.length := by simpa using hi
        rw [registered_wellFormed h (H i) (List.getElem_mem hi') hc.1 hc.2]
        intro m hm
        have hm' : (mats calls)[i]? = some (.csr m, pl.ops[i].dom, pl.ops[i].rng) := by
          rw [← hops, List.getElem?_map, List.getElem?_eq_getElem hi', Option.map_some, hm]
        have hlt : pl.ops[i].rng < (sols calls).length := by
          have := ((Complete.inv h).opsAt _ (List.getElem_mem hi')).2.1
          omega
        rw [hrow d x rfl i m _ _ hm' _ (List.getElem?_eq_getElem hlt)]
        exact (hspace _ _ (List.getElem?_eq_getElem hlt)).symm

/-- The same condition decides whether registering a matrix forms only partitions of the regions they are applied to. -/
theorem c54_registration_partial (g : Handles) (rangePart : Nat) (m : Op K P V) (kernel : List (List K)) :
    (∀ q ∈ registrationPartitions G g rangePart m kernel, q.2.parent = q.1) ↔ ∀ m', m = .csr m' → g.rowSpace = G.parent rangePart := by
  cases m with
  | coo m => simp [registrationPartitions, kernelPart]
  | csr m =>
    simp only [registrationPartitions, List.mem_append, List.mem_cons, List.not_mem_nil, or_false]
    constructor
    · exact fun hq m' _ => (hq _ (.inl rfl)).symm
    · rintro hm q (rfl | rfl)
      · exact (hm m rfl).symm
      · rfl

/-- COO matrices, any number of them in any blocks: always well formed. -/
theorem c54_coo (h : Complete G calls pl b nw) (hcoo : ∀ t ∈ mats calls, ∃ m, t.1 = .coo m) (H : Nat → Handles) (c : Call)
    (hc : InRange (nw + 2) c) : ∀ L ∈ launches G pl H c, L.WellFormed := by
  rw [c54_calls_partial h H c hc]
  intro d x _ i m dom rng hm
  obtain ⟨m', e⟩ := hcoo _ (List.mem_of_getElem? hm)
  cases e

/-- Two CSR matrices in the same row block with row pointers on different index spaces: whatever the vectors, some launch of the
product is malformed. -/
theorem c54_two_csr (h : Complete G calls pl b nw) (H : Nat → Handles) {d x : Nat} (hd : d < nw + 2) (hx : x < nw + 2) {i j : Nat}
    {m m' : CSR K P V} {dom dom' rng : Nat} (hi : (mats calls)[i]? = some (.csr m, dom, rng))
    (hj : (mats calls)[j]? = some (.csr m', dom', rng)) (hne : (H i).rowSpace ≠ (H j).rowSpace) :
    ∃ L ∈ launches G pl H (.matvec d x), ¬ L.WellFormed := by
  by_contra hc
  have hw : ∀ L ∈ launches G pl H (.matvec d x), L.WellFormed := by
    intro L hL
    by_contra hL'
    exact hc ⟨L, hL, hL'⟩
  have key := (c54_calls_partial h H (.matvec d x) ⟨hd, hx⟩).1 hw d x rfl
  have hops := (c31_consistent G calls h.constructed pl h.accepted).2.2.2.2.2.2.2.1
  have hlt : rng < (sols calls).length := by
    have hi' := hi
    rw [← hops, List.getElem?_map, Option.map_eq_some_iff] at hi'
    obtain ⟨r, hr, e⟩ := hi'
    simp only [Prod.mk.injEq] at e
    have := ((Complete.inv h).opsAt _ (List.mem_of_getElem? hr)).2.1
    omega
  have h1 := key i m dom rng hi _ (List.getElem?_eq_getElem hlt)
  have h2 := key j m' dom' rng hj _ (List.getElem?_eq_getElem hlt)
  exact hne (h1.trans h2.symm)

/-- **C54** for the launches that fill a matrix: every requirement's partition is a partition of the region's own index space, with
the launch space as colour space; and together the launches of a builder write exactly the matrix's own fields, discarding what
was there. -/
theorem c54_fill (colors n : Nat) (h : Handles) (pieces rowPieces : List (List X)) :
    (∀ L ∈ cooFill X colors n h pieces ++ csrFill X colors n h pieces rowPieces ++ csrLaplacianFill X colors n h pieces rowPieces,
      L.WellFormed ∧ L.domain = colors ∧ L.size = n ∧ ∀ r ∈ L.reqs, r.priv = .writeDiscard ∧
        (r.field = .kernel h.id ∧ r.space = h.kernelSpace ∧ r.part.pieces = pieces ∨
         r.field = .rowptr h.id ∧ r.space = h.rowSpace ∧ r.part.pieces = rowPieces)) ∧
    ((cooFill X colors n h pieces).flatMap fun L => L.reqs.map (·.field)) = [.kernel h.id] ∧
    ((csrFill X colors n h pieces rowPieces).flatMap fun L => L.reqs.map (·.field)) = [.kernel h.id, .rowptr h.id] ∧
    ((csrLaplacianFill X colors n h pieces rowPieces).flatMap fun L => L.reqs.map (·.field)) = [.kernel h.id, .rowptr h.id] := by
  refine ⟨?_, rfl, rfl, rfl⟩
  intro L hL
  simp only [cooFill, csrFill, csrLaplacianFill, List.mem_append, List.mem_cons, List.not_mem_nil, or_false] at hL
  rcases hL with ((rfl | rfl) | rfl | rfl) <;>
    simp [IndexLaunch.WellFormed]

/-- The builders give every matrix spaces of its own. -/
theorem c54_builders_own_spaces (n n' : Nat) (h : (newHandles n).2 ≤ n') :
    (newHandles n).1.rowSpace ≠ (newHandles n').1.rowSpace ∧ (newHandles n).1.kernelSpace ≠ (newHandles n').1.kernelSpace := by
  simp only [newHandles] at h ⊢
  omega

/-- A block with two CSR matrices. -/
def twoCSR : List (Setup Nat Nat ℚ) :=
  [.addSol ⟨0, 0, 0, 0⟩, .addRhs ⟨2, 0, 0, 0⟩,
   .addMatrix (.csr ⟨[0, 1], [0, 1], fun p k => decide (p = k), id, fun _ => 2⟩) 0 0,
   .addMatrix (.csr ⟨[0, 1], [0, 1], fun p k => decide (p = k), id, fun _ => 1⟩) 0 0]

theorem twoCSR_system : ClientSystem Verif.Solver.exG twoCSR 10 where
  valid := fun part p => by simp [Verif.Solver.exG]
  order := fun f l => List.reverse_perm l
  constructed := by
    intro c hc
    simp only [twoCSR, List.mem_cons, List.not_mem_nil, or_false] at hc
    rcases hc with rfl | rfl | rfl | rfl
    all_goals first | rfl | trivial
  legal := by
    have hc : ∀ c ∈ twoCSR, c.Constructed Verif.Solver.exG := by
      intro c hc
      simp only [twoCSR, List.mem_cons, List.not_mem_nil, or_false] at hc
      rcases hc with rfl | rfl | rfl | rfl
      all_goals first | rfl | trivial
    exact (c31_accepts_exactly Verif.Solver.exG twoCSR hc).1 ⟨_, rfl⟩
  noWorkspace := rfl
  lengths := rfl
  nonempty := Nat.succ_pos _
  data := by decide
  fresh := by decide
  fits := by
    intro m d r hm vd vr h1 h2
    simp [mats, twoCSR] at hm
    rcases hm with ⟨rfl, rfl, rfl⟩ | ⟨rfl, rfl, rfl⟩
    all_goals
      refine ⟨(by decide : ∀ k ∈ [0, 1], id k ∈ [0, 1]), fun p => Iff.rfl, ?_⟩
      intro k _ p q _ _ h3 h4
      simp at h3 h4
      omega

/-- Violation: the library's assertions accept two CSR matrices in one row block, and the system is otherwise complete; but if both
come from the library's builders, every product, with whatever vectors, contains a malformed launch. -/
theorem c54_violated : ∃ pl : Planner Nat Nat ℚ, Planner.empty.setupAll Verif.Solver.exG (twoCSR ++ [.allocate 10 3]) = some pl ∧
    ∀ n n', (newHandles n).2 ≤ n' → ∀ d x, d < 5 → x < 5 →
      ∃ L ∈ launches Verif.Solver.exG pl (fun i => if i = 0 then (newHandles n).1 else (newHandles n').1) (.matvec d x), ¬ L.WellFormed := by
  obtain ⟨pl, pl', -, -, hc⟩ := twoCSR_system.complete 3
  refine ⟨pl', hc.accepted, fun n n' hn d x hd hx => ?_⟩
  exact c54_two_csr hc _ hd hx (i := 0) (j := 1) rfl rfl (c54_builders_own_spaces n n' hn).1

/-- The hypotheses of C53 and C54 hold for the two-block system of `twoSystem` (CSR and COO matrices, couplings). -/
example : ∃ pl pl' : Planner Nat Nat ℚ, SolverSetup Verif.Solver.exG pl pl' 10 3 ∧ Complete Verif.Solver.exG (twoCalls ++ [.allocate 10 3]) pl' 10 3 ∧
    (∀ H, LawfulRun (cg (exactArith ℚ qsqrt) Verif.Solver.exG pl 10 7) ((CG.solve recordOps 7 []).2.flatMap (launches Verif.Solver.exG pl' H))) ∧
    ∀ H : Nat → Handles, (H 0).rowSpace = 0 → ∀ L ∈ launches Verif.Solver.exG pl' H (.matvec 3 2), L.WellFormed := by
  obtain ⟨pl, pl', -, S, hc⟩ := twoSystem.complete 3
  refine ⟨pl, pl', S, hc, fun H => c53_cg _ H S 7, fun H h0 => ?_⟩
  rw [c54_calls_partial hc H (.matvec 3 2) ⟨by decide, by decide⟩]
  intro d x _ i m dom rng hm v hv
  rw [sols_alloc] at hv
  rw [mats_alloc] at hm
  have hi : i < 4 := (List.getElem?_eq_some_iff.1 hm).1
  have : i = 0 ∨ i = 1 ∨ i = 2 ∨ i = 3 := by omega
  rcases this with rfl | rfl | rfl | rfl
  · have hr : rng = 0 := by
      have := Option.some.inj hm
      exact ((Prod.mk.inj (Prod.mk.inj this).2).2).symm
    subst hr
    have : v = ⟨0, 0, 0, 0⟩ := (Option.some.inj hv).symm
    rw [this, h0]
  all_goals
    have := (Prod.mk.inj (Option.some.inj hm)).1
    cases this

end Verif.Launch
