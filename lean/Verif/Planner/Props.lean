import Verif.Planner.DotMatvec
import Verif.Planner.Setup
import Mathlib.Algebra.Field.Rat

/-! # C31–C33: the planner -/
set_option linter.dupNamespace false
set_option linter.unusedSectionVars false
namespace Verif.Planner
open Verif.Runtime Verif.Vector Verif.Matrix
variable {K P V : Type} [DecidableEq P] [DecidableEq K]

/-! ## C31 -/

/-- A sequence of set-up calls is accepted exactly if every call was legal when it was made; otherwise an assertion fails. -/
theorem c31_accepts_exactly (G : Geometry P) (calls : List (Setup K P V)) (hc : ∀ c ∈ calls, c.Constructed G) :
    (∃ pl, Planner.empty.setupAll G calls = some pl) ↔ ∀ before c after, calls = before ++ c :: after → Allowed before c := by
  obtain ⟨h1, h2⟩ := Inv.run (G := G) calls [] Planner.empty (Inv.empty G) hc
  constructor
  · rintro ⟨pl, hpl⟩ a c b he
    by_contra hna
    rw [h2 ⟨a, c, b, he, by simpa using hna⟩] at hpl
    cases hpl
  · intro hall
    obtain ⟨pl, e, -⟩ := h1 (fun a c b he => by simpa using hall a c b he)
    exact ⟨pl, e⟩

/-- An accepted set-up leaves a consistent planner: it holds exactly the vectors that were added; vectors at the same
position share index space and partition; every partition is complete and disjoint; at most one workspace was made, with the
requested number of vectors, each with one block per position on the canonical space and partition; every registered matrix
refers to existing positions and has the partitions derived from them. -/
theorem c31_consistent (G : Geometry P) (calls : List (Setup K P V)) (hc : ∀ c ∈ calls, c.Constructed G) (pl : Planner K P V)
    (hpl : Planner.empty.setupAll G calls = some pl) :
    pl.sol = sols calls ∧ pl.rhs = rhss calls ∧
    (∀ (i : Nat) v w, pl.sol[i]? = some v → pl.rhs[i]? = some w → v.space = w.space ∧ v.part = w.part) ∧
    (∀ v ∈ pl.sol ++ pl.rhs, G.complete v.part = true ∧ G.disjoint v.part = true) ∧
    (allocs calls).length ≤ 1 ∧
    (∀ b n, (b, n) ∈ allocs calls → pl.workspace.length = n ∧ ∀ w ∈ pl.workspace,
      w.length = max pl.sol.length pl.rhs.length ∧
      ∀ (i : Nat) v x, w[i]? = some x → pl.sol[i]? = some v ∨ pl.rhs[i]? = some v → x.space = v.space ∧ x.part = v.part) ∧
    (allocs calls = [] → pl.workspace = []) ∧
    pl.ops.map (fun r => (r.matrix, r.dom, r.rng)) = mats calls ∧
    ∀ r ∈ pl.ops, r.dom < pl.sol.length ∧ r.rng < pl.sol.length ∧ r.dom < pl.rhs.length ∧ r.rng < pl.rhs.length := by
  obtain ⟨h1, h2⟩ := Inv.run (G := G) calls [] Planner.empty (Inv.empty G) hc
  have hall := (c31_accepts_exactly G calls hc).1 ⟨pl, hpl⟩
  obtain ⟨pl', e, I⟩ := h1 (fun a c b he => by simpa using hall a c b he)
  rw [hpl] at e
  cases e
  rw [List.nil_append] at I
  have hsolparts : ∀ v ∈ pl.sol ++ pl.rhs, ∃ i : Nat, pl.parts[i]? = some v.part := by
    intro v hv
    rcases List.mem_append.1 hv with hv | hv
    · rw [I.sol] at hv
      obtain ⟨i, hi, e⟩ := List.getElem_of_mem hv
      exact ⟨i, (I.solAt i v (by rw [List.getElem?_eq_getElem hi, e])).2⟩
    · rw [I.rhs] at hv
      obtain ⟨i, hi, e⟩ := List.getElem_of_mem hv
      exact ⟨i, (I.rhsAt i v (by rw [List.getElem?_eq_getElem hi, e])).2⟩
  refine ⟨I.sol, I.rhs, ?_, ?_, ?_, ?_, fun h => (I.fresh h).2.2.2, I.ops, ?_⟩
  · intro i v w hv hw
    rw [I.sol] at hv
    rw [I.rhs] at hw
    obtain ⟨a, b⟩ := I.solAt i v hv
    obtain ⟨c, d⟩ := I.rhsAt i w hw
    rw [a] at c
    rw [b] at d
    exact ⟨Option.some.inj c, Option.some.inj d⟩
  · intro v hv
    obtain ⟨i, hi⟩ := hsolparts v hv
    obtain ⟨a, b, -⟩ := I.parts i _ hi
    exact ⟨a, b⟩
  · by_cases hw : allocs calls = []
    · rw [hw]; simp
    · obtain ⟨b, n, e, -⟩ := I.alloc hw
      rw [e]; simp
  · intro b n hbn
    obtain ⟨b', n', e, -, -, -, hws⟩ := I.alloc (fun h => by rw [h] at hbn; cases hbn)
    rw [e, List.mem_singleton] at hbn
    cases hbn
    rw [hws]
    refine ⟨by simp [workspaceOf], ?_⟩
    intro w hw
    obtain ⟨j, -, rfl⟩ := List.mem_map.1 hw
    refine ⟨by rw [List.length_map, List.length_range, I.nparts, I.sol, I.rhs], ?_⟩
    intro i v x hx hv
    obtain ⟨a, c⟩ : pl.spaces[i]? = some v.space ∧ pl.parts[i]? = some v.part := by
      rcases hv with hv | hv
      · rw [I.sol] at hv; exact I.solAt i v hv
      · rw [I.rhs] at hv; exact I.rhsAt i v hv
    have hlt : i < pl.parts.length := (List.getElem?_eq_some_iff.1 c).1
    rw [List.getElem?_map, List.getElem?_range hlt] at hx
    have hx' := Option.some.inj hx
    rw [← hx']
    beta_reduce
    rw [getD_of_some c]
    refine ⟨?_, rfl⟩
    have := (I.parts i _ c).2.2
    rw [a] at this
    exact (Option.some.inj this).symm
  · intro r hr
    obtain ⟨a, b, -⟩ := I.opsAt r hr
    rw [I.sol, I.rhs]
    omega

/-- Once the workspace exists, no vector and no second workspace can be added. -/
theorem c31_closed_after_workspace (G : Geometry P) (calls : List (Setup K P V)) (hc : ∀ c ∈ calls, c.Constructed G)
    (pl : Planner K P V) (hpl : Planner.empty.setupAll G calls = some pl) (hw : allocs calls ≠ []) (v : Vec)
    (hv : newVector G v.part v.data = some v) (b n : Nat) :
    pl.addSol G v = none ∧ pl.addRhs G v = none ∧ pl.allocateWorkspace G b n = none := by
  obtain ⟨h1, h2⟩ := Inv.run (G := G) calls [] Planner.empty (Inv.empty G) hc
  have hall := (c31_accepts_exactly G calls hc).1 ⟨pl, hpl⟩
  obtain ⟨pl', e, I⟩ := h1 (fun a c b he => by simpa using hall a c b he)
  rw [hpl] at e
  cases e
  rw [List.nil_append] at I
  exact ⟨(I.addSol v hv).2 (fun h => hw h.1), (I.addRhs v hv).2 (fun h => hw h.1), (I.allocate b n).2 (fun h => hw h)⟩

theorem data_lt {b n i j i' j' : Nat} (hj : j < n) (hj' : j' < n) (h : b + i * n + j = b + i' * n + j') : i = i' ∧ j = j' := by
  have h1 : i * n + j = i' * n + j' := by omega
  have hn : 0 < n := by omega
  have h2 : (i * n + j) / n = i := by
    rw [Nat.mul_comm, Nat.mul_add_div hn, Nat.div_eq_of_lt hj, Nat.add_zero]
  have h3 : (i' * n + j') / n = i' := by
    rw [Nat.mul_comm, Nat.mul_add_div hn, Nat.div_eq_of_lt hj', Nat.add_zero]
  have : i = i' := by rw [← h2, ← h3, h1]
  subst this
  exact ⟨rfl, by omega⟩

/-- A complete set-up (as many right-hand-side as solution vectors, a workspace, vectors not sharing data, matrices between
the right spaces) makes the planner ready for the operations below: their hypothesis `Ready` is what set-up produces. -/
theorem c31_ready (G : Geometry P) (hG : G.Valid) (calls : List (Setup K P V)) (hc : ∀ c ∈ calls, c.Constructed G)
    (pl : Planner K P V) (hpl : Planner.empty.setupAll G calls = some pl) (b n : Nat) (hw : (b, n) ∈ allocs calls)
    (hlen : (sols calls).length = (rhss calls).length)
    (hdata : ((sols calls ++ rhss calls).map Vec.data).Nodup) (hfresh : ∀ v ∈ sols calls ++ rhss calls, v.data < b)
    (hfit : ∀ m d r, (m, d, r) ∈ mats calls → ∀ vd vr, (sols calls)[d]? = some vd → (sols calls)[r]? = some vr →
      m.Fits (G.points vr.space) (G.points vd.space)) : Ready G pl n := by
  obtain ⟨h1, h2⟩ := Inv.run (G := G) calls [] Planner.empty (Inv.empty G) hc
  have hall := (c31_accepts_exactly G calls hc).1 ⟨pl, hpl⟩
  obtain ⟨pl', e, I⟩ := h1 (fun a c b he => by simpa using hall a c b he)
  rw [hpl] at e
  cases e
  rw [List.nil_append] at I
  obtain ⟨b', n', e, -, -, -, hws⟩ := I.alloc (fun h => by rw [h] at hw; cases hw)
  rw [e, List.mem_singleton] at hw
  cases hw
  have hns : pl.spaces.length = (sols calls).length := by rw [I.nspaces]; omega
  have hnp : pl.parts.length = (sols calls).length := by rw [I.nparts]; omega
  have hcons : ∀ v ∈ sols calls ++ rhss calls, v = ⟨v.data, G.parent v.part, G.colorSpace v.part, v.part⟩ := by
    intro v hv
    have : newVector G v.part v.data = some v := by
      rcases List.mem_append.1 hv with hv | hv
      · obtain ⟨c, hcm, hcv⟩ := List.mem_filterMap.1 hv
        have := hc c hcm
        cases c <;> simp at hcv
        subst hcv
        exact this
      · obtain ⟨c, hcm, hcv⟩ := List.mem_filterMap.1 hv
        have := hc c hcm
        cases c <;> simp at hcv
        subst hcv
        exact this
    exact (newVector_some this).2.2
  -- the lookups
  have hlook : ∀ k i, k < n + 2 → i < pl.spaces.length → ∃ v, pl.lookup k i = some v ∧
      v.space = pl.spaces.getD i 0 ∧ v.part = pl.parts.getD i 0 ∧ v.colors = G.colorSpace (pl.parts.getD i 0) ∧
      (k = 0 → (sols calls)[i]? = some v) ∧ (k = 1 → (rhss calls)[i]? = some v) ∧
      (2 ≤ k → v.data = b + i * n + (k - 2)) := by
    intro k i hk hi
    unfold Planner.lookup
    by_cases h0 : k = 0
    · rw [if_pos h0, I.sol]
      have hi' : i < (sols calls).length := by omega
      have hg := List.getElem?_eq_getElem hi'
      obtain ⟨a, c⟩ := I.solAt i _ hg
      refine ⟨_, hg, (getD_of_some a).symm, (getD_of_some c).symm, ?_, fun _ => hg, fun h => by omega, fun h => by omega⟩
      rw [getD_of_some c, hcons _ (List.mem_append_left _ (List.getElem_mem hi'))]
    · rw [if_neg h0]
      by_cases h1 : k = 1
      · rw [if_pos h1, I.rhs]
        have hi' : i < (rhss calls).length := by omega
        have hg := List.getElem?_eq_getElem hi'
        obtain ⟨a, c⟩ := I.rhsAt i _ hg
        refine ⟨_, hg, (getD_of_some a).symm, (getD_of_some c).symm, ?_, fun h => absurd h h0, fun _ => hg, fun h => by omega⟩
        rw [getD_of_some c, hcons _ (List.mem_append_right _ (List.getElem_mem hi'))]
      · rw [if_neg h1, hws]
        unfold workspaceOf
        rw [List.getElem?_map, List.getElem?_range (by omega)]
        simp only [Option.map_some, Option.bind_some]
        rw [List.getElem?_map, List.getElem?_range (by omega)]
        refine ⟨_, rfl, ?_, rfl, rfl, fun h => absurd h h0, fun h => absurd h h1, fun _ => rfl⟩
        have hip : i < pl.parts.length := by omega
        have := (I.parts i _ (List.getElem?_eq_getElem hip)).2.2
        beta_reduce
        rw [getD_of_some this, getD_of_some (List.getElem?_eq_getElem hip)]
  refine ⟨I.sizesAgree.2 hlen, by rw [hws]; simp [workspaceOf], ?_, ?_, ?_, ?_⟩
  · intro k i hk hi
    obtain ⟨v, a, b, c, d, -⟩ := hlook k i hk hi
    exact ⟨v, a, b, c, d⟩
  · intro i hi
    have hip : i < pl.parts.length := by omega
    obtain ⟨c1, c2, c3⟩ := I.parts i _ (List.getElem?_eq_getElem hip)
    rw [getD_of_some (List.getElem?_eq_getElem hip)]
    unfold Planner.pts
    rw [getD_of_some c3]
    refine ⟨of_decide_eq_true c2, fun p => ⟨hG _ p, fun hp => ?_⟩⟩
    have := List.all_eq_true.1 c1 p hp
    exact of_decide_eq_true this
  · intro k i k' i' hk hi hk' hi' he
    obtain ⟨v, a, -, -, -, a0, a1, a2⟩ := hlook k i hk hi
    obtain ⟨v', a', -, -, -, a0', a1', a2'⟩ := hlook k' i' hk' hi'
    unfold Planner.vec at he
    rw [a, a'] at he
    have he : v.data = v'.data := he
    -- position of a user vector in the joint list
    have hpos : ∀ k i v, k < 2 → (k = 0 → (sols calls)[i]? = some v) → (k = 1 → (rhss calls)[i]? = some v) →
        i < pl.spaces.length →
        ((sols calls ++ rhss calls).map Vec.data)[k * (sols calls).length + i]? = some v.data ∧ v.data < b := by
      intro k i v hk h0 h1 hi
      have : (sols calls ++ rhss calls)[k * (sols calls).length + i]? = some v := by
        have hk' : k = 0 ∨ k = 1 := by omega
        rcases hk' with rfl | rfl
        · rw [Nat.zero_mul, Nat.zero_add, List.getElem?_append_left (by omega)]; exact h0 rfl
        · rw [Nat.one_mul, List.getElem?_append_right (by omega), Nat.add_sub_cancel_left]; exact h1 rfl
      refine ⟨by rw [List.getElem?_map, this]; rfl, hfresh v (List.mem_of_getElem? this)⟩
    by_cases h2 : 2 ≤ k
    · by_cases h2' : 2 ≤ k'
      · rw [a2 h2, a2' h2'] at he
        obtain ⟨x, y⟩ := data_lt (by omega) (by omega) he
        exact ⟨by omega, x⟩
      · have := (hpos k' i' v' (by omega) a0' a1' hi').2
        rw [← he, a2 h2] at this
        omega
    · by_cases h2' : 2 ≤ k'
      · have := (hpos k i v (by omega) a0 a1 hi).2
        rw [he, a2' h2'] at this
        omega
      · obtain ⟨g, -⟩ := hpos k i v (by omega) a0 a1 hi
        obtain ⟨g', -⟩ := hpos k' i' v' (by omega) a0' a1' hi'
        rw [← he] at g'
        have hlt := (List.getElem?_eq_some_iff.1 g).1
        have := (List.getElem?_inj hlt hdata).1 (g.trans g'.symm)
        rw [hns] at hi hi'
        have hk2 : k = 0 ∨ k = 1 := by omega
        have hk2' : k' = 0 ∨ k' = 1 := by omega
        rcases hk2 with rfl | rfl <;> rcases hk2' with rfl | rfl <;> omega
  · intro r hr
    obtain ⟨c1, c2, c3, c4⟩ := I.opsAt r hr
    refine ⟨by omega, by omega, c3, c4, ?_⟩
    have hm : (r.matrix, r.dom, r.rng) ∈ mats calls := by rw [← I.ops]; exact List.mem_map.2 ⟨r, hr, rfl⟩
    have hd : r.dom < (sols calls).length := by omega
    have hr' : r.rng < (sols calls).length := by omega
    have g1 := List.getElem?_eq_getElem hd
    have g2 := List.getElem?_eq_getElem hr'
    unfold Planner.pts
    rw [getD_of_some (I.solAt _ _ g1).1, getD_of_some (I.solAt _ _ g2).1]
    exact hfit _ _ _ hm _ _ g1 g2

/-! ## C32 -/

/-- The product overwrites the destination with the assembled block operator times the source, whatever the destination held
before; nothing else changes; every schedule. -/
theorem c32_matvec [Field V] {A : Arith V} (hA : A.Exact) {G : Geometry P} {pl : Planner K P V} {nw : Nat}
    (R : Ready G pl nw) (dst src : Nat) (hd : dst < nw + 2) (hs : src < nw + 2) (hne : dst ≠ src) (n : Nat)
    (s : Cell P → V) :
    Ensures (pl.matvec A G.toEnv dst src) n s fun _ s' =>
      pl.OnlyVector G n s s' dst ((pl.operator G).mulVec (pl.content G s src)) := by
  obtain ⟨s', h1, h2⟩ := Runs.pMatvec hA R hd hs hne n s
  exact h1.ensures (h2.only n _ (fun u => (operator_mulVec R _ u).symm))

/-- The block operator, hence the product, does not depend on the order in which the matrices were registered. -/
theorem c32_registration_order [Field V] (G : Geometry P) (pl : Planner K P V) (ops' : List (Registered K P V))
    (h : pl.ops.Perm ops') (x : pl.U G → V) :
    (({ pl with ops := ops' } : Planner K P V).operator G).mulVec x = (pl.operator G).mulVec x := by
  have : ({ pl with ops := ops' } : Planner K P V).operator G = pl.operator G := by
    funext u u'
    exact (h.map fun r => if r.rng = u.1.1 ∧ r.dom = u'.1.1 then r.matrix.coef u.1.2 u'.1.2 else 0).sum_eq.symm
  rw [this]
  rfl

/-! ## C33 -/

section
variable {G : Geometry P} {pl : Planner K P V} {nw : Nat}

/-- The vectors that exist: 0 (solution), 1 (right-hand side) and one per allocated workspace vector, each with all blocks. -/
theorem c33_vectors_exist (R : Ready G pl nw) (k i : Nat) :
    (∃ v, pl.lookup k i = some v) ↔ k < nw + 2 ∧ i < pl.spaces.length := by
  have hs := R.sizes
  simp only [Planner.sizesAgree, Bool.and_eq_true, decide_eq_true_eq, List.all_eq_true] at hs
  obtain ⟨⟨⟨-, h1⟩, h2⟩, h3⟩ := hs
  constructor
  · rintro ⟨v, hv⟩
    unfold Planner.lookup at hv
    split at hv
    · have := (List.getElem?_eq_some_iff.1 hv).1; omega
    · split at hv
      · have := (List.getElem?_eq_some_iff.1 hv).1; omega
      · obtain ⟨l, hl, hv⟩ := Option.bind_eq_some_iff.1 hv
        obtain ⟨hk, hl'⟩ := List.getElem?_eq_some_iff.1 hl
        have := (List.getElem?_eq_some_iff.1 hv).1
        have h4 := h3 l (hl' ▸ List.getElem_mem hk)
        rw [R.workspace] at hk
        omega
  · rintro ⟨hk, hi⟩
    exact ⟨_, (R.lookup hk hi).1⟩

theorem c33_zero_fill (R : Ready G pl nw) (A : Arith V) (d : Nat) (hd : d < nw + 2) (n : Nat) (s : Cell P → V) :
    Ensures (pl.zeroFill A G.toEnv d) n s fun _ s' => pl.OnlyVector G n s s' d fun _ => A.zero := by
  obtain ⟨s', h1, h2⟩ := Runs.pZeroFill R A hd n s
  exact h1.ensures (h2.only n _ (fun _ => rfl))

theorem c33_copy (R : Ready G pl nw) (d x : Nat) (hd : d < nw + 2) (hx : x < nw + 2) (n : Nat) (s : Cell P → V) :
    Ensures (pl.copy G.toEnv d x) n s fun _ s' => pl.OnlyVector G n s s' d (pl.content G s x) := by
  obtain ⟨s', h1, h2⟩ := Runs.pCopy R hd hx n s
  exact h1.ensures (h2.only n _ (fun _ => rfl))

theorem c33_scal (R : Ready G pl nw) (A : Arith V) (d : Nat) (hd : d < nw + 2) (a : Scalar) (n : Nat) (s : Cell P → V) :
    Ensures (pl.scal A G.toEnv d a) n s fun _ s' =>
      pl.OnlyVector G n s s' d fun u => A.mul (s (.fut a.fut)) (pl.content G s d u) := by
  obtain ⟨s', h1, h2⟩ := Runs.pScal R A hd a n s
  exact h1.ensures (h2.only n _ (fun _ => rfl))

theorem c33_axpy (R : Ready G pl nw) (A : Arith V) (d x : Nat) (hd : d < nw + 2) (hx : x < nw + 2) (a : Scalar) (n : Nat)
    (s : Cell P → V) :
    Ensures (pl.axpy A G.toEnv d a x) n s fun _ s' =>
      pl.OnlyVector G n s s' d fun u => A.fma (s (.fut a.fut)) (pl.content G s x u) (pl.content G s d u) := by
  obtain ⟨s', h1, h2⟩ := Runs.pAxpy R A hd hx a n s
  exact h1.ensures (h2.only n _ (fun _ => rfl))

theorem c33_axpy_quotient (R : Ready G pl nw) (A : Arith V) (d x : Nat) (hd : d < nw + 2) (hx : x < nw + 2) (a b : Scalar)
    (n : Nat) (s : Cell P → V) :
    Ensures (pl.axpy2 A G.toEnv d a b x) n s fun _ s' => pl.OnlyVector G n s s' d fun u =>
      A.fma (A.div (s (.fut a.fut)) (s (.fut b.fut))) (pl.content G s x u) (pl.content G s d u) := by
  obtain ⟨s', h1, h2⟩ := Runs.pAxpy2 R A hd hx a b n s
  exact h1.ensures (h2.only n _ (fun _ => rfl))

theorem c33_axpy_product_quotient (R : Ready G pl nw) (A : Arith V) (d x : Nat) (hd : d < nw + 2) (hx : x < nw + 2)
    (a b c : Scalar) (n : Nat) (s : Cell P → V) :
    Ensures (pl.axpy3 A G.toEnv d a b c x) n s fun _ s' => pl.OnlyVector G n s s' d fun u =>
      A.fma (A.div (A.mul (s (.fut a.fut)) (s (.fut b.fut))) (s (.fut c.fut))) (pl.content G s x u) (pl.content G s d u) := by
  obtain ⟨s', h1, h2⟩ := Runs.pAxpy3 R A hd hx a b c n s
  exact h1.ensures (h2.only n _ (fun _ => rfl))

theorem c33_xpay (R : Ready G pl nw) (A : Arith V) (d x : Nat) (hd : d < nw + 2) (hx : x < nw + 2) (a : Scalar) (n : Nat)
    (s : Cell P → V) :
    Ensures (pl.xpay A G.toEnv d a x) n s fun _ s' =>
      pl.OnlyVector G n s s' d fun u => A.fma (s (.fut a.fut)) (pl.content G s d u) (pl.content G s x u) := by
  obtain ⟨s', h1, h2⟩ := Runs.pXpay R A hd hx a n s
  exact h1.ensures (h2.only n _ (fun _ => rfl))

theorem c33_xpay_quotient (R : Ready G pl nw) (A : Arith V) (d x : Nat) (hd : d < nw + 2) (hx : x < nw + 2) (a b : Scalar)
    (n : Nat) (s : Cell P → V) :
    Ensures (pl.xpay2 A G.toEnv d a b x) n s fun _ s' => pl.OnlyVector G n s s' d fun u =>
      A.fma (A.div (s (.fut a.fut)) (s (.fut b.fut))) (pl.content G s d u) (pl.content G s x u) := by
  obtain ⟨s', h1, h2⟩ := Runs.pXpay2 R A hd hx a b n s
  exact h1.ensures (h2.only n _ (fun _ => rfl))

/-- The inner product is that of the concatenated blocks, in a new scalar; no vector and no existing scalar changes. -/
theorem c33_dot [Field V] {A : Arith V} (hA : A.Exact) (R : Ready G pl nw) (hord : ∀ f l, (G.redOrder f l).Perm l)
    (hns : 0 < pl.spaces.length) (v w : Nat) (hv : v < nw + 2) (hw : w < nw + 2) (n : Nat) (s : Cell P → V) :
    Ensures (pl.dot A G.toEnv v w) n s fun a s' => n ≤ a.fut ∧
      s' (.fut a.fut) = ∑ u, pl.content G s v u * pl.content G s w u ∧
      (∀ d p, s' (.elem d p) = s (.elem d p)) ∧ ∀ f, f < n → s' (.fut f) = s (.fut f) := by
  obtain ⟨a, n', s', h1, h2, -, h3, h4, h5⟩ := Runs.pDot hA R hord hns hv hw n s
  exact h1.ensures ⟨h2, h3, h4, h5⟩

end

/-! ## A concrete planner -/

/-- Two blocks: points `0, 1, 2` in two pieces, points `0, 1` in one piece. -/
def exG : Geometry Nat where
  pieces := fun part => if part = 0 then [[0, 1], [2]] else [[1, 0]]
  redOrder := fun _ l => l.reverse
  points := fun sp => if sp = 0 then [0, 1, 2] else [0, 1]
  parent := fun part => part
  colorSpace := fun part => part

/-- A CSR matrix on block 0, a COO matrix from block 1 to block 0 with a repeated entry. -/
def exCalls : List (Setup Nat Nat ℚ) :=
  [.addRhs ⟨2, 0, 0, 0⟩, .addSol ⟨0, 0, 0, 0⟩, .addMatrix (.csr ⟨[0, 1, 2], [0, 1, 2], fun p k => decide (p = k), id, fun _ => 2⟩) 0 0,
   .addSol ⟨1, 1, 1, 1⟩, .addRhs ⟨3, 1, 1, 1⟩, .allocate 10 3,
   .addMatrix (.coo ⟨[0, 1, 2], fun k => k % 2, fun _ => 1, fun k => k⟩) 1 0]

/-- Non-vacuity of C31–C33: this set-up is accepted and makes the planner ready. -/
theorem exReady : ∃ pl : Planner Nat Nat ℚ, Planner.empty.setupAll exG exCalls = some pl ∧ Ready exG pl 3 ∧
    0 < pl.spaces.length ∧ (∀ f l, (exG.redOrder f l).Perm l) := by
  have hc : ∀ c ∈ exCalls, c.Constructed exG := by
    intro c hc
    simp only [exCalls, List.mem_cons, List.not_mem_nil, or_false] at hc
    rcases hc with rfl | rfl | rfl | rfl | rfl | rfl | rfl <;> trivial
  have hsome : ∃ pl : Planner Nat Nat ℚ, Planner.empty.setupAll exG exCalls = some pl := ⟨_, rfl⟩
  obtain ⟨pl, hpl⟩ := hsome
  refine ⟨pl, hpl, ?_, ?_, fun f l => List.reverse_perm l⟩
  · apply c31_ready exG ?_ exCalls hc pl hpl 10 3
    · simp [allocs, exCalls]
    · rfl
    · decide
    · decide
    · intro m d r hm vd vr h1 h2
      simp [mats, exCalls] at hm
      rcases hm with ⟨rfl, rfl, rfl⟩ | ⟨rfl, rfl, rfl⟩
      · simp [sols, exCalls] at h1 h2
        subst h1; subst h2
        refine ⟨by decide, fun p => Iff.rfl, ?_⟩
        intro k _ p q _ _ h3 h4
        simp at h3 h4
        omega
      · simp [sols, exCalls] at h1 h2
        subst h1; subst h2
        show ∀ k ∈ [0, 1, 2], 1 ∈ _
        decide
    · intro part p hp
      by_cases h : part = 0
      · subst h
        simp [exG] at hp ⊢; omega
      · simp [exG, h] at hp ⊢; omega
  · have := (c31_consistent exG exCalls hc pl hpl).1
    cases hpl
    decide

end Verif.Planner
