import Verif.Planner.Props

/-! # C32, C33 in terms of the client's calls

What the client sees: the vectors and matrices it passed, in the order it passed them. -/
set_option linter.dupNamespace false
set_option linter.unusedSectionVars false
namespace Verif.Planner
open Verif.Runtime Verif.Vector Verif.Matrix

variable {K P V : Type} [DecidableEq P] [DecidableEq K]

/-- The vectors the client gave: as solution (0), as right-hand side (1). -/
def given (calls : List (Setup K P V)) (k : Nat) : List Vec := if k = 0 then sols calls else rhss calls

/-- A complete set-up by a client: valid geometry, constructed vectors, accepted calls, one workspace of `nw` vectors on fresh
data, as many right-hand-side as solution vectors, no two sharing data, matrices between the right spaces. -/
structure Complete (G : Geometry P) (calls : List (Setup K P V)) (pl : Planner K P V) (b nw : Nat) : Prop where
  valid : G.Valid
  constructed : ∀ c ∈ calls, c.Constructed G
  accepted : Planner.empty.setupAll G calls = some pl
  workspace : (b, nw) ∈ allocs calls
  lengths : (sols calls).length = (rhss calls).length
  data : ((sols calls ++ rhss calls).map Vec.data).Nodup
  fresh : ∀ v ∈ sols calls ++ rhss calls, v.data < b
  fits : ∀ m d r, (m, d, r) ∈ mats calls → ∀ vd vr, (sols calls)[d]? = some vd → (sols calls)[r]? = some vr →
      m.Fits (G.points vr.space) (G.points vd.space)

variable {G : Geometry P} {calls : List (Setup K P V)} {pl : Planner K P V} {b nw : Nat}

theorem Complete.ready (h : Complete G calls pl b nw) : Ready G pl nw :=
  c31_ready G h.valid calls h.constructed pl h.accepted b nw h.workspace h.lengths h.data h.fresh h.fits

theorem Complete.lookup (h : Complete G calls pl b nw) (k i : Nat) (hk : k < 2) : pl.lookup k i = (given calls k)[i]? := by
  obtain ⟨h1, h2, -⟩ := c31_consistent G calls h.constructed pl h.accepted
  unfold Planner.lookup given
  by_cases h0 : k = 0
  · rw [if_pos h0, if_pos h0, h1]
  · rw [if_neg h0, if_neg h0, if_pos (by omega), h2]

/-- **C33**: planner vector 0 is exactly the vectors the client added as solution, planner vector 1 those added as right-hand
side, block by block in the order added: the elements of the planner vector (what C33 and C34-C40 speak about) are the elements of
these vectors, all of them. -/
theorem c33_client_vectors (h : Complete G calls pl b nw) (k : Nat) (hk : k < 2) :
    (∀ u : pl.U G, ∃ v, (given calls k)[u.1.1]? = some v ∧ u.1.2 ∈ G.points v.space ∧
      ∀ s : Cell P → V, pl.content G s k u = s (.elem v.data u.1.2)) ∧
    ∀ (i : Nat) v, (given calls k)[i]? = some v → ∀ p ∈ G.points v.space, ∃ u : pl.U G, u.1.1 = i ∧ u.1.2 = p := by
  have R := h.ready
  have hlk := h.lookup k
  constructor
  · rintro ⟨⟨i, p⟩, hu⟩
    unfold Planner.unknowns at hu
    rw [Finset.mem_sigma, Finset.mem_range, List.mem_toFinset] at hu
    obtain ⟨hi, hp⟩ := hu
    obtain ⟨v, h1, h2, -⟩ := R.blocks k i (by omega) hi
    refine ⟨v, by rw [← hlk i hk]; exact h1, ?_, fun s => ?_⟩
    · unfold Planner.pts at hp
      rw [h2]; exact hp
    · unfold Planner.content Planner.vec
      simp only
      rw [h1]; rfl
  · intro i v hv p hp
    have hi : i < pl.spaces.length := by
      have := (c33_vectors_exist R k i).1 ⟨v, by rw [hlk i hk]; exact hv⟩
      exact this.2
    obtain ⟨v', h1, h2, -⟩ := R.blocks k i (by omega) hi
    rw [hlk i hk, hv] at h1
    cases h1
    refine ⟨⟨⟨i, p⟩, ?_⟩, rfl, rfl⟩
    unfold Planner.unknowns Planner.pts
    rw [Finset.mem_sigma, Finset.mem_range, List.mem_toFinset]
    exact ⟨hi, by rw [← h2]; exact hp⟩

/-- Row `p` of block `i` of the system the client described, applied to the vectors of side `k` in memory `s`: the sum, over the
matrices added with range index `i`, of the matrix's row `p` times the vector of side `k` at its domain index. -/
def clientRow [Field V] (G : Geometry P) (calls : List (Setup K P V)) (k : Nat) (s : Cell P → V) (i : Nat) (p : P) : V :=
  ((mats calls).map fun t => if t.2.2 = i then
    (((given calls k)[t.2.1]?).elim 0 fun w => ∑ q ∈ (G.points w.space).toFinset, t.1.coef p q * s (.elem w.data q)) else 0).sum

theorem Complete.operator_row [Field V] (h : Complete G calls pl b nw) (k : Nat) (hk : k < 2) (s : Cell P → V) (u : pl.U G) :
    (pl.operator G).mulVec (pl.content G s k) u = clientRow G calls k s u.1.1 u.1.2 := by
  have R := h.ready
  have key := operator_mulVec R (fun i q => s (.elem (pl.vec k i).data q)) u
  have hcon : (fun u' : pl.U G => s (.elem (pl.vec k u'.1.1).data u'.1.2)) = pl.content G s k := rfl
  rw [hcon] at key
  rw [key]
  unfold applied clientRow
  rw [← (c31_consistent G calls h.constructed pl h.accepted).2.2.2.2.2.2.2.1, List.map_map]
  congr 1
  apply List.map_congr_left
  intro r hr
  simp only [Function.comp]
  by_cases hri : r.rng = u.1.1
  · rw [if_pos hri, if_pos hri]
    obtain ⟨hdom, -⟩ := R.ops r hr
    obtain ⟨w, w1, w2, -⟩ := R.blocks k r.dom (by omega) hdom
    rw [← h.lookup k r.dom hk, w1]
    simp only [Option.elim_some]
    rw [w2]
    unfold Planner.vec Planner.pts
    rw [w1]
    rfl
  · rw [if_neg hri, if_neg hri]

/-- **C32** in terms of the calls: after the product from one side to the other (solution to right-hand side or back), element `p` of
the `i`-th destination vector is row `p` of block `i` of the client's system times the source; nothing else changes. -/
theorem c32_client [Field V] {A : Arith V} (hA : A.Exact) (h : Complete G calls pl b nw) (dst src : Nat) (hd : dst < 2) (hs : src < 2)
    (hne : dst ≠ src) (n : Nat) (s : Cell P → V) :
    Ensures (pl.matvec A G.toEnv dst src) n s fun _ s' =>
      (∀ (i : Nat) v, (given calls dst)[i]? = some v → ∀ p ∈ G.points v.space, s' (.elem v.data p) = clientRow G calls src s i p) ∧
      (∀ d p, (∀ v ∈ given calls dst, d = v.data → p ∉ G.points v.space) → s' (.elem d p) = s (.elem d p)) ∧
      ∀ f, f < n → s' (.fut f) = s (.fut f) := by
  have R := h.ready
  obtain ⟨a, n', ts, q1, q2, q3⟩ := c32_matvec hA R dst src (by omega) (by omega) hne n s
  refine ⟨a, n', ts, q1, q2, fun M' h5 h6 => ?_⟩
  obtain ⟨h7, h8, h9⟩ := q3 M' h5 h6
  obtain ⟨c1, c2⟩ := c33_client_vectors h dst hd
  refine ⟨fun i v hv p hp => ?_, fun d p hdp => ?_, h9⟩
  · obtain ⟨u, rfl, rfl⟩ := c2 i v hv p hp
    obtain ⟨v', e1, -, e2⟩ := c1 u
    rw [hv] at e1
    cases e1
    rw [← e2 M'.store, h7 u, h.operator_row src hs s u]
  · apply h8
    intro u he
    obtain ⟨v, e1, e2, -⟩ := c1 u
    have hv : pl.vec dst u.1.1 = v := by
      unfold Planner.vec
      rw [h.lookup dst u.1.1 hd, e1]; rfl
    rw [hv] at he
    obtain ⟨rfl, rfl⟩ := Prod.mk.inj he
    exact hdp v (List.mem_of_getElem? e1) rfl e2

/-- The set-up of `exReady` is complete. -/
example : ∃ pl : Planner Nat Nat ℚ, Complete exG exCalls pl 10 3 := by
  have hsome : ∃ pl : Planner Nat Nat ℚ, Planner.empty.setupAll exG exCalls = some pl := ⟨_, rfl⟩
  obtain ⟨pl, hpl⟩ := hsome
  refine ⟨pl, ?_, ?_, hpl, by simp [allocs, exCalls], rfl, by decide, by decide, ?_⟩
  · intro part p hp
    by_cases h : part = 0
    · subst h
      simp [exG] at hp ⊢; omega
    · simp [exG, h] at hp ⊢; omega
  · intro c hc
    simp only [exCalls, List.mem_cons, List.not_mem_nil, or_false] at hc
    rcases hc with rfl | rfl | rfl | rfl | rfl | rfl | rfl <;> trivial
  · intro m d r hm vd vr h1 h2
    simp [mats, exCalls] at hm
    rcases hm with ⟨rfl, rfl, rfl⟩ | ⟨rfl, rfl, rfl⟩
    · simp [sols, exCalls] at h1 h2
      subst h1; subst h2
      refine ⟨by decide, fun p => Iff.rfl, ?_⟩
      intro k _ p q _ _ h3 h4
      simp at h3 h4
      omega
    · simp [sols, exCalls] at h1 h2
      subst h1; subst h2
      show ∀ k ∈ [0, 1, 2], 1 ∈ _
      decide

end Verif.Planner
