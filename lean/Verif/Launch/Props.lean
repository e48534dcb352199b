import Verif.Launch.Trace
import Verif.Planner.Client

/-! # C53: the launches never interfere -/
set_option linter.dupNamespace false
set_option linter.unusedSectionVars false
namespace Verif.Launch
open Verif.Runtime Verif.Vector Verif.Matrix Verif.Planner Verif.Solver

variable {X K P V : Type} [DecidableEq P] [DecidableEq K]

theorem piece_disjoint {l : List (List X)} (h : l.flatten.Nodup) {c c' : Nat} (hc : c ≠ c') {x : X} (h1 : x ∈ l.getD c [])
    (h2 : x ∈ l.getD c' []) : False := by
  rw [List.nodup_flatten] at h
  have hp := List.pairwise_iff_getElem.1 h.2
  rw [List.getD_eq_getElem?_getD] at h1 h2
  by_cases hl : c < l.length
  · by_cases hl' : c' < l.length
    · rw [List.getElem?_eq_getElem hl, Option.getD_some] at h1
      rw [List.getElem?_eq_getElem hl', Option.getD_some] at h2
      rcases Nat.lt_or_gt_of_ne hc with hlt | hlt
      · exact hp c c' hl hl' hlt h1 h2
      · exact hp c' c hl' hl hlt h2 h1
    · rw [List.getElem?_eq_none (by omega)] at h2; cases h2
  · rw [List.getElem?_eq_none (by omega)] at h1; cases h1

/-- Pieces of different colours have no common element. -/
def Part.Disjoint (p : Part X) : Prop := ∀ c c' x, c ≠ c' → x ∈ p.piece c → x ∉ p.piece c'

theorem vectorPart_disjoint {G : Geometry P} {part : Nat} (h : (G.pieces part).flatten.Nodup) :
    (vectorPart G part : Part (K ⊕ P)).Disjoint := by
  intro c c' x hc h1 h2
  rw [vectorPart_piece, List.mem_map] at h1 h2
  obtain ⟨p, h1, rfl⟩ := h1
  obtain ⟨q, h2, e⟩ := h2
  cases e
  exact piece_disjoint h hc h1 h2

theorem nonInterfering_of {L : IndexLaunch X} (h1 : ∀ r ∈ L.reqs, r.priv = .readOnly ∨ r.part.Disjoint)
    (h2 : L.reqs.Pairwise fun r r' => r.field ≠ r'.field ∨ (r.priv = .readOnly ∧ r'.priv = .readOnly)) : L.NonInterfering := by
  rintro i j r r' c c' hi hj - - hne ⟨hf, hp, x, hx, hx'⟩
  by_cases hij : i = j
  · subst hij
    rw [hi] at hj
    cases hj
    rcases h1 r (List.mem_of_getElem? hi) with h | h
    · exact hp ⟨h, h⟩
    · exact h c c' x (fun e => hne (by rw [e])) hx hx'
  · obtain ⟨hi', rfl⟩ := List.getElem?_eq_some_iff.1 hi
    obtain ⟨hj', rfl⟩ := List.getElem?_eq_some_iff.1 hj
    have hpw := List.pairwise_iff_getElem.1 h2
    rcases Nat.lt_or_gt_of_ne hij with hlt | hlt
    · rcases hpw i j hi' hj' hlt with h | h
      · exact h hf
      · exact hp h
    · rcases hpw j i hj' hi' hlt with h | h
      · exact h hf.symm
      · exact hp ⟨h.2, h.1⟩

section vectors
variable {G : Geometry P}

theorem c53_fill {v : Vec} (h : (G.pieces v.part).flatten.Nodup) : (fillLaunch G v : IndexLaunch (K ⊕ P)).NonInterfering :=
  nonInterfering_of (by intro r hr; simp [fillLaunch, over] at hr; subst hr; exact .inr (vectorPart_disjoint h))
    (by simp [fillLaunch, over])

theorem c53_scal {v : Vec} (h : (G.pieces v.part).flatten.Nodup) : (scalLaunch G v : IndexLaunch (K ⊕ P)).NonInterfering :=
  nonInterfering_of (by intro r hr; simp [scalLaunch, over] at hr; subst hr; exact .inr (vectorPart_disjoint h))
    (by simp [scalLaunch, over])

theorem c53_dot (v w : Vec) : (dotLaunch G v w : IndexLaunch (K ⊕ P)).NonInterfering :=
  nonInterfering_of (by intro r hr; simp [dotLaunch, over] at hr; rcases hr with rfl | rfl <;> exact .inl rfl)
    (by simp [dotLaunch, over, requirement])

/-- `y.axpy(…, x)` and `y.xpay(…, x)`, for a vector with at least one element and as many pieces on both sides: the launch is legal
exactly when `y` and `x` are different vectors.  `y.axpy(a, y)` passes all assertions of the library and is illegal. -/
theorem c53_axpy_iff {y x : Vec} (h : (G.pieces y.part).flatten.Nodup) (hne : (G.pieces y.part).flatten ≠ []) (hp : y.part = x.part) :
    (axpyLaunch G y x : IndexLaunch (K ⊕ P)).NonInterfering ↔ y.data ≠ x.data := by
  constructor
  · intro hn he
    obtain ⟨p, hp'⟩ := List.exists_mem_of_ne_nil _ hne
    obtain ⟨l, hl, hpl⟩ := List.mem_flatten.1 hp'
    obtain ⟨c, hc, e⟩ := List.getElem_of_mem hl
    have hm : (Sum.inr p : K ⊕ P) ∈ (vectorPart G y.part : Part (K ⊕ P)).piece c := by
      rw [mem_vectorPart, List.getD_eq_getElem?_getD, List.getElem?_eq_getElem hc, e]
      exact hpl
    refine hn 0 1 _ _ c c rfl rfl hc hc (by simp) ⟨?_, ?_, _, hm, ?_⟩
    · show Field.vector y.data = Field.vector x.data
      rw [he]
    · rintro ⟨h, -⟩; cases h
    · show _ ∈ (vectorPart G x.part : Part (K ⊕ P)).piece c
      rw [← hp]; exact hm
  · intro hd
    refine nonInterfering_of ?_ ?_
    · intro r hr
      simp only [axpyLaunch, over, List.mem_cons, List.not_mem_nil, or_false] at hr
      rcases hr with rfl | rfl
      · exact .inr (vectorPart_disjoint h)
      · exact .inl rfl
    · simp [axpyLaunch, over, requirement, hd]

theorem c53_xpay_iff {y x : Vec} (h : (G.pieces y.part).flatten.Nodup) (hne : (G.pieces y.part).flatten ≠ []) (hp : y.part = x.part) :
    (xpayLaunch G y x : IndexLaunch (K ⊕ P)).NonInterfering ↔ y.data ≠ x.data := c53_axpy_iff h hne hp

theorem nonint_axpy {y x : Vec} (h : (G.pieces y.part).flatten.Nodup) (hd : y.data ≠ x.data) :
    (axpyLaunch G y x : IndexLaunch (K ⊕ P)).NonInterfering := by
  refine nonInterfering_of ?_ ?_
  · intro r hr
    simp only [axpyLaunch, over, List.mem_cons, List.not_mem_nil, or_false] at hr
    rcases hr with rfl | rfl
    · exact .inr (vectorPart_disjoint h)
    · exact .inl rfl
  · simp [axpyLaunch, over, requirement, hd]

theorem nonint_copy {y x : Vec} (h : (G.pieces y.part).flatten.Nodup) (hd : y.data ≠ x.data) :
    (copyLaunch G y x : IndexLaunch (K ⊕ P)).NonInterfering := by
  refine nonInterfering_of ?_ ?_
  · intro r hr
    simp only [copyLaunch, over, List.mem_cons, List.not_mem_nil, or_false] at hr
    rcases hr with rfl | rfl
    · exact .inl rfl
    · exact .inr (vectorPart_disjoint h)
  · simp [copyLaunch, over, requirement, hd.symm]

/-- `dst = src` (assignment copies data): legal exactly when the vectors differ; self-assignment is illegal. -/
theorem c53_copy_iff {y x : Vec} (h : (G.pieces y.part).flatten.Nodup) (hne : (G.pieces y.part).flatten ≠ []) (hp : y.part = x.part) :
    (copyLaunch G y x : IndexLaunch (K ⊕ P)).NonInterfering ↔ y.data ≠ x.data := by
  refine ⟨fun hn he => ?_, nonint_copy h⟩
  obtain ⟨p, hp'⟩ := List.exists_mem_of_ne_nil _ hne
  obtain ⟨l, hl, hpl⟩ := List.mem_flatten.1 hp'
  obtain ⟨c, hc, e⟩ := List.getElem_of_mem hl
  have hm : (Sum.inr p : K ⊕ P) ∈ (vectorPart G y.part : Part (K ⊕ P)).piece c := by
    rw [mem_vectorPart, List.getD_eq_getElem?_getD, List.getElem?_eq_getElem hc, e]
    exact hpl
  refine hn 0 1 _ _ c c rfl rfl hc hc (by simp) ⟨?_, ?_, _, ?_, hm⟩
  · show Field.vector x.data = Field.vector y.data
    rw [he]
  · rintro ⟨-, h⟩; cases h
  · show _ ∈ (vectorPart G x.part : Part (K ⊕ P)).piece c
    rw [← hp]; exact hm

/-- A product with any matrix, any kernel partition, any (overlapping) ghost partition: legal whenever source and destination
differ. -/
theorem c53_product (h : Handles) (m : Op K P V) {dst src : Vec} (hn : (G.pieces dst.part).flatten.Nodup)
    (hd : dst.data ≠ src.data) (kp gp : Part (K ⊕ P)) : (opLaunch G h m dst src kp gp).NonInterfering := by
  cases m with
  | coo m =>
    refine nonInterfering_of ?_ ?_
    · intro r hr
      simp only [opLaunch, cooLaunch, over, List.mem_cons, List.not_mem_nil, or_false] at hr
      rcases hr with rfl | rfl | rfl
      · exact .inr (vectorPart_disjoint hn)
      · exact .inl rfl
      · exact .inl rfl
    · simp [opLaunch, cooLaunch, over, requirement, hd]
  | csr m =>
    refine nonInterfering_of ?_ ?_
    · intro r hr
      simp only [opLaunch, csrLaunch, over, List.mem_cons, List.not_mem_nil, or_false] at hr
      rcases hr with rfl | rfl | rfl | rfl
      · exact .inr (vectorPart_disjoint hn)
      · exact .inl rfl
      · exact .inl rfl
      · exact .inl rfl
    · simp [opLaunch, csrLaunch, over, requirement, hd]

end vectors

/-! ## Planner operations -/

/-- A planner call on existing vectors that does not combine a vector with itself (`dot` may). -/
def Separate (top : Nat) : Call → Prop
  | .zeroFill d => d < top
  | .copy d x => d < top ∧ x < top ∧ d ≠ x
  | .scal d => d < top
  | .axpy d x => d < top ∧ x < top ∧ d ≠ x
  | .xpay d x => d < top ∧ x < top ∧ d ≠ x
  | .dot v w => v < top ∧ w < top
  | .matvec d x => d < top ∧ x < top ∧ d ≠ x

variable {G : Geometry P} {pl pl' : Planner K P V} {base nw : Nat}

theorem block_nodup (R : Ready G pl nw) {k i : Nat} (hk : k < nw + 2) (hi : i < pl.spaces.length) :
    (G.pieces (pl.vec k i).part).flatten.Nodup := by
  obtain ⟨v, h1, -, h2, -⟩ := R.blocks k i hk hi
  unfold Planner.vec
  rw [h1, Option.getD_some, h2]
  exact (R.partition i hi).1

theorem block_ne (R : Ready G pl nw) {k k' i i' : Nat} (hk : k < nw + 2) (hk' : k' < nw + 2) (hi : i < pl.spaces.length)
    (hi' : i' < pl.spaces.length) (h : k ≠ k') : (pl.vec k i).data ≠ (pl.vec k' i').data :=
  fun e => h (R.distinct k i k' i' hk hi hk' hi' e).1

theorem perBlock_all {f : Nat → IndexLaunch (K ⊕ P)} (h : ∀ i, i < pl.spaces.length → (f i).NonInterfering) :
    ∀ L ∈ perBlock pl f, L.NonInterfering := by
  intro L hL
  obtain ⟨i, hi, rfl⟩ := List.mem_map.1 hL
  exact h i (List.mem_range.1 hi)

theorem blocksOf_lookup (R : Ready G pl nw) {k : Nat} {v : Vec} (hv : v ∈ (pl.blocksOf k).getD []) :
    ∃ i, i < pl.spaces.length ∧ pl.lookup k i = some v := by
  obtain ⟨i, hi, e⟩ := List.getElem_of_mem hv
  refine ⟨i, ?_⟩
  have hsz := R.sizes
  simp only [Planner.sizesAgree, Bool.and_eq_true, decide_eq_true_eq, List.all_eq_true] at hsz
  unfold Planner.blocksOf at e hi
  unfold Planner.lookup
  by_cases h0 : k = 0
  · simp only [h0, ↓reduceIte, Option.getD_some] at e hi ⊢
    exact ⟨by omega, by rw [List.getElem?_eq_getElem hi, e]⟩
  · by_cases h1 : k = 1
    · simp only [h1, ↓reduceIte, Option.getD_some, Nat.one_ne_zero] at e hi ⊢
      exact ⟨by omega, by rw [List.getElem?_eq_getElem hi, e]⟩
    · simp only [h0, h1, ↓reduceIte] at e hi ⊢
      cases hw : pl.workspace[k - 2]? with
      | none => simp [hw] at hi
      | some l =>
        simp only [hw, Option.getD_some] at e hi
        have hl := hsz.2 l (List.mem_of_getElem? hw)
        exact ⟨by omega, by rw [Option.bind_some, List.getElem?_eq_getElem hi, e]⟩

theorem blocksOf_nodup (R : Ready G pl nw) {k : Nat} (hk : k < nw + 2) {v : Vec} (hv : v ∈ (pl.blocksOf k).getD []) :
    (G.pieces v.part).flatten.Nodup := by
  obtain ⟨i, hi, hlk⟩ := blocksOf_lookup R hv
  have h2 := block_nodup R hk hi
  unfold Planner.vec at h2
  rw [hlk] at h2
  exact h2

/-- Every planner operation on different existing vectors launches only legal requirements, for any number of blocks and matrices,
any partitions, any matrices (also several matrices into the same block, and ghost pieces that overlap). -/
theorem c53_calls (R : Ready G pl nw) (H : Nat → Handles) (c : Call) (hc : Separate (nw + 2) c) :
    ∀ L ∈ launches G pl H c, L.NonInterfering := by
  have hfill : ∀ d, d < nw + 2 → ∀ L ∈ ((pl.blocksOf d).getD []).map (fillLaunch G), (L : IndexLaunch (K ⊕ P)).NonInterfering := by
    intro d hd L hL
    obtain ⟨v, hv, rfl⟩ := List.mem_map.1 hL
    exact c53_fill (blocksOf_nodup R hd hv)
  cases c with
  | zeroFill d => exact hfill d hc
  | copy d x =>
    exact perBlock_all fun i hi => nonint_copy (block_nodup R hc.1 hi) (block_ne R hc.1 hc.2.1 hi hi hc.2.2)
  | scal d => exact perBlock_all fun i hi => c53_scal (block_nodup R hc hi)
  | axpy d x =>
    exact perBlock_all fun i hi => nonint_axpy (block_nodup R hc.1 hi) (block_ne R hc.1 hc.2.1 hi hi hc.2.2)
  | xpay d x =>
    exact perBlock_all fun i hi => nonint_axpy (block_nodup R hc.1 hi) (block_ne R hc.1 hc.2.1 hi hi hc.2.2)
  | dot v w => exact perBlock_all fun i _ => c53_dot _ _
  | matvec d x =>
    intro L hL
    rcases List.mem_append.1 hL with hL | hL
    · exact hfill d hc.1 L hL
    · obtain ⟨i, hi, e⟩ := List.getElem_of_mem hL
      rw [List.getElem_mapIdx] at e
      subst e
      have hi' : i < pl.ops.length := by simpa using hi
      obtain ⟨h1, h2, -⟩ := R.ops pl.ops[i] (List.getElem_mem hi')
      exact c53_product _ _ (block_nodup R hc.1 h2) (block_ne R hc.1 hc.2.1 h2 h1 hc.2.2) _ _

theorem separate_of_good {top : Nat} {c : Call} (h : c.Good top) : Separate top c := by
  cases c with
  | zeroFill d => exact h.1
  | copy d x => exact ⟨h.1, h.2.2⟩
  | scal d => exact h.1
  | axpy d x => exact ⟨h.1, h.2.2⟩
  | xpay d x => exact ⟨h.1, h.2.2⟩
  | dot v w => exact h
  | matvec d x => exact ⟨h.1, h.2.2⟩

/-! ## Solvers -/

/-- The run completes; what it launched is exactly the launches `Ls`, point task by point task; all of them are legal. -/
def LawfulRun {α : Type} (m : M P V α) (Ls : List (IndexLaunch (K ⊕ P))) : Prop :=
  ∀ n, ∃ a e', m ⟨n, []⟩ = some (a, e') ∧ Realises e'.out (points Ls) ∧ ∀ L ∈ Ls, L.NonInterfering

theorem lawful_of {α β : Type} {m : StateM (List Call) α} {m' : Planner K P V → M P V β} {np top : Nat}
    (H : Nat → Handles) (S : SolverSetup G pl pl' base nw) (htop : top = nw + 2) (hm : Makes top np m)
    {Q : α → β → Prop} (hrel : (traceLift G pl' H).rel Q m (m' pl'))
    (hrun : ∀ n, ∃ a e', (do let p ← allocate G pl base nw; m' p) ⟨n, []⟩ = some (a, e')) :
    LawfulRun (do let p ← allocate G pl base nw; m' p) ((m []).2.flatMap (launches G pl' H)) := by
  intro n
  obtain ⟨a, e', h⟩ := hrun n
  refine ⟨a, e', h, ?_⟩
  have h1 : m' pl' ⟨n, []⟩ = some (a, e') := by
    have h2 : (allocate G pl base nw ⟨n, []⟩).bind (fun x => m' x.1 x.2) = some (a, e') := h
    unfold allocate at h2
    rw [S.alloc] at h2
    exact h2
  obtain ⟨a1, cs, ts, q1, q2, q3, -⟩ := hrel [] ⟨n, []⟩ a e' h1
  obtain ⟨a2, e2, r1, r2, -⟩ := hm []
  rw [q1] at r1
  have hcs : cs = e2 := by simpa using (Prod.mk.injEq .. ▸ r1).2
  rw [q1, q2]
  simp only [List.nil_append]
  refine ⟨q3, fun L hL => ?_⟩
  obtain ⟨c, hc, hL⟩ := List.mem_flatMap.1 hL
  subst htop
  exact c53_calls S.ready H c (separate_of_good (r2 c (hcs ▸ hc))) L hL

theorem run_of_ensures {α : Type} {m : M P V α} {Q : α → (Cell P → V) → Prop} (s : Cell P → V) (h : ∀ n, Ensures m n s Q) (n : Nat) :
    ∃ a e', m ⟨n, []⟩ = some (a, e') := by
  obtain ⟨a, n', ts, h1, -⟩ := h n
  exact ⟨a, ⟨n', ts⟩, h1⟩

/-- **C53** for CG: construction and any number of steps, on any planner set up by a client. -/
theorem c53_cg (A : Arith V) (H : Nat → Handles) (S : SolverSetup G pl pl' base 3) (k : Nat) :
    LawfulRun (cg A G pl base k) ((CG.solve recordOps k []).2.flatMap (launches G pl' H)) :=
  lawful_of H S rfl (c40_calls_cg k) (rel_cg (opsRel A G pl' H S.ready S.nonempty) k)
    (run_of_ensures (fun _ => A.zero) fun n => c40_cg A S k n _)

/-- **C53** for BiCGStab. -/
theorem c53_bicgstab (A : Arith V) (H : Nat → Handles) (S : SolverSetup G pl pl' base 5) (k : Nat) :
    LawfulRun (biCGStab A G pl base k) ((BiCGStab.solve recordOps k []).2.flatMap (launches G pl' H)) :=
  lawful_of H S rfl (c40_calls_bicgstab k) (rel_bicgstab (opsRel A G pl' H S.ready S.nonempty) k)
    (run_of_ensures (fun _ => A.zero) fun n => c40_bicgstab A S k n _)

/-- **C53** for GMRES with any restart length. -/
theorem c53_gmres (A : Arith V) (H : Nat → Handles) {m : Nat} (S : SolverSetup G pl pl' base (m + 1)) (k : Nat) :
    LawfulRun (gmres A G pl base m k) ((GMRES.solve recordOps m k []).2.flatMap (launches G pl' H)) :=
  lawful_of H S (by omega) (c40_calls_gmres m k) (rel_gmres (opsRel A G pl' H S.ready S.nonempty) m k)
    (run_of_ensures (fun _ => A.zero) fun n => c40_gmres A S k n _)

/-! ## Consequences -/

/-- The point tasks of a legal launch never touch an element another point task of the launch writes: they may all run at once. -/
theorem c53_independent {L : IndexLaunch (K ⊕ P)} (h : L.NonInterfering) {c c' : Nat} (hc : c < L.size) (hc' : c' < L.size)
    (hne : c ≠ c') {t t' : Task (Cell P) V} (ht : Declares t (L.point c)) (ht' : Declares t' (L.point c')) (d : Nat) (p : P)
    (hw : t.writes (.elem d p)) : ¬ t'.reads (.elem d p) ∧ ¬ t'.writes (.elem d p) := by
  obtain ⟨q, hq, h1, h2, h3⟩ := (ht d p).2.1 hw
  obtain ⟨r, hr, rfl⟩ := List.mem_map.1 hq
  obtain ⟨i, hi, rfl⟩ := List.getElem_of_mem hr
  have key : ∀ q' ∈ L.point c', q'.2.1 = .vector d → (Sum.inr p : K ⊕ P) ∈ q'.2.2 → False := by
    intro q' hq' h5 h6
    obtain ⟨r', hr', rfl⟩ := List.mem_map.1 hq'
    obtain ⟨j, hj, rfl⟩ := List.getElem_of_mem hr'
    exact h i j _ _ c c' (List.getElem?_eq_getElem hi) (List.getElem?_eq_getElem hj) hc hc' (fun e => hne (Prod.mk.inj e).2)
      ⟨h2.trans h5.symm, fun e => h1 e.1, _, h3, h6⟩
  constructor
  · intro hr
    obtain ⟨q', hq', -, h5, h6⟩ := (ht' d p).1.1 hr
    exact key q' hq' h5 h6
  · intro hr
    obtain ⟨q', hq', -, h5, h6⟩ := (ht' d p).2.1 hr
    exact key q' hq' h5 h6

/-! ## Builders -/

/-- The launches that fill a matrix (`create_equal_partition` makes disjoint pieces) are legal. -/
theorem c53_builders (colors n : Nat) (h : Handles) (pieces rowPieces : List (List X)) (h1 : pieces.flatten.Nodup)
    (h2 : rowPieces.flatten.Nodup) :
    ∀ L ∈ cooFill X colors n h pieces ++ csrFill X colors n h pieces rowPieces ++ csrLaplacianFill X colors n h pieces rowPieces,
      L.NonInterfering := by
  have hd : ∀ (a b : Nat) (l : List (List X)), l.flatten.Nodup → (⟨a, b, l⟩ : Part X).Disjoint :=
    fun a b l hl c c' x hc h1 h2 => piece_disjoint hl hc h1 h2
  intro L hL
  refine nonInterfering_of ?_ ?_
  · intro r hr
    simp only [cooFill, csrFill, csrLaplacianFill, List.mem_append, List.mem_cons, List.not_mem_nil, or_false] at hL
    rcases hL with ((rfl | rfl) | rfl | rfl)
    · simp only [List.mem_cons, List.not_mem_nil, or_false] at hr; subst hr; exact .inr (hd _ _ _ h1)
    · simp only [List.mem_cons, List.not_mem_nil, or_false] at hr
      rcases hr with rfl | rfl
      · exact .inr (hd _ _ _ h1)
      · exact .inr (hd _ _ _ h2)
    · simp only [List.mem_cons, List.not_mem_nil, or_false] at hr; subst hr; exact .inr (hd _ _ _ h1)
    · simp only [List.mem_cons, List.not_mem_nil, or_false] at hr; subst hr; exact .inr (hd _ _ _ h2)
  · simp only [cooFill, csrFill, csrLaplacianFill, List.mem_append, List.mem_cons, List.not_mem_nil, or_false] at hL
    rcases hL with ((rfl | rfl) | rfl | rfl) <;> simp

end Verif.Launch
