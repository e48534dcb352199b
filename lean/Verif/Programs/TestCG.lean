import Verif.Programs.Print
import Verif.Programs.LineMath
import Verif.EndToEnd.Line

/-! # C65: the output of `Test05COOSolveCG` and `Test06CSRSolveCG` -/
set_option linter.dupNamespace false
set_option linter.unusedSectionVars false
namespace Verif.Programs
open Verif.Runtime Verif.Vector Verif.Matrix Verif.Planner Verif.Textbook Verif.Solver Verif.EndToEnd Verif.Laplacian
open _root_.Matrix

section
variable {P V α β : Type} [DecidableEq P]

theorem EnsuresOutput.mono {m : M P V (α × List (PrintJob (Cell P)))} {n : Nat} {s : Cell P → V}
    {Q R : α → List V → (Cell P → V) → Prop} (h : EnsuresOutput m n s Q) (hi : ∀ a o σ, Q a o σ → R a o σ) :
    EnsuresOutput m n s R := by
  obtain ⟨a, jobs, n', ts, h1, h2, h3⟩ := h
  exact ⟨a, jobs, n', ts, h1, h2, fun log M' h4 h5 => hi _ _ _ (h3 log M' h4 h5)⟩

/-- Forgetting part of the result. -/
theorem EnsuresOutput.map {m : M P V (α × List (PrintJob (Cell P)))} {n : Nat} {s : Cell P → V}
    {Q : α → List V → (Cell P → V) → Prop} (h : EnsuresOutput m n s Q) (f : α → β) {m' : M P V (β × List (PrintJob (Cell P)))}
    {R : β → List V → (Cell P → V) → Prop}
    (hm : m' ⟨n, []⟩ = (m ⟨n, []⟩).map fun r => ((f r.1.1, r.1.2), r.2)) (hi : ∀ a o σ, Q a o σ → R (f a) o σ) :
    EnsuresOutput m' n s R := by
  obtain ⟨a, jobs, n', ts, h1, h2, h3⟩ := h
  refine ⟨f a, jobs, n', ts, by rw [hm, h1]; rfl, h2, fun log M' h4 h5 => hi _ _ _ (h3 log M' h4 h5)⟩

theorem WP.lift {o : Option α} {a : α} (ho : o = some a) {f : α → M P V β} {n : Nat} {s : Cell P → V}
    {Φ : β → Nat → (Cell P → V) → Prop} (h : WP (f a) n s Φ) : WP (lift o >>= f) n s Φ := by
  subst ho
  exact WP.bind ⟨a, n, s, ⟨[], fun out => by rw [List.append_nil]; rfl, fun t ht => (by cases ht), rfl⟩, h⟩

theorem newVector_partition {G : Geometry P} (hG : G.Valid) {part d : Nat} {v : Vec} (h : newVector G part d = some v) :
    IsPartition (G.points (G.parent part)) (G.toEnv.pieces v.part) := by
  rw [newVector_eq h]
  unfold newVector at h
  split at h
  · rename_i hc
    rw [Bool.and_eq_true] at hc
    refine ⟨of_decide_eq_true hc.1, fun p => ⟨hG part p, fun hp => ?_⟩⟩
    have := List.all_eq_true.1 hc.2 p hp
    exact of_decide_eq_true this
  · cases h

theorem pick_range {γ : Type} (l : List γ) : ∀ k, k ≤ l.length → pick l (List.range k) = some (l.take k) := by
  have gen : ∀ (js : List Nat) (r : List γ), js.length = r.length → (∀ (i : Nat) (j : Nat) (a : γ), js[i]? = some j → r[i]? = some a → l[j]? = some a) →
      pick l js = some r := by
    intro js
    induction js with
    | nil => intro r hr _; rw [List.length_eq_zero_iff.1 hr.symm]; rfl
    | cons j js ih =>
      intro r hr h
      cases r with
      | nil => cases hr
      | cons a r =>
        show (l[j]?).bind _ = _
        rw [h 0 j a rfl rfl]
        show (pick l js).map _ = _
        rw [ih r (Nat.succ.inj hr) fun i j a h1 h2 => h (i + 1) j a h1 h2]
        rfl
  intro k hk
  apply gen
  · rw [List.length_range, List.length_take]; omega
  · intro i j a h1 h2
    rw [List.getElem?_eq_some_iff] at h1
    obtain ⟨h1, rfl⟩ := h1
    rw [List.getElem_range]
    rw [List.length_range] at h1
    rw [List.getElem?_take_of_lt h1] at h2
    exact h2

end

variable {V : Type} [Field V] [CharZero V]

/-- The matrix of the planner is that of the line. -/
theorem lineSystem {G : Geometry Int} {part : Nat} {n : Int} {m : Op Int Int V} {pl' : Planner Int Int V}
    (hG : ∀ i, i ∈ G.points (G.parent part) ↔ 0 ≤ i ∧ i < n)
    (hc : ∀ i j, 0 ≤ i → i < n → 0 ≤ j → j < n → m.coef i j = shiftCoef [(lineShift, (1 : V))] i j)
    (hsp : pl'.spaces = [G.parent part]) (hop : pl'.ops.map (fun r => (r.matrix, r.dom, r.rng)) = [(m, 0, 0)]) :
    LineSystem n (1 : V) (fun u : pl'.U G => u.1.2) (pl'.operator G) := by
  have hS : ∀ i, i ∈ (G.points (G.parent part)).toFinset ↔ 0 ≤ i ∧ i < n := fun p => by rw [List.mem_toFinset, hG]
  have hI : (G.points (G.parent part)).toFinset = Finset.Ico 0 n := by ext i; rw [hS, Finset.mem_Ico]
  have hsum : ∀ f : Int → V, ∑ u : pl'.U G, f u.1.2 = ∑ i ∈ (G.points (G.parent part)).toFinset, f i := by
    intro f
    rw [← (singleEquiv hsp).symm.sum_comp, ← Finset.sum_attach (G.points (G.parent part)).toFinset f, Finset.univ_eq_attach]
    rfl
  have hmem : ∀ u : pl'.U G, 0 ≤ u.1.2 ∧ u.1.2 < n := fun u => (hS _).1 ((single_mem hsp u.1).1 u.2).2
  refine ⟨hmem, fun f => by rw [hsum, hI, one_mul], fun f hf u => ?_⟩
  show ∑ v, pl'.operator G u v * f v.1.2 = _
  have e : ∀ v : pl'.U G, pl'.operator G u v * f v.1.2 = (fun j => shiftCoef [(lineShift, (1 : V))] u.1.2 j * f j) v.1.2 := by
    intro v
    rw [single_operator hsp hop, hc _ _ (hmem u).1 (hmem u).2 (hmem v).1 (hmem v).2]
  rw [Finset.sum_congr rfl fun v _ => e v, hsum (fun j => shiftCoef [(lineShift, (1 : V))] u.1.2 j * f j),
    shiftCoef_apply [(lineShift, (1 : V))] _ f (fun j hj => hf j fun h => hj ((hS j).2 h))]
  simp only [List.map_cons, List.map_nil, List.sum_cons, List.sum_nil]
  rw [show lineShift.symm u.1.2 = u.1.2 - 1 from by rw [Equiv.symm_apply_eq]; simp [lineShift]]
  show 1 * (2 * _ - f (u.1.2 + 1) - _) + 0 = _
  ring

theorem testSolveCG_line {A : Arith V} (hA : A.Exact) (n : Int) (hn : 0 ≤ n) (m : Op Int Int V) {G : Geometry Int}
    {part d0 d1 base : Nat} {v0 v1 : Vec}
    (hG : ∀ i, i ∈ G.points (G.parent part) ↔ 0 ≤ i ∧ i < n) (h : Single G part d0 d1 base v0 v1 m)
    (hc : ∀ i j, 0 ≤ i → i < n → 0 ≤ j → j < n → m.coef i j = shiftCoef [(lineShift, (1 : V))] i j) (t : Nat)
    (s : Cell Int → V) (k : Nat) (hk : 2 * (k : Int) ≤ n + 1) :
    EnsuresOutput (testSolveCG A G part d0 d1 base m k) t s fun _ out σ =>
      out = (List.range (k + 1)).map (fun j : Nat => lineResidual V n j) ∧
      ∀ i, 0 ≤ i → i < n → σ (.elem d0 i) = lineIterate V n k i := by
  obtain ⟨pl, pl', hpl, S, hsp, hso, hrh, hop⟩ := h.setup 3
  have e0 : v0.data = d0 := by rw [newVector_eq h.sol]
  have e1 : v1.data = d1 := by rw [newVector_eq h.rhs]
  have L := lineSystem hG hc hsp hop
  have hmem : ∀ u : pl'.U G, u.1.2 ∈ G.points (G.parent part) := fun u => (hG _).2 (L.mem u)
  -- memory when the solver starts
  let s1 := setVec s v1 (G.points (G.parent part)) fun _ => A.one
  let s2 := setVec s1 v0 (G.points (G.parent part)) fun _ => A.zero
  have c0 : pl'.content G s2 0 = 0 := by
    funext u
    rw [single_content0 hsp hso]
    show setVec s1 v0 _ _ _ = 0
    rw [setVec_elem, if_pos ⟨rfl, hmem u⟩, hA.zero]
  have c1 : pl'.content G s2 1 = fun _ => 1 := by
    funext u
    rw [single_content1 hsp hrh]
    show setVec s1 v0 _ _ _ = 1
    rw [setVec_elem, if_neg (fun hx => h.distinct (by rw [← e0, ← e1]; exact hx.1.symm))]
    show setVec s v1 _ _ _ = 1
    rw [setVec_elem, if_pos ⟨rfl, hmem u⟩, hA.one]
  have hreg : CGRegular (pl'.operator G) (pl'.content G s2 0) (pl'.content G s2 1) k := by
    rw [c0, c1]
    exact L.regular one_ne_zero hn k hk
  have hcg : ∀ j, j ≤ k → Textbook.cg (pl'.operator G) (pl'.content G s2 0) (pl'.content G s2 1) j =
      lineState n (fun u : pl'.U G => u.1.2) j := by
    intro j hj
    rw [c0, c1]
    exact L.cg one_ne_zero hn j (by omega)
  have hpre : WP (testSolve A G part d0 d1 base m k) t s fun r n' s' => (∀ x ∈ r.2, x.fut < n') ∧
      r.2.map (fun x => s' (.fut x.fut)) = (List.range (k + 1)).map (fun j : Nat => lineResidual V n j) ∧
      ∀ i, 0 ≤ i → i < n → s' (.elem d0 i) = lineIterate V n k i := by
    refine WP.lift h.rhs (WP.bind ⟨(), t, s1, Runs.constantFill _ _ _ _ (newVector_partition h.valid h.rhs) t s, ?_⟩)
    refine WP.lift h.sol (WP.bind ⟨(), t, s2, Runs.constantFill _ _ _ _ (newVector_partition h.valid h.sol) t s1, ?_⟩)
    refine WP.lift hpl (WP.bind ((cg_wp hA S k t s2 hreg).mono fun c n' s' hI => ?_))
    have hlen : c.history.length = k + 1 := by
      unfold CG.history
      rw [List.length_append, hI.1.len]; rfl
    refine WP.lift (pick_range c.history (k + 1) (Nat.le_of_eq hlen.symm)) (WP.pure ?_)
    rw [List.take_of_length_le (Nat.le_of_eq hlen)]
    have hden : ∀ (i : Nat) x, c.history[i]? = some x → i ≤ k ∧ Den n' s' x (lineResidual V n i) := by
      intro i x hx
      have hi : i ≤ k := by
        have := (List.getElem?_eq_some_iff.1 hx).1
        omega
      obtain ⟨a, ha, hd⟩ := hI.1.hist i hi
      rw [hx] at ha
      cases ha
      refine ⟨hi, ?_⟩
      rw [hcg i hi, L.rr hn, one_mul] at hd
      exact hd
    refine ⟨fun x hx => ?_, ?_, fun i hi0 hi => ?_⟩
    · obtain ⟨i, hi⟩ := List.getElem?_of_mem hx
      exact (hden i x hi).2.1
    · apply List.ext_getElem
      · simp [hlen]
      · intro i h1 h2
        simp only [List.length_map] at h1
        simp only [List.getElem_map, List.getElem_range]
        exact (hden i _ (List.getElem?_eq_getElem h1)).2.2
    · have hx := hI.1.contents.2.1
      rw [hcg k (Nat.le_refl _)] at hx
      have hi' : i ∈ (G.points (G.parent part)).toFinset := List.mem_toFinset.2 ((hG i).2 ⟨hi0, hi⟩)
      have := congrFun hx ((singleEquiv hsp).symm ⟨i, hi'⟩)
      rw [single_content0 hsp hso, e0] at this
      exact this
  obtain ⟨r, n', s', hr, h1, h2, h3⟩ := hpre
  refine (Runs.thenPrint (A := A) hr (fun r => r.2) h1).map Prod.fst ?_ fun a o σ hq => ⟨?_, fun i hi0 hi => ?_⟩
  · show ((testSolve A G part d0 d1 base m k ⟨t, []⟩).bind fun r => (printAll A r.1.2 r.2).bind fun q => some ((r.1.1, q.1), q.2)) =
      ((testSolve A G part d0 d1 base m k ⟨t, []⟩).bind fun r => (printAll A r.1.2 r.2).bind fun q => some ((r.1, q.1), q.2)).map _
    cases testSolve A G part d0 d1 base m k ⟨t, []⟩ with
    | none => rfl
    | some r =>
      show (printAll A r.1.2 r.2).bind _ = ((printAll A r.1.2 r.2).bind _).map _
      cases printAll A r.1.2 r.2 <;> rfl
  · rw [hq.2.1, h2]
  · rw [hq.2.2 _ fun f _ e => (by cases e), h3 i hi0 hi]

/-! ## C65 -/

/-- **C65**, `Test05COOSolveCG`: for every grid size, every cutting of the spaces, from any memory, in exact arithmetic and under every
schedule, the program with `k` iterations, as long as `2 k ≤ n + 1`, prints the squared residual norms `n`, then
`(n - 2j) (n - 2j + 2) / 2` for the steps `j = 1 … k`, and leaves the closed-form iterate in the solution vector. -/
theorem c65_coo {A : Arith V} (hA : A.Exact) (n : Int) (hn : 0 ≤ n) (pieces : List (List Int)) (hp : Covers pieces (kernelSize n))
    (junk : COO Int Int V) {G : Geometry Int} {part d0 d1 base : Nat} {v0 v1 : Vec}
    (hv : TwoVectors G part d0 d1 base v0 v1) (hG : ∀ i, i ∈ G.points (G.parent part) ↔ 0 ≤ i ∧ i < n) (t : Nat)
    (s : Cell Int → V) (k : Nat) (hk : 2 * (k : Int) ≤ n + 1) :
    EnsuresOutput (testSolveCG A G part d0 d1 base (Op.coo (createCOOLaplacian (fun z : Int => (z : V)) n pieces junk)) k) t s
      fun _ out σ =>
        out = (List.range (k + 1)).map (fun j : Nat => lineResidual V n j) ∧
        ∀ i, 0 ≤ i → i < n → σ (.elem d0 i) = lineIterate V n k i := by
  have h2 := coo_line_holds n pieces hp junk
  refine testSolveCG_line hA n hn _ hG ⟨hv, ?_⟩ (fun i j hi0 hi hj0 hj => ?_) t s k hk
  · exact h2.col_mem fun e he => (hG _).2 (lineTriples_col n e he)
  · rw [h2.coef, line_coef n i j hi0 hi hj0 hj]

/-- **C65**, `Test06CSRSolveCG` (at least two grid points). -/
theorem c65_csr {A : Arith V} (hA : A.Exact) (n : Int) (hn : 2 ≤ n) (pieces rowPieces : List (List Int))
    (hp : Covers pieces (kernelSize n)) (hr : Covers rowPieces n)
    (junk : CSR Int Int V) {G : Geometry Int} {part d0 d1 base : Nat} {v0 v1 : Vec}
    (hv : TwoVectors G part d0 d1 base v0 v1) (hG : ∀ i, i ∈ G.points (G.parent part) ↔ 0 ≤ i ∧ i < n) (t : Nat)
    (s : Cell Int → V) (k : Nat) (hk : 2 * (k : Int) ≤ n + 1) :
    EnsuresOutput (testSolveCG A G part d0 d1 base
        (Op.csr (createCSRLaplacian (fun z : Int => (z : V)) n pieces rowPieces junk)) k) t s
      fun _ out σ =>
        out = (List.range (k + 1)).map (fun j : Nat => lineResidual V n j) ∧
        ∀ i, 0 ≤ i → i < n → σ (.elem d0 i) = lineIterate V n k i := by
  have h2 := csr_line_holds n hn pieces rowPieces hp hr junk
  have hrows : ∀ i, i ∈ (createCSRLaplacian (fun z : Int => (z : V)) n pieces rowPieces junk).rows ↔ 0 ≤ i ∧ i < n := by
    intro i
    show i ∈ indices n.toNat ↔ _
    rw [mem_indices]
    omega
  refine testSolveCG_line hA n (by omega) _ hG ⟨hv, ?_⟩ (fun i j hi0 hi hj0 hj => ?_) t s k hk
  · exact ⟨h2.col_mem fun e he => (hG _).2 (lineTriples_col n e he), fun i => by rw [hrows, hG], h2.rowsDisjoint⟩
  · rw [h2.coef i j ((hrows i).2 ⟨hi0, hi⟩), line_coef n i j hi0 hi hj0 hj]

/-- The closed-form iterate is the solution of `2 x_i - x_{i-1} - x_{i+1} = 1` exactly from half the grid size on: the test program's
answer is right if and only if it is given enough iterations. -/
theorem c65_solution (n : Int) (k : Nat) :
    SolvesLine n (fun i => lineIterate V n k i) (fun _ => (1 : V)) ↔ n ≤ 2 * (k : Int) := by
  have hon : ∀ i, -1 ≤ i → i ≤ n → onLine n (fun i => lineIterate V n k i) i = lineIterate V n k i := by
    intro i h0 h1
    unfold onLine
    split
    · rfl
    · unfold lineIterate
      simp only
      rw [show min (k : Int) (min (i + 1) (n - i)) = 0 by omega]
      simp
  constructor
  · intro h
    refine le_of_not_gt fun hlt => ?_
    have h1 := h k (by omega) (by omega)
    rw [hon k (by omega) (by omega), hon (k - 1) (by omega) (by omega), hon (k + 1) (by omega) (by omega)] at h1
    unfold lineIterate at h1
    simp only at h1
    rw [show min (k : Int) (min ((k : Int) + 1) (n - k)) = k by omega,
      show min (k : Int) (min ((k : Int) - 1 + 1) (n - (k - 1))) = k by omega,
      show min (k : Int) (min ((k : Int) + 1 + 1) (n - (k + 1))) = k by omega] at h1
    have : (0 : V) = 1 := by rw [← h1]; ring
    exact zero_ne_one this
  · intro h i h0 h1
    show _ = (1 : V)
    have val : ∀ i : Int, -1 ≤ i → i ≤ n → lineIterate V n k i = ((i : V) + 1) * ((n : V) - i) / 2 := by
      intro i h0 h1
      unfold lineIterate
      simp only
      rcases le_total (i + 1) (n - i) with hle | hle
      · rw [show min (k : Int) (min (i + 1) (n - i)) = i + 1 by omega]
        push_cast
        ring
      · rw [show min (k : Int) (min (i + 1) (n - i)) = n - i by omega]
        push_cast
        ring
    rw [hon i (by omega) (by omega), hon (i - 1) (by omega) (by omega), hon (i + 1) (by omega) (by omega), val i (by omega) (by omega),
      val (i - 1) (by omega) (by omega), val (i + 1) (by omega) (by omega)]
    have h2 : (2 : V) ≠ 0 := two_ne_zero
    push_cast
    field_simp
    ring

end Verif.Programs
