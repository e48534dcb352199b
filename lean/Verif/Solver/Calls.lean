import Verif.Solver.Props
import Verif.Solver.Frame

/-! # C40: the solvers stay inside their workspace -/
set_option linter.dupNamespace false
set_option linter.unusedSectionVars false
namespace Verif.Solver
open Verif.Runtime Verif.Vector Verif.Matrix Verif.Planner
variable {K P V : Type} [DecidableEq P] [DecidableEq K]
variable {G : Geometry P} {pl pl' : Planner K P V} {base : Nat}

/-! ## Effects, in any arithmetic -/

theorem outside_rhs {nw : Nat} (R : Ready G pl nw) {s s' : Cell P → V}
    (h : ∀ d p, (∀ k, k < nw + 2 → k ≠ 1 → ∀ u : pl.U G, (d, p) ≠ ((pl.vec k u.1.1).data, u.1.2)) →
        s' (.elem d p) = s (.elem d p)) : pl.content G s' 1 = pl.content G s 1 := by
  funext u
  apply h
  intro k hk hk1 u' he
  have h1 := (Prod.mk.injEq .. ▸ he).1
  have hu : ∀ u : pl.U G, u.1.1 < pl.spaces.length := fun u => Finset.mem_range.1 (Finset.mem_sigma.1 u.2).1
  exact hk1 (R.distinct 1 _ k _ (by omega) (hu u) hk (hu u') h1).1.symm

/-- Any arithmetic (rounding, overflow, NaN), any data: CG with `k` steps finishes under every schedule, records `k + 1` values,
leaves the right-hand side unchanged, and changes no element outside the solution and the three workspace vectors. -/
theorem c40_cg (A : Arith V) (S : SolverSetup G pl pl' base 3) (k n : Nat) (s : Cell P → V) :
    Ensures (cg A G pl base k) n s fun c s' => c.history.length = k + 1 ∧ pl'.content G s' 1 = pl'.content G s 1 ∧
      ∀ d p, (∀ j, j = 0 ∨ 2 ≤ j ∧ j < 5 → ∀ u : pl'.U G, (d, p) ≠ ((pl'.vec j u.1.1).data, u.1.2)) →
        s' (.elem d p) = s (.elem d p) := by
  obtain ⟨a, n', s', h1, h2, h3⟩ := safe_cg A S.ready S.order S.nonempty k n s
  exact ((Runs.allocate S.alloc n s).bind h1).ensures ⟨h2, outside_rhs S.ready h3.elem,
    fun d p hd => h3.elem d p fun j hj hj1 => hd j (by omega)⟩

/-- The same for BiCGStab: three histories, five workspace vectors. -/
theorem c40_bicgstab (A : Arith V) (S : SolverSetup G pl pl' base 5) (k n : Nat) (s : Cell P → V) :
    Ensures (biCGStab A G pl base k) n s fun c s' =>
      ((c.rhos ++ [c.rho]).length = k + 1 ∧ (c.alphas ++ [c.alpha]).length = k + 1 ∧ (c.omegas ++ [c.omega]).length = k + 1) ∧
      pl'.content G s' 1 = pl'.content G s 1 ∧
      ∀ d p, (∀ j, j = 0 ∨ 2 ≤ j ∧ j < 7 → ∀ u : pl'.U G, (d, p) ≠ ((pl'.vec j u.1.1).data, u.1.2)) →
        s' (.elem d p) = s (.elem d p) := by
  obtain ⟨a, n', s', h1, h2, h3⟩ := safe_bi A S.ready S.order S.nonempty k n s
  exact ((Runs.allocate S.alloc n s).bind h1).ensures ⟨h2, outside_rhs S.ready h3.elem,
    fun d p hd => h3.elem d p fun j hj hj1 => hd j (by omega)⟩

/-- The same for GMRES with any restart length `m`, `m + 1` workspace vectors. -/
theorem c40_gmres (A : Arith V) {m : Nat} (S : SolverSetup G pl pl' base (m + 1)) (k n : Nat) (s : Cell P → V) :
    Ensures (gmres A G pl base m k) n s fun _ s' => pl'.content G s' 1 = pl'.content G s 1 ∧
      ∀ d p, (∀ j, j = 0 ∨ 2 ≤ j ∧ j < m + 3 → ∀ u : pl'.U G, (d, p) ≠ ((pl'.vec j u.1.1).data, u.1.2)) →
        s' (.elem d p) = s (.elem d p) := by
  obtain ⟨a, n', s', h1, h2, h3⟩ := safe_gmres A S.ready S.order S.nonempty k n s
  exact ((Runs.allocate S.alloc n s).bind h1).ensures ⟨outside_rhs S.ready h3.elem,
    fun d p hd => h3.elem d p fun j hj hj1 => hd j (by omega)⟩

/-! ## The calls made on the planner -/

/-- A call that only names positions below `top`, does not write position 1 (the right-hand side) and does not multiply a vector
into itself. -/
def Call.Good (top : Nat) : Call → Prop
  | .zeroFill d => d < top ∧ d ≠ 1
  | .copy d x => d < top ∧ d ≠ 1 ∧ x < top ∧ d ≠ x
  | .scal d => d < top ∧ d ≠ 1
  | .axpy d x => d < top ∧ d ≠ 1 ∧ x < top ∧ d ≠ x
  | .xpay d x => d < top ∧ d ≠ 1 ∧ x < top ∧ d ≠ x
  | .dot v w => v < top ∧ w < top
  | .matvec d x => d < top ∧ d ≠ 1 ∧ x < top ∧ d ≠ x

/-- The number of products among calls. -/
def products (e : List Call) : Nat := (e.filter fun | .matvec _ _ => true | _ => false).length

/-- The program only makes calls satisfying `Good`, and exactly `n` products. -/
def Makes (top n : Nat) {α : Type} (m : StateM (List Call) α) : Prop :=
  ∀ l, ∃ a e, m l = (a, l ++ e) ∧ (∀ c ∈ e, Call.Good top c) ∧ products e = n

variable {top n n' : Nat} {α β : Type}

theorem Makes.pure (a : α) : Makes top 0 (pure a : StateM (List Call) α) :=
  fun l => ⟨a, [], by rw [List.append_nil]; rfl, by simp, rfl⟩

theorem Makes.bind {m : StateM (List Call) α} {f : α → StateM (List Call) β} (h : Makes top n m)
    (h' : ∀ a, Makes top n' (f a)) : Makes top (n + n') (m >>= f) := by
  intro l
  obtain ⟨a, e, h1, h2, c2⟩ := h l
  obtain ⟨b, e', h3, h4, c4⟩ := h' a (l ++ e)
  refine ⟨b, e ++ e', ?_, fun c hc => ?_, ?_⟩
  · show (match m l with | (a, l') => f a l') = _
    rw [h1]
    show f a (l ++ e) = _
    rw [h3, List.append_assoc]
  · rcases List.mem_append.1 hc with hc | hc
    · exact h2 c hc
    · exact h4 c hc
  · unfold products at *
    rw [List.filter_append, List.length_append, c2, c4]

theorem Makes.cast {m : StateM (List Call) α} (h : Makes top n m) (e : n = n') : Makes top n' m := e ▸ h

theorem Makes.call {c : Call} (h : c.Good top) : Makes top (products [c]) (modify (· ++ [c]) : StateM (List Call) Unit) :=
  fun l => ⟨(), [c], rfl, by simpa using h, rfl⟩

theorem Makes.dot {v w : Nat} (h : v < top ∧ w < top) : Makes top 0 (recordOps.dot v w) :=
  Makes.bind (n := 0) (n' := 0) (Makes.call (c := .dot v w) h) fun _ => Makes.pure _

theorem Makes.repeat {f : α → StateM (List Call) α} {Q : α → Prop} (h : ∀ a, Q a → Makes top n (f a))
    (hQ : ∀ a l, Q a → Q (f a l).1) (k : Nat) : ∀ a, Q a → Makes top (k * n) (repeatM f k a) := by
  induction k with
  | zero => exact fun a _ => (Makes.pure a).cast (by omega)
  | succ k ih =>
    intro a ha l
    obtain ⟨a', e, h1, h2, c2⟩ := h a ha l
    have hq : Q a' := by have := hQ a l ha; rw [h1] at this; exact this
    obtain ⟨b, e', h3, h4, c4⟩ := ih a' hq (l ++ e)
    refine ⟨b, e ++ e', ?_, fun c hc => ?_, ?_⟩
    · show (match f a l with | (a, l') => repeatM f k a l') = _
      rw [h1]
      show repeatM f k a' (l ++ e) = _
      rw [h3, List.append_assoc]
    · rcases List.mem_append.1 hc with hc | hc
      · exact h2 c hc
      · exact h4 c hc
    · unfold products at *
      rw [List.filter_append, List.length_append, c2, c4, Nat.succ_mul, Nat.add_comm]

/-- CG with any number of steps only calls the planner on the solution, right-hand side and its three vectors; one product a
step. -/
theorem c40_calls_cg (k : Nat) : Makes 5 k (CG.solve recordOps k) := by
  refine (Makes.bind (n := 0) (n' := k * 1) ?_ fun c => Makes.repeat (Q := fun _ => True) (fun c _ => ?_) (fun _ _ _ => trivial)
    k c trivial).cast (by omega)
  · refine Makes.bind (n := 0) (n' := 0) (Makes.pure _) fun _ => ?_
    refine Makes.bind (n := 0) (n' := 0) (Makes.call ⟨by decide, by decide, by decide, by decide⟩) fun _ => ?_
    refine Makes.bind (n := 0) (n' := 0) (Makes.call ⟨by decide, by decide, by decide, by decide⟩) fun _ => ?_
    refine Makes.bind (n := 0) (n' := 0) (Makes.dot ⟨by decide, by decide⟩) fun _ => ?_
    exact Makes.pure _
  · refine Makes.bind (n := 1) (n' := 0) (Makes.call ⟨by decide, by decide, by decide, by decide⟩) fun _ => ?_
    refine Makes.bind (n := 0) (n' := 0) (Makes.dot ⟨by decide, by decide⟩) fun _ => ?_
    refine Makes.bind (n := 0) (n' := 0) (Makes.call ⟨by decide, by decide, by decide, by decide⟩) fun _ => ?_
    refine Makes.bind (n := 0) (n' := 0) (Makes.call ⟨by decide, by decide, by decide, by decide⟩) fun _ => ?_
    refine Makes.bind (n := 0) (n' := 0) (Makes.dot ⟨by decide, by decide⟩) fun _ => ?_
    refine Makes.bind (n := 0) (n' := 0) (Makes.call ⟨by decide, by decide, by decide, by decide⟩) fun _ => ?_
    exact Makes.pure _

/-- BiCGStab: five vectors, two products a step. -/
theorem c40_calls_bicgstab (k : Nat) : Makes 7 (2 * k) (BiCGStab.solve recordOps k) := by
  refine (Makes.bind (n := 0) (n' := k * 2) ?_ fun c => Makes.repeat (Q := fun _ => True) (fun c _ => ?_) (fun _ _ _ => trivial)
    k c trivial).cast (by omega)
  · refine Makes.bind (n := 0) (n' := 0) (Makes.pure _) fun _ => ?_
    refine Makes.bind (n := 0) (n' := 0) (Makes.pure _) fun _ => ?_
    refine Makes.bind (n := 0) (n' := 0) (Makes.pure _) fun _ => ?_
    refine Makes.bind (n := 0) (n' := 0) (Makes.call ⟨by decide, by decide, by decide, by decide⟩) fun _ => ?_
    refine Makes.bind (n := 0) (n' := 0) (Makes.call ⟨by decide, by decide, by decide, by decide⟩) fun _ => ?_
    refine Makes.bind (n := 0) (n' := 0) (Makes.call ⟨by decide, by decide⟩) fun _ => ?_
    refine Makes.bind (n := 0) (n' := 0) (Makes.call ⟨by decide, by decide⟩) fun _ => ?_
    exact Makes.pure _
  · refine Makes.bind (n := 0) (n' := 2) (Makes.dot ⟨by decide, by decide⟩) fun _ => ?_
    refine Makes.bind (n := 0) (n' := 2) (Makes.pure _) fun _ => ?_
    refine Makes.bind (n := 0) (n' := 2) (Makes.pure _) fun _ => ?_
    refine Makes.bind (n := 0) (n' := 2) (Makes.pure _) fun _ => ?_
    refine Makes.bind (n := 0) (n' := 2) (Makes.pure _) fun _ => ?_
    refine Makes.bind (n := 0) (n' := 2) (Makes.call ⟨by decide, by decide, by decide, by decide⟩) fun _ => ?_
    refine Makes.bind (n := 0) (n' := 2) (Makes.call ⟨by decide, by decide, by decide, by decide⟩) fun _ => ?_
    refine Makes.bind (n := 1) (n' := 1) (Makes.call ⟨by decide, by decide, by decide, by decide⟩) fun _ => ?_
    refine Makes.bind (n := 0) (n' := 1) (Makes.dot ⟨by decide, by decide⟩) fun _ => ?_
    refine Makes.bind (n := 0) (n' := 1) (Makes.call ⟨by decide, by decide, by decide, by decide⟩) fun _ => ?_
    refine Makes.bind (n := 0) (n' := 1) (Makes.pure _) fun _ => ?_
    refine Makes.bind (n := 1) (n' := 0) (Makes.call ⟨by decide, by decide, by decide, by decide⟩) fun _ => ?_
    refine Makes.bind (n := 0) (n' := 0) (Makes.dot ⟨by decide, by decide⟩) fun _ => ?_
    refine Makes.bind (n := 0) (n' := 0) (Makes.dot ⟨by decide, by decide⟩) fun _ => ?_
    refine Makes.bind (n := 0) (n' := 0) (Makes.pure _) fun _ => ?_
    refine Makes.bind (n := 0) (n' := 0) (Makes.call ⟨by decide, by decide, by decide, by decide⟩) fun _ => ?_
    refine Makes.bind (n := 0) (n' := 0) (Makes.call ⟨by decide, by decide, by decide, by decide⟩) fun _ => ?_
    refine Makes.bind (n := 0) (n' := 0) (Makes.pure _) fun _ => ?_
    refine Makes.bind (n := 0) (n' := 0) (Makes.call ⟨by decide, by decide, by decide, by decide⟩) fun _ => ?_
    exact Makes.pure _

theorem makes_zeros (l : Nat) : Makes top 0 (zeros recordOps l) := by
  induction l with
  | zero => exact Makes.pure _
  | succ l ih =>
    unfold zeros
    refine Makes.bind (n := 0) (n' := 0) (Makes.pure _) fun _ => ?_
    exact Makes.bind (n := 0) (n' := 0) ih fun L => Makes.pure _

theorem makes_orthogonalise {m j : Nat} (hj : j < m) (l : List Nat) (hl : ∀ k ∈ l, k ≤ j) : ∀ h,
    Makes (m + 3) 0 (GMRES.orthogonalise recordOps j l h) := by
  induction l with
  | nil => intro h; exact Makes.pure _
  | cons k l ih =>
    intro h
    have hk := hl k (List.mem_cons_self ..)
    unfold GMRES.orthogonalise
    refine Makes.bind (n := 0) (n' := 0) (Makes.dot ⟨by unfold basis; omega, by unfold basis; omega⟩) fun d => ?_
    refine Makes.bind (n := 0) (n' := 0) (Makes.pure _) fun _ => ?_
    refine Makes.bind (n := 0) (n' := 0) (Makes.call
      ⟨by unfold basis; omega, by unfold basis; omega, by unfold basis; omega, by unfold basis; omega⟩) fun _ => ?_
    exact ih (fun k hk => hl k (List.mem_cons_of_mem _ hk)) _

theorem makes_columns {m : Nat} (l : List Nat) (hl : ∀ j ∈ l, j < m) : ∀ h,
    Makes (m + 3) l.length (GMRES.columns recordOps m l h) := by
  induction l with
  | nil => intro h; exact Makes.pure _
  | cons j l ih =>
    intro h
    have hj := hl j (List.mem_cons_self ..)
    unfold GMRES.columns
    refine (Makes.bind (n := 1) (n' := l.length) ?_ fun _ => ih (fun k hk => hl k (List.mem_cons_of_mem _ hk)) _).cast
      (by rw [List.length_cons]; omega)
    unfold GMRES.column
    refine Makes.bind (n := 1) (n' := 0) (Makes.call
      ⟨by unfold basis; omega, by unfold basis; omega, by unfold basis; omega, by unfold basis; omega⟩) fun _ => ?_
    refine Makes.bind (n := 0) (n' := 0) (makes_orthogonalise hj _ (fun k hk => by have := List.mem_range.1 hk; omega) _)
      fun _ => ?_
    refine Makes.bind (n := 0) (n' := 0) (Makes.dot ⟨by unfold basis; omega, by unfold basis; omega⟩) fun d => ?_
    refine Makes.bind (n := 0) (n' := 0) (Makes.pure _) fun _ => ?_
    split
    · refine Makes.bind (n := 0) (n' := 0) (Makes.pure _) fun _ => ?_
      refine Makes.bind (n := 0) (n' := 0) (Makes.call ⟨by unfold basis; omega, by unfold basis; omega⟩) fun _ => ?_
      exact Makes.pure _
    · exact Makes.pure _

theorem makes_update {m : Nat} (c : Unit) (l : List Nat) (hl : ∀ j ∈ l, j < m) :
    Makes (m + 3) 0 (GMRES.update recordOps c l) := by
  induction l with
  | nil => exact Makes.pure _
  | cons j l ih =>
    have hj := hl j (List.mem_cons_self ..)
    unfold GMRES.update
    refine Makes.bind (n := 0) (n' := 0) (Makes.call ⟨by omega, by omega, by unfold basis; omega, by unfold basis; omega⟩)
      fun _ => ?_
    exact ih (fun k hk => hl k (List.mem_cons_of_mem _ hk))

/-- GMRES with restart length `m`: `m + 1` vectors, `m + 1` products a cycle. -/
theorem c40_calls_gmres (m k : Nat) : Makes (m + 3) (k * (m + 1)) (GMRES.solve recordOps m k) := by
  intro l
  obtain ⟨c, e, h1, h2, h3⟩ : ∃ c e, GMRES.init recordOps m l = (c, l ++ e) ∧ (∀ c ∈ e, Call.Good (m + 3) c) ∧ products e = 0 := by
    have : Makes (m + 3) 0 (GMRES.init recordOps m) := by
      refine Makes.bind (n := 0) (n' := 0) (Makes.pure _) fun _ => ?_
      refine Makes.bind (n := 0) (n' := 0) (makes_zeros _) fun _ => ?_
      refine Makes.bind (n := 0) (n' := 0) (makes_zeros _) fun _ => ?_
      refine Makes.bind (n := 0) (n' := 0) (makes_zeros _) fun _ => ?_
      exact Makes.pure _
    exact this l
  have hrep : Makes (m + 3) (k * (m + 1)) (repeatM (GMRES.step recordOps) k c) := by
    refine Makes.repeat (Q := fun c => c.restart = m) (fun c hc => ?_) (fun c l hc => hc) k c (by
      have : (GMRES.init recordOps m l).1.restart = m := rfl
      rw [h1] at this; exact this)
    subst hc
    have hb : Makes (c.restart + 3) (c.restart + 1) (GMRES.build recordOps c) := by
      refine (Makes.bind (n := 1) (n' := c.restart) ?_ fun _ => ?_).cast (by omega)
      · refine Makes.bind (n := 1) (n' := 0) (Makes.call
          ⟨by unfold basis; omega, by unfold basis; omega, by omega, by unfold basis; omega⟩) fun _ => ?_
        refine Makes.bind (n := 0) (n' := 0) (Makes.call
          ⟨by unfold basis; omega, by unfold basis; omega, by omega, by unfold basis; omega⟩) fun _ => ?_
        refine Makes.bind (n := 0) (n' := 0) (Makes.dot ⟨by unfold basis; omega, by unfold basis; omega⟩) fun d => ?_
        refine Makes.bind (n := 0) (n' := 0) (Makes.pure _) fun _ => ?_
        exact Makes.call ⟨by unfold basis; omega, by unfold basis; omega⟩
      · refine (Makes.bind (n := c.restart) (n' := 0)
          ((makes_columns _ (fun j hj => List.mem_range.1 hj) _).cast List.length_range) fun _ => ?_)
        exact Makes.pure _
    intro l
    obtain ⟨c', e, q1, q2, q3⟩ := hb l
    have hc' : c'.restart = c.restart := by
      have : (GMRES.build recordOps c l).1.restart = c.restart := rfl
      rw [q1] at this; exact this
    have hf : Makes (c.restart + 3) 0 (GMRES.finish recordOps c' >>= fun _ => (pure c' : StateM (List Call) (GMRES Unit))) := by
      refine Makes.bind (n := 0) (n' := 0) ?_ fun _ => Makes.pure _
      unfold GMRES.finish
      rw [hc']
      refine Makes.bind (n := 0) (n' := 0) (Makes.pure _) fun _ => ?_
      exact makes_update _ _ (fun j hj => List.mem_range.1 hj)
    obtain ⟨b, e', q4, q5, q6⟩ := hf (l ++ e)
    refine ⟨b, e ++ e', ?_, fun c hc => ?_, ?_⟩
    · show (match GMRES.build recordOps c l with
        | (a, l') => (GMRES.finish recordOps a >>= fun _ => (pure a : StateM (List Call) (GMRES Unit))) l') = _
      rw [q1]
      show (GMRES.finish recordOps c' >>= fun _ => (pure c' : StateM (List Call) (GMRES Unit))) (l ++ e) = _
      rw [q4, List.append_assoc]
    · rcases List.mem_append.1 hc with hc | hc
      · exact q2 c hc
      · exact q5 c hc
    · unfold products at *
      rw [List.filter_append, List.length_append, q3, q6]
  obtain ⟨b, e', q4, q5, q6⟩ := hrep (l ++ e)
  refine ⟨b, e ++ e', ?_, fun c hc => ?_, ?_⟩
  · show (match GMRES.init recordOps m l with | (a, l') => repeatM (GMRES.step recordOps) k a l') = _
    rw [h1]
    show repeatM (GMRES.step recordOps) k c (l ++ e) = _
    rw [q4, List.append_assoc]
  · rcases List.mem_append.1 hc with hc | hc
    · exact h2 c hc
    · exact q5 c hc
  · unfold products at *
    rw [List.filter_append, List.length_append, h3, q6, Nat.zero_add]

end Verif.Solver
