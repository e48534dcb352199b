import Verif.Rounding.Planner
import Verif.Solver.Client

/-! # C67: unknowns that cannot be told apart stay equal, in any arithmetic

Nothing is assumed about the arithmetic: rounding, infinities and NaN are included. -/
set_option linter.dupNamespace false
set_option linter.unusedSectionVars false
namespace Verif.Solver
open Verif.Runtime Verif.Vector Verif.Matrix Verif.Planner
variable {K P V α β : Type} [DecidableEq P] [DecidableEq K]

/-! ## The specification -/

/-- The stored entries of a row of the client's system: those of the matrices added for this row block, in the order added, each in
the order in which it stores them; column (block and point) and coefficient. -/
def clientStored (calls : List (Setup K P V)) (u : Σ _ : Nat, P) : List ((Σ _ : Nat, P) × V) :=
  (mats calls).flatMap fun t => if t.2.2 = u.1 then (t.1.stored u.2).map fun e => (⟨t.2.1, e.1⟩, e.2) else []

/-- Two unknowns hold equal values in a list of vectors, one per block. -/
def SameValue (vs : List Vec) (s : Cell P → V) (u u' : Σ _ : Nat, P) : Prop :=
  ∀ v v', vs[u.1]? = some v → vs[u'.1]? = some v' → s (.elem v.data u.2) = s (.elem v'.data u'.2)

/-- `E` relates unknowns that cannot be told apart: their rows store the same coefficients in the same order, in columns that again
cannot be told apart; their right-hand sides and initial values are equal. -/
structure Indistinguishable (G : Geometry P) (calls : List (Setup K P V)) (s : Cell P → V) (E : (Σ _ : Nat, P) → (Σ _ : Nat, P) → Prop) :
    Prop where
  unknowns : ∀ u u', E u u' → u ∈ clientUnknowns G calls ∧ u' ∈ clientUnknowns G calls
  rows : ∀ u u', E u u' → List.Forall₂ (fun t t' => E t.1 t'.1 ∧ t.2 = t'.2) (clientStored calls u) (clientStored calls u')
  sol : ∀ u u', E u u' → SameValue (sols calls) s u u'
  rhs : ∀ u u', E u u' → SameValue (rhss calls) s u u'

/-! ## The invariant -/

variable {G : Geometry P} {pl : Planner K P V} {nw : Nat} {A : Arith V} {E : (Σ _ : Nat, P) → (Σ _ : Nat, P) → Prop}

/-- Related unknowns are equal in planner vector `k`. -/
def Alike (E : (Σ _ : Nat, P) → (Σ _ : Nat, P) → Prop) (pl : Planner K P V) (s : Cell P → V) (k : Nat) : Prop :=
  ∀ u u', E u u' → s (.elem (pl.vec k u.1).data u.2) = s (.elem (pl.vec k u'.1).data u'.2)

/-- Related unknowns of the planner. -/
structure Symmetric (E : (Σ _ : Nat, P) → (Σ _ : Nat, P) → Prop) (G : Geometry P) (pl : Planner K P V) : Prop where
  unknowns : ∀ u u', E u u' → u ∈ pl.unknowns G ∧ u' ∈ pl.unknowns G
  rows : ∀ u u', E u u' → List.Forall₂ (fun t t' => E t.1 t'.1 ∧ t.2 = t'.2) (pl.stored u.1 u.2) (pl.stored u'.1 u'.2)

/-- If the vectors in `D` respect the relation, the program runs to the end and then the vectors in `D'` respect it. -/
def Keeps (E : (Σ _ : Nat, P) → (Σ _ : Nat, P) → Prop) (pl : Planner K P V) (D : Nat → Prop) (m : M P V α) (Q : α → Prop)
    (D' : Nat → Prop) : Prop :=
  ∀ n s, (∀ k, D k → Alike E pl s k) → ∃ a n' s', Runs m n s a n' s' ∧ Q a ∧ ∀ k, D' k → Alike E pl s' k

/-- One more vector. -/
def also (d : Nat) (D : Nat → Prop) : Nat → Prop := fun k => k = d ∨ D k

theorem Keeps.pure {a : α} {Q : α → Prop} {D D' : Nat → Prop} (h : Q a) (hD : ∀ k, D' k → D k) :
    Keeps E pl D (pure a : M P V α) Q D' := fun n s hs => ⟨a, n, s, Runs.pure a n s, h, fun k hk => hs k (hD k hk)⟩

theorem Keeps.bind {m : M P V α} {f : α → M P V β} {Q : α → Prop} {S : β → Prop} {D D1 D2 : Nat → Prop} (h : Keeps E pl D m Q D1)
    (h' : ∀ a, Q a → Keeps E pl D1 (f a) S D2) : Keeps E pl D (m >>= f) S D2 := by
  intro n s hs
  obtain ⟨a, n1, s1, r1, q1, t1⟩ := h n s hs
  obtain ⟨b, n2, s2, r2, q2, t2⟩ := h' a q1 n1 s1 t1
  exact ⟨b, n2, s2, r1.bind r2, q2, t2⟩

theorem Keeps.weaken {m : M P V α} {Q Q' : α → Prop} {D D1 D2 : Nat → Prop} (h : Keeps E pl D m Q D1) (hQ : ∀ a, Q a → Q' a)
    (hD : ∀ k, D2 k → D1 k) : Keeps E pl D m Q' D2 := by
  intro n s hs
  obtain ⟨a, n1, s1, r1, q1, t1⟩ := h n s hs
  exact ⟨a, n1, s1, r1, hQ a q1, fun k hk => t1 k (hD k hk)⟩

theorem Keeps.repeat {f : α → M P V α} {Q : α → Prop} {D : Nat → Prop} (h : ∀ a, Q a → Keeps E pl D (f a) Q D) :
    ∀ (j : Nat) (a : α), Q a → Keeps E pl D (repeatM f j a) Q D := by
  intro j
  induction j with
  | zero => intro a ha; exact Keeps.pure ha fun _ hk => hk
  | succ j ih => intro a ha; exact Keeps.bind (h a ha) fun a' ha' => ih a' ha'

/-- Writing vector `d`. -/
theorem Keeps.block (R : Ready G pl nw) (S : Symmetric E G pl) {m : M P V Unit} {d : Nat} (hd : d < nw + 2) {D : Nat → Prop}
    (hD : ∀ k, D k → k < nw + 2)
    (h : ∀ n s, (∀ k, D k → Alike E pl s k) → ∃ s' g, Runs m n s () n s' ∧ BlockSet G pl s s' d g ∧
      ∀ u u', E u u' → g u.1 u.2 = g u'.1 u'.2) : Keeps E pl D m (fun _ => True) (also d D) := by
  intro n s hs
  obtain ⟨s', g, r, ⟨b1, b2⟩, hg⟩ := h n s hs
  refine ⟨(), n, s', r, trivial, fun k hk u u' he => ?_⟩
  obtain ⟨hu, hu'⟩ := S.unknowns u u' he
  have m1 := Planner.mem_unknowns (G := G) (pl := pl) ⟨u, hu⟩
  have m2 := Planner.mem_unknowns (G := G) (pl := pl) ⟨u', hu'⟩
  by_cases hkd : k = d
  · subst hkd
    rw [b1 _ m1.1 _ m1.2, b1 _ m2.1 _ m2.2]
    exact hg u u' he
  · have hk' : D k := hk.resolve_left hkd
    have other : ∀ w : Σ _ : Nat, P, w.1 < pl.spaces.length → s' (.elem (pl.vec k w.1).data w.2) = s (.elem (pl.vec k w.1).data w.2) := by
      intro w hw
      apply b2
      intro i hi p _ e
      injection e with e _
      exact hkd (R.distinct k w.1 d i (hD k hk') hw hd hi e).1
    rw [other u m1.1, other u' m2.1]
    exact hs k hk' u u' he

/-- Programs that only make scalars. -/
theorem Keeps.of_safe {m : M P V α} {Q : α → Prop} {D : Nat → Prop}
    (h : ∀ n s, ∃ a n' s', Runs m n s a n' s' ∧ Q a ∧ ∀ d p, s' (.elem d p) = s (.elem d p)) : Keeps E pl D m Q D := by
  intro n s hs
  obtain ⟨a, n', s', r, q, t⟩ := h n s
  exact ⟨a, n', s', r, q, fun k hk u u' he => by rw [t, t]; exact hs k hk u u' he⟩

theorem Keeps.newScalar {m : M P V Scalar} {D : Nat → Prop} (h : ∀ n s, ∃ v, Runs m n s ⟨n⟩ (n + 1) (setFut s n v)) :
    Keeps E pl D m (fun _ => True) D := by
  apply Keeps.of_safe
  intro n s
  obtain ⟨v, r⟩ := h n s
  exact ⟨_, _, _, r, trivial, fun _ _ => rfl⟩

section
variable {D : Nat → Prop}

theorem Keeps.const (v : V) : Keeps E pl D (scalarOf v) (fun _ => True) D := Keeps.newScalar fun n s => ⟨_, Runs.scalarOf v n s⟩
theorem Keeps.neg (a : Scalar) : Keeps E pl D ((plannerOps A G.toEnv pl).neg a) (fun _ => True) D :=
  Keeps.newScalar fun n s => ⟨_, Runs.unary A.neg a n s⟩
theorem Keeps.mul (a b : Scalar) : Keeps E pl D ((plannerOps A G.toEnv pl).mul a b) (fun _ => True) D :=
  Keeps.newScalar fun n s => ⟨_, Runs.binary A.mul a b n s⟩
theorem Keeps.div (a b : Scalar) : Keeps E pl D ((plannerOps A G.toEnv pl).div a b) (fun _ => True) D :=
  Keeps.newScalar fun n s => ⟨_, Runs.binary A.div a b n s⟩
theorem Keeps.sqrt (a : Scalar) : Keeps E pl D ((plannerOps A G.toEnv pl).sqrt a) (fun _ => True) D :=
  Keeps.newScalar fun n s => ⟨_, Runs.unary A.sqrt a n s⟩
theorem Keeps.rsqrt (a : Scalar) : Keeps E pl D ((plannerOps A G.toEnv pl).rsqrt a) (fun _ => True) D :=
  Keeps.newScalar fun n s => ⟨_, Runs.unary (fun x => A.div A.one (A.sqrt x)) a n s⟩
theorem Keeps.dummy (l : List Scalar) : Keeps E pl D ((plannerOps A G.toEnv pl).dummy l) (fun _ => True) D :=
  Keeps.newScalar fun n s => ⟨_, (Runs.fresh n s).bind ((Runs.scalarTask1 (l.map Scalar.fut) (fun _ => A.one) (n + 1) n s
      (fun _ _ _ => rfl)).bind (Runs.pure _ _ _))⟩

theorem keeps_blockDot (A : Arith V) (R : Ready G pl nw) (hord : ∀ f l, (G.redOrder f l).Perm l) {v w i : Nat} (hv : v < nw + 2)
    (hw : w < nw + 2) (hi : i < pl.spaces.length) : Keeps E pl D (do
      let x ← pl.getVector v i; let y ← pl.getVector w i
      Verif.Vector.dot A G.toEnv x y : M P V Scalar) (fun _ => True) D := by
  apply Keeps.of_safe
  intro n s
  obtain ⟨a, b, c⟩ := R.compat hv hw hi
  exact ⟨_, _, _, (Runs.getVector R hv hi n s).bind ((Runs.getVector R hw hi n s).bind
    (Runs.dot A G.toEnv _ _ a b c n s (hord _ _))), trivial, fun _ _ => rfl⟩

theorem keeps_dotLoop (A : Arith V) (R : Ready G pl nw) (hord : ∀ f l, (G.redOrder f l).Perm l) {v w : Nat} (hv : v < nw + 2)
    (hw : w < nw + 2) (l : List Nat) (hl : ∀ i ∈ l, i < pl.spaces.length) :
    ∀ r, Keeps E pl D (pl.dotLoop A G.toEnv v w l r) (fun _ => True) D := by
  induction l with
  | nil => intro r; exact Keeps.pure trivial fun _ h => h
  | cons i l ih =>
    intro r
    unfold Planner.dotLoop
    rw [bind_assoc3]
    refine Keeps.bind (keeps_blockDot A R hord hv hw (hl i (List.mem_cons_self ..))) fun d _ => ?_
    refine Keeps.bind (Keeps.newScalar fun n s => ⟨_, Runs.binary A.add r d n s⟩) fun r' _ => ?_
    exact ih (fun j hj => hl j (List.mem_cons_of_mem _ hj)) r'

theorem Keeps.dot (A : Arith V) (R : Ready G pl nw) (hord : ∀ f l, (G.redOrder f l).Perm l) (hns : 0 < pl.spaces.length)
    {v w : Nat} (hv : v < nw + 2) (hw : w < nw + 2) : Keeps E pl D ((plannerOps A G.toEnv pl).dot v w) (fun _ => True) D := by
  show Keeps E pl D (pl.dot A G.toEnv v w) _ D
  unfold Planner.dot
  refine Keeps.bind (Q := fun ns => ns = pl.spaces.length)
    (Keeps.of_safe fun n s => ⟨_, n, s, Runs.numSpaces R n s, rfl, fun _ _ => rfl⟩) fun ns hns' => ?_
  subst hns'
  rw [bind_assoc3]
  refine Keeps.bind (keeps_blockDot A R hord hv hw hns) fun r _ => ?_
  refine keeps_dotLoop A R hord hv hw _ (fun i hi => ?_) r
  have := List.mem_range'_1.1 hi
  omega

variable (A) (R : Ready G pl nw) (S : Symmetric E G pl) (hD : ∀ k, D k → k < nw + 2)

include R S hD

theorem Keeps.copy {d x : Nat} (hd : d < nw + 2) (hx : D x) :
    Keeps E pl D ((plannerOps A G.toEnv pl).copy d x) (fun _ => True) (also d D) :=
  Keeps.block R S hd hD fun n s hs => by
    obtain ⟨s', h1, h2⟩ := Runs.pCopy R hd (hD x hx) n s
    exact ⟨s', _, h1, h2, fun u u' he => hs x hx u u' he⟩

theorem Keeps.zeroFill {d : Nat} (hd : d < nw + 2) :
    Keeps E pl D ((plannerOps A G.toEnv pl).zeroFill d) (fun _ => True) (also d D) :=
  Keeps.block R S hd hD fun n s _ => by
    obtain ⟨s', h1, h2⟩ := Runs.pZeroFill R A hd n s
    exact ⟨s', _, h1, h2, fun _ _ _ => rfl⟩

theorem Keeps.scal {d : Nat} (hd : D d) (a : Scalar) :
    Keeps E pl D ((plannerOps A G.toEnv pl).scal d a) (fun _ => True) (also d D) :=
  Keeps.block R S (hD d hd) hD fun n s hs => by
    obtain ⟨s', h1, h2⟩ := Runs.pScal R A (hD d hd) a n s
    exact ⟨s', _, h1, h2, fun u u' he => by rw [hs d hd u u' he]⟩

theorem Keeps.axpy {d x : Nat} (hd : D d) (hx : D x) (a : Scalar) :
    Keeps E pl D ((plannerOps A G.toEnv pl).axpy d a x) (fun _ => True) (also d D) :=
  Keeps.block R S (hD d hd) hD fun n s hs => by
    obtain ⟨s', h1, h2⟩ := Runs.pAxpy R A (hD d hd) (hD x hx) a n s
    exact ⟨s', _, h1, h2, fun u u' he => by rw [hs d hd u u' he, hs x hx u u' he]⟩

theorem Keeps.axpy2 {d x : Nat} (hd : D d) (hx : D x) (a b : Scalar) :
    Keeps E pl D ((plannerOps A G.toEnv pl).axpy2 d a b x) (fun _ => True) (also d D) :=
  Keeps.block R S (hD d hd) hD fun n s hs => by
    obtain ⟨s', h1, h2⟩ := Runs.pAxpy2 R A (hD d hd) (hD x hx) a b n s
    exact ⟨s', _, h1, h2, fun u u' he => by rw [hs d hd u u' he, hs x hx u u' he]⟩

theorem Keeps.axpy3 {d x : Nat} (hd : D d) (hx : D x) (a b c : Scalar) :
    Keeps E pl D ((plannerOps A G.toEnv pl).axpy3 d a b c x) (fun _ => True) (also d D) :=
  Keeps.block R S (hD d hd) hD fun n s hs => by
    obtain ⟨s', h1, h2⟩ := Runs.pAxpy3 R A (hD d hd) (hD x hx) a b c n s
    exact ⟨s', _, h1, h2, fun u u' he => by rw [hs d hd u u' he, hs x hx u u' he]⟩

theorem Keeps.xpay {d x : Nat} (hd : D d) (hx : D x) (a : Scalar) :
    Keeps E pl D ((plannerOps A G.toEnv pl).xpay d a x) (fun _ => True) (also d D) :=
  Keeps.block R S (hD d hd) hD fun n s hs => by
    obtain ⟨s', h1, h2⟩ := Runs.pXpay R A (hD d hd) (hD x hx) a n s
    exact ⟨s', _, h1, h2, fun u u' he => by rw [hs d hd u u' he, hs x hx u u' he]⟩

theorem Keeps.xpay2 {d x : Nat} (hd : D d) (hx : D x) (a b : Scalar) :
    Keeps E pl D ((plannerOps A G.toEnv pl).xpay2 d a b x) (fun _ => True) (also d D) :=
  Keeps.block R S (hD d hd) hD fun n s hs => by
    obtain ⟨s', h1, h2⟩ := Runs.pXpay2 R A (hD d hd) (hD x hx) a b n s
    exact ⟨s', _, h1, h2, fun u u' he => by rw [hs d hd u u' he, hs x hx u u' he]⟩

theorem accRow_alike {x : Nat} {s : Cell P → V} (hs : Alike E pl s x) {T T' : List ((Σ _ : Nat, P) × V)}
    (h : List.Forall₂ (fun t t' => E t.1 t'.1 ∧ t.2 = t'.2) T T') (a : V) :
    accRow A (fun j q => s (.elem (pl.vec x j).data q)) a T = accRow A (fun j q => s (.elem (pl.vec x j).data q)) a T' := by
  unfold accRow
  induction h generalizing a with
  | nil => rfl
  | cons ht _ ih =>
    rw [List.foldl_cons, List.foldl_cons, ht.2]
    beta_reduce
    rw [hs _ _ ht.1]
    exact ih _

theorem Keeps.matvec {d x : Nat} (hd : d < nw + 2) (hx : D x) (hne : d ≠ x) :
    Keeps E pl D ((plannerOps A G.toEnv pl).matvec d x) (fun _ => True) (also d D) :=
  Keeps.block R S hd hD fun n s hs => by
    obtain ⟨s', h1, h2⟩ := Runs.pMatvecAny A R hd (hD x hx) hne n s
    exact ⟨s', _, h1, h2, fun u u' he => accRow_alike A R S hD (hs x hx) (S.rows u u' he) A.zero⟩

end

/-! ## The solvers -/
section
variable (A) (R3 : Ready G pl 3) (R5 : Ready G pl 5) (S : Symmetric E G pl) (hord : ∀ f l, (G.redOrder f l).Perm l)
  (hns : 0 < pl.spaces.length)

/-- Discharges membership in the sets of vectors. -/
macro "vecs" : tactic => `(tactic| (first | omega | (unfold also at *; omega) | (unfold basis at *; omega) | (unfold also basis at *; omega) | (beta_reduce at *; omega) | (beta_reduce; omega) | (simp only [also, basis]; omega) | (simp only [also]; omega) | (simp [also])))

include R3 S hord hns in
theorem keeps_cg (k : Nat) : Keeps E pl (fun k => k = 0 ∨ k = 1) (CG.solve (plannerOps A G.toEnv pl) k) (fun _ => True)
    (fun k => k = 0) := by
  refine Keeps.bind (Q := fun _ => True) (D1 := fun k => k = 0 ∨ k = 2 ∨ k = 4) ?_ fun c _ => ?_
  · refine Keeps.bind (Keeps.const _) fun _ _ => ?_
    refine Keeps.bind (Keeps.copy A R3 S (fun k hk => by vecs) (by omega) (by vecs)) fun _ _ => ?_
    refine Keeps.bind (Keeps.copy A R3 S (fun k hk => by vecs) (by omega) (by vecs)) fun _ _ => ?_
    refine Keeps.bind (Keeps.dot A R3 hord hns (by omega) (by omega)) fun _ _ => ?_
    exact Keeps.pure trivial fun k hk => by vecs
  · refine (Keeps.repeat (f := CG.step (plannerOps A G.toEnv pl)) (Q := fun _ => True) (fun c _ => ?_) k c trivial).weaken (fun _ h => h)
      fun k hk => Or.inl hk
    refine Keeps.bind (Keeps.matvec A R3 S (fun k hk => by vecs) (by omega) (by vecs) (by omega)) fun _ _ => ?_
    refine Keeps.bind (Keeps.dot A R3 hord hns (by omega) (by omega)) fun _ _ => ?_
    refine Keeps.bind (Keeps.axpy2 A R3 S (fun k hk => by vecs) (by vecs) (by vecs) _ _) fun _ _ => ?_
    refine Keeps.bind (Keeps.axpy3 A R3 S (fun k hk => by vecs) (by vecs) (by vecs) _ _ _) fun _ _ => ?_
    refine Keeps.bind (Keeps.dot A R3 hord hns (by omega) (by omega)) fun _ _ => ?_
    refine Keeps.bind (Keeps.xpay2 A R3 S (fun k hk => by vecs) (by vecs) (by vecs) _ _) fun _ _ => ?_
    exact Keeps.pure trivial fun k hk => by vecs

include R5 S hord hns in
theorem keeps_bi (k : Nat) : Keeps E pl (fun k => k = 0 ∨ k = 1) (BiCGStab.solve (plannerOps A G.toEnv pl) k) (fun _ => True)
    (fun k => k = 0) := by
  refine Keeps.bind (Q := fun _ => True) (D1 := fun k => k = 0 ∨ k = 2 ∨ k = 3 ∨ k = 4 ∨ k = 6) ?_ fun c _ => ?_
  · refine Keeps.bind (Keeps.const _) fun _ _ => ?_
    refine Keeps.bind (Keeps.const _) fun _ _ => ?_
    refine Keeps.bind (Keeps.const _) fun _ _ => ?_
    refine Keeps.bind (Keeps.copy A R5 S (fun k hk => by vecs) (by omega) (by vecs)) fun _ _ => ?_
    refine Keeps.bind (Keeps.copy A R5 S (fun k hk => by vecs) (by omega) (by vecs)) fun _ _ => ?_
    refine Keeps.bind (Keeps.zeroFill A R5 S (fun k hk => by vecs) (by omega)) fun _ _ => ?_
    refine Keeps.bind (Keeps.zeroFill A R5 S (fun k hk => by vecs) (by omega)) fun _ _ => ?_
    exact Keeps.pure trivial fun k hk => by vecs
  · refine (Keeps.repeat (f := BiCGStab.step (plannerOps A G.toEnv pl)) (Q := fun _ => True) (fun c _ => ?_) k c trivial).weaken
      (fun _ h => h) fun k hk => Or.inl hk
    refine Keeps.bind (Keeps.dot A R5 hord hns (by omega) (by omega)) fun _ _ => ?_
    refine Keeps.bind (Keeps.div _ _) fun _ _ => ?_
    refine Keeps.bind (Keeps.div _ _) fun _ _ => ?_
    refine Keeps.bind (Keeps.mul _ _) fun _ _ => ?_
    refine Keeps.bind (Keeps.neg _) fun _ _ => ?_
    refine Keeps.bind (Keeps.axpy A R5 S (fun k hk => by vecs) (by vecs) (by vecs) _) fun _ _ => ?_
    refine Keeps.bind (Keeps.xpay A R5 S (fun k hk => by vecs) (by vecs) (by vecs) _) fun _ _ => ?_
    refine Keeps.bind (Keeps.matvec A R5 S (fun k hk => by vecs) (by omega) (by vecs) (by omega)) fun _ _ => ?_
    refine Keeps.bind (Keeps.dot A R5 hord hns (by omega) (by omega)) fun _ _ => ?_
    refine Keeps.bind (Keeps.axpy3 A R5 S (fun k hk => by vecs) (by vecs) (by vecs) _ _ _) fun _ _ => ?_
    refine Keeps.bind (Keeps.div _ _) fun _ _ => ?_
    refine Keeps.bind (Keeps.matvec A R5 S (fun k hk => by vecs) (by omega) (by vecs) (by omega)) fun _ _ => ?_
    refine Keeps.bind (Keeps.dot A R5 hord hns (by omega) (by omega)) fun _ _ => ?_
    refine Keeps.bind (Keeps.dot A R5 hord hns (by omega) (by omega)) fun _ _ => ?_
    refine Keeps.bind (Keeps.div _ _) fun _ _ => ?_
    refine Keeps.bind (Keeps.axpy A R5 S (fun k hk => by vecs) (by vecs) (by vecs) _) fun _ _ => ?_
    refine Keeps.bind (Keeps.axpy A R5 S (fun k hk => by vecs) (by vecs) (by vecs) _) fun _ _ => ?_
    refine Keeps.bind (Keeps.neg _) fun _ _ => ?_
    refine Keeps.bind (Keeps.axpy A R5 S (fun k hk => by vecs) (by vecs) (by vecs) _) fun _ _ => ?_
    exact Keeps.pure trivial fun k hk => by vecs

end

section
variable {m : Nat} (A) (R : Ready G pl (m + 1)) (S : Symmetric E G pl) (hord : ∀ f l, (G.redOrder f l).Perm l)
  (hns : 0 < pl.spaces.length)

theorem keeps_zeros {D : Nat → Prop} (l : Nat) : Keeps E pl D (zeros (plannerOps A G.toEnv pl) l) (fun _ => True) D := by
  induction l with
  | zero => exact Keeps.pure trivial fun _ h => h
  | succ l ih =>
    unfold zeros
    refine Keeps.bind (Keeps.const _) fun _ _ => ?_
    exact Keeps.bind ih fun L hL => Keeps.pure trivial fun _ h => h

include R S hord hns in
theorem keeps_orthogonalise (j : Nat) (hj : j < m) (l : List Nat) (hl : ∀ k ∈ l, k ≤ j) : ∀ h,
    Keeps E pl (fun k => k < j + 4) (GMRES.orthogonalise (plannerOps A G.toEnv pl) j l h) (fun _ => True) (fun k => k < j + 4) := by
  induction l with
  | nil => intro h; exact Keeps.pure trivial fun _ h => h
  | cons k l ih =>
    intro h
    have hk := hl k (List.mem_cons_self ..)
    unfold GMRES.orthogonalise
    refine Keeps.bind (Keeps.dot A R hord hns (by vecs) (by vecs)) fun d _ => ?_
    refine Keeps.bind (Keeps.neg _) fun _ _ => ?_
    refine Keeps.bind ((Keeps.axpy A R S (fun k hk => by vecs) (by vecs) (by vecs) _).weaken (fun _ h => h) fun k hk => Or.inr hk)
      fun _ _ => ?_
    exact ih (fun k hk => hl k (List.mem_cons_of_mem _ hk)) _

include R S hord hns in
theorem keeps_columns (c : Nat) : ∀ j, j + c = m → ∀ h,
    Keeps E pl (fun k => k < j + 3) (GMRES.columns (plannerOps A G.toEnv pl) m (List.range' j c) h) (fun _ => True) (fun k => k < m + 3) := by
  induction c with
  | zero => intro j hj h; exact Keeps.pure trivial fun k hk => by omega
  | succ c ih =>
    intro j hj h
    rw [List.range'_succ]
    unfold GMRES.columns
    refine Keeps.bind (Q := fun _ => True) (D1 := fun k => k < j + 1 + 3) ?_ fun _ _ => ih (j + 1) (by omega) _
    unfold GMRES.column
    refine Keeps.bind ((Keeps.matvec A R S (fun k hk => by vecs) (by vecs) (by vecs) (by vecs)).weaken (fun _ h => h)
      (D2 := fun k => k < j + 4) fun k hk => by vecs) fun _ _ => ?_
    refine Keeps.bind (keeps_orthogonalise A R S hord hns j (by omega) _ (fun k hk => by have := List.mem_range.1 hk; omega) _) fun _ _ => ?_
    refine Keeps.bind (Keeps.dot A R hord hns (by vecs) (by vecs)) fun d _ => ?_
    refine Keeps.bind (Keeps.sqrt _) fun _ _ => ?_
    split
    · refine Keeps.bind (Keeps.rsqrt _) fun _ _ => ?_
      refine Keeps.bind (Keeps.scal A R S (fun k hk => by vecs) (by vecs) _) fun _ _ => ?_
      exact Keeps.pure trivial fun k hk => by vecs
    · exact Keeps.pure trivial fun k hk => by vecs

include R S in
theorem keeps_update (c : Scalar) (l : List Nat) (hl : ∀ j ∈ l, j < m) :
    Keeps E pl (fun k => k < m + 3) (GMRES.update (plannerOps A G.toEnv pl) c l) (fun _ => True) (fun k => k < m + 3) := by
  induction l with
  | nil => exact Keeps.pure trivial fun _ h => h
  | cons j l ih =>
    have hj := hl j (List.mem_cons_self ..)
    unfold GMRES.update
    refine Keeps.bind ((Keeps.axpy A R S (fun k hk => by vecs) (by vecs) (by vecs) _).weaken (fun _ h => h) fun k hk => Or.inr hk)
      fun _ _ => ?_
    exact ih (fun k hk => hl k (List.mem_cons_of_mem _ hk))

include R S hord hns in
theorem keeps_gmres (k : Nat) : Keeps E pl (fun k => k = 0 ∨ k = 1) (GMRES.solve (plannerOps A G.toEnv pl) m k) (fun _ => True)
    (fun k => k = 0) := by
  refine Keeps.bind (Q := fun c => c.restart = m) (D1 := fun k => k = 0 ∨ k = 1) ?_ fun c hc => ?_
  · refine Keeps.bind (Keeps.const _) fun _ _ => ?_
    refine Keeps.bind (keeps_zeros A _) fun _ _ => ?_
    refine Keeps.bind (keeps_zeros A _) fun _ _ => ?_
    refine Keeps.bind (keeps_zeros A _) fun _ _ => ?_
    exact Keeps.pure rfl fun _ h => h
  · refine (Keeps.repeat (f := GMRES.step (plannerOps A G.toEnv pl)) (Q := fun c => c.restart = m) (fun c hc => ?_) k c hc).weaken
      (fun _ _ => trivial) fun k hk => Or.inl hk
    subst hc
    refine Keeps.bind (Q := fun c' => c'.restart = c.restart) (D1 := fun k => k < c.restart + 3) ?_ fun c' hc' => ?_
    · refine Keeps.bind (Q := fun _ => True) (D1 := fun k => k < 0 + 3) ?_ fun _ _ => ?_
      · refine Keeps.bind (Keeps.matvec A R S (fun k hk => by vecs) (by vecs) (by vecs) (by vecs)) fun _ _ => ?_
        refine Keeps.bind (Keeps.xpay A R S (fun k hk => by vecs) (by vecs) (by vecs) _) fun _ _ => ?_
        refine Keeps.bind (Keeps.dot A R hord hns (by vecs) (by vecs)) fun d _ => ?_
        refine Keeps.bind (Keeps.rsqrt _) fun _ _ => ?_
        exact (Keeps.scal A R S (fun k hk => by vecs) (by vecs) _).weaken (fun _ h => h) fun k hk => by vecs
      · rw [List.range_eq_range']
        refine Keeps.bind (keeps_columns A R S hord hns _ 0 (by omega) _) fun _ _ => ?_
        exact Keeps.pure rfl fun _ h => h
    · refine Keeps.bind (Q := fun _ => True) (D1 := fun k => k < c.restart + 3) ?_ fun _ _ => Keeps.pure hc' fun k hk => by vecs
      unfold GMRES.finish
      rw [hc']
      refine Keeps.bind (Keeps.dummy _) fun _ _ => ?_
      exact keeps_update A R S _ _ (fun j hj => List.mem_range.1 hj)

end
end Verif.Solver
