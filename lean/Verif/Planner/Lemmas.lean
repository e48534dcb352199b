import Verif.Planner.Spec
import Verif.Matrix.Lemmas
import Mathlib.Algebra.BigOperators.Group.Finset.Sigma
import Mathlib.Algebra.BigOperators.Group.Finset.Piecewise
import Mathlib.Algebra.BigOperators.Ring.Finset
import Mathlib.Tactic.Ring

/-! Helper lemmas for the planner operations. -/
set_option linter.dupNamespace false
set_option linter.unusedSectionVars false
namespace Verif.Planner
open Verif.Runtime Verif.Vector Verif.Matrix
variable {K P V : Type} [DecidableEq P] [DecidableEq K]

/-! ## Lookup -/

theorem Ready.lookup {G : Geometry P} {pl : Planner K P V} {nw : Nat} (R : Ready G pl nw) {k i : Nat} (hk : k < nw + 2)
    (hi : i < pl.spaces.length) : pl.lookup k i = some (pl.vec k i) ∧ (pl.vec k i).space = pl.spaces.getD i 0 ∧
      (pl.vec k i).part = pl.parts.getD i 0 ∧ (pl.vec k i).colors = G.colorSpace (pl.parts.getD i 0) := by
  obtain ⟨v, h1, h2, h3, h4⟩ := R.blocks k i hk hi
  have : pl.vec k i = v := by unfold Planner.vec; rw [h1]; rfl
  rw [this]
  exact ⟨h1, h2, h3, h4⟩

theorem Ready.part {G : Geometry P} {pl : Planner K P V} {nw : Nat} (R : Ready G pl nw) {k i : Nat} (hk : k < nw + 2)
    (hi : i < pl.spaces.length) : IsPartition (pl.pts G i) (G.pieces (pl.vec k i).part) := by
  rw [(R.lookup hk hi).2.2.1]
  exact R.partition i hi

theorem Ready.compat {G : Geometry P} {pl : Planner K P V} {nw : Nat} (R : Ready G pl nw) {k l i : Nat} (hk : k < nw + 2)
    (hl : l < nw + 2) (hi : i < pl.spaces.length) : (pl.vec k i).space = (pl.vec l i).space ∧
      (pl.vec k i).colors = (pl.vec l i).colors ∧ (pl.vec k i).part = (pl.vec l i).part := by
  obtain ⟨-, a, b, c⟩ := R.lookup hk hi
  obtain ⟨-, d, e, f⟩ := R.lookup hl hi
  exact ⟨a.trans d.symm, c.trans f.symm, b.trans e.symm⟩

theorem Runs.getVector {G : Geometry P} {pl : Planner K P V} {nw : Nat} (R : Ready G pl nw) {k i : Nat} (hk : k < nw + 2)
    (hi : i < pl.spaces.length) (n : Nat) (s : Cell P → V) : Runs (pl.getVector k i) n s (pl.vec k i) n s := by
  refine ⟨[], fun out => ?_, (fun t ht => by cases ht), rfl⟩
  unfold Planner.getVector
  rw [(R.lookup hk hi).1, List.append_nil]
  rfl

theorem Runs.numSpaces {G : Geometry P} {pl : Planner K P V} {nw : Nat} (R : Ready G pl nw) (n : Nat) (s : Cell P → V) :
    Runs pl.numSpaces n s pl.spaces.length n s :=
  (Runs.require R.sizes n s).bind (Runs.pure _ n s)

/-! ## Loops over blocks -/

/-- Vector `k` now has the content `h` on every block; nothing else changed. -/
def BlockSet (G : Geometry P) (pl : Planner K P V) (s s' : Cell P → V) (k : Nat) (h : Nat → P → V) : Prop :=
  (∀ i, i < pl.spaces.length → ∀ p ∈ pl.pts G i, s' (.elem (pl.vec k i).data p) = h i p) ∧
  ∀ c, (∀ i, i < pl.spaces.length → ∀ p ∈ pl.pts G i, c ≠ .elem (pl.vec k i).data p) → s' c = s c

theorem loop_blocks {G : Geometry P} {pl : Planner K P V} {nw : Nat} (R : Ready G pl nw) {k : Nat} (hk : k < nw + 2)
    (f : Nat → M P V Unit) (g : Nat → P → (Cell P → V) → V)
    (hf : ∀ i, i < pl.spaces.length → ∀ n s, Runs (f i) n s () n (setVec s (pl.vec k i) (pl.pts G i) fun p => g i p s))
    (hg : ∀ i j, i < pl.spaces.length → j < pl.spaces.length → i ≠ j → ∀ s h p,
      g i p (setVec s (pl.vec k j) (pl.pts G j) h) = g i p s) (n : Nat) :
    ∀ s, ∃ s', Runs (loop (List.range pl.spaces.length) f) n s () n s' ∧ BlockSet G pl s s' k fun i p => g i p s := by
  have key : ∀ (l : List Nat), l.Nodup → (∀ i ∈ l, i < pl.spaces.length) → ∀ s, ∃ s', Runs (loop l f) n s () n s' ∧
      (∀ i ∈ l, ∀ p ∈ pl.pts G i, s' (.elem (pl.vec k i).data p) = g i p s) ∧
      ∀ c, (∀ i ∈ l, ∀ p ∈ pl.pts G i, c ≠ .elem (pl.vec k i).data p) → s' c = s c := by
    intro l
    induction l with
    | nil => exact fun _ _ s => ⟨s, Runs.pure _ n s, (fun i hi => by cases hi), fun _ _ => rfl⟩
    | cons a l ih =>
      intro hnd hin s
      obtain ⟨ha, hnd'⟩ := List.nodup_cons.1 hnd
      have hal := hin a (List.mem_cons_self ..)
      obtain ⟨s', h1, h2, h3⟩ := ih hnd' (fun i hi => hin i (List.mem_cons_of_mem _ hi))
        (setVec s (pl.vec k a) (pl.pts G a) fun p => g a p s)
      refine ⟨s', (hf a hal n s).bind h1, ?_, ?_⟩
      · intro i hi p hp
        rcases List.mem_cons.1 hi with rfl | hi
        · rw [h3, setVec_elem, if_pos ⟨rfl, hp⟩]
          intro j hj q _ e
          injection e with e _
          have := (R.distinct k i k j hk hal hk (hin j (List.mem_cons_of_mem _ hj)) e).2
          exact ha (this ▸ hj)
        · rw [h2 i hi p hp]
          exact hg i a (hin i (List.mem_cons_of_mem _ hi)) hal (fun e => ha (e ▸ hi)) s _ p
      · intro c hc
        rw [h3 c (fun i hi p hp => hc i (List.mem_cons_of_mem _ hi) p hp)]
        cases c with
        | elem d p =>
          rw [setVec_elem, if_neg]
          rintro ⟨rfl, hp⟩
          exact hc a (List.mem_cons_self ..) p hp rfl
        | _ => rfl
  intro s
  obtain ⟨s', h1, h2, h3⟩ := key (List.range pl.spaces.length) List.nodup_range (fun i hi => List.mem_range.1 hi) s
  exact ⟨s', h1, fun i hi => h2 i (List.mem_range.2 hi), fun c hc => h3 c (fun i hi => hc i (List.mem_range.1 hi))⟩

/-- Elements of other blocks are not affected by setting one. -/
theorem setVec_other {G : Geometry P} {pl : Planner K P V} {nw : Nat} (R : Ready G pl nw) {k l i j : Nat} (hk : k < nw + 2)
    (hl : l < nw + 2) (hi : i < pl.spaces.length) (hj : j < pl.spaces.length) (hne : i ≠ j) (s : Cell P → V) (h : P → V)
    (p : P) : setVec s (pl.vec k j) (pl.pts G j) h (.elem (pl.vec l i).data p) = s (.elem (pl.vec l i).data p) := by
  rw [setVec_elem, if_neg]
  rintro ⟨e, -⟩
  exact hne (R.distinct l i k j hl hi hk hj e).2

theorem BlockSet.only {G : Geometry P} {pl : Planner K P V} {s s' : Cell P → V} {k : Nat} {h : Nat → P → V}
    (hb : BlockSet G pl s s' k h) (n : Nat) (g : pl.U G → V) (hg : ∀ u : pl.U G, h u.1.1 u.1.2 = g u) :
    pl.OnlyVector G n s s' k g := by
  have hU : ∀ u : pl.U G, u.1.1 < pl.spaces.length ∧ u.1.2 ∈ pl.pts G u.1.1 := by
    rintro ⟨u, hu⟩
    have := Finset.mem_sigma.1 hu
    exact ⟨Finset.mem_range.1 this.1, List.mem_toFinset.1 this.2⟩
  refine ⟨fun u => ?_, fun d p hd => ?_, fun f _ => ?_⟩
  · rw [← hg]
    exact hb.1 _ (hU u).1 _ (hU u).2
  · apply hb.2
    intro i hi q hq e
    injection e with e1 e2
    exact hd ⟨⟨i, q⟩, Finset.mem_sigma.2 ⟨Finset.mem_range.2 hi, List.mem_toFinset.2 hq⟩⟩ (by rw [e1, e2])
  · apply hb.2
    intro i hi q hq e
    cases e

/-- Membership of an unknown. -/
theorem Planner.mem_unknowns {G : Geometry P} {pl : Planner K P V} (u : pl.U G) :
    u.1.1 < pl.spaces.length ∧ u.1.2 ∈ pl.pts G u.1.1 := by
  obtain ⟨u, hu⟩ := u
  have := Finset.mem_sigma.1 hu
  exact ⟨Finset.mem_range.1 this.1, List.mem_toFinset.1 this.2⟩

/-! ## Element-wise operations -/

section
variable {G : Geometry P} {pl : Planner K P V} {nw : Nat}

theorem Runs.pCopy (R : Ready G pl nw) {d x : Nat} (hd : d < nw + 2) (hx : x < nw + 2) (n : Nat) (s : Cell P → V) :
    ∃ s', Runs (pl.copy G.toEnv d x) n s () n s' ∧ BlockSet G pl s s' d fun i p => s (.elem (pl.vec x i).data p) := by
  obtain ⟨s', h1, h2⟩ := loop_blocks R hd (fun i => (do
      let y ← pl.getVector d i; let x ← pl.getVector x i
      assign G.toEnv y x : M P V Unit)) (fun i p s => s (.elem (pl.vec x i).data p))
    (fun i hi n s => (Runs.getVector R hd hi n s).bind ((Runs.getVector R hx hi n s).bind (by
      obtain ⟨a, b, c⟩ := R.compat hd hx hi
      exact Runs.assign _ _ _ a b c _ (R.part hd hi) n s)))
    (fun i j hi hj hne s h p => setVec_other R hd hx hi hj hne s h p) n s
  exact ⟨s', (Runs.numSpaces R n s).bind h1, h2⟩

theorem Runs.pScal (R : Ready G pl nw) (A : Arith V) {d : Nat} (hd : d < nw + 2) (a : Scalar) (n : Nat) (s : Cell P → V) :
    ∃ s', Runs (pl.scal A G.toEnv d a) n s () n s' ∧
      BlockSet G pl s s' d fun i p => A.mul (s (.fut a.fut)) (s (.elem (pl.vec d i).data p)) := by
  obtain ⟨s', h1, h2⟩ := loop_blocks R hd (fun i => (do
      let y ← pl.getVector d i
      Verif.Vector.scal A G.toEnv y a : M P V Unit)) (fun i p s => A.mul (s (.fut a.fut)) (s (.elem (pl.vec d i).data p)))
    (fun i hi n s => (Runs.getVector R hd hi n s).bind (Runs.scal _ _ _ a _ (R.part hd hi) n s))
    (fun i j hi hj hne s h p => by rw [setVec_other R hd hd hi hj hne s h p, setVec_fut]) n s
  exact ⟨s', (Runs.numSpaces R n s).bind h1, h2⟩

/-- The common form of the two-operand operations. -/
theorem Runs.pTwo (R : Ready G pl nw) {d x : Nat} (hd : d < nw + 2) (hx : x < nw + 2)
    (op : Vec → Vec → M P V Unit) (g : (Cell P → V) → V → V → V)
    (hop : ∀ y x : Vec, y.space = x.space → y.colors = x.colors → y.part = x.part → ∀ space : List P,
      IsPartition space (G.pieces y.part) → ∀ n s, Runs (op y x) n s () n
        (setVec s y space fun p => g s (s (.elem x.data p)) (s (.elem y.data p))))
    (hg : ∀ s v l h, g (setVec s v l h) = g s) (n : Nat) (s : Cell P → V) :
    ∃ s', Runs (do
      let ns ← pl.numSpaces
      loop (List.range ns) fun i => do
        let y ← pl.getVector d i; let x ← pl.getVector x i
        op y x : M P V Unit) n s () n s' ∧
      BlockSet G pl s s' d fun i p => g s (s (.elem (pl.vec x i).data p)) (s (.elem (pl.vec d i).data p)) := by
  obtain ⟨s', h1, h2⟩ := loop_blocks R hd (fun i => (do
      let y ← pl.getVector d i; let x ← pl.getVector x i
      op y x : M P V Unit)) (fun i p s => g s (s (.elem (pl.vec x i).data p)) (s (.elem (pl.vec d i).data p)))
    (fun i hi n s => (Runs.getVector R hd hi n s).bind ((Runs.getVector R hx hi n s).bind (by
      obtain ⟨a, b, c⟩ := R.compat hd hx hi
      exact hop _ _ a b c _ (R.part hd hi) n s)))
    (fun i j hi hj hne s h p => by
      rw [setVec_other R hd hd hi hj hne s h p, setVec_other R hd hx hi hj hne s h p, hg]) n s
  exact ⟨s', (Runs.numSpaces R n s).bind h1, h2⟩

theorem Runs.pAxpy (R : Ready G pl nw) (A : Arith V) {d x : Nat} (hd : d < nw + 2) (hx : x < nw + 2) (a : Scalar) (n : Nat)
    (s : Cell P → V) : ∃ s', Runs (pl.axpy A G.toEnv d a x) n s () n s' ∧
      BlockSet G pl s s' d fun i p => A.fma (s (.fut a.fut)) (s (.elem (pl.vec x i).data p)) (s (.elem (pl.vec d i).data p)) :=
  Runs.pTwo R hd hx (fun y x => Verif.Vector.axpy A G.toEnv y a x) (fun s x y => A.fma (s (.fut a.fut)) x y)
    (fun y x a1 a2 a3 space hp n s => Runs.axpy A G.toEnv y a x a1 a2 a3 space hp n s) (fun _ _ _ _ => rfl) n s

theorem Runs.pAxpy2 (R : Ready G pl nw) (A : Arith V) {d x : Nat} (hd : d < nw + 2) (hx : x < nw + 2) (a b : Scalar)
    (n : Nat) (s : Cell P → V) : ∃ s', Runs (pl.axpy2 A G.toEnv d a b x) n s () n s' ∧
      BlockSet G pl s s' d fun i p => A.fma (A.div (s (.fut a.fut)) (s (.fut b.fut))) (s (.elem (pl.vec x i).data p))
        (s (.elem (pl.vec d i).data p)) :=
  Runs.pTwo R hd hx (fun y x => Verif.Vector.axpy2 A G.toEnv y a b x)
    (fun s x y => A.fma (A.div (s (.fut a.fut)) (s (.fut b.fut))) x y)
    (fun y x a1 a2 a3 space hp n s => Runs.axpy2 A G.toEnv y a b x a1 a2 a3 space hp n s) (fun _ _ _ _ => rfl) n s

theorem Runs.pAxpy3 (R : Ready G pl nw) (A : Arith V) {d x : Nat} (hd : d < nw + 2) (hx : x < nw + 2) (a b c : Scalar)
    (n : Nat) (s : Cell P → V) : ∃ s', Runs (pl.axpy3 A G.toEnv d a b c x) n s () n s' ∧
      BlockSet G pl s s' d fun i p => A.fma (A.div (A.mul (s (.fut a.fut)) (s (.fut b.fut))) (s (.fut c.fut)))
        (s (.elem (pl.vec x i).data p)) (s (.elem (pl.vec d i).data p)) :=
  Runs.pTwo R hd hx (fun y x => Verif.Vector.axpy3 A G.toEnv y a b c x)
    (fun s x y => A.fma (A.div (A.mul (s (.fut a.fut)) (s (.fut b.fut))) (s (.fut c.fut))) x y)
    (fun y x a1 a2 a3 space hp n s => Runs.axpy3 A G.toEnv y a b c x a1 a2 a3 space hp n s) (fun _ _ _ _ => rfl) n s

theorem Runs.pXpay (R : Ready G pl nw) (A : Arith V) {d x : Nat} (hd : d < nw + 2) (hx : x < nw + 2) (a : Scalar) (n : Nat)
    (s : Cell P → V) : ∃ s', Runs (pl.xpay A G.toEnv d a x) n s () n s' ∧
      BlockSet G pl s s' d fun i p => A.fma (s (.fut a.fut)) (s (.elem (pl.vec d i).data p)) (s (.elem (pl.vec x i).data p)) :=
  Runs.pTwo R hd hx (fun y x => Verif.Vector.xpay A G.toEnv y a x) (fun s x y => A.fma (s (.fut a.fut)) y x)
    (fun y x a1 a2 a3 space hp n s => Runs.xpay A G.toEnv y a x a1 a2 a3 space hp n s) (fun _ _ _ _ => rfl) n s

theorem Runs.pXpay2 (R : Ready G pl nw) (A : Arith V) {d x : Nat} (hd : d < nw + 2) (hx : x < nw + 2) (a b : Scalar)
    (n : Nat) (s : Cell P → V) : ∃ s', Runs (pl.xpay2 A G.toEnv d a b x) n s () n s' ∧
      BlockSet G pl s s' d fun i p => A.fma (A.div (s (.fut a.fut)) (s (.fut b.fut))) (s (.elem (pl.vec d i).data p))
        (s (.elem (pl.vec x i).data p)) :=
  Runs.pTwo R hd hx (fun y x => Verif.Vector.xpay2 A G.toEnv y a b x)
    (fun s x y => A.fma (A.div (s (.fut a.fut)) (s (.fut b.fut))) y x)
    (fun y x a1 a2 a3 space hp n s => Runs.xpay2 A G.toEnv y a b x a1 a2 a3 space hp n s) (fun _ _ _ _ => rfl) n s

theorem loop_map {ι κ : Type} (h : ι → κ) (f : κ → M P V Unit) (l : List ι) : loop (l.map h) f = loop l fun i => f (h i) := by
  induction l with
  | nil => rfl
  | cons a l ih => simp only [List.map_cons, loop, ih]

theorem Ready.blocksOf (R : Ready G pl nw) {k : Nat} (hk : k < nw + 2) :
    pl.blocksOf k = some ((List.range pl.spaces.length).map (pl.vec k)) := by
  have hs := R.sizes
  simp only [Planner.sizesAgree, Bool.and_eq_true, decide_eq_true_eq, List.all_eq_true] at hs
  obtain ⟨⟨⟨-, h1⟩, h2⟩, h3⟩ := hs
  have gen : ∀ L : List Vec, pl.spaces.length = L.length → (∀ i, pl.lookup k i = L[i]?) →
      L = (List.range pl.spaces.length).map (pl.vec k) := by
    intro L hL hlk
    apply List.ext_getElem
    · simp [hL]
    · intro i h4 h5
      simp only [List.getElem_map, List.getElem_range, Planner.vec, hlk]
      rw [List.getElem?_eq_getElem h4]
      rfl
  unfold Planner.blocksOf
  split
  · next h => rw [← gen pl.sol h1 (fun i => by unfold Planner.lookup; rw [if_pos h])]
  · next h =>
    split
    · next h' => rw [← gen pl.rhs h2 (fun i => by unfold Planner.lookup; rw [if_neg h, if_pos h'])]
    · next h' =>
      have hlt : k - 2 < pl.workspace.length := by rw [R.workspace]; omega
      rw [List.getElem?_eq_getElem hlt, ← gen pl.workspace[k - 2] (h3 _ (List.getElem_mem hlt))]
      intro i
      unfold Planner.lookup
      rw [if_neg h, if_neg h', List.getElem?_eq_getElem hlt]
      rfl

theorem Runs.pZeroFill (R : Ready G pl nw) (A : Arith V) {d : Nat} (hd : d < nw + 2) (n : Nat) (s : Cell P → V) :
    ∃ s', Runs (pl.zeroFill A G.toEnv d) n s () n s' ∧ BlockSet G pl s s' d fun _ _ => A.zero := by
  obtain ⟨s', h1, h2⟩ := loop_blocks R hd (fun i => Verif.Vector.zeroFill A G.toEnv (pl.vec d i)) (fun _ _ _ => A.zero)
    (fun i hi n s => Runs.constantFill _ _ _ _ (R.part hd hi) n s) (fun _ _ _ _ _ _ _ _ => rfl) n s
  refine ⟨s', ?_, h2⟩
  obtain ⟨ts, e, o, r⟩ := h1
  refine ⟨ts, fun out => ?_, o, r⟩
  unfold Planner.zeroFill
  rw [R.blocksOf hd]
  show loop _ _ _ = _
  rw [loop_map]
  exact e out

end

/-! ## Sums over the unknowns -/

theorem Planner.sum_unknowns [AddCommMonoid V] (G : Geometry P) (pl : Planner K P V) (F : Nat → P → V) :
    ∑ u : pl.U G, F u.1.1 u.1.2 = ∑ i ∈ Finset.range pl.spaces.length, ∑ p ∈ (pl.pts G i).toFinset, F i p := by
  rw [Finset.sum_coe_sort (pl.unknowns G) (fun u => F u.1 u.2)]
  unfold Planner.unknowns
  rw [Finset.sum_sigma]

theorem sum_map_toFinset [AddCommMonoid V] (l : List P) (h : l.Nodup) (F : P → V) :
    (l.map F).sum = ∑ p ∈ l.toFinset, F p := by
  rw [List.sum_toFinset _ h]

theorem dotValue_finset [Field V] {A : Arith V} (hA : A.Exact) (v w : P → V) (space : List P) (pieces : List (List P))
    (hp : IsPartition space pieces) (order : List Nat) (ho : order.Perm (List.range pieces.length)) :
    dotValue A v w pieces order = ∑ p ∈ space.toFinset, v p * w p := by
  have : dotValue A v w pieces order = (pieces.flatten.map fun p => v p * w p).sum :=
    dotValue_exact hA v w pieces.flatten hp.1 pieces ⟨hp.1, fun _ => Iff.rfl⟩ order ho
  rw [this, sum_map_toFinset _ hp.1]
  apply Finset.sum_congr _ (fun _ _ => rfl)
  ext p
  rw [List.mem_toFinset, List.mem_toFinset]
  exact hp.2 p

end Verif.Planner
