import Verif.Vector.ProgramLemmas

/-! The client-program simulation. -/
set_option linter.unusedSectionVars false
namespace Verif.Vector
open Verif.Runtime
variable {P V α : Type} [DecidableEq P]

/-! ## Scalars -/

/-- The futures held by variables are allocated and contain the reference values. -/
def Agree (σ : Nat → Option Scalar) (ρ : Nat → Option V) (n : Nat) (s : Cell P → V) : Prop :=
  ∀ i, (ρ i = none → σ i = none) ∧ ∀ a, ρ i = some a → ∃ f, σ i = some f ∧ f.fut < n ∧ s (.fut f.fut) = a

theorem Agree.mono {σ : Nat → Option Scalar} {ρ : Nat → Option V} {n n' : Nat} {s s' : Cell P → V} (h : Agree σ ρ n s)
    (hn : n ≤ n') (hs : ∀ f, f < n → s' (.fut f) = s (.fut f)) : Agree σ ρ n' s' := by
  intro i
  refine ⟨(h i).1, fun a ha => ?_⟩
  obtain ⟨f, h1, h2, h3⟩ := (h i).2 a ha
  exact ⟨f, h1, by omega, by rw [hs _ h2, h3]⟩

theorem Agree.set {σ : Nat → Option Scalar} {ρ : Nat → Option V} {n : Nat} {s : Cell P → V} (h : Agree σ ρ n s)
    (i : Nat) (f : Scalar) (a : V) (hf : f.fut < n) (hs : s (.fut f.fut) = a) :
    Agree (setVar σ i (some f)) (setVar ρ i (some a)) n s := by
  intro j
  unfold setVar
  by_cases hj : j = i
  · rw [if_pos hj, if_pos hj]
    refine ⟨(fun h => by cases h), fun b hb => ⟨f, rfl, hf, ?_⟩⟩
    injection hb with hb
    rw [hs, hb]
  · rw [if_neg hj, if_neg hj]
    exact h j

theorem Agree.unset {σ : Nat → Option Scalar} {ρ : Nat → Option V} {n : Nat} {s : Cell P → V} (h : Agree σ ρ n s)
    (i : Nat) : Agree (setVar σ i none) (setVar ρ i none) n s := by
  intro j
  unfold setVar
  by_cases hj : j = i
  · rw [if_pos hj, if_pos hj]
    exact ⟨fun _ => rfl, fun b hb => by cases hb⟩
  · rw [if_neg hj, if_neg hj]
    exact h j

/-- A later memory that differs only in newer futures (and scratch). -/
def Newer (n : Nat) (s s' : Cell P → V) : Prop :=
  (∀ f, f < n → s' (.fut f) = s (.fut f)) ∧ ∀ d p, s' (.elem d p) = s (.elem d p)

theorem Newer.refl (n : Nat) (s : Cell P → V) : Newer n s s := ⟨fun _ _ => rfl, fun _ _ => rfl⟩
theorem Newer.trans {n n' : Nat} {s s' s'' : Cell P → V} (hn : n ≤ n') (h : Newer n s s') (h' : Newer n' s' s'') :
    Newer n s s'' :=
  ⟨fun f hf => by rw [h'.1 f (by omega), h.1 f hf], fun d p => by rw [h'.2, h.2]⟩
theorem Newer.setFut (n : Nat) (s : Cell P → V) (a : V) : Newer n s (setFut s n a) :=
  ⟨fun f hf => by rw [setFut_fut, if_neg (by omega)], fun _ _ => rfl⟩

/-- Result of emitting an expression. -/
def EmitsVal (m : M P V Scalar) (n : Nat) (s : Cell P → V) (a : V) : Prop :=
  ∃ f n' s', Runs m n s f n' s' ∧ n ≤ n' ∧ f.fut < n' ∧ s' (.fut f.fut) = a ∧ Newer n s s'

theorem EmitsVal.unary {m : M P V Scalar} {n : Nat} {s : Cell P → V} {a : V} (h : EmitsVal m n s a) (g : V → V) :
    EmitsVal (m >>= fun x => unary g x) n s (g a) := by
  obtain ⟨f, n', s', h1, h2, h3, h4, h5⟩ := h
  refine ⟨⟨n'⟩, n' + 1, _, h1.bind (Runs.unary g f n' s'), by omega, by simp, ?_, ?_⟩
  · rw [setFut_fut, if_pos rfl, h4]
  · exact h5.trans h2 (Newer.setFut _ _ _)

theorem EmitsVal.binary {m m' : M P V Scalar} {n : Nat} {s : Cell P → V} {a b : V} (h : EmitsVal m n s a)
    (h' : ∀ n' s', n ≤ n' → Newer n s s' → EmitsVal m' n' s' b) (g : V → V → V) :
    EmitsVal (m >>= fun x => m' >>= fun y => binary g x y) n s (g a b) := by
  obtain ⟨f, n1, s1, h1, h2, h3, h4, h5⟩ := h
  obtain ⟨f', n2, s2, k1, k2, k3, k4, k5⟩ := h' n1 s1 h2 h5
  refine ⟨⟨n2⟩, n2 + 1, _, h1.bind (k1.bind (Runs.binary g f f' n2 s2)), by omega, by simp, ?_, ?_⟩
  · rw [setFut_fut, if_pos rfl, k4, k5.1 _ h3, h4]
  · exact (h5.trans h2 k5).trans (by omega) (Newer.setFut _ _ _)

theorem emitExpr_correct (A : Arith V) (σ : Nat → Option Scalar) (ρ : Nat → Option V) (e : Expr V) :
    ∀ (n : Nat) (s : Cell P → V), Agree σ ρ n s → ∀ a, e.eval A ρ = some a → EmitsVal (emitExpr A σ e) n s a := by
  have bin : ∀ (g : V → V → V) (e e' : Expr V),
      (∀ (n : Nat) (s : Cell P → V), Agree σ ρ n s → ∀ a, e.eval A ρ = some a → EmitsVal (emitExpr A σ e) n s a) →
      (∀ (n : Nat) (s : Cell P → V), Agree σ ρ n s → ∀ a, e'.eval A ρ = some a → EmitsVal (emitExpr A σ e') n s a) →
      ∀ (n : Nat) (s : Cell P → V), Agree σ ρ n s →
        ∀ a, ((e.eval A ρ).bind fun a => (e'.eval A ρ).map fun b => g a b) = some a →
        EmitsVal (emitExpr A σ e >>= fun x => emitExpr A σ e' >>= fun y => binary g x y) n s a := by
    intro g e e' ih ih' n s hag a ha
    cases he : e.eval A ρ with
    | none => rw [he] at ha; cases ha
    | some x =>
      cases he' : e'.eval A ρ with
      | none => rw [he, he'] at ha; cases ha
      | some y =>
        rw [he, he'] at ha
        injection ha with ha
        subst ha
        exact EmitsVal.binary (ih n s hag x he)
          (fun n' s' hn hs => ih' n' s' (hag.mono hn hs.1) y he') g
  have un : ∀ (g : V → V) (e : Expr V),
      (∀ (n : Nat) (s : Cell P → V), Agree σ ρ n s → ∀ a, e.eval A ρ = some a → EmitsVal (emitExpr A σ e) n s a) →
      ∀ (n : Nat) (s : Cell P → V), Agree σ ρ n s → ∀ a, (e.eval A ρ).map g = some a →
        EmitsVal (emitExpr A σ e >>= fun x => unary g x) n s a := by
    intro g e ih n s hag a ha
    cases he : e.eval A ρ with
    | none => rw [he] at ha; cases ha
    | some x =>
      rw [he] at ha
      injection ha with ha
      subst ha
      exact (ih n s hag x he).unary g
  induction e with
  | var i =>
    intro n s hag a ha
    obtain ⟨f, h1, h2, h3⟩ := (hag i).2 a ha
    exact ⟨f, n, s, Runs.getVar h1 n s, Nat.le_refl _, h2, h3, Newer.refl _ _⟩
  | lit b =>
    intro n s hag a ha
    injection ha with ha
    subst ha
    exact ⟨⟨n⟩, n + 1, _, Runs.scalarOf b n s, by omega, by simp, by simp, Newer.setFut _ _ _⟩
  | pos e ih =>
    intro n s hag a ha
    obtain ⟨f, n', s', h1, h2⟩ := ih n s hag a ha
    exact ⟨f, n', s', h1.bind (f := fun x => sPos x) (Runs.pure _ _ _), h2⟩
  | neg e ih => exact un A.neg e ih
  | add e e' ih ih' => exact bin A.add e e' ih ih'
  | sub e e' ih ih' => exact bin A.sub e e' ih ih'
  | mul e e' ih ih' => exact bin A.mul e e' ih ih'
  | div e e' ih ih' => exact bin A.div e e' ih ih'
  | sqrt e ih => exact un A.sqrt e ih
  | rsqrt e ih => exact un (fun a => A.div A.one (A.sqrt a)) e ih

theorem emitStmt_correct (A : Arith V) (σ : Nat → Option Scalar) (ρ ρ' : Nat → Option V) (c : Stmt V) (n : Nat)
    (s : Cell P → V) (hag : Agree σ ρ n s) (h : c.run A ρ = some ρ') :
    ∃ σ' n' s', Runs (emitStmt A σ c) n s σ' n' s' ∧ n ≤ n' ∧ Newer n s s' ∧ Agree σ' ρ' n' s' := by
  cases c with
  | assign i e =>
    have h' : (e.eval A ρ).map (fun a => setVar ρ i (some a)) = some ρ' := h
    cases he : e.eval A ρ with
    | none => rw [he] at h'; cases h'
    | some a =>
      rw [he] at h'
      injection h' with h'
      subst h'
      obtain ⟨f, n', s', h1, h2, h3, h4, h5⟩ := emitExpr_correct A σ ρ e n s hag a he
      exact ⟨_, n', s', h1.bind (f := fun a => pure (setVar σ i (some a))) (Runs.pure _ _ _), h2, h5,
        (hag.mono h2 h5.1).set i f a h3 h4⟩
  | move i j =>
    have h' : (ρ j).map (fun a => setVar (setVar ρ j none) i (some a)) = some ρ' := h
    cases hj : ρ j with
    | none => rw [hj] at h'; cases h'
    | some a =>
      rw [hj] at h'
      injection h' with h'
      subst h'
      obtain ⟨f, h1, h2, h3⟩ := (hag j).2 a hj
      exact ⟨_, n, s, (Runs.getVar h1 n s).bind (f := fun a => pure (setVar (setVar σ j none) i (some a))) (Runs.pure _ _ _),
        Nat.le_refl _, Newer.refl _ _, (hag.unset j).set i f a h2 h3⟩

/-! Rejection: use of an empty scalar aborts. -/

theorem emitExpr_aborts (A : Arith V) (σ : Nat → Option Scalar) (ρ : Nat → Option V)
    (hag : ∀ i, σ i = none ↔ ρ i = none) (e : Expr V) : (e.eval A ρ = none → ∀ em : Emit P V, emitExpr A σ e em = none) ∧
    (∀ em : Emit P V, emitExpr A σ e em = none → e.eval A ρ = none) := by
  have un : ∀ (g : V → V) (e : Expr V), ((e.eval A ρ = none → ∀ em : Emit P V, emitExpr A σ e em = none) ∧
      (∀ em : Emit P V, emitExpr A σ e em = none → e.eval A ρ = none)) →
      (((e.eval A ρ).map g = none → ∀ em : Emit P V, (emitExpr A σ e >>= fun x => unary g x) em = none) ∧
      (∀ em : Emit P V, (emitExpr A σ e >>= fun x => unary g x) em = none → (e.eval A ρ).map g = none)) := by
    intro g e ih
    constructor
    · intro h em
      have : e.eval A ρ = none := by simpa using h
      show ((emitExpr A σ e em).bind fun x => unary g x.1 x.2) = none
      rw [ih.1 this em]; rfl
    · intro em h
      have h : ((emitExpr A σ e em).bind fun x => unary g x.1 x.2) = none := h
      cases hx : emitExpr A σ e em with
      | none => rw [ih.2 em hx]; rfl
      | some x => rw [hx] at h; cases h
  have bin : ∀ (g : V → V → V) (e e' : Expr V), ((e.eval A ρ = none → ∀ em : Emit P V, emitExpr A σ e em = none) ∧
      (∀ em : Emit P V, emitExpr A σ e em = none → e.eval A ρ = none)) →
      ((e'.eval A ρ = none → ∀ em : Emit P V, emitExpr A σ e' em = none) ∧
      (∀ em : Emit P V, emitExpr A σ e' em = none → e'.eval A ρ = none)) →
      ((((e.eval A ρ).bind fun a => (e'.eval A ρ).map fun b => g a b) = none → ∀ em : Emit P V,
        (emitExpr A σ e >>= fun x => emitExpr A σ e' >>= fun y => binary g x y) em = none) ∧
      (∀ em : Emit P V, (emitExpr A σ e >>= fun x => emitExpr A σ e' >>= fun y => binary g x y) em = none →
        ((e.eval A ρ).bind fun a => (e'.eval A ρ).map fun b => g a b) = none)) := by
    intro g e e' ih ih'
    constructor
    · intro h em
      show ((emitExpr A σ e em).bind fun x => (emitExpr A σ e' x.2).bind fun y => binary g x.1 y.1 y.2) = none
      cases hx : emitExpr A σ e em with
      | none => rfl
      | some x =>
        show ((emitExpr A σ e' x.2).bind fun y => binary g x.1 y.1 y.2) = none
        cases he : e.eval A ρ with
        | none => rw [ih.1 he em] at hx; cases hx
        | some a =>
          rw [he] at h
          have : e'.eval A ρ = none := by simpa using h
          rw [ih'.1 this]; rfl
    · intro em h
      have h : ((emitExpr A σ e em).bind fun x => (emitExpr A σ e' x.2).bind fun y => binary g x.1 y.1 y.2) = none := h
      cases hx : emitExpr A σ e em with
      | none => rw [ih.2 em hx]; rfl
      | some x =>
        rw [hx] at h
        have h : ((emitExpr A σ e' x.2).bind fun y => binary g x.1 y.1 y.2) = none := h
        cases hy : emitExpr A σ e' x.2 with
        | none => rw [ih'.2 _ hy]; cases e.eval A ρ <;> rfl
        | some y => rw [hy] at h; cases h
  induction e with
  | var i =>
    constructor
    · intro h em
      show (σ i).map _ = none
      rw [(hag i).2 h]; rfl
    · intro em h
      have h : (σ i).map (fun f => (f, em)) = none := h
      exact (hag i).1 (by simpa using h)
  | lit b => exact ⟨(fun h => by cases h), (fun em h => by cases h)⟩
  | pos e ih =>
    constructor
    · intro h em
      show ((emitExpr A σ e em).bind fun x => some x) = none
      rw [ih.1 h em]; rfl
    · intro em h
      have h : ((emitExpr A σ e em).bind fun x => some x) = none := h
      exact ih.2 em (by simpa using h)
  | neg e ih => exact un A.neg e ih
  | add e e' ih ih' => exact bin A.add e e' ih ih'
  | sub e e' ih ih' => exact bin A.sub e e' ih ih'
  | mul e e' ih ih' => exact bin A.mul e e' ih ih'
  | div e e' ih ih' => exact bin A.div e e' ih ih'
  | sqrt e ih => exact un A.sqrt e ih
  | rsqrt e ih => exact un (fun a => A.div A.one (A.sqrt a)) e ih


/-! ## Calls -/

/-- What is known about the vectors a program handles. -/
structure Known (E : Env P) (A : Arith V) (spaceOf : Nat → List P) (dotRef : Vec → (P → V) → (P → V) → V)
    (K : Vec → Prop) : Prop where
  part : ∀ v, K v → IsPartition (spaceOf v.space) (E.pieces v.part)
  data : ∀ v w, K v → K w → v.data = w.data → v = w

/-- An inner product returned in future `n` delivers `dotRef`. -/
structure DotOk (E : Env P) (A : Arith V) (dotRef : Vec → (P → V) → (P → V) → V) (K : Vec → Prop) (n : Nat) : Prop where
  perm : ∀ f l, (E.redOrder f l).Perm l
  dot : ∀ v, K v → ∀ x y, dotValue A x y (E.pieces v.part) (E.redOrder n (List.range (E.pieces v.part).length)) =
    dotRef v x y

/-- Simulation relation between handles + memory and the reference state. -/
structure Sim (spaceOf : Nat → List P) (K : Vec → Prop) (H : Handles) (n : Nat) (s : Cell P → V) (R : Ref P V) :
    Prop where
  scalars : Agree H.scalars R.scalars n s
  vecs : H.vecs = R.vecs
  known : ∀ i v, R.vecs i = some v → K v
  heap : ∀ v, K v → ∀ p ∈ spaceOf v.space, s (.elem v.data p) = R.heap v.data p

theorem Sim.newer {spaceOf : Nat → List P} {K : Vec → Prop} {H : Handles} {n n' : Nat} {s s' : Cell P → V} {R : Ref P V}
    (h : Sim spaceOf K H n s R) (hn : n ≤ n') (hs : Newer n s s') : Sim spaceOf K H n' s' R :=
  ⟨h.scalars.mono hn hs.1, h.vecs, h.known, fun v hv p hp => by rw [hs.2]; exact h.heap v hv p hp⟩

theorem Sim.setVec {E : Env P} {A : Arith V} {dotRef : Vec → (P → V) → (P → V) → V} {spaceOf : Nat → List P}
    {K : Vec → Prop} (hk : Known E A spaceOf dotRef K) {H : Handles} {n : Nat} {s : Cell P → V} {R : Ref P V}
    (h : Sim spaceOf K H n s R) (v : Vec) (hv : K v) (g g' : P → V) (hg : ∀ p ∈ spaceOf v.space, g p = g' p) :
    Sim spaceOf K H n (setVec s v (spaceOf v.space) g) (R.set v g') := by
  refine ⟨h.scalars.mono (Nat.le_refl _) (fun _ _ => rfl), h.vecs, h.known, fun w hw p hp => ?_⟩
  rw [setVec_elem]
  show _ = (if w.data = v.data then g' else R.heap w.data) p
  by_cases hd : w.data = v.data
  · have : w = v := hk.data w v hw hv hd
    subst this
    rw [if_pos ⟨rfl, hp⟩, hg p hp]
    simp
  · rw [if_neg (fun h => hd h.1)]
    simp only [hd, if_false]
    exact h.heap w hw p hp

theorem Ref.two_some {R : Ref P V} {i j : Nat} {y x : Vec} (h : R.two i j = some (y, x)) :
    R.vecs i = some y ∧ R.vecs j = some x ∧ y.space = x.space ∧ y.colors = x.colors ∧ y.part = x.part ∧
      y.data ≠ x.data := by
  unfold Ref.two at h
  cases hi : R.vecs i with
  | none => rw [hi] at h; cases h
  | some y' =>
    cases hj : R.vecs j with
    | none => rw [hi, hj] at h; cases h
    | some x' =>
      rw [hi, hj] at h
      have h : (if y'.space = x'.space ∧ y'.colors = x'.colors ∧ y'.part = x'.part ∧ y'.data ≠ x'.data then some (y', x')
        else none) = some (y, x) := h
      split at h
      · next hc =>
        injection h with h
        injection h with h1 h2
        subst h1; subst h2
        exact ⟨rfl, rfl, hc⟩
      · cases h

/-- Emission of a call simulates its reference meaning. -/
def Simulates (spaceOf : Nat → List P) (K : Vec → Prop) (m : M P V Handles) (n : Nat) (s : Cell P → V) (R' : Ref P V) :
    Prop :=
  ∃ H' n' s', Runs m n s H' n' s' ∧ Sim spaceOf K H' n' s' R'

theorem emitCall_correct {E : Env P} {A : Arith V} {dotRef : Vec → (P → V) → (P → V) → V} {spaceOf : Nat → List P}
    {K : Vec → Prop} (hk : Known E A spaceOf dotRef K) (H : Handles) (n : Nat) (s : Cell P → V) (R R' : Ref P V)
    (h : Sim spaceOf K H n s R) (c : Call V) (hdot : (∃ k i j, c = .dot k i j) → DotOk E A dotRef K n)
    (hr : c.run A dotRef R = some R') : Simulates spaceOf K (emitCall A E H c) n s R' := by
  have getv : ∀ {i v}, R.vecs i = some v → H.vecs i = some v := fun hi => by rw [h.vecs]; exact hi
  have gets : ∀ {i a}, R.scalars i = some a → ∃ f, H.scalars i = some f ∧ s (.fut f.fut) = a := by
    intro i a hi
    obtain ⟨f, h1, -, h3⟩ := (h.scalars i).2 a hi
    exact ⟨f, h1, h3⟩
  -- the two-vector operations
  cases c with
  | scalar c =>
    have hr : (c.run A R.scalars).map (fun σ => ({ R with scalars := σ } : Ref P V)) = some R' := hr
    cases hc : c.run A R.scalars with
    | none => rw [hc] at hr; cases hr
    | some ρ' =>
      rw [hc] at hr
      injection hr with hr
      subst hr
      obtain ⟨σ', n', s', h1, h2, h3, h4⟩ := emitStmt_correct A H.scalars R.scalars ρ' c n s h.scalars hc
      refine ⟨{ H with scalars := σ' }, n', s', h1.bind (f := fun σ => pure (Handles.mk σ H.vecs)) (Runs.pure _ _ _), ?_⟩
      have := h.newer h2 h3
      exact ⟨h4, this.vecs, this.known, this.heap⟩
  | copyConstruct i j =>
    have hr : (R.vecs j).map (fun v => ({ R with vecs := setVar R.vecs i (some v) } : Ref P V)) = some R' := hr
    cases hj : R.vecs j with
    | none => rw [hj] at hr; cases hr
    | some v =>
      rw [hj] at hr
      injection hr with hr
      subst hr
      refine ⟨_, n, s, (Runs.getVar (getv hj) n s).bind
        (f := fun v => pure (Handles.mk H.scalars (setVar H.vecs i (some (copyConstruct v))))) (Runs.pure _ _ _), ?_⟩
      refine ⟨h.scalars, ?_, ?_, h.heap⟩
      · show setVar H.vecs i (some v) = setVar R.vecs i (some v)
        rw [h.vecs]
      · intro k w hw
        have hw : (if k = i then some v else R.vecs k) = some w := hw
        split at hw
        · injection hw with hw; subst hw; exact h.known j v hj
        · exact h.known k w hw
  | assign i j =>
    have hr : (R.two i j).map (fun (y, x) => R.set y (R.heap x.data)) = some R' := hr
    cases h2 : R.two i j with
    | none => rw [h2] at hr; cases hr
    | some yx =>
      obtain ⟨y, x⟩ := yx
      rw [h2] at hr
      injection hr with hr
      subst hr
      obtain ⟨e1, e2, e3, e4, e5, e6⟩ := Ref.two_some h2
      have hy := h.known i y e1
      have hx := h.known j x e2
      refine ⟨H, n, _, (Runs.getVar (getv e1) n s).bind ((Runs.getVar (getv e2) n s).bind
        ((Runs.assign E y x e3 e4 e5 (spaceOf y.space) (hk.part y hy) n s).bind (Runs.pure _ _ _))), ?_⟩
      exact h.setVec hk y hy _ _ (fun p hp => h.heap x hx p (e3 ▸ hp))
  | fillValue i a =>
    have hr : (R.vecs i).map (fun y => R.set y fun _ => a) = some R' := hr
    cases hi : R.vecs i with
    | none => rw [hi] at hr; cases hr
    | some y =>
      rw [hi] at hr
      injection hr with hr
      subst hr
      have hy := h.known i y hi
      exact ⟨H, n, _, (Runs.getVar (getv hi) n s).bind
        ((Runs.constantFill E y a (spaceOf y.space) (hk.part y hy) n s).bind (Runs.pure _ _ _)),
        h.setVec hk y hy _ _ (fun p hp => rfl)⟩
  | zeroFill i =>
    have hr : (R.vecs i).map (fun y => R.set y fun _ => A.zero) = some R' := hr
    cases hi : R.vecs i with
    | none => rw [hi] at hr; cases hr
    | some y =>
      rw [hi] at hr
      injection hr with hr
      subst hr
      have hy := h.known i y hi
      exact ⟨H, n, _, (Runs.getVar (getv hi) n s).bind
        ((Runs.constantFill E y A.zero (spaceOf y.space) (hk.part y hy) n s).bind (Runs.pure _ _ _)),
        h.setVec hk y hy _ _ (fun p hp => rfl)⟩
  | fillScalar i a =>
    have hr : ((R.vecs i).bind fun y => (R.scalars a).bind fun α => some (R.set y fun _ => α)) = some R' := hr
    cases hi : R.vecs i with
    | none => rw [hi] at hr; cases hr
    | some y =>
      cases ha : R.scalars a with
      | none => rw [hi, ha] at hr; cases hr
      | some α =>
        rw [hi, ha] at hr
        injection hr with hr
        subst hr
        have hy := h.known i y hi
        obtain ⟨f, hf, hfa⟩ := gets ha
        exact ⟨H, n, _, (Runs.getVar (getv hi) n s).bind ((Runs.getVar hf n s).bind
          ((Runs.constantFillScalar E y f (spaceOf y.space) (hk.part y hy) n s).bind (Runs.pure _ _ _))),
          h.setVec hk y hy _ _ (fun p hp => hfa)⟩
  | scal i a =>
    have hr : ((R.vecs i).bind fun y => (R.scalars a).bind fun α =>
      some (R.set y fun p => A.mul α (R.heap y.data p))) = some R' := hr
    cases hi : R.vecs i with
    | none => rw [hi] at hr; cases hr
    | some y =>
      cases ha : R.scalars a with
      | none => rw [hi, ha] at hr; cases hr
      | some α =>
        rw [hi, ha] at hr
        injection hr with hr
        subst hr
        have hy := h.known i y hi
        obtain ⟨f, hf, hfa⟩ := gets ha
        exact ⟨H, n, _, (Runs.getVar (getv hi) n s).bind ((Runs.getVar hf n s).bind
          ((Runs.scal A E y f (spaceOf y.space) (hk.part y hy) n s).bind (Runs.pure _ _ _))),
          h.setVec hk y hy _ _ (fun p hp => by rw [hfa, h.heap y hy p hp])⟩
  | axpy i a j =>
    have hr : ((R.two i j).bind fun (y, x) => (R.scalars a).bind fun α =>
      some (R.set y fun p => A.fma α (R.heap x.data p) (R.heap y.data p))) = some R' := hr
    cases h2 : R.two i j with
    | none => rw [h2] at hr; cases hr
    | some yx =>
      obtain ⟨y, x⟩ := yx
      cases ha : R.scalars a with
      | none => rw [h2, ha] at hr; cases hr
      | some α =>
        rw [h2, ha] at hr
        injection hr with hr
        subst hr
        obtain ⟨e1, e2, e3, e4, e5, e6⟩ := Ref.two_some h2
        have hy := h.known i y e1
        have hx := h.known j x e2
        obtain ⟨f, hf, hfa⟩ := gets ha
        refine ⟨H, n, _, (Runs.getVar (getv e1) n s).bind ((Runs.getVar hf n s).bind ((Runs.getVar (getv e2) n s).bind
          (((Runs.check e3 e4 e5 n s).bind (Runs.axpyGen A E y x _ (spaceOf y.space) (hk.part y hy) n s)).bind
            (Runs.pure _ _ _)))), h.setVec hk y hy _ _ (fun p hp => ?_)⟩
        rw [alphaOf_one, hfa, h.heap x hx p (e3 ▸ hp), h.heap y hy p hp]
  | axpy2 i a b j =>
    have hr : ((R.two i j).bind fun (y, x) => (R.scalars a).bind fun α => (R.scalars b).bind fun β =>
      some (R.set y fun p => A.fma (A.div α β) (R.heap x.data p) (R.heap y.data p))) = some R' := hr
    cases h2 : R.two i j with
    | none => rw [h2] at hr; cases hr
    | some yx =>
      obtain ⟨y, x⟩ := yx
      cases ha : R.scalars a with
      | none => rw [h2, ha] at hr; cases hr
      | some α =>
        cases hb : R.scalars b with
        | none => rw [h2, ha, hb] at hr; cases hr
        | some β =>
          rw [h2, ha, hb] at hr
          injection hr with hr
          subst hr
          obtain ⟨e1, e2, e3, e4, e5, e6⟩ := Ref.two_some h2
          have hy := h.known i y e1
          have hx := h.known j x e2
          obtain ⟨f, hf, hfa⟩ := gets ha
          obtain ⟨g, hg, hga⟩ := gets hb
          refine ⟨H, n, _, (Runs.getVar (getv e1) n s).bind ((Runs.getVar hf n s).bind ((Runs.getVar hg n s).bind
            ((Runs.getVar (getv e2) n s).bind
            (((Runs.check e3 e4 e5 n s).bind (Runs.axpyGen A E y x _ (spaceOf y.space) (hk.part y hy) n s)).bind
            (Runs.pure _ _ _))))), h.setVec hk y hy _ _ (fun p hp => ?_)⟩
          rw [alphaOf_two, hfa, hga, h.heap x hx p (e3 ▸ hp), h.heap y hy p hp]
  | axpy3 i a b c j =>
    have hr : ((R.two i j).bind fun (y, x) => (R.scalars a).bind fun α => (R.scalars b).bind fun β =>
      (R.scalars c).bind fun γ =>
      some (R.set y fun p => A.fma (A.div (A.mul α β) γ) (R.heap x.data p) (R.heap y.data p))) = some R' := hr
    cases h2 : R.two i j with
    | none => rw [h2] at hr; cases hr
    | some yx =>
      obtain ⟨y, x⟩ := yx
      cases ha : R.scalars a with
      | none => rw [h2, ha] at hr; cases hr
      | some α =>
        cases hb : R.scalars b with
        | none => rw [h2, ha, hb] at hr; cases hr
        | some β =>
          cases hc : R.scalars c with
          | none => rw [h2, ha, hb, hc] at hr; cases hr
          | some γ =>
            rw [h2, ha, hb, hc] at hr
            injection hr with hr
            subst hr
            obtain ⟨e1, e2, e3, e4, e5, e6⟩ := Ref.two_some h2
            have hy := h.known i y e1
            have hx := h.known j x e2
            obtain ⟨f, hf, hfa⟩ := gets ha
            obtain ⟨g, hg, hga⟩ := gets hb
            obtain ⟨k, hk', hka⟩ := gets hc
            refine ⟨H, n, _, (Runs.getVar (getv e1) n s).bind ((Runs.getVar hf n s).bind ((Runs.getVar hg n s).bind
              ((Runs.getVar hk' n s).bind ((Runs.getVar (getv e2) n s).bind
              (((Runs.check e3 e4 e5 n s).bind (Runs.axpyGen A E y x _ (spaceOf y.space) (hk.part y hy) n s)).bind
              (Runs.pure _ _ _)))))), h.setVec hk y hy _ _ (fun p hp => ?_)⟩
            rw [alphaOf_three, hfa, hga, hka, h.heap x hx p (e3 ▸ hp), h.heap y hy p hp]
  | axpyValue i a j =>
    have hr : ((R.two i j).bind fun (y, x) =>
      some (R.set y fun p => A.fma a (R.heap x.data p) (R.heap y.data p))) = some R' := hr
    cases h2 : R.two i j with
    | none => rw [h2] at hr; cases hr
    | some yx =>
      obtain ⟨y, x⟩ := yx
      rw [h2] at hr
      injection hr with hr
      subst hr
      obtain ⟨e1, e2, e3, e4, e5, e6⟩ := Ref.two_some h2
      have hy := h.known i y e1
      have hx := h.known j x e2
      have h' := h.newer (Nat.le_succ n) (Newer.setFut n s a)
      refine ⟨H, n + 1, _, (Runs.getVar (getv e1) n s).bind ((Runs.getVar (getv e2) n s).bind
        (((Runs.scalarOf a n s).bind ((Runs.check e3 e4 e5 (n + 1) _).bind
          (Runs.axpyGen A E y x _ (spaceOf y.space) (hk.part y hy) (n + 1) _))).bind
        (Runs.pure _ _ _))), h'.setVec hk y hy _ _ (fun p hp => ?_)⟩
      rw [alphaOf_one, h'.heap x hx p (e3 ▸ hp), h'.heap y hy p hp]
      simp
  | xpay i a j =>
    have hr : ((R.two i j).bind fun (y, x) => (R.scalars a).bind fun α =>
      some (R.set y fun p => A.fma α (R.heap y.data p) (R.heap x.data p))) = some R' := hr
    cases h2 : R.two i j with
    | none => rw [h2] at hr; cases hr
    | some yx =>
      obtain ⟨y, x⟩ := yx
      cases ha : R.scalars a with
      | none => rw [h2, ha] at hr; cases hr
      | some α =>
        rw [h2, ha] at hr
        injection hr with hr
        subst hr
        obtain ⟨e1, e2, e3, e4, e5, e6⟩ := Ref.two_some h2
        have hy := h.known i y e1
        have hx := h.known j x e2
        obtain ⟨f, hf, hfa⟩ := gets ha
        refine ⟨H, n, _, (Runs.getVar (getv e1) n s).bind ((Runs.getVar hf n s).bind ((Runs.getVar (getv e2) n s).bind
          (((Runs.check e3 e4 e5 n s).bind (Runs.xpayGen A E y x _ (spaceOf y.space) (hk.part y hy) n s)).bind
            (Runs.pure _ _ _)))), h.setVec hk y hy _ _ (fun p hp => ?_)⟩
        rw [alphaOf_one, hfa, h.heap x hx p (e3 ▸ hp), h.heap y hy p hp]
  | xpay2 i a b j =>
    have hr : ((R.two i j).bind fun (y, x) => (R.scalars a).bind fun α => (R.scalars b).bind fun β =>
      some (R.set y fun p => A.fma (A.div α β) (R.heap y.data p) (R.heap x.data p))) = some R' := hr
    cases h2 : R.two i j with
    | none => rw [h2] at hr; cases hr
    | some yx =>
      obtain ⟨y, x⟩ := yx
      cases ha : R.scalars a with
      | none => rw [h2, ha] at hr; cases hr
      | some α =>
        cases hb : R.scalars b with
        | none => rw [h2, ha, hb] at hr; cases hr
        | some β =>
          rw [h2, ha, hb] at hr
          injection hr with hr
          subst hr
          obtain ⟨e1, e2, e3, e4, e5, e6⟩ := Ref.two_some h2
          have hy := h.known i y e1
          have hx := h.known j x e2
          obtain ⟨f, hf, hfa⟩ := gets ha
          obtain ⟨g, hg, hga⟩ := gets hb
          refine ⟨H, n, _, (Runs.getVar (getv e1) n s).bind ((Runs.getVar hf n s).bind ((Runs.getVar hg n s).bind
            ((Runs.getVar (getv e2) n s).bind
            (((Runs.check e3 e4 e5 n s).bind (Runs.xpayGen A E y x _ (spaceOf y.space) (hk.part y hy) n s)).bind
            (Runs.pure _ _ _))))), h.setVec hk y hy _ _ (fun p hp => ?_)⟩
          rw [alphaOf_two, hfa, hga, h.heap x hx p (e3 ▸ hp), h.heap y hy p hp]
  | xpayValue i a j =>
    have hr : ((R.two i j).bind fun (y, x) =>
      some (R.set y fun p => A.fma a (R.heap y.data p) (R.heap x.data p))) = some R' := hr
    cases h2 : R.two i j with
    | none => rw [h2] at hr; cases hr
    | some yx =>
      obtain ⟨y, x⟩ := yx
      rw [h2] at hr
      injection hr with hr
      subst hr
      obtain ⟨e1, e2, e3, e4, e5, e6⟩ := Ref.two_some h2
      have hy := h.known i y e1
      have hx := h.known j x e2
      have h' := h.newer (Nat.le_succ n) (Newer.setFut n s a)
      refine ⟨H, n + 1, _, (Runs.getVar (getv e1) n s).bind ((Runs.getVar (getv e2) n s).bind
        (((Runs.scalarOf a n s).bind ((Runs.check e3 e4 e5 (n + 1) _).bind
          (Runs.xpayGen A E y x _ (spaceOf y.space) (hk.part y hy) (n + 1) _))).bind
        (Runs.pure _ _ _))), h'.setVec hk y hy _ _ (fun p hp => ?_)⟩
      rw [alphaOf_one, h'.heap x hx p (e3 ▸ hp), h'.heap y hy p hp]
      simp
  | dot k i j =>
    have hd := hdot ⟨k, i, j, rfl⟩
    have hr : ((R.vecs i).bind fun v => (R.vecs j).bind fun w =>
      if v.space = w.space ∧ v.colors = w.colors ∧ v.part = w.part then
        some ({ R with scalars := setVar R.scalars k (some (dotRef v (R.heap v.data) (R.heap w.data))) } : Ref P V)
      else none) = some R' := hr
    cases hi : R.vecs i with
    | none => rw [hi] at hr; cases hr
    | some v =>
      cases hj : R.vecs j with
      | none => rw [hi, hj] at hr; cases hr
      | some w =>
        rw [hi, hj] at hr
        simp only [Option.bind_some] at hr
        split at hr
        · next hc =>
          injection hr with hr
          subst hr
          obtain ⟨e3, e4, e5⟩ := hc
          have hv := h.known i v hi
          have hw := h.known j w hj
          have hn : Newer n s (setDot A s n (fun p => s (.elem v.data p)) (fun p => s (.elem w.data p))
              (E.pieces v.part) (E.redOrder n (List.range (E.pieces v.part).length))) :=
            ⟨fun f hf => by rw [setDot_fut, if_neg (by omega)], fun _ _ => rfl⟩
          refine ⟨_, n + 1, _, (Runs.getVar (getv hi) n s).bind ((Runs.getVar (getv hj) n s).bind
            ((Runs.dot A E v w e3 e4 e5 n s (hd.perm _ _)).bind
              (f := fun f => pure (Handles.mk (setVar H.scalars k (some f)) H.vecs)) (Runs.pure _ _ _))), ?_⟩
          have h' := h.newer (Nat.le_succ n) hn
          refine ⟨h'.scalars.set k ⟨n⟩ _ (Nat.lt_succ_self n) ?_, h'.vecs, h'.known, h'.heap⟩
          rw [setDot_fut, if_pos rfl]
          show _ = dotRef v (R.heap v.data) (R.heap w.data)
          rw [← hd.dot v hv]
          have hpv := hk.part v hv
          exact dotValue_congr A _ _ (fun p hp => h.heap v hv p ((hpv.2 p).1 hp))
            (fun p hp => h.heap w hw p (e3 ▸ (hpv.2 p).1 hp))
        · cases hr

theorem emitCalls_correct {E : Env P} {A : Arith V} {dotRef : Vec → (P → V) → (P → V) → V} {spaceOf : Nat → List P}
    {K : Vec → Prop} (hk : Known E A spaceOf dotRef K) (cs : List (Call V))
    (hdot : (∃ k i j, Call.dot k i j ∈ cs) → ∀ n, DotOk E A dotRef K n) : ∀ (H : Handles) (n : Nat) (s : Cell P → V) (R R' : Ref P V),
    Sim spaceOf K H n s R → runCalls A dotRef R cs = some R' → Simulates spaceOf K (emitCalls A E H cs) n s R' := by
  induction cs with
  | nil =>
    intro H n s R R' h hr
    injection hr with hr
    subst hr
    exact ⟨H, n, s, Runs.pure _ _ _, h⟩
  | cons c cs ih =>
    intro H n s R R' h hr
    have hr : ((c.run A dotRef R).bind fun R' => runCalls A dotRef R' cs) = some R' := hr
    cases hc : c.run A dotRef R with
    | none => rw [hc] at hr; cases hr
    | some R1 =>
      rw [hc] at hr
      obtain ⟨H1, n1, s1, h1, h2⟩ := emitCall_correct hk H n s R R1 h c
        (fun ⟨k, i, j, e⟩ => hdot ⟨k, i, j, by rw [e]; exact List.mem_cons_self ..⟩ n) hc
      obtain ⟨H2, n2, s2, h3, h4⟩ := ih (fun ⟨k, i, j, e⟩ => hdot ⟨k, i, j, List.mem_cons_of_mem _ e⟩) H1 n1 s1 R1 R' h2 hr
      exact ⟨H2, n2, s2, h1.bind h3, h4⟩

/-! ## Any arithmetic: inner products depend on the order the piece sums are reduced in -/

/-- Same shape: the same vectors, and values for the same scalars. -/
def Alike (R S : Ref P V) : Prop := R.vecs = S.vecs ∧ ∀ i, (R.scalars i).isSome = (S.scalars i).isSome

theorem Alike.rfl {R : Ref P V} : Alike R R := ⟨Eq.refl _, fun _ => Eq.refl _⟩

theorem isSome_setVar {β : Type} {σ τ : Nat → Option β} (h : ∀ i, (σ i).isSome = (τ i).isSome) (k : Nat) {a b : Option β}
    (hab : a.isSome = b.isSome) (i : Nat) : (setVar σ k a i).isSome = (setVar τ k b i).isSome := by
  unfold setVar
  split
  · exact hab
  · exact h i

theorem Expr.eval_isSome (A : Arith V) {σ τ : Nat → Option V} (h : ∀ i, (σ i).isSome = (τ i).isSome) (e : Expr V) :
    (e.eval A σ).isSome = (e.eval A τ).isSome := by
  have two : ∀ (f : V → V → V) (a b c d : Option V), a.isSome = c.isSome → b.isSome = d.isSome →
      (a.bind fun x => b.map fun y => f x y).isSome = (c.bind fun x => d.map fun y => f x y).isSome := by
    intro f a b c d h1 h2
    cases a <;> cases b <;> cases c <;> cases d <;> first | rfl | (simp at h1; done) | simp at h2
  induction e with
  | var i => exact h i
  | lit a => rfl
  | pos e ih => exact ih
  | neg e ih => simpa [Expr.eval] using ih
  | sqrt e ih => simpa [Expr.eval] using ih
  | rsqrt e ih => simpa [Expr.eval] using ih
  | add e e' ih ih' => exact two A.add _ _ _ _ ih ih'
  | sub e e' ih ih' => exact two A.sub _ _ _ _ ih ih'
  | mul e e' ih ih' => exact two A.mul _ _ _ _ ih ih'
  | div e e' ih ih' => exact two A.div _ _ _ _ ih ih'

theorem Stmt.run_alike (A : Arith V) {σ τ σ' : Nat → Option V} (h : ∀ i, (σ i).isSome = (τ i).isSome) (c : Stmt V)
    (hr : c.run A σ = some σ') : ∃ τ', c.run A τ = some τ' ∧ ∀ i, (σ' i).isSome = (τ' i).isSome := by
  cases c with
  | assign i e =>
    have hr : (e.eval A σ).map (fun a => setVar σ i (some a)) = some σ' := hr
    obtain ⟨a, h1, rfl⟩ := Option.map_eq_some_iff.1 hr
    have h2 := Expr.eval_isSome A h e
    rw [h1] at h2
    obtain ⟨b, hb⟩ := Option.isSome_iff_exists.1 h2.symm
    refine ⟨_, (congrArg (Option.map _) hb : (Stmt.assign i e).run A τ = _), isSome_setVar h i rfl⟩
  | move i j =>
    have hr : (σ j).map (fun a => setVar (setVar σ j none) i (some a)) = some σ' := hr
    obtain ⟨a, h1, rfl⟩ := Option.map_eq_some_iff.1 hr
    have h2 := h j
    rw [h1] at h2
    obtain ⟨b, hb⟩ := Option.isSome_iff_exists.1 h2.symm
    refine ⟨_, (congrArg (Option.map _) hb : (Stmt.move i j).run A τ = _), isSome_setVar (isSome_setVar h j rfl) i rfl⟩

/-- Whether a call goes through does not depend on values. -/
theorem Call.run_alike (A : Arith V) (d d' : Vec → (P → V) → (P → V) → V) {R S R' : Ref P V} (h : Alike R S) (c : Call V)
    (hr : c.run A d R = some R') : ∃ S', c.run A d' S = some S' ∧ Alike R' S' := by
  obtain ⟨hv, hs⟩ := h
  have ht : ∀ i j, R.two i j = S.two i j := by intro i j; unfold Ref.two; rw [hv]
  have sc : ∀ {i a}, R.scalars i = some a → ∃ b, S.scalars i = some b := by
    intro i a hi
    have := hs i
    rw [hi] at this
    exact Option.isSome_iff_exists.1 this.symm
  cases c with
  | scalar c =>
    have hr : (c.run A R.scalars).map (fun σ => ({ R with scalars := σ } : Ref P V)) = some R' := hr
    obtain ⟨σ, h1, rfl⟩ := Option.map_eq_some_iff.1 hr
    obtain ⟨τ, h2, h3⟩ := Stmt.run_alike A hs c h1
    exact ⟨_, (congrArg (Option.map _) h2 : (Call.scalar c).run A d' S = _), hv, h3⟩
  | copyConstruct i j =>
    have hr : (R.vecs j).map (fun v => ({ R with vecs := setVar R.vecs i (some v) } : Ref P V)) = some R' := hr
    obtain ⟨v, h1, rfl⟩ := Option.map_eq_some_iff.1 hr
    rw [hv] at h1
    exact ⟨_, (congrArg (Option.map _) h1 : (Call.copyConstruct i j).run A d' S = _), congrArg (setVar · i (some v)) hv, hs⟩
  | dot k i j =>
    have hr : ((R.vecs i).bind fun v => (R.vecs j).bind fun w =>
      if v.space = w.space ∧ v.colors = w.colors ∧ v.part = w.part then
        some ({ R with scalars := setVar R.scalars k (some (d v (R.heap v.data) (R.heap w.data))) } : Ref P V)
      else none) = some R' := hr
    obtain ⟨v, h1, hr⟩ := Option.bind_eq_some_iff.1 hr
    obtain ⟨w, h2, hr⟩ := Option.bind_eq_some_iff.1 hr
    rw [hv] at h1 h2
    split at hr
    · next hc =>
      injection hr with hr
      subst hr
      refine ⟨{ S with scalars := setVar S.scalars k (some (d' v (S.heap v.data) (S.heap w.data))) }, ?_, hv,
        isSome_setVar hs k rfl⟩
      show ((S.vecs i).bind fun v => (S.vecs j).bind fun w => _) = _
      rw [h1, h2]
      exact if_pos hc
    · cases hr
  | assign i j =>
    simp only [Call.run, ht, Option.map_eq_some_iff] at hr ⊢
    obtain ⟨⟨y, x⟩, h1, rfl⟩ := hr
    exact ⟨_, ⟨(y, x), h1, rfl⟩, hv, hs⟩
  | fillValue i a | zeroFill i =>
    simp only [Call.run, hv, Option.map_eq_some_iff] at hr ⊢
    obtain ⟨y, h1, rfl⟩ := hr
    exact ⟨_, ⟨y, h1, rfl⟩, hv, hs⟩
  | fillScalar i a | scal i a =>
    simp only [Call.run, hv, Option.bind_eq_bind, Option.bind_eq_some_iff, Option.some.injEq] at hr ⊢
    obtain ⟨y, h1, α, h2, rfl⟩ := hr
    obtain ⟨β, h3⟩ := sc h2
    exact ⟨_, ⟨y, h1, β, h3, rfl⟩, hv, hs⟩
  | axpyValue i a j | xpayValue i a j =>
    simp only [Call.run, ht, Option.bind_eq_bind, Option.bind_eq_some_iff, Option.some.injEq] at hr ⊢
    obtain ⟨y, h1, rfl⟩ := hr
    exact ⟨_, ⟨y, h1, rfl⟩, hv, hs⟩
  | axpy i a j | xpay i a j =>
    simp only [Call.run, ht, Option.bind_eq_bind, Option.bind_eq_some_iff, Option.some.injEq] at hr ⊢
    obtain ⟨y, h1, α, h2, rfl⟩ := hr
    obtain ⟨β, h3⟩ := sc h2
    exact ⟨_, ⟨y, h1, β, h3, rfl⟩, hv, hs⟩
  | axpy2 i a b j | xpay2 i a b j =>
    simp only [Call.run, ht, Option.bind_eq_bind, Option.bind_eq_some_iff, Option.some.injEq] at hr ⊢
    obtain ⟨y, h1, α, h2, β, h2', rfl⟩ := hr
    obtain ⟨α', h3⟩ := sc h2
    obtain ⟨β', h3'⟩ := sc h2'
    exact ⟨_, ⟨y, h1, α', h3, β', h3', rfl⟩, hv, hs⟩
  | axpy3 i a b c j =>
    simp only [Call.run, ht, Option.bind_eq_bind, Option.bind_eq_some_iff, Option.some.injEq] at hr ⊢
    obtain ⟨y, h1, α, h2, β, h2', γ, h2'', rfl⟩ := hr
    obtain ⟨α', h3⟩ := sc h2
    obtain ⟨β', h3'⟩ := sc h2'
    obtain ⟨γ', h3''⟩ := sc h2''
    exact ⟨_, ⟨y, h1, α', h3, β', h3', γ', h3'', rfl⟩, hv, hs⟩

/-- The emitted program computes what the calls compute one after the other on whole vectors, each inner product being the
sum of its piece sums in the order the runtime reduces them in. -/
theorem emitCalls_computes {E : Env P} {A : Arith V} {dotRef : Vec → (P → V) → (P → V) → V} {spaceOf : Nat → List P}
    {K : Vec → Prop} (hk : Known E A spaceOf dotRef K) (ho : ∀ f l, (E.redOrder f l).Perm l) (cs : List (Call V)) :
    ∀ (H : Handles) (n : Nat) (s : Cell P → V) (R S S' : Ref P V), Sim spaceOf K H n s R → Alike S R →
    runCalls A dotRef S cs = some S' → ∃ R', Computes A E R cs R' ∧ Simulates spaceOf K (emitCalls A E H cs) n s R' := by
  induction cs with
  | nil =>
    intro H n s R S S' h _ _
    exact ⟨R, .nil R, H, n, s, Runs.pure _ _ _, h⟩
  | cons c cs ih =>
    intro H n s R S S' h ha hr
    have hr : ((c.run A dotRef S).bind fun R' => runCalls A dotRef R' cs) = some S' := hr
    obtain ⟨S1, hc, hr⟩ := Option.bind_eq_some_iff.1 hr
    obtain ⟨R1, hc1, ha1⟩ := Call.run_alike A dotRef
      (fun v x y => dotValue A x y (E.pieces v.part) (E.redOrder n (List.range (E.pieces v.part).length))) ha c hc
    obtain ⟨H1, n1, s1, h1, h2⟩ := emitCall_correct (E := E) (K := K) ⟨hk.part, hk.data⟩ H n s R R1 h c
      (fun _ => ⟨ho, fun _ _ _ _ => rfl⟩) hc1
    obtain ⟨R', h3, H2, n2, s2, h4, h5⟩ := ih H1 n1 s1 R1 S1 S' h2 ha1 hr
    exact ⟨R', .cons (fun v x y => ⟨_, ho n _, by simp only [dotValue, dotPiece, List.foldl_map]⟩) hc1 h3, H2, n2, s2, h1.bind h4, h5⟩

end Verif.Vector
