import Verif.Solver.Model
import Mathlib.Data.List.Forall2

/-! # The solvers depend only on the operations they call

Run with two sets of operations that correspond to each other, a solver behaves correspondingly: its control flow never inspects a
scalar. -/
set_option linter.dupNamespace false
namespace Verif.Solver

/-- A relation between programs of two monads that respects `pure` and `bind`. -/
structure Lift (m m' : Type → Type) [Monad m] [Monad m'] where
  rel : {α β : Type} → (α → β → Prop) → m α → m' β → Prop
  pure : ∀ {α β : Type} {R : α → β → Prop} {a : α} {b : β}, R a b → rel R (pure a) (pure b)
  bind : ∀ {α β γ δ : Type} {R : α → β → Prop} {Q : γ → δ → Prop} {x : m α} {y : m' β} {f : α → m γ} {g : β → m' δ},
    rel R x y → (∀ a b, R a b → rel Q (f a) (g b)) → rel Q (x >>= f) (y >>= g)

section
variable {m m' : Type → Type} [Monad m] [Monad m'] {S S' : Type}

/-- Both return nothing. -/
abbrev UU : Unit → Unit → Prop := fun _ _ => True

/-- The operations correspond, argument by argument. -/
structure OpsRel (L : Lift m m') (R : S → S' → Prop) (O : Ops m S) (O' : Ops m' S') : Prop where
  negOne : L.rel R O.negOne O'.negOne
  zero : L.rel R O.zero O'.zero
  one : L.rel R O.one O'.one
  neg : ∀ a a', R a a' → L.rel R (O.neg a) (O'.neg a')
  mul : ∀ a a' b b', R a a' → R b b' → L.rel R (O.mul a b) (O'.mul a' b')
  div : ∀ a a' b b', R a a' → R b b' → L.rel R (O.div a b) (O'.div a' b')
  sqrt : ∀ a a', R a a' → L.rel R (O.sqrt a) (O'.sqrt a')
  rsqrt : ∀ a a', R a a' → L.rel R (O.rsqrt a) (O'.rsqrt a')
  zeroFill : ∀ d, L.rel UU (O.zeroFill d) (O'.zeroFill d)
  copy : ∀ d x, L.rel UU (O.copy d x) (O'.copy d x)
  scal : ∀ d a a', R a a' → L.rel UU (O.scal d a) (O'.scal d a')
  axpy : ∀ d a a' x, R a a' → L.rel UU (O.axpy d a x) (O'.axpy d a' x)
  axpy2 : ∀ d a a' b b' x, R a a' → R b b' → L.rel UU (O.axpy2 d a b x) (O'.axpy2 d a' b' x)
  axpy3 : ∀ d a a' b b' c c' x, R a a' → R b b' → R c c' → L.rel UU (O.axpy3 d a b c x) (O'.axpy3 d a' b' c' x)
  xpay : ∀ d a a' x, R a a' → L.rel UU (O.xpay d a x) (O'.xpay d a' x)
  xpay2 : ∀ d a a' b b' x, R a a' → R b b' → L.rel UU (O.xpay2 d a b x) (O'.xpay2 d a' b' x)
  dot : ∀ v w, L.rel R (O.dot v w) (O'.dot v w)
  matvec : ∀ d x, L.rel UU (O.matvec d x) (O'.matvec d x)
  dummy : ∀ l l', List.Forall₂ R l l' → L.rel R (O.dummy l) (O'.dummy l')

variable {L : Lift m m'} {R : S → S' → Prop} {O : Ops m S} {O' : Ops m' S'}

theorem rel_repeat {α β : Type} {Q : α → β → Prop} {f : α → m α} {g : β → m' β} (h : ∀ a b, Q a b → L.rel Q (f a) (g b)) (k : Nat) :
    ∀ a b, Q a b → L.rel Q (repeatM f k a) (repeatM g k b) := by
  induction k with
  | zero => exact fun a b hab => L.pure hab
  | succ k ih => exact fun a b hab => L.bind (h a b hab) ih

/-! ## CG -/

/-- Corresponding CG states. -/
structure CG.Rel (R : S → S' → Prop) (c : CG S) (c' : CG S') : Prop where
  older : List.Forall₂ R c.older c'.older
  last : R c.last c'.last
  negOne : R c.negOne c'.negOne

theorem forall₂_append {l₁ l₂ : List S} {l₁' l₂' : List S'} (h : List.Forall₂ R l₁ l₁') (h' : List.Forall₂ R l₂ l₂') :
    List.Forall₂ R (l₁ ++ l₂) (l₁' ++ l₂') := by
  induction h with
  | nil => exact h'
  | cons h _ ih => exact .cons h ih

theorem forall₂_snoc {l : List S} {l' : List S'} {a : S} {a' : S'} (h : List.Forall₂ R l l') (ha : R a a') :
    List.Forall₂ R (l ++ [a]) (l' ++ [a']) := forall₂_append h (.cons ha .nil)

theorem rel_cg (H : OpsRel L R O O') (k : Nat) : L.rel (CG.Rel R) (CG.solve O k) (CG.solve O' k) := by
  refine L.bind (R := CG.Rel R) ?_ fun c c' hc => rel_repeat (fun c c' hc => ?_) k c c' hc
  · refine L.bind H.negOne fun _ _ h1 => L.bind (H.copy 2 1) fun _ _ _ => L.bind (H.copy 4 1) fun _ _ _ =>
      L.bind (H.dot 4 4) fun _ _ h2 => L.pure ⟨.nil, h2, h1⟩
  · refine L.bind (H.matvec 3 2) fun _ _ _ => L.bind (H.dot 2 3) fun _ _ h1 =>
      L.bind (H.axpy2 0 _ _ _ _ 2 hc.last h1) fun _ _ _ => L.bind (H.axpy3 4 _ _ _ _ _ _ 3 hc.negOne hc.last h1) fun _ _ _ =>
      L.bind (H.dot 4 4) fun _ _ h2 => L.bind (H.xpay2 2 _ _ _ _ 4 h2 hc.last) fun _ _ _ =>
      L.pure ⟨forall₂_snoc hc.older hc.last, h2, hc.negOne⟩

/-! ## BiCGStab -/

/-- Corresponding BiCGStab states. -/
structure BiCGStab.Rel (R : S → S' → Prop) (c : BiCGStab S) (c' : BiCGStab S') : Prop where
  rhos : List.Forall₂ R c.rhos c'.rhos
  rho : R c.rho c'.rho
  alphas : List.Forall₂ R c.alphas c'.alphas
  alpha : R c.alpha c'.alpha
  omegas : List.Forall₂ R c.omegas c'.omegas
  omega : R c.omega c'.omega
  negOne : R c.negOne c'.negOne
  zero : R c.zero c'.zero
  one : R c.one c'.one

theorem rel_bicgstab (H : OpsRel L R O O') (k : Nat) : L.rel (BiCGStab.Rel R) (BiCGStab.solve O k) (BiCGStab.solve O' k) := by
  refine L.bind (R := BiCGStab.Rel R) ?_ fun c c' hc => rel_repeat (fun c c' hc => ?_) k c c' hc
  · refine L.bind H.negOne fun _ _ h1 => L.bind H.zero fun _ _ h2 => L.bind H.one fun _ _ h3 => L.bind (H.copy 3 1) fun _ _ _ =>
      L.bind (H.copy 4 1) fun _ _ _ => L.bind (H.zeroFill 2) fun _ _ _ => L.bind (H.zeroFill 6) fun _ _ _ =>
      L.pure ⟨.nil, h3, .nil, h2, .nil, h3, h1, h2, h3⟩
  · refine L.bind (H.dot 3 4) fun _ _ h1 => L.bind (H.div _ _ _ _ h1 hc.rho) fun _ _ h2 =>
      L.bind (H.div _ _ _ _ hc.alpha hc.omega) fun _ _ h3 => L.bind (H.mul _ _ _ _ h2 h3) fun _ _ h4 =>
      L.bind (H.neg _ _ hc.omega) fun _ _ h5 => L.bind (H.axpy 2 _ _ 6 h5) fun _ _ _ => L.bind (H.xpay 2 _ _ 3 h4) fun _ _ _ =>
      L.bind (H.matvec 6 2) fun _ _ _ => L.bind (H.dot 4 6) fun _ _ h6 =>
      L.bind (H.axpy3 3 _ _ _ _ _ _ 6 hc.negOne h1 h6) fun _ _ _ => L.bind (H.div _ _ _ _ h1 h6) fun _ _ h7 =>
      L.bind (H.matvec 5 3) fun _ _ _ => L.bind (H.dot 3 5) fun _ _ h8 => L.bind (H.dot 5 5) fun _ _ h9 =>
      L.bind (H.div _ _ _ _ h8 h9) fun _ _ h10 => L.bind (H.axpy 0 _ _ 2 h7) fun _ _ _ => L.bind (H.axpy 0 _ _ 3 h10) fun _ _ _ =>
      L.bind (H.neg _ _ h10) fun _ _ h11 => L.bind (H.axpy 3 _ _ 5 h11) fun _ _ _ =>
      L.pure ⟨forall₂_snoc hc.rhos hc.rho, h1, forall₂_snoc hc.alphas hc.alpha, h7, forall₂_snoc hc.omegas hc.omega, h10,
        hc.negOne, hc.zero, hc.one⟩

/-! ## GMRES -/

/-- Corresponding two-dimensional arrays. -/
def Rel2 (R : S → S' → Prop) (h : Nat → Nat → S) (h' : Nat → Nat → S') : Prop := ∀ i j, R (h i j) (h' i j)

/-- Corresponding GMRES states. -/
structure GMRES.Rel (R : S → S' → Prop) (c : GMRES S) (c' : GMRES S') : Prop where
  restart : c.restart = c'.restart
  negOne : R c.negOne c'.negOne
  inner : ∀ i j, R (c.inner i j) (c'.inner i j)
  triangular : List.Forall₂ R c.triangular c'.triangular
  coefficients : List.Forall₂ R c.coefficients c'.coefficients

theorem rel_zeros (H : OpsRel L R O O') (n : Nat) : L.rel (List.Forall₂ R) (zeros O n) (zeros O' n) := by
  induction n with
  | zero => exact L.pure .nil
  | succ n ih => exact L.bind H.zero fun _ _ h => L.bind ih fun _ _ h' => L.pure (.cons h h')

theorem forall₂_getD {l : List S} {l' : List S'} {d : S} {d' : S'} (h : List.Forall₂ R l l') (hd : R d d') (i : Nat) :
    R (l.getD i d) (l'.getD i d') := by
  induction h generalizing i with
  | nil => exact hd
  | cons h _ ih => cases i with
    | zero => exact h
    | succ i => exact ih i

theorem setEntry_rel {h : Nat → Nat → S} {h' : Nat → Nat → S'} (hh : ∀ i j, R (h i j) (h' i j)) (i j : Nat) {a : S} {a' : S'}
    (ha : R a a') (i' j' : Nat) : R (setEntry h i j a i' j') (setEntry h' i j a' i' j') := by
  unfold setEntry
  split
  · exact ha
  · exact hh i' j'

theorem rel_orthogonalise (H : OpsRel L R O O') (j : Nat) (l : List Nat) : ∀ (h : Nat → Nat → S) (h' : Nat → Nat → S'),
    Rel2 R h h' →
    L.rel (Rel2 R) (GMRES.orthogonalise O j l h) (GMRES.orthogonalise O' j l h') := by
  induction l with
  | nil => exact fun h h' hh => L.pure (R := Rel2 R) hh
  | cons k l ih =>
    exact fun h h' hh => L.bind (H.dot _ _) fun _ _ hd => L.bind (H.neg _ _ (setEntry_rel hh k j hd k j)) fun _ _ hn =>
      L.bind (H.axpy _ _ _ _ hn) fun _ _ _ => ih _ _ (setEntry_rel hh k j hd)

theorem rel_columns (H : OpsRel L R O O') (n : Nat) (l : List Nat) : ∀ (h : Nat → Nat → S) (h' : Nat → Nat → S'),
    Rel2 R h h' →
    L.rel (Rel2 R) (GMRES.columns O n l h) (GMRES.columns O' n l h') := by
  induction l with
  | nil => exact fun h h' hh => L.pure (R := Rel2 R) hh
  | cons j l ih =>
    intro h h' hh
    unfold GMRES.columns
    refine L.bind (R := Rel2 R) ?_ fun h h' hh => ih h h' hh
    unfold GMRES.column
    refine L.bind (H.matvec _ _) fun _ _ _ => L.bind (rel_orthogonalise H j _ h h' hh) fun h h' hh => L.bind (H.dot _ _) fun _ _ hd =>
      L.bind (H.sqrt _ _ hd) fun _ _ hq => ?_
    split
    · exact L.bind (H.rsqrt _ _ hd) fun _ _ hr => L.bind (H.scal _ _ _ hr) fun _ _ _ =>
        L.pure (R := Rel2 R) (setEntry_rel hh _ _ hq)
    · exact L.pure (R := Rel2 R) (setEntry_rel hh _ _ hq)

theorem rel_update (H : OpsRel L R O O') {a : S} {a' : S'} (ha : R a a') (l : List Nat) :
    L.rel UU (GMRES.update O a l) (GMRES.update O' a' l) := by
  induction l with
  | nil => exact L.pure (R := UU) trivial
  | cons j l ih => exact L.bind (H.axpy _ _ _ _ ha) fun _ _ _ => ih

theorem rel_gmres (H : OpsRel L R O O') (n k : Nat) : L.rel (GMRES.Rel R) (GMRES.solve O n k) (GMRES.solve O' n k) := by
  refine L.bind (R := GMRES.Rel R) ?_ fun c c' hc => rel_repeat (fun c c' hc => ?_) k c c' hc
  · refine L.bind H.negOne fun _ _ h1 => L.bind (rel_zeros H _) fun _ _ h2 => L.bind (rel_zeros H _) fun _ _ h3 =>
      L.bind (rel_zeros H _) fun _ _ h4 => L.pure ⟨rfl, h1, fun i j => forall₂_getD h2 h1 _, h3, h4⟩
  · refine L.bind (R := GMRES.Rel R) ?_ fun c c' hc => ?_
    · refine L.bind (R := UU) ?_ fun _ _ _ => ?_
      · exact L.bind (H.matvec _ _) fun _ _ _ => L.bind (H.xpay _ _ _ _ hc.negOne) fun _ _ _ => L.bind (H.dot _ _) fun _ _ hd =>
          L.bind (H.rsqrt _ _ hd) fun _ _ hr => H.scal _ _ _ hr
      · rw [hc.restart]
        exact L.bind (rel_columns H _ _ _ _ hc.inner) fun h h' hh => L.pure ⟨rfl, hc.negOne, hh, hc.triangular, hc.coefficients⟩
    · refine L.bind (R := UU) ?_ fun _ _ _ => L.pure hc
      unfold GMRES.finish
      rw [hc.restart]
      refine L.bind (H.dummy _ _ ?_) fun _ _ ha => rel_update H ha _
      generalize List.range (c'.restart + 1) = l
      induction l with
      | nil => exact .nil
      | cons i l ih =>
        rw [List.flatMap_cons, List.flatMap_cons]
        refine forall₂_append ?_ ih
        generalize List.range c'.restart = l'
        induction l' with
        | nil => exact .nil
        | cons j l' ih' => exact .cons (hc.inner i j) ih'

/-! ## Single steps, from states that need not have the same history -/

theorem rel_cg_step (H : OpsRel L R O O') {c : CG S} {c' : CG S'} (hl : R c.last c'.last) (hn : R c.negOne c'.negOne) :
    L.rel (fun d d' => R d.last d'.last ∧ R d.negOne d'.negOne) (CG.step O c) (CG.step O' c') :=
  L.bind (H.matvec 3 2) fun _ _ _ => L.bind (H.dot 2 3) fun _ _ h1 =>
    L.bind (H.axpy2 0 _ _ _ _ 2 hl h1) fun _ _ _ => L.bind (H.axpy3 4 _ _ _ _ _ _ 3 hn hl h1) fun _ _ _ =>
    L.bind (H.dot 4 4) fun _ _ h2 => L.bind (H.xpay2 2 _ _ _ _ 4 h2 hl) fun _ _ _ => L.pure ⟨h2, hn⟩

theorem rel_bicgstab_step (H : OpsRel L R O O') {c : BiCGStab S} {c' : BiCGStab S'} (hr : R c.rho c'.rho)
    (ha : R c.alpha c'.alpha) (ho : R c.omega c'.omega) (hn : R c.negOne c'.negOne) :
    L.rel (fun d d' => R d.rho d'.rho ∧ R d.alpha d'.alpha ∧ R d.omega d'.omega ∧ R d.negOne d'.negOne)
      (BiCGStab.step O c) (BiCGStab.step O' c') :=
  L.bind (H.dot 3 4) fun _ _ h1 => L.bind (H.div _ _ _ _ h1 hr) fun _ _ h2 =>
    L.bind (H.div _ _ _ _ ha ho) fun _ _ h3 => L.bind (H.mul _ _ _ _ h2 h3) fun _ _ h4 =>
    L.bind (H.neg _ _ ho) fun _ _ h5 => L.bind (H.axpy 2 _ _ 6 h5) fun _ _ _ => L.bind (H.xpay 2 _ _ 3 h4) fun _ _ _ =>
    L.bind (H.matvec 6 2) fun _ _ _ => L.bind (H.dot 4 6) fun _ _ h6 =>
    L.bind (H.axpy3 3 _ _ _ _ _ _ 6 hn h1 h6) fun _ _ _ => L.bind (H.div _ _ _ _ h1 h6) fun _ _ h7 =>
    L.bind (H.matvec 5 3) fun _ _ _ => L.bind (H.dot 3 5) fun _ _ h8 => L.bind (H.dot 5 5) fun _ _ h9 =>
    L.bind (H.div _ _ _ _ h8 h9) fun _ _ h10 => L.bind (H.axpy 0 _ _ 2 h7) fun _ _ _ => L.bind (H.axpy 0 _ _ 3 h10) fun _ _ _ =>
    L.bind (H.neg _ _ h10) fun _ _ h11 => L.bind (H.axpy 3 _ _ 5 h11) fun _ _ _ => L.pure ⟨h1, h7, h10, hn⟩

theorem rel_gmres_step (H : OpsRel L R O O') {c : GMRES S} {c' : GMRES S'} (hre : c.restart = c'.restart)
    (hn : R c.negOne c'.negOne) (hi : ∀ i j, R (c.inner i j) (c'.inner i j)) :
    L.rel (fun d d' => d.restart = c.restart ∧ d'.restart = c'.restart ∧ R d.negOne d'.negOne ∧ ∀ i j, R (d.inner i j) (d'.inner i j))
      (GMRES.step O c) (GMRES.step O' c') := by
  let Q : GMRES S → GMRES S' → Prop := fun d d' =>
    d.restart = c.restart ∧ d'.restart = c'.restart ∧ R d.negOne d'.negOne ∧ ∀ i j, R (d.inner i j) (d'.inner i j)
  refine L.bind (R := Q) ?_ fun d d' hd => ?_
  · refine L.bind (R := UU) ?_ fun _ _ _ => ?_
    · exact L.bind (H.matvec _ _) fun _ _ _ => L.bind (H.xpay _ _ _ _ hn) fun _ _ _ => L.bind (H.dot _ _) fun _ _ hd =>
        L.bind (H.rsqrt _ _ hd) fun _ _ hr => H.scal _ _ _ hr
    · rw [hre]
      exact L.bind (rel_columns H _ _ _ _ hi) fun h h' hh => L.pure ⟨hre.symm, rfl, hn, hh⟩
  · obtain ⟨h1, h2, h3, h4⟩ := hd
    refine L.bind (R := UU) ?_ fun _ _ _ => L.pure ⟨h1, h2, h3, h4⟩
    unfold GMRES.finish
    rw [h1, h2, hre]
    refine L.bind (H.dummy _ _ ?_) fun _ _ ha => rel_update H ha _
    generalize List.range (c'.restart + 1) = l
    induction l with
    | nil => exact .nil
    | cons i l ih =>
      rw [List.flatMap_cons, List.flatMap_cons]
      refine forall₂_append ?_ ih
      generalize List.range c'.restart = l'
      induction l' with
      | nil => exact .nil
      | cons j l' ih' => exact .cons (h4 i j) ih'

end
end Verif.Solver
