import Verif.App.Model

/-! # Which data the library's tasks touch -/
set_option linter.unusedSectionVars false
namespace Verif.App
open Verif.Runtime Verif.Vector Verif.Matrix Verif.Planner Verif.Solver
variable {K P V : Type} [DecidableEq P] [DecidableEq K]

/-- The task's declared requirements on elements are on data in `D`. -/
def On (D : Nat → Prop) (t : Task (Cell P) V) : Prop := ∀ d p, t.reads (.elem d p) ∨ t.writes (.elem d p) → D d

/-- Everything the program launches is on data in `D`. -/
def Foot {α : Type} (D : Nat → Prop) (m : M P V α) : Prop :=
  ∀ e a e', m e = some (a, e') → ∃ ts, e'.out = e.out ++ ts ∧ ∀ t ∈ ts, On D t

/-- Data of the planner's vectors at the positions in `I` (0 solution, 1 right-hand side, from 2 on workspace). -/
def OwnsAt (I : Nat → Prop) (pl : Planner K P V) (d : Nat) : Prop := ∃ k i v, I k ∧ pl.lookup k i = some v ∧ v.data = d

/-- Data of the planner's vectors. -/
def Owns (pl : Planner K P V) (d : Nat) : Prop := OwnsAt (fun _ => True) pl d

namespace Foot
variable {α β : Type} {D : Nat → Prop}

theorem pure (a : α) : Foot D (pure a : M P V α) := by
  intro e b e' h
  obtain ⟨rfl, rfl⟩ := Prod.mk.inj (Option.some.inj h)
  exact ⟨[], by simp, by simp⟩

theorem bind {m : M P V α} {f : α → M P V β} (h : Foot D m) (h' : ∀ a, Foot D (f a)) : Foot D (m >>= f) := by
  intro e b e'' hh
  obtain ⟨⟨a, e'⟩, h1, h2⟩ := Option.bind_eq_some_iff.1 (show (m e).bind (fun p => f p.1 p.2) = some (b, e'') from hh)
  obtain ⟨ts, e1, t1⟩ := h e a e' h1
  obtain ⟨ts', e2, t2⟩ := h' a e' b e'' h2
  refine ⟨ts ++ ts', by rw [e2, e1, List.append_assoc], fun t ht => ?_⟩
  rcases List.mem_append.1 ht with ht | ht
  · exact t1 t ht
  · exact t2 t ht

theorem launch {ts : List (Task (Cell P) V)} (h : ∀ t ∈ ts, On D t) : Foot D (launch ts) := by
  intro e b e' hh
  obtain ⟨rfl, rfl⟩ := Prod.mk.inj (Option.some.inj hh)
  exact ⟨ts, rfl, h⟩

theorem fresh : Foot D (fresh : M P V Nat) := by
  intro e b e' hh
  obtain ⟨rfl, rfl⟩ := Prod.mk.inj (Option.some.inj hh)
  exact ⟨[], by simp, by simp⟩

theorem require (b : Bool) : Foot D (require b : M P V Unit) := by
  intro e u e' hh
  unfold Vector.require at hh
  split at hh
  · obtain ⟨rfl, rfl⟩ := Prod.mk.inj (Option.some.inj hh)
    exact ⟨[], by simp, by simp⟩
  · cases hh

/-- Looking something up, then going on. -/
theorem lookup {o : Option α} {f : α → M P V β} (h : ∀ a, o = some a → Foot D (f a)) : Foot D (fun e => o.bind fun v => f v e : M P V β) := by
  intro e u e' hh
  obtain ⟨v, hv, h2⟩ := Option.bind_eq_some_iff.1 hh
  exact h v hv e u e' h2

theorem scalarTask (f : Nat) (args : List Nat) (g : (Cell P → V) → V) : On D (scalarTask f args g) := by
  rintro d p (⟨a, -, h⟩ | h) <;> cases h

theorem scalarOf (a : V) : Foot D (scalarOf a : M P V Scalar) :=
  fresh.bind fun _ => (launch (by
    intro t ht; obtain rfl := List.mem_singleton.1 ht; exact scalarTask _ _ _)).bind fun _ => pure _

theorem unary (g : V → V) (a : Scalar) : Foot D (unary g a : M P V Scalar) :=
  fresh.bind fun _ => (launch (by
    intro t ht; obtain rfl := List.mem_singleton.1 ht; exact scalarTask _ _ _)).bind fun _ => pure _

theorem binary (g : V → V → V) (a b : Scalar) : Foot D (binary g a b : M P V Scalar) :=
  fresh.bind fun _ => (launch (by
    intro t ht; obtain rfl := List.mem_singleton.1 ht; exact scalarTask _ _ _)).bind fun _ => pure _

theorem dummyTask (A : Arith V) (l : List Scalar) : Foot D (dummyTask A l : M P V Scalar) :=
  fresh.bind fun _ => (launch (by
    intro t ht; obtain rfl := List.mem_singleton.1 ht; exact scalarTask _ _ _)).bind fun _ => pure _

theorem pieces {f : List P → Task (Cell P) V} (l : List (List P)) (h : ∀ pts, On D (f pts)) : Foot D (Vector.launch (l.map f)) :=
  launch fun t ht => by obtain ⟨pts, -, rfl⟩ := List.mem_map.1 ht; exact h pts

theorem check (y x : Vec) : Foot D (checkCompatible y x : M P V Unit) :=
  (require _).bind fun _ => (require _).bind fun _ => require _

theorem inPiece {v : Vec} {pts : List P} {d : Nat} {p : P} (hv : D v.data) (h : Vector.inPiece v pts (.elem d p)) : D d := by
  obtain ⟨q, -, h⟩ := h
  cases h
  exact hv

theorem zeroFill (A : Arith V) (E : Env P) (v : Vec) (hv : D v.data) : Foot D (Vector.zeroFill A E v) :=
  pieces _ fun pts => by
    rintro d p (h | h)
    · exact h.elim
    · exact inPiece hv h

theorem assign (E : Env P) (d x : Vec) (hd : D d.data) (hx : D x.data) : Foot D (assign E d x : M P V Unit) :=
  (check d x).bind fun _ => pieces _ fun pts => by
    rintro d p (h | h)
    · exact inPiece hx h
    · exact inPiece hd h

theorem scal (A : Arith V) (E : Env P) (x : Vec) (a : Scalar) (hx : D x.data) : Foot D (Vector.scal A E x a) := pieces _ fun pts => by
  rintro d p ((h | ⟨_, -, h⟩) | h)
  · exact inPiece hx h
  · cases h
  · exact inPiece hx h

theorem axpyTask (A : Arith V) (y x : Vec) (hy : D y.data) (hx : D x.data) (l : List Nat) (pts : List P) :
    On D (Vector.axpyTask A y x l pts) := by
  rintro d p ((h | h | ⟨_, -, h⟩) | h)
  · exact inPiece hy h
  · exact inPiece hx h
  · cases h
  · exact inPiece hy h

theorem xpayTask (A : Arith V) (y x : Vec) (hy : D y.data) (hx : D x.data) (l : List Nat) (pts : List P) :
    On D (Vector.xpayTask A y x l pts) := by
  rintro d p ((h | h | ⟨_, -, h⟩) | h)
  · exact inPiece hy h
  · exact inPiece hx h
  · cases h
  · exact inPiece hy h

theorem axpy (A : Arith V) (E : Env P) (y : Vec) (a : Scalar) (x : Vec) (hy : D y.data) (hx : D x.data) : Foot D (Vector.axpy A E y a x) :=
  (check y x).bind fun _ => pieces _ (axpyTask A y x hy hx _)
theorem axpy2 (A : Arith V) (E : Env P) (y : Vec) (a b : Scalar) (x : Vec) (hy : D y.data) (hx : D x.data) :
    Foot D (Vector.axpy2 A E y a b x) :=
  (check y x).bind fun _ => pieces _ (axpyTask A y x hy hx _)
theorem axpy3 (A : Arith V) (E : Env P) (y : Vec) (a b c : Scalar) (x : Vec) (hy : D y.data) (hx : D x.data) :
    Foot D (Vector.axpy3 A E y a b c x) :=
  (check y x).bind fun _ => pieces _ (axpyTask A y x hy hx _)
theorem xpay (A : Arith V) (E : Env P) (y : Vec) (a : Scalar) (x : Vec) (hy : D y.data) (hx : D x.data) : Foot D (Vector.xpay A E y a x) :=
  (check y x).bind fun _ => pieces _ (xpayTask A y x hy hx _)
theorem xpay2 (A : Arith V) (E : Env P) (y : Vec) (a b : Scalar) (x : Vec) (hy : D y.data) (hx : D x.data) :
    Foot D (Vector.xpay2 A E y a b x) :=
  (check y x).bind fun _ => pieces _ (xpayTask A y x hy hx _)

theorem dot (A : Arith V) (E : Env P) (v w : Vec) (hv : D v.data) (hw : D w.data) : Foot D (Vector.dot A E v w) :=
  (check v w).bind fun _ => fresh.bind fun f => (launch fun t ht => by
    obtain ⟨i, hi, rfl⟩ := List.mem_mapIdx.1 ht
    rintro d p ((h | h | h) | h)
    · exact inPiece hv h
    · exact inPiece hw h
    · cases h
    · cases h).bind fun _ => (launch fun t ht => by
      obtain rfl := List.mem_singleton.1 ht
      rintro d p (⟨_, -, h⟩ | h) <;> cases h).bind fun _ => pure _

theorem zipWith {γ δ : Type} {g : γ → δ → Task (Cell P) V} (h : ∀ a b, On D (g a b)) : ∀ (l : List γ) (l' : List δ),
    ∀ t ∈ List.zipWith g l l', On D t
  | [], _, t, ht => by simp at ht
  | _ :: _, [], t, ht => by simp at ht
  | a :: l, b :: l', t, ht => by
    rcases List.mem_cons.1 ht with rfl | ht
    · exact h a b
    · exact zipWith h l l' t ht

theorem mapM_id {ts : List (Task (Cell P) V)} : ∀ {l : List (Option (Task (Cell P) V))}, l.mapM id = some ts →
    (∀ o ∈ l, ∀ t, o = some t → On D t) → ∀ t ∈ ts, On D t := by
  induction ts with
  | nil => intro l _ _ t ht; cases ht
  | cons a ts ih =>
    intro l h hl t ht
    cases l with
    | nil => simp at h
    | cons o l =>
      simp only [List.mapM_cons, id, Option.pure_def, Option.bind_eq_bind, Option.bind_eq_some_iff, Option.some.injEq] at h
      obtain ⟨a', ha, ts', hts, he⟩ := h
      obtain ⟨rfl, rfl⟩ := List.cons.inj he
      rcases List.mem_cons.1 ht with rfl | ht
      · exact hl o (by simp) _ ha
      · exact ih hts (fun o ho => hl o (by simp [ho])) t ht

theorem matvec (A : Arith V) (E : Env P) (o : Op K P V) (y x : Vec) (kp : List (List K)) (ghost : List (List P)) (hy : D y.data)
    (hx : D x.data) : Foot D (o.matvec A E y x kp ghost) := by
  cases o with
  | coo m =>
    refine launch (zipWith (fun a b => ?_) _ _)
    rintro d p ((h | h) | h)
    · exact inPiece hy h
    · exact inPiece hx h
    · exact inPiece hy h
  | csr m =>
    intro e u e' hh
    obtain ⟨ts, h1, h2⟩ := Option.bind_eq_some_iff.1 hh
    refine launch (P := P) (V := V) (ts := ts) ?_ e u e' h2
    refine mapM_id h1 fun o ho t ht => ?_
    have key : ∀ (l : List (List P)) (l' : List (List K × List P)), ∀ o ∈ List.zipWith (fun out ki => csrTask A m y x out ki.1 ki.2) l l',
        ∀ t, o = some t → On D t := by
      intro l
      induction l with
      | nil => intro l' o ho; simp at ho
      | cons a l ih =>
        intro l' o ho t ht
        cases l' with
        | nil => simp at ho
        | cons b l' =>
          rcases List.mem_cons.1 ho with rfl | ho
          · replace ht : csrTask A m y x a b.1 b.2 = some t := ht
            unfold csrTask at ht
            split at ht
            · obtain rfl := Option.some.inj ht
              rintro d p ((h | h) | h)
              · exact inPiece hy h
              · exact inPiece hx h
              · exact inPiece hy h
            · cases ht
          · exact ih l' o ho t ht
    exact key _ _ o ho t ht

/-! ### Planner -/
theorem loop {ι : Type} {f : ι → M P V Unit} : ∀ {l : List ι}, (∀ i ∈ l, Foot D (f i)) → Foot D (loop l f)
  | [], _ => pure ()
  | _ :: _, h => (h _ (by simp)).bind fun _ => loop fun i hi => h i (by simp [hi])

/-- `get_vector` delivers a vector of the planner. -/
theorem getVector {I : Nat → Prop} (pl : Planner K P V) (k i : Nat) (hk : I k) {f : Vec → M P V β}
    (h : ∀ v, OwnsAt I pl v.data → Foot D (f v)) : Foot D (pl.getVector k i >>= f) := by
  intro e b e'' hh
  obtain ⟨⟨v, e'⟩, h1, h2⟩ := Option.bind_eq_some_iff.1 (show (pl.getVector k i e).bind (fun p => f p.1 p.2) = some (b, e'') from hh)
  obtain ⟨v', hv, h3⟩ := Option.map_eq_some_iff.1 h1
  obtain ⟨rfl, rfl⟩ := Prod.mk.inj h3
  exact h v' ⟨k, i, v', hk, hv, rfl⟩ e b e'' h2

theorem numSpaces (pl : Planner K P V) : Foot D (pl.numSpaces) := (require _).bind fun _ => pure _

theorem blocksOf {I : Nat → Prop} (pl : Planner K P V) (k : Nat) (hk : I k) (l : List Vec) (h : pl.blocksOf k = some l) (v : Vec) (hv : v ∈ l) :
    OwnsAt I pl v.data := by
  obtain ⟨i, hi, rfl⟩ := List.mem_iff_getElem.1 hv
  refine ⟨k, i, l[i], hk, ?_, rfl⟩
  unfold Planner.blocksOf at h
  unfold Planner.lookup
  split
  · next h0 => rw [if_pos h0] at h; obtain rfl := Option.some.inj h; simp [hi]
  · next h0 =>
    rw [if_neg h0] at h
    split
    · next h1 => rw [if_pos h1] at h; obtain rfl := Option.some.inj h; simp [hi]
    · next h1 => rw [if_neg h1] at h; rw [h]; simp [hi]

variable {I : Nat → Prop} (pl : Planner K P V)

theorem pZeroFill (A : Arith V) (E : Env P) (d : Nat) (hd : I d) : Foot (OwnsAt I pl) (pl.zeroFill A E d) :=
  lookup fun l hl => loop fun v hv => zeroFill A E v (blocksOf pl d hd l hl v hv)

theorem pairs (d x : Nat) (hd : I d) (hx : I x) {f : Vec → Vec → M P V Unit} (h : ∀ y x, OwnsAt I pl y.data → OwnsAt I pl x.data → Foot (OwnsAt I pl) (f y x)) :
    Foot (OwnsAt I pl) (do
      let ns ← pl.numSpaces
      Planner.loop (List.range ns) fun i => do
        let y ← pl.getVector d i; let x ← pl.getVector x i
        f y x) :=
  (numSpaces pl).bind fun _ => loop fun i _ => getVector pl d i hd fun y hy => getVector pl x i hx fun x hx => h y x hy hx

theorem pScal (A : Arith V) (E : Env P) (d : Nat) (a : Scalar) (hd : I d) : Foot (OwnsAt I pl) (pl.scal A E d a) :=
  (numSpaces pl).bind fun _ => loop fun i _ => getVector pl d i hd fun y hy => scal A E y a hy

theorem dotLoop (A : Arith V) (E : Env P) (v w : Nat) (hv : I v) (hw : I w) : ∀ (l : List Nat) (r : Scalar), Foot (OwnsAt I pl) (pl.dotLoop A E v w l r)
  | [], r => pure r
  | i :: l, r => getVector pl v i hv fun x hx => getVector pl w i hw fun y hy => (dot A E x y hx hy).bind fun d =>
      (binary A.add r d).bind fun r' => dotLoop A E v w hv hw l r'

theorem pDot (A : Arith V) (E : Env P) (v w : Nat) (hv : I v) (hw : I w) : Foot (OwnsAt I pl) (pl.dot A E v w) :=
  (numSpaces pl).bind fun _ => getVector pl v 0 hv fun x hx => getVector pl w 0 hw fun y hy =>
    (dot A E x y hx hy).bind fun r => dotLoop pl A E v w hv hw _ r

theorem pMatvec (A : Arith V) (E : Env P) (d x : Nat) (hd : I d) (hx : I x) : Foot (OwnsAt I pl) (pl.matvec A E d x) :=
  (pZeroFill pl A E d hd).bind fun _ => loop fun (r : Registered K P V) _ => getVector pl d r.rng hd fun y hy =>
    getVector pl x r.dom hx fun x hx => matvec A E r.matrix y x _ _ hy hx

/-! ### Solvers -/

/-- All operations of a record. -/
structure Ops (I D : Nat → Prop) (O : Solver.Ops (M P V) Scalar) : Prop where
  negOne : Foot D O.negOne
  zero : Foot D O.zero
  one : Foot D O.one
  neg : ∀ a, Foot D (O.neg a)
  mul : ∀ a b, Foot D (O.mul a b)
  div : ∀ a b, Foot D (O.div a b)
  sqrt : ∀ a, Foot D (O.sqrt a)
  rsqrt : ∀ a, Foot D (O.rsqrt a)
  zeroFill : ∀ d, I d → Foot D (O.zeroFill d)
  copy : ∀ d x, I d → I x → Foot D (O.copy d x)
  scal : ∀ d a, I d → Foot D (O.scal d a)
  axpy : ∀ d a x, I d → I x → Foot D (O.axpy d a x)
  axpy2 : ∀ d a b x, I d → I x → Foot D (O.axpy2 d a b x)
  axpy3 : ∀ d a b c x, I d → I x → Foot D (O.axpy3 d a b c x)
  xpay : ∀ d a x, I d → I x → Foot D (O.xpay d a x)
  xpay2 : ∀ d a b x, I d → I x → Foot D (O.xpay2 d a b x)
  dot : ∀ v w, I v → I w → Foot D (O.dot v w)
  matvec : ∀ d x, I d → I x → Foot D (O.matvec d x)
  dummy : ∀ l, Foot D (O.dummy l)

theorem plannerOps (A : Arith V) (E : Env P) : Ops I (OwnsAt I pl) (plannerOps A E pl) where
  negOne := scalarOf _
  zero := scalarOf _
  one := scalarOf _
  neg := unary _
  mul := binary _
  div := binary _
  sqrt := unary _
  rsqrt a := unary (fun x => A.div A.one (A.sqrt x)) a
  zeroFill := pZeroFill pl A E
  copy d x hd hx := pairs pl d x hd hx fun y x hy hx => assign E y x hy hx
  scal := pScal pl A E
  axpy d a x hd hx := pairs pl d x hd hx fun y x hy hx => axpy A E y a x hy hx
  axpy2 d a b x hd hx := pairs pl d x hd hx fun y x hy hx => axpy2 A E y a b x hy hx
  axpy3 d a b c x hd hx := pairs pl d x hd hx fun y x hy hx => axpy3 A E y a b c x hy hx
  xpay d a x hd hx := pairs pl d x hd hx fun y x hy hx => xpay A E y a x hy hx
  xpay2 d a b x hd hx := pairs pl d x hd hx fun y x hy hx => xpay2 A E y a b x hy hx
  dot := pDot pl A E
  matvec := pMatvec pl A E
  dummy := dummyTask A

section
variable {O : Solver.Ops (M P V) Scalar} (H : Ops I D O)

section
variable (hI : ∀ k, k ≠ 1 → I k)
include H hI

/-- A step of CG uses every position but the right-hand side's. -/
theorem cgStep (c : CG Scalar) : Foot D (CG.step O c) := by
  have h0 := hI 0 (by decide)
  have h2 := hI 2 (by decide)
  have h3 := hI 3 (by decide)
  have h4 := hI 4 (by decide)
  unfold CG.step
  exact (H.matvec _ _ h3 h2).bind fun _ => (H.dot _ _ h2 h3).bind fun _ => (H.axpy2 _ _ _ _ h0 h2).bind fun _ =>
    (H.axpy3 _ _ _ _ _ h4 h3).bind fun _ => (H.dot _ _ h4 h4).bind fun _ => (H.xpay2 _ _ _ _ h2 h4).bind fun _ => pure _

/-- So does a step of BiCGStab. -/
theorem biStep (c : BiCGStab Scalar) : Foot D (BiCGStab.step O c) := by
  have h0 := hI 0 (by decide)
  have h2 := hI 2 (by decide)
  have h3 := hI 3 (by decide)
  have h4 := hI 4 (by decide)
  have h5 := hI 5 (by decide)
  have h6 := hI 6 (by decide)
  unfold BiCGStab.step
  exact (H.dot _ _ h3 h4).bind fun _ => (H.div _ _).bind fun _ => (H.div _ _).bind fun _ => (H.mul _ _).bind fun _ => (H.neg _).bind fun _ =>
    (H.axpy _ _ _ h2 h6).bind fun _ => (H.xpay _ _ _ h2 h3).bind fun _ => (H.matvec _ _ h6 h2).bind fun _ => (H.dot _ _ h4 h6).bind fun _ =>
    (H.axpy3 _ _ _ _ _ h3 h6).bind fun _ => (H.div _ _).bind fun _ => (H.matvec _ _ h5 h3).bind fun _ => (H.dot _ _ h3 h5).bind fun _ =>
    (H.dot _ _ h5 h5).bind fun _ => (H.div _ _).bind fun _ => (H.axpy _ _ _ h0 h2).bind fun _ => (H.axpy _ _ _ h0 h3).bind fun _ =>
    (H.neg _).bind fun _ => (H.axpy _ _ _ h3 h5).bind fun _ => pure _
end

variable (hI : ∀ k, I k)
include H hI

theorem cgInit : Foot D (CG.init O) := by
  unfold CG.init
  exact H.negOne.bind fun _ => (H.copy _ _ (hI _) (hI _)).bind fun _ => (H.copy _ _ (hI _) (hI _)).bind fun _ =>
    (H.dot _ _ (hI _) (hI _)).bind fun _ => pure _

theorem biInit : Foot D (BiCGStab.init O) := by
  unfold BiCGStab.init
  exact H.negOne.bind fun _ => H.zero.bind fun _ => H.one.bind fun _ => (H.copy _ _ (hI _) (hI _)).bind fun _ =>
    (H.copy _ _ (hI _) (hI _)).bind fun _ => (H.zeroFill _ (hI _)).bind fun _ => (H.zeroFill _ (hI _)).bind fun _ => pure _

theorem zeros : ∀ n, Foot D (zeros O n)
  | 0 => pure _
  | n + 1 => H.zero.bind fun _ => (zeros n).bind fun _ => pure _

theorem orthogonalise (j : Nat) : ∀ (l : List Nat) (h : Nat → Nat → Scalar), Foot D (GMRES.orthogonalise O j l h)
  | [], h => pure h
  | _ :: l, _ => (H.dot _ _ (hI _) (hI _)).bind fun _ => (H.neg _).bind fun _ => (H.axpy _ _ _ (hI _) (hI _)).bind fun _ => orthogonalise j l _

theorem column (r j : Nat) (h : Nat → Nat → Scalar) : Foot D (GMRES.column O r j h) := by
  unfold GMRES.column
  refine (H.matvec _ _ (hI _) (hI _)).bind fun _ => (orthogonalise H hI j _ _).bind fun _ => (H.dot _ _ (hI _) (hI _)).bind fun _ =>
    (H.sqrt _).bind fun _ => ?_
  dsimp only
  split
  · exact (H.rsqrt _).bind fun _ => (H.scal _ _ (hI _)).bind fun _ => pure _
  · exact pure _

theorem columns (r : Nat) : ∀ (l : List Nat) (h : Nat → Nat → Scalar), Foot D (GMRES.columns O r l h)
  | [], h => pure h
  | j :: l, h => (column H hI r j h).bind fun _ => columns r l _

theorem update (c : Scalar) : ∀ l : List Nat, Foot D (GMRES.update O c l)
  | [] => pure _
  | _ :: l => (H.axpy _ _ _ (hI _) (hI _)).bind fun _ => update c l

theorem gmresInit (r : Nat) : Foot D (GMRES.init O r) := by
  unfold GMRES.init
  exact H.negOne.bind fun _ => (zeros H hI _).bind fun _ => (zeros H hI _).bind fun _ => (zeros H hI _).bind fun _ => pure _

theorem gmresStep (c : GMRES Scalar) : Foot D (GMRES.step O c) := by
  unfold GMRES.step GMRES.build GMRES.start GMRES.finish
  exact (((H.matvec _ _ (hI _) (hI _)).bind fun _ => (H.xpay _ _ _ (hI _) (hI _)).bind fun _ => (H.dot _ _ (hI _) (hI _)).bind fun _ =>
    (H.rsqrt _).bind fun _ => H.scal _ _ (hI _)).bind
    fun _ => (columns H hI _ _ _).bind fun _ => pure _).bind fun _ => ((H.dummy _).bind fun _ => update H hI _ _).bind fun _ => pure _
end

theorem repeatM {f : α → M P V α} (h : ∀ a, Foot D (f a)) : ∀ (k : Nat) (a : α), Foot D (repeatM f k a)
  | 0, a => pure a
  | k + 1, a => (h a).bind fun a' => repeatM h k a'

end Foot
end Verif.App
