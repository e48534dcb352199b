import Verif.Launch.Handles

/-!
# C55: every step of a solver launches the same operations

Legion replays a trace (`begin_trace`/`end_trace`, used around `solver.step()` in `test/BenchmarkStencil.cpp` 219-241) only if the
operations between the calls are the same each time: the same tasks on the same regions, only the futures may differ. -/
set_option linter.dupNamespace false
set_option linter.unusedSectionVars false
namespace Verif.Launch
open Verif.Runtime Verif.Vector Verif.Matrix Verif.Planner Verif.Solver

/-! ## Specification -/
section
variable {P V : Type}

/-- Replace the futures in a cell. -/
def renameCell (ρ : Nat → Nat) : Cell P → Cell P
  | .elem d p => .elem d p
  | .part f c => .part (ρ f) c
  | .fut f => .fut (ρ f)

/-- `t` is the recorded operation `t0` with its futures replaced by `ρ`: the same requirements and the same computation. -/
structure InstanceOf (ρ : Nat → Nat) (t0 t : Task (Cell P) V) : Prop where
  reads : ∀ c, t.reads c ↔ ∃ c0, t0.reads c0 ∧ renameCell ρ c0 = c
  writes : ∀ c, t.writes c ↔ ∃ c0, t0.writes c0 ∧ renameCell ρ c0 = c
  body : List.Forall₂ (fun u0 u : Update (Cell P) V => u.dst = renameCell ρ u0.dst ∧ ∀ s, u.f s = u0.f fun c => s (renameCell ρ c))
    t0.body t.body

/-- Both are the same operation with different futures; for the runtime's reduction of the results of a launch, the order may also
differ. -/
def SameOperation (A : Arith V) (t t' : Task (Cell P) V) : Prop :=
  (∃ t0 ρ ρ', InstanceOf ρ t0 t ∧ InstanceOf ρ' t0 t') ∨
    ∃ f f' o o', List.Perm o o' ∧ t = reduceTask A f o ∧ t' = reduceTask A f' o'

/-- Of runs that make `k` steps, `k` arbitrary: making one step more launches the operations of one step more, and any two steps
launch the same operations one by one. -/
def Repeats {α : Type} (A : Arith V) (run : Nat → M P V α) : Prop :=
  ∀ n, ∃ (init : List (Task (Cell P) V)) (step : Nat → List (Task (Cell P) V)),
    (∀ k, ∃ a e', run k ⟨n, []⟩ = some (a, e') ∧ e'.out = init ++ ((List.range k).map step).flatten) ∧
    ∀ i j, List.Forall₂ (SameOperation A) (step i) (step j)

end

/-! ## Tasks -/
section
variable {P V : Type} {A : Arith V}

theorem renameCell_id (c : Cell P) : renameCell id c = c := by cases c <;> rfl

theorem InstanceOf.self (t : Task (Cell P) V) : InstanceOf id t t where
  reads c := ⟨fun h => ⟨c, h, renameCell_id c⟩, fun ⟨c0, h, e⟩ => by rw [renameCell_id] at e; exact e ▸ h⟩
  writes c := ⟨fun h => ⟨c, h, renameCell_id c⟩, fun ⟨c0, h, e⟩ => by rw [renameCell_id] at e; exact e ▸ h⟩
  body := by
    induction t.body with
    | nil => exact .nil
    | cons u l ih =>
      refine .cons ⟨(renameCell_id _).symm, fun s => ?_⟩ ih
      congr 1
      funext c
      rw [renameCell_id]

theorem SameOperation.refl (t : Task (Cell P) V) : SameOperation A t t := .inl ⟨t, id, id, .self t, .self t⟩

theorem same_refl (ts : List (Task (Cell P) V)) : List.Forall₂ (SameOperation A) ts ts := by
  induction ts with
  | nil => exact .nil
  | cons t ts ih => exact .cons (.refl t) ih

theorem inPiece_rename {v : Vec} {pts : List P} {ρ : Nat → Nat} {c : Cell P} :
    (∃ c0, inPiece v pts c0 ∧ renameCell ρ c0 = c) ↔ inPiece v pts c := by
  constructor
  · rintro ⟨c0, ⟨p, hp, rfl⟩, rfl⟩
    exact ⟨p, hp, rfl⟩
  · rintro ⟨p, hp, rfl⟩
    exact ⟨_, ⟨p, hp, rfl⟩, rfl⟩

theorem futs_rename {idx : List Nat} {ρ : Nat → Nat} {c : Cell P} :
    (∃ c0 : Cell P, (∃ f ∈ idx, c0 = .fut f) ∧ renameCell ρ c0 = c) ↔ ∃ f ∈ idx.map ρ, c = .fut f := by
  constructor
  · rintro ⟨c0, ⟨f, hf, rfl⟩, rfl⟩
    exact ⟨ρ f, List.mem_map_of_mem hf, rfl⟩
  · rintro ⟨f, hf, rfl⟩
    obtain ⟨g, hg, rfl⟩ := List.mem_map.1 hf
    exact ⟨_, ⟨g, hg, rfl⟩, rfl⟩

theorem or_rename {a b : Cell P → Prop} {ρ : Nat → Nat} {c : Cell P} :
    (∃ c0, (a c0 ∨ b c0) ∧ renameCell ρ c0 = c) ↔ (∃ c0, a c0 ∧ renameCell ρ c0 = c) ∨ ∃ c0, b c0 ∧ renameCell ρ c0 = c := by
  constructor
  · rintro ⟨c0, h | h, e⟩
    · exact .inl ⟨c0, h, e⟩
    · exact .inr ⟨c0, h, e⟩
  · rintro (⟨c0, h, e⟩ | ⟨c0, h, e⟩)
    · exact ⟨c0, .inl h, e⟩
    · exact ⟨c0, .inr h, e⟩

theorem eq_rename {d : Cell P} {ρ : Nat → Nat} {c : Cell P} : (∃ c0, c0 = d ∧ renameCell ρ c0 = c) ↔ c = renameCell ρ d :=
  ⟨fun ⟨_, h, e⟩ => by rw [← e, h], fun h => ⟨d, rfl, h.symm⟩⟩

theorem alphaOf_rename (A : Arith V) (idx : List Nat) (ρ : Nat → Nat) (s : Cell P → V) :
    alphaOf A (idx.map ρ) s = alphaOf A idx fun c => s (renameCell ρ c) := by
  unfold alphaOf
  rw [List.map_map]
  rfl

theorem body_map {ι : Type} {ρ : Nat → Nat} {f g : ι → Update (Cell P) V}
    (h : ∀ i, (g i).dst = renameCell ρ (f i).dst ∧ ∀ s, (g i).f s = (f i).f fun c => s (renameCell ρ c)) (l : List ι) :
    List.Forall₂ (fun u0 u : Update (Cell P) V => u.dst = renameCell ρ u0.dst ∧ ∀ s, u.f s = u0.f fun c => s (renameCell ρ c))
      (l.map f) (l.map g) := by
  induction l with
  | nil => exact .nil
  | cons i l ih => exact .cons (h i) ih

theorem inst_scal (x : Vec) (idx : List Nat) (pts : List P) (ρ : Nat → Nat) :
    InstanceOf ρ (scalTask A x idx pts) (scalTask A x (idx.map ρ) pts) where
  reads c := by
    show _ ↔ ∃ c0, (_ ∨ _) ∧ _
    rw [or_rename, inPiece_rename, futs_rename]; rfl
  writes c := inPiece_rename.symm
  body := body_map (fun p => ⟨rfl, fun s => by
    show A.mul (alphaOf A (idx.map ρ) s) _ = A.mul (alphaOf A idx _) _
    rw [alphaOf_rename]; rfl⟩) pts

theorem inst_axpy (y x : Vec) (idx : List Nat) (pts : List P) (ρ : Nat → Nat) :
    InstanceOf ρ (axpyTask A y x idx pts) (axpyTask A y x (idx.map ρ) pts) where
  reads c := by
    show _ ↔ ∃ c0, (_ ∨ _ ∨ _) ∧ _
    rw [or_rename, or_rename, inPiece_rename, inPiece_rename, futs_rename]; rfl
  writes c := inPiece_rename.symm
  body := body_map (fun p => ⟨rfl, fun s => by
    show A.fma (alphaOf A (idx.map ρ) s) _ _ = A.fma (alphaOf A idx _) _ _
    rw [alphaOf_rename]; rfl⟩) pts

theorem inst_xpay (y x : Vec) (idx : List Nat) (pts : List P) (ρ : Nat → Nat) :
    InstanceOf ρ (xpayTask A y x idx pts) (xpayTask A y x (idx.map ρ) pts) where
  reads c := by
    show _ ↔ ∃ c0, (_ ∨ _ ∨ _) ∧ _
    rw [or_rename, or_rename, inPiece_rename, inPiece_rename, futs_rename]; rfl
  writes c := inPiece_rename.symm
  body := body_map (fun p => ⟨rfl, fun s => by
    show A.fma (alphaOf A (idx.map ρ) s) _ _ = A.fma (alphaOf A idx _) _ _
    rw [alphaOf_rename]; rfl⟩) pts

theorem inst_dot (v w : Vec) (f color : Nat) (pts : List P) (ρ : Nat → Nat) :
    InstanceOf ρ (dotTask A v w f color pts) (dotTask A v w (ρ f) color pts) where
  reads c := by
    show _ ↔ ∃ c0, (_ ∨ _ ∨ _) ∧ _
    rw [or_rename, or_rename, inPiece_rename, inPiece_rename, eq_rename]; rfl
  writes c := (eq_rename (d := .part f color)).symm
  body := .cons ⟨rfl, fun _ => rfl⟩ (body_map (fun p => ⟨rfl, fun s => rfl⟩) pts)

theorem inst_scalar (f : Nat) (idx : List Nat) (g0 g : (Cell P → V) → V) (ρ : Nat → Nat) (h : ∀ s, g s = g0 fun c => s (renameCell ρ c)) :
    InstanceOf ρ (scalarTask f idx g0) (scalarTask (ρ f) (idx.map ρ) g) where
  reads _ := futs_rename.symm
  writes _ := (eq_rename (d := .fut f)).symm
  body := .cons ⟨rfl, h⟩ .nil

/-- Lists of the same length are instances of one list of indices. -/
theorem indices_of (l : List Nat) (d : Nat) : (List.range' 1 l.length).map (fun i => (d :: l).getD i 0) = l := by
  apply List.ext_getElem?
  intro i
  rw [List.getElem?_map]
  by_cases hi : i < l.length
  · rw [List.getElem?_eq_getElem (by simpa using hi), List.getElem_range', Option.map_some]
    have : 1 + 1 * i = i + 1 := by omega
    rw [this, List.getD_eq_getElem?_getD, List.getElem?_cons_succ, List.getElem?_eq_getElem hi]
    rfl
  · rw [List.getElem?_eq_none (by simpa using hi), List.getElem?_eq_none (by simpa using hi)]
    rfl

theorem same_futs (T : List Nat → Task (Cell P) V) (h : ∀ idx ρ, InstanceOf ρ (T idx) (T (idx.map ρ))) {l l' : List Nat}
    (hl : l.length = l'.length) : SameOperation A (T l) (T l') := by
  refine .inl ⟨T (List.range' 1 l.length), fun i => (0 :: l).getD i 0, fun i => (0 :: l').getD i 0, ?_, ?_⟩
  · have := h (List.range' 1 l.length) fun i => (0 :: l).getD i 0
    rwa [indices_of] at this
  · have := h (List.range' 1 l.length) fun i => (0 :: l').getD i 0
    rw [hl, indices_of] at this
    rwa [hl]

end

/-! ## Operations -/
section
variable {K P V : Type} [DecidableEq P] [DecidableEq K] (A : Arith V)

/-- If the first completes, so does the second, launching the same operations. -/
def sameLift : Lift (M P V) (M P V) where
  rel R m m' := ∀ e b f e', m e = some (b, f) → ∃ b' f' ts ts', m' e' = some (b', f') ∧ f.out = e.out ++ ts ∧
    f'.out = e'.out ++ ts' ∧ List.Forall₂ (SameOperation A) ts ts' ∧ R b b'
  pure {_ _ R a b} h := by
    intro e b1 f e' hb
    cases (Option.some.inj hb : (a, e) = (b1, f))
    exact ⟨b, e', [], [], rfl, (List.append_nil _).symm, (List.append_nil _).symm, .nil, h⟩
  bind {_ _ _ _ R Q x y f g} h h' := by
    intro e b f1 e' hb
    obtain ⟨⟨a, e1⟩, h1, h2⟩ := Option.bind_eq_some_iff.1 (show (x e).bind (fun z => f z.1 z.2) = some (b, f1) from hb)
    obtain ⟨a', e1', ts, ts', q1, q2, q3, q4, q5⟩ := h e a e1 e' h1
    obtain ⟨b', f1', us, us', r1, r2, r3, r4, r5⟩ := h' a a' q5 e1 b f1 e1' h2
    refine ⟨b', f1', ts ++ us, ts' ++ us', ?_, by rw [r2, q2, List.append_assoc], by rw [r3, q3, List.append_assoc], ?_, r5⟩
    · show (y e').bind (fun z => g z.1 z.2) = _
      rw [q1]
      exact r1
    · exact forall₂_append q4 r4

variable {A}

abbrev Same {α β : Type} (A : Arith V) (R : α → β → Prop) (m : M P V α) (m' : M P V β) : Prop := (sameLift A).rel R m m'

theorem same_launch {ts ts' : List (Task (Cell P) V)} (h : List.Forall₂ (SameOperation A) ts ts') : Same A UU (launch ts) (launch ts') := by
  intro e b f e' hb
  cases (Option.some.inj hb : ((), { e with out := e.out ++ ts }) = (b, f))
  exact ⟨(), _, ts, ts', rfl, rfl, rfl, h, trivial⟩

theorem same_require (c : Bool) : Same A UU (require c : M P V Unit) (require c) := by
  intro e b f e' hb
  unfold Verif.Vector.require at hb
  split at hb
  · next hc =>
    cases (Option.some.inj hb : ((), e) = (b, f))
    exact ⟨(), e', [], [], by simp [Verif.Vector.require, hc], (List.append_nil _).symm, (List.append_nil _).symm, .nil, trivial⟩
  · cases hb

theorem same_fresh : Same A (fun _ _ => True) (fresh : M P V Nat) fresh := by
  intro e b f e' hb
  cases (Option.some.inj hb : (e.next, { e with next := e.next + 1 }) = (b, f))
  exact ⟨_, _, [], [], rfl, (List.append_nil _).symm, (List.append_nil _).symm, .nil, trivial⟩

theorem same_getVector (pl : Planner K P V) (k i : Nat) : Same A Eq (pl.getVector k i) (pl.getVector k i) := by
  intro e b f e' hb
  have hb : ((pl.lookup k i).map fun v => (v, e)) = some (b, f) := hb
  cases hv : pl.lookup k i with
  | none => rw [hv] at hb; cases hb
  | some v =>
    rw [hv] at hb
    cases (Option.some.inj hb : (v, e) = (b, f))
    exact ⟨_, e', [], [], by simp [Planner.getVector, hv], (List.append_nil _).symm, (List.append_nil _).symm, .nil, rfl⟩

theorem same_check (y x : Vec) : Same A UU (checkCompatible y x : M P V Unit) (checkCompatible y x) :=
  (sameLift A).bind (same_require _) fun _ _ _ => (sameLift A).bind (same_require _) fun _ _ _ => same_require _

theorem same_loop {ι : Type} (l : List ι) {f g : ι → M P V Unit} (h : ∀ i, Same A UU (f i) (g i)) : Same A UU (loop l f) (loop l g) := by
  induction l with
  | nil => exact (sameLift A).pure trivial
  | cons i l ih => exact (sameLift A).bind (h i) fun _ _ _ => ih

theorem same_pieces (pieces : List (List P)) {f g : List P → Task (Cell P) V} (h : ∀ l, SameOperation A (f l) (g l)) :
    Same A UU (launch (pieces.map f)) (launch (pieces.map g)) := by
  refine same_launch ?_
  induction pieces with
  | nil => exact .nil
  | cons p l ih => exact .cons (h p) ih

theorem same_numSpaces (pl : Planner K P V) : Same A Eq (pl.numSpaces) (pl.numSpaces) :=
  (sameLift A).bind (same_require _) fun _ _ _ => (sameLift A).pure rfl

/-- Scalar tasks. -/
theorem same_scalarTask (g0 : List V → V) (l l' : List Nat) (hl : l.length = l'.length) (f f' : Nat) :
    SameOperation A (scalarTask (P := P) f l fun s => g0 (l.map fun a => s (.fut a)))
      (scalarTask f' l' fun s => g0 (l'.map fun a => s (.fut a))) := by
  have key : ∀ (k : List Nat) (d : Nat), InstanceOf (fun i => (d :: k).getD i 0)
      (scalarTask (P := P) 0 (List.range' 1 k.length) fun s => g0 ((List.range' 1 k.length).map fun a => s (.fut a)))
      (scalarTask d k fun s => g0 (k.map fun a => s (.fut a))) := by
    intro k d
    have := inst_scalar (P := P) 0 (List.range' 1 k.length) (fun s => g0 ((List.range' 1 k.length).map fun a => s (.fut a)))
      (fun s => g0 (k.map fun a => s (.fut a))) (fun i => (d :: k).getD i 0) (by
        intro s
        congr 1
        conv_lhs => rw [← indices_of k d]
        rw [List.map_map]
        rfl)
    rwa [indices_of] at this
  exact .inl ⟨_, _, _, key l f, by rw [hl]; exact key l' f'⟩

theorem same_scalarOf (a : V) : Same A (fun _ _ => True) (scalarOf a : M P V Scalar) (scalarOf a) :=
  (sameLift A).bind same_fresh fun f f' _ => (sameLift A).bind
    (same_launch (.cons (same_scalarTask (fun _ => a) [] [] rfl f f') .nil)) fun _ _ _ => (sameLift A).pure trivial

theorem same_unary (g : V → V) (a a' : Scalar) : Same A (fun _ _ => True) (unary g a : M P V Scalar) (unary g a') :=
  (sameLift A).bind same_fresh fun f f' _ => (sameLift A).bind
    (same_launch (.cons (same_scalarTask (fun l => g (l.headD A.zero)) [a.fut] [a'.fut] rfl f f') .nil)) fun _ _ _ =>
    (sameLift A).pure trivial

theorem same_binary (g : V → V → V) (a a' b b' : Scalar) : Same A (fun _ _ => True) (binary g a b : M P V Scalar) (binary g a' b') :=
  (sameLift A).bind same_fresh fun f f' _ => (sameLift A).bind
    (same_launch (.cons (same_scalarTask (fun l => g (l.headD A.zero) (l.tail.headD A.zero)) [a.fut, b.fut] [a'.fut, b'.fut] rfl f f') .nil))
    fun _ _ _ => (sameLift A).pure trivial

theorem same_dummy (l l' : List Scalar) (h : l.length = l'.length) :
    Same A (fun _ _ => True) (dummyTask A l : M P V Scalar) (dummyTask A l') :=
  (sameLift A).bind same_fresh fun f f' _ => (sameLift A).bind
    (same_launch (.cons (same_scalarTask (fun _ => A.one) _ _ (by simpa using h) f f') .nil)) fun _ _ _ => (sameLift A).pure trivial

variable (G : Geometry P) (pl : Planner K P V)

theorem same_dot (horder : ∀ f l, (G.redOrder f l).Perm l) (v w : Vec) :
    Same A (fun _ _ => True) (Verif.Vector.dot A G.toEnv v w) (Verif.Vector.dot A G.toEnv v w) := by
  refine (sameLift A).bind (same_check v w) fun _ _ _ => (sameLift A).bind same_fresh fun f f' _ => ?_
  refine (sameLift A).bind (same_launch ?_) fun _ _ _ => (sameLift A).bind (same_launch (.cons (.inr ?_) .nil)) fun _ _ _ =>
    (sameLift A).pure trivial
  · generalize G.toEnv.pieces v.part = pieces
    rw [mapIdx_eq_range _ [], mapIdx_eq_range _ []]
    generalize List.range pieces.length = l
    induction l with
    | nil => exact .nil
    | cons c l ih => exact .cons (.inl ⟨_, fun _ => f, fun _ => f', inst_dot v w 0 c _ _, inst_dot v w 0 c _ _⟩) ih
  · exact ⟨f, f', _, _, (horder f _).trans (horder f' _).symm, rfl, rfl⟩

theorem same_two (d x : Nat) {g g' : Vec → Vec → M P V Unit} (h : ∀ y v, Same A UU (g y v) (g' y v)) :
    Same A UU (do let ns ← pl.numSpaces; loop (List.range ns) fun i => do let y ← pl.getVector d i; let v ← pl.getVector x i; g y v)
      (do let ns ← pl.numSpaces; loop (List.range ns) fun i => do let y ← pl.getVector d i; let v ← pl.getVector x i; g' y v) := by
  refine (sameLift A).bind (same_numSpaces pl) fun n n' hn => ?_
  subst hn
  refine same_loop _ fun i => (sameLift A).bind (same_getVector pl d i) fun y y' hy => ?_
  subst hy
  refine (sameLift A).bind (same_getVector pl x i) fun v v' hv => ?_
  subst hv
  exact h y v

theorem same_axpyTask (y x : Vec) {l l' : List Nat} (hl : l.length = l'.length) (pieces : List (List P)) :
    Same A UU (launch (pieces.map (axpyTask A y x l))) (launch (pieces.map (axpyTask A y x l'))) :=
  same_pieces _ fun pts => same_futs (fun l => axpyTask A y x l pts) (fun idx ρ => inst_axpy y x idx pts ρ) hl

theorem same_xpayTask (y x : Vec) {l l' : List Nat} (hl : l.length = l'.length) (pieces : List (List P)) :
    Same A UU (launch (pieces.map (xpayTask A y x l))) (launch (pieces.map (xpayTask A y x l'))) :=
  same_pieces _ fun pts => same_futs (fun l => xpayTask A y x l pts) (fun idx ρ => inst_xpay y x idx pts ρ) hl

theorem same_zeroFill (d : Nat) : Same A UU (pl.zeroFill A G.toEnv d) (pl.zeroFill A G.toEnv d) := by
  intro e b f e' hb
  obtain ⟨l, h1, h2⟩ := Option.bind_eq_some_iff.1 (show (pl.blocksOf d).bind _ = some (b, f) from hb)
  have := same_loop (A := A) l (f := fun v => Verif.Vector.zeroFill A G.toEnv v) (g := fun v => Verif.Vector.zeroFill A G.toEnv v)
    (fun v => same_launch (same_refl _)) e b f e' h2
  obtain ⟨b', f', ts, ts', q1, q2⟩ := this
  exact ⟨b', f', ts, ts', by unfold Planner.zeroFill; rw [h1]; exact q1, q2⟩

theorem same_op (m : Op K P V) (y x : Vec) (kp : List (List K)) (gp : List (List P)) :
    Same A UU (m.matvec A G.toEnv y x kp gp) (m.matvec A G.toEnv y x kp gp) := by
  cases m with
  | coo m => exact same_launch (same_refl _)
  | csr m =>
    intro e b f e' hb
    obtain ⟨l, h1, h2⟩ := Option.bind_eq_some_iff.1 (show (_ : Option _).bind _ = some (b, f) from hb)
    obtain ⟨b', f', ts, ts', q1, q2⟩ := same_launch (same_refl (A := A) l) e b f e' h2
    exact ⟨b', f', ts, ts', by show CSR.matvec A G.toEnv m y x kp gp e' = _; unfold CSR.matvec; rw [h1]; exact q1, q2⟩

theorem same_dotLoop (horder : ∀ f l, (G.redOrder f l).Perm l) (v w : Nat) (l : List Nat) : ∀ r r' : Scalar,
    Same A (fun _ _ => True) (pl.dotLoop A G.toEnv v w l r) (pl.dotLoop A G.toEnv v w l r') := by
  induction l with
  | nil => exact fun r r' => (sameLift A).pure trivial
  | cons i l ih =>
    intro r r'
    unfold Planner.dotLoop
    refine (sameLift A).bind (same_getVector pl v i) fun y y' hy => (sameLift A).bind (same_getVector pl w i) fun x x' hx => ?_
    subst hy hx
    exact (sameLift A).bind (same_dot G horder y x) fun _ _ _ => (sameLift A).bind (same_binary _ _ _ _ _) fun r r' _ => ih r r'

theorem sameOps (horder : ∀ f l, (G.redOrder f l).Perm l) :
    OpsRel (sameLift A) (fun _ _ => True) (plannerOps A G.toEnv pl) (plannerOps A G.toEnv pl) where
  negOne := same_scalarOf _
  zero := same_scalarOf _
  one := same_scalarOf _
  neg a a' _ := same_unary _ a a'
  mul a a' b b' _ _ := same_binary _ a a' b b'
  div a a' b b' _ _ := same_binary _ a a' b b'
  sqrt a a' _ := same_unary _ a a'
  rsqrt a a' _ := same_unary (fun x => A.div A.one (A.sqrt x)) a a'
  zeroFill d := same_zeroFill G pl d
  copy d x := same_two pl d x fun y v => (sameLift A).bind (same_check y v) fun _ _ _ => same_launch (same_refl _)
  scal d a a' _ := by
    refine (sameLift A).bind (same_numSpaces pl) fun n n' hn => ?_
    subst hn
    refine same_loop _ fun i => (sameLift A).bind (same_getVector pl d i) fun y y' hy => ?_
    subst hy
    exact same_pieces _ fun pts => same_futs (fun l => scalTask A y l pts) (fun idx ρ => inst_scal y idx pts ρ) rfl
  axpy d a a' x _ := same_two pl d x fun y v => (sameLift A).bind (same_check y v) fun _ _ _ =>
    same_axpyTask y v (l := [a.fut]) (l' := [a'.fut]) rfl _
  axpy2 d a a' b b' x _ _ := same_two pl d x fun y v => (sameLift A).bind (same_check y v) fun _ _ _ =>
    same_axpyTask y v (l := [a.fut, b.fut]) (l' := [a'.fut, b'.fut]) rfl _
  axpy3 d a a' b b' c c' x _ _ _ := same_two pl d x fun y v => (sameLift A).bind (same_check y v) fun _ _ _ =>
    same_axpyTask y v (l := [a.fut, b.fut, c.fut]) (l' := [a'.fut, b'.fut, c'.fut]) rfl _
  xpay d a a' x _ := same_two pl d x fun y v => (sameLift A).bind (same_check y v) fun _ _ _ =>
    same_xpayTask y v (l := [a.fut]) (l' := [a'.fut]) rfl _
  xpay2 d a a' b b' x _ _ := same_two pl d x fun y v => (sameLift A).bind (same_check y v) fun _ _ _ =>
    same_xpayTask y v (l := [a.fut, b.fut]) (l' := [a'.fut, b'.fut]) rfl _
  dot v w := by
    refine (sameLift A).bind (same_numSpaces pl) fun n n' hn => ?_
    subst hn
    refine (sameLift A).bind (same_getVector pl v 0) fun y y' hy => (sameLift A).bind (same_getVector pl w 0) fun x x' hx => ?_
    subst hy hx
    exact (sameLift A).bind (same_dot G horder y x) fun r r' _ => same_dotLoop G pl horder v w _ r r'
  matvec d x := by
    refine (sameLift A).bind (same_zeroFill G pl d) fun _ _ _ => same_loop _ fun r => ?_
    refine (sameLift A).bind (same_getVector pl d r.rng) fun y y' hy => (sameLift A).bind (same_getVector pl x r.dom) fun v v' hv => ?_
    subst hy hv
    exact same_op G r.matrix y v _ _
  dummy l l' h := same_dummy l l' h.length_eq

/-! ## Runs -/

theorem repeatM_succ {α : Type} (f : α → M P V α) (k : Nat) : ∀ c e,
    repeatM f (k + 1) c e = (repeatM f k c e).bind fun z => f z.1 z.2 := by
  induction k with
  | zero =>
    intro c e
    show (f c e).bind (fun z => some (z.1, z.2)) = f c e
    cases f c e <;> rfl
  | succ k ih =>
    intro c e
    show (f c e).bind (fun z => repeatM f (k + 1) z.1 z.2) = ((f c e).bind fun z => repeatM f k z.1 z.2).bind _
    rw [Option.bind_assoc]
    congr 1
    funext z
    exact ih z.1 z.2

theorem repeats_of {α : Type} {run : Nat → M P V α} {f : α → M P V α} {Q : α → Prop}
    (hrel : ∀ c c', Q c → Q c' → Same A (fun d d' => Q d ∧ Q d') (f c) (f c'))
    (hrun : ∀ k n, ∃ a e', run k ⟨n, []⟩ = some (a, e'))
    (hdef : ∀ n, ∃ c e, Q c ∧ ∀ k, run k ⟨n, []⟩ = repeatM f k c e) : Repeats A run := by
  intro n
  obtain ⟨c, e, hc, hk⟩ := hdef n
  choose a e' h using fun k => hrun k n
  have h0 := h 0
  rw [hk] at h0
  cases (Option.some.inj h0 : (c, e) = (a 0, e' 0))
  have hs : ∀ k, f (a k) (e' k) = some (a (k + 1), e' (k + 1)) := fun k => by
    have := h (k + 1)
    rw [hk, repeatM_succ, ← hk, h] at this
    exact this
  have hQ : ∀ k, Q (a k) := fun k => by
    induction k with
    | zero => exact hc
    | succ k ih =>
      obtain ⟨d', e1', ts, ts', q1, -, -, -, q5⟩ := hrel _ _ ih ih _ _ _ (e' k) (hs k)
      exact q5.1
  have hout : ∀ k, ∃ ts, (e' (k + 1)).out = (e' k).out ++ ts := fun k => by
    obtain ⟨d', e1', ts, ts', -, q2, -, -, -⟩ := hrel _ _ (hQ k) (hQ k) _ _ _ (e' k) (hs k)
    exact ⟨ts, q2⟩
  choose step hstep using hout
  refine ⟨(e' 0).out, step, fun k => ⟨a k, e' k, h k, ?_⟩, fun i j => ?_⟩
  · induction k with
    | zero => simp
    | succ k ih => rw [hstep, ih, List.range_succ, List.map_append, List.flatten_append]; simp
  · obtain ⟨b', f', us, us', s1, s2, s3, s4, -⟩ := hrel _ _ (hQ i) (hQ j) _ _ _ (e' j) (hs i)
    rw [hs j] at s1
    cases s1
    rw [hstep] at s2 s3
    rw [List.append_cancel_left s2, List.append_cancel_left s3]
    exact s4

variable {G} {pl} {pl' : Planner K P V} {base : Nat}

theorem run_alloc {α : Type} {nw : Nat} {m : Planner K P V → M P V α} (halloc : pl.allocateWorkspace G base nw = some pl') (n : Nat) :
    (do let p ← allocate G pl base nw; m p) ⟨n, []⟩ = m pl' ⟨n, []⟩ := by
  show (allocate G pl base nw ⟨n, []⟩).bind (fun x => m x.1 x.2) = _
  unfold allocate
  rw [halloc]
  rfl

theorem run_init {α β : Type} {ini : M P V α} {f : α → M P V β} {e e' : Emit P V} {a : β} (h : (ini >>= f) e = some (a, e')) :
    ∃ c e1, ini e = some (c, e1) ∧ f c e1 = some (a, e') := by
  obtain ⟨⟨c, e1⟩, h1, h2⟩ := Option.bind_eq_some_iff.1 (show (ini e).bind (fun z => f z.1 z.2) = some (a, e') from h)
  exact ⟨c, e1, h1, h2⟩

/-- A run is the allocation, the set-up and the steps. -/
theorem run_def {α : Type} {nw : Nat} {ini : Planner K P V → M P V α} {f : Planner K P V → α → M P V α}
    (halloc : pl.allocateWorkspace G base nw = some pl')
    (hrun : ∀ n, ∃ a e', (do let p ← allocate G pl base nw; let c ← ini p; repeatM (f p) 0 c) ⟨n, []⟩ = some (a, e')) (n : Nat) :
    ∃ c e, ini pl' ⟨n, []⟩ = some (c, e) ∧
      ∀ k, (do let p ← allocate G pl base nw; let c ← ini p; repeatM (f p) k c) ⟨n, []⟩ = repeatM (f pl') k c e := by
  obtain ⟨a, e', h⟩ := hrun n
  rw [run_alloc halloc] at h
  obtain ⟨c, e, h1, -⟩ := run_init h
  refine ⟨c, e, h1, fun k => ?_⟩
  rw [run_alloc halloc]
  show (ini pl' ⟨n, []⟩).bind _ = _
  rw [h1]
  rfl

/-- **C55** for CG: any planner, any number of steps. -/
theorem c55_cg (A : Arith V) (S : SolverSetup G pl pl' base 3) : Repeats A fun k => cg A G pl base k := by
  have hrun : ∀ k n, ∃ a e', cg A G pl base k ⟨n, []⟩ = some (a, e') := fun k => run_of_ensures (fun _ => A.zero) fun n => c40_cg A S k n _
  refine repeats_of (Q := fun _ => True) (f := CG.step (plannerOps A G.toEnv pl')) (fun c c' _ _ => ?_) hrun fun n => ?_
  · intro e b f e' hb
    obtain ⟨b', f', ts, ts', h1, h2, h3, h4, -⟩ := rel_cg_step (sameOps G pl' S.order) (c := c) (c' := c') trivial trivial e b f e' hb
    exact ⟨b', f', ts, ts', h1, h2, h3, h4, trivial, trivial⟩
  · obtain ⟨c, e, -, h⟩ := run_def (ini := fun p => CG.init (plannerOps A G.toEnv p))
      (f := fun p => CG.step (plannerOps A G.toEnv p)) S.alloc (hrun 0) n
    exact ⟨c, e, trivial, h⟩

/-- **C55** for BiCGStab. -/
theorem c55_bicgstab (A : Arith V) (S : SolverSetup G pl pl' base 5) : Repeats A fun k => biCGStab A G pl base k := by
  have hrun : ∀ k n, ∃ a e', biCGStab A G pl base k ⟨n, []⟩ = some (a, e') :=
    fun k => run_of_ensures (fun _ => A.zero) fun n => c40_bicgstab A S k n _
  refine repeats_of (Q := fun _ => True) (f := BiCGStab.step (plannerOps A G.toEnv pl')) (fun c c' _ _ => ?_) hrun fun n => ?_
  · intro e b f e' hb
    obtain ⟨b', f', ts, ts', h1, h2, h3, h4, -⟩ :=
      rel_bicgstab_step (sameOps G pl' S.order) (c := c) (c' := c') trivial trivial trivial trivial e b f e' hb
    exact ⟨b', f', ts, ts', h1, h2, h3, h4, trivial, trivial⟩
  · obtain ⟨c, e, -, h⟩ := run_def (ini := fun p => BiCGStab.init (plannerOps A G.toEnv p))
      (f := fun p => BiCGStab.step (plannerOps A G.toEnv p)) S.alloc (hrun 0) n
    exact ⟨c, e, trivial, h⟩

/-- **C55** for GMRES with any restart length. -/
theorem c55_gmres (A : Arith V) {m : Nat} (S : SolverSetup G pl pl' base (m + 1)) : Repeats A fun k => gmres A G pl base m k := by
  have hrun : ∀ k n, ∃ a e', gmres A G pl base m k ⟨n, []⟩ = some (a, e') :=
    fun k => run_of_ensures (fun _ => A.zero) fun n => c40_gmres A S k n _
  refine repeats_of (Q := fun c => c.restart = m) (f := GMRES.step (plannerOps A G.toEnv pl')) (fun c c' hc hc' => ?_) hrun fun n => ?_
  · intro e b f e' hb
    obtain ⟨b', f', ts, ts', h1, h2, h3, h4, h5, h6, -⟩ :=
      rel_gmres_step (sameOps G pl' S.order) (c := c) (c' := c') (hc.trans hc'.symm) trivial (fun _ _ => trivial) e b f e' hb
    exact ⟨b', f', ts, ts', h1, h2, h3, h4, h5.trans hc, h6.trans hc'⟩
  · obtain ⟨c, e, h1, h⟩ := run_def (ini := fun p => GMRES.init (plannerOps A G.toEnv p) m)
      (f := fun p => GMRES.step (plannerOps A G.toEnv p)) S.alloc (hrun 0) n
    refine ⟨c, e, ?_, h⟩
    obtain ⟨_, _, -, h3⟩ := run_init h1
    obtain ⟨_, _, -, h4⟩ := run_init h3
    obtain ⟨_, _, -, h5⟩ := run_init h4
    obtain ⟨_, _, -, h6⟩ := run_init h5
    have := (Prod.mk.inj (Option.some.inj h6)).1
    rw [← this]

/-- Two solvers made on the same planner (the second one reuses nothing of the first) also launch the same operations per step: the
trace recorded with one can be replayed with the other.  Stated for single steps of CG from arbitrary solver objects. -/
theorem c55_any_state (A : Arith V) (horder : ∀ f l, (G.redOrder f l).Perm l) (c c' d : CG Scalar) (e e' f : Emit P V)
    (h : CG.step (plannerOps A G.toEnv pl) c e = some (d, f)) : ∃ d' f' ts ts',
      CG.step (plannerOps A G.toEnv pl) c' e' = some (d', f') ∧ f.out = e.out ++ ts ∧ f'.out = e'.out ++ ts' ∧
      List.Forall₂ (SameOperation A) ts ts' := by
  obtain ⟨d', f', ts, ts', h1, h2, h3, h4, -⟩ := rel_cg_step (sameOps G pl horder) (c := c) (c' := c') trivial trivial e d f e' h
  exact ⟨d', f', ts, ts', h1, h2, h3, h4⟩

/-- The hypotheses hold for the two-block system of `twoSystem`. -/
example : ∃ pl : Planner Nat Nat ℚ, Repeats (exactArith ℚ qsqrt) fun k => cg (exactArith ℚ qsqrt) Verif.Solver.exG pl 10 k := by
  obtain ⟨pl, pl', -, S, -⟩ := twoSystem.complete 3
  exact ⟨pl, c55_cg _ S⟩

/-- Not everything is the same operation: a task is not the same as one that writes another element. -/
example (A : Arith V) (p q : P) (h : p ≠ q) (x : Vec) :
    ¬ SameOperation A (scalTask A x [0] [p]) (scalTask A x [0] [q]) := by
  rintro (⟨t0, ρ, ρ', h1, h2⟩ | ⟨f, f', o, o', -, e, -⟩)
  · obtain ⟨c0, h3, h4⟩ := (h1.writes (.elem x.data p)).1 ⟨p, by simp, rfl⟩
    have h5 := (h2.writes _).2 ⟨c0, h3, rfl⟩
    obtain ⟨r, hr, h6⟩ := h5
    cases c0 with
    | elem d p' =>
      simp only [renameCell] at h4 h6
      rw [h4] at h6
      simp at h6 hr
      exact h (h6.trans hr)
    | part => cases h4
    | fut => cases h4
  · have := congrArg (fun t => t.writes (.fut f)) e
    simp only [scalTask, reduceTask, eq_iff_iff, iff_true] at this
    obtain ⟨_, _, e⟩ := this
    cases e

end
end Verif.Launch
