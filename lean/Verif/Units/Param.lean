import Verif.Solver.Model
import Mathlib.Data.List.Forall2

/-!
# Running one program over two number types

The programs of the library treat entries as opaque: they launch the same tasks whatever the number type.  Hence a relation between two
number types that is preserved by the arithmetic operations is preserved by whole programs.
-/
set_option linter.dupNamespace false
set_option linter.unusedSectionVars false
namespace Verif.Units
open Verif.Runtime Verif.Vector Verif.Matrix Verif.Planner Verif.Solver
variable {K P V W : Type} [DecidableEq P] [DecidableEq K]

/-- The operations of two number types respect a relation. -/
structure ArithRel (R : V → W → Prop) (A : Arith V) (B : Arith W) : Prop where
  zero : R A.zero B.zero
  one : R A.one B.one
  neg : ∀ {a a'}, R a a' → R (A.neg a) (B.neg a')
  add : ∀ {a a' b b'}, R a a' → R b b' → R (A.add a b) (B.add a' b')
  sub : ∀ {a a' b b'}, R a a' → R b b' → R (A.sub a b) (B.sub a' b')
  mul : ∀ {a a' b b'}, R a a' → R b b' → R (A.mul a b) (B.mul a' b')
  div : ∀ {a a' b b'}, R a a' → R b b' → R (A.div a b) (B.div a' b')
  sqrt : ∀ {a a'}, R a a' → R (A.sqrt a) (B.sqrt a')
  fma : ∀ {a a' b b' c c'}, R a a' → R b b' → R c c' → R (A.fma a b c) (B.fma a' b' c')

variable {R : V → W → Prop}

/-- Related memories. -/
def MemRel {C : Type} (R : V → W → Prop) (s : C → V) (s' : C → W) : Prop := ∀ c, R (s c) (s' c)

/-- Assignments to the same cell of related values. -/
def UpdRel {C : Type} (R : V → W → Prop) (u : Update C V) (u' : Update C W) : Prop :=
  u.dst = u'.dst ∧ ∀ s s', MemRel R s s' → R (u.f s) (u'.f s')

/-- Tasks with related bodies. -/
def TaskRel {C : Type} (R : V → W → Prop) (t : Task C V) (t' : Task C W) : Prop := List.Forall₂ (UpdRel R) t.body t'.body

theorem runUpdates_rel {C : Type} [DecidableEq C] {us : List (Update C V)} {us' : List (Update C W)} (h : List.Forall₂ (UpdRel R) us us') :
    ∀ {s s'}, MemRel R s s' → MemRel R (runUpdates s us) (runUpdates s' us') := by
  induction h with
  | nil => exact fun h => h
  | @cons u u' us us' hu _ ih =>
    intro s s' hs
    refine ih (s := u.exec s) (s' := u'.exec s') fun c => ?_
    unfold Update.exec
    rw [← hu.1]
    by_cases hc : c = u.dst
    · rw [if_pos hc, if_pos hc]; exact hu.2 s s' hs
    · rw [if_neg hc, if_neg hc]; exact hs c

theorem runTasks_rel {C : Type} [DecidableEq C] {ts : List (Task C V)} {ts' : List (Task C W)} (h : List.Forall₂ (TaskRel R) ts ts') :
    ∀ {s s'}, MemRel R s s' → MemRel R (runTasks s ts) (runTasks s' ts') := by
  induction h with
  | nil => exact fun h => h
  | @cons t t' ts ts' ht _ ih => exact fun hs => ih (runUpdates_rel ht hs)

/-! ## Programs -/

/-- The same number of futures and related tasks launched so far. -/
structure EmitRel (R : V → W → Prop) (e : Emit P V) (e' : Emit P W) : Prop where
  next : e.next = e'.next
  out : List.Forall₂ (TaskRel R) e.out e'.out

/-- Both stop, or both go on with related results. -/
inductive OptRel {α β : Type} (Q : α → β → Prop) : Option α → Option β → Prop
  | none : OptRel Q none none
  | some {a b} : Q a b → OptRel Q (some a) (some b)

/-- Related programs. -/
def ProgRel {α β : Type} (R : V → W → Prop) (Q : α → β → Prop) (m : M P V α) (m' : M P W β) : Prop :=
  ∀ e e', EmitRel R e e' → OptRel (fun p p' => Q p.1 p'.1 ∧ EmitRel R p.2 p'.2) (m e) (m' e')

theorem OptRel.map {α β γ δ : Type} {Q : α → β → Prop} {Q' : γ → δ → Prop} {x : Option α} {y : Option β} {f : α → γ} {g : β → δ}
    (h : OptRel Q x y) (hf : ∀ a b, Q a b → Q' (f a) (g b)) : OptRel Q' (x.map f) (y.map g) := by
  cases h with
  | none => exact .none
  | some h => exact .some (hf _ _ h)

theorem OptRel.bind {α β γ δ : Type} {Q : α → β → Prop} {Q' : γ → δ → Prop} {x : Option α} {y : Option β} {f : α → Option γ}
    {g : β → Option δ} (h : OptRel Q x y) (hf : ∀ a b, Q a b → OptRel Q' (f a) (g b)) : OptRel Q' (x.bind f) (y.bind g) := by
  cases h with
  | none => exact .none
  | some h => exact hf _ _ h

theorem ProgRel.pure {α β : Type} {Q : α → β → Prop} {a : α} {b : β} (h : Q a b) :
    ProgRel (P := P) R Q (Pure.pure a) (Pure.pure b) := fun _ _ he => .some ⟨h, he⟩

theorem ProgRel.bind {α β γ δ : Type} {Q : α → β → Prop} {Q' : γ → δ → Prop} {m : M P V α} {m' : M P W β} {f : α → M P V γ}
    {f' : β → M P W δ} (h : ProgRel R Q m m') (hf : ∀ a b, Q a b → ProgRel R Q' (f a) (f' b)) : ProgRel R Q' (m >>= f) (m' >>= f') := by
  intro e e' he
  have h1 := h e e' he
  show OptRel _ ((m e).bind fun p => f p.1 p.2) ((m' e').bind fun p => f' p.1 p.2)
  revert h1
  generalize m e = x
  generalize m' e' = y
  intro h1
  cases h1 with
  | none => exact .none
  | some h2 => exact hf _ _ h2.1 _ _ h2.2

theorem ProgRel.bindEq {α γ δ : Type} {Q' : γ → δ → Prop} {m : M P V α} {m' : M P W α} {f : α → M P V γ}
    {f' : α → M P W δ} (h : ProgRel R Eq m m') (hf : ∀ a, ProgRel R Q' (f a) (f' a)) : ProgRel R Q' (m >>= f) (m' >>= f') :=
  h.bind fun a _ hab => hab ▸ hf a

theorem rel_launch {ts : List (Task (Cell P) V)} {ts' : List (Task (Cell P) W)} (h : List.Forall₂ (TaskRel R) ts ts') :
    ProgRel R Eq (launch ts) (launch ts') := fun _ _ he => .some ⟨rfl, he.next, List.rel_append he.out h⟩

theorem rel_fresh : ProgRel (P := P) R Eq fresh fresh := fun _ _ he => .some ⟨he.next, by simp [he.next], he.out⟩

theorem rel_require (b : Bool) : ProgRel (P := P) R Eq (require b) (require b) := by
  intro e e' he
  unfold require
  cases b
  · exact .none
  · exact .some ⟨rfl, he⟩

theorem forall₂_map {α β γ : Type} {Q : β → γ → Prop} {f : α → β} {g : α → γ} (l : List α) (h : ∀ a, Q (f a) (g a)) :
    List.Forall₂ Q (l.map f) (l.map g) := by
  induction l with
  | nil => exact .nil
  | cons a l ih => exact .cons (h a) ih

variable {A : Arith V} {B : Arith W}

theorem rel_alpha (hA : ArithRel R A B) (futs : List Nat) {s : Cell P → V} {s' : Cell P → W} (hs : MemRel R s s') :
    R (alphaOf A futs s) (alphaOf B futs s') := by
  unfold alphaOf
  match futs with
  | [] => exact hA.one
  | [a] => exact hs _
  | [a, b] => exact hA.div (hs _) (hs _)
  | [a, b, c] => exact hA.div (hA.mul (hs _) (hs _)) (hs _)
  | [a, b, c, d] => exact hA.div (hA.mul (hs _) (hs _)) (hA.mul (hs _) (hs _))
  | a :: b :: c :: d :: e :: l => exact hA.zero

theorem rel_scalTask (hA : ArithRel R A B) (x : Vec) (futs : List Nat) (pts : List P) : TaskRel R (scalTask A x futs pts) (scalTask B x futs pts) :=
  forall₂_map _ fun _ => ⟨rfl, fun _ _ hs => hA.mul (rel_alpha hA futs hs) (hs _)⟩

theorem rel_axpyTask (hA : ArithRel R A B) (y x : Vec) (futs : List Nat) (pts : List P) :
    TaskRel R (axpyTask A y x futs pts) (axpyTask B y x futs pts) :=
  forall₂_map _ fun _ => ⟨rfl, fun _ _ hs => hA.fma (rel_alpha hA futs hs) (hs _) (hs _)⟩

theorem rel_xpayTask (hA : ArithRel R A B) (y x : Vec) (futs : List Nat) (pts : List P) :
    TaskRel R (xpayTask A y x futs pts) (xpayTask B y x futs pts) :=
  forall₂_map _ fun _ => ⟨rfl, fun _ _ hs => hA.fma (rel_alpha hA futs hs) (hs _) (hs _)⟩

theorem rel_fillValueTask (v : Vec) {a : V} {a' : W} (h : R a a') (pts : List P) : TaskRel R (fillValueTask v a pts) (fillValueTask v a' pts) :=
  forall₂_map _ fun _ => ⟨rfl, fun _ _ _ => h⟩

theorem rel_copyTask (dst src : Vec) (pts : List P) : TaskRel R (copyTask dst src pts) (copyTask dst src pts) :=
  forall₂_map _ fun _ => ⟨rfl, fun _ _ hs => hs _⟩

theorem rel_dotTask (hA : ArithRel R A B) (v w : Vec) (f color : Nat) (pts : List P) :
    TaskRel R (dotTask A v w f color pts) (dotTask B v w f color pts) :=
  .cons ⟨rfl, fun _ _ _ => hA.zero⟩ (forall₂_map _ fun _ => ⟨rfl, fun _ _ hs => hA.add (hs _) (hA.mul (hs _) (hs _))⟩)

theorem rel_foldl (hA : ArithRel R A B) (f : Nat) (order : List Nat) {s : Cell P → V} {s' : Cell P → W} (hs : MemRel R s s') :
    ∀ {a a'}, R a a' → R (order.foldl (fun a k => A.add a (s (.part f k))) a) (order.foldl (fun a k => B.add a (s' (.part f k))) a') := by
  induction order with
  | nil => exact fun h => h
  | cons k l ih => exact fun h => ih (hA.add h (hs _))

theorem rel_reduceTask (hA : ArithRel R A B) (f : Nat) (order : List Nat) :
    TaskRel (C := Cell P) R (reduceTask A f order) (reduceTask B f order) :=
  .cons ⟨rfl, fun _ _ hs => rel_foldl hA f order hs hA.zero⟩ .nil

/-! ## Vectors and scalars -/

theorem rel_check (y x : Vec) : ProgRel (P := P) R Eq (checkCompatible y x) (checkCompatible y x) :=
  (rel_require _).bindEq fun _ => (rel_require _).bindEq fun _ => rel_require _

theorem rel_pieces (E : Env P) (v : Vec) {f : List P → Task (Cell P) V} {g : List P → Task (Cell P) W} (h : ∀ pts, TaskRel R (f pts) (g pts)) :
    ProgRel R Eq (launch ((E.pieces v.part).map f)) (launch ((E.pieces v.part).map g)) := rel_launch (forall₂_map _ h)

theorem rel_pieces2 (E : Env P) (y x : Vec) {f : List P → Task (Cell P) V} {g : List P → Task (Cell P) W} (h : ∀ pts, TaskRel R (f pts) (g pts)) :
    ProgRel R Eq (do checkCompatible y x; launch ((E.pieces y.part).map f)) (do checkCompatible y x; launch ((E.pieces y.part).map g)) :=
  (rel_check y x).bindEq fun _ => rel_pieces E y h

theorem rel_dot (hA : ArithRel R A B) (E : Env P) (v w : Vec) : ProgRel R Eq (Verif.Vector.dot A E v w) (Verif.Vector.dot B E v w) := by
  refine (rel_check v w).bindEq fun _ => rel_fresh.bindEq fun f => ProgRel.bindEq (rel_launch ?_) fun _ =>
    ProgRel.bindEq (rel_launch (.cons (rel_reduceTask hA f _) .nil)) fun _ => ProgRel.pure rfl
  rw [List.mapIdx_eq_zipIdx_map, List.mapIdx_eq_zipIdx_map]
  exact forall₂_map _ fun p => rel_dotTask hA v w f p.2 p.1

theorem rel_scalarTask (f : Nat) (args : List Nat) {g : (Cell P → V) → V} {g' : (Cell P → W) → W}
    (h : ∀ s s', MemRel R s s' → R (g s) (g' s')) : TaskRel R (scalarTask f args g) (scalarTask f args g') := .cons ⟨rfl, h⟩ .nil

theorem rel_scalarOf {a : V} {a' : W} (h : R a a') : ProgRel (P := P) R Eq (scalarOf a) (scalarOf a') :=
  rel_fresh.bindEq fun f => ProgRel.bindEq (rel_launch (.cons (rel_scalarTask f [] fun _ _ _ => h) .nil)) fun _ => ProgRel.pure rfl

theorem rel_unary {g : V → V} {g' : W → W} (h : ∀ {a a'}, R a a' → R (g a) (g' a')) (a : Scalar) :
    ProgRel (P := P) R Eq (unary g a) (unary g' a) :=
  rel_fresh.bindEq fun f => ProgRel.bindEq (rel_launch (.cons (rel_scalarTask f [a.fut] fun _ _ hs => h (hs _)) .nil)) fun _ => ProgRel.pure rfl

theorem rel_binary {g : V → V → V} {g' : W → W → W} (h : ∀ {a a' b b'}, R a a' → R b b' → R (g a b) (g' a' b')) (a b : Scalar) :
    ProgRel (P := P) R Eq (binary g a b) (binary g' a b) :=
  rel_fresh.bindEq fun f => ProgRel.bindEq (rel_launch (.cons (rel_scalarTask f [a.fut, b.fut] fun _ _ hs => h (hs _) (hs _)) .nil)) fun _ =>
    ProgRel.pure rfl

/-! ## Matrices -/

/-- Matrices of the same shape with related entries. -/
inductive OpRel (R : V → W → Prop) : Op K P V → Op K P W → Prop
  | coo (kernel : List K) (row col : K → P) {entry : K → V} {entry' : K → W} : (∀ k, R (entry k) (entry' k)) →
      OpRel R (.coo ⟨kernel, row, col, entry⟩) (.coo ⟨kernel, row, col, entry'⟩)
  | csr (kernel : List K) (rows : List P) (range : P → K → Bool) (col : K → P) {entry : K → V} {entry' : K → W} :
      (∀ k, R (entry k) (entry' k)) → OpRel R (.csr ⟨kernel, rows, range, col, entry⟩) (.csr ⟨kernel, rows, range, col, entry'⟩)

theorem OpRel.kernelFromRange {m : Op K P V} {m' : Op K P W} (h : OpRel R m m') (pieces : List (List P)) :
    m.kernelFromRange pieces = m'.kernelFromRange pieces := by cases h <;> rfl

theorem OpRel.domainFromKernel {m : Op K P V} {m' : Op K P W} (h : OpRel R m m') (space : List P) (kp : List (List K)) :
    m.domainFromKernel space kp = m'.domainFromKernel space kp := by cases h <;> rfl

theorem rel_accumulate (hA : ArithRel R A B) (dst src : Vec) (r c : P) {e : V} {e' : W} (h : R e e') :
    UpdRel R (accumulate A dst src r c e) (accumulate B dst src r c e') := ⟨rfl, fun _ _ hs => hA.add (hs _) (hA.mul h (hs _))⟩

theorem forall₂_filterMap {α β γ : Type} {Q : β → γ → Prop} {f : α → Option β} {g : α → Option γ} (l : List α) (h : ∀ a, OptRel Q (f a) (g a)) :
    List.Forall₂ Q (l.filterMap f) (l.filterMap g) := by
  induction l with
  | nil => exact .nil
  | cons a l ih =>
    rw [List.filterMap_cons, List.filterMap_cons]
    have := h a
    revert this
    generalize f a = x
    generalize g a = y
    intro h
    cases h with
    | none => exact ih
    | some h => exact .cons h ih

theorem forall₂_zipWith {α β γ δ : Type} {Q : γ → δ → Prop} {f : α → β → γ} {g : α → β → δ} (h : ∀ a b, Q (f a b) (g a b)) :
    ∀ (l : List α) (l' : List β), List.Forall₂ Q (List.zipWith f l l') (List.zipWith g l l')
  | [], _ => .nil
  | _ :: _, [] => .nil
  | a :: l, b :: l' => .cons (h a b) (forall₂_zipWith h l l')

theorem optRel_mapM {α β : Type} {Q : α → β → Prop} {l : List (Option α)} {l' : List (Option β)} (h : List.Forall₂ (OptRel Q) l l') :
    OptRel (List.Forall₂ Q) (l.mapM id) (l'.mapM id) := by
  induction h with
  | nil => exact .some .nil
  | @cons x y l l' hx _ ih =>
    rw [List.mapM_cons, List.mapM_cons]
    cases hx with
    | none => exact .none
    | some h1 =>
      show OptRel _ ((l.mapM id).bind _) ((l'.mapM id).bind _)
      revert ih
      generalize l.mapM id = z
      generalize l'.mapM id = z'
      intro ih
      cases ih with
      | none => exact .none
      | some h2 => exact .some (.cons h1 h2)

theorem rel_opMatvec (hA : ArithRel R A B) (E : Env P) {m : Op K P V} {m' : Op K P W} (h : OpRel R m m') (dst src : Vec) (kp : List (List K))
    (ghost : List (List P)) : ProgRel R Eq (m.matvec A E dst src kp ghost) (m'.matvec B E dst src kp ghost) := by
  cases h with
  | coo kernel row col he =>
    refine rel_launch (forall₂_zipWith (fun out ki => ?_) _ _)
    refine forall₂_filterMap _ fun k => ?_
    by_cases hk : col k ∈ ki.2 ∧ row k ∈ out
    · simp only [hk, and_self, if_true]; exact .some (rel_accumulate hA dst src _ _ (he k))
    · simp only [hk, if_false]; exact .none
  | @csr kernel rows range col entry entry' he =>
    intro e e' hee
    have key : OptRel (List.Forall₂ (TaskRel R))
        ((List.zipWith (fun out ki => csrTask A ⟨kernel, rows, range, col, entry⟩ dst src out ki.1 ki.2) (E.pieces dst.part) (kp.zip ghost)).mapM id)
        ((List.zipWith (fun out ki => csrTask B ⟨kernel, rows, range, col, entry'⟩ dst src out ki.1 ki.2) (E.pieces dst.part) (kp.zip ghost)).mapM id) := by
      refine optRel_mapM (forall₂_zipWith (fun out ki => ?_) _ _)
      unfold csrTask
      have hf : ∀ k, CSR.findRow (⟨kernel, rows, range, col, entry⟩ : CSR K P V) out k =
        CSR.findRow (⟨kernel, rows, range, col, entry'⟩ : CSR K P W) out k := fun _ => rfl
      simp only [hf]
      split
      · refine .some (forall₂_filterMap _ fun k => ?_)
        cases CSR.findRow (⟨kernel, rows, range, col, entry'⟩ : CSR K P W) out k with
        | none => exact .none
        | some row =>
          dsimp only
          by_cases hk : col k ∈ ki.2 ∧ row ∈ out
          · rw [if_pos hk, if_pos hk]; exact .some (rel_accumulate hA dst src _ _ (he k))
          · rw [if_neg hk, if_neg hk]; exact .none
      · exact .none
    exact key.bind fun _ _ h => rel_launch h e e' hee

/-! ## Planners -/

/-- Registered matrices with related entries. -/
structure RegRel (R : V → W → Prop) (r : Registered K P V) (r' : Registered K P W) : Prop where
  matrix : OpRel R r.matrix r'.matrix
  dom : r.dom = r'.dom
  rng : r.rng = r'.rng
  kernel : r.kernel = r'.kernel
  ghost : r.ghost = r'.ghost

/-- Planners that differ in the entries of the matrices only. -/
structure PlRel (R : V → W → Prop) (pl : Planner K P V) (pl' : Planner K P W) : Prop where
  spaces : pl.spaces = pl'.spaces
  parts : pl.parts = pl'.parts
  hasFields : pl.hasFields = pl'.hasFields
  wRegions : pl.wRegions = pl'.wRegions
  wParts : pl.wParts = pl'.wParts
  sol : pl.sol = pl'.sol
  rhs : pl.rhs = pl'.rhs
  workspace : pl.workspace = pl'.workspace
  ops : List.Forall₂ (RegRel R) pl.ops pl'.ops

/-- Set-up calls that differ in the entries of the matrices only. -/
inductive SetupRel (R : V → W → Prop) : Setup K P V → Setup K P W → Prop
  | addSol (v : Vec) : SetupRel R (.addSol v) (.addSol v)
  | addRhs (v : Vec) : SetupRel R (.addRhs v) (.addRhs v)
  | allocate (base n : Nat) : SetupRel R (.allocate base n) (.allocate base n)
  | addMatrix {m : Op K P V} {m' : Op K P W} (dom rng : Nat) : OpRel R m m' → SetupRel R (.addMatrix m dom rng) (.addMatrix m' dom rng)

theorem rel_admit {pl : Planner K P V} {pl' : Planner K P W} (G : Geometry P) (h : PlRel R pl pl') (idx : Nat) (v : Vec) :
    OptRel (PlRel R) (pl.admit G idx v) (pl'.admit G idx v) := by
  unfold Planner.admit
  rw [h.spaces, h.parts]
  generalize (if idx < pl'.spaces.length then (if pl'.spaces[idx]? = some v.space then some pl'.spaces else none)
    else (if pl'.spaces.length = idx then some (pl'.spaces ++ [v.space]) else none)) = x
  generalize (if idx < pl'.parts.length then (if pl'.parts[idx]? = some v.part then some pl'.parts else none)
    else (if pl'.parts.length = idx && G.complete v.part && G.disjoint v.part then some (pl'.parts ++ [v.part])
      else none)) = y
  cases x with
  | none => exact .none
  | some x =>
    cases y with
    | none => exact .none
    | some y => exact .some ⟨rfl, rfl, h.hasFields, h.wRegions, h.wParts, h.sol, h.rhs, h.workspace, h.ops⟩

theorem noWorkspace_rel {pl : Planner K P V} {pl' : Planner K P W} (h : PlRel R pl pl') : pl.noWorkspace = pl'.noWorkspace := by
  unfold Planner.noWorkspace
  rw [h.hasFields, h.wRegions, h.wParts, h.workspace]

theorem sizesAgree_rel {pl : Planner K P V} {pl' : Planner K P W} (h : PlRel R pl pl') : pl.sizesAgree = pl'.sizesAgree := by
  unfold Planner.sizesAgree
  rw [h.spaces, h.parts, h.wRegions, h.wParts, h.sol, h.rhs, h.workspace]

theorem rel_allocateWorkspace {pl : Planner K P V} {pl' : Planner K P W} (G : Geometry P) (h : PlRel R pl pl') (base n : Nat) :
    OptRel (PlRel R) (pl.allocateWorkspace G base n) (pl'.allocateWorkspace G base n) := by
  unfold Planner.allocateWorkspace
  rw [noWorkspace_rel h, h.spaces, h.parts]
  split
  · show OptRel _ (Option.bind _ _) (Option.bind _ _)
    generalize List.mapM (m := Option) _ (List.range n) = x
    cases x with
    | none => exact .none
    | some x => exact .some ⟨rfl, rfl, rfl, rfl, rfl, h.sol, h.rhs, rfl, h.ops⟩
  · exact .none

theorem rel_setup {pl : Planner K P V} {pl' : Planner K P W} (G : Geometry P) (h : PlRel R pl pl') {c : Setup K P V} {c' : Setup K P W}
    (hc : SetupRel R c c') : OptRel (PlRel R) (pl.setup G c) (pl'.setup G c') := by
  cases hc with
  | addSol v =>
    show OptRel _ (pl.addSol G v) (pl'.addSol G v)
    unfold Planner.addSol
    rw [noWorkspace_rel h, h.sol]
    split
    · exact (rel_admit G h _ v).map fun a b hab => ⟨hab.spaces, hab.parts, hab.hasFields, hab.wRegions, hab.wParts, rfl, hab.rhs,
        hab.workspace, hab.ops⟩
    · exact .none
  | addRhs v =>
    show OptRel _ (pl.addRhs G v) (pl'.addRhs G v)
    unfold Planner.addRhs
    rw [noWorkspace_rel h, h.rhs]
    split
    · exact (rel_admit G h _ v).map fun a b hab => ⟨hab.spaces, hab.parts, hab.hasFields, hab.wRegions, hab.wParts, hab.sol, rfl,
        hab.workspace, hab.ops⟩
    · exact .none
  | allocate base n => exact rel_allocateWorkspace G h base n
  | @addMatrix m m' dom rng hm =>
    show OptRel _ (pl.addMatrix G m dom rng) (pl'.addMatrix G m' dom rng)
    unfold Planner.addMatrix
    rw [sizesAgree_rel h, h.spaces, h.parts]
    split
    · dsimp only
      rw [hm.kernelFromRange, hm.domainFromKernel]
      exact .some ⟨rfl, rfl, h.hasFields, h.wRegions, h.wParts, h.sol, h.rhs, h.workspace,
        List.rel_append h.ops (.cons ⟨hm, rfl, rfl, rfl, rfl⟩ .nil)⟩
    · exact .none

theorem rel_setupAll (G : Geometry P) {cs : List (Setup K P V)} {cs' : List (Setup K P W)} (hc : List.Forall₂ (SetupRel R) cs cs') :
    ∀ {pl : Planner K P V} {pl' : Planner K P W}, PlRel R pl pl' → OptRel (PlRel R) (pl.setupAll G cs) (pl'.setupAll G cs') := by
  induction hc with
  | nil => exact fun h => .some h
  | cons hc _ ih => exact fun h => (rel_setup G h hc).bind fun a b hab => ih hab

theorem plRel_empty : PlRel (K := K) (P := P) R Planner.empty Planner.empty := ⟨rfl, rfl, rfl, rfl, rfl, rfl, rfl, rfl, .nil⟩

theorem rel_getVector {pl : Planner K P V} {pl' : Planner K P W} (h : PlRel R pl pl') (k i : Nat) :
    ProgRel R Eq (pl.getVector k i) (pl'.getVector k i) := by
  intro e e' he
  have hl : pl.lookup k i = pl'.lookup k i := by unfold Planner.lookup; rw [h.sol, h.rhs, h.workspace]
  unfold Planner.getVector
  rw [hl]
  cases pl'.lookup k i with
  | none => exact .none
  | some v => exact .some ⟨rfl, he⟩

theorem rel_numSpaces {pl : Planner K P V} {pl' : Planner K P W} (h : PlRel R pl pl') : ProgRel (P := P) R Eq pl.numSpaces pl'.numSpaces := by
  unfold Planner.numSpaces
  rw [sizesAgree_rel h, h.spaces]
  exact (rel_require _).bindEq fun _ => ProgRel.pure rfl

theorem rel_loop {ι κ : Type} {Q : ι → κ → Prop} {l : List ι} {l' : List κ} (hl : List.Forall₂ Q l l') {f : ι → M P V Unit}
    {g : κ → M P W Unit} (h : ∀ i j, Q i j → ProgRel R Eq (f i) (g j)) : ProgRel R Eq (loop l f) (loop l' g) := by
  induction hl with
  | nil => exact ProgRel.pure rfl
  | cons hq _ ih => exact (h _ _ hq).bindEq fun _ => ih

theorem forall₂_refl {ι : Type} (l : List ι) : List.Forall₂ Eq l l := by
  induction l with
  | nil => exact .nil
  | cons a l ih => exact .cons rfl ih

theorem rel_loopEq {ι : Type} (l : List ι) {f : ι → M P V Unit} {g : ι → M P W Unit} (h : ∀ i, ProgRel R Eq (f i) (g i)) :
    ProgRel R Eq (loop l f) (loop l g) := rel_loop (forall₂_refl l) fun i _ e => e ▸ h i

theorem rel_pZeroFill (hA : ArithRel R A B) (E : Env P) {pl : Planner K P V} {pl' : Planner K P W} (h : PlRel R pl pl') (k : Nat) :
    ProgRel R Eq (pl.zeroFill A E k) (pl'.zeroFill B E k) := by
  intro e e' he
  have hl : pl.blocksOf k = pl'.blocksOf k := by unfold Planner.blocksOf; rw [h.sol, h.rhs, h.workspace]
  unfold Planner.zeroFill
  rw [hl]
  cases pl'.blocksOf k with
  | none => exact .none
  | some l => exact rel_loopEq l (fun v => rel_pieces E v fun pts => rel_fillValueTask v hA.zero pts) e e' he

theorem rel_blocks {pl : Planner K P V} {pl' : Planner K P W} (h : PlRel R pl pl') {f : Nat → M P V Unit} {g : Nat → M P W Unit}
    (hf : ∀ i, ProgRel R Eq (f i) (g i)) :
    ProgRel R Eq (do let ns ← pl.numSpaces; loop (List.range ns) f) (do let ns ← pl'.numSpaces; loop (List.range ns) g) :=
  (rel_numSpaces h).bindEq fun _ => rel_loopEq _ hf

theorem rel_block2 {pl : Planner K P V} {pl' : Planner K P W} (h : PlRel R pl pl') (dst src : Nat) {f : Vec → Vec → M P V Unit}
    {g : Vec → Vec → M P W Unit} (hf : ∀ y x, ProgRel R Eq (f y x) (g y x)) (i : Nat) :
    ProgRel R Eq (do let y ← pl.getVector dst i; let x ← pl.getVector src i; f y x)
      (do let y ← pl'.getVector dst i; let x ← pl'.getVector src i; g y x) :=
  (rel_getVector h dst i).bindEq fun y => (rel_getVector h src i).bindEq fun x => hf y x

theorem rel_dotLoop (hA : ArithRel R A B) (E : Env P) {pl : Planner K P V} {pl' : Planner K P W} (h : PlRel R pl pl') (v w : Nat)
    (l : List Nat) : ∀ r, ProgRel R Eq (pl.dotLoop A E v w l r) (pl'.dotLoop B E v w l r) := by
  induction l with
  | nil => exact fun r => ProgRel.pure rfl
  | cons i l ih =>
    exact fun r => (rel_getVector h v i).bindEq fun x => (rel_getVector h w i).bindEq fun y => (rel_dot hA E x y).bindEq fun d =>
      ProgRel.bindEq (rel_binary hA.add r d) fun r' => ih r'

theorem rel_pDot (hA : ArithRel R A B) (E : Env P) {pl : Planner K P V} {pl' : Planner K P W} (h : PlRel R pl pl') (v w : Nat) :
    ProgRel R Eq (pl.dot A E v w) (pl'.dot B E v w) :=
  (rel_numSpaces h).bindEq fun _ => (rel_getVector h v 0).bindEq fun x => (rel_getVector h w 0).bindEq fun y =>
    (rel_dot hA E x y).bindEq fun r => rel_dotLoop hA E h v w _ r

theorem rel_pMatvec (hA : ArithRel R A B) (E : Env P) {pl : Planner K P V} {pl' : Planner K P W} (h : PlRel R pl pl') (d x : Nat) :
    ProgRel R Eq (pl.matvec A E d x) (pl'.matvec B E d x) := by
  refine (rel_pZeroFill hA E h d).bindEq fun _ => rel_loop h.ops fun r r' hr => ?_
  rw [hr.rng, hr.dom, hr.kernel, hr.ghost]
  exact (rel_getVector h d _).bindEq fun y => (rel_getVector h x _).bindEq fun z => rel_opMatvec hA E hr.matrix y z _ _

/-! ## Solvers -/

/-- Two records of operations that launch related tasks. -/
structure OpsRel (R : V → W → Prop) (O : Ops (M P V) Scalar) (O' : Ops (M P W) Scalar) : Prop where
  negOne : ProgRel R Eq O.negOne O'.negOne
  zero : ProgRel R Eq O.zero O'.zero
  one : ProgRel R Eq O.one O'.one
  neg : ∀ a, ProgRel R Eq (O.neg a) (O'.neg a)
  mul : ∀ a b, ProgRel R Eq (O.mul a b) (O'.mul a b)
  div : ∀ a b, ProgRel R Eq (O.div a b) (O'.div a b)
  sqrt : ∀ a, ProgRel R Eq (O.sqrt a) (O'.sqrt a)
  rsqrt : ∀ a, ProgRel R Eq (O.rsqrt a) (O'.rsqrt a)
  zeroFill : ∀ d, ProgRel R Eq (O.zeroFill d) (O'.zeroFill d)
  copy : ∀ d x, ProgRel R Eq (O.copy d x) (O'.copy d x)
  scal : ∀ d a, ProgRel R Eq (O.scal d a) (O'.scal d a)
  axpy : ∀ d a x, ProgRel R Eq (O.axpy d a x) (O'.axpy d a x)
  axpy2 : ∀ d a b x, ProgRel R Eq (O.axpy2 d a b x) (O'.axpy2 d a b x)
  axpy3 : ∀ d a b c x, ProgRel R Eq (O.axpy3 d a b c x) (O'.axpy3 d a b c x)
  xpay : ∀ d a x, ProgRel R Eq (O.xpay d a x) (O'.xpay d a x)
  xpay2 : ∀ d a b x, ProgRel R Eq (O.xpay2 d a b x) (O'.xpay2 d a b x)
  dot : ∀ v w, ProgRel R Eq (O.dot v w) (O'.dot v w)
  matvec : ∀ d x, ProgRel R Eq (O.matvec d x) (O'.matvec d x)
  dummy : ∀ l, ProgRel R Eq (O.dummy l) (O'.dummy l)

theorem rel_ops (hA : ArithRel R A B) (E : Env P) {pl : Planner K P V} {pl' : Planner K P W} (h : PlRel R pl pl') :
    OpsRel R (plannerOps A E pl) (plannerOps B E pl') where
  negOne := rel_scalarOf (hA.neg hA.one)
  zero := rel_scalarOf hA.zero
  one := rel_scalarOf hA.one
  neg a := rel_unary hA.neg a
  mul a b := rel_binary hA.mul a b
  div a b := rel_binary hA.div a b
  sqrt a := rel_unary hA.sqrt a
  rsqrt a := rel_unary (fun ha => hA.div hA.one (hA.sqrt ha)) a
  zeroFill d := rel_pZeroFill hA E h d
  copy d x := rel_blocks h (rel_block2 h d x fun y x => rel_pieces2 E y x (rel_copyTask y x))
  scal d _ := rel_blocks h fun i => (rel_getVector h d i).bindEq fun y => rel_pieces E y (rel_scalTask hA y _)
  axpy d _ x := rel_blocks h (rel_block2 h d x fun y x => rel_pieces2 E y x (rel_axpyTask hA y x _))
  axpy2 d _ _ x := rel_blocks h (rel_block2 h d x fun y x => rel_pieces2 E y x (rel_axpyTask hA y x _))
  axpy3 d _ _ _ x := rel_blocks h (rel_block2 h d x fun y x => rel_pieces2 E y x (rel_axpyTask hA y x _))
  xpay d _ x := rel_blocks h (rel_block2 h d x fun y x => rel_pieces2 E y x (rel_xpayTask hA y x _))
  xpay2 d _ _ x := rel_blocks h (rel_block2 h d x fun y x => rel_pieces2 E y x (rel_xpayTask hA y x _))
  dot v w := rel_pDot hA E h v w
  matvec d x := rel_pMatvec hA E h d x
  dummy l := rel_fresh.bindEq fun f =>
    ProgRel.bindEq (rel_launch (.cons (rel_scalarTask f (l.map Scalar.fut) fun _ _ _ => hA.one) .nil)) fun _ => ProgRel.pure rfl

theorem rel_repeat {α : Type} {f : α → M P V α} {g : α → M P W α} (h : ∀ a, ProgRel R Eq (f a) (g a)) :
    ∀ k a, ProgRel R Eq (Verif.Solver.repeatM f k a) (Verif.Solver.repeatM g k a)
  | 0, _ => ProgRel.pure rfl
  | k + 1, a => (h a).bindEq fun b => rel_repeat h k b

variable {O : Ops (M P V) Scalar} {O' : Ops (M P W) Scalar}

theorem rel_cg_solve (h : OpsRel R O O') (k : Nat) : ProgRel R Eq (CG.solve O k) (CG.solve O' k) := by
  refine ProgRel.bindEq ?_ fun c => rel_repeat (fun c => ?_) k c
  · exact h.negOne.bindEq fun _ => (h.copy _ _).bindEq fun _ => (h.copy _ _).bindEq fun _ => (h.dot _ _).bindEq fun _ => ProgRel.pure rfl
  · exact (h.matvec _ _).bindEq fun _ => (h.dot _ _).bindEq fun _ => (h.axpy2 _ _ _ _).bindEq fun _ => (h.axpy3 _ _ _ _ _).bindEq fun _ =>
      (h.dot _ _).bindEq fun _ => (h.xpay2 _ _ _ _).bindEq fun _ => ProgRel.pure rfl

theorem rel_bi_solve (h : OpsRel R O O') (k : Nat) : ProgRel R Eq (BiCGStab.solve O k) (BiCGStab.solve O' k) := by
  refine ProgRel.bindEq ?_ fun c => rel_repeat (fun c => ?_) k c
  · exact h.negOne.bindEq fun _ => h.zero.bindEq fun _ => h.one.bindEq fun _ => (h.copy _ _).bindEq fun _ => (h.copy _ _).bindEq fun _ =>
      (h.zeroFill _).bindEq fun _ => (h.zeroFill _).bindEq fun _ => ProgRel.pure rfl
  · exact (h.dot _ _).bindEq fun _ => (h.div _ _).bindEq fun _ => (h.div _ _).bindEq fun _ => (h.mul _ _).bindEq fun _ =>
      (h.neg _).bindEq fun _ => (h.axpy _ _ _).bindEq fun _ => (h.xpay _ _ _).bindEq fun _ => (h.matvec _ _).bindEq fun _ =>
      (h.dot _ _).bindEq fun _ => (h.axpy3 _ _ _ _ _).bindEq fun _ => (h.div _ _).bindEq fun _ => (h.matvec _ _).bindEq fun _ =>
      (h.dot _ _).bindEq fun _ => (h.dot _ _).bindEq fun _ => (h.div _ _).bindEq fun _ => (h.axpy _ _ _).bindEq fun _ =>
      (h.axpy _ _ _).bindEq fun _ => (h.neg _).bindEq fun _ => (h.axpy _ _ _).bindEq fun _ => ProgRel.pure rfl

theorem rel_zeros (h : OpsRel R O O') : ∀ n, ProgRel R Eq (zeros O n) (zeros O' n)
  | 0 => ProgRel.pure rfl
  | n + 1 => h.zero.bindEq fun _ => (rel_zeros h n).bindEq fun _ => ProgRel.pure rfl

theorem rel_orthogonalise (h : OpsRel R O O') (j : Nat) : ∀ l g, ProgRel R Eq (GMRES.orthogonalise O j l g) (GMRES.orthogonalise O' j l g)
  | [], _ => ProgRel.pure rfl
  | _ :: ks, _ => (h.dot _ _).bindEq fun _ => (h.neg _).bindEq fun _ => (h.axpy _ _ _).bindEq fun _ => rel_orthogonalise h j ks _

theorem rel_column (h : OpsRel R O O') (restart j : Nat) (g) : ProgRel R Eq (GMRES.column O restart j g) (GMRES.column O' restart j g) := by
  refine (h.matvec _ _).bindEq fun _ => (rel_orthogonalise h j _ _).bindEq fun _ => (h.dot _ _).bindEq fun _ => (h.sqrt _).bindEq fun _ => ?_
  split
  · exact (h.rsqrt _).bindEq fun _ => (h.scal _ _).bindEq fun _ => ProgRel.pure rfl
  · exact ProgRel.pure rfl

theorem rel_columns (h : OpsRel R O O') (restart : Nat) : ∀ l g, ProgRel R Eq (GMRES.columns O restart l g) (GMRES.columns O' restart l g)
  | [], _ => ProgRel.pure rfl
  | _ :: js, _ => (rel_column h restart _ _).bindEq fun _ => rel_columns h restart js _

theorem rel_update (h : OpsRel R O O') (a : Scalar) : ∀ l, ProgRel R Eq (GMRES.update O a l) (GMRES.update O' a l)
  | [] => ProgRel.pure rfl
  | _ :: js => (h.axpy _ _ _).bindEq fun _ => rel_update h a js

theorem rel_gmres_solve (h : OpsRel R O O') (restart k : Nat) : ProgRel R Eq (GMRES.solve O restart k) (GMRES.solve O' restart k) := by
  refine ProgRel.bindEq ?_ fun c => rel_repeat (fun c => ?_) k c
  · exact h.negOne.bindEq fun _ => (rel_zeros h _).bindEq fun _ => (rel_zeros h _).bindEq fun _ => (rel_zeros h _).bindEq fun _ =>
      ProgRel.pure rfl
  · refine ProgRel.bindEq ?_ fun c' => ProgRel.bindEq ?_ fun _ => ProgRel.pure rfl
    · exact ProgRel.bindEq ((h.matvec _ _).bindEq fun _ => (h.xpay _ _ _).bindEq fun _ => (h.dot _ _).bindEq fun _ =>
        (h.rsqrt _).bindEq fun _ => h.scal _ _) fun _ => (rel_columns h _ _ _).bindEq fun _ => ProgRel.pure rfl
    · exact (h.dummy _).bindEq fun _ => rel_update h _ _

theorem rel_allocate (G : Geometry P) {pl : Planner K P V} {pl' : Planner K P W} (h : PlRel R pl pl') (base n : Nat) :
    ProgRel R (PlRel R) (Verif.Solver.allocate G pl base n) (Verif.Solver.allocate G pl' base n) := fun _ _ he =>
  (rel_allocateWorkspace G h base n).map fun _ _ hab => ⟨hab, he⟩

theorem rel_cg (hA : ArithRel R A B) (G : Geometry P) {pl : Planner K P V} {pl' : Planner K P W} (h : PlRel R pl pl') (base k : Nat) :
    ProgRel R Eq (cg A G pl base k) (cg B G pl' base k) :=
  (rel_allocate G h base 3).bind fun _ _ hab => rel_cg_solve (rel_ops hA _ hab) k

theorem rel_biCGStab (hA : ArithRel R A B) (G : Geometry P) {pl : Planner K P V} {pl' : Planner K P W} (h : PlRel R pl pl') (base k : Nat) :
    ProgRel R Eq (biCGStab A G pl base k) (biCGStab B G pl' base k) :=
  (rel_allocate G h base 5).bind fun _ _ hab => rel_bi_solve (rel_ops hA _ hab) k

theorem rel_gmres (hA : ArithRel R A B) (G : Geometry P) {pl : Planner K P V} {pl' : Planner K P W} (h : PlRel R pl pl')
    (base restart k : Nat) : ProgRel R Eq (gmres A G pl base restart k) (gmres B G pl' base restart k) :=
  (rel_allocate G h base (restart + 1)).bind fun _ _ hab => rel_gmres_solve (rel_ops hA _ hab) restart k

end Verif.Units
