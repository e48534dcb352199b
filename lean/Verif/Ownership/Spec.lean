import Verif.Ownership.Objects
/-! # Specification of ownership: who holds which references, and which client programs are legal -/
namespace Verif.Ownership

/-- The references an object holds (`VecO.own`, `MatO.own`, `PlanO.own` in `Objects.lean`): a vector its index space, field space,
region, colour space and partition; a matrix each of its regions with the region's index space and field space; a planner
its index spaces and partitions, its workspace field space and regions, two partitions for each registered matrix, and
everything its own copies of the vectors hold. -/
def Obj.own (hp : Heap) : Obj → List Nat
  | .vec v => v.own
  | .mat m => m.own hp
  | .plan p => p.own

/-- How often a handle is held: by the client itself, and by each of its objects. -/
def World.holders (w : World) (h : Nat) : Nat :=
  w.mine.count h + (w.objs.map fun x => (x.2.own w.heap).count h).sum

/-- The handle has not been released. -/
def World.alive (w : World) (h : Nat) : Prop := 0 < w.heap.count h

/-- A usable handle of the given kind: alive, and what it is made of is alive. -/
def World.usable (w : World) (h : Nat) (k : Kind) : Prop := w.alive h ∧ w.heap.kind h = k ∧ ∀ d ∈ k.deps, w.alive d

/-- The name is not in use. -/
def World.fresh (w : World) (i : Nat) : Prop := ∀ x ∈ w.objs, x.1 ≠ i

/-- What a client must respect: hand over only usable handles of the right type, destroy only its own references and
partitions and regions before what they are made of, use new names for new objects, and keep a matrix as long as a
planner uses it. -/
def Legal (w : World) : Action → Prop
  | .space => True
  | .fields => True
  | .part p c => w.usable p .space ∧ w.usable c .space
  | .region s f => w.usable s .space ∧ w.usable f .fields
  | .destroy h => h ∈ w.mine ∧ ∀ d ∈ (w.heap.kind h).deps, w.alive d
  | .print p => ∃ s c, w.usable p (.part s c)
  | .vec i p => w.fresh i ∧ ∃ s c, w.usable p (.part s c)
  | .vecOn i r p => w.fresh i ∧ (∃ s f, w.usable r (.region s f)) ∧ ∃ s c, w.usable p (.part s c)
  | .coo i r => w.fresh i ∧ ∃ s f, w.usable r (.region s f)
  | .csr i r q => w.fresh i ∧ (∃ s f, w.usable r (.region s f)) ∧ ∃ s f, w.usable q (.region s f)
  | .laplacianCOO i l => w.fresh i ∧ w.usable l .space
  | .laplacianCSR i l => w.fresh i ∧ w.usable l .space
  | .copy i _ => w.fresh i
  | .plan i => w.fresh i
  | .addSol _ _ _ => True
  | .addRhs _ _ _ => True
  | .allocate _ _ _ => True
  | .addMat _ _ _ _ => True
  | .drop i => ∀ x ∈ w.objs, ∀ p, x.2 = .plan p → ∀ r ∈ p.mats, r.mat ≠ i

/-- Every action is legal when it is reached. -/
def LegalRun (good : Nat → Bool) : World → List Action → Prop
  | _, [] => True
  | w, a :: l => Legal w a ∧ ∀ w', w.step good a = .ok w' → LegalRun good w' l

end Verif.Ownership
