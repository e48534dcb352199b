import Verif.Ownership.Props
/-! # C41 on a concrete program; C47: calls that leak or release too much -/
namespace Verif.Ownership

/-! ## A checker for legal programs -/

def aliveB (w : World) (h : Nat) : Bool := decide (0 < w.heap.count h)

def isPartB (w : World) (h : Nat) : Bool :=
  match w.heap.kind h with
  | .part s c => aliveB w h && aliveB w s && aliveB w c
  | _ => false

def isRegionB (w : World) (h : Nat) : Bool :=
  match w.heap.kind h with
  | .region s c => aliveB w h && aliveB w s && aliveB w c
  | _ => false

def isB (w : World) (h : Nat) (k : Kind) : Bool := aliveB w h && w.heap.kind h == k && k.deps.all (aliveB w)

def freshB (w : World) (i : Nat) : Bool := w.objs.all fun x => x.1 != i

def usesB (i : Nat) : Obj → Bool
  | .plan p => p.mats.any fun r => r.mat == i
  | _ => false

def legalB (w : World) : Action → Bool
  | .space => true
  | .fields => true
  | .part p c => isB w p .space && isB w c .space
  | .region s f => isB w s .space && isB w f .fields
  | .destroy h => w.mine.contains h && (w.heap.kind h).deps.all (aliveB w)
  | .print p => isPartB w p
  | .vec i p => freshB w i && isPartB w p
  | .vecOn i r p => freshB w i && (isRegionB w r && isPartB w p)
  | .coo i r => freshB w i && isRegionB w r
  | .csr i r q => freshB w i && (isRegionB w r && isRegionB w q)
  | .laplacianCOO i l => freshB w i && isB w l .space
  | .laplacianCSR i l => freshB w i && isB w l .space
  | .copy i _ => freshB w i
  | .plan i => freshB w i
  | .addSol _ _ _ => true
  | .addRhs _ _ _ => true
  | .allocate _ _ _ => true
  | .addMat _ _ _ _ => true
  | .drop i => w.objs.all fun x => !usesB i x.2

theorem aliveB_sound {w : World} {h : Nat} (e : aliveB w h = true) : w.alive h := by simpa [aliveB, World.alive] using e

theorem isPartB_sound {w : World} {h : Nat} (e : isPartB w h = true) : ∃ s c, w.usable h (.part s c) := by
  unfold isPartB at e
  split at e
  · rename_i s c hk
    simp only [Bool.and_eq_true] at e
    refine ⟨s, c, aliveB_sound e.1.1, hk, fun d hd => ?_⟩
    simp only [Kind.deps, List.mem_cons, List.not_mem_nil, or_false] at hd
    rcases hd with rfl | rfl
    · exact aliveB_sound e.1.2
    · exact aliveB_sound e.2
  · cases e

theorem isRegionB_sound {w : World} {h : Nat} (e : isRegionB w h = true) : ∃ s c, w.usable h (.region s c) := by
  unfold isRegionB at e
  split at e
  · rename_i s c hk
    simp only [Bool.and_eq_true] at e
    refine ⟨s, c, aliveB_sound e.1.1, hk, fun d hd => ?_⟩
    simp only [Kind.deps, List.mem_cons, List.not_mem_nil, or_false] at hd
    rcases hd with rfl | rfl
    · exact aliveB_sound e.1.2
    · exact aliveB_sound e.2
  · cases e

theorem isB_sound {w : World} {h : Nat} {k : Kind} (e : isB w h k = true) : w.usable h k := by
  simp only [isB, Bool.and_eq_true, beq_iff_eq, List.all_eq_true] at e
  exact ⟨aliveB_sound e.1.1, e.1.2, fun d hd => aliveB_sound (e.2 d hd)⟩

theorem freshB_sound {w : World} {i : Nat} (e : freshB w i = true) : w.fresh i := by
  simpa [freshB, World.fresh] using e

theorem legalB_sound {w : World} {a : Action} (e : legalB w a = true) : Legal w a := by
  cases a <;> simp only [legalB, Bool.and_eq_true] at e <;> simp only [Legal]
  case part => exact ⟨isB_sound e.1, isB_sound e.2⟩
  case region => exact ⟨isB_sound e.1, isB_sound e.2⟩
  case destroy =>
    refine ⟨by simpa using e.1, fun d hd => aliveB_sound (List.all_eq_true.1 e.2 d hd)⟩
  case print => exact isPartB_sound e
  case vec => exact ⟨freshB_sound e.1, isPartB_sound e.2⟩
  case vecOn => exact ⟨freshB_sound e.1, isRegionB_sound e.2.1, isPartB_sound e.2.2⟩
  case coo => exact ⟨freshB_sound e.1, isRegionB_sound e.2⟩
  case csr => exact ⟨freshB_sound e.1, isRegionB_sound e.2.1, isRegionB_sound e.2.2⟩
  case laplacianCOO => exact ⟨freshB_sound e.1, isB_sound e.2⟩
  case laplacianCSR => exact ⟨freshB_sound e.1, isB_sound e.2⟩
  case copy => exact freshB_sound e
  case plan => exact freshB_sound e
  case drop i =>
    intro x hx p hp r hr hn
    have := List.all_eq_true.1 e x hx
    rw [hp] at this
    simp only [usesB, Bool.not_eq_true', List.any_eq_false, beq_iff_eq] at this
    exact this r hr hn

def legalRunB (good : Nat → Bool) : World → List Action → Bool
  | _, [] => true
  | w, a :: l => legalB w a && match w.step good a with
    | .ok w' => legalRunB good w' l
    | .error _ => true

theorem legalRunB_sound (good : Nat → Bool) : ∀ (l : List Action) (w : World), legalRunB good w l = true → LegalRun good w l
  | [], _, _ => trivial
  | a :: l, w, e => by
    simp only [legalRunB, Bool.and_eq_true] at e
    refine ⟨legalB_sound e.1, fun w' hs => legalRunB_sound good l w' ?_⟩
    have := e.2
    rw [hs] at this
    exact this

/-! ## The program of `Test06CGSolveCSRNegativeLaplacian1D.cpp` -/

/-- All partitions in the examples are disjoint and complete. -/
def exGood (_ : Nat) : Bool := true

/-- Colour space 0; matrix 0 (handles 1 to 8; row-pointer index space 5); partition 9 of that space; vectors 1 and 2; planner 3;
copies as buffers move; solver workspace; then the client gives up its partition and colour space and the objects
are destroyed in reverse order. -/
def exTest06 : List Action :=
  [.space, .laplacianCSR 0 0, .part 5 0, .vec 1 9, .vec 2 9, .plan 3, .addSol true 3 1, .addRhs false 3 2,
   .addMat 3 0 0 0, .allocate true 3 2, .destroy 9, .destroy 0, .drop 3, .drop 2, .drop 1, .drop 0]

/-- The number of live handles after a program, and whether the client holds anything. -/
def summary (r : Except Err World) : Option (Nat × Bool) :=
  match r with
  | .ok w => some (((List.range w.heap.next).filter fun h => decide (0 < w.heap.count h)).length, w.mine.isEmpty && w.objs.isEmpty)
  | .error _ => none

/-- The hypotheses of `c41_safe`, `c41_counts` and `c41_no_leak` hold of this program, which runs to its end; before the
objects are destroyed there are live handles, at the end there are none. -/
example : LegalRun exGood World.empty exTest06 ∧ summary (World.empty.steps exGood exTest06) = some (0, true) ∧
    summary (World.empty.steps exGood (exTest06.take 12)) = some (16, false) := by
  refine ⟨legalRunB_sound _ _ _ ?_, ?_, ?_⟩ <;> decide +kernel

/-- The outcome of a program. -/
def outcome (r : Except Err World) : Option Err :=
  match r with
  | .ok _ => none
  | .error e => some e

/-- The last condition of `Legal` is needed: if the matrix goes before the planner that uses it, the planner's destructor uses
a released index space. -/
theorem c41_needs_matrix : outcome (World.empty.steps exGood (exTest06.take 12 ++ [.drop 0, .drop 3])) = some .resource := by
  decide +kernel

/-- Destroying somebody else's reference is not allowed either: a vector would then be left with a released partition. -/
theorem c41_needs_mine :
    outcome (World.empty.steps exGood [.space, .space, .part 0 1, .vec 7 2, .destroy 2, .destroy 2, .drop 7]) = some .resource := by
  decide +kernel

/-! ## C47 -/

/-- `print_index_partition` gives back everything it creates. -/
theorem c47_print_partial (w : World) (v : Inv w) (p s c : Nat) (u : w.usable p (.part s c)) :
    Ok w.heap (printPart p) fun _ hp => ∀ h, hp.count h = w.heap.count h := by
  obtain ⟨ip, mp, md⟩ := v.is u
  exact (Ok.printPart v.own ip mp (md s (by simp [Kind.deps])) (md c (by simp [Kind.deps]))).mono fun _ _ _ o h => by
    rw [o.count, v.own.count]

/-- The Laplacian builders keep nothing but the matrix: after its destruction all counts are as before the call. -/
theorem c47_laplacian_partial (w : World) (v : Inv w) (l : Nat) (u : w.usable l .space) :
    (Ok w.heap (do let m ← laplacianCOO l; matDrop m) fun _ hp => ∀ h, hp.count h = w.heap.count h) ∧
    (Ok w.heap (do let m ← laplacianCSR l; matDrop m) fun _ hp => ∀ h, hp.count h = w.heap.count h) := by
  obtain ⟨i, m, -⟩ := v.is u
  constructor
  · refine Ok.bind (Ok.laplacianCOO v.own m i) fun m hp e o => ?_
    exact (Ok.matDrop o.1 o.2).mono fun _ _ _ o h => by rw [o.count, v.own.count]
  · refine Ok.bind (Ok.laplacianCSR v.own m i) fun m hp e o => ?_
    exact (Ok.matDrop o.1 o.2).mono fun _ _ _ o h => by rw [o.count, v.own.count]

/-- Violation: in every state the COO stencil builder leaves five references behind, even after its matrix is destroyed. -/
theorem c47_stencil_coo_violated (w : World) (v : Inv w) :
    Ok w.heap (do let m ← stencilCOO; matDrop m) fun _ hp =>
      ∃ l : List Nat, l.length = 5 ∧ ∀ h, hp.count h = w.heap.count h + l.count h := by
  refine Ok.bind (Q := fun m hp => ∃ l : List Nat, l.length = 5 ∧ Own hp (m.own hp ++ (l ++ (w.mine ++ ownAll w.heap w.objs))) ∧ MatOK hp m)
    ?_ fun m hp e o => ?_
  · refine Ok.bind (Ok.createSpace v.own) fun ks _ e1 o1 => ?_
    refine Ok.bind (Ok.createFields o1.1) fun fs _ e2 o2 => ?_
    refine Ok.bind (Ok.createRegion (s := ks) (f := fs) o2.1 (by simp) (by simp) (o1.2.ext e2) o2.2) fun kr _ e3 o3 => ?_
    refine Ok.bind (Ok.createSpace o3.1) fun cs _ e4 o4 => ?_
    refine Ok.bind (Ok.createPart (p := ks) (c := cs) o4.1 (by simp) (by simp) (o1.2.ext (e2.trans (e3.trans e4))) o4.2)
      fun kp _ e5 o5 => ?_
    refine Ok.bind (Ok.needAll o5.1 (by simp)) fun _ _ _ e => ?_
    subst e
    have ir := o3.2.ext (e4.trans e5)
    refine (Ok.matNew (m := ⟨kr, none⟩) o5.1 (by intro r hr; simp at hr; subst hr; exact ⟨_, _, ir⟩)
      (by simp [MatO.own, regionOwn, ir.2, Kind.deps])).mono fun m hp e o => ⟨[kp, cs, kr, fs, ks], rfl, o.1, o.2.1⟩
  · obtain ⟨l, hl, o, k⟩ := o
    refine (Ok.matDrop o k).mono fun _ _ _ o => ⟨l, hl, fun h => ?_⟩
    rw [o.count, v.own.count]
    simp only [List.count_append]
    omega

/-- Violation: the CSR stencil builders leave nine references behind. -/
theorem c47_stencil_csr_violated (w : World) (v : Inv w) :
    Ok w.heap (do let m ← stencilCSR; matDrop m) fun _ hp =>
      ∃ l : List Nat, l.length = 9 ∧ ∀ h, hp.count h = w.heap.count h + l.count h := by
  refine Ok.bind (Q := fun m hp => ∃ l : List Nat, l.length = 9 ∧ Own hp (m.own hp ++ (l ++ (w.mine ++ ownAll w.heap w.objs))) ∧ MatOK hp m)
    ?_ fun m hp e o => ?_
  · refine Ok.bind (Ok.createSpace v.own) fun ks _ e1 o1 => ?_
    refine Ok.bind (Ok.createSpace o1.1) fun rs _ e2 o2 => ?_
    refine Ok.bind (Ok.createFields o2.1) fun kf _ e3 o3 => ?_
    refine Ok.bind (Ok.createFields o3.1) fun rf _ e4 o4 => ?_
    refine Ok.bind (Ok.createRegion (s := ks) (f := kf) o4.1 (by simp) (by simp) (o1.2.ext (e2.trans (e3.trans e4))) (o3.2.ext e4))
      fun kr _ e5 o5 => ?_
    refine Ok.bind (Ok.createRegion (s := rs) (f := rf) o5.1 (by simp) (by simp) (o2.2.ext (e3.trans (e4.trans e5))) (o4.2.ext e5))
      fun rr _ e6 o6 => ?_
    refine Ok.bind (Ok.createSpace o6.1) fun cs _ e7 o7 => ?_
    have e37 := e3.trans (e4.trans (e5.trans (e6.trans e7)))
    refine Ok.bind (Ok.createPart (p := ks) (c := cs) o7.1 (by simp) (by simp) (o1.2.ext (e2.trans e37)) o7.2)
      fun kp _ e8 o8 => ?_
    refine Ok.bind (Ok.createPart (p := rs) (c := cs) o8.1 (by simp) (by simp) (o2.2.ext (e37.trans e8)) (o7.2.ext e8))
      fun rp _ e9 o9 => ?_
    refine Ok.bind (Ok.needAll o9.1 (by simp)) fun _ _ _ e => ?_
    subst e
    have ik := o5.2.ext (e6.trans (e7.trans (e8.trans e9)))
    have ir := o6.2.ext (e7.trans (e8.trans e9))
    refine (Ok.matNew (m := ⟨kr, some rr⟩) o9.1
      (by intro r hr; simp at hr; rcases hr with rfl | rfl; exact ⟨_, _, ik⟩; exact ⟨_, _, ir⟩)
      (by simp [MatO.own, regionOwn, ik.2, ir.2, Kind.deps])).mono fun m hp e o =>
        ⟨[rp, kp, cs, rr, kr, rf, kf, rs, ks], rfl, o.1, o.2.1⟩
  · obtain ⟨l, hl, o, k⟩ := o
    refine (Ok.matDrop o k).mono fun _ _ _ o => ⟨l, hl, fun h => ?_⟩
    rw [o.count, v.own.count]
    simp only [List.count_append]
    omega

/-- Violation: `domain_partition_from_range_partition` leaves the kernel partition behind: after the caller has destroyed the
result, one reference more exists than before. -/
theorem c47_derive_violated (w : World) (v : Inv w) (i : Nat) (m : MatO) (hm : w.get i = some (.mat m)) (d p s c : Nat)
    (u : w.usable p (.part s c)) (ud : w.usable d .space) :
    Ok w.heap (do let q ← derivePart m d p; destroy q) fun _ hp =>
      ∃ x : Nat, ∀ h, hp.count h = w.heap.count h + [x].count h := by
  obtain ⟨ip, mp, md⟩ := v.is u
  obtain ⟨id, md', -⟩ := v.is ud
  have km : MatOK w.heap m := v.ok _ (get_mem hm)
  have mc := md c (by simp [Kind.deps])
  refine Ok.bind (Q := fun q hp => ∃ x, Own hp (q :: x :: (w.mine ++ ownAll w.heap w.objs)) ∧ Is hp q (.part d c)) ?_ fun q hp e o => ?_
  · refine Ok.bind (Ok.kernelPart v.own km (Inv.owned hm) ip mp mc) fun x hp1 e1 o1 => ?_
    obtain ⟨o1, ks, kf, ik, ix⟩ := o1
    exact (Ok.ghostPart (m := m) (d := d) o1 (List.mem_cons_of_mem _ (Inv.owned hm _ (by simp [Obj.own, MatO.own, regionOwn])))
      (List.mem_cons_of_mem _ md') (id.ext e1) ix (by simp) (List.mem_cons_of_mem _ mc)).mono fun q hp e o => ⟨x, o⟩
  · obtain ⟨x, o, iq⟩ := o
    refine (Ok.destroy (F := x :: (w.mine ++ ownAll w.heap w.objs)) o iq (fun _ => rfl) ?_).mono fun _ _ _ o => ⟨x, fun h => ?_⟩
    · intro y hy
      simp only [Kind.deps, List.mem_cons, List.not_mem_nil, or_false] at hy
      rcases hy with rfl | rfl
      · exact List.mem_cons_of_mem _ (List.mem_cons_of_mem _ md')
      · exact List.mem_cons_of_mem _ (List.mem_cons_of_mem _ mc)
    · rw [o.count, v.own.count]
      simp only [List.count_cons, List.count_nil]
      omega

/-- Run a library call in the world reached by a program. -/
def after (l : List Action) (m : World → R Unit) : Option Err :=
  match World.empty.steps exGood l with
  | .ok w => match m w w.heap with
    | .ok _ => none
    | .error e => some e
  | .error e => some e

/-- Copy a planner and let both go. -/
def copyAndDrop (i : Nat) (w : World) : R Unit :=
  match w.get i with
  | some (.plan p) => do
    let q ← planCopy p
    planDrop q
    planDrop p
  | _ => pure ()

/-- Violation: copying a planner (which its class permits) and destroying both copies releases its resources twice.  The first planner here has a
workspace of two vectors; the second has none, and its copies take away references that the client's vectors hold. -/
theorem c47_planner_copy_violated :
    LegalRun exGood World.empty (exTest06.take 10) ∧ after (exTest06.take 10) (copyAndDrop 3) = some .resource ∧
    LegalRun exGood World.empty (exTest06.take 8 ++ [.destroy 9]) ∧
    after (exTest06.take 8 ++ [.destroy 9]) (fun w => do
      copyAndDrop 3 w
      each (fun x => match x.2 with | .vec v => vecDrop v | _ => pure ()) w.objs) = some .resource := by
  refine ⟨legalRunB_sound _ _ _ ?_, ?_, legalRunB_sound _ _ _ ?_, ?_⟩ <;> decide +kernel

/-- The hypotheses of the theorems above hold after a concrete program: `Inv` holds after every legal program. -/
theorem c47_reachable (good : Nat → Bool) (l : List Action) (h : LegalRun good World.empty l) (w : World)
    (e : World.empty.steps good l = .ok w) : Inv w := by
  have v := steps_good good l Inv.empty h
  rw [e] at v
  exact v

end Verif.Ownership
