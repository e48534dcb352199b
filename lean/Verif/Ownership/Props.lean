import Verif.Ownership.Spec
import Verif.Ownership.Builders
/-! # C41, C47: reference counts -/
namespace Verif.Ownership

/-! ## Invariant -/

def ObjOK (hp : Heap) (objs : List (Nat × Obj)) : Obj → Prop
  | .vec v => VecOK hp v
  | .mat m => MatOK hp m
  | .plan p => PlanOK hp p ∧ ∀ r ∈ p.mats, ∃ m ks kf c, (r.mat, Obj.mat m) ∈ objs ∧ Is hp m.kernel (.region ks kf) ∧
      Is hp r.kernel (.part ks c)

theorem ObjOK.ext {a b : Heap} {objs objs' : List (Nat × Obj)} {x : Obj} (k : ObjOK a objs x) (e : Ext a b)
    (sub : ∀ i m, (i, Obj.mat m) ∈ objs → (∃ p, x = .plan p ∧ ∃ r ∈ p.mats, r.mat = i) → (i, Obj.mat m) ∈ objs') : ObjOK b objs' x := by
  cases x with
  | vec v => exact VecOK.ext k e
  | mat m => exact MatOK.ext k e
  | plan p =>
    refine ⟨k.1.ext e, fun r hr => ?_⟩
    obtain ⟨m, ks, kf, c, h, i, j⟩ := k.2 r hr
    exact ⟨m, ks, kf, c, sub _ _ h ⟨p, rfl, r, hr, rfl⟩, i.ext e, j.ext e⟩

theorem ObjOK.own {a b : Heap} {objs : List (Nat × Obj)} {x : Obj} (k : ObjOK a objs x) (e : Ext a b) : x.own b = x.own a := by
  cases x with
  | vec v => rfl
  | mat m => exact MatOK.own k e
  | plan p => rfl

def ownAll (hp : Heap) (objs : List (Nat × Obj)) : List Nat := objs.flatMap fun x => x.2.own hp

theorem ownAll_ext {a b : Heap} {objs objs' : List (Nat × Obj)} (k : ∀ x ∈ objs, ObjOK a objs' x.2) (e : Ext a b) :
    ownAll b objs = ownAll a objs := by
  unfold ownAll
  rw [List.flatMap_def, List.flatMap_def, List.map_congr_left fun x hx => (k x hx).own e]

structure Inv (w : World) : Prop where
  own : Own w.heap (w.mine ++ ownAll w.heap w.objs)
  ok : ∀ x ∈ w.objs, ObjOK w.heap w.objs x.2
  names : (w.objs.map (·.1)).Nodup

theorem Inv.empty : Inv World.empty :=
  ⟨⟨fun _ => rfl, by simp [World.empty, ownAll], fun h _ i => absurd i.1 (Nat.not_lt_zero h)⟩, by simp [World.empty],
    by simp [World.empty]⟩

theorem Inv.holders {w : World} (i : Inv w) (h : Nat) : w.heap.count h = w.holders h := by
  rw [i.own.count]
  simp [World.holders, ownAll, List.count_append, List.count_flatMap, Function.comp_def]

theorem Inv.mem {w : World} (i : Inv w) {h : Nat} (a : w.alive h) : h ∈ w.mine ++ ownAll w.heap w.objs := i.own.mem a

theorem Inv.is {w : World} (i : Inv w) {h : Nat} {k : Kind} (a : w.usable h k) :
    Is w.heap h k ∧ h ∈ w.mine ++ ownAll w.heap w.objs ∧ ∀ d ∈ k.deps, d ∈ w.mine ++ ownAll w.heap w.objs :=
  ⟨⟨i.own.bound h (i.mem a.1), a.2.1⟩, i.mem a.1, fun d hd => i.mem (a.2.2 d hd)⟩

/-- The outcome of a step. -/
def Good (r : Except Err World) : Prop :=
  match r with
  | .ok w => Inv w
  | .error e => e = .assertion

theorem World.run_good {α : Type} {w : World} {m : R α} {f : α → List Nat × List (Nat × Obj)} {Q : α → Heap → Prop}
    (h : Ok w.heap m Q) (g : ∀ a hp, Ext w.heap hp → Q a hp → Inv ⟨hp, (f a).1, (f a).2⟩) : Good (w.run m f) := by
  unfold Ok at h
  unfold World.run Good
  revert h
  cases m w.heap with
  | error e => exact id
  | ok a => exact fun h => g a.1 a.2 h.1 h.2

theorem get_mem {w : World} {i : Nat} {x : Obj} (h : w.get i = some x) : (i, x) ∈ w.objs := by
  unfold World.get at h
  simp only [Option.map_eq_some_iff] at h
  obtain ⟨y, hy, rfl⟩ := h
  have h1 := List.mem_of_find?_eq_some hy
  have h2 := List.find?_some hy
  simp only [beq_iff_eq] at h2
  subst h2
  exact h1

theorem eraseP_perm : ∀ {l : List (Nat × Obj)} {i : Nat} {x : Obj}, (l.map (·.1)).Nodup → (i, x) ∈ l →
    l.Perm ((i, x) :: l.eraseP fun y => y.1 == i)
  | [], _, _, _, h => by simp at h
  | y :: l, i, x, nd, h => by
    by_cases e : y.1 = i
    · have : y = (i, x) := by
        rcases List.mem_cons.1 h with h | h
        · exact h.symm
        · have := (List.nodup_cons.1 nd).1
          exact absurd (List.mem_map.2 ⟨(i, x), h, e.symm⟩) this
      rw [List.eraseP_cons_of_pos (by simp [e]), this]
    · rw [List.eraseP_cons_of_neg (by simp [e])]
      rcases List.mem_cons.1 h with h | h
      · exact absurd (by rw [← h]) e
      · exact ((eraseP_perm (List.nodup_cons.1 nd).2 h).cons y).trans (List.Perm.swap _ _ _)

theorem rest_perm {w : World} {i : Nat} {x : Obj} (v : Inv w) (h : w.get i = some x) : w.objs.Perm ((i, x) :: w.rest i) :=
  eraseP_perm v.names (get_mem h)

theorem ownAll_perm {hp : Heap} {l m : List (Nat × Obj)} (h : l.Perm m) (x : Nat) : (ownAll hp l).count x = (ownAll hp m).count x :=
  (h.flatMap_right _).count_eq x

/-- Adding an object. -/
theorem Inv.add {w : World} (v : Inv w) {i : Nat} (fr : w.fresh i) {hp : Heap} {x : Obj} (e : Ext w.heap hp)
    (o : Own hp (x.own hp ++ (w.mine ++ ownAll w.heap w.objs))) (k : ObjOK hp ((i, x) :: w.objs) x) :
    Inv ⟨hp, w.mine, (i, x) :: w.objs⟩ := by
  refine ⟨?_, ?_, ?_⟩
  · refine o.congr fun y => ?_
    show (w.mine ++ ownAll hp ((i, x) :: w.objs)).count y = _
    have : ownAll hp ((i, x) :: w.objs) = x.own hp ++ ownAll w.heap w.objs := by
      rw [← ownAll_ext v.ok e]; rfl
    rw [this]
    simp only [List.count_append]
    omega
  · intro y hy
    rcases List.mem_cons.1 hy with rfl | hy
    · exact k
    · exact (v.ok y hy).ext e fun i m h _ => List.mem_cons_of_mem _ h
  · refine List.nodup_cons.2 ⟨fun h => ?_, v.names⟩
    obtain ⟨y, hy, hn⟩ := List.mem_map.1 h
    exact fr y hy hn

/-- A planner changes. -/
theorem Inv.change {w : World} (v : Inv w) {i : Nat} {p q : PlanO} (h : w.get i = some (.plan p)) {hp : Heap} (e : Ext w.heap hp)
    (o : Own hp (q.own ++ (w.mine ++ ownAll w.heap (w.rest i)))) (k : PlanOK hp q)
    (km : ∀ r ∈ q.mats, r ∈ p.mats ∨ ∃ m ks kf c, (r.mat, Obj.mat m) ∈ w.objs ∧ Is hp m.kernel (.region ks kf) ∧
      Is hp r.kernel (.part ks c)) :
    Inv ⟨hp, w.mine, (i, .plan q) :: w.rest i⟩ := by
  have pm := rest_perm v h
  have okr : ∀ x ∈ w.rest i, ObjOK w.heap w.objs x.2 := fun x hx => v.ok x (pm.mem_iff.2 (List.mem_cons_of_mem _ hx))
  have move : ∀ j m, (j, Obj.mat m) ∈ w.objs → (j, Obj.mat m) ∈ (i, Obj.plan q) :: w.rest i := by
    intro j m hj
    rcases List.mem_cons.1 (pm.mem_iff.1 hj) with hj | hj
    · injection hj with _ hj
      cases hj
    · exact List.mem_cons_of_mem _ hj
  refine ⟨?_, ?_, ?_⟩
  · refine o.congr fun y => ?_
    show (w.mine ++ ownAll hp ((i, .plan q) :: w.rest i)).count y = _
    have : ownAll hp ((i, .plan q) :: w.rest i) = q.own ++ ownAll w.heap (w.rest i) := by
      rw [← ownAll_ext okr e]; rfl
    rw [this]
    simp only [List.count_append]
    omega
  · intro y hy
    rcases List.mem_cons.1 hy with rfl | hy
    · refine ⟨k, fun r hr => ?_⟩
      rcases km r hr with hr | ⟨m, ks, kf, c, hm, h1, h2⟩
      · obtain ⟨m, ks, kf, c, hm, h1, h2⟩ := (v.ok _ (get_mem h)).2 r hr
        exact ⟨m, ks, kf, c, move _ _ hm, h1.ext e, h2.ext e⟩
      · exact ⟨m, ks, kf, c, move _ _ hm, h1, h2⟩
    · exact (okr y hy).ext e fun j m hj _ => move j m hj
  · have := (pm.map (·.1)).nodup_iff.1 v.names
    simpa using this

/-- An object goes. -/
theorem Inv.gone {w : World} (v : Inv w) {i : Nat} {x : Obj} (h : w.get i = some x)
    (free : ∀ y ∈ w.objs, ∀ p, y.2 = .plan p → ∀ r ∈ p.mats, r.mat ≠ i) {hp : Heap} (e : Ext w.heap hp)
    (o : Own hp (w.mine ++ ownAll w.heap (w.rest i))) : Inv ⟨hp, w.mine, w.rest i⟩ := by
  have pm := rest_perm v h
  have okr : ∀ x ∈ w.rest i, ObjOK w.heap w.objs x.2 := fun x hx => v.ok x (pm.mem_iff.2 (List.mem_cons_of_mem _ hx))
  refine ⟨?_, ?_, ?_⟩
  · show Own hp (w.mine ++ ownAll hp (w.rest i))
    rw [ownAll_ext okr e]
    exact o
  · intro y hy
    refine (okr y hy).ext e fun j m hj ⟨p, hp, r, hr, hn⟩ => ?_
    rcases List.mem_cons.1 (pm.mem_iff.1 hj) with hj | hj
    · injection hj with hj _
      exact absurd (hn.trans hj) (free y (pm.mem_iff.2 (List.mem_cons_of_mem _ hy)) p hp r hr)
    · exact hj
  · have := (pm.map (·.1)).nodup_iff.1 v.names
    simp only [List.map_cons, List.nodup_cons] at this
    exact this.2

theorem Inv.focus {w : World} (v : Inv w) {i : Nat} {x : Obj} (h : w.get i = some x) :
    Own w.heap (x.own w.heap ++ (w.mine ++ ownAll w.heap (w.rest i))) := by
  refine v.own.congr fun y => ?_
  have := ownAll_perm (hp := w.heap) (rest_perm v h) y
  simp only [ownAll, List.flatMap_cons, List.count_append] at this ⊢
  omega

theorem Inv.owned {w : World} {i : Nat} {x : Obj} (h : w.get i = some x) :
    ∀ y ∈ x.own w.heap, y ∈ w.mine ++ ownAll w.heap w.objs := fun _ hy =>
  List.mem_append_right _ (List.mem_flatMap.2 ⟨(i, x), get_mem h, hy⟩)

/-- Another object's references are not the planner's. -/
theorem Inv.owned_rest {w : World} (v : Inv w) {i j : Nat} {p : PlanO} {x : Obj} (h : w.get i = some (.plan p)) (g : w.get j = some x)
    (n : ∀ q, x ≠ .plan q) : ∀ y ∈ x.own w.heap, y ∈ w.mine ++ ownAll w.heap (w.rest i) := fun y hy => by
  refine List.mem_append_right _ (List.mem_flatMap.2 ⟨(j, x), ?_, hy⟩)
  rcases List.mem_cons.1 ((rest_perm v h).mem_iff.1 (get_mem g)) with e | e
  · injection e with _ e
    exact absurd e (n p)
  · exact e

theorem Inv.mine {w : World} (v : Inv w) {hp : Heap} {m : List Nat} (e : Ext w.heap hp)
    (o : Own hp (m ++ ownAll w.heap w.objs)) : Inv ⟨hp, m, w.objs⟩ := by
  refine ⟨?_, fun y hy => (v.ok y hy).ext e fun _ _ h _ => h, v.names⟩
  show Own hp (m ++ ownAll hp w.objs)
  rw [ownAll_ext v.ok e]
  exact o

theorem step_good (good : Nat → Bool) {w : World} (v : Inv w) {a : Action} (l : Legal w a) : Good (w.step good a) := by
  cases a with
  | space => exact World.run_good (f := fun h => (h :: w.mine, w.objs)) (Ok.createSpace v.own) fun a hp e o => v.mine (m := a :: w.mine) e (by simpa using o.1)
  | fields => exact World.run_good (f := fun h => (h :: w.mine, w.objs)) (Ok.createFields v.own) fun a hp e o => v.mine (m := a :: w.mine) e (by simpa using o.1)
  | part p c =>
    obtain ⟨ip, mp, -⟩ := v.is l.1
    obtain ⟨ic, mc, -⟩ := v.is l.2
    exact World.run_good (Ok.createPart v.own mp mc ip ic) fun a hp e o => v.mine (m := a :: w.mine) e (by simpa using o.1)
  | region s f =>
    obtain ⟨ip, mp, -⟩ := v.is l.1
    obtain ⟨ic, mc, -⟩ := v.is l.2
    exact World.run_good (Ok.createRegion v.own mp mc ip ic) fun a hp e o => v.mine (m := a :: w.mine) e (by simpa using o.1)
  | destroy h =>
    have hm : h ∈ w.mine ++ ownAll w.heap w.objs := List.mem_append_left _ l.1
    have ec : ∀ x, (w.mine ++ ownAll w.heap w.objs).count x = (h :: (w.mine.erase h ++ ownAll w.heap w.objs)).count x := by
      intro x
      have := (List.perm_cons_erase l.1).count_eq x
      simp only [List.count_append, List.count_cons] at this ⊢
      omega
    refine World.run_good (Ok.destroy v.own ⟨v.own.bound h hm, rfl⟩ ec fun x hx => ?_) fun _ hp e o => v.mine e o
    have := v.mem (l.2 x hx)
    have := List.count_pos_iff.2 this
    rw [ec] at this
    exact List.count_pos_iff.1 this
  | print p =>
    obtain ⟨s, c, u⟩ := l
    obtain ⟨ip, mp, md⟩ := v.is u
    exact World.run_good (Ok.printPart v.own ip mp (md s (by simp [Kind.deps])) (md c (by simp [Kind.deps])))
      fun _ hp e o => v.mine e o
  | vec i p =>
    obtain ⟨fr, s, c, u⟩ := l
    obtain ⟨ip, mp, md⟩ := v.is u
    exact World.run_good (Ok.vecNew v.own ip mp (md s (by simp [Kind.deps])) (md c (by simp [Kind.deps])))
      fun _ hp e o => v.add fr e o.1 o.2.1
  | vecOn i r p =>
    obtain ⟨fr, ⟨s', f, u'⟩, s, c, u⟩ := l
    obtain ⟨ip, mp, md⟩ := v.is u
    obtain ⟨ir, mr, mrd⟩ := v.is u'
    exact World.run_good (Ok.vecNewOn v.own ip ir mp (md s (by simp [Kind.deps])) (md c (by simp [Kind.deps])) mr
      (mrd f (by simp [Kind.deps]))) fun _ hp e o => v.add fr e o.1 o.2.1
  | coo i r =>
    obtain ⟨fr, s, f, u⟩ := l
    obtain ⟨ir, mr, md⟩ := v.is u
    refine World.run_good (Ok.matNew (m := ⟨r, none⟩) v.own (fun q hq => ?_) fun h hh => ?_) fun _ hp e o => v.add fr e o.1 o.2.1
    · simp at hq; subst hq; exact ⟨s, f, ir⟩
    · simp only [MatO.own, Option.toList_none, List.flatMap_cons, List.flatMap_nil, List.append_nil, regionOwn, ir.2] at hh
      rcases List.mem_cons.1 hh with rfl | hh
      · exact mr
      · exact md h hh
  | csr i r q =>
    obtain ⟨fr, ⟨s, f, u⟩, s', f', u'⟩ := l
    obtain ⟨ir, mr, md⟩ := v.is u
    obtain ⟨iq, mq, mqd⟩ := v.is u'
    refine World.run_good (Ok.matNew (m := ⟨r, some q⟩) v.own (fun t ht => ?_) fun h hh => ?_) fun _ hp e o => v.add fr e o.1 o.2.1
    · simp at ht; rcases ht with rfl | rfl
      · exact ⟨s, f, ir⟩
      · exact ⟨s', f', iq⟩
    · simp only [MatO.own, Option.toList_some, List.flatMap_cons, List.flatMap_nil, List.append_nil, regionOwn, ir.2, iq.2,
        List.mem_append] at hh
      rcases hh with hh | hh
      · rcases List.mem_cons.1 hh with rfl | hh
        · exact mr
        · exact md h hh
      · rcases List.mem_cons.1 hh with rfl | hh
        · exact mq
        · exact mqd h hh
  | laplacianCOO i c =>
    obtain ⟨fr, u⟩ := l
    obtain ⟨ic, mc, -⟩ := v.is u
    exact World.run_good (Ok.laplacianCOO v.own mc ic) fun _ hp e o => v.add fr e o.1 o.2
  | laplacianCSR i c =>
    obtain ⟨fr, u⟩ := l
    obtain ⟨ic, mc, -⟩ := v.is u
    exact World.run_good (Ok.laplacianCSR v.own mc ic) fun _ hp e o => v.add fr e o.1 o.2
  | copy i j =>
    show Good (match w.get j with | some (.vec v) => _ | some (.mat m) => _ | _ => _)
    cases h : w.get j with
    | none => rfl
    | some x =>
      cases x with
      | vec u => exact World.run_good (Ok.vecCopy v.own (v.ok _ (get_mem h)) (Inv.owned h)) fun _ hp e o => v.add l e o.1 o.2.1
      | mat m => exact World.run_good (Ok.matNew v.own (v.ok _ (get_mem h)) (Inv.owned h)) fun _ hp e o => v.add l e o.1 o.2.1
      | plan p => rfl
  | plan i =>
    refine v.add l (Ext.refl _) (x := .plan planEmpty) ?_ ⟨PlanOK.empty _, by simp [planEmpty]⟩
    simpa [Obj.own, PlanO.own, planEmpty] using v.own
  | addSol b i j =>
    show Good (match w.get i, w.get j with | some (.plan p), some (.vec v) => _ | _, _ => _)
    cases h : w.get i with
    | none => rfl
    | some x =>
      cases g : w.get j with
      | none => cases x <;> rfl
      | some y =>
        cases x with
        | vec _ => rfl
        | mat _ => rfl
        | plan p =>
          cases y with
          | mat _ => rfl
          | plan _ => rfl
          | vec u =>
            exact World.run_good (Ok.planAddSol (v.focus h) (v.ok _ (get_mem h)).1 (v.ok _ (get_mem g)) (v.owned_rest h g (by simp)))
              fun q hp e o => v.change h e o.1 o.2.1 fun r hr => Or.inl (by rw [← o.2.2]; exact hr)
  | addRhs b i j =>
    show Good (match w.get i, w.get j with | some (.plan p), some (.vec v) => _ | _, _ => _)
    cases h : w.get i with
    | none => rfl
    | some x =>
      cases g : w.get j with
      | none => cases x <;> rfl
      | some y =>
        cases x with
        | vec _ => rfl
        | mat _ => rfl
        | plan p =>
          cases y with
          | mat _ => rfl
          | plan _ => rfl
          | vec u =>
            exact World.run_good (Ok.planAddRhs (v.focus h) (v.ok _ (get_mem h)).1 (v.ok _ (get_mem g)) (v.owned_rest h g (by simp)))
              fun q hp e o => v.change h e o.1 o.2.1 fun r hr => Or.inl (by rw [← o.2.2]; exact hr)
  | allocate b i n =>
    show Good (match w.get i with | some (.plan p) => _ | _ => _)
    cases h : w.get i with
    | none => rfl
    | some x =>
      cases x with
      | vec _ => rfl
      | mat _ => rfl
      | plan p =>
        exact World.run_good (Ok.planAllocate (v.focus h) (v.ok _ (get_mem h)).1)
          fun q hp e o => v.change h e o.1 o.2.1 fun r hr => Or.inl (by rw [← o.2.2]; exact hr)
  | addMat i j d g' =>
    show Good (match w.get i, w.get j with | some (.plan p), some (.mat v) => _ | _, _ => _)
    cases h : w.get i with
    | none => rfl
    | some x =>
      cases g : w.get j with
      | none => cases x <;> rfl
      | some y =>
        cases x with
        | vec _ => rfl
        | mat _ => rfl
        | plan p =>
          cases y with
          | vec _ => rfl
          | plan _ => rfl
          | mat m =>
            refine World.run_good (Ok.planAddMat (v.focus h) (v.ok _ (get_mem h)).1 (v.ok _ (get_mem g)) (v.owned_rest h g (by simp)))
              fun q hp e o => v.change h e o.1 o.2.1 fun r hr => ?_
            obtain ⟨-, -, r', hq, hn, ks, kf, c, i1, i2⟩ := o
            rw [hq, List.mem_append, List.mem_singleton] at hr
            rcases hr with hr | rfl
            · exact Or.inl hr
            · exact Or.inr ⟨m, ks, kf, c, by rw [hn]; exact get_mem g, i1, i2⟩
  | drop i =>
    show Good (match w.get i with | some (.vec v) => _ | some (.mat m) => _ | some (.plan p) => _ | none => _)
    cases h : w.get i with
    | none => rfl
    | some x =>
      cases x with
      | vec u => exact World.run_good (Ok.vecDrop (v.focus h) (v.ok _ (get_mem h))) fun _ hp e o => v.gone h l e o
      | mat m => exact World.run_good (Ok.matDrop (v.focus h) (v.ok _ (get_mem h))) fun _ hp e o => v.gone h l e o
      | plan p =>
        refine World.run_good (Ok.planDrop (v.focus h) (v.ok _ (get_mem h)).1 fun r hr => ?_) fun _ hp e o => v.gone h l e o
        obtain ⟨m, ks, kf, c, hm, i1, i2⟩ := (v.ok _ (get_mem h)).2 r hr
        refine ⟨ks, c, i2, List.mem_append_right _ (List.mem_flatMap.2 ⟨(r.mat, .mat m), ?_, ?_⟩)⟩
        · rcases List.mem_cons.1 ((rest_perm v h).mem_iff.1 hm) with e | e
          · injection e with _ e
            cases e
          · exact e
        · simp [Obj.own, MatO.own, regionOwn, i1.2, Kind.deps]

theorem steps_good (good : Nat → Bool) : ∀ (l : List Action) {w : World}, Inv w → LegalRun good w l → Good (w.steps good l)
  | [], _, v, _ => v
  | a :: l, w, v, h => by
    have := step_good good v h.1
    unfold World.steps
    revert this
    cases hs : w.step good a with
    | error e => exact id
    | ok w' => exact fun v' => steps_good good l v' (h.2 w' hs)

/-! ## C41 -/

/-- No legal client program, whatever it does and in whatever order, makes the library use a released resource. -/
theorem c41_safe (good : Nat → Bool) (l : List Action) (h : LegalRun good World.empty l) :
    World.empty.steps good l ≠ .error .resource := by
  have := steps_good good l Inv.empty h
  intro e
  rw [e] at this
  cases this

/-- Wherever a legal program has got to: a handle's reference count is the number of references the client and its objects hold,
so it is alive exactly as long as somebody holds it. -/
theorem c41_counts (good : Nat → Bool) (l : List Action) (h : LegalRun good World.empty l) (w : World)
    (e : World.empty.steps good l = .ok w) :
    (∀ x, w.heap.count x = w.holders x) ∧
    ∀ x, w.alive x ↔ x ∈ w.mine ∨ ∃ o ∈ w.objs, x ∈ o.2.own w.heap := by
  have v := steps_good good l Inv.empty h
  rw [e] at v
  have v : Inv w := v
  refine ⟨v.holders, fun x => ⟨fun a => ?_, fun a => v.own.pos ?_⟩⟩
  · have := v.mem a
    simpa [ownAll, List.mem_flatMap] using this
  · simpa [ownAll, List.mem_flatMap] using a

/-- Nothing is leaked: when the client has given back its own references and its objects are gone, every resource ever created
has been released. -/
theorem c41_no_leak (good : Nat → Bool) (l : List Action) (h : LegalRun good World.empty l) (w : World)
    (e : World.empty.steps good l = .ok w) (m : w.mine = []) (o : w.objs = []) : ∀ x, ¬ w.alive x := by
  intro x a
  have := ((c41_counts good l h w e).2 x).1 a
  simp [m, o] at this

end Verif.Ownership
