import Verif.Ownership.Model
/-! # Program rules for the reference-count model -/
namespace Verif.Ownership

/-- The handle exists and is of kind `k`. -/
def Is (hp : Heap) (h : Nat) (k : Kind) : Prop := h < hp.next ∧ hp.kind h = k

/-- The table describes well-typed handles. -/
def Typed (hp : Heap) : Prop := ∀ h k, Is hp h k →
  match k with
  | .part p c => Is hp p .space ∧ Is hp c .space
  | .region s f => Is hp s .space ∧ Is hp f .fields
  | _ => True

/-- The references counted in the table are those in `L`. -/
structure Own (hp : Heap) (L : List Nat) : Prop where
  count : ∀ h, hp.count h = L.count h
  bound : ∀ h ∈ L, h < hp.next
  typed : Typed hp

/-- Later tables: handles keep their kinds. -/
def Ext (a b : Heap) : Prop := a.next ≤ b.next ∧ ∀ h, h < a.next → b.kind h = a.kind h

theorem Ext.refl (a : Heap) : Ext a a := ⟨Nat.le_refl _, fun _ _ => rfl⟩

theorem Ext.trans {a b c : Heap} (h : Ext a b) (g : Ext b c) : Ext a c :=
  ⟨Nat.le_trans h.1 g.1, fun x hx => (g.2 x (Nat.lt_of_lt_of_le hx h.1)).trans (h.2 x hx)⟩

theorem Is.ext {a b : Heap} {h : Nat} {k : Kind} (i : Is a h k) (e : Ext a b) : Is b h k :=
  ⟨Nat.lt_of_lt_of_le i.1 e.1, (e.2 h i.1).trans i.2⟩

theorem Own.congr {hp : Heap} {L M : List Nat} (o : Own hp L) (h : ∀ x, M.count x = L.count x) : Own hp M where
  count x := by rw [o.count, h]
  bound x hx := o.bound x (by
    have := List.count_pos_iff.2 hx
    exact List.count_pos_iff.1 (by rw [← h]; exact this))
  typed := o.typed

theorem Own.pos {hp : Heap} {L : List Nat} (o : Own hp L) {h : Nat} (m : h ∈ L) : 0 < hp.count h := by
  rw [o.count]; exact List.count_pos_iff.2 m

theorem Own.mem {hp : Heap} {L : List Nat} (o : Own hp L) {h : Nat} (m : 0 < hp.count h) : h ∈ L := by
  rw [o.count] at m; exact List.count_pos_iff.1 m

/-- The call ends in a failed assertion or normally with `Q`; it does not use a released resource. -/
def Ok {α : Type} (hp : Heap) (m : R α) (Q : α → Heap → Prop) : Prop :=
  match m hp with
  | .ok (a, hp') => Ext hp hp' ∧ Q a hp'
  | .error e => e = .assertion

theorem Ok.bind {α β : Type} {hp : Heap} {m : R α} {f : α → R β} {Q : α → Heap → Prop} {S : β → Heap → Prop}
    (h : Ok hp m Q) (g : ∀ a hp', Ext hp hp' → Q a hp' → Ok hp' (f a) S) : Ok hp (m >>= f) S := by
  unfold Ok at *
  show (match (m >>= f) hp with | .ok (a, hp') => _ | .error e => _)
  have hb : (m >>= f) hp = (match m hp with | .ok (a, hp') => f a hp' | .error e => .error e) := by
    show StateT.bind m f hp = _
    unfold StateT.bind
    show (Except.bind (m hp) _) = _
    unfold Except.bind
    cases m hp with
    | ok a => rfl
    | error e => rfl
  rw [hb]
  revert h
  cases hm : m hp with
  | error e => exact id
  | ok a =>
    obtain ⟨a, hp'⟩ := a
    intro h
    have := g a hp' h.1 h.2
    revert this
    show (match f a hp' with | .ok (a, hp') => _ | .error e => _) → (match f a hp' with | .ok (a, hp') => _ | .error e => _)
    cases f a hp' with
    | error e => exact id
    | ok b => exact fun t => ⟨h.1.trans t.1, t.2⟩

theorem Ok.pure {α : Type} {hp : Heap} {a : α} {Q : α → Heap → Prop} (h : Q a hp) : Ok hp (pure a : R α) Q :=
  ⟨Ext.refl hp, h⟩

theorem Ok.mono {α : Type} {hp : Heap} {m : R α} {Q S : α → Heap → Prop} (h : Ok hp m Q)
    (g : ∀ a hp', Ext hp hp' → Q a hp' → S a hp') : Ok hp m S := by
  unfold Ok at *
  revert h
  cases m hp with
  | error e => exact id
  | ok a => exact fun h => ⟨h.1, g _ _ h.1 h.2⟩

theorem Ok.need {hp : Heap} {L : List Nat} {h : Nat} (o : Own hp L) (m : h ∈ L) : Ok hp (need h) fun _ hp' => hp' = hp := by
  have := o.pos m
  simp [Ok, Ownership.need, this, Ext.refl]

theorem Ok.check {hp : Heap} {b : Bool} : Ok hp (check b) fun _ hp' => b = true ∧ hp' = hp := by
  cases b <;> simp [Ok, Ownership.check, Ext.refl]

theorem Ok.kindOf {hp : Heap} {h : Nat} : Ok hp (kindOf h) fun k hp' => k = hp.kind h ∧ hp' = hp := by
  simp [Ok, Ownership.kindOf, Ext.refl]

theorem Ok.needAll {hp : Heap} {L : List Nat} (o : Own hp L) : ∀ {l : List Nat}, (∀ h ∈ l, h ∈ L) →
    Ok hp (needAll l) fun _ hp' => hp' = hp
  | [], _ => Ok.pure rfl
  | h :: l, g => by
    refine Ok.bind (Ok.need o (g h (by simp))) fun _ hp' _ e => ?_
    subst e
    exact Ok.needAll o fun h hh => g h (by simp [hh])

/-- The kinds a new handle may have. -/
def Kind.Fits (k : Kind) (hp : Heap) : Prop :=
  match k with
  | .part p c => Is hp p .space ∧ Is hp c .space
  | .region s f => Is hp s .space ∧ Is hp f .fields
  | _ => True

theorem Ok.alloc {hp : Heap} {L : List Nat} {k : Kind} (o : Own hp L) (f : k.Fits hp) :
    Ok hp (alloc k) fun h hp' => Own hp' (h :: L) ∧ Is hp' h k ∧ h ∉ L := by
  have hn : hp.next ∉ L := fun h => Nat.lt_irrefl _ (o.bound _ h)
  have ext : Ext hp ⟨hp.next + 1, fun h => if h = hp.next then k else hp.kind h, fun h => if h = hp.next then 1 else hp.count h⟩ :=
    ⟨Nat.le_succ _, fun h hh => by simp [Nat.ne_of_lt hh]⟩
  refine ⟨ext, ⟨?_, ?_, ?_⟩, ⟨Nat.lt_succ_self _, by simp⟩, hn⟩
  · intro h
    simp only [List.count_cons]
    by_cases e : h = hp.next
    · subst e; simp [List.count_eq_zero.2 hn]
    · have e' : ¬ hp.next = h := fun x => e x.symm
      simp [e, e', o.count]
  · intro h hh
    rcases List.mem_cons.1 hh with e | e
    · subst e; exact Nat.lt_succ_self _
    · exact Nat.lt_succ_of_lt (o.bound _ e)
  · intro h k' hk
    by_cases e : h = hp.next
    · subst e
      have : k = k' := by have := hk.2; simpa using this
      subst this
      cases k with
      | space => trivial
      | fields => trivial
      | part p c => exact ⟨f.1.ext ext, f.2.ext ext⟩
      | region s t => exact ⟨f.1.ext ext, f.2.ext ext⟩
    · have i : Is hp h k' := by
        refine ⟨?_, ?_⟩
        · have := hk.1; simp only at this; omega
        · have := hk.2; simpa [e] using this
      have := o.typed h k' i
      cases k' with
      | space => trivial
      | fields => trivial
      | part p c => exact ⟨this.1.ext ext, this.2.ext ext⟩
      | region s t => exact ⟨this.1.ext ext, this.2.ext ext⟩

theorem Own.recount {hp : Heap} {L M : List Nat} (o : Own hp L) (c : Nat → Nat) (hc : ∀ h, c h = M.count h)
    (b : ∀ h ∈ M, h ∈ L) : Ext hp { hp with count := c } ∧ Own { hp with count := c } M :=
  ⟨⟨Nat.le_refl _, fun _ _ => rfl⟩, hc, fun h hh => o.bound h (b h hh), fun h k i => by
    have := o.typed h k ⟨i.1, i.2⟩
    cases k with
    | space => trivial
    | fields => trivial
    | part p c => exact ⟨⟨this.1.1, this.1.2⟩, ⟨this.2.1, this.2.2⟩⟩
    | region s t => exact ⟨⟨this.1.1, this.1.2⟩, ⟨this.2.1, this.2.2⟩⟩⟩

theorem Ok.share {hp : Heap} {L : List Nat} {h : Nat} (o : Own hp L) (m : h ∈ L) :
    Ok hp (share h) fun _ hp' => Own hp' (h :: L) := by
  refine Ok.bind (Ok.need o m) fun _ hp' _ e => ?_
  subst e
  refine o.recount _ (fun x => ?_) (fun x hx => ?_)
  · simp only [List.count_cons, o.count]
    by_cases e : x = h
    · subst e; simp
    · have : ¬ h = x := fun y => e y.symm
      simp [e, this]
  · rcases List.mem_cons.1 hx with e | e
    · subst e; exact m
    · exact e

theorem Ok.destroy {hp : Heap} {L F : List Nat} {h : Nat} {k : Kind} (o : Own hp L) (i : Is hp h k)
    (e : ∀ x, L.count x = (h :: F).count x) (d : ∀ x ∈ k.deps, x ∈ h :: F) :
    Ok hp (destroy h) fun _ hp' => Own hp' F := by
  have o' : Own hp (h :: F) := o.congr fun x => (e x).symm
  refine Ok.bind (Ok.need o' (by simp)) fun _ hp' _ e => ?_
  subst e
  refine Ok.bind Ok.kindOf fun k' hp'' _ e => ?_
  obtain ⟨e1, e2⟩ := e
  subst e2
  rw [i.2] at e1
  subst e1
  refine Ok.bind (Ok.needAll o' d) fun _ hp''' _ e => ?_
  subst e
  refine o'.recount _ (fun x => ?_) (fun x hx => by simp [hx])
  simp only [o'.count, List.count_cons]
  by_cases e : x = h
  · subst e; simp
  · have : ¬ h = x := fun y => e y.symm
    simp [e, this]

theorem Ok.createSpace {hp : Heap} {L : List Nat} (o : Own hp L) :
    Ok hp createSpace fun h hp' => Own hp' (h :: L) ∧ Is hp' h .space :=
  (Ok.alloc (k := .space) o trivial).mono fun _ _ _ h => ⟨h.1, h.2.1⟩

theorem Ok.createFields {hp : Heap} {L : List Nat} (o : Own hp L) :
    Ok hp createFields fun h hp' => Own hp' (h :: L) ∧ Is hp' h .fields :=
  (Ok.alloc (k := .fields) o trivial).mono fun _ _ _ h => ⟨h.1, h.2.1⟩

theorem Ok.createRegion {hp : Heap} {L : List Nat} {s f : Nat} (o : Own hp L) (hs : s ∈ L) (hf : f ∈ L)
    (is : Is hp s .space) (jf : Is hp f .fields) :
    Ok hp (createRegion s f) fun h hp' => Own hp' (h :: L) ∧ Is hp' h (.region s f) := by
  refine Ok.bind (Ok.need o hs) fun _ hp' _ e => ?_
  subst e
  refine Ok.bind (Ok.need o hf) fun _ hp' _ e => ?_
  subst e
  exact (Ok.alloc (k := .region s f) o ⟨is, jf⟩).mono fun _ _ _ h => ⟨h.1, h.2.1⟩

theorem Ok.createPart {hp : Heap} {L : List Nat} {p c : Nat} (o : Own hp L) (hs : p ∈ L) (hf : c ∈ L)
    (is : Is hp p .space) (jf : Is hp c .space) :
    Ok hp (createPart p c) fun h hp' => Own hp' (h :: L) ∧ Is hp' h (.part p c) := by
  refine Ok.bind (Ok.need o hs) fun _ hp' _ e => ?_
  subst e
  refine Ok.bind (Ok.need o hf) fun _ hp' _ e => ?_
  subst e
  exact (Ok.alloc (k := .part p c) o ⟨is, jf⟩).mono fun _ _ _ h => ⟨h.1, h.2.1⟩

theorem Ok.partInfo {hp : Heap} {L : List Nat} {h p c : Nat} (o : Own hp L) (m : h ∈ L) (i : Is hp h (.part p c)) :
    Ok hp (partInfo h) fun a hp' => a = (p, c) ∧ hp' = hp := by
  refine Ok.bind (Ok.need o m) fun _ hp' _ e => ?_
  subst e
  refine Ok.bind Ok.kindOf fun k hp' _ e => ?_
  obtain ⟨e1, e2⟩ := e
  subst e2
  rw [i.2] at e1
  subst e1
  exact Ok.pure ⟨rfl, rfl⟩

theorem Ok.regionInfo {hp : Heap} {L : List Nat} {h s f : Nat} (o : Own hp L) (m : h ∈ L) (i : Is hp h (.region s f)) :
    Ok hp (regionInfo h) fun a hp' => a = (s, f) ∧ hp' = hp := by
  refine Ok.bind (Ok.need o m) fun _ hp' _ e => ?_
  subst e
  refine Ok.bind Ok.kindOf fun k hp' _ e => ?_
  obtain ⟨e1, e2⟩ := e
  subst e2
  rw [i.2] at e1
  subst e1
  exact Ok.pure ⟨rfl, rfl⟩

/-- Repeating an action that adds references. -/
theorem Ok.each_add {α : Type} {act : α → R Unit} {own : α → List Nat} {good : Heap → α → Prop}
    (stable : ∀ a b x, Ext a b → good a x → good b x)
    (rule : ∀ hp L x, Own hp L → good hp x → (∀ h ∈ own x, h ∈ L) → Ok hp (act x) fun _ hp' => Own hp' (own x ++ L)) :
    ∀ (l : List α) {hp : Heap} {L : List Nat}, Own hp L → (∀ x ∈ l, good hp x ∧ ∀ h ∈ own x, h ∈ L) →
      Ok hp (each act l) fun _ hp' => Own hp' (l.flatMap own ++ L)
  | [], hp, L, o, _ => Ok.pure (by simpa using o)
  | x :: l, hp, L, o, g => by
    refine Ok.bind (rule hp L x o (g x (by simp)).1 (g x (by simp)).2) fun _ hp' e o' => ?_
    refine (Ok.each_add stable rule l o' fun y hy => ⟨stable _ _ _ e (g y (by simp [hy])).1, fun h hh =>
      List.mem_append_right _ ((g y (by simp [hy])).2 h hh)⟩).mono fun _ _ _ o'' => ?_
    refine o''.congr fun z => ?_
    simp only [List.flatMap_cons, List.count_append]
    omega

/-- Repeating an action that removes references. -/
theorem Ok.each_drop {α : Type} {act : α → R Unit} {own : α → List Nat} {good : Heap → List Nat → α → Prop}
    (stable : ∀ a b F x, Ext a b → good a F x → good b F x)
    (weaken : ∀ a F G x, (∀ y ∈ F, y ∈ G) → good a F x → good a G x)
    (rule : ∀ hp F x, Own hp (own x ++ F) → good hp F x → Ok hp (act x) fun _ hp' => Own hp' F) :
    ∀ (l : List α) {hp : Heap} {F : List Nat}, Own hp (l.flatMap own ++ F) → (∀ x ∈ l, good hp F x) →
      Ok hp (each act l) fun _ hp' => Own hp' F
  | [], hp, L, o, _ => Ok.pure (by simpa using o)
  | x :: l, hp, F, o, g => by
    refine Ok.bind (rule hp (l.flatMap own ++ F) x (by simpa [List.flatMap_cons] using o)
      (weaken _ _ _ _ (fun y hy => List.mem_append_right _ hy) (g x (by simp)))) fun _ hp' e o' => ?_
    exact Ok.each_drop stable weaken rule l o' fun y hy => stable _ _ _ _ e (g y (by simp [hy]))

end Verif.Ownership
