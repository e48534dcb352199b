import Verif.Ownership.Rules
/-! # Rules for the constructors, copy constructors and destructors -/
namespace Verif.Ownership

/-- The references a vector holds. -/
def VecO.own (v : VecO) : List Nat := [v.space, v.fields, v.region, v.colors, v.part]

/-- The references a matrix holds on one of its regions: the region, its index space and its field space. -/
def regionOwn (hp : Heap) (r : Nat) : List Nat := r :: (hp.kind r).deps

/-- The references a matrix holds. -/
def MatO.own (hp : Heap) (m : MatO) : List Nat := (m.kernel :: m.rowptr.toList).flatMap (regionOwn hp)

/-- The references a registered matrix entry holds. -/
def Reg.own (r : Reg) : List Nat := [r.kernel, r.ghost]

/-- The references a planner holds. -/
def PlanO.own (p : PlanO) : List Nat :=
  p.mats.flatMap Reg.own ++ (p.regions ++ (p.fields.toList ++ (p.parts ++ (p.spaces ++
    (p.work.flatten.flatMap VecO.own ++ (p.rhs.flatMap VecO.own ++ p.sol.flatMap VecO.own))))))

structure VecOK (hp : Heap) (v : VecO) : Prop where
  region : Is hp v.region (.region v.space v.fields)
  part : Is hp v.part (.part v.space v.colors)

theorem VecOK.ext {a b : Heap} {v : VecO} (o : VecOK a v) (e : Ext a b) : VecOK b v := ⟨o.region.ext e, o.part.ext e⟩

def RegionOK (hp : Heap) (r : Nat) : Prop := ∃ s f, Is hp r (.region s f)

theorem RegionOK.ext {a b : Heap} {r : Nat} (o : RegionOK a r) (e : Ext a b) : RegionOK b r := by
  obtain ⟨s, f, i⟩ := o
  exact ⟨s, f, i.ext e⟩

theorem RegionOK.own {a b : Heap} {r : Nat} (o : RegionOK a r) (e : Ext a b) : regionOwn b r = regionOwn a r := by
  obtain ⟨s, f, i⟩ := o
  simp [regionOwn, e.2 r i.1]

def MatOK (hp : Heap) (m : MatO) : Prop := ∀ r ∈ m.kernel :: m.rowptr.toList, RegionOK hp r

theorem MatOK.ext {a b : Heap} {m : MatO} (o : MatOK a m) (e : Ext a b) : MatOK b m := fun r hr => (o r hr).ext e

theorem MatOK.own {a b : Heap} {m : MatO} (o : MatOK a m) (e : Ext a b) : m.own b = m.own a := by
  unfold MatO.own
  rw [List.flatMap_def, List.flatMap_def, List.map_congr_left fun r hr => (o r hr).own e]

/-! ## Vectors -/

theorem Ok.vecShare {hp : Heap} {L : List Nat} {v : VecO} (o : Own hp L) (m : ∀ h ∈ v.own, h ∈ L) :
    Ok hp (vecShare v) fun _ hp' => Own hp' (v.own ++ L) := by
  simp only [VecO.own, List.mem_cons, List.not_mem_nil, or_false] at m
  refine Ok.bind (Ok.share o (m v.space (by simp))) fun _ _ _ o1 => ?_
  refine Ok.bind (Ok.share o1 (h := v.fields) (by simp [m])) fun _ _ _ o2 => ?_
  refine Ok.bind (Ok.share o2 (h := v.region) (by simp [m])) fun _ _ _ o3 => ?_
  refine Ok.bind (Ok.share o3 (h := v.colors) (by simp [m])) fun _ _ _ o4 => ?_
  refine (Ok.share o4 (h := v.part) (by simp [m])).mono fun _ _ _ o5 => o5.congr fun x => ?_
  simp only [VecO.own, List.cons_append, List.nil_append, List.count_cons]
  omega

theorem Ok.vecDrop {hp : Heap} {F : List Nat} {v : VecO} (o : Own hp (v.own ++ F)) (k : VecOK hp v) :
    Ok hp (vecDrop v) fun _ hp' => Own hp' F := by
  have ts := o.typed _ _ k.region
  have tc := o.typed _ _ k.part
  refine Ok.bind (Ok.destroy (F := v.space :: v.fields :: v.region :: v.colors :: F) o k.part (fun x => by
    simp only [VecO.own, List.cons_append, List.nil_append, List.count_cons]; omega) (by simp [Kind.deps])) fun _ _ e1 o1 => ?_
  refine Ok.bind (Ok.destroy (F := v.space :: v.fields :: v.region :: F) o1 (tc.2.ext e1) (fun x => by
    simp only [List.count_cons]; omega) (by simp [Kind.deps])) fun _ _ e2 o2 => ?_
  have e2 := e1.trans e2
  refine Ok.bind (Ok.destroy (F := v.space :: v.fields :: F) o2 (k.region.ext e2) (fun x => by
    simp only [List.count_cons]; omega) (by simp [Kind.deps])) fun _ _ e3 o3 => ?_
  have e3 := e2.trans e3
  refine Ok.bind (Ok.destroy (F := v.space :: F) o3 (ts.2.ext e3) (fun x => by
    simp only [List.count_cons]; omega) (by simp [Kind.deps])) fun _ _ e4 o4 => ?_
  have e4 := e3.trans e4
  exact Ok.destroy (F := F) o4 (ts.1.ext e4) (fun x => rfl) (by simp [Kind.deps])

theorem Ok.vecNew {good : Nat → Bool} {hp : Heap} {L : List Nat} {p s c : Nat} (o : Own hp L) (i : Is hp p (.part s c))
    (hp' : p ∈ L) (hs : s ∈ L) (hc : c ∈ L) :
    Ok hp (vecNew good p) fun v hp' => Own hp' (v.own ++ L) ∧ VecOK hp' v ∧ v.part = p := by
  have t := o.typed _ _ i
  refine Ok.bind (Ok.partInfo o hp' i) fun a _ _ e => ?_
  obtain ⟨rfl, rfl⟩ := e
  refine Ok.bind (Ok.createFields o) fun f _ e1 o1 => ?_
  refine Ok.bind (Ok.createRegion (s := s) (f := f) o1.1 (by simp [hs]) (by simp) (t.1.ext e1) o1.2) fun r _ e2 o2 => ?_
  refine Ok.bind Ok.check fun _ _ _ e => ?_
  obtain ⟨-, rfl⟩ := e
  refine Ok.bind (Ok.share (h := s) o2.1 (by simp [hs])) fun _ _ e3 o3 => ?_
  refine Ok.bind (Ok.share (h := c) o3 (by simp [hc])) fun _ _ e4 o4 => ?_
  refine Ok.bind (Ok.share (h := p) o4 (by simp [hp'])) fun _ _ e5 o5 => ?_
  refine Ok.pure ⟨o5.congr fun x => ?_, ⟨o2.2.ext (e3.trans (e4.trans e5)), i.ext (e1.trans (e2.trans (e3.trans (e4.trans e5))))⟩, rfl⟩
  simp only [VecO.own, List.cons_append, List.nil_append, List.count_cons]
  omega

theorem Ok.vecNewOn {good : Nat → Bool} {hp : Heap} {L : List Nat} {p s c r s' f : Nat} (o : Own hp L)
    (i : Is hp p (.part s c)) (j : Is hp r (.region s' f))
    (hp' : p ∈ L) (hs : s ∈ L) (hc : c ∈ L) (hr : r ∈ L) (hf : f ∈ L) :
    Ok hp (vecNewOn good r p) fun v hp' => Own hp' (v.own ++ L) ∧ VecOK hp' v ∧ v.part = p ∧ v.region = r := by
  refine Ok.bind (Ok.partInfo o hp' i) fun a _ _ e => ?_
  obtain ⟨rfl, rfl⟩ := e
  refine Ok.bind (Ok.regionInfo o hr j) fun a _ _ e => ?_
  obtain ⟨rfl, rfl⟩ := e
  refine Ok.bind Ok.check fun _ _ _ e => ?_
  obtain ⟨e, rfl⟩ := e
  have e : s' = s := by simpa using e
  subst e
  refine Ok.bind Ok.check fun _ _ _ e => ?_
  obtain ⟨-, rfl⟩ := e
  refine Ok.bind (Ok.vecShare o (v := ⟨s', f, r, c, p⟩) (by simp [VecO.own, *])) fun _ _ e1 o1 => ?_
  exact Ok.pure ⟨o1, ⟨j.ext e1, i.ext e1⟩, rfl, rfl⟩

theorem Ok.vecCopy {hp : Heap} {L : List Nat} {v : VecO} (o : Own hp L) (k : VecOK hp v) (m : ∀ h ∈ v.own, h ∈ L) :
    Ok hp (vecCopy v) fun v' hp' => Own hp' (v'.own ++ L) ∧ VecOK hp' v' ∧ v' = v :=
  Ok.bind (Ok.vecShare o m) fun _ _ e o1 => Ok.pure ⟨o1, k.ext e, rfl⟩

theorem Ok.eachVecShare {l : List VecO} {hp : Heap} {L : List Nat} (o : Own hp L) (m : ∀ v ∈ l, ∀ h ∈ v.own, h ∈ L) :
    Ok hp (each Ownership.vecShare l) fun _ hp' => Own hp' (l.flatMap VecO.own ++ L) :=
  Ok.each_add (good := fun _ _ => True) (fun _ _ _ _ h => h) (fun _ _ _ o _ m => Ok.vecShare o m) l o
    fun v hv => ⟨trivial, m v hv⟩

theorem Ok.eachVecDrop {l : List VecO} {hp : Heap} {F : List Nat} (o : Own hp (l.flatMap VecO.own ++ F))
    (k : ∀ v ∈ l, VecOK hp v) : Ok hp (each Ownership.vecDrop l) fun _ hp' => Own hp' F :=
  Ok.each_drop (own := VecO.own) (good := fun hp _ v => VecOK hp v) (fun _ _ _ _ e h => h.ext e) (fun _ _ _ _ _ h => h)
    (fun _ _ _ o k => Ok.vecDrop o k) l o k

theorem Ok.vecPush {moves : Bool} {l : List VecO} {mk : R VecO} {hp : Heap} {L : List Nat} {Q : VecO → Prop}
    (h : Ok hp mk fun v hp' => Own hp' (v.own ++ L) ∧ VecOK hp' v ∧ Q v)
    (k : ∀ v ∈ l, VecOK hp v ∧ ∀ h ∈ v.own, h ∈ L) :
    Ok hp (vecPush moves l mk) fun l' hp' => ∃ v, l' = l ++ [v] ∧ Own hp' (v.own ++ L) ∧ VecOK hp' v ∧ Q v := by
  refine Ok.bind h fun v hp1 e1 o1 => ?_
  obtain ⟨o1, k1, q⟩ := o1
  cases moves with
  | false => exact Ok.pure ⟨v, rfl, o1, k1, q⟩
  | true =>
    refine Ok.bind (Ok.eachVecShare o1 fun u hu h hh => List.mem_append_right _ ((k u hu).2 h hh)) fun _ _ e2 o2 => ?_
    refine Ok.bind (Ok.eachVecDrop o2 fun u hu => (k u hu).1.ext (e1.trans e2)) fun _ _ e3 o3 => ?_
    exact Ok.pure ⟨v, rfl, o3, k1.ext (e2.trans e3), q⟩

/-! ## Matrices -/

theorem Ok.regionShare {hp : Heap} {L : List Nat} {r : Nat} (o : Own hp L) (k : RegionOK hp r) (m : ∀ h ∈ regionOwn hp r, h ∈ L) :
    Ok hp (regionShare r) fun _ hp' => Own hp' (regionOwn hp r ++ L) := by
  obtain ⟨s, f, i⟩ := k
  simp only [regionOwn, i.2, Kind.deps, List.mem_cons, List.not_mem_nil, or_false] at m ⊢
  refine Ok.bind (Ok.regionInfo o (m r (by simp)) i) fun a _ _ e => ?_
  obtain ⟨rfl, rfl⟩ := e
  refine Ok.bind (Ok.share (h := s) o (by simp [m])) fun _ _ e1 o1 => ?_
  refine Ok.bind (Ok.share (h := f) o1 (by simp [m])) fun _ _ e2 o2 => ?_
  refine (Ok.share (h := r) o2 (by simp [m])).mono fun _ _ _ o3 => o3.congr fun x => ?_
  simp only [List.cons_append, List.nil_append, List.count_cons]
  omega

theorem Ok.regionDrop {hp : Heap} {F : List Nat} {r : Nat} (o : Own hp (regionOwn hp r ++ F)) (k : RegionOK hp r) :
    Ok hp (regionDrop r) fun _ hp' => Own hp' F := by
  obtain ⟨s, f, i⟩ := k
  have t := o.typed _ _ i
  simp only [regionOwn, i.2, Kind.deps] at o
  refine Ok.bind (Ok.regionInfo o (by simp) i) fun a _ _ e => ?_
  obtain ⟨rfl, rfl⟩ := e
  refine Ok.bind (Ok.destroy (F := s :: f :: F) o i (fun x => rfl) (by simp [Kind.deps])) fun _ _ e1 o1 => ?_
  refine Ok.bind (Ok.destroy (F := s :: F) o1 (t.2.ext e1) (fun x => by simp only [List.count_cons]; omega)
    (by simp [Kind.deps])) fun _ _ e2 o2 => ?_
  exact Ok.destroy (F := F) o2 (t.1.ext (e1.trans e2)) (fun x => rfl) (by simp [Kind.deps])

/-- Sharing or dropping regions in the table of `base`. -/
def RegionAt (base hp : Heap) (r : Nat) : Prop := Ext base hp ∧ RegionOK base r

theorem Ok.eachRegionShare {l : List Nat} {base hp : Heap} {L : List Nat} (b : Ext base hp) (o : Own hp L)
    (k : ∀ r ∈ l, RegionOK base r) (m : ∀ r ∈ l, ∀ h ∈ regionOwn base r, h ∈ L) :
    Ok hp (each Ownership.regionShare l) fun _ hp' => Own hp' (l.flatMap (regionOwn base) ++ L) :=
  Ok.each_add (good := RegionAt base) (own := regionOwn base) (fun _ _ _ e h => ⟨h.1.trans e, h.2⟩)
    (fun hp L r o g m => by
      have e := g.2.own g.1
      have := Ok.regionShare o (g.2.ext g.1) (by rw [e]; exact m)
      rwa [e] at this) l o fun r hr => ⟨⟨b, k r hr⟩, m r hr⟩

theorem Ok.eachRegionDrop {l : List Nat} {base hp : Heap} {F : List Nat} (b : Ext base hp)
    (o : Own hp (l.flatMap (regionOwn base) ++ F)) (k : ∀ r ∈ l, RegionOK base r) :
    Ok hp (each Ownership.regionDrop l) fun _ hp' => Own hp' F :=
  Ok.each_drop (good := fun hp _ r => RegionAt base hp r) (own := regionOwn base) (fun _ _ _ _ e h => ⟨h.1.trans e, h.2⟩)
    (fun _ _ _ _ _ h => h)
    (fun hp F r o g => by
      have e := g.2.own g.1
      exact Ok.regionDrop (by rw [e]; exact o) (g.2.ext g.1)) l o fun r hr => ⟨b, k r hr⟩

theorem Ok.matNew {hp : Heap} {L : List Nat} {m : MatO} (o : Own hp L) (k : MatOK hp m) (i : ∀ h ∈ m.own hp, h ∈ L) :
    Ok hp (matNew m) fun m' hp' => Own hp' (m'.own hp' ++ L) ∧ MatOK hp' m' ∧ m' = m := by
  have i' : ∀ r ∈ m.kernel :: m.rowptr.toList, ∀ h ∈ regionOwn hp r, h ∈ L := fun r hr h hh =>
    i h (List.mem_flatMap.2 ⟨r, hr, hh⟩)
  refine Ok.bind (Ok.regionShare o (k _ (by simp)) (i' _ (by simp))) fun _ hp1 e1 o1 => ?_
  refine Ok.bind (Ok.eachRegionShare (base := hp) (l := m.rowptr.toList) e1 o1 (fun r hr => k r (by simp [hr]))
    fun r hr h hh => List.mem_append_right _ (i' r (by simp [hr]) h hh)) fun _ hp2 e2 o2 => ?_
  refine Ok.pure ⟨?_, k.ext (e1.trans e2), rfl⟩
  rw [k.own (e1.trans e2)]
  refine o2.congr fun x => ?_
  simp only [MatO.own, List.flatMap_cons, List.count_append]
  omega

theorem Ok.matDrop {hp : Heap} {F : List Nat} {m : MatO} (o : Own hp (m.own hp ++ F)) (k : MatOK hp m) :
    Ok hp (matDrop m) fun _ hp' => Own hp' F := by
  refine Ok.bind (Ok.regionDrop (F := m.rowptr.toList.flatMap (regionOwn hp) ++ F)
    (by simpa [MatO.own, List.flatMap_cons] using o) (k _ (by simp))) fun _ hp1 e1 o1 => ?_
  exact Ok.eachRegionDrop (base := hp) e1 o1 fun r hr => k r (by simp [hr])

end Verif.Ownership
