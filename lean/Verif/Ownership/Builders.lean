import Verif.Ownership.Objects
import Mathlib.Tactic.Tauto
/-! # Rules for the matrix builders, the derived partitions and the planner -/
namespace Verif.Ownership

theorem Ok.laplacianCOO {hp : Heap} {L : List Nat} {c : Nat} (o : Own hp L) (hc : c ∈ L) (i : Is hp c .space) :
    Ok hp (laplacianCOO c) fun m hp' => Own hp' (m.own hp' ++ L) ∧ MatOK hp' m := by
  refine Ok.bind (Ok.createSpace o) fun ks _ e1 o1 => ?_
  refine Ok.bind (Ok.createFields o1.1) fun fs _ e2 o2 => ?_
  refine Ok.bind (Ok.createRegion (s := ks) (f := fs) o2.1 (by simp) (by simp) (o1.2.ext e2) o2.2) fun kr _ e3 o3 => ?_
  refine Ok.bind (Ok.createPart (p := ks) (c := c) o3.1 (by simp) (by simp [hc]) (o1.2.ext (e2.trans e3))
    (i.ext (e1.trans (e2.trans e3)))) fun kp hp4 e4 o4 => ?_
  refine Ok.bind (Ok.needAll o4.1 (by simp [hc])) fun _ _ _ e => ?_
  subst e
  have r4 := o3.2.ext e4
  refine Ok.bind (Ok.matNew (m := ⟨kr, none⟩) o4.1 (by intro r hr; simp at hr; subst hr; exact ⟨_, _, r4⟩)
    (by simp [MatO.own, regionOwn, r4.2, Kind.deps])) fun m h5 e5 o5 => ?_
  obtain ⟨o5, k5, em⟩ := o5
  refine Ok.bind (Ok.destroy (F := kr :: fs :: ks :: (m.own h5 ++ L)) o5 (o4.2.ext e5) (fun x => by
    simp only [List.count_cons, List.count_append]; omega) (by simp [Kind.deps, hc])) fun _ h6 e6 o6 => ?_
  rw [← k5.own e6] at o6
  have k6 := k5.ext e6
  refine Ok.bind (Ok.destroy (F := fs :: ks :: (m.own h6 ++ L)) o6 (r4.ext (e5.trans e6)) (fun x => rfl)
    (by simp [Kind.deps])) fun _ h7 e7 o7 => ?_
  rw [← k6.own e7] at o7
  have k7 := k6.ext e7
  refine Ok.bind (Ok.destroy (F := ks :: (m.own h7 ++ L)) o7 (o2.2.ext (e3.trans (e4.trans (e5.trans (e6.trans e7))))) (fun x => rfl)
    (by simp [Kind.deps])) fun _ h8 e8 o8 => ?_
  rw [← k7.own e8] at o8
  have k8 := k7.ext e8
  refine Ok.bind (Ok.destroy (F := m.own h8 ++ L) o8
    (o1.2.ext (e2.trans (e3.trans (e4.trans (e5.trans (e6.trans (e7.trans e8))))))) (fun x => rfl)
    (by simp [Kind.deps])) fun _ _ e9 o9 => ?_
  rw [← k8.own e9] at o9
  exact Ok.pure ⟨o9, k8.ext e9⟩

theorem Ok.laplacianCSR {hp : Heap} {L : List Nat} {c : Nat} (o : Own hp L) (hc : c ∈ L) (i : Is hp c .space) :
    Ok hp (laplacianCSR c) fun m hp' => Own hp' (m.own hp' ++ L) ∧ MatOK hp' m := by
  refine Ok.bind (Ok.createSpace o) fun ks _ e1 o1 => ?_
  refine Ok.bind (Ok.createFields o1.1) fun kf _ e2 o2 => ?_
  refine Ok.bind (Ok.createRegion (s := ks) (f := kf) o2.1 (by simp) (by simp) (o1.2.ext e2) o2.2) fun kr _ e3 o3 => ?_
  refine Ok.bind (Ok.createPart (p := ks) (c := c) o3.1 (by simp) (by simp [hc]) (o1.2.ext (e2.trans e3))
    (i.ext (e1.trans (e2.trans e3)))) fun kp hp4 e4 o4 => ?_
  refine Ok.bind (Ok.needAll o4.1 (by simp [hc])) fun _ _ _ e => ?_
  subst e
  refine Ok.bind (Ok.createSpace o4.1) fun rs _ f1 p1 => ?_
  refine Ok.bind (Ok.createFields p1.1) fun rf _ f2 p2 => ?_
  refine Ok.bind (Ok.createRegion (s := rs) (f := rf) p2.1 (by simp) (by simp) (p1.2.ext f2) p2.2) fun rr _ f3 p3 => ?_
  refine Ok.bind (Ok.createPart (p := rs) (c := c) p3.1 (by simp) (by simp [hc]) (p1.2.ext (f2.trans f3))
    (i.ext (e1.trans (e2.trans (e3.trans (e4.trans (f1.trans (f2.trans f3)))))))) fun rp hp8 f4 p4 => ?_
  refine Ok.bind (Ok.needAll p4.1 (by simp [hc])) fun _ _ _ e => ?_
  subst e
  have e48 := f1.trans (f2.trans (f3.trans f4))
  have ikr := o3.2.ext (e4.trans e48)
  have irr := p3.2.ext f4
  refine Ok.bind (Ok.matNew (m := ⟨kr, some rr⟩) p4.1
    (by intro r hr; simp at hr; rcases hr with rfl | rfl; exact ⟨_, _, ikr⟩; exact ⟨_, _, irr⟩)
    (by simp [MatO.own, regionOwn, ikr.2, irr.2, Kind.deps])) fun m h5 e5 o5 => ?_
  obtain ⟨o5, k5, em⟩ := o5
  refine Ok.bind (Ok.destroy (F := rr :: rf :: rs :: kp :: kr :: kf :: ks :: (m.own h5 ++ L)) o5 (p4.2.ext e5) (fun x => by
    simp only [List.count_cons, List.count_append]; omega) (by simp [Kind.deps, hc])) fun _ _ g1 q1 => ?_
  have x1 := e5.trans g1
  refine Ok.bind (Ok.destroy (F := rf :: rs :: kp :: kr :: kf :: ks :: (m.own h5 ++ L)) q1 (irr.ext x1) (fun x => rfl)
    (by simp [Kind.deps])) fun _ _ g2 q2 => ?_
  have x2 := x1.trans g2
  refine Ok.bind (Ok.destroy (F := rs :: kp :: kr :: kf :: ks :: (m.own h5 ++ L)) q2 (p2.2.ext (f3.trans (f4.trans x2))) (fun x => rfl)
    (by simp [Kind.deps])) fun _ _ g3 q3 => ?_
  have x3 := x2.trans g3
  refine Ok.bind (Ok.destroy (F := kp :: kr :: kf :: ks :: (m.own h5 ++ L)) q3 (p1.2.ext (f2.trans (f3.trans (f4.trans x3)))) (fun x => rfl)
    (by simp [Kind.deps])) fun _ _ g4 q4 => ?_
  have x4 := x3.trans g4
  refine Ok.bind (Ok.destroy (F := kr :: kf :: ks :: (m.own h5 ++ L)) q4 (o4.2.ext (e48.trans x4)) (fun x => rfl)
    (by simp [Kind.deps, hc])) fun _ _ g5 q5 => ?_
  have x5 := x4.trans g5
  refine Ok.bind (Ok.destroy (F := kf :: ks :: (m.own h5 ++ L)) q5 (ikr.ext x5) (fun x => rfl)
    (by simp [Kind.deps])) fun _ _ g6 q6 => ?_
  have x6 := x5.trans g6
  refine Ok.bind (Ok.destroy (F := ks :: (m.own h5 ++ L)) q6 (o2.2.ext (e3.trans (e4.trans (e48.trans x6)))) (fun x => rfl)
    (by simp [Kind.deps])) fun _ _ g7 q7 => ?_
  have x7 := x6.trans g7
  refine Ok.bind (Ok.destroy (F := m.own h5 ++ L) q7 (o1.2.ext (e2.trans (e3.trans (e4.trans (e48.trans x7))))) (fun x => rfl)
    (by simp [Kind.deps])) fun _ _ g8 q8 => ?_
  have x8 := g1.trans (g2.trans (g3.trans (g4.trans (g5.trans (g6.trans (g7.trans g8))))))
  rw [← k5.own x8] at q8
  exact Ok.pure ⟨q8, k5.ext x8⟩

theorem Ok.printPart {hp : Heap} {L : List Nat} {p s c : Nat} (o : Own hp L) (i : Is hp p (.part s c))
    (hp' : p ∈ L) (hs : s ∈ L) (hc : c ∈ L) : Ok hp (printPart p) fun _ hp' => Own hp' L := by
  have t := o.typed _ _ i
  refine Ok.bind (Ok.partInfo o hp' i) fun a _ _ e => ?_
  obtain ⟨rfl, rfl⟩ := e
  refine Ok.bind (Ok.need o hc) fun _ _ _ e => ?_
  subst e
  refine Ok.bind (Ok.createFields o) fun f _ e1 o1 => ?_
  refine Ok.bind (Ok.createRegion (s := s) (f := f) o1.1 (by simp [hs]) (by simp) (t.1.ext e1) o1.2) fun r _ e2 o2 => ?_
  refine Ok.bind (Ok.needAll o2.1 (by simp [hp'])) fun _ _ _ e => ?_
  subst e
  refine Ok.bind (Ok.destroy (F := f :: L) o2.1 o2.2 (fun x => rfl) (by simp [Kind.deps, hs])) fun _ _ e3 o3 => ?_
  exact Ok.destroy (F := L) o3 (o1.2.ext (e2.trans e3)) (fun x => rfl) (by simp [Kind.deps])

theorem Ok.kernelPart {hp : Heap} {L : List Nat} {m : MatO} {p s c : Nat} (o : Own hp L) (k : MatOK hp m)
    (hm : ∀ h ∈ m.own hp, h ∈ L) (i : Is hp p (.part s c)) (hp' : p ∈ L) (hc : c ∈ L) :
    Ok hp (kernelPart m p) fun q hp' => Own hp' (q :: L) ∧ ∃ ks kf, Is hp' m.kernel (.region ks kf) ∧ Is hp' q (.part ks c) := by
  have t := o.typed _ _ i
  obtain ⟨ks, kf, ik⟩ := k m.kernel (by simp)
  have tk := o.typed _ _ ik
  have mem : m.kernel ∈ L ∧ ks ∈ L := by
    refine ⟨hm _ ?_, hm _ ?_⟩ <;> simp [MatO.own, regionOwn, ik.2, Kind.deps]
  refine Ok.bind (Ok.partInfo o hp' i) fun a _ _ e => ?_
  obtain ⟨rfl, rfl⟩ := e
  refine Ok.bind (Ok.regionInfo o mem.1 ik) fun a _ _ e => ?_
  obtain ⟨rfl, rfl⟩ := e
  have final : ∀ {hp : Heap}, Own hp L → Is hp m.kernel (.region ks kf) → Is hp ks .space → Is hp c .space →
      Ok hp (Ownership.createPart ks c) fun q hp' =>
        Own hp' (q :: L) ∧ ∃ ks kf, Is hp' m.kernel (.region ks kf) ∧ Is hp' q (.part ks c) := fun o ik ts tc =>
    (Ok.createPart (p := ks) (c := c) o mem.2 hc ts tc).mono fun _ _ e o => ⟨o.1, ks, kf, ik.ext e, o.2⟩
  cases hr : m.rowptr with
  | none => exact final o ik tk.1 t.2
  | some r =>
    obtain ⟨rs, rf, ir⟩ := k r (by simp [hr])
    have rm : r ∈ L := hm _ (by simp [MatO.own, regionOwn, hr])
    refine Ok.bind (Ok.regionInfo o rm ir) fun a _ _ e => ?_
    obtain ⟨rfl, rfl⟩ := e
    refine Ok.bind Ok.check fun _ _ _ e => ?_
    obtain ⟨-, rfl⟩ := e
    exact final o ik tk.1 t.2

theorem Ok.ghostPart {hp : Heap} {L : List Nat} {m : MatO} {d p s c : Nat} (o : Own hp L)
    (hm : m.kernel ∈ L) (hd : d ∈ L) (id : Is hp d .space) (i : Is hp p (.part s c)) (hp' : p ∈ L) (hc : c ∈ L) :
    Ok hp (ghostPart m d p) fun q hp' => Own hp' (q :: L) ∧ Is hp' q (.part d c) := by
  have t := o.typed _ _ i
  refine Ok.bind (Ok.need o hm) fun _ _ _ e => ?_
  subst e
  refine Ok.bind (Ok.partInfo o hp' i) fun a _ _ e => ?_
  obtain ⟨rfl, rfl⟩ := e
  exact Ok.createPart o hd hc id t.2

/-! ## Planner -/

/-- Facts that hold of every planner. -/
structure PlanOK (hp : Heap) (p : PlanO) : Prop where
  vecs : ∀ v ∈ p.sol ++ p.rhs ++ p.work.flatten, VecOK hp v
  len : p.parts.length = p.spaces.length
  spaces : ∀ s ∈ p.spaces, ∃ v ∈ p.sol ++ p.rhs, v.space = s
  zip : ∀ x ∈ p.spaces.zip p.parts, ∃ v ∈ p.sol ++ p.rhs, x = (v.space, v.part)
  parts : ∀ q ∈ p.parts, ∃ v ∈ p.sol ++ p.rhs, v.part = q
  fields : ∀ f ∈ p.fields, Is hp f .fields
  regions : ∀ r ∈ p.regions, ∃ s f, Is hp r (.region s f) ∧ s ∈ p.spaces ∧ p.fields = some f
  mats : ∀ r ∈ p.mats, ∃ ks c d, Is hp r.kernel (.part ks c) ∧ Is hp r.ghost (.part d c) ∧ d ∈ p.spaces ∧
    ∃ v ∈ p.sol ++ p.rhs, v.colors = c

theorem PlanOK.ext {a b : Heap} {p : PlanO} (k : PlanOK a p) (e : Ext a b) : PlanOK b p where
  vecs v hv := (k.vecs v hv).ext e
  len := k.len
  spaces := k.spaces
  zip := k.zip
  parts := k.parts
  fields f hf := (k.fields f hf).ext e
  regions r hr := by
    obtain ⟨s, f, i, h⟩ := k.regions r hr
    exact ⟨s, f, i.ext e, h⟩
  mats r hr := by
    obtain ⟨ks, c, d, i, j, h⟩ := k.mats r hr
    exact ⟨ks, c, d, i.ext e, j.ext e, h⟩

theorem PlanOK.empty (hp : Heap) : PlanOK hp planEmpty := by
  constructor <;> simp [planEmpty]

theorem Ok.eachDestroy {l : List Nat} {hp : Heap} {F : List Nat} (o : Own hp (l ++ F))
    (k : ∀ h ∈ l, ∃ k, Is hp h k ∧ ∀ d ∈ k.deps, d ∈ F) : Ok hp (each Ownership.destroy l) fun _ hp' => Own hp' F :=
  Ok.each_drop (own := fun h => [h]) (good := fun hp F h => ∃ k, Is hp h k ∧ ∀ d ∈ k.deps, d ∈ F)
    (fun _ _ _ _ e h => by obtain ⟨k, i, d⟩ := h; exact ⟨k, i.ext e, d⟩)
    (fun _ _ _ _ s h => by obtain ⟨k, i, d⟩ := h; exact ⟨k, i, fun x hx => s _ (d x hx)⟩)
    (fun _ _ _ o g => by
      obtain ⟨k, i, d⟩ := g
      exact Ok.destroy o i (fun x => rfl) fun x hx => by simp [d x hx]) l (by simpa using o) k

theorem own_vecs {p : PlanO} {v : VecO} (hv : v ∈ p.sol ++ p.rhs) {h : Nat} (m : h ∈ v.own) :
    h ∈ p.rhs.flatMap VecO.own ++ p.sol.flatMap VecO.own := by
  rcases List.mem_append.1 hv with hv | hv
  · exact List.mem_append_right _ (List.mem_flatMap.2 ⟨v, hv, m⟩)
  · exact List.mem_append_left _ (List.mem_flatMap.2 ⟨v, hv, m⟩)

theorem Ok.planDrop {hp : Heap} {F : List Nat} {p : PlanO} (o : Own hp (p.own ++ F)) (k : PlanOK hp p)
    (ext : ∀ r ∈ p.mats, ∃ ks c, Is hp r.kernel (.part ks c) ∧ ks ∈ F) :
    Ok hp (planDrop p) fun _ hp' => Own hp' F := by
  have mem : ∀ {v h}, v ∈ p.sol ++ p.rhs → h ∈ v.own → h ∈ p.rhs.flatMap VecO.own ++ (p.sol.flatMap VecO.own ++ F) := by
    intro v h hv hh
    have := own_vecs hv hh
    simp only [List.mem_append] at this ⊢
    tauto
  simp only [PlanO.own, List.append_assoc] at o
  refine Ok.bind (Q := fun _ hp' => Own hp' (p.regions ++ (p.fields.toList ++ (p.parts ++ (p.spaces ++
    (p.work.flatten.flatMap VecO.own ++ (p.rhs.flatMap VecO.own ++ (p.sol.flatMap VecO.own ++ F)))))))) ?_ fun _ _ e1 o1 => ?_
  · refine Ok.each_drop (own := Reg.own) (good := fun hp F r => ∃ ks c d c', Is hp r.kernel (.part ks c) ∧ ks ∈ F ∧ c ∈ F ∧
      Is hp r.ghost (.part d c') ∧ d ∈ F ∧ c' ∈ F) ?_ ?_ ?_ p.mats o ?_
    · rintro _ _ _ _ e ⟨ks, c, d, c', i, h1, h2, j, h3, h4⟩
      exact ⟨ks, c, d, c', i.ext e, h1, h2, j.ext e, h3, h4⟩
    · rintro _ _ _ _ s ⟨ks, c, d, c', i, h1, h2, j, h3, h4⟩
      exact ⟨ks, c, d, c', i, s _ h1, s _ h2, j, s _ h3, s _ h4⟩
    · rintro hp F r o ⟨ks, c, d, c', i, h1, h2, j, h3, h4⟩
      refine Ok.bind (Ok.destroy (F := r.ghost :: F) o i (fun x => rfl) (by simp [Kind.deps, h1, h2])) fun _ _ e o => ?_
      exact Ok.destroy (F := F) o (j.ext e) (fun x => rfl) (by simp [Kind.deps, h3, h4])
    · intro r hr
      obtain ⟨ks, c, d, i, j, hd, v, hv, hc⟩ := k.mats r hr
      obtain ⟨ks', c', i', hks⟩ := ext r hr
      have : (Kind.part ks c) = .part ks' c' := i.2.symm.trans i'.2
      injection this with e1 e2
      subst e1; subst e2
      obtain ⟨u, hu, hs⟩ := k.spaces d hd
      have m1 := mem hv (h := v.colors) (by simp [VecO.own])
      have m2 := mem hu (h := u.space) (by simp [VecO.own])
      rw [hc] at m1
      rw [hs] at m2
      simp only [List.mem_append] at m1 m2
      refine ⟨ks, c, d, c, i, ?_, ?_, j, ?_, ?_⟩ <;> simp only [List.mem_append] <;> tauto
  refine Ok.bind (Ok.eachDestroy o1 fun h hh => ?_) fun _ _ e2 o2 => ?_
  · obtain ⟨s, f, i, hs, hf⟩ := k.regions h hh
    refine ⟨_, i.ext e1, fun d hd => ?_⟩
    simp only [Kind.deps, List.mem_cons, List.not_mem_nil, or_false] at hd
    rcases hd with rfl | rfl
    · simp [hs]
    · simp [hf]
  have e2 := e1.trans e2
  refine Ok.bind (Ok.eachDestroy o2 fun h hh => ?_) fun _ _ e3 o3 => ?_
  · exact ⟨_, (k.fields h (by simpa using hh)).ext e2, by simp [Kind.deps]⟩
  have e3 := e2.trans e3
  refine Ok.bind (Ok.eachDestroy o3 fun h hh => ?_) fun _ _ e4 o4 => ?_
  · obtain ⟨v, hv, rfl⟩ := k.parts h hh
    have kv := k.vecs v (List.mem_append_left _ hv)
    refine ⟨_, kv.part.ext e3, fun d hd => ?_⟩
    have : d ∈ v.own := by
      simp only [Kind.deps, List.mem_cons, List.not_mem_nil, or_false] at hd
      rcases hd with rfl | rfl <;> simp [VecO.own]
    exact List.mem_append_right _ (List.mem_append_right _ (mem hv this))
  have e4 := e3.trans e4
  refine Ok.bind (Ok.eachDestroy o4 fun h hh => ?_) fun _ _ e5 o5 => ?_
  · obtain ⟨v, hv, rfl⟩ := k.spaces h hh
    have kv := k.vecs v (List.mem_append_left _ hv)
    exact ⟨_, (o.typed _ _ kv.part).1.ext e4, by simp [Kind.deps]⟩
  have e5 := e4.trans e5
  refine Ok.bind (Ok.eachVecDrop o5 fun v hv => (k.vecs v (List.mem_append_right _ hv)).ext e5) fun _ _ e6 o6 => ?_
  have e6 := e5.trans e6
  refine Ok.bind (Ok.eachVecDrop o6 fun v hv => (k.vecs v (by simp [hv])).ext e6) fun _ _ e7 o7 => ?_
  exact Ok.eachVecDrop o7 fun v hv => (k.vecs v (by simp [hv])).ext (e6.trans e7)

/-- After `planAdmit`, before the vector itself is stored. -/
structure Admitted (hp : Heap) (p p' : PlanO) (v : VecO) (idx : Nat) : Prop where
  same : p'.sol = p.sol ∧ p'.rhs = p.rhs ∧ p'.mats = p.mats ∧ p'.fields = none ∧ p'.regions = [] ∧ p'.work = []
  was : p.fields = none ∧ p.regions = [] ∧ p.work = []
  grown : p'.spaces = p.spaces ∧ p'.parts = p.parts ∨ p'.spaces = p.spaces ++ [v.space] ∧ p'.parts = p.parts ++ [v.part]

theorem noWork_iff {p : PlanO} (h : p.noWork = true) : p.fields = none ∧ p.regions = [] ∧ p.work = [] := by
  simp only [PlanO.noWork, Bool.and_eq_true, Option.isNone_iff_eq_none, List.isEmpty_iff] at h
  exact ⟨h.1.1, h.1.2, h.2⟩

theorem Ok.planAdmit {good : Nat → Bool} {hp : Heap} {L : List Nat} {p : PlanO} {idx : Nat} {v : VecO}
    (o : Own hp (p.own ++ L)) (k : PlanOK hp p) (m : ∀ h ∈ v.own, h ∈ p.own ++ L) :
    Ok hp (planAdmit good p idx v) fun p' hp' => Own hp' (p'.own ++ L) ∧ Admitted hp' p p' v idx := by
  refine Ok.bind Ok.check fun _ _ _ e => ?_
  obtain ⟨nw, rfl⟩ := e
  have nw := noWork_iff nw
  simp only [k.len]
  by_cases h : idx < p.spaces.length
  · simp only [h, if_true]
    refine Ok.bind Ok.check fun _ _ _ e => ?_
    obtain ⟨-, rfl⟩ := e
    refine Ok.bind (Q := fun x hp' => x = p.spaces ∧ hp' = _) (Ok.pure ⟨rfl, rfl⟩) fun _ _ _ e => ?_
    obtain ⟨rfl, rfl⟩ := e
    refine Ok.bind Ok.check fun _ _ _ e => ?_
    obtain ⟨-, rfl⟩ := e
    refine Ok.bind (Q := fun x hp' => x = p.parts ∧ hp' = _) (Ok.pure ⟨rfl, rfl⟩) fun _ _ _ e => ?_
    obtain ⟨rfl, rfl⟩ := e
    exact Ok.pure ⟨o, ⟨rfl, rfl, rfl, nw⟩, nw, Or.inl ⟨rfl, rfl⟩⟩
  · simp only [h, if_false]
    refine Ok.bind Ok.check fun _ _ _ e => ?_
    obtain ⟨-, rfl⟩ := e
    refine Ok.bind (Ok.share o (m v.space (by simp [VecO.own]))) fun _ _ e1 o1 => ?_
    refine Ok.bind (Q := fun x hp' => x = p.spaces ++ [v.space] ∧ hp' = _) (Ok.pure ⟨rfl, rfl⟩) fun _ _ _ e => ?_
    obtain ⟨rfl, rfl⟩ := e
    refine Ok.bind Ok.check fun _ _ _ e => ?_
    obtain ⟨-, rfl⟩ := e
    refine Ok.bind Ok.check fun _ _ _ e => ?_
    obtain ⟨-, rfl⟩ := e
    refine Ok.bind (Ok.share o1 (h := v.part) (List.mem_cons_of_mem _ (m v.part (by simp [VecO.own])))) fun _ _ e2 o2 => ?_
    refine Ok.bind (Q := fun x hp' => x = p.parts ++ [v.part] ∧ hp' = _) (Ok.pure ⟨rfl, rfl⟩) fun _ _ _ e => ?_
    obtain ⟨rfl, rfl⟩ := e
    refine Ok.pure ⟨o2.congr fun x => ?_, ⟨rfl, rfl, rfl, nw⟩, nw, Or.inr ⟨rfl, rfl⟩⟩
    simp only [PlanO.own, List.count_append, List.count_cons, List.count_nil]
    omega

/-- Storing an admitted vector keeps the planner's facts. -/
theorem Admitted.ok {hp : Heap} {p p' q : PlanO} {v : VecO} {idx : Nat} (a : Admitted hp p p' v idx) (k : PlanOK hp p)
    (hv : v ∈ q.sol ++ q.rhs) (sub : ∀ u ∈ p.sol ++ p.rhs, u ∈ q.sol ++ q.rhs)
    (all : ∀ u ∈ q.sol ++ q.rhs, VecOK hp u)
    (es : q.spaces = p'.spaces) (ep : q.parts = p'.parts) (ef : q.fields = p'.fields) (er : q.regions = p'.regions)
    (ew : q.work = p'.work) (em : q.mats = p'.mats) : PlanOK hp q := by
  obtain ⟨⟨s1, s2, s3, s4, s5, s6⟩, nw, g⟩ := a
  have sp : ∀ s ∈ p.spaces, s ∈ q.spaces := by
    intro s hs
    rw [es]
    rcases g with g | g
    · rw [g.1]; exact hs
    · rw [g.1]; exact List.mem_append_left _ hs
  constructor
  · intro u hu
    rw [ew, s6] at hu
    exact all u (by simpa using hu)
  · rw [es, ep]
    rcases g with g | g
    · rw [g.1, g.2, k.len]
    · simp [g.1, g.2, k.len]
  · intro s hs
    rw [es] at hs
    rcases g with g | g
    · rw [g.1] at hs
      obtain ⟨u, hu, h⟩ := k.spaces s hs
      exact ⟨u, sub u hu, h⟩
    · rw [g.1, List.mem_append] at hs
      rcases hs with hs | hs
      · obtain ⟨u, hu, h⟩ := k.spaces s hs
        exact ⟨u, sub u hu, h⟩
      · simp only [List.mem_singleton] at hs
        exact ⟨v, hv, hs.symm⟩
  · intro x hx
    rw [es, ep] at hx
    rcases g with g | g
    · rw [g.1, g.2] at hx
      obtain ⟨u, hu, h⟩ := k.zip x hx
      exact ⟨u, sub u hu, h⟩
    · rw [g.1, g.2, List.zip_append k.len.symm, List.mem_append] at hx
      rcases hx with hx | hx
      · obtain ⟨u, hu, h⟩ := k.zip x hx
        exact ⟨u, sub u hu, h⟩
      · exact ⟨v, hv, by simpa using hx⟩
  · intro s hs
    rw [ep] at hs
    rcases g with g | g
    · rw [g.2] at hs
      obtain ⟨u, hu, h⟩ := k.parts s hs
      exact ⟨u, sub u hu, h⟩
    · rw [g.2, List.mem_append] at hs
      rcases hs with hs | hs
      · obtain ⟨u, hu, h⟩ := k.parts s hs
        exact ⟨u, sub u hu, h⟩
      · simp only [List.mem_singleton] at hs
        exact ⟨v, hv, hs.symm⟩
  · simp [ef, s4]
  · simp [er, s5]
  · intro r hr
    rw [em, s3] at hr
    obtain ⟨ks, c, d, i, j, hd, u, hu, hc⟩ := k.mats r hr
    exact ⟨ks, c, d, i, j, sp d hd, u, sub u hu, hc⟩

theorem Ok.planAddSol {good : Nat → Bool} {moves : Bool} {hp : Heap} {L : List Nat} {p : PlanO} {v : VecO}
    (o : Own hp (p.own ++ L)) (k : PlanOK hp p) (kv : VecOK hp v) (m : ∀ h ∈ v.own, h ∈ L) :
    Ok hp (planAddSol good moves p v) fun p' hp' => Own hp' (p'.own ++ L) ∧ PlanOK hp' p' ∧ p'.mats = p.mats := by
  refine Ok.bind (Ok.planAdmit o k fun h hh => List.mem_append_right _ (m h hh)) fun p1 hp1 e1 o1 => ?_
  obtain ⟨o1, a⟩ := o1
  refine Ok.bind (Ok.vecPush (moves := moves) (l := p1.sol) (Ok.vecCopy o1 (kv.ext e1) fun h hh =>
    List.mem_append_right _ (m h hh)) fun u hu => ⟨?_, fun h hh => ?_⟩) fun sol hp2 e2 o2 => ?_
  · rw [a.same.1] at hu
    exact (k.vecs u (by simp [hu])).ext e1
  · exact List.mem_append_left _ (by
      simp only [PlanO.own, List.mem_append, List.mem_flatMap]
      exact Or.inr (Or.inr (Or.inr (Or.inr (Or.inr (Or.inr (Or.inr ⟨u, hu, hh⟩)))))))
  · obtain ⟨w, rfl, o2, kw, rfl⟩ := o2
    refine Ok.pure ⟨o2.congr fun x => ?_, ?_, a.same.2.2.1⟩
    · simp only [PlanO.own, List.count_append, List.flatMap_append, List.flatMap_cons, List.flatMap_nil, List.append_nil]
      omega
    · refine Admitted.ok (p := p) (p' := p1) (v := w) (idx := p.sol.length) ⟨a.same, a.was, a.grown⟩ (k.ext (e1.trans e2))
        (by simp) ?_ ?_ rfl rfl rfl rfl rfl rfl
      · intro u hu
        simp only [a.same.1, a.same.2.1, List.mem_append] at hu ⊢
        tauto
      · intro u hu
        simp only [a.same.1, a.same.2.1, List.mem_append, List.mem_singleton] at hu
        rcases hu with (hu | rfl) | hu
        · exact (k.vecs u (by simp [hu])).ext (e1.trans e2)
        · exact kw
        · exact (k.vecs u (by simp [hu])).ext (e1.trans e2)

theorem Ok.planAddRhs {good : Nat → Bool} {moves : Bool} {hp : Heap} {L : List Nat} {p : PlanO} {v : VecO}
    (o : Own hp (p.own ++ L)) (k : PlanOK hp p) (kv : VecOK hp v) (m : ∀ h ∈ v.own, h ∈ L) :
    Ok hp (planAddRhs good moves p v) fun p' hp' => Own hp' (p'.own ++ L) ∧ PlanOK hp' p' ∧ p'.mats = p.mats := by
  refine Ok.bind (Ok.planAdmit o k fun h hh => List.mem_append_right _ (m h hh)) fun p1 hp1 e1 o1 => ?_
  obtain ⟨o1, a⟩ := o1
  refine Ok.bind (Ok.vecPush (moves := moves) (l := p1.rhs) (Ok.vecCopy o1 (kv.ext e1) fun h hh =>
    List.mem_append_right _ (m h hh)) fun u hu => ⟨?_, fun h hh => ?_⟩) fun sol hp2 e2 o2 => ?_
  · rw [a.same.2.1] at hu
    exact (k.vecs u (by simp [hu])).ext e1
  · exact List.mem_append_left _ (by
      simp only [PlanO.own, List.mem_append, List.mem_flatMap]
      exact Or.inr (Or.inr (Or.inr (Or.inr (Or.inr (Or.inr (Or.inl ⟨u, hu, hh⟩)))))))
  · obtain ⟨w, rfl, o2, kw, rfl⟩ := o2
    refine Ok.pure ⟨o2.congr fun x => ?_, ?_, a.same.2.2.1⟩
    · simp only [PlanO.own, List.count_append, List.flatMap_append, List.flatMap_cons, List.flatMap_nil, List.append_nil]
      omega
    · refine Admitted.ok (p := p) (p' := p1) (v := w) (idx := p.sol.length) ⟨a.same, a.was, a.grown⟩ (k.ext (e1.trans e2))
        (by simp) ?_ ?_ rfl rfl rfl rfl rfl rfl
      · intro u hu
        simp only [a.same.1, a.same.2.1, List.mem_append] at hu ⊢
        tauto
      · intro u hu
        simp only [a.same.1, a.same.2.1, List.mem_append, List.mem_singleton] at hu
        rcases hu with hu | hu | rfl
        · exact (k.vecs u (by simp [hu])).ext (e1.trans e2)
        · exact (k.vecs u (by simp [hu])).ext (e1.trans e2)
        · exact kw

theorem Ok.planRow {good : Nat → Bool} {moves : Bool} {r q s c f : Nat} : ∀ (rows : List (List VecO)) {hp : Heap} {L : List Nat},
    Own hp (rows.flatten.flatMap VecO.own ++ L) → Is hp q (.part s c) → Is hp r (.region s f) →
    q ∈ L → s ∈ L → c ∈ L → r ∈ L → f ∈ L → (∀ v ∈ rows.flatten, VecOK hp v) →
    Ok hp (planRow good moves r q rows) fun rows' hp' => Own hp' (rows'.flatten.flatMap VecO.own ++ L) ∧
      (∀ v ∈ rows'.flatten, VecOK hp' v)
  | [], hp, L, o, _, _, _, _, _, _, _, _ => Ok.pure ⟨by simpa using o, by simp⟩
  | l :: ls, hp, L, o, i, j, hq, hs, hc, hr, hf, k => by
    have mem : ∀ {h}, h ∈ L → h ∈ ((l :: ls).flatten.flatMap VecO.own ++ L) := fun h => List.mem_append_right _ h
    refine Ok.bind (Ok.vecPush (moves := moves) (l := l) (Ok.vecNewOn (good := good) o i j (mem hq) (mem hs) (mem hc) (mem hr) (mem hf))
      fun u hu => ⟨k u (by simp [hu]), fun h hh => List.mem_append_left _ (List.mem_flatMap.2 ⟨u, by simp [hu], hh⟩)⟩)
      fun l' hp1 e1 o1 => ?_
    obtain ⟨v, rfl, o1, kv, -, -⟩ := o1
    have mem' : ∀ {h}, h ∈ L → h ∈ ((l ++ [v]).flatMap VecO.own ++ L) := fun h => List.mem_append_right _ h
    refine Ok.bind (Ok.planRow ls (L := (l ++ [v]).flatMap VecO.own ++ L) (o1.congr fun x => ?_) (i.ext e1) (j.ext e1)
      (mem' hq) (mem' hs) (mem' hc) (mem' hr) (mem' hf) fun u hu => (k u (by simp only [List.flatten_cons, List.mem_append]; exact Or.inr hu)).ext e1)
      fun ls' hp2 e2 o2 => ?_
    · simp only [List.count_append, List.flatMap_append, List.flatMap_cons, List.flatMap_nil, List.append_nil, List.flatten_cons]
      omega
    · refine Ok.pure ⟨o2.1.congr fun x => ?_, fun u hu => ?_⟩
      · simp only [List.count_append, List.flatMap_append, List.flatMap_cons, List.flatMap_nil, List.append_nil, List.flatten_cons]
        omega
      · rw [List.flatten_cons, List.mem_append] at hu
        rcases hu with hu | hu
        · rw [List.mem_append] at hu
          rcases hu with hu | hu
          · exact (k u (by simp [hu])).ext (e1.trans e2)
          · simp only [List.mem_singleton] at hu
            subst hu
            exact kv.ext e2
        · exact o2.2 u hu

theorem Ok.planRegions {good : Nat → Bool} {moves : Bool} {f : Nat} : ∀ (l : List (Nat × Nat)) (work : List (List VecO)) {hp : Heap}
    {L : List Nat}, Own hp (work.flatten.flatMap VecO.own ++ L) → f ∈ L → Is hp f .fields →
    (∀ x ∈ l, ∃ c, Is hp x.2 (.part x.1 c) ∧ x.1 ∈ L ∧ x.2 ∈ L ∧ c ∈ L) → (∀ v ∈ work.flatten, VecOK hp v) →
    Ok hp (planRegions good moves f l work) fun a hp' => Own hp' (a.1 ++ (a.2.flatten.flatMap VecO.own ++ L)) ∧
      (∀ v ∈ a.2.flatten, VecOK hp' v) ∧ ∀ r ∈ a.1, ∃ x ∈ l, Is hp' r (.region x.1 f)
  | [], work, hp, L, o, _, _, _, k => Ok.pure ⟨by simpa using o, k, by simp⟩
  | (s, q) :: l, work, hp, L, o, hf, jf, g, k => by
    obtain ⟨c, i, hs, hq, hc⟩ := g (s, q) (by simp)
    simp only at i hs hq
    have t := o.typed _ _ i
    refine Ok.bind (Ok.createRegion (s := s) (f := f) o (List.mem_append_right _ hs) (List.mem_append_right _ hf) t.1 jf)
      fun r hp1 e1 o1 => ?_
    refine Ok.bind (Ok.planRow (good := good) (moves := moves) (r := r) (q := q) (s := s) (c := c) (f := f) work (L := r :: L)
      (o1.1.congr fun x => ?_) (i.ext e1) o1.2 (by simp [hq]) (by simp [hs]) (by simp [hc]) (by simp) (by simp [hf])
      fun v hv => (k v hv).ext e1) fun work' hp2 e2 o2 => ?_
    · simp only [List.count_append, List.count_cons]
      omega
    have e12 := e1.trans e2
    refine Ok.bind (Ok.planRegions (f := f) l work' o2.1 (by simp [hf]) (jf.ext e12) (fun x hx => ?_) o2.2) fun a hp3 e3 o3 => ?_
    · obtain ⟨c, i, h1, h2, h3⟩ := g x (by simp [hx])
      exact ⟨c, i.ext e12, by simp [h1], by simp [h2], by simp [h3]⟩
    · refine Ok.pure ⟨o3.1.congr fun x => ?_, o3.2.1, fun r' hr' => ?_⟩
      · simp only [List.count_append, List.count_cons]
        omega
      · rcases List.mem_cons.1 hr' with rfl | hr'
        · exact ⟨(s, q), by simp, o1.2.ext (e2.trans e3)⟩
        · obtain ⟨x, hx, h⟩ := o3.2.2 r' hr'
          exact ⟨x, by simp [hx], h⟩

theorem flatten_replicate_nil (n : Nat) : (List.replicate n ([] : List VecO)).flatten = [] := by
  induction n with
  | zero => rfl
  | succ n ih => simp [List.replicate_succ]

theorem Ok.planAllocate {good : Nat → Bool} {moves : Bool} {hp : Heap} {L : List Nat} {p : PlanO} {n : Nat}
    (o : Own hp (p.own ++ L)) (k : PlanOK hp p) :
    Ok hp (planAllocate good moves p n) fun p' hp' => Own hp' (p'.own ++ L) ∧ PlanOK hp' p' ∧ p'.mats = p.mats := by
  refine Ok.bind Ok.check fun _ _ _ e => ?_
  obtain ⟨nw, rfl⟩ := e
  have nw := noWork_iff nw
  refine Ok.bind Ok.check fun _ _ _ e => ?_
  obtain ⟨-, rfl⟩ := e
  refine Ok.bind (Ok.createFields o) fun f hp1 e1 o1 => ?_
  have memv : ∀ {v h}, v ∈ p.sol ++ p.rhs → h ∈ v.own → h ∈ f :: (p.own ++ L) := by
    intro v h hv hh
    have := own_vecs hv hh
    simp only [PlanO.own, List.mem_cons, List.mem_append] at this ⊢
    tauto
  refine Ok.bind (Ok.planRegions (good := good) (moves := moves) (f := f) (p.spaces.zip p.parts) (List.replicate n [])
    (L := f :: (p.own ++ L)) (by simpa [flatten_replicate_nil] using o1.1) (by simp) o1.2 (fun x hx => ?_)
    (by simp)) fun a hp2 e2 o2 => ?_
  · obtain ⟨v, hv, rfl⟩ := k.zip x hx
    have kv := k.vecs v (List.mem_append_left _ hv)
    exact ⟨v.colors, kv.part.ext e1, memv hv (by simp [VecO.own]), memv hv (by simp [VecO.own]), memv hv (by simp [VecO.own])⟩
  · have k2 := k.ext (e1.trans e2)
    refine Ok.pure ⟨o2.1.congr fun x => ?_, ?_, rfl⟩
    · simp only [PlanO.own, nw.1, nw.2.1, nw.2.2, List.count_append, List.count_cons, List.count_nil, List.flatten_nil, List.flatMap_nil,
        Option.toList_none, Option.toList_some]
      omega
    · refine ⟨fun v hv => ?_, k2.len, k2.spaces, k2.zip, k2.parts, ?_, ?_, k2.mats⟩
      · rw [List.mem_append] at hv
        rcases hv with hv | hv
        · exact k2.vecs v (List.mem_append_left _ hv)
        · exact o2.2.1 v hv
      · intro g hg
        simp at hg
        subst hg
        exact o1.2.ext e2
      · intro r hr
        obtain ⟨x, hx, i⟩ := o2.2.2 r hr
        exact ⟨x.1, f, i, (List.of_mem_zip hx).1, rfl⟩

theorem Ok.planAddMat {hp : Heap} {L : List Nat} {p : PlanO} {m : MatO} {name d g : Nat}
    (o : Own hp (p.own ++ L)) (k : PlanOK hp p) (km : MatOK hp m) (hm : ∀ h ∈ m.own hp, h ∈ L) :
    Ok hp (planAddMat p name m d g) fun p' hp' => Own hp' (p'.own ++ L) ∧ PlanOK hp' p' ∧
      ∃ r, p'.mats = p.mats ++ [r] ∧ r.mat = name ∧ ∃ ks kf c, Is hp' m.kernel (.region ks kf) ∧ Is hp' r.kernel (.part ks c) := by
  refine Ok.bind Ok.check fun _ _ _ e => ?_
  obtain ⟨-, rfl⟩ := e
  refine Ok.bind Ok.check fun _ _ _ e => ?_
  obtain ⟨hb, rfl⟩ := e
  simp only [Bool.and_eq_true, decide_eq_true_eq] at hb
  have hg : g < p.parts.length := by rw [k.len]; exact hb.2
  have eg : p.parts.getD g 0 = p.parts[g] := by simp [hg]
  have ed : p.spaces.getD d 0 = p.spaces[d]'hb.1 := by simp [hb.1]
  obtain ⟨v, hv, hvp⟩ := k.parts _ (List.getElem_mem hg)
  obtain ⟨u, hu, hus⟩ := k.spaces _ (List.getElem_mem hb.1)
  rw [eg, ed, ← hvp, ← hus]
  have kv := k.vecs v (List.mem_append_left _ hv)
  have ku := k.vecs u (List.mem_append_left _ hu)
  have memv : ∀ {v h}, v ∈ p.sol ++ p.rhs → h ∈ v.own → h ∈ p.own ++ L := by
    intro v h hv hh
    have := own_vecs hv hh
    simp only [PlanO.own, List.mem_append] at this ⊢
    tauto
  refine Ok.bind (Ok.kernelPart o km (fun h hh => List.mem_append_right _ (hm h hh)) kv.part (memv hv (by simp [VecO.own]))
    (memv hv (by simp [VecO.own]))) fun q hp1 e1 o1 => ?_
  obtain ⟨o1, ks, kf, ik, iq⟩ := o1
  refine Ok.bind (Ok.ghostPart (m := m) (d := u.space) o1 (List.mem_cons_of_mem _ (List.mem_append_right _ (hm _ (by simp [MatO.own, regionOwn]))))
    (List.mem_cons_of_mem _ (memv hu (by simp [VecO.own]))) ((o.typed _ _ ku.part).1.ext e1) iq (by simp)
    (List.mem_cons_of_mem _ (memv hv (by simp [VecO.own])))) fun gh hp2 e2 o2 => ?_
  refine Ok.pure ⟨o2.1.congr fun x => ?_, ?_, ⟨q, gh, name⟩, rfl, rfl, ks, kf, v.colors, ik.ext e2, iq.ext e2⟩
  · simp only [PlanO.own, List.count_append, List.count_cons, List.flatMap_append, List.flatMap_cons, List.flatMap_nil, Reg.own,
      List.append_nil, List.count_nil]
    omega
  · have k2 := k.ext (e1.trans e2)
    refine ⟨k2.vecs, k2.len, k2.spaces, k2.zip, k2.parts, k2.fields, k2.regions, fun r hr => ?_⟩
    simp only [List.mem_append, List.mem_singleton] at hr
    rcases hr with hr | rfl
    · exact k2.mats r hr
    · exact ⟨ks, v.colors, u.space, iq.ext e2, o2.2, by rw [hus]; exact List.getElem_mem hb.1, v, hv, rfl⟩

end Verif.Ownership
