import Verif.Release.Same

/-! # Several solvers on one planner in the release build -/
set_option linter.unusedSectionVars false
namespace Verif.Release
open Verif.Runtime Verif.Vector Verif.Matrix Verif.Planner Verif.Solver Verif.Programs
variable {K P V : Type} [DecidableEq P] [DecidableEq K]

/-- If the first program does not stop, the second returns the same and launches tasks with the same effect in program order. -/
def Eff {α : Type} (m m' : M P V α) : Prop :=
  ∀ n out a e', m ⟨n, out⟩ = some (a, e') → ∃ ts ts', e'.out = out ++ ts ∧ (∀ t ∈ ts, t.Honest) ∧ (∀ t ∈ ts', t.Honest) ∧
    (∀ s, runTasks s ts = runTasks s ts') ∧ ∀ out', m' ⟨n, out'⟩ = some (a, ⟨e'.next, out' ++ ts'⟩)

theorem Eff.of_le {α : Type} {m m' : M P V α} (hm : Hon m) (h : Le m m') : Eff m m' := by
  intro n out a e' he
  obtain ⟨ts, h1, h2, h3⟩ := hm _ _ _ he
  exact ⟨ts, ts, h1, h2, h2, fun _ => rfl, fun out' => h _ _ (h3 out')⟩

theorem Eff.bind {α β : Type} {m m' : M P V α} {f f' : α → M P V β} (h : Eff m m') (hf : ∀ a, Eff (f a) (f' a)) :
    Eff (m >>= f) (m' >>= f') := by
  intro n out b e'' he
  obtain ⟨⟨a, e'⟩, h1, h2⟩ := Option.bind_eq_some_iff.1 (show (m ⟨n, out⟩).bind (fun p => f p.1 p.2) = some (b, e'') from he)
  obtain ⟨ts, ts', p1, p2, p3, p4, p5⟩ := h _ _ _ _ h1
  obtain ⟨us, us', q1, q2, q3, q4, q5⟩ := hf a _ _ _ _ h2
  refine ⟨ts ++ us, ts' ++ us', by rw [q1, p1, List.append_assoc], fun t ht => ?_, fun t ht => ?_, fun s => ?_, fun out' => ?_⟩
  · exact (List.mem_append.1 ht).elim (p2 t) (q2 t)
  · exact (List.mem_append.1 ht).elim (p3 t) (q3 t)
  · rw [runTasks_append, runTasks_append, p4, q4]
  · show (m' ⟨n, out'⟩).bind _ = _
    rw [p5, ← List.append_assoc]
    exact q5 _

theorem Eff.walk : Walk (P := P) (V := V) Eff := ⟨fun a => .of_le (.pure a) (.refl _), fun h hf => .bind h hf⟩

/-! ## Filling blocks again -/

/-- Assigning one value to several cells. -/
theorem runUpdates_const (a : V) : ∀ (us : List (Update (Cell P) V)), (∀ u ∈ us, ∀ s, u.f s = a) → ∀ (s : Cell P → V) (c : Cell P),
    runUpdates s us c = if c ∈ us.map Update.dst then a else s c
  | [], _, _, _ => by simp [runUpdates]
  | u :: us, h, s, c => by
    show runUpdates (u.exec s) us c = _
    rw [runUpdates_const a us (fun v hv => h v (by simp [hv]))]
    unfold Update.exec
    rw [List.map_cons]
    by_cases h1 : c ∈ us.map Update.dst
    · rw [if_pos h1, if_pos (List.mem_cons.2 (Or.inr h1))]
    · rw [if_neg h1]
      by_cases h2 : c = u.dst
      · rw [if_pos h2, if_pos (List.mem_cons.2 (Or.inl h2)), h u (by simp)]
      · rw [if_neg h2, if_neg (fun h => (List.mem_cons.1 h).elim h2 h1)]

theorem runTasks_flat : ∀ (ts : List (Task (Cell P) V)) (s : Cell P → V), runTasks s ts = runUpdates s (ts.flatMap Task.body)
  | [], _ => rfl
  | t :: ts, s => by
    rw [runTasks_cons, runTasks_flat ts, List.flatMap_cons]
    show _ = List.foldl _ _ _
    rw [List.foldl_append]
    rfl

/-- The tasks of a fill of several blocks. -/
def fillTasks (E : Env P) (a : V) (l : List Vec) : List (Task (Cell P) V) := l.flatMap fun v => (E.pieces v.part).map (fillValueTask v a)

theorem loop_fill (A : Arith V) (E : Env P) : ∀ (l : List Vec) (n : Nat) (out : List (Task (Cell P) V)),
    loop l (fun v => Vector.zeroFill A E v) ⟨n, out⟩ = some ((), ⟨n, out ++ fillTasks E A.zero l⟩)
  | [], n, out => by
    show some _ = some _
    rw [show fillTasks E A.zero [] = ([] : List (Task (Cell P) V)) from rfl, List.append_nil]
  | v :: l, n, out => by
    show loop l _ ⟨n, out ++ _⟩ = _
    rw [loop_fill A E l, List.append_assoc]
    rfl

theorem fillTasks_honest (E : Env P) (a : V) (l : List Vec) : ∀ t ∈ fillTasks E a l, t.Honest := by
  intro t ht
  obtain ⟨v, -, h⟩ := List.mem_flatMap.1 ht
  obtain ⟨pts, -, rfl⟩ := List.mem_map.1 h
  exact fillValueTask_honest v a pts

/-- Filling blocks a second time with the same value changes nothing. -/
theorem fillTasks_again (E : Env P) (a : V) (l more : List Vec) (h : ∀ v ∈ more, v ∈ l) (s : Cell P → V) :
    runTasks s (fillTasks E a l) = runTasks s (fillTasks E a (l ++ more)) := by
  have key : ∀ l : List Vec, ∀ u ∈ (fillTasks E a l).flatMap Task.body, ∀ s, u.f s = a := by
    intro l u hu s
    obtain ⟨t, ht, hu⟩ := List.mem_flatMap.1 hu
    obtain ⟨v, -, h⟩ := List.mem_flatMap.1 ht
    obtain ⟨pts, -, rfl⟩ := List.mem_map.1 h
    obtain ⟨p, -, rfl⟩ := List.mem_map.1 hu
    rfl
  funext c
  rw [runTasks_flat, runTasks_flat, runUpdates_const a _ (key l), runUpdates_const a _ (key (l ++ more))]
  have : c ∈ ((fillTasks E a l).flatMap Task.body).map Update.dst ↔ c ∈ ((fillTasks E a (l ++ more)).flatMap Task.body).map Update.dst := by
    simp only [List.mem_map, List.mem_flatMap, fillTasks]
    constructor
    · rintro ⟨u, ⟨t, ⟨v, hv, ht⟩, hu⟩, he⟩
      exact ⟨u, ⟨t, ⟨v, List.mem_append.2 (.inl hv), ht⟩, hu⟩, he⟩
    · rintro ⟨u, ⟨t, ⟨v, hv, ht⟩, hu⟩, he⟩
      exact ⟨u, ⟨t, ⟨v, (List.mem_append.1 hv).elim id (h v), ht⟩, hu⟩, he⟩
  by_cases hc : c ∈ ((fillTasks E a l).flatMap Task.body).map Update.dst
  · rw [if_pos hc, if_pos (this.1 hc)]
  · rw [if_neg hc, if_neg (fun h => hc (this.2 h))]

/-! ## The planner after several allocations -/

/-- What remains of the planner `pl'` of the debug build after further allocations. -/
structure Reused (pl' : Planner K P V) (n : Nat) (rp : RPlanner K P V) : Prop where
  spaces : rp.pl.spaces = pl'.spaces
  parts : rp.pl.parts = pl'.parts
  sol : rp.pl.sol = pl'.sol
  rhs : rp.pl.rhs = pl'.rhs
  ops : rp.pl.ops = pl'.ops
  wParts : ∃ more, rp.pl.wParts = pl'.wParts ++ more
  fields : ∃ more, rp.fields = List.replicate pl'.spaces.length n ++ more
  blocks : ∀ (j : Nat) (l : List Vec), pl'.workspace[j]? = some l → ∃ more, rp.pl.workspace[j]? = some (l ++ more) ∧ ∀ v ∈ more, v ∈ l

namespace Reused
variable {pl' : Planner K P V} {n : Nat} {rp : RPlanner K P V}

theorem lookup (H : Reused pl' n rp) {k i : Nat} {v : Vec} (h : pl'.lookup k i = some v) : rp.pl.lookup k i = some v := by
  unfold Planner.lookup at h ⊢
  split
  · rename_i hk; rw [if_pos hk] at h; rw [H.sol]; exact h
  · rename_i hk
    rw [if_neg hk] at h
    split
    · rename_i hk'; rw [if_pos hk'] at h; rw [H.rhs]; exact h
    · rename_i hk'
      rw [if_neg hk'] at h
      obtain ⟨l, h1, h2⟩ := Option.bind_eq_some_iff.1 h
      obtain ⟨more, h3, -⟩ := H.blocks _ _ h1
      rw [h3, Option.bind_some, List.getElem?_append_left (List.getElem?_eq_some_iff.1 h2).1]
      exact h2

theorem getVector (H : Reused pl' n rp) (k i : Nat) : Le (pl'.getVector k i : M P V Vec) (rp.pl.getVector k i) := by
  intro e r hr
  obtain ⟨v, h1, h2⟩ := Option.map_eq_some_iff.1 hr
  show (rp.pl.lookup k i).map _ = _
  rw [H.lookup h1]
  exact congrArg some h2

theorem pairs (H : Reused pl' n rp) (d x : Nat) (f : Vec → Vec → M P V Unit) : Le (blocks2 pl' d x f) (blocks2 rp.pl d x f) := by
  unfold blocks2
  rw [H.spaces]
  exact Le.loop (fun _ => .bind (H.getVector _ _) fun _ => .bind (H.getVector _ _) fun _ => .refl _) _

theorem dotLoop (H : Reused pl' n rp) (A : Arith V) (E : Env P) (v w : Nat) : ∀ (l : List Nat) (r : Scalar),
    Le (pDotLoop A E pl' v w l r) (pDotLoop A E rp.pl v w l r)
  | [], _ => .refl _
  | _ :: l, _ => .bind (H.getVector _ _) fun _ => .bind (H.getVector _ _) fun _ => .bind (.refl _) fun _ => .bind (.refl _) fun _ =>
      dotLoop H A E v w l _

theorem dot (H : Reused pl' n rp) (A : Arith V) (E : Env P) (v w : Nat) : Le (pDot A E pl' v w) (pDot A E rp.pl v w) := by
  unfold pDot
  rw [H.spaces]
  exact .bind (H.getVector _ _) fun _ => .bind (H.getVector _ _) fun _ => .bind (.refl _) fun _ => H.dotLoop A E v w _ _

theorem zeroFill (H : Reused pl' n rp) (A : Arith V) (E : Env P) (d : Nat) : Eff (pl'.zeroFill A E d) (rp.pl.zeroFill A E d) := by
  intro m out a e' he
  obtain ⟨l, h1, h2⟩ := Option.bind_eq_some_iff.1 (show (pl'.blocksOf d).bind _ = _ from he)
  rw [loop_fill] at h2
  obtain ⟨-, rfl⟩ := Prod.mk.inj (Option.some.inj h2)
  obtain ⟨more, h3, h4⟩ : ∃ more, rp.pl.blocksOf d = some (l ++ more) ∧ ∀ v ∈ more, v ∈ l := by
    unfold Planner.blocksOf at h1 ⊢
    split
    · rename_i hk; rw [if_pos hk] at h1; rw [H.sol]; exact ⟨[], by rw [List.append_nil]; exact h1, by simp⟩
    · rename_i hk
      rw [if_neg hk] at h1
      split
      · rename_i hk'; rw [if_pos hk'] at h1; rw [H.rhs]; exact ⟨[], by rw [List.append_nil]; exact h1, by simp⟩
      · rename_i hk'
        rw [if_neg hk'] at h1
        exact H.blocks _ _ h1
  refine ⟨_, _, rfl, fillTasks_honest E A.zero l, fillTasks_honest E A.zero (l ++ more), fillTasks_again E A.zero l more h4, fun out' => ?_⟩
  show (rp.pl.blocksOf d).bind _ = _
  rw [h3]
  exact loop_fill A E (l ++ more) m out'

theorem Le.trans {α : Type} {a b c : M P V α} (h : Le a b) (h' : Le b c) : Le a c := fun e r hr => h' e r (h e r hr)

theorem opsRel (H : Reused pl' n rp) (A : Arith V) (E : Env P) : OpsRel Eff (plannerOps A E pl') (releaseOps A E rp.pl) := by
  have L := Le.ops A E pl'
  have two : ∀ (d x : Nat) {f f' : Vec → Vec → M P V Unit}, (∀ y x, Hon (f y x)) → (∀ y x, Le (f y x) (f' y x)) →
      Eff (pl'.numSpaces >>= fun ns => Planner.loop (List.range ns) fun i => pl'.getVector d i >>= fun y => pl'.getVector x i >>= fun x => f y x)
        (blocks2 rp.pl d x f') := fun d x f f' h1 h2 =>
    .of_le (.pairs pl' d x h1) (Le.trans (Le.blocks2 pl' d x h2) (H.pairs d x f'))
  exact {
    negOne := .of_le (.scalarOf _) (.refl _)
    zero := .of_le (.scalarOf _) (.refl _)
    one := .of_le (.scalarOf _) (.refl _)
    neg := fun _ => .of_le (.unary _ _) (.refl _)
    mul := fun _ _ => .of_le (.binary _ _ _) (.refl _)
    div := fun _ _ => .of_le (.binary _ _ _) (.refl _)
    sqrt := fun _ => .of_le (.unary _ _) (.refl _)
    rsqrt := fun x => .of_le (show Hon (sRsqrt A x) from .unary _ _) (.refl _)
    zeroFill := H.zeroFill A E
    copy := fun _ _ => two _ _ (fun _ _ => .assign _ _ _) (fun _ _ => .assign _ _ _)
    scal := fun d a => .of_le (.pScal A E pl' d a) (Le.trans (L.scal d a) (by
      show Le (pScal A E pl' d a) (pScal A E rp.pl d a)
      unfold pScal
      rw [H.spaces]
      exact Le.loop (fun _ => .bind (H.getVector _ _) fun _ => .refl _) _))
    axpy := fun _ _ _ => two _ _ (fun _ _ => .axpy A E _ _ _) (fun _ _ => .axpyGen _ _ _ _ _)
    axpy2 := fun _ _ _ _ => two _ _ (fun _ _ => .axpy2 A E _ _ _ _) (fun _ _ => .axpyGen _ _ _ _ _)
    axpy3 := fun _ _ _ _ _ => two _ _ (fun _ _ => .axpy3 A E _ _ _ _ _) (fun _ _ => .axpyGen _ _ _ _ _)
    xpay := fun _ _ _ => two _ _ (fun _ _ => .xpay A E _ _ _) (fun _ _ => .xpayGen _ _ _ _ _)
    xpay2 := fun _ _ _ _ => two _ _ (fun _ _ => .xpay2 A E _ _ _ _) (fun _ _ => .xpayGen _ _ _ _ _)
    dot := fun v w => .of_le (.pDot A E pl' v w) (Le.trans (L.dot v w) (H.dot A E v w))
    matvec := fun d x => by
      show Eff (pl'.zeroFill A E d >>= _) (rp.pl.zeroFill A E d >>= _)
      refine .bind (H.zeroFill A E d) fun _ => .of_le (.loop (fun r : Registered K P V => .bind (.getVector pl' d r.rng) fun y =>
        .bind (.getVector pl' x r.dom) fun x => .matvec A E r.matrix y x _ _) _) ?_
      rw [H.ops]
      exact Le.loop (fun _ => .bind (H.getVector _ _) fun _ => .bind (H.getVector _ _) fun _ => .refl _) _
    dummy := fun _ => .of_le (.dummyTask _ _) (.refl _) }

end Reused

/-- What the debug build's `allocate_workspace` leaves. -/
structure Allocated (G : Geometry P) (pl' : Planner K P V) (n : Nat) : Prop where
  parts : pl'.spaces.length ≤ pl'.parts.length
  wParts : pl'.wParts.length = pl'.spaces.length
  length : pl'.workspace.length = n
  blocks : ∀ j, j < n → pl'.workspace[j]? = some (pl'.wParts.map fun rp => newVector G rp.2 (rp.1 + j))

theorem mapM_get {α β : Type} {f : α → Option β} : ∀ {l : List α} {l' : List β}, l.mapM f = some l' → ∀ (i : Nat) (a : α), l[i]? = some a →
    ∃ b, l'[i]? = some b ∧ f a = some b
  | [], _, _, i, a, h => by simp at h
  | x :: l, l', hl, i, a, hi => by
    rw [List.mapM_cons] at hl
    obtain ⟨b, h1, h2⟩ := Option.bind_eq_some_iff.1 hl
    obtain ⟨bs, h3, h4⟩ := Option.bind_eq_some_iff.1 h2
    obtain rfl := Option.some.inj h4
    cases i with
    | zero =>
      obtain rfl := Option.some.inj hi
      exact ⟨b, rfl, h1⟩
    | succ i => exact mapM_get h3 i a hi

theorem mapM_total {α β : Type} (g : α → β) : ∀ l : List α, (l.mapM fun a => some (g a)) = some (l.map g)
  | [] => rfl
  | a :: l => by rw [List.mapM_cons, mapM_total g l]; rfl

theorem allocated {G : Geometry P} {pl pl' : Planner K P V} {base n : Nat} (h : pl.allocateWorkspace G base n = some pl') :
    Allocated G pl' n := by
  unfold Planner.allocateWorkspace at h
  split at h
  · rename_i hc
    simp only [Bool.and_eq_true, decide_eq_true_eq] at hc
    obtain ⟨ws, hw, he⟩ := Option.bind_eq_some_iff.1 h
    obtain rfl := Option.some.inj he
    refine ⟨Nat.le_of_eq hc.2, by simp [hc.2], by rw [mapM_length hw, List.length_range], fun j hj => ?_⟩
    obtain ⟨b, h1, h2⟩ := mapM_get hw j j (by rw [List.getElem?_range hj])
    refine h1.trans (congrArg some ?_)
    have := mapM_le (f' := fun rp : Nat × Nat => some (newVector G rp.2 (rp.1 + j))) (fun a _ b hb => by
      unfold Planner.newVector at hb
      split at hb
      · exact hb
      · cases hb) h2
    rw [mapM_total] at this
    exact (Option.some.inj this).symm
  · cases h

/-- Another allocation, of at most as many vectors. -/
theorem Reused.allocate {G : Geometry P} {pl' : Planner K P V} {n : Nat} (a : Allocated G pl' n) {rp : RPlanner K P V}
    (H : Reused pl' n rp) (base : Nat) {n' : Nat} (hn : n' ≤ n) :
    ∃ rp', rp.allocateWorkspace G base n' = some rp' ∧ Reused pl' n rp' := by
  obtain ⟨wm, hw⟩ := H.wParts
  obtain ⟨fm, hf⟩ := H.fields
  have hm : ∀ (w : List (Nat × Nat)) (fs : List Nat), ((List.range n').mapM fun j => (List.range rp.pl.spaces.length).mapM fun i =>
      workVector G (pl'.wParts ++ w) (List.replicate pl'.spaces.length n ++ fs) j i) =
      some ((List.range n').map fun j => pl'.wParts.map fun rp => newVector G rp.2 (rp.1 + j)) := by
    intro w fs
    refine mapM_le (f := fun j => some (pl'.wParts.map fun rp => newVector G rp.2 (rp.1 + j))) (fun j hj b hb => ?_) (mapM_total _ _)
    obtain rfl := Option.some.inj hb
    rw [H.spaces, ← a.wParts, ← mapM_total]
    refine mapM_range _ _ _ fun i rp hi => ?_
    have hil := (List.getElem?_eq_some_iff.1 hi).1
    unfold workVector
    rw [List.getElem?_append_left hil, hi, Option.bind_some, if_pos]
    rw [List.getD_eq_getElem?_getD, List.getElem?_append_left (by rw [List.length_replicate]; exact hil), List.getElem?_replicate, if_pos hil]
    exact Nat.lt_of_lt_of_le (List.mem_range.1 hj) hn
  unfold RPlanner.allocateWorkspace
  rw [if_pos (by rw [H.spaces, H.parts]; exact a.parts)]
  dsimp only
  rw [hw, hf, List.append_assoc, List.append_assoc, hm]
  refine ⟨_, rfl, H.spaces, H.parts, H.sol, H.rhs, H.ops, ⟨_, rfl⟩, ⟨_, rfl⟩, fun j l hl => ?_⟩
  obtain ⟨more, h1, h2⟩ := H.blocks j l hl
  have hj : j < n := by rw [← a.length]; exact (List.getElem?_eq_some_iff.1 hl).1
  have hl' : l = pl'.wParts.map fun rp => newVector G rp.2 (rp.1 + j) := Option.some.inj (hl.symm.trans (a.blocks j hj))
  have hlt := (List.getElem?_eq_some_iff.1 h1).1
  refine ⟨more ++ ((List.range n').map fun j => pl'.wParts.map fun rp => newVector G rp.2 (rp.1 + j)).getD j [], ?_, fun v hv => ?_⟩
  · show (List.mapIdx _ _)[j]? = _
    rw [List.getElem?_mapIdx, List.getElem?_append_left hlt, h1, Option.map_some, List.append_assoc]
  · rcases List.mem_append.1 hv with hv | hv
    · exact h2 v hv
    · rw [List.getD_eq_getElem?_getD, List.getElem?_map] at hv
      by_cases hjn : j < n'
      · rw [List.getElem?_range hjn] at hv
        rw [hl']
        exact hv
      · rw [List.getElem?_eq_none (by rw [List.length_range]; omega)] at hv
        cases hv

/-- Allocations one after the other. -/
def allocAll (G : Geometry P) : RPlanner K P V → List (Nat × Nat) → Option (RPlanner K P V)
  | rp, [] => some rp
  | rp, b :: l => (rp.allocateWorkspace G b.1 b.2).bind fun rp' => allocAll G rp' l

theorem Reused.allocAll {G : Geometry P} {pl' : Planner K P V} {n : Nat} (a : Allocated G pl' n) : ∀ (l : List (Nat × Nat)),
    (∀ b ∈ l, b.2 ≤ n) → ∀ rp : RPlanner K P V, Reused pl' n rp → ∃ rp', allocAll G rp l = some rp' ∧ Reused pl' n rp'
  | [], _, rp, H => ⟨rp, rfl, H⟩
  | b :: l, hl, rp, H => by
    obtain ⟨rp1, h1, H1⟩ := H.allocate a b.1 (hl b (by simp))
    obtain ⟨rp2, h2, H2⟩ := allocAll a l (fun c hc => hl c (by simp [hc])) rp1 H1
    exact ⟨rp2, by show (rp.allocateWorkspace G b.1 b.2).bind _ = _; rw [h1]; exact h2, H2⟩

/-- The first allocation. -/
theorem Reused.first {G : Geometry P} {pl pl' : Planner K P V} {base n : Nat} (h : pl.allocateWorkspace G base n = some pl') :
    ∃ rp, RPlanner.allocateWorkspace G ⟨pl, []⟩ base n = some rp ∧ rp.pl = pl' ∧ Reused pl' n rp := by
  have hw : pl.wParts = [] := by
    unfold Planner.allocateWorkspace at h
    split at h
    · rename_i hc
      simp only [Bool.and_eq_true, Planner.noWorkspace, List.isEmpty_iff] at hc
      exact hc.1.1.2
    · cases h
  have hs : pl'.spaces = pl.spaces := by
    unfold Planner.allocateWorkspace at h
    split at h
    · obtain ⟨ws, -, he⟩ := Option.bind_eq_some_iff.1 h
      obtain rfl := Option.some.inj he
      rfl
    · cases h
  obtain ⟨rp, h1, ⟨h2, -⟩, h3⟩ := allocate_same (rp := ⟨pl, []⟩) ⟨rfl, by rw [hw]; rfl⟩ h
  subst h2
  exact ⟨rp, h1, rfl, rfl, rfl, rfl, rfl, rfl, ⟨[], by rw [List.append_nil]⟩, ⟨[], by rw [List.append_nil, h3, hs]⟩,
    fun j l hl => ⟨[], by rw [List.append_nil]; exact hl, by simp⟩⟩

end Verif.Release
