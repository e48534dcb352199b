import Verif.Release.Walk

/-! # What the debug build accepts, the release build does the same way -/
set_option linter.unusedSectionVars false
namespace Verif.Release
open Verif.Runtime Verif.Vector Verif.Matrix Verif.Planner Verif.Solver Verif.Programs
variable {K P V : Type} [DecidableEq P] [DecidableEq K]

/-- Whatever the first program does without stopping, the second does. -/
def Le {α : Type} (m m' : M P V α) : Prop := ∀ e r, m e = some r → m' e = some r

theorem Le.refl {α : Type} (m : M P V α) : Le m m := fun _ _ h => h

theorem Le.bind {α β : Type} {m m' : M P V α} {f f' : α → M P V β} (h : Le m m') (hf : ∀ a, Le (f a) (f' a)) :
    Le (m >>= f) (m' >>= f') := by
  intro e r hr
  obtain ⟨⟨a, e'⟩, h1, h2⟩ := Option.bind_eq_some_iff.1 (show (m e).bind (fun p => f p.1 p.2) = some r from hr)
  show (m' e).bind _ = some r
  rw [h _ _ h1]
  exact hf a _ _ h2

theorem Le.walk : Walk (P := P) (V := V) Le := ⟨fun _ => .refl _, fun h hf => .bind h hf⟩

/-- A successful assertion is nothing. -/
theorem Le.require_left {α : Type} {b : Bool} {m m' : M P V α} (h : b = true → Le m m') : Le (require b >>= fun _ => m) m' := by
  intro e r hr
  cases b with
  | true => exact h rfl e r hr
  | false => cases hr

theorem Le.lift {α : Type} {o o' : Option α} (h : ∀ a, o = some a → o' = some a) : Le (Programs.lift o : M P V α) (Programs.lift o') := by
  intro e r hr
  obtain ⟨a, h1, h2⟩ := Option.map_eq_some_iff.1 hr
  show o'.map _ = _
  rw [h a h1]
  exact congrArg some h2

theorem covers_self {E : Env P} {y x : Vec} (h : y.part = x.part) : covers E y x = true := by
  unfold covers
  rw [h]
  simp only [Nat.le_refl, decide_true, Bool.true_and, List.all_eq_true, decide_eq_true_eq]
  intro yx hyx p hp
  have : ∀ (l : List (List P)) (yx : List P × List P), yx ∈ l.zip l → yx.1 = yx.2 := by
    intro l
    induction l with
    | nil => intro _ h; cases h
    | cons a l ih =>
      intro yx h
      rcases List.mem_cons.1 h with rfl | h
      · rfl
      · exact ih yx h
  rw [← this _ yx hyx]; exact hp

theorem zipWith_self {α β : Type} (f : α → α → β) : ∀ l : List α, List.zipWith f l l = l.map fun a => f a a
  | [] => rfl
  | a :: l => by rw [List.zipWith_cons_cons, zipWith_self f l]; rfl

theorem zip_self_mapIdx {α β : Type} (f : Nat → α → α → β) (l : List α) :
    (l.zip l).mapIdx (fun k p => f k p.1 p.2) = l.mapIdx fun k a => f k a a := by
  apply List.ext_getElem?
  intro i
  rw [List.getElem?_mapIdx, List.getElem?_mapIdx, List.zip, List.getElem?_zipWith]
  cases l[i]? <;> rfl

/-- After the three assertions the two builds launch the same tasks. -/
theorem Le.checked {y x : Vec} {E : Env P} {α : Type} {m m' : M P V α} (h : y.part = x.part → Le m m') :
    Le (checkCompatible y x >>= fun _ => m) (require (covers E y x) >>= fun _ => m') := by
  have : Le m' (require (covers E y x) >>= fun _ => m') ∨ y.part ≠ x.part := by
    by_cases hp : y.part = x.part
    · left
      intro e r hr
      rw [covers_self hp]
      exact hr
    · exact .inr hp
  show Le ((require _ >>= fun _ => require _ >>= fun _ => require _) >>= fun _ => m) _
  simp only [bind_assoc]
  refine Le.require_left fun _ => Le.require_left fun _ => Le.require_left fun hp => ?_
  have hp : y.part = x.part := by simpa using hp
  rcases this with h' | h'
  · intro e r hr
    exact h' e r (h hp e r hr)
  · exact absurd hp h'

theorem Le.assign (E : Env P) (d x : Vec) : Le (Vector.assign E d x : M P V Unit) (assign E d x) :=
  Le.checked fun h => by rw [h, zipWith_self]; exact .refl _

theorem Le.axpyGen (A : Arith V) (E : Env P) (y x : Vec) (l : List Nat) :
    Le (checkCompatible y x >>= fun _ => launch ((E.pieces y.part).map (Vector.axpyTask A y x l))) (axpyGen A E y x l) :=
  Le.checked fun h => by rw [h, zipWith_self]; exact .refl _

theorem Le.xpayGen (A : Arith V) (E : Env P) (y x : Vec) (l : List Nat) :
    Le (checkCompatible y x >>= fun _ => launch ((E.pieces y.part).map (Vector.xpayTask A y x l))) (xpayGen A E y x l) :=
  Le.checked fun h => by rw [h, zipWith_self]; exact .refl _

theorem Le.dot (A : Arith V) (E : Env P) (v w : Vec) : Le (Vector.dot A E v w) (dot A E v w) :=
  Le.checked fun h => by
    refine .bind (.refl _) fun f => .bind ?_ fun _ => .refl _
    rw [← h, zip_self_mapIdx (fun k a b => dotTask A v w f k a b)]
    exact .refl _

theorem Le.numSpaces {α : Type} (pl : Planner K P V) {f f' : Nat → M P V α} (h : Le (f pl.spaces.length) (f' pl.spaces.length)) :
    Le (pl.numSpaces >>= f) (f' pl.spaces.length) := by
  show Le ((require _ >>= fun _ => pure _) >>= f) _
  rw [bind_assoc]
  exact Le.require_left fun _ => by rw [pure_bind]; exact h

theorem Le.loop {ι : Type} {f f' : ι → M P V Unit} (h : ∀ i, Le (f i) (f' i)) : ∀ l : List ι, Le (loop l f) (loop l f')
  | [] => .refl _
  | i :: l => .bind (h i) fun _ => loop h l

theorem Le.blocks2 (pl : Planner K P V) (d x : Nat) {f f' : Vec → Vec → M P V Unit} (h : ∀ y x, Le (f y x) (f' y x)) :
    Le (pl.numSpaces >>= fun ns => Planner.loop (List.range ns) fun i => pl.getVector d i >>= fun y => pl.getVector x i >>= fun x => f y x)
      (blocks2 pl d x f') :=
  Le.numSpaces pl (f' := fun n => Planner.loop (List.range n) fun i => pl.getVector d i >>= fun y => pl.getVector x i >>= fun x => f' y x)
    (Le.loop (fun _ => .bind (.refl _) fun _ => .bind (.refl _) fun _ => h _ _) _)

theorem Le.pDotLoop (A : Arith V) (E : Env P) (pl : Planner K P V) (v w : Nat) :
    ∀ (l : List Nat) (r : Scalar), Le (pl.dotLoop A E v w l r) (pDotLoop A E pl v w l r)
  | [], _ => .refl _
  | _ :: l, _ => .bind (.refl _) fun _ => .bind (.refl _) fun _ => .bind (.dot A E _ _) fun _ => .bind (.refl _) fun _ =>
      pDotLoop A E pl v w l _

theorem Le.ops (A : Arith V) (E : Env P) (pl : Planner K P V) : OpsRel Le (plannerOps A E pl) (releaseOps A E pl) where
  negOne := .refl _
  zero := .refl _
  one := .refl _
  neg _ := .refl _
  mul _ _ := .refl _
  div _ _ := .refl _
  sqrt _ := .refl _
  rsqrt _ := .refl _
  zeroFill _ := .refl _
  copy _ _ := .blocks2 _ _ _ fun _ _ => .assign _ _ _
  scal d a := Le.numSpaces pl (f' := fun n => Planner.loop (List.range n) fun i => pl.getVector d i >>= fun y => Vector.scal A E y a)
    (Le.loop (fun _ => .refl _) _)
  axpy _ _ _ := .blocks2 _ _ _ fun _ _ => .axpyGen _ _ _ _ _
  axpy2 _ _ _ _ := .blocks2 _ _ _ fun _ _ => .axpyGen _ _ _ _ _
  axpy3 _ _ _ _ _ := .blocks2 _ _ _ fun _ _ => .axpyGen _ _ _ _ _
  xpay _ _ _ := .blocks2 _ _ _ fun _ _ => .xpayGen _ _ _ _ _
  xpay2 _ _ _ _ := .blocks2 _ _ _ fun _ _ => .xpayGen _ _ _ _ _
  dot v w := Le.numSpaces pl (f' := fun n => pl.getVector v 0 >>= fun x => pl.getVector w 0 >>= fun y => Release.dot A E x y >>= fun r =>
      Release.pDotLoop A E pl v w (List.range' 1 (n - 1)) r)
    (.bind (.refl _) fun _ => .bind (.refl _) fun _ => .bind (.dot _ _ _ _) fun _ => .pDotLoop _ _ _ _ _ _ _)
  matvec _ _ := .refl _
  dummy _ := .refl _

/-! ## Set-up -/

theorem admit_same {G : Geometry P} {pl pl' : Planner K P V} {i : Nat} {v : Vec} (h : pl.admit G i v = some pl') : admit pl i v = pl' := by
  unfold Planner.admit at h
  obtain ⟨sp, h1, h⟩ := Option.bind_eq_some_iff.1 h
  obtain ⟨pa, h2, h⟩ := Option.bind_eq_some_iff.1 h
  obtain rfl := Option.some.inj h
  unfold admit
  congr 1
  · split at h1
    · rename_i hi
      rw [if_pos hi]
      split at h1
      · exact Option.some.inj h1
      · cases h1
    · rename_i hi
      rw [if_neg hi]
      split at h1
      · exact Option.some.inj h1
      · cases h1
  · split at h2
    · rename_i hi
      rw [if_pos hi]
      split at h2
      · exact Option.some.inj h2
      · cases h2
    · rename_i hi
      rw [if_neg hi]
      split at h2
      · exact Option.some.inj h2
      · cases h2

theorem admit_wParts (pl : Planner K P V) (i : Nat) (v : Vec) : (admit pl i v).wParts = pl.wParts := rfl

theorem addSol_same {G : Geometry P} {pl pl' : Planner K P V} {rp : RPlanner K P V} {v : Vec} (hm : Matches pl rp)
    (h : pl.addSol G v = some pl') : Matches pl' (rp.addSol v) := by
  obtain ⟨rfl, hf⟩ := hm
  unfold Planner.addSol at h
  split at h
  · obtain ⟨q, h1, rfl⟩ := Option.map_eq_some_iff.1 h
    rw [← admit_same h1]
    exact ⟨rfl, hf⟩
  · cases h

theorem addRhs_same {G : Geometry P} {pl pl' : Planner K P V} {rp : RPlanner K P V} {v : Vec} (hm : Matches pl rp)
    (h : pl.addRhs G v = some pl') : Matches pl' (rp.addRhs v) := by
  obtain ⟨rfl, hf⟩ := hm
  unfold Planner.addRhs at h
  split at h
  · obtain ⟨q, h1, rfl⟩ := Option.map_eq_some_iff.1 h
    rw [← admit_same h1]
    exact ⟨rfl, hf⟩
  · cases h

theorem addMatrix_same {G : Geometry P} {pl pl' : Planner K P V} {rp : RPlanner K P V} {o : Op K P V} {dom rng : Nat}
    (hm : Matches pl rp) (h : pl.addMatrix G o dom rng = some pl') : ∃ rp', rp.addMatrix G o dom rng = some rp' ∧ Matches pl' rp' := by
  obtain ⟨rfl, hf⟩ := hm
  unfold Planner.addMatrix at h
  split at h
  · rename_i hc
    obtain rfl := Option.some.inj h
    simp only [Bool.and_eq_true, decide_eq_true_eq, Planner.sizesAgree] at hc
    refine ⟨_, if_pos ⟨?_, hc.1.2⟩, rfl, hf⟩
    rw [← hc.1.1.1.1.1.1.1]
    exact hc.2
  · cases h

theorem mapM_le {α β : Type} {f f' : α → Option β} : ∀ {l : List α} {l' : List β}, (∀ a ∈ l, ∀ b, f a = some b → f' a = some b) →
    l.mapM f = some l' → l.mapM f' = some l'
  | [], _, _, h => h
  | a :: l, l', h, hl => by
    rw [List.mapM_cons] at hl ⊢
    obtain ⟨b, h1, h2⟩ := Option.bind_eq_some_iff.1 hl
    obtain ⟨bs, h3, h4⟩ := Option.bind_eq_some_iff.1 h2
    rw [h a (by simp) b h1, Option.bind_eq_bind, Option.bind_some, mapM_le (fun c hc => h c (by simp [hc])) h3]
    exact h4

theorem mapM_length {α β : Type} {f : α → Option β} : ∀ {l : List α} {l' : List β}, l.mapM f = some l' → l'.length = l.length
  | [], _, h => by
    obtain rfl := Option.some.inj h
    rfl
  | a :: l, l', hl => by
    rw [List.mapM_cons] at hl
    obtain ⟨b, h1, h2⟩ := Option.bind_eq_some_iff.1 hl
    obtain ⟨bs, h3, h4⟩ := Option.bind_eq_some_iff.1 h2
    obtain rfl := Option.some.inj h4
    rw [List.length_cons, List.length_cons, mapM_length h3]

/-- Going through a list by position. -/
theorem mapM_range {α β : Type} (f : α → Option β) : ∀ (l : List α) (g : Nat → Option β), (∀ i a, l[i]? = some a → g i = f a) →
    (List.range l.length).mapM g = l.mapM f
  | [], _, _ => rfl
  | a :: l, g, h => by
    rw [List.length_cons, List.range_succ_eq_map, List.mapM_cons, List.mapM_cons, h 0 a rfl, List.mapM_map,
      mapM_range f l (g ∘ Nat.succ) fun i b hb => h (i + 1) b hb]

theorem allocate_same {G : Geometry P} {pl pl' : Planner K P V} {rp : RPlanner K P V} {base n : Nat}
    (hm : Matches pl rp) (h : pl.allocateWorkspace G base n = some pl') :
    ∃ rp', rp.allocateWorkspace G base n = some rp' ∧ Matches pl' rp' ∧ rp'.fields = List.replicate pl.spaces.length n := by
  obtain ⟨rfl, hf⟩ := hm
  unfold Planner.allocateWorkspace at h
  split at h
  · rename_i hc
    simp only [Bool.and_eq_true, Planner.noWorkspace, List.isEmpty_iff, decide_eq_true_eq] at hc
    obtain ⟨⟨⟨⟨-, h1⟩, h2⟩, h3⟩, h4⟩ := hc
    obtain ⟨ws, hw, he⟩ := Option.bind_eq_some_iff.1 h
    obtain rfl := Option.some.inj he
    have hf0 : rp.fields = [] := List.eq_nil_of_length_eq_zero (by rw [hf, h2]; rfl)
    have hl : (List.zipWith Prod.mk ((List.range rp.pl.spaces.length).map fun i => base + i * n) rp.pl.parts).length =
        rp.pl.spaces.length := by simp [h4]
    have key : ((List.range n).mapM fun j => (List.range rp.pl.spaces.length).mapM fun i =>
        workVector G (List.zipWith Prod.mk ((List.range rp.pl.spaces.length).map fun i => base + i * n) rp.pl.parts)
          (List.replicate rp.pl.spaces.length n) j i) = some ws := by
      refine mapM_le (fun j hj b hb => ?_) hw
      generalize hz : List.zipWith Prod.mk ((List.range rp.pl.spaces.length).map fun i => base + i * n) rp.pl.parts = z at hl hb ⊢
      rw [show List.range rp.pl.spaces.length = List.range z.length by rw [hl]]
      rw [mapM_range (fun rp : Nat × Nat => some (newVector G rp.2 (rp.1 + j)))]
      · refine mapM_le (fun a _ b hb => ?_) hb
        unfold Planner.newVector at hb
        split at hb
        · exact hb
        · cases hb
      · intro i a hia
        have hi : i < rp.pl.spaces.length := by
          rw [← hl]
          exact (List.getElem?_eq_some_iff.1 hia).1
        unfold workVector
        rw [hia, Option.bind_some, if_pos]
        rw [List.getD_eq_getElem?_getD, List.getElem?_replicate, if_pos hi]
        exact List.mem_range.1 hj
    have hlen : ws.length = n := by rw [mapM_length hw, List.length_range]
    refine ⟨⟨_, List.replicate rp.pl.spaces.length n⟩, ?_, ⟨rfl, ?_⟩, rfl⟩
    · unfold RPlanner.allocateWorkspace
      rw [if_pos (by omega)]
      simp only [h1, h2, h3, hf0, List.nil_append]
      rw [key]
      show some _ = some _
      congr 3
      apply List.ext_getElem?
      intro i
      rw [List.getElem?_mapIdx, List.getElem?_replicate, List.getD_eq_getElem?_getD]
      split
      · rename_i hi
        rw [List.getElem?_eq_getElem (by omega)]
        rfl
      · rw [List.getElem?_eq_none (by omega)]
        rfl
    · show (List.replicate _ _).length = (List.zipWith _ _ _).length
      rw [hl, List.length_replicate]
  · cases h

/-- Results related, everything launched equal. -/
theorem SameSource.sound {A : Arith V} {G : Geometry P} {α β : Type} {R : α → β → Prop} {m : M P V α} {m' : M P V β}
    (h : SameSource K A G R m m') : ∀ e a e', m e = some (a, e') → ∃ b, m' e = some (b, e') ∧ R a b := by
  have le : ∀ {α : Type} {m m' : M P V α}, Le m m' → ∀ e a e', m e = some (a, e') → ∃ b, m' e = some (b, e') ∧ a = b :=
    fun h e a e' hm => ⟨a, h _ _ hm, rfl⟩
  have W := Le.walk (P := P) (V := V)
  induction h with
  | done a b h =>
    intro e a' e' he
    obtain ⟨rfl, rfl⟩ := Prod.mk.inj (Option.some.inj he)
    exact ⟨b, rfl, h⟩
  | andThen _ _ ih ih' =>
    rename_i m m' f f' _ _
    intro e c e'' he
    obtain ⟨⟨a, e'⟩, h1, h2⟩ := Option.bind_eq_some_iff.1 (show (m e).bind (fun p => f p.1 p.2) = some (c, e'') from he)
    obtain ⟨b, h3, h4⟩ := ih _ _ _ h1
    obtain ⟨d, h5, h6⟩ := ih' a b h4 _ _ _ h2
    refine ⟨d, ?_, h6⟩
    show (m' e).bind _ = _
    rw [h3]; exact h5
  | newVector part data =>
    intro e a e' he
    obtain ⟨v, h1, h2⟩ := Option.map_eq_some_iff.1 he
    obtain ⟨rfl, rfl⟩ := Prod.mk.inj h2
    refine ⟨_, rfl, ?_⟩
    unfold Planner.newVector at h1
    split at h1
    · exact (Option.some.inj h1).symm
    · cases h1
  | assign d x => exact le (.assign _ _ _)
  | axpy y a x => exact le (.axpyGen _ _ _ _ _)
  | axpy2 y a b x => exact le (.axpyGen _ _ _ _ _)
  | axpy3 y a b c x => exact le (.axpyGen _ _ _ _ _)
  | xpay y a x => exact le (.xpayGen _ _ _ _ _)
  | xpay2 y a b x => exact le (.xpayGen _ _ _ _ _)
  | dot v w => exact le (.dot _ _ _ _)
  | addSol pl rp v hm =>
    intro e a e' he
    obtain ⟨q, h1, h2⟩ := Option.map_eq_some_iff.1 he
    obtain ⟨rfl, rfl⟩ := Prod.mk.inj h2
    exact ⟨_, rfl, addSol_same hm h1⟩
  | addRhs pl rp v hm =>
    intro e a e' he
    obtain ⟨q, h1, h2⟩ := Option.map_eq_some_iff.1 he
    obtain ⟨rfl, rfl⟩ := Prod.mk.inj h2
    exact ⟨_, rfl, addRhs_same hm h1⟩
  | allocate pl rp base n hm =>
    intro e a e' he
    obtain ⟨q, h1, h2⟩ := Option.map_eq_some_iff.1 he
    obtain ⟨rfl, rfl⟩ := Prod.mk.inj h2
    obtain ⟨rp', h3, h4, -⟩ := allocate_same hm h1
    exact ⟨rp', by show (rp.allocateWorkspace G base n).map _ = _; rw [h3]; rfl, h4⟩
  | addMatrix pl rp o dom rng hm =>
    intro e a e' he
    obtain ⟨q, h1, h2⟩ := Option.map_eq_some_iff.1 he
    obtain ⟨rfl, rfl⟩ := Prod.mk.inj h2
    obtain ⟨rp', h3, h4⟩ := addMatrix_same hm h1
    exact ⟨rp', by show (rp.addMatrix G o dom rng).map _ = _; rw [h3]; rfl, h4⟩
  | numSpaces pl =>
    intro e a e' he
    have := Le.numSpaces pl (f := fun n => pure n) (f' := fun n => pure n) (.refl _) e (a, e') (by rw [bind_pure]; exact he)
    exact ⟨a, this, rfl⟩
  | copy pl d x => exact le ((Le.ops A G.toEnv pl).copy _ _)
  | pScal pl d a => exact le ((Le.ops A G.toEnv pl).scal _ _)
  | pAxpy pl d a x => exact le ((Le.ops A G.toEnv pl).axpy _ _ _)
  | pAxpy2 pl d a b x => exact le ((Le.ops A G.toEnv pl).axpy2 _ _ _ _)
  | pAxpy3 pl d a b c x => exact le ((Le.ops A G.toEnv pl).axpy3 _ _ _ _ _)
  | pXpay pl d a x => exact le ((Le.ops A G.toEnv pl).xpay _ _ _)
  | pXpay2 pl d a b x => exact le ((Le.ops A G.toEnv pl).xpay2 _ _ _ _)
  | pDot pl v w => exact le ((Le.ops A G.toEnv pl).dot _ _)
  | cgInit pl => exact le (OpsRel.cgInit W (Le.ops A G.toEnv pl))
  | cgStep pl c => exact le (OpsRel.cgStep W (Le.ops A G.toEnv pl) c)
  | biCGStabInit pl => exact le (OpsRel.biInit W (Le.ops A G.toEnv pl))
  | biCGStabStep pl c => exact le (OpsRel.biStep W (Le.ops A G.toEnv pl) c)
  | gmresInit pl r => exact le (OpsRel.gmresInit W (Le.ops A G.toEnv pl) r)
  | gmresStep pl c => exact le (OpsRel.gmresStep W (Le.ops A G.toEnv pl) c)
  | _ => exact le (.refl _)

end Verif.Release
