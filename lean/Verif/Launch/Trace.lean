import Verif.Launch.Spec
import Verif.Solver.Relational
import Verif.Solver.Calls

/-! The tasks of the other models are the point tasks of the launches. -/
set_option linter.dupNamespace false
set_option linter.unusedSectionVars false
namespace Verif.Launch
open Verif.Runtime Verif.Vector Verif.Matrix Verif.Planner Verif.Solver

variable {K P V : Type} [DecidableEq P] [DecidableEq K]

theorem Realises.append {ts ts' : List (Task (Cell P) V)} {ps ps' : List (List (Priv × Field × List (K ⊕ P)))}
    (h : Realises ts ps) (h' : Realises ts' ps') : Realises (ts ++ ts') (ps ++ ps') := by
  induction h with
  | nil => exact h'
  | scalar h _ ih => exact .scalar h ih
  | point h _ ih => exact .point h ih

theorem points_append {X : Type} (a b : List (IndexLaunch X)) : points (a ++ b) = points a ++ points b := by
  unfold points; rw [List.flatMap_append]

theorem points_single {X : Type} (L : IndexLaunch X) : points [L] = (List.range L.size).map L.point := by
  unfold points; simp

/-- Tasks for the pieces of a list are the point tasks of colours `0, 1, …`. -/
theorem realises_range (f : Nat → Task (Cell P) V) (g : Nat → List (Priv × Field × List (K ⊕ P))) (l : List Nat)
    (h : ∀ c ∈ l, Declares (f c) (g c)) : Realises (l.map f) (l.map g) := by
  induction l with
  | nil => exact .nil
  | cons c l ih => exact .point (h c (List.mem_cons_self ..)) (ih fun c hc => h c (List.mem_cons_of_mem _ hc))

theorem map_eq_range {α β : Type} (l : List α) (d : α) (f : α → β) :
    l.map f = (List.range l.length).map fun c => f (l.getD c d) := by
  apply List.ext_getElem?
  intro i
  rw [List.getElem?_map, List.getElem?_map]
  by_cases hi : i < l.length
  · rw [List.getElem?_eq_getElem hi, List.getElem?_range hi]
    simp [List.getD_eq_getElem?_getD, hi]
  · rw [List.getElem?_eq_none (by omega), List.getElem?_eq_none (by simp; omega)]
    rfl

theorem vectorPart_piece (G : Geometry P) (part c : Nat) :
    (vectorPart G part : Part (K ⊕ P)).piece c = ((G.pieces part).getD c []).map Sum.inr := by
  unfold vectorPart Part.piece
  simp only [List.getD_eq_getElem?_getD, List.getElem?_map]
  cases (G.pieces part)[c]? <;> rfl

theorem mem_vectorPart (G : Geometry P) (part c : Nat) (p : P) :
    (Sum.inr p : K ⊕ P) ∈ (vectorPart G part : Part (K ⊕ P)).piece c ↔ p ∈ (G.pieces part).getD c [] := by
  rw [vectorPart_piece, List.mem_map]
  exact ⟨fun ⟨q, h, e⟩ => Sum.inr.inj e ▸ h, fun h => ⟨p, h, rfl⟩⟩

theorem inPiece_elem {v : Vec} {pts : List P} {d : Nat} {p : P} : inPiece v pts (.elem d p) ↔ v.data = d ∧ p ∈ pts := by
  unfold inPiece
  constructor
  · rintro ⟨q, h, e⟩
    cases e
    exact ⟨rfl, h⟩
  · rintro ⟨rfl, h⟩
    exact ⟨p, h, rfl⟩

/-! ## Programs and their launches -/

/-- Whenever the program completes, the tasks it launched are the point tasks of `Ls`. -/
def Traces {α : Type} (m : M P V α) (Ls : List (IndexLaunch (K ⊕ P))) : Prop :=
  ∀ e b e', m e = some (b, e') → ∃ ts, e'.out = e.out ++ ts ∧ Realises ts (points Ls)

section
variable {α β : Type} {L L' : List (IndexLaunch (K ⊕ P))}

theorem Traces.pure (a : α) : Traces (K := K) (pure a : M P V α) [] := by
  intro e b e' h
  have : (a, e) = (b, e') := Option.some.inj h
  cases this
  exact ⟨[], (List.append_nil _).symm, .nil⟩

theorem Traces.bind {m : M P V α} {f : α → M P V β} (h : Traces m L) (h' : ∀ a, Traces (f a) L') : Traces (m >>= f) (L ++ L') := by
  intro e b e' hb
  obtain ⟨⟨a, e1⟩, h1, h2⟩ := Option.bind_eq_some_iff.1 (show (m e).bind (fun x => f x.1 x.2) = some (b, e') from hb)
  obtain ⟨ts, q1, q2⟩ := h e a e1 h1
  obtain ⟨ts', q3, q4⟩ := h' a e1 b e' h2
  exact ⟨ts ++ ts', by rw [q3, q1, List.append_assoc], by rw [points_append]; exact q2.append q4⟩

theorem Traces.require {c : Bool} {f : Unit → M P V β} (h : c = true → Traces (f ()) L) : Traces (require c >>= f) L := by
  intro e b e' hb
  have hb : (Verif.Vector.require c e).bind (fun x => f x.1 x.2) = some (b, e') := hb
  unfold Verif.Vector.require at hb
  split at hb
  · next hc => exact h hc e b e' hb
  · cases hb

theorem Traces.fresh {f : Nat → M P V β} (h : ∀ n, Traces (f n) L) : Traces (fresh >>= f) L := by
  intro e b e' hb
  exact h e.next { e with next := e.next + 1 } b e' hb

theorem Traces.getVector {pl : Planner K P V} {k i : Nat} {f : Vec → M P V β} (h : ∀ v, pl.lookup k i = some v → Traces (f v) L) :
    Traces (pl.getVector k i >>= f) L := by
  intro e b e' hb
  have hb : ((pl.lookup k i).map fun v => (v, e)).bind (fun x => f x.1 x.2) = some (b, e') := hb
  cases hv : pl.lookup k i with
  | none => rw [hv] at hb; cases hb
  | some v => rw [hv] at hb; exact h v hv e b e' hb

theorem Traces.launch {ts : List (Task (Cell P) V)} (h : Realises ts (points L)) : Traces (launch ts) L := by
  intro e b e' hb
  have : ((), { e with out := e.out ++ ts }) = (b, e') := Option.some.inj hb
  cases this
  exact ⟨ts, rfl, h⟩

theorem Traces.cast {m : M P V α} (h : Traces m L) (e : L = L') : Traces m L' := e ▸ h

theorem Traces.loop {ι : Type} {l : List ι} {f : ι → M P V Unit} {g : ι → List (IndexLaunch (K ⊕ P))}
    (h : ∀ i ∈ l, Traces (f i) (g i)) : Traces (loop l f) (l.flatMap g) := by
  induction l with
  | nil => exact Traces.pure ()
  | cons i l ih =>
    exact Traces.bind (h i (List.mem_cons_self ..)) fun _ => ih fun i hi => h i (List.mem_cons_of_mem _ hi)

theorem Traces.loopIdx {ι : Type} {f : ι → M P V Unit} : ∀ {l : List ι} {g : Nat → ι → IndexLaunch (K ⊕ P)},
    (∀ (i : Nat) r, l[i]? = some r → Traces (f r) [g i r]) → Traces (Verif.Planner.loop l f) (l.mapIdx g) := by
  intro l
  induction l with
  | nil => intro g _; exact Traces.pure ()
  | cons r l ih =>
    intro g h
    rw [List.mapIdx_cons]
    exact Traces.bind (L := [g 0 r]) (h 0 r rfl) fun _ => ih fun i r' hr => h (i + 1) r' hr

theorem Traces.checkCompatible {y x : Vec} {f : Unit → M P V β} (h : y.part = x.part → Traces (f ()) L) :
    Traces (Verif.Vector.checkCompatible y x >>= f) L := by
  unfold Verif.Vector.checkCompatible
  rw [bind_assoc]
  refine Traces.require fun _ => ?_
  rw [bind_assoc]
  exact Traces.require fun _ => Traces.require fun h3 => h (of_decide_eq_true h3)

end

theorem noElements_scalarTask (f : Nat) (args : List Nat) (g : (Cell P → V) → V) : NoElements (scalarTask f args g) := by
  intro d p
  constructor
  · rintro ⟨a, -, h⟩; cases h
  · intro h; cases h

theorem traces_scalar (f : Nat) (args : List Nat) (g : (Cell P → V) → V) : Traces (K := K) (launch [scalarTask f args g]) [] :=
  Traces.launch (.scalar (noElements_scalarTask f args g) .nil)

theorem traces_scalarOf (a : V) : Traces (K := K) (scalarOf a : M P V Scalar) [] :=
  Traces.fresh fun n => Traces.bind (L := []) (traces_scalar n _ _) fun _ => Traces.pure _

theorem traces_unary (g : V → V) (a : Scalar) : Traces (K := K) (unary g a : M P V Scalar) [] :=
  Traces.fresh fun n => Traces.bind (L := []) (traces_scalar n _ _) fun _ => Traces.pure _

theorem traces_binary (g : V → V → V) (a b : Scalar) : Traces (K := K) (binary g a b : M P V Scalar) [] :=
  Traces.fresh fun n => Traces.bind (L := []) (traces_scalar n _ _) fun _ => Traces.pure _

theorem traces_dummy (A : Arith V) (l : List Scalar) : Traces (K := K) (dummyTask A l : M P V Scalar) [] :=
  Traces.fresh fun n => Traces.bind (L := []) (traces_scalar n _ _) fun _ => Traces.pure _

/-! ## Vector operations -/

/-- Tasks made from the pieces of a partition. -/
theorem realises_pieces (G : Geometry P) (v : Vec) (reqs : List (Requirement (K ⊕ P))) (f : List P → Task (Cell P) V)
    (h : ∀ c, Declares (f ((G.pieces v.part).getD c [])) ((over G v reqs).point c)) :
    Realises ((G.pieces v.part).map f) (points [over G v reqs]) := by
  rw [points_single, map_eq_range _ []]
  exact realises_range _ _ _ fun c _ => h c

variable (A : Arith V) (G : Geometry P)

theorem declares_two {t : Task (Cell P) V} {r r' : Requirement (K ⊕ P)} {v : Vec} {c : Nat}
    (h : ∀ d p, (t.reads (.elem d p) ↔ (r.priv ≠ .writeDiscard ∧ r.field = .vector d ∧ Sum.inr p ∈ r.part.piece c) ∨
        (r'.priv ≠ .writeDiscard ∧ r'.field = .vector d ∧ Sum.inr p ∈ r'.part.piece c)) ∧
      (t.writes (.elem d p) ↔ (r.priv ≠ .readOnly ∧ r.field = .vector d ∧ Sum.inr p ∈ r.part.piece c) ∨
        (r'.priv ≠ .readOnly ∧ r'.field = .vector d ∧ Sum.inr p ∈ r'.part.piece c))) :
    Declares t ((over G v [r, r']).point c) := by
  intro d p
  obtain ⟨h1, h2⟩ := h d p
  unfold IndexLaunch.point over
  simpa using ⟨h1, h2⟩

theorem declares_one {t : Task (Cell P) V} {r : Requirement (K ⊕ P)} {v : Vec} {c : Nat}
    (h : ∀ d p, (t.reads (.elem d p) ↔ (r.priv ≠ .writeDiscard ∧ r.field = .vector d ∧ Sum.inr p ∈ r.part.piece c)) ∧
      (t.writes (.elem d p) ↔ (r.priv ≠ .readOnly ∧ r.field = .vector d ∧ Sum.inr p ∈ r.part.piece c))) :
    Declares t ((over G v [r]).point c) := by
  intro d p
  obtain ⟨h1, h2⟩ := h d p
  unfold IndexLaunch.point over
  simpa using ⟨h1, h2⟩

theorem traces_fill (v : Vec) (a : V) : Traces (K := K) (constantFill G.toEnv v a) [fillLaunch G v] := by
  refine Traces.launch (realises_pieces G v _ _ fun c => declares_one G fun d p => ?_)
  show (False ↔ _) ∧ (inPiece v _ (.elem d p) ↔ _)
  simp [requirement, mem_vectorPart, inPiece_elem]

theorem traces_assign (dst src : Vec) : Traces (K := K) (assign G.toEnv dst src : M P V Unit) [copyLaunch G dst src] := by
  refine Traces.checkCompatible fun hp => Traces.launch (realises_pieces G dst _ _ fun c => declares_two G fun d p => ?_)
  show (inPiece src _ (.elem d p) ↔ _) ∧ (inPiece dst _ (.elem d p) ↔ _)
  simp [requirement, mem_vectorPart, inPiece_elem, ← hp]

theorem traces_scal (x : Vec) (a : Scalar) : Traces (K := K) (Verif.Vector.scal A G.toEnv x a) [scalLaunch G x] := by
  refine Traces.launch (realises_pieces G x _ _ fun c => declares_one G fun d p => ?_)
  show ((inPiece x _ (.elem d p) ∨ _) ↔ _) ∧ (inPiece x _ (.elem d p) ↔ _)
  simp [requirement, mem_vectorPart, inPiece_elem]

theorem traces_axpyTask (y x : Vec) (hp : y.part = x.part) (futs : List Nat) :
    Traces (K := K) (launch ((G.pieces y.part).map (axpyTask A y x futs))) [axpyLaunch G y x] := by
  refine Traces.launch (realises_pieces G y _ _ fun c => declares_two G fun d p => ?_)
  show ((inPiece y _ (.elem d p) ∨ inPiece x _ (.elem d p) ∨ _) ↔ _) ∧ (inPiece y _ (.elem d p) ↔ _)
  simp [requirement, mem_vectorPart, inPiece_elem, ← hp]

theorem traces_xpayTask (y x : Vec) (hp : y.part = x.part) (futs : List Nat) :
    Traces (K := K) (launch ((G.pieces y.part).map (xpayTask A y x futs))) [xpayLaunch G y x] := by
  refine Traces.launch (realises_pieces G y _ _ fun c => declares_two G fun d p => ?_)
  show ((inPiece y _ (.elem d p) ∨ inPiece x _ (.elem d p) ∨ _) ↔ _) ∧ (inPiece y _ (.elem d p) ↔ _)
  simp [requirement, mem_vectorPart, inPiece_elem, ← hp]

theorem mapIdx_eq_range {α β : Type} (l : List α) (d : α) (f : Nat → α → β) :
    l.mapIdx f = (List.range l.length).map fun c => f c (l.getD c d) := by
  apply List.ext_getElem?
  intro i
  rw [List.getElem?_mapIdx, List.getElem?_map]
  by_cases hi : i < l.length
  · rw [List.getElem?_eq_getElem hi, List.getElem?_range hi]
    simp [List.getD_eq_getElem?_getD, hi]
  · rw [List.getElem?_eq_none (by omega), List.getElem?_eq_none (by simp; omega)]
    rfl

theorem traces_dot (v w : Vec) : Traces (K := K) (Verif.Vector.dot A G.toEnv v w) [dotLaunch G v w] := by
  refine Traces.checkCompatible fun hp => Traces.fresh fun f => ?_
  refine Traces.bind (L := [dotLaunch G v w]) (L' := []) (Traces.launch ?_) fun _ => ?_
  · rw [points_single, mapIdx_eq_range _ []]
    refine realises_range _ _ _ fun c _ => declares_two G fun d p => ?_
    show ((inPiece v _ (.elem d p) ∨ inPiece w _ (.elem d p) ∨ _) ↔ _) ∧ (_ ↔ _)
    simp [requirement, mem_vectorPart, inPiece_elem, ← hp, dotTask]
  · refine Traces.bind (L := []) (L' := []) (Traces.launch (.scalar (fun d p => ⟨?_, ?_⟩) .nil)) fun _ => Traces.pure _
    · rintro ⟨k, -, h⟩; cases h
    · intro h; cases h

/-! ## Products -/

theorem zip_eq_range {α β γ δ : Type} (f : α → β × γ → δ) (a : List α) (b : List β) (c : List γ) (da : α) (db : β) (dc : γ)
    (hb : b.length = a.length) (hc : c.length = a.length) :
    List.zipWith f a (b.zip c) = (List.range a.length).map fun i => f (a.getD i da) (b.getD i db, c.getD i dc) := by
  apply List.ext_getElem?
  intro i
  by_cases hi : i < a.length
  · have h1 : (b.zip c)[i]? = some (b.getD i db, c.getD i dc) := by
      rw [List.getElem?_zip_eq_some, List.getElem?_eq_getElem (by omega), List.getElem?_eq_getElem (by omega)]
      simp [List.getD_eq_getElem?_getD, hi, hb, hc]
    rw [List.getElem?_map, List.getElem?_range hi, List.getElem?_zipWith, h1, List.getElem?_eq_getElem hi]
    simp [List.getD_eq_getElem?_getD, hi]
  · rw [List.getElem?_eq_none (by simp; omega), List.getElem?_eq_none (by simp; omega)]

theorem mapM_id_some {α : Type} : ∀ (l : List (Option α)) (ts : List α), l.mapM id = some ts → l = ts.map some := by
  intro l
  induction l with
  | nil => intro ts h; cases (Option.some.inj h); rfl
  | cons x l ih =>
    intro ts h
    rw [List.mapM_cons] at h
    obtain ⟨a, h1, h2⟩ := Option.bind_eq_some_iff.1 h
    obtain ⟨b, h3, h4⟩ := Option.bind_eq_some_iff.1 h2
    cases (Option.some.inj h4)
    have h1 : x = some a := h1
    rw [h1, ih b h3]
    rfl

theorem mem_pieces_inr {l : List (List P)} {c : Nat} {p : P} {n m : Nat} :
    (Sum.inr p : K ⊕ P) ∈ (⟨n, m, l.map fun x => x.map Sum.inr⟩ : Part (K ⊕ P)).piece c ↔ p ∈ l.getD c [] := by
  unfold Part.piece
  simp only [List.getD_eq_getElem?_getD, List.getElem?_map]
  cases l[c]? <;> simp

theorem traces_op (h : Handles) (m : Op K P V) (dst src : Vec) (n1 c1 : Nat) (kernel : List (List K)) (n2 c2 : Nat)
    (ghost : List (List P)) (hk : kernel.length = (G.pieces dst.part).length) (hg : ghost.length = (G.pieces dst.part).length) :
    Traces (m.matvec A G.toEnv dst src kernel ghost)
      [opLaunch G h m dst src ⟨n1, c1, kernel.map fun l => l.map .inl⟩ ⟨n2, c2, ghost.map fun l => l.map .inr⟩] := by
  cases m with
  | coo m =>
    refine Traces.launch ?_
    rw [points_single, zip_eq_range _ _ _ _ [] [] [] hk hg]
    refine realises_range _ _ _ fun c _ d p => ?_
    show ((inPiece dst _ (.elem d p) ∨ inPiece src _ (.elem d p)) ↔ _) ∧ (inPiece dst _ (.elem d p) ↔ _)
    simp [IndexLaunch.point, opLaunch, cooLaunch, over, requirement, mem_vectorPart, inPiece_elem, mem_pieces_inr]
  | csr m =>
    intro e b e' hb
    obtain ⟨ts, h1, h2⟩ := Option.bind_eq_some_iff.1 (show (_ : Option _).bind _ = some (b, e') from hb)
    have h3 := mapM_id_some _ _ h1
    refine Traces.launch (L := _) ?_ e b e' h2
    rw [points_single]
    rw [zip_eq_range _ _ _ _ [] [] [] hk hg] at h3
    have h4 : ts = (List.range (G.pieces dst.part).length).map fun c => ts.getD c ⟨fun _ => False, fun _ => False, []⟩ := by
      have hl : ts.length = (G.pieces dst.part).length := by
        have := congrArg List.length h3
        simpa using this.symm
      have := map_eq_range ts ⟨fun _ => False, fun _ => False, []⟩ id
      rw [List.map_id, hl] at this
      exact this
    rw [h4]
    refine realises_range _ _ _ fun c hc d p => ?_
    rw [List.mem_range] at hc
    have h5 := congrArg (fun l => l[c]?) h3
    simp only [List.getElem?_map, List.getElem?_range hc] at h5
    have h6 : ts[c]? = some (ts.getD c ⟨fun _ => False, fun _ => False, []⟩) := by
      have hl : ts.length = (G.pieces dst.part).length := by
        have := congrArg List.length h3
        simpa using this.symm
      rw [List.getElem?_eq_getElem (by omega), List.getD_eq_getElem?_getD, List.getElem?_eq_getElem (by omega)]
      rfl
    rw [h6] at h5
    have h7 := Option.some.inj h5
    generalize ts.getD c ⟨fun _ => False, fun _ => False, []⟩ = t at h7
    unfold csrTask at h7
    beta_reduce at h7
    split at h7
    · cases h7
      show ((inPiece dst _ (.elem d p) ∨ inPiece src _ (.elem d p)) ↔ _) ∧ (inPiece dst _ (.elem d p) ↔ _)
      simp [IndexLaunch.point, opLaunch, csrLaunch, over, requirement, mem_vectorPart, inPiece_elem, mem_pieces_inr]
    · cases h7

/-! ## Planner operations -/

variable (pl : Planner K P V) (H : Nat → Handles)

theorem traces_numSpaces {β : Type} {L : List (IndexLaunch (K ⊕ P))} {f : Nat → M P V β}
    (h : pl.sizesAgree = true → Traces (f pl.spaces.length) L) : Traces (pl.numSpaces >>= f) L := by
  unfold Planner.numSpaces
  rw [bind_assoc]
  exact Traces.require fun hs => by simpa using h hs

theorem perBlock_flatMap (f : Nat → IndexLaunch (K ⊕ P)) : perBlock pl f = (List.range pl.spaces.length).flatMap fun i => [f i] := by
  unfold perBlock
  induction List.range pl.spaces.length with
  | nil => rfl
  | cons a l ih => rw [List.map_cons, List.flatMap_cons, ih]; rfl

/-- An operation with one or two vectors per block. -/
theorem traces_blocks2 (d x : Nat) (g : Vec → Vec → M P V Unit) (L : Vec → Vec → IndexLaunch (K ⊕ P))
    (h : ∀ y v, Traces (g y v) [L y v]) :
    Traces (do let ns ← pl.numSpaces; loop (List.range ns) fun i => do let y ← pl.getVector d i; let v ← pl.getVector x i; g y v)
      (perBlock pl fun i => L ((pl.lookup d i).getD ⟨0, 0, 0, 0⟩) ((pl.lookup x i).getD ⟨0, 0, 0, 0⟩)) := by
  refine traces_numSpaces pl fun _ => ?_
  rw [perBlock_flatMap]
  refine Traces.loop fun i _ => Traces.getVector fun y hy => Traces.getVector fun v hv => ?_
  rw [hy, hv]
  exact h y v

theorem traces_zeroFill (d : Nat) : Traces (pl.zeroFill A G.toEnv d) (launches G pl H (.zeroFill d)) := by
  intro e b e' hb
  obtain ⟨l, h1, h2⟩ := Option.bind_eq_some_iff.1 (show (pl.blocksOf d).bind _ = some (b, e') from hb)
  have : launches G pl H (.zeroFill d) = l.flatMap fun v => [fillLaunch G v] := by
    show ((pl.blocksOf d).getD []).map (fillLaunch G) = _
    rw [h1, Option.getD_some]
    clear h1 h2
    induction l with
    | nil => rfl
    | cons a l ih => exact congrArg (fillLaunch G a :: ·) ih
  rw [this]
  exact Traces.loop (fun v _ => traces_fill G v A.zero) e b e' h2

theorem traces_copy (d x : Nat) : Traces (pl.copy G.toEnv d x) (launches G pl H (.copy d x)) :=
  traces_blocks2 pl d x _ (copyLaunch G) fun y v => traces_assign G y v

theorem traces_pscal (d : Nat) (a : Scalar) : Traces (pl.scal A G.toEnv d a) (launches G pl H (.scal d)) := by
  refine traces_numSpaces pl fun _ => ?_
  show Traces _ (perBlock pl _)
  rw [perBlock_flatMap]
  refine Traces.loop fun i _ => Traces.getVector fun y hy => ?_
  rw [hy]
  exact traces_scal A G y a

theorem traces_axpy (d x : Nat) (a : Scalar) : Traces (pl.axpy A G.toEnv d a x) (launches G pl H (.axpy d x)) :=
  traces_blocks2 pl d x _ (axpyLaunch G) fun y v => Traces.checkCompatible fun hp => traces_axpyTask A G y v hp _

theorem traces_axpy2 (d x : Nat) (a b : Scalar) : Traces (pl.axpy2 A G.toEnv d a b x) (launches G pl H (.axpy d x)) :=
  traces_blocks2 pl d x _ (axpyLaunch G) fun y v => Traces.checkCompatible fun hp => traces_axpyTask A G y v hp _

theorem traces_axpy3 (d x : Nat) (a b c : Scalar) : Traces (pl.axpy3 A G.toEnv d a b c x) (launches G pl H (.axpy d x)) :=
  traces_blocks2 pl d x _ (axpyLaunch G) fun y v => Traces.checkCompatible fun hp => traces_axpyTask A G y v hp _

theorem traces_xpay (d x : Nat) (a : Scalar) : Traces (pl.xpay A G.toEnv d a x) (launches G pl H (.xpay d x)) :=
  traces_blocks2 pl d x _ (xpayLaunch G) fun y v => Traces.checkCompatible fun hp => traces_xpayTask A G y v hp _

theorem traces_xpay2 (d x : Nat) (a b : Scalar) : Traces (pl.xpay2 A G.toEnv d a b x) (launches G pl H (.xpay d x)) :=
  traces_blocks2 pl d x _ (xpayLaunch G) fun y v => Traces.checkCompatible fun hp => traces_xpayTask A G y v hp _

theorem traces_dotLoop (v w : Nat) (l : List Nat) : ∀ r : Scalar, Traces (K := K) (pl.dotLoop A G.toEnv v w l r) (l.flatMap fun i =>
    [dotLaunch G ((pl.lookup v i).getD ⟨0, 0, 0, 0⟩) ((pl.lookup w i).getD ⟨0, 0, 0, 0⟩)]) := by
  induction l with
  | nil => exact fun r => Traces.pure r
  | cons i l ih =>
    intro r
    unfold Planner.dotLoop
    refine Traces.getVector fun y hy => Traces.getVector fun x hx => ?_
    rw [List.flatMap_cons, hy, hx]
    exact Traces.bind (traces_dot A G y x) fun d => Traces.bind (L := []) (traces_binary _ _ _) fun r' => ih r'

theorem traces_pdot (hpos : 0 < pl.spaces.length) (v w : Nat) : Traces (pl.dot A G.toEnv v w) (launches G pl H (.dot v w)) := by
  refine traces_numSpaces pl fun _ => ?_
  show Traces _ (perBlock pl _)
  have : List.range pl.spaces.length = 0 :: List.range' 1 (pl.spaces.length - 1) := by
    rw [List.range_eq_range']
    obtain ⟨n, hn⟩ : ∃ n, pl.spaces.length = n + 1 := ⟨pl.spaces.length - 1, by omega⟩
    rw [hn, List.range'_succ]
    rfl
  rw [perBlock_flatMap, this, List.flatMap_cons]
  refine Traces.getVector fun y hy => Traces.getVector fun x hx => ?_
  rw [hy, hx]
  exact Traces.bind (traces_dot A G y x) fun r => traces_dotLoop A G pl v w _ r

theorem traces_matvec {nw : Nat} (R : Ready G pl nw) (d x : Nat) :
    Traces (pl.matvec A G.toEnv d x) (launches G pl H (.matvec d x)) := by
  refine Traces.bind (traces_zeroFill A G pl H d) fun _ => Traces.loopIdx fun i r hr => ?_
  obtain ⟨h1, h2, h3, h4, -⟩ := R.ops r (List.mem_of_getElem? hr)
  refine Traces.getVector fun y hy => Traces.getVector fun v hv => ?_
  have hd : d < nw + 2 := by
    by_contra hc
    unfold Planner.lookup at hy
    rw [if_neg (by omega), if_neg (by omega), List.getElem?_eq_none (by rw [R.workspace]; omega)] at hy
    cases hy
  obtain ⟨y', hy', -, hp, -⟩ := R.blocks d r.rng hd h2
  rw [hy] at hy'
  cases hy'
  have hk : r.kernel.length = (G.pieces y.part).length := by
    rw [h3, hp]
    cases r.matrix <;> simp [Op.kernelFromRange, COO.kernelFromRange, CSR.kernelFromRange, byPreimage, byImageRange]
  have hg : r.ghost.length = (G.pieces y.part).length := by
    rw [← hk, h4]
    cases r.matrix <;> simp [Op.domainFromKernel, COO.domainFromKernel, CSR.domainFromKernel, byImage]
  unfold registeredLaunch
  rw [hy, hv]
  exact traces_op A G (H i) r.matrix y v _ _ r.kernel _ _ r.ghost hk hg

/-! ## Solvers -/

/-- Recorded calls and launched tasks. -/
def traceLift : Lift (StateM (List Call)) (M P V) where
  rel R m m' := ∀ l e b e', m' e = some (b, e') → ∃ a cs ts, m l = (a, l ++ cs) ∧ e'.out = e.out ++ ts ∧
    Realises ts (points (cs.flatMap (launches G pl H))) ∧ R a b
  pure {_ _ R a b} h := by
    intro l e b' e' hb
    have : (b, e) = (b', e') := Option.some.inj hb
    cases this
    exact ⟨a, [], [], by rw [List.append_nil]; rfl, (List.append_nil _).symm, .nil, h⟩
  bind {_ _ _ _ R Q x y f g} h h' := by
    intro l e b e' hb
    obtain ⟨⟨b1, e1⟩, h1, h2⟩ := Option.bind_eq_some_iff.1 (show (y e).bind (fun x => g x.1 x.2) = some (b, e') from hb)
    obtain ⟨a1, cs, ts, q1, q2, q3, q4⟩ := h l e b1 e1 h1
    obtain ⟨a, cs', ts', q5, q6, q7, q8⟩ := h' a1 b1 q4 (l ++ cs) e1 b e' h2
    refine ⟨a, cs ++ cs', ts ++ ts', ?_, by rw [q6, q2, List.append_assoc], ?_, q8⟩
    · show (match x l with | (a, l') => f a l') = _
      rw [q1]
      show f a1 (l ++ cs) = _
      rw [q5, List.append_assoc]
    · rw [List.flatMap_append, points_append]
      exact q3.append q7

theorem lift_call {c : Call} {m : M P V Unit} (h : Traces m (launches G pl H c)) :
    (traceLift G pl H).rel UU (modify (· ++ [c]) : StateM (List Call) Unit) m := by
  intro l e b e' hb
  obtain ⟨ts, h1, h2⟩ := h e b e' hb
  exact ⟨(), [c], ts, rfl, h1, by simpa using h2, trivial⟩

theorem lift_none {S : Type} {m : M P V S} (h : Traces (K := K) m []) :
    (traceLift G pl H).rel (fun _ _ => True) (Pure.pure () : StateM (List Call) Unit) m := by
  intro l e b e' hb
  obtain ⟨ts, h1, h2⟩ := h e b e' hb
  exact ⟨(), [], ts, by rw [List.append_nil]; rfl, h1, h2, trivial⟩

theorem opsRel {nw : Nat} (R : Ready G pl nw) (hpos : 0 < pl.spaces.length) :
    OpsRel (traceLift G pl H) (fun _ _ => True) recordOps (plannerOps A G.toEnv pl) where
  negOne := lift_none G pl H (traces_scalarOf _)
  zero := lift_none G pl H (traces_scalarOf _)
  one := lift_none G pl H (traces_scalarOf _)
  neg _ _ _ := lift_none G pl H (traces_unary _ _)
  mul _ _ _ _ _ _ := lift_none G pl H (traces_binary _ _ _)
  div _ _ _ _ _ _ := lift_none G pl H (traces_binary _ _ _)
  sqrt _ _ _ := lift_none G pl H (traces_unary _ _)
  rsqrt _ a _ := lift_none G pl H (traces_unary (fun x => A.div A.one (A.sqrt x)) a)
  zeroFill d := lift_call G pl H (traces_zeroFill A G pl H d)
  copy d x := lift_call G pl H (traces_copy G pl H d x)
  scal d _ a _ := lift_call G pl H (traces_pscal A G pl H d a)
  axpy d _ a x _ := lift_call G pl H (traces_axpy A G pl H d x a)
  axpy2 d _ a _ b x _ _ := lift_call G pl H (traces_axpy2 A G pl H d x a b)
  axpy3 d _ a _ b _ c x _ _ _ := lift_call G pl H (traces_axpy3 A G pl H d x a b c)
  xpay d _ a x _ := lift_call G pl H (traces_xpay A G pl H d x a)
  xpay2 d _ a _ b x _ _ := lift_call G pl H (traces_xpay2 A G pl H d x a b)
  dot v w := by
    intro l e b e' hb
    obtain ⟨ts, h1, h2⟩ := traces_pdot A G pl H hpos v w e b e' hb
    exact ⟨(), [.dot v w], ts, rfl, h1, by simpa using h2, trivial⟩
  matvec d x := lift_call G pl H (traces_matvec A G pl H R d x)
  dummy _ _ _ := lift_none G pl H (traces_dummy A _)

end Verif.Launch
