import Verif.Matrix.Model
import Verif.Vector.ProgramLemmas

/-! Helper lemmas for matrix-vector products. -/
set_option linter.unusedSectionVars false
namespace Verif.Matrix
open Verif.Runtime Verif.Vector

variable {K P V : Type} [DecidableEq P] [DecidableEq K]

/-- Accumulate products onto `a`, in list order. -/
def accList (A : Arith V) (x : P → V) (a : V) (T : List (P × P × V)) : V :=
  T.foldl (fun a t => A.add a (A.mul t.2.2 (x t.2.1))) a

def accs (A : Arith V) (dst src : Vec) (T : List (P × P × V)) : List (Update (Cell P) V) :=
  T.map fun t => accumulate A dst src t.1 t.2.1 t.2.2

theorem run_accs (A : Arith V) (dst src : Vec) (hne : src.data ≠ dst.data) (T : List (P × P × V)) :
    ∀ s : Cell P → V, (∀ p, runUpdates s (accs A dst src T) (.elem dst.data p) =
      accList A (fun q => s (.elem src.data q)) (s (.elem dst.data p)) (T.filter fun t => decide (t.1 = p))) ∧
    ∀ c, (∀ t ∈ T, c ≠ .elem dst.data t.1) → runUpdates s (accs A dst src T) c = s c := by
  induction T with
  | nil => intro s; exact ⟨fun _ => rfl, fun _ _ => rfl⟩
  | cons t T ih =>
    intro s
    obtain ⟨i1, i2⟩ := ih (Update.exec s (accumulate A dst src t.1 t.2.1 t.2.2))
    have hsrc : (fun q => Update.exec s (accumulate A dst src t.1 t.2.1 t.2.2) (.elem src.data q)) =
        fun q => s (.elem src.data q) := by
      funext q
      have : Cell.elem src.data q ≠ Cell.elem dst.data t.1 := fun e => hne (by injection e)
      simp [Update.exec, accumulate, this]
    constructor
    · intro p
      show runUpdates (Update.exec s _) (accs A dst src T) _ = _
      rw [i1 p, hsrc]
      by_cases hp : t.1 = p
      · subst hp
        rw [List.filter_cons_of_pos (by simp)]
        simp only [accList, List.foldl_cons]
        congr 1
        simp [Update.exec, accumulate]
      · rw [List.filter_cons_of_neg (by simpa using hp)]
        have : Cell.elem dst.data p ≠ Cell.elem dst.data t.1 := fun e => hp (by injection e with _ e; exact e.symm)
        simp [Update.exec, accumulate, this]
    · intro c hc
      show runUpdates (Update.exec s _) (accs A dst src T) _ = _
      rw [i2 c (fun t ht => hc t (List.mem_cons_of_mem _ ht))]
      have := hc t (List.mem_cons_self ..)
      simp [Update.exec, accumulate, this]

/-- A launch whose point tasks are accumulations. -/
theorem run_acc_launch (A : Arith V) (dst src : Vec) (hne : src.data ≠ dst.data) (space : List P)
    (Ts : List (List (P × P × V))) (ts : List (Task (Cell P) V)) (hb : ts.map (·.body) = Ts.map (accs A dst src))
    (hin : ∀ T ∈ Ts, ∀ t ∈ T, t.1 ∈ space) (s : Cell P → V) :
    runTasks s ts = setVec s dst space fun p =>
      accList A (fun q => s (.elem src.data q)) (s (.elem dst.data p)) (Ts.flatten.filter fun t => decide (t.1 = p)) := by
  have h1 : ∀ (ts : List (Task (Cell P) V)) (s : Cell P → V), runTasks s ts = runUpdates s (ts.map (·.body)).flatten := by
    intro ts
    induction ts with
    | nil => intro s; rfl
    | cons t ts ih => intro s; rw [runTasks_cons, ih, List.map_cons, List.flatten_cons, runUpdates_append]
  have h2 : ∀ Ts : List (List (P × P × V)), (Ts.map (accs A dst src)).flatten = accs A dst src Ts.flatten := by
    intro Ts
    induction Ts with
    | nil => rfl
    | cons T Ts ih => rw [List.map_cons, List.flatten_cons, ih, List.flatten_cons]; simp [accs]
  rw [h1, hb, h2]
  obtain ⟨r1, r2⟩ := run_accs A dst src hne Ts.flatten s
  funext c
  have hout : ∀ t ∈ Ts.flatten, t.1 ∈ space := by
    intro t ht
    obtain ⟨T, hT, ht⟩ := List.mem_flatten.1 ht
    exact hin T hT t ht
  cases c with
  | elem d p =>
    rw [setVec_elem]
    split
    · next h =>
      obtain ⟨rfl, hp⟩ := h
      exact r1 p
    · next h =>
      refine r2 _ ?_
      intro t ht e
      injection e with e1 e2
      exact h ⟨e1, e2 ▸ hout t ht⟩
  | part f k => exact r2 _ (fun t _ e => by cases e)
  | fut f => exact r2 _ (fun t _ e => by cases e)

/-- Only the piece containing `p` contributes to `p`. -/
theorem filter_pieces (T : List P → List (P × P × V)) (p : P) (G : List (P × P × V)) (pieces : List (List P))
    (hnd : pieces.flatten.Nodup) (hp : p ∈ pieces.flatten)
    (h1 : ∀ pc ∈ pieces, p ∈ pc → (T pc).filter (fun t => decide (t.1 = p)) = G)
    (h2 : ∀ pc ∈ pieces, p ∉ pc → (T pc).filter (fun t => decide (t.1 = p)) = []) :
    (pieces.map T).flatten.filter (fun t => decide (t.1 = p)) = G := by
  induction pieces with
  | nil => cases hp
  | cons pc pieces ih =>
    rw [List.map_cons, List.flatten_cons, List.filter_append]
    rw [List.flatten_cons] at hnd hp
    have hnd' := List.nodup_append.1 hnd
    by_cases hpc : p ∈ pc
    · rw [h1 pc (List.mem_cons_self ..) hpc]
      have : ((pieces.map T).flatten.filter fun t => decide (t.1 = p)) = [] := by
        have hno : ∀ pc' ∈ pieces, p ∉ pc' := by
          intro pc' hm hp'
          exact hnd'.2.2 p hpc p (List.mem_flatten.2 ⟨pc', hm, hp'⟩) rfl
        clear ih hnd hp hnd' h1
        induction pieces with
        | nil => rfl
        | cons pc' pieces ih' =>
          rw [List.map_cons, List.flatten_cons, List.filter_append,
            h2 pc' (by simp) (hno pc' (List.mem_cons_self ..)), List.nil_append]
          refine ih' ?_ (fun pc h => hno pc (List.mem_cons_of_mem _ h))
          intro pc2 hm
          exact h2 pc2 (by rcases List.mem_cons.1 hm with rfl | h <;> simp [*])
      rw [this, List.append_nil]
    · rw [h2 pc (List.mem_cons_self ..) hpc, List.nil_append]
      have hp' : p ∈ pieces.flatten := by
        rcases List.mem_append.1 hp with h | h
        · exact absurd h hpc
        · exact h
      exact ih hnd'.2.1 hp' (fun pc h => h1 pc (List.mem_cons_of_mem _ h)) (fun pc h => h2 pc (List.mem_cons_of_mem _ h))

/-! ## COO -/

def COO.triple (m : COO K P V) (k : K) : P × P × V := (m.row k, m.col k, m.entry k)

theorem cooTask_honest (A : Arith V) (m : COO K P V) (dst src : Vec) (out : List P) (kp : List K) (inp : List P) :
    (cooTask A m dst src out kp inp).Honest := by
  intro u hu
  obtain ⟨k, hk, hu⟩ := List.mem_filterMap.1 hu
  split at hu
  · next hg =>
    injection hu with hu
    subst hu
    refine ⟨⟨_, hg.2, rfl⟩, fun s s' h => ?_⟩
    show A.add _ (A.mul _ _) = A.add _ (A.mul _ _)
    rw [h _ (Or.inl ⟨_, hg.2, rfl⟩), h _ (Or.inr ⟨_, hg.1, rfl⟩)]
  · cases hu

theorem cooTask_body (A : Arith V) (m : COO K P V) (dst src : Vec) (out : List P) (kp : List K) (inp : List P) :
    (cooTask A m dst src out kp inp).body =
      accs A dst src ((kp.filter fun k => decide (m.col k ∈ inp ∧ m.row k ∈ out)).map m.triple) := by
  unfold cooTask accs
  simp only
  rw [List.map_map]
  induction kp with
  | nil => rfl
  | cons k kp ih =>
    rw [List.filterMap_cons, List.filter_cons]
    by_cases h : m.col k ∈ inp ∧ m.row k ∈ out
    · simp only [h, and_self, if_true, decide_true]
      rw [List.map_cons, ← ih]
      rfl
    · simp only [h, if_false, decide_false]
      exact ih

/-- Pieces of a COO product launch with arbitrary partitions. -/
theorem zip_map_body (pieces : List (List P)) (f : List P → List K) (g : List P → List P)
    (mk : List P → List K → List P → Task (Cell P) V) :
    List.zipWith (fun out (ki : List K × List P) => mk out ki.1 ki.2) pieces ((pieces.map f).zip (pieces.map g)) =
      pieces.map fun pc => mk pc (f pc) (g pc) := by
  induction pieces with
  | nil => rfl
  | cons pc l ih => simp [List.zip_cons_cons] at ih ⊢; exact ih

theorem COO.derived_zip (m : COO K P V) (dspace : List P) (pieces : List (List P)) :
    (m.kernelFromRange pieces).zip (m.domainFromRange dspace pieces) =
      (pieces.map fun pc => m.kernel.filter fun k => decide (m.row k ∈ pc)).zip
      (pieces.map fun pc => dspace.filter fun p => decide (p ∈ (m.kernel.filter fun k => decide (m.row k ∈ pc)).map m.col)) := by
  unfold COO.domainFromRange COO.domainFromKernel COO.kernelFromRange byImage byPreimage
  rw [List.map_map]
  rfl

/-- The COO product with library-derived partitions, as a store transformer; any arithmetic. -/
theorem Runs.cooMatvec (A : Arith V) (E : Env P) (m : COO K P V) (dst src : Vec) (hne : src.data ≠ dst.data)
    (space dspace : List P) (hp : IsPartition space (E.pieces dst.part)) (hcol : ∀ k ∈ m.kernel, m.col k ∈ dspace)
    (n : Nat) (s : Cell P → V) :
    Runs (m.matvec A E dst src (m.kernelFromRange (E.pieces dst.part)) (m.domainFromRange dspace (E.pieces dst.part))) n s
      () n (setVec s dst space fun p => accList A (fun q => s (.elem src.data q)) (s (.elem dst.data p))
        ((m.kernel.filter fun k => decide (m.row k = p)).map m.triple)) := by
  unfold COO.matvec
  rw [m.derived_zip, zip_map_body]
  refine (Runs.launch _ n s ?_).cast ?_
  · intro t ht
    obtain ⟨pc, -, rfl⟩ := List.mem_map.1 ht
    exact cooTask_honest A m dst src _ _ _
  · have hT : ∀ pc : List P, ((m.kernel.filter fun k => decide (m.row k ∈ pc)).filter fun k =>
        decide (m.col k ∈ (dspace.filter fun p => decide (p ∈ (m.kernel.filter fun k => decide (m.row k ∈ pc)).map m.col)) ∧
          m.row k ∈ pc)) = m.kernel.filter fun k => decide (m.row k ∈ pc) := by
      intro pc
      rw [List.filter_eq_self]
      intro k hk
      have hk' := List.mem_filter.1 hk
      have h2 : m.row k ∈ pc := by simpa using hk'.2
      rw [decide_eq_true_iff]
      refine ⟨?_, h2⟩
      rw [List.mem_filter]
      exact ⟨hcol k hk'.1, by rw [decide_eq_true_iff]; exact List.mem_map.2 ⟨k, hk, rfl⟩⟩
    rw [run_acc_launch A dst src hne space
      ((E.pieces dst.part).map fun pc => (m.kernel.filter fun k => decide (m.row k ∈ pc)).map m.triple)]
    · refine setVec_congr s dst _ _ (fun _ => Iff.rfl) ?_
      intro p hps
      rw [filter_pieces _ p ((m.kernel.filter fun k => decide (m.row k = p)).map m.triple) _ hp.1 ((hp.2 p).2 hps)]
      · intro pc _ hpc
        rw [List.filter_map, List.filter_filter]
        congr 1
        apply List.filter_congr
        intro k _
        by_cases h : m.row k = p
        · simp [COO.triple, h, hpc]
        · simp [COO.triple, h]
      · intro pc _ hpc
        rw [List.filter_map, List.filter_filter]
        have : (m.kernel.filter fun a => ((fun t => decide (t.1 = p)) ∘ m.triple) a && decide (m.row a ∈ pc)) = [] := by
          rw [List.filter_eq_nil_iff]
          intro k _
          simp only [Function.comp, COO.triple, Bool.and_eq_true, decide_eq_true_iff, not_and]
          intro h
          rw [of_decide_eq_true h]
          exact hpc
        rw [this]
        rfl
    · rw [List.map_map, List.map_map]
      apply List.map_congr_left
      intro pc _
      show (cooTask _ _ _ _ _ _ _).body = _
      rw [cooTask_body, hT]
      rfl
    · intro T hT t ht
      obtain ⟨pc, hpc, rfl⟩ := List.mem_map.1 hT
      obtain ⟨k, hk, rfl⟩ := List.mem_map.1 ht
      have : m.row k ∈ pc := by simpa using (List.mem_filter.1 hk).2
      exact (hp.2 _).1 (List.mem_flatten.2 ⟨pc, hpc, this⟩)

/-! ## CSR -/

theorem findRow_some (m : CSR K P V) (k : K) (pts : List P) : ∀ (r : Option P) (p : P),
    pts.foldl (fun found p => if m.range p k then some p else found) r = some p →
    (p ∈ pts ∧ m.range p k = true) ∨ r = some p := by
  induction pts with
  | nil => intro r p h; exact Or.inr h
  | cons q l ih =>
    intro r p h
    rw [List.foldl_cons] at h
    rcases ih _ p h with ⟨h1, h2⟩ | h1
    · exact Or.inl ⟨List.mem_cons_of_mem _ h1, h2⟩
    · split at h1
      · next hr =>
        injection h1 with h1
        subst h1
        exact Or.inl ⟨List.mem_cons_self .., hr⟩
      · exact Or.inr h1

theorem findRow_isSome (m : CSR K P V) (k : K) (pts : List P) : ∀ (r : Option P),
    ((∃ p ∈ pts, m.range p k = true) ∨ r.isSome) →
    (pts.foldl (fun found p => if m.range p k then some p else found) r).isSome := by
  induction pts with
  | nil =>
    intro r h
    rcases h with ⟨p, hp, _⟩ | h
    · cases hp
    · exact h
  | cons q l ih =>
    intro r h
    rw [List.foldl_cons]
    apply ih
    rcases h with ⟨p, hp, hr⟩ | h
    · rcases List.mem_cons.1 hp with rfl | hp
      · right; rw [if_pos hr]; rfl
      · exact Or.inl ⟨p, hp, hr⟩
    · right
      split
      · rfl
      · exact h

theorem findRow_eq (m : CSR K P V) (hd : m.RowsDisjoint) (k : K) (hk : k ∈ m.kernel) (pts : List P)
    (hpts : ∀ p ∈ pts, p ∈ m.rows) (p : P) : m.findRow pts k = some p ↔ p ∈ pts ∧ m.range p k = true := by
  constructor
  · intro h
    rcases findRow_some m k pts none p h with h | h
    · exact h
    · cases h
  · rintro ⟨hp, hr⟩
    have := findRow_isSome m k pts none (Or.inl ⟨p, hp, hr⟩)
    obtain ⟨q, hq⟩ := Option.isSome_iff_exists.1 this
    rcases findRow_some m k pts none q hq with ⟨h1, h2⟩ | h
    · rw [show m.findRow pts k = some q from hq, hd k hk p q (hpts p hp) (hpts q h1) hr h2]
    · cases h

/-- The task `csrTask` yields when the assertion holds. -/
def csrTask' (A : Arith V) (m : CSR K P V) (dst src : Vec) (out : List P) (kp : List K) (inp : List P) : Task (Cell P) V where
  reads c := inPiece dst out c ∨ inPiece src inp c
  writes c := inPiece dst out c
  body := kp.filterMap fun k =>
    match m.findRow out k with
    | some row => if m.col k ∈ inp ∧ row ∈ out then some (accumulate A dst src row (m.col k) (m.entry k)) else none
    | none => none

theorem csrTask_eq (A : Arith V) (m : CSR K P V) (dst src : Vec) (out : List P) (kp : List K) (inp : List P)
    (h : ∀ k ∈ kp, (m.findRow out k).isSome) : csrTask A m dst src out kp inp = some (csrTask' A m dst src out kp inp) := by
  unfold csrTask
  rw [if_pos (List.all_eq_true.2 h)]
  rfl

theorem csrTask'_honest (A : Arith V) (m : CSR K P V) (dst src : Vec) (out : List P) (kp : List K) (inp : List P) :
    (csrTask' A m dst src out kp inp).Honest := by
  intro u hu
  obtain ⟨k, hk, hu⟩ := List.mem_filterMap.1 hu
  split at hu
  · next row _ =>
    split at hu
    · next hg =>
      injection hu with hu
      subst hu
      refine ⟨⟨_, hg.2, rfl⟩, fun s s' h => ?_⟩
      show A.add _ (A.mul _ _) = A.add _ (A.mul _ _)
      rw [h _ (Or.inl ⟨_, hg.2, rfl⟩), h _ (Or.inr ⟨_, hg.1, rfl⟩)]
    · cases hu
  · cases hu

/-- Triples accumulated by one CSR task. -/
def CSR.triples (m : CSR K P V) (out : List P) (kp : List K) : List (P × P × V) :=
  kp.filterMap fun k => (m.findRow out k).map fun row => (row, m.col k, m.entry k)

theorem csrTask'_body (A : Arith V) (m : CSR K P V) (hd : m.RowsDisjoint) (dst src : Vec) (out : List P)
    (hout : ∀ p ∈ out, p ∈ m.rows) (kp : List K) (hkp : ∀ k ∈ kp, k ∈ m.kernel) (inp : List P)
    (hin : ∀ k ∈ kp, m.col k ∈ inp) : (csrTask' A m dst src out kp inp).body = accs A dst src (m.triples out kp) := by
  unfold csrTask' accs CSR.triples
  simp only
  induction kp with
  | nil => rfl
  | cons k kp ih =>
    have ih' := ih (fun k h => hkp k (List.mem_cons_of_mem _ h)) (fun k h => hin k (List.mem_cons_of_mem _ h))
    rw [List.filterMap_cons, List.filterMap_cons]
    cases hf : m.findRow out k with
    | none => simpa [hf] using ih'
    | some row =>
      have hr := (findRow_eq m hd k (hkp k (List.mem_cons_self ..)) out hout row).1 hf
      simp only [Option.map_some, hin k (List.mem_cons_self ..), hr.1, and_self, if_true, List.map_cons]
      rw [ih']

theorem mapM_some {α β : Type} (l : List α) (f : α → β) : (l.map fun a => some (f a)).mapM id = some (l.map f) := by
  induction l with
  | nil => rfl
  | cons a l ih =>
    rw [List.map_cons, List.mapM_cons, ih]
    rfl

theorem Runs.launchOption (o : Option (List (Task (Cell P) V))) (ts : List (Task (Cell P) V)) (h : o = some ts)
    (hh : ∀ t ∈ ts, t.Honest) (n : Nat) (s : Cell P → V) :
    Runs (fun e => o.bind fun ts => launch ts e : M P V Unit) n s () n (runTasks s ts) := by
  subst h
  exact Runs.launch ts n s hh

/-- The CSR product with library-derived partitions; any arithmetic. -/
theorem Runs.csrMatvec (A : Arith V) (E : Env P) (m : CSR K P V) (hd : m.RowsDisjoint) (dst src : Vec)
    (hne : src.data ≠ dst.data) (dspace : List P) (hp : IsPartition m.rows (E.pieces dst.part))
    (hcol : ∀ k ∈ m.kernel, m.col k ∈ dspace) (n : Nat) (s : Cell P → V) :
    Runs (m.matvec A E dst src (m.kernelFromRange (E.pieces dst.part)) (m.domainFromRange dspace (E.pieces dst.part))) n s
      () n (setVec s dst m.rows fun p => accList A (fun q => s (.elem src.data q)) (s (.elem dst.data p))
        ((m.kernel.filter fun k => m.range p k).map fun k => (p, m.col k, m.entry k))) := by
  let kOf : List P → List K := fun pc => m.kernel.filter fun k => pc.any fun p => m.range p k
  let gOf : List P → List P := fun pc => dspace.filter fun p => decide (p ∈ (kOf pc).map m.col)
  have hpcs : ∀ pc ∈ E.pieces dst.part, ∀ p ∈ pc, p ∈ m.rows := fun pc hpc p hpp =>
    (hp.2 p).1 (List.mem_flatten.2 ⟨pc, hpc, hpp⟩)
  have hzip : List.zipWith (fun out (ki : List K × List P) => csrTask A m dst src out ki.1 ki.2) (E.pieces dst.part)
      ((m.kernelFromRange (E.pieces dst.part)).zip (m.domainFromRange dspace (E.pieces dst.part))) =
      (E.pieces dst.part).map fun pc => some (csrTask' A m dst src pc (kOf pc) (gOf pc)) := by
    have : (m.domainFromRange dspace (E.pieces dst.part)) = (E.pieces dst.part).map gOf := by
      unfold CSR.domainFromRange CSR.domainFromKernel CSR.kernelFromRange byImage byImageRange
      rw [List.map_map]
      rfl
    rw [this]
    show List.zipWith _ _ (((E.pieces dst.part).map kOf).zip ((E.pieces dst.part).map gOf)) = _
    have gen : ∀ pieces : List (List P), (∀ pc ∈ pieces, ∀ k ∈ kOf pc, (m.findRow pc k).isSome) →
        List.zipWith (fun out (ki : List K × List P) => csrTask A m dst src out ki.1 ki.2) pieces
          ((pieces.map kOf).zip (pieces.map gOf)) =
        pieces.map fun pc => some (csrTask' A m dst src pc (kOf pc) (gOf pc)) := by
      intro pieces
      induction pieces with
      | nil => intro _; rfl
      | cons pc l ih =>
        intro h
        simp only [List.map_cons, List.zip_cons_cons, List.zipWith_cons_cons]
        rw [csrTask_eq A m dst src pc (kOf pc) (gOf pc) (h pc (List.mem_cons_self ..))]
        congr 1
        exact ih (fun pc hpc => h pc (List.mem_cons_of_mem _ hpc))
    apply gen
    intro pc _ k hk
    have := (List.mem_filter.1 hk).2
    obtain ⟨p, hpp, hr⟩ := List.any_eq_true.1 this
    exact findRow_isSome m k pc none (Or.inl ⟨p, hpp, hr⟩)
  unfold CSR.matvec
  rw [hzip, mapM_some]
  refine (Runs.launchOption _ _ rfl ?_ n s).cast ?_
  · intro t ht
    obtain ⟨pc, -, rfl⟩ := List.mem_map.1 ht
    exact csrTask'_honest A m dst src _ _ _
  · rw [run_acc_launch A dst src hne m.rows ((E.pieces dst.part).map fun pc => m.triples pc (kOf pc))]
    · refine setVec_congr s dst _ _ (fun _ => Iff.rfl) ?_
      intro p hps
      have key : ∀ pc ∈ E.pieces dst.part, ∀ ks : List K, (∀ k ∈ ks, k ∈ m.kernel) →
          (m.triples pc ks).filter (fun t => decide (t.1 = p)) =
          (ks.filter fun k => decide (p ∈ pc) && m.range p k).map fun k => (p, m.col k, m.entry k) := by
        intro pc hpc ks
        induction ks with
        | nil => intro _; rfl
        | cons k ks ih =>
          intro hks
          have ih' := ih (fun k h => hks k (List.mem_cons_of_mem _ h))
          have hf := findRow_eq m hd k (hks k (List.mem_cons_self ..)) pc (hpcs pc hpc)
          unfold CSR.triples at ih' ⊢
          rw [List.filterMap_cons]
          cases hr : m.findRow pc k with
          | none =>
            simp only [Option.map_none]
            rw [ih', List.filter_cons_of_neg]
            intro hc
            simp only [Bool.and_eq_true, decide_eq_true_iff] at hc
            rw [(hf p).2 hc] at hr
            cases hr
          | some row =>
            simp only [Option.map_some]
            by_cases he : row = p
            · subst he
              have := (hf row).1 hr
              rw [List.filter_cons_of_pos (by simp), ih', List.filter_cons_of_pos (by simp [this])]
              rfl
            · rw [List.filter_cons_of_neg (by simpa using he), ih', List.filter_cons_of_neg]
              intro hc
              simp only [Bool.and_eq_true, decide_eq_true_iff] at hc
              rw [(hf p).2 hc] at hr
              injection hr with hr
              exact he hr.symm
      have hk : ∀ pc, ∀ k ∈ kOf pc, k ∈ m.kernel := fun pc k h => (List.mem_filter.1 h).1
      rw [filter_pieces _ p ((m.kernel.filter fun k => m.range p k).map fun k => (p, m.col k, m.entry k)) _ hp.1
        ((hp.2 p).2 hps)]
      · intro pc hpc hpp
        rw [key pc hpc _ (hk pc)]
        congr 1
        show List.filter _ (List.filter _ _) = _
        rw [List.filter_filter]
        apply List.filter_congr
        intro k _
        by_cases hr : m.range p k = true
        · have : (pc.any fun p => m.range p k) = true := List.any_eq_true.2 ⟨p, hpp, hr⟩
          simp [hpp, hr, this]
        · simp [hr]
      · intro pc hpc hpp
        rw [key pc hpc _ (hk pc)]
        have : ((kOf pc).filter fun k => decide (p ∈ pc) && m.range p k) = [] := by
          rw [List.filter_eq_nil_iff]
          intro k _
          simp [hpp]
        rw [this]; rfl
    · rw [List.map_map, List.map_map]
      apply List.map_congr_left
      intro pc hpc
      refine csrTask'_body A m hd dst src pc (hpcs pc hpc) (kOf pc) (fun k h => (List.mem_filter.1 h).1) (gOf pc) ?_
      intro k hk
      rw [List.mem_filter]
      exact ⟨hcol k (List.mem_filter.1 hk).1, by rw [decide_eq_true_iff]; exact List.mem_map.2 ⟨k, hk, rfl⟩⟩
    · intro T hT t ht
      obtain ⟨pc, hpc, rfl⟩ := List.mem_map.1 hT
      obtain ⟨k, hk, hk2⟩ := List.mem_filterMap.1 ht
      obtain ⟨row, hr, rfl⟩ := Option.map_eq_some_iff.1 hk2
      have := (findRow_eq m hd k (List.mem_filter.1 hk).1 pc (hpcs pc hpc) row).1 hr
      exact hpcs pc hpc row this.1

theorem accList_exact [Field V] {A : Arith V} (hA : A.Exact) (x : P → V) (a : V) (T : List (P × P × V)) :
    accList A x a T = a + (T.map fun t => t.2.2 * x t.2.1).sum := by
  unfold accList
  simp only [hA.add, hA.mul]
  exact foldl_add_sum (fun t : P × P × V => t.2.2 * x t.2.1) T a

end Verif.Matrix
