import Verif.Programs.Model
import Verif.Programs.Spec

/-! # C64: printed scalars -/
set_option linter.dupNamespace false
set_option linter.unusedSectionVars false
namespace Verif.Programs
open Verif.Runtime Verif.Vector

variable {P V α : Type} [DecidableEq P]

/-- The tasks of `printLoop`. -/
def printTasks (A : Arith V) : Nat → List Scalar → Scalar → List (Task (Cell P) V)
  | _, [], _ => []
  | n, a :: l, d => scalarTask n [a.fut, d.fut] (fun _ => A.zero) :: printTasks A (n + 1) l ⟨n⟩

/-- Its jobs. -/
def printJobs : Nat → List Scalar → List (PrintJob (Cell P))
  | _, [] => []
  | i, a :: l => ⟨i, .fut a.fut⟩ :: printJobs (i + 1) l

theorem printLoop_eq (A : Arith V) (l : List Scalar) : ∀ (d : Scalar) (n : Nat) (out : List (Task (Cell P) V)),
    printLoop A l d ⟨n, out⟩ = some (printJobs out.length l, ⟨n + l.length, out ++ printTasks A n l d⟩) := by
  induction l with
  | nil => intro d n out; simp [printLoop, printJobs, printTasks]; rfl
  | cons a l ih =>
    intro d n out
    have h1 : printLoop A (a :: l) d ⟨n, out⟩ =
        (printLoop A l ⟨n⟩ ⟨n + 1, out ++ [scalarTask n [a.fut, d.fut] fun _ => A.zero]⟩).bind fun r =>
          some (⟨out.length, .fut a.fut⟩ :: r.1, r.2) := rfl
    rw [h1, ih]
    simp [printJobs, printTasks]
    omega

theorem printTasks_honest (A : Arith V) (l : List Scalar) : ∀ (n : Nat) (d : Scalar), ∀ t ∈ printTasks (P := P) A n l d, t.Honest := by
  induction l with
  | nil => intro n d t ht; cases ht
  | cons a l ih =>
    intro n d t ht
    rcases List.mem_cons.1 ht with rfl | ht
    · intro u hu
      rw [show u = ⟨.fut n, fun _ => A.zero⟩ from List.mem_singleton.1 hu]
      exact ⟨rfl, fun _ _ _ => rfl⟩
    · exact ih _ _ t ht

theorem printTasks_length (A : Arith V) (l : List Scalar) : ∀ (n : Nat) (d : Scalar),
    (printTasks (P := P) A n l d).length = l.length := by
  induction l with
  | nil => intros; rfl
  | cons a l ih => intro n d; simp [printTasks, ih]

theorem printJobs_length (l : List Scalar) : ∀ i, (printJobs (P := P) i l).length = l.length := by
  induction l with
  | nil => intros; rfl
  | cons a l ih => intro n; simp [printJobs, ih]

theorem printTasks_get (A : Arith V) (l : List Scalar) : ∀ (n : Nat) (d : Scalar) (i : Nat) (a : Scalar), l[i]? = some a →
    ∃ e : Nat, (i = 0 → e = d.fut) ∧ (∀ k, i = k + 1 → e = n + k) ∧
      (printTasks (P := P) A n l d)[i]? = some (scalarTask (n + i) [a.fut, e] fun _ => A.zero) := by
  induction l with
  | nil => intro n d i a h; simp at h
  | cons b l ih =>
    intro n d i a h
    cases i with
    | zero =>
      have : b = a := by simpa using h
      subst this
      exact ⟨d.fut, fun _ => rfl, fun k hk => (by omega), rfl⟩
    | succ i =>
      obtain ⟨e, h1, h2, h3⟩ := ih (n + 1) ⟨n⟩ i a (by simpa using h)
      refine ⟨e, fun h => (by cases h), fun k hk => ?_, ?_⟩
      · obtain rfl : i = k := by omega
        cases i with
        | zero => exact h1 rfl
        | succ j => rw [h2 j rfl]; omega
      · show (printTasks (P := P) A (n + 1) l ⟨n⟩)[i]? = _
        rw [h3, show n + 1 + i = n + (i + 1) from by omega]

theorem printJobs_get (l : List Scalar) : ∀ (N i : Nat), (printJobs (P := P) N l)[i]? =
    (l[i]?).map fun a => ⟨N + i, .fut a.fut⟩ := by
  induction l with
  | nil => intro N i; simp [printJobs]
  | cons a l ih =>
    intro N i
    cases i with
    | zero => simp [printJobs]
    | succ i =>
      show (printJobs (P := P) (N + 1) l)[i]? = _
      rw [ih, show N + 1 + i = N + (i + 1) from by omega]
      simp

theorem printChain (A : Arith V) (l : List Scalar) (n : Nat) (d : Scalar) (ts : List (Task (Cell P) V)) :
    PrintChain (ts ++ printTasks A n l d) (printJobs ts.length l) := by
  refine ⟨fun j hj => ?_, fun i a b ha hb => ?_⟩
  · obtain ⟨i, hi⟩ := List.getElem?_of_mem hj
    rw [printJobs_get] at hi
    obtain ⟨a, h1, rfl⟩ := Option.map_eq_some_iff.1 hi
    obtain ⟨e, -, -, h3⟩ := printTasks_get (P := P) A l n d i a h1
    refine ⟨scalarTask (n + i) [a.fut, e] (fun _ => A.zero), ⟨.fut (n + i), fun _ => A.zero⟩, ?_, rfl, ⟨a.fut, by simp, rfl⟩⟩
    simp only
    rw [List.getElem?_append_right (by omega), Nat.add_sub_cancel_left, h3]
  · rw [printJobs_get] at ha hb
    obtain ⟨a', h1, rfl⟩ := Option.map_eq_some_iff.1 ha
    obtain ⟨b', h2, rfl⟩ := Option.map_eq_some_iff.1 hb
    refine ⟨by simp, fun t t' ht ht' => ?_⟩
    obtain ⟨e, -, -, h3⟩ := printTasks_get (P := P) A l n d i a' h1
    obtain ⟨e', -, h5, h6⟩ := printTasks_get (P := P) A l n d (i + 1) b' h2
    simp only at ht ht'
    rw [List.getElem?_append_right (by omega), Nat.add_sub_cancel_left, h3] at ht
    rw [List.getElem?_append_right (by omega), Nat.add_sub_cancel_left, h6] at ht'
    cases ht
    cases ht'
    refine ⟨.fut (n + i), Or.inl ⟨rfl, Or.inl ⟨e', by simp, ?_⟩⟩⟩
    rw [h5 i rfl]

/-- Printing changes only futures that did not exist before. -/
theorem run_printTasks (A : Arith V) (l : List Scalar) : ∀ (n : Nat) (d : Scalar) (i : Nat) (s : Cell P → V) (c : Cell P),
    (∀ f, n ≤ f → c ≠ .fut f) → runTasks s ((printTasks A n l d).take i) c = s c := by
  induction l with
  | nil => intro n d i s c _; simp [printTasks]; rfl
  | cons a l ih =>
    intro n d i s c hc
    cases i with
    | zero => rfl
    | succ i =>
      show runTasks (runUpdates s (scalarTask n [a.fut, d.fut] fun _ => A.zero).body) ((printTasks A (n + 1) l ⟨n⟩).take i) c = s c
      rw [ih _ _ _ _ _ (fun f hf => hc f (by omega))]
      show Update.exec s ⟨.fut n, fun _ => A.zero⟩ c = s c
      unfold Update.exec
      rw [if_neg (hc n (Nat.le_refl n))]

/-- A program, followed by printing some of the scalars it leaves. -/
def thenPrint (A : Arith V) (m : M P V α) (l : α → List Scalar) : M P V (α × List (PrintJob (Cell P))) := do
  let a ← m
  let jobs ← printAll A (l a)
  pure (a, jobs)

theorem Runs.thenPrint {A : Arith V} {m : M P V α} {n n' : Nat} {s s' : Cell P → V} {a : α} (h : Runs m n s a n' s')
    (l : α → List Scalar) (hl : ∀ x ∈ l a, x.fut < n') : EnsuresOutput (Programs.thenPrint A m l) n s fun a' out σ =>
      a' = a ∧ out = (l a).map (fun x => s' (.fut x.fut)) ∧ ∀ c, (∀ f, n' ≤ f → c ≠ .fut f) → σ c = s' c := by
  have hd : Runs (do let a ← m; let d ← scalarOf A.zero; pure (a, d)) n s (a, ⟨n'⟩) (n' + 1) (setFut s' n' A.zero) :=
    h.bind ((Runs.scalarOf A.zero n' s').bind (Runs.pure _ _ _))
  obtain ⟨ts, e, o, r⟩ := hd
  have hs : ∀ c : Cell P, (∀ f, n' ≤ f → c ≠ .fut f) → runTasks s ts c = s' c := by
    intro c hc
    rw [r]
    cases c with
    | fut f =>
      rw [setFut_fut, if_neg fun e => hc n' (Nat.le_refl _) (by rw [e])]
    | elem d p => rfl
    | part f k => rfl
  have hrun : Programs.thenPrint A m l ⟨n, []⟩ = some ((a, printJobs ts.length (l a)),
      ⟨n' + 1 + (l a).length, ts ++ printTasks A (n' + 1) (l a) ⟨n'⟩⟩) := by
    have h1 : Programs.thenPrint A m l ⟨n, []⟩ =
        ((do let a ← m; let d ← scalarOf A.zero; pure (a, d) : M P V (α × Scalar)) ⟨n, []⟩).bind fun r =>
          (printLoop A (l r.1.1) r.1.2 r.2).bind fun q => some ((r.1.1, q.1), q.2) := by
      unfold Programs.thenPrint printAll
      show ((m ⟨n, []⟩).bind _) = (((m ⟨n, []⟩).bind _).bind _)
      cases m ⟨n, []⟩ with
      | none => rfl
      | some r => rfl
    rw [h1, e]
    show (printLoop A (l a) ⟨n'⟩ ⟨n' + 1, [] ++ ts⟩).bind _ = _
    rw [printLoop_eq]
    rfl
  refine ⟨a, _, _, _, hrun, ?_, fun log M' hlog hdone => ⟨rfl, ?_, ?_⟩⟩
  · obtain ⟨M', h1, h2⟩ := c42_complete_execution_exists (Machine.start s (ts ++ printTasks A (n' + 1) (l a) ⟨n'⟩))
    obtain ⟨log, h3⟩ := h1.logged
    exact ⟨log, M', h3, h2⟩
  all_goals
    have hon : ∀ t ∈ ts ++ printTasks A (n' + 1) (l a) ⟨n'⟩, t.Honest := by
      intro t ht
      rcases List.mem_append.1 ht with h | h
      · exact o t h
      · exact printTasks_honest A _ _ _ t h
  · rw [chain_output s _ hon _ (printChain A (l a) (n' + 1) ⟨n'⟩ ts) log M' hlog hdone]
    apply List.ext_getElem?
    intro i
    rw [List.getElem?_map, List.getElem?_map, printJobs_get, Option.map_map]
    cases hx : (l a)[i]? with
    | none => rfl
    | some x =>
      simp only [Option.map_some, Function.comp_apply]
      congr 1
      rw [List.take_length_add_append, runTasks_append]
      have hlt := hl x (List.mem_of_getElem? hx)
      rw [run_printTasks A _ _ _ _ _ _ fun f hf e => by injection e with e; omega]
      exact hs _ fun f hf e => by injection e with e; omega
  · intro c hc
    rw [c42_any_schedule s _ hon M' hlog.steps hdone, runTasks_append]
    have := run_printTasks A (l a) (n' + 1) ⟨n'⟩ (l a).length (runTasks s ts) c fun f hf => hc f (by omega)
    rw [List.take_of_length_le (by rw [printTasks_length])] at this
    rw [this, hs c hc]

/-! ## Prints followed by more work -/

/-- A program that prints some scalars with the loop and then goes on. -/
def printThen {β : Type} (A : Arith V) (m : M P V α) (l : α → List Scalar) (k : α → M P V β) :
    M P V (β × List (PrintJob (Cell P))) := do
  let a ← m
  let jobs ← printAll A (l a)
  let b ← k a
  pure (b, jobs)

theorem printChain_append {ts : List (Task (Cell P) V)} {jobs : List (PrintJob (Cell P))} (h : PrintChain ts jobs)
    (us : List (Task (Cell P) V)) : PrintChain (ts ++ us) jobs := by
  have hlt : ∀ j ∈ jobs, j.number < ts.length := by
    intro j hj
    obtain ⟨t, u, h1, -⟩ := h.task j hj
    exact (List.getElem?_eq_some_iff.1 h1).1
  refine ⟨fun j hj => ?_, fun i a b ha hb => ⟨(h.order i a b ha hb).1, fun t t' ht ht' => ?_⟩⟩
  · obtain ⟨t, u, h1, h2⟩ := h.task j hj
    exact ⟨t, u, by rw [List.getElem?_append_left (hlt j hj)]; exact h1, h2⟩
  · rw [List.getElem?_append_left (hlt _ (List.mem_of_getElem? ha))] at ht
    rw [List.getElem?_append_left (hlt _ (List.mem_of_getElem? hb))] at ht'
    exact (h.order i a b ha hb).2 t t' ht ht'

theorem Runs.printAll (A : Arith V) (l : List Scalar) (n : Nat) (s : Cell P → V) :
    ∃ ts, (∀ out, Programs.printAll A l ⟨n, out⟩ = some (printJobs (out.length + 1) l, ⟨n + 1 + l.length, out ++ ts⟩)) ∧
      (∀ t ∈ ts, t.Honest) ∧ (∀ out, PrintChain (out ++ ts) (printJobs (out.length + 1) l)) ∧
      ∀ i c, (∀ f, n ≤ f → c ≠ .fut f) → runTasks s (ts.take i) c = s c := by
  refine ⟨scalarTask n [] (fun _ => A.zero) :: printTasks A (n + 1) l ⟨n⟩, fun out => ?_, ?_, fun out => ?_, ?_⟩
  · show (printLoop A l ⟨n⟩ ⟨n + 1, out ++ [scalarTask n [] fun _ => A.zero]⟩) = _
    rw [printLoop_eq]
    simp
  · intro t ht
    rcases List.mem_cons.1 ht with rfl | ht
    · intro u hu
      rw [show u = ⟨.fut n, fun _ => A.zero⟩ from List.mem_singleton.1 hu]
      exact ⟨rfl, fun _ _ _ => rfl⟩
    · exact printTasks_honest A _ _ _ t ht
  · have := printChain A l (n + 1) ⟨n⟩ (out ++ [scalarTask n [] fun _ => A.zero])
    simpa using this
  · intro i c hc
    cases i with
    | zero => rfl
    | succ i =>
      show runTasks (runUpdates s (scalarTask n [] fun _ => A.zero).body) ((printTasks A (n + 1) l ⟨n⟩).take i) c = s c
      rw [run_printTasks A _ _ _ _ _ _ fun f hf => hc f (by omega)]
      show Update.exec s ⟨.fut n, fun _ => A.zero⟩ c = s c
      unfold Update.exec
      rw [if_neg (hc n (Nat.le_refl n))]

/-- The output of the loop is not affected by what the program does afterwards, however it is interleaved with it. -/
theorem Runs.printThen {β : Type} {A : Arith V} {m : M P V α} {n n' : Nat} {s s' : Cell P → V} {a : α} (h : Runs m n s a n' s')
    (l : α → List Scalar) (hl : ∀ x ∈ l a, x.fut < n') (k : α → M P V β)
    (hk : ∀ σ : Cell P → V, (∀ c, (∀ f, n' ≤ f → c ≠ .fut f) → σ c = s' c) → ∃ b n'' σ', Runs (k a) (n' + 1 + (l a).length) σ b n'' σ') :
    EnsuresOutput (Programs.printThen A m l k) n s fun _ out _ => out = (l a).map fun x => s' (.fut x.fut) := by
  obtain ⟨ts, e, o, r⟩ := h
  obtain ⟨ps, e1, o1, c1, r1⟩ := Runs.printAll A (l a) n' s'
  obtain ⟨b, n'', σ', us, e2, o2, r2⟩ := hk (runTasks s' ps) fun c hc => by
    have := r1 ps.length c hc
    rwa [List.take_of_length_le (Nat.le_refl _)] at this
  have hrun : Programs.printThen A m l k ⟨n, []⟩ = some ((b, printJobs (ts.length + 1) (l a)), ⟨n'', (ts ++ ps) ++ us⟩) := by
    show ((m ⟨n, []⟩).bind fun r => (Programs.printAll A (l r.1) r.2).bind fun q => (k r.1 q.2).bind fun z =>
      some ((z.1, q.1), z.2)) = _
    rw [e]
    show ((Programs.printAll A (l a) ⟨n', [] ++ ts⟩).bind fun q => (k a q.2).bind fun z => some ((z.1, q.1), z.2)) = _
    rw [e1]
    show ((k a ⟨_, [] ++ ts ++ ps⟩).bind fun z => some ((z.1, _), z.2)) = _
    rw [e2]
    rfl
  have hon : ∀ t ∈ (ts ++ ps) ++ us, t.Honest := by
    intro t ht
    rcases List.mem_append.1 ht with h | h
    · rcases List.mem_append.1 h with h | h
      · exact o t h
      · exact o1 t h
    · exact o2 t h
  refine ⟨b, _, _, _, hrun, ?_, fun log M' hlog hdone => ?_⟩
  · obtain ⟨M', h1, h2⟩ := c42_complete_execution_exists (Machine.start s ((ts ++ ps) ++ us))
    obtain ⟨log, h3⟩ := h1.logged
    exact ⟨log, M', h3, h2⟩
  · rw [chain_output s _ hon _ (printChain_append (c1 ts) us) log M' hlog hdone]
    apply List.ext_getElem?
    intro i
    rw [List.getElem?_map, List.getElem?_map, printJobs_get, Option.map_map]
    cases hx : (l a)[i]? with
    | none => rfl
    | some x =>
      simp only [Option.map_some, Function.comp_apply]
      congr 1
      have hi := (List.getElem?_eq_some_iff.1 hx).1
      have hlen : ts.length + 1 + i ≤ (ts ++ ps).length := by
        obtain ⟨t, u, h1, -⟩ := (c1 ts).task ⟨ts.length + 1 + i, .fut x.fut⟩ (List.mem_of_getElem? (i := i) (by rw [printJobs_get, hx]; rfl))
        have := (List.getElem?_eq_some_iff.1 h1).1
        exact Nat.le_of_lt this
      rw [List.take_append_of_le_length hlen, show ts.length + 1 + i = ts.length + (1 + i) from by omega,
        List.take_length_add_append, runTasks_append, r]
      exact r1 _ _ fun f hf e => by
        injection e with e
        have := hl x (List.mem_of_getElem? hx)
        omega

/-! ## Prints without order -/

/-- `x.print()` for each scalar of a list, ignoring the results. -/
def printEach (A : Arith V) : List Scalar → M P V (List (PrintJob (Cell P)))
  | [] => pure []
  | a :: l => do
    let r ← sPrint A a
    let js ← printEach A l
    pure (r.2 :: js)

/-- A program, followed by printing some of the scalars it leaves, in no particular order. -/
def thenPrintEach (A : Arith V) (m : M P V α) (l : α → List Scalar) : M P V (α × List (PrintJob (Cell P))) := do
  let a ← m
  let jobs ← printEach A (l a)
  pure (a, jobs)

def eachTasks (A : Arith V) : Nat → List Scalar → List (Task (Cell P) V)
  | _, [] => []
  | n, a :: l => scalarTask n [a.fut] (fun _ => A.zero) :: eachTasks A (n + 1) l

theorem printEach_eq (A : Arith V) (l : List Scalar) : ∀ (n : Nat) (out : List (Task (Cell P) V)),
    printEach A l ⟨n, out⟩ = some (printJobs out.length l, ⟨n + l.length, out ++ eachTasks A n l⟩) := by
  induction l with
  | nil => intro n out; simp [printEach, printJobs, eachTasks]; rfl
  | cons a l ih =>
    intro n out
    have h1 : printEach A (a :: l) ⟨n, out⟩ =
        (printEach A l ⟨n + 1, out ++ [scalarTask n [a.fut] fun _ => A.zero]⟩).bind fun r =>
          some (⟨out.length, .fut a.fut⟩ :: r.1, r.2) := rfl
    rw [h1, ih]
    simp [printJobs, eachTasks]
    omega

theorem eachTasks_honest (A : Arith V) (l : List Scalar) : ∀ (n : Nat), ∀ t ∈ eachTasks (P := P) A n l, t.Honest := by
  induction l with
  | nil => intro n t ht; cases ht
  | cons a l ih =>
    intro n t ht
    rcases List.mem_cons.1 ht with rfl | ht
    · intro u hu
      rw [show u = ⟨.fut n, fun _ => A.zero⟩ from List.mem_singleton.1 hu]
      exact ⟨rfl, fun _ _ _ => rfl⟩
    · exact ih _ t ht

theorem eachTasks_get (A : Arith V) (l : List Scalar) : ∀ (n i : Nat) (a : Scalar), l[i]? = some a →
    (eachTasks (P := P) A n l)[i]? = some (scalarTask (n + i) [a.fut] fun _ => A.zero) := by
  induction l with
  | nil => intro n i a h; simp at h
  | cons b l ih =>
    intro n i a h
    cases i with
    | zero =>
      have : b = a := by simpa using h
      subst this
      rfl
    | succ i =>
      show (eachTasks (P := P) A (n + 1) l)[i]? = _
      rw [ih (n + 1) i a (by simpa using h), show n + 1 + i = n + (i + 1) from by omega]

theorem run_eachTasks (A : Arith V) (l : List Scalar) : ∀ (n : Nat) (i : Nat) (s : Cell P → V) (c : Cell P),
    (∀ f, n ≤ f → c ≠ .fut f) → runTasks s ((eachTasks A n l).take i) c = s c := by
  induction l with
  | nil => intro n i s c _; simp [eachTasks]; rfl
  | cons a l ih =>
    intro n i s c hc
    cases i with
    | zero => rfl
    | succ i =>
      show runTasks (runUpdates s (scalarTask n [a.fut] fun _ => A.zero).body) ((eachTasks A (n + 1) l).take i) c = s c
      rw [ih _ _ _ _ (fun f hf => hc f (by omega))]
      show Update.exec s ⟨.fut n, fun _ => A.zero⟩ c = s c
      unfold Update.exec
      rw [if_neg (hc n (Nat.le_refl n))]

theorem printJobs_nodup (l : List Scalar) : ∀ N, (printJobs (P := P) N l).Nodup ∧ ∀ j ∈ printJobs (P := P) N l, N ≤ j.number := by
  induction l with
  | nil => intro N; exact ⟨List.nodup_nil, fun j h => by cases h⟩
  | cons a l ih =>
    intro N
    obtain ⟨h1, h2⟩ := ih (N + 1)
    refine ⟨List.nodup_cons.2 ⟨fun h => ?_, h1⟩, fun j hj => ?_⟩
    · have := h2 _ h
      simp only at this
      omega
    · rcases List.mem_cons.1 hj with rfl | hj
      · exact Nat.le_refl _
      · have := h2 j hj
        omega

theorem prints_each (A : Arith V) (l : List Scalar) (n : Nat) (ts : List (Task (Cell P) V)) :
    Prints (ts ++ eachTasks A n l) (printJobs ts.length l) := by
  refine ⟨fun j hj => ?_, fun j hj j' hj' e => ?_, (printJobs_nodup l _).1⟩
  · obtain ⟨i, hi⟩ := List.getElem?_of_mem hj
    rw [printJobs_get] at hi
    obtain ⟨a, h1, rfl⟩ := Option.map_eq_some_iff.1 hi
    refine ⟨scalarTask (n + i) [a.fut] (fun _ => A.zero), ⟨.fut (n + i), fun _ => A.zero⟩, ?_, rfl, ⟨a.fut, by simp, rfl⟩⟩
    simp only
    rw [List.getElem?_append_right (by omega), Nat.add_sub_cancel_left, eachTasks_get A l n i a h1]
  · obtain ⟨i, hi⟩ := List.getElem?_of_mem hj
    obtain ⟨i', hi'⟩ := List.getElem?_of_mem hj'
    have h1 := hi
    have h2 := hi'
    rw [printJobs_get] at h1 h2
    obtain ⟨a, -, rfl⟩ := Option.map_eq_some_iff.1 h1
    obtain ⟨a', -, rfl⟩ := Option.map_eq_some_iff.1 h2
    have : i = i' := by simp only at e; omega
    subst this
    rw [hi] at hi'
    exact Option.some.inj hi'

theorem Runs.thenPrintEach {A : Arith V} {m : M P V α} {n n' : Nat} {s s' : Cell P → V} {a : α} (h : Runs m n s a n' s')
    (l : α → List Scalar) (hl : ∀ x ∈ l a, x.fut < n') : EnsuresOutput (Programs.thenPrintEach A m l) n s fun a' out _ =>
      a' = a ∧ out.Perm ((l a).map fun x => s' (.fut x.fut)) := by
  obtain ⟨ts, e, o, r⟩ := h
  have hrun : Programs.thenPrintEach A m l ⟨n, []⟩ = some ((a, printJobs ts.length (l a)), ⟨n' + (l a).length, ts ++ eachTasks A n' (l a)⟩) := by
    show ((m ⟨n, []⟩).bind fun r => (printEach A (l r.1) r.2).bind fun q => some ((r.1, q.1), q.2)) = _
    rw [e]
    show ((printEach A (l a) ⟨n', [] ++ ts⟩).bind fun q => some ((a, q.1), q.2)) = _
    rw [printEach_eq]
    rfl
  have hon : ∀ t ∈ ts ++ eachTasks A n' (l a), t.Honest := by
    intro t ht
    rcases List.mem_append.1 ht with h | h
    · exact o t h
    · exact eachTasks_honest A _ _ t h
  refine ⟨a, _, _, _, hrun, ?_, fun log M' hlog hdone => ⟨rfl, ?_⟩⟩
  · obtain ⟨M', h1, h2⟩ := c42_complete_execution_exists (Machine.start s (ts ++ eachTasks A n' (l a)))
    obtain ⟨log, h3⟩ := h1.logged
    exact ⟨log, M', h3, h2⟩
  · have hp := prints_output s _ hon _ (prints_each A (l a) n' ts) log M' hlog hdone
    have heq : ((printJobs ts.length (l a)).map fun j => runTasks s ((ts ++ eachTasks A n' (l a)).take j.number) j.cell) =
        (l a).map fun x => s' (.fut x.fut) := by
      apply List.ext_getElem?
      intro i
      rw [List.getElem?_map, List.getElem?_map, printJobs_get, Option.map_map]
      cases hx : (l a)[i]? with
      | none => rfl
      | some x =>
        simp only [Option.map_some, Function.comp_apply]
        congr 1
        rw [List.take_length_add_append, runTasks_append, r]
        exact run_eachTasks A _ _ _ _ _ fun f hf e => by
          injection e with e
          have := hl x (List.mem_of_getElem? hx)
          omega
    rw [← heq]
    exact hp

/-! ## C64 -/

/-- **C64.**  A program that prints scalars with the loop `dummy = x.print(dummy)` prints each exactly once, in loop order, with the
value the scalar has when the program is executed one call after the other, under every schedule, whatever the program launched before
and launches afterwards. -/
theorem c64_print_loop {β : Type} {A : Arith V} {m : M P V α} {n n' : Nat} {s s' : Cell P → V} {a : α} (h : Runs m n s a n' s')
    (l : α → List Scalar) (hl : ∀ x ∈ l a, x.fut < n') (k : α → M P V β)
    (hk : ∀ σ : Cell P → V, (∀ c, (∀ f, n' ≤ f → c ≠ .fut f) → σ c = s' c) → ∃ b n'' σ', Runs (k a) (n' + 1 + (l a).length) σ b n'' σ') :
    EnsuresOutput (printThen A m l k) n s fun _ out _ => out = (l a).map fun x => s' (.fut x.fut) :=
  Runs.printThen h l hl k hk

/-- **C64.**  Printing leaves memory and every scalar the program held as they were. -/
theorem c64_print_only_prints {A : Arith V} {m : M P V α} {n n' : Nat} {s s' : Cell P → V} {a : α} (h : Runs m n s a n' s')
    (l : α → List Scalar) (hl : ∀ x ∈ l a, x.fut < n') : EnsuresOutput (thenPrint A m l) n s fun a' out σ =>
      a' = a ∧ out = (l a).map (fun x => s' (.fut x.fut)) ∧ ∀ c, (∀ f, n' ≤ f → c ≠ .fut f) → σ c = s' c :=
  Runs.thenPrint h l hl

/-- **C64.**  Without the chain each scalar is still printed exactly once with its value; only the order is open. -/
theorem c64_print_each {A : Arith V} {m : M P V α} {n n' : Nat} {s s' : Cell P → V} {a : α} (h : Runs m n s a n' s')
    (l : α → List Scalar) (hl : ∀ x ∈ l a, x.fut < n') : EnsuresOutput (thenPrintEach A m l) n s fun a' out _ =>
      a' = a ∧ out.Perm ((l a).map fun x => s' (.fut x.fut)) :=
  Runs.thenPrintEach h l hl

end Verif.Programs
