import Verif.Build.Refresh
/-! # C90: make_all.py and build_legion.py -/
set_option linter.unusedSectionVars false
set_option linter.dupNamespace false
namespace Verif.Build

/-! ## make_all.py -/

/-- The command that builds. -/
def buildCommand : List Text := ["cmake".toList, "--build".toList, ".".toList, "--parallel".toList]

/-- What `make_all.py` has done: `done` are the configurations it has built, each with the file system the command was given. -/
structure Built (E : Ext) (s : Site) (cs : List Config) (w : World) (done : List (Config × FS)) (rest : List Config)
    (r : Except Exc Unit × World) : Prop where
  /-- Configurations are those with a build directory, in order. -/
  which : cs.filter (fun c => w.fs (buildOf s c) = some .dir) = done.map (·.1) ++ rest
  cwd : r.2.cwd = w.cwd
  log : r.2.log = w.log ++ done.map fun d => (buildOf s d.1, buildCommand)
  /-- Nothing else is touched. -/
  others : ∀ q, (∀ d ∈ done, ¬ buildOf s d.1 <+: q) → r.2.fs q = w.fs q
  /-- A command finds its build directory as it was before. -/
  given : ∀ d ∈ done, ∀ q, (buildOf s d.1 <+: q ∨ ¬ s.scratch ++ ["LegionSolversBuild".toList] <+: q) → d.2 q = w.fs q
  made : ∀ d ∈ done, ∀ q, buildOf s d.1 <+: q → r.2.fs q = (E (buildOf s d.1) buildCommand d.2).2 q
  ends : (r.1 = .ok () ∧ rest = [] ∧ ∀ d ∈ done, (E (buildOf s d.1) buildCommand d.2).1 = .exited 0) ∨
    ∃ l d, done = l ++ [d] ∧ (∀ d ∈ l, (E (buildOf s d.1) buildCommand d.2).1 = .exited 0) ∧
      (E (buildOf s d.1) buildCommand d.2).1 ≠ .exited 0 ∧
      r.1 = .error (if (E (buildOf s d.1) buildCommand d.2).1 = .missing then .osError else .calledProcess)

/-- One configuration of `make_all.py`. -/
def makeOne (E : Ext) (s : Site) (c : Config) : Py Unit := do
  if ← isDir (s.buildPath c.tag c.cuda c.kokkos c.build) then
    changeDirectory (s.buildPath c.tag c.cuda c.kokkos c.build) (run E buildCommand)
  else pure ()

theorem makeAll_eq (E : Ext) (s : Site) (bs : List Branch) (ts : List (Text × Text)) :
    makeAll E s (rows3 bs) (rows2 ts) = forEach (configs bs ts) (makeOne E s) := by
  rw [configs_forEach]
  unfold makeAll rows3 rows2
  simp only [forEach_map, unpack3, unpack2, pure_bind']
  rfl

theorem makeOne_skip (E : Ext) (s : Site) (c : Config) (w : World) (h : w.fs (buildOf s c) ≠ some .dir) : makeOne E s c w = (.ok (), w) := by
  have h' : isDir (s.buildPath c.tag c.cuda c.kokkos c.build) w = (.ok false, w) := by
    unfold isDir
    rw [show (w.fs (s.buildPath c.tag c.cuda c.kokkos c.build) == some .dir) = false from beq_false_of_ne h]
  unfold makeOne
  rw [bind_ok h']
  rfl

theorem makeOne_run {E : Ext} (hE : StaysInside E) (s : Site) (c : Config) (w : World) (h : w.fs (buildOf s c) = some .dir)
    (hw : w.fs w.cwd = some .dir) (ho : ¬ buildOf s c <+: w.cwd) :
    makeOne E s c w = (asResult (E (buildOf s c) buildCommand w.fs).1, ranIn E (buildOf s c) buildCommand w) := by
  have h' : isDir (s.buildPath c.tag c.cuda c.kokkos c.build) w = (.ok true, w) := by
    unfold isDir
    rw [show (w.fs (s.buildPath c.tag c.cuda c.kokkos c.build) == some .dir) = true from beq_iff_eq.2 h]
  unfold makeOne
  rw [bind_ok h']
  simp only [if_true]
  have hd := (c90_change_directory (buildOf s c) (run E buildCommand) w).1 h
  rw [run_result] at hd
  refine (hd ?_).trans rfl
  show (E (buildOf s c) _ w.fs).2 w.cwd = some .dir
  rw [hE _ _ _ _ ho, hw]

theorem make_list {E : Ext} (hE : StaysInside E) (s : Site) (cs : List Config) (hcs : cs.Pairwise fun c c' => buildOf s c ≠ buildOf s c')
    (w : World) (hw : w.fs w.cwd = some .dir) (ho : ¬ s.scratch ++ ["LegionSolversBuild".toList] <+: w.cwd) :
    ∃ done rest, Built E s cs w done rest (forEach cs (makeOne E s) w) := by
  induction cs generalizing w with
  | nil =>
    exact ⟨[], [], rfl, rfl, (List.append_nil _).symm, fun _ _ => rfl, fun d hd => absurd hd (List.not_mem_nil),
      fun d hd => absurd hd (List.not_mem_nil), .inl ⟨rfl, rfl, fun d hd => absurd hd (List.not_mem_nil)⟩⟩
  | cons c cs ih =>
    have hcs' := List.pairwise_cons.1 hcs
    show ∃ done rest, Built E s (c :: cs) w done rest ((makeOne E s c >>= fun _ => forEach cs (makeOne E s)) w)
    by_cases hl : w.fs (buildOf s c) = some .dir
    · have hrun := makeOne_run hE s c w hl hw (cwd_outside s c w ho)
      have hfil : (c :: cs).filter (fun c => w.fs (buildOf s c) = some .dir) =
          c :: cs.filter (fun c => w.fs (buildOf s c) = some .dir) := List.filter_cons_of_pos (by simpa using hl)
      by_cases hex : (E (buildOf s c) buildCommand w.fs).1 = .exited 0
      · rw [asResult_ok hex] at hrun
        rw [bind_ok hrun]
        generalize hw1 : ranIn E (buildOf s c) buildCommand w = w1
        have hfs : w1.fs = (E (buildOf s c) buildCommand w.fs).2 := by rw [← hw1]; rfl
        have hcwd : w1.cwd = w.cwd := by rw [← hw1]; rfl
        have hlog : w1.log = w.log ++ [(buildOf s c, buildCommand)] := by rw [← hw1]; rfl
        have hk : ∀ q, ¬ buildOf s c <+: q → w1.fs q = w.fs q := fun q hq => by rw [hfs]; exact hE _ _ _ _ hq
        have hne : ∀ c' ∈ cs, ∀ q, buildOf s c' <+: q → ¬ buildOf s c <+: q := fun c' hc' q hq hp =>
          hcs'.1 c' hc' (prefix_eq (by rw [buildOf_length, buildOf_length])
            (List.prefix_of_prefix_length_le hp hq (Nat.le_of_eq (by rw [buildOf_length, buildOf_length]))))
        have hfil1 : cs.filter (fun c => w1.fs (buildOf s c) = some .dir) = cs.filter (fun c => w.fs (buildOf s c) = some .dir) :=
          List.filter_congr fun c' hc' => by simp only [hk _ (hne c' hc' _ (List.prefix_refl _))]
        obtain ⟨done, rest, ⟨r1, r2, r3, r4, r5, r6, r7⟩⟩ := ih hcs'.2 w1 (by rw [hcwd, hk _ (cwd_outside s c w ho)]; exact hw)
          (by rw [hcwd]; exact ho)
        rw [hcwd] at r2
        rw [hfil1] at r1
        have hdone : ∀ d ∈ done, d.1 ∈ cs := fun d hd =>
          (List.mem_filter.1 (r1 ▸ List.mem_append_left _ (List.mem_map_of_mem hd) : d.1 ∈ cs.filter _)).1
        refine ⟨(c, w.fs) :: done, rest, ?_, r2, ?_, ?_, ?_, ?_, ?_⟩
        · rw [hfil, r1]; rfl
        · rw [r3, hlog]; simp
        · intro q hq
          rw [r4 q fun d hd => hq d (List.mem_cons_of_mem _ hd)]
          exact hk q (hq _ (List.mem_cons_self ..))
        · intro d hd q hq
          rcases List.mem_cons.1 hd with rfl | hd
          · rfl
          · refine (r5 d hd q hq).trans (hk q ?_)
            rcases hq with hq | hq
            · exact hne d.1 (hdone d hd) q hq
            · exact fun hp => hq ((base_prefix s c).trans hp)
        · intro d hd q hq
          rcases List.mem_cons.1 hd with rfl | hd
          · rw [r4 q fun d hd hp => hne d.1 (hdone d hd) q hp hq, hfs]
          · exact r6 d hd q hq
        · rcases r7 with ⟨e1, e2, e3⟩ | ⟨l, d, e1, e2, e3, e4⟩
          · refine .inl ⟨e1, e2, fun d hd => ?_⟩
            rcases List.mem_cons.1 hd with rfl | hd
            · exact hex
            · exact e3 d hd
          · refine .inr ⟨(c, w.fs) :: l, d, by rw [e1]; rfl, fun d hd => ?_, e3, e4⟩
            rcases List.mem_cons.1 hd with rfl | hd
            · exact hex
            · exact e2 d hd
      · rw [asResult_error hex] at hrun
        rw [bind_error hrun]
        refine ⟨[(c, w.fs)], cs.filter (fun c => w.fs (buildOf s c) = some .dir), hfil, rfl, rfl, ?_, ?_, ?_, ?_⟩
        · exact fun q hq => hE _ _ _ _ (hq _ (List.mem_cons_self ..))
        · intro d hd q _
          rw [List.mem_singleton.1 hd]
        · intro d hd q _
          rw [List.mem_singleton.1 hd]
          rfl
        · exact .inr ⟨[], (c, w.fs), rfl, fun d hd => absurd hd (List.not_mem_nil), hex, rfl⟩
    · rw [bind_ok (makeOne_skip E s c w hl)]
      obtain ⟨done, rest, hr⟩ := ih hcs'.2 w hw ho
      exact ⟨done, rest, { hr with which := (List.filter_cons_of_neg (by simpa using hl)).trans hr.which }⟩

/-- **C90**, building: `make_all.py` builds exactly in the build directories that are there, in order, each as it was left, and ends where it
started; if a build fails it ends there with an exception. -/
theorem c90_make_all {E : Ext} (hE : StaysInside E) (s : Site) (bs : List Branch) (ts : List (Text × Text)) (hg : GoodTags bs ts)
    (w : World) (hw : w.fs w.cwd = some .dir) (ho : ¬ s.scratch ++ ["LegionSolversBuild".toList] <+: w.cwd) :
    ∃ done rest, Built E s (configs bs ts) w done rest (makeAll E s (rows3 bs) (rows2 ts) w) := by
  rw [makeAll_eq]
  exact make_list hE s _ (configs_distinct hg s) w hw ho

/-! ## build_legion.py -/

/-- A combination of features agrees with the arguments. -/
def Agrees (argv : List Text) (f : Bool × Bool) : Prop :=
  ("--force-cuda".toList ∈ argv → f.1 = true) ∧ ("--skip-cuda".toList ∈ argv → f.1 = false) ∧
  ("--force-kokkos".toList ∈ argv → f.2 = true) ∧ ("--skip-kokkos".toList ∈ argv → f.2 = false)

instance (argv : List Text) (f : Bool × Bool) : Decidable (Agrees argv f) := by unfold Agrees; infer_instance

/-- **C90**, arguments: `build_legion.py` builds the combinations of features that agree with all its arguments, in the usual order. -/
theorem c90_arguments (argv : List Text) : selected argv = features.filter fun f => Agrees argv f := by
  unfold selected Agrees features
  simp only [List.contains_iff_mem]
  by_cases h1 : "--force-cuda".toList ∈ argv <;> by_cases h2 : "--skip-cuda".toList ∈ argv <;>
    by_cases h3 : "--force-kokkos".toList ∈ argv <;> by_cases h4 : "--skip-kokkos".toList ∈ argv <;>
    simp only [h1, h2, h3, h4, if_true, if_false, true_implies, false_implies, true_and, and_true] <;> decide

end Verif.Build
