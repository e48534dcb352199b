import Verif.Build.Props
/-! # C90: refresh_cmake.py, make_all.py, test_all.py, the benchmark scripts -/
set_option linter.unusedSectionVars false
set_option linter.dupNamespace false
namespace Verif.Build

/-! ## refresh_cmake.py -/

/-- One configuration of `refresh_cmake.py`. -/
def refreshOne (E : Ext) (s : Site) (c : Config) : Py Unit := do
  if ← isDir (s.legionPath c.tag c.cuda c.kokkos c.build) then do
    removeDirectory (s.buildPath c.tag c.cuda c.kokkos c.build)
    let d ← getCwd
    cmake E s.cores (s.buildPath c.tag c.cuda c.kokkos c.build) (s.solverDefines c.tag c.cuda c.kokkos c.build c.type) false false false
      ["cmake".toList, showPath d]
  else pure ()

theorem refresh_eq (E : Ext) (s : Site) (bs : List Branch) (ts : List (Text × Text)) :
    refresh E s (rows3 bs) (rows2 ts) = forEach (configs bs ts) (refreshOne E s) := by
  rw [configs_forEach]
  unfold refresh rows3 rows2
  simp only [forEach_map, unpack3, unpack2, pure_bind']
  rfl

theorem command_eq (s : Site) (src : Path) (c : Config) :
    ["cmake".toList, showPath src] ++ (s.solverDefines c.tag c.cuda c.kokkos c.build c.type).map define = configureCommand s src c := by
  unfold Site.solverDefines configureCommand libraryOf
  have h : Nat.toDigits 10 17 = ['1', '7'] := by decide
  cases c.kokkos
  · simp [define, Val.show, h]
  · cases c.cuda
    · simp [define, Val.show, Site.kokkosNoCuda, Site.libDir, h]
    · simp [define, Val.show, Site.kokkosCuda, Site.libDir, h]

theorem base_prefix (s : Site) (c : Config) : s.scratch ++ ["LegionSolversBuild".toList] <+: buildOf s c :=
  ⟨[underscoreJoin [c.tag, cudaTag c.cuda, kokkosTag c.kokkos, c.build]], by simp [buildOf, Site.buildPath]⟩

theorem base_dropLast (s : Site) (c : Config) : (buildOf s c).dropLast = s.scratch ++ ["LegionSolversBuild".toList] := by
  unfold buildOf Site.buildPath
  rw [show s.scratch ++ ["LegionSolversBuild".toList, underscoreJoin [c.tag, cudaTag c.cuda, kokkosTag c.kokkos, c.build]] =
    (s.scratch ++ ["LegionSolversBuild".toList]) ++ [underscoreJoin [c.tag, cudaTag c.cuda, kokkosTag c.kokkos, c.build]] by simp]
  exact List.dropLast_concat ..

theorem not_above_base (s : Site) (c : Config) : ¬ buildOf s c <+: s.scratch ++ ["LegionSolversBuild".toList] := fun h => by
  have := h.length_le
  rw [buildOf_length] at this
  simp at this

theorem library_head (s : Site) (c : Config) : ∃ x, libraryOf s c = s.lib ++ ['l' :: x] := by
  refine ⟨(underscoreJoin ["legion".toList, c.tag, cudaTag c.cuda, kokkosTag c.kokkos, c.build]).tail, ?_⟩
  unfold libraryOf Site.legionPath
  congr 1
  have : ∀ l : List Text, ∃ y, underscoreJoin ("legion".toList :: l) = 'l' :: y := fun l => by
    unfold underscoreJoin
    rw [List.filter_cons_of_pos (by decide)]
    cases l.filter fun a => a != [] with
    | nil => exact ⟨_, rfl⟩
    | cons b l => exact ⟨_, rfl⟩
  obtain ⟨y, hy⟩ := this [c.tag, cudaTag c.cuda, kokkosTag c.kokkos, c.build]
  rw [hy]
  rfl

theorem library_outside (s : Site) (c c' : Config) (h : ¬ s.scratch ++ ["LegionSolversBuild".toList] <+: s.lib) :
    ¬ buildOf s c <+: libraryOf s c' := fun hp => by
  have hb : s.scratch ++ ["LegionSolversBuild".toList] <+: libraryOf s c' := (base_prefix s c).trans hp
  obtain ⟨x, hx⟩ := library_head s c'
  rw [hx, List.prefix_concat_iff] at hb
  rcases hb with hb | hb
  · have := (List.append_inj' hb rfl).2
    simp at this
  · exact h hb

theorem cwd_outside (s : Site) (c : Config) (w : World) (h : ¬ s.scratch ++ ["LegionSolversBuild".toList] <+: w.cwd) : ¬ buildOf s c <+: w.cwd :=
  fun hp => h ((base_prefix s c).trans hp)

/-- A configuration whose library is not there is passed over. -/
theorem refreshOne_skip (E : Ext) (s : Site) (c : Config) (w : World) (h : w.fs (libraryOf s c) ≠ some .dir) : refreshOne E s c w = (.ok (), w) := by
  have h' : isDir (s.legionPath c.tag c.cuda c.kokkos c.build) w = (.ok false, w) := by
    unfold isDir
    rw [show (w.fs (s.legionPath c.tag c.cuda c.kokkos c.build) == some .dir) = false from beq_false_of_ne h]
  unfold refreshOne
  rw [bind_ok h']
  rfl

/-- A configuration whose library is there. -/
theorem refreshOne_run {E : Ext} (hE : StaysInside E) (s : Site) (c : Config) (w : World) (h : w.fs (libraryOf s c) = some .dir)
    (hb : w.fs (s.scratch ++ ["LegionSolversBuild".toList]) = some .dir) (hf : w.fs (buildOf s c) ≠ some .file)
    (ht : w.fs (buildOf s c) = none → ∀ q, buildOf s c <+: q → w.fs q = none) (hw : w.fs w.cwd = some .dir)
    (ho : ¬ buildOf s c <+: w.cwd) :
    refreshOne E s c w = (asResult (E (buildOf s c) (configureCommand s w.cwd c) (emptied (buildOf s c) w.fs)).1,
      ranIn E (buildOf s c) (configureCommand s w.cwd c) { w with fs := emptied (buildOf s c) w.fs }) := by
  have h' : isDir (s.legionPath c.tag c.cuda c.kokkos c.build) w = (.ok true, w) := by
    unfold isDir
    rw [show (w.fs (s.legionPath c.tag c.cuda c.kokkos c.build) == some .dir) = true from beq_iff_eq.2 h]
  -- the directory is removed
  have hr : removeDirectory (buildOf s c) w = (.ok (), { w with fs := fun q => if buildOf s c <+: q then none else w.fs q }) := by
    unfold removeDirectory
    rw [bind_ok (show pathExists (buildOf s c) w = (.ok (w.fs (buildOf s c)).isSome, w) from rfl)]
    cases e : w.fs (buildOf s c) with
    | none =>
      simp only [Option.isSome_none, Bool.false_eq_true, if_false]
      rw [pure_run]
      congr 1
      refine congrArg (fun f => (⟨f, w.cwd, w.log⟩ : World)) (funext fun q => ?_)
      by_cases hq : buildOf s c <+: q
      · simp [hq, ht e q hq]
      · simp [hq]
    | some n =>
      cases n with
      | file => exact absurd e hf
      | dir =>
        simp only [Option.isSome_some, if_true]
        rw [bind_ok (show isDir (buildOf s c) w = (.ok true, w) by unfold isDir; rw [e]; rfl)]
        rfl
  -- and made again
  have hc : ∀ w1 : World, w1.fs = (fun q => if buildOf s c <+: q then none else w.fs q) →
      createDirectory (buildOf s c) w1 = (.ok (), { w1 with fs := emptied (buildOf s c) w.fs }) := by
    intro w1 e1
    have en : w1.fs (buildOf s c) = none := by rw [e1]; simp
    unfold createDirectory
    rw [bind_ok (show pathExists (buildOf s c) w1 = (.ok false, w1) by unfold pathExists; rw [en]; rfl),
      bind_ok (show assertThat (!false) w1 = (.ok (), w1) from rfl)]
    unfold mkdir
    rw [if_pos ⟨en, by rw [base_dropLast, e1]; simp only [if_neg (not_above_base s c), hb]⟩]
    congr 1
    refine congrArg (fun f => (⟨f, w1.cwd, w1.log⟩ : World)) (funext fun q => ?_)
    simp only [emptied, e1]
  unfold refreshOne
  rw [bind_ok h']
  simp only [if_true]
  rw [show s.buildPath c.tag c.cuda c.kokkos c.build = buildOf s c from rfl, bind_ok hr, getCwd_run]
  dsimp only
  unfold cmake
  rw [bind_ok (hc _ rfl), command_eq]
  simp only [Bool.false_eq_true, if_false]
  rw [bind_pure_unit]
  have hd := (c90_change_directory (buildOf s c) (run E (configureCommand s w.cwd c))
    { w with fs := emptied (buildOf s c) w.fs }).1 (by simp [emptied])
  rw [run_result] at hd
  refine (hd ?_).trans ?_
  · show (E (buildOf s c) _ (emptied (buildOf s c) w.fs)).2 w.cwd = some .dir
    rw [hE _ _ _ _ ho]
    unfold emptied
    rw [if_neg (fun (e : w.cwd = buildOf s c) => ho (e ▸ List.prefix_refl _)), if_neg ho, hw]
  · rfl


/-- A file system in which the build directory of `c` has just been made: it is empty, and outside the directory of all builds everything is
as in the world `w`. -/
structure JustMade (s : Site) (w : World) (c : Config) (fs : FS) : Prop where
  dir : fs (buildOf s c) = some .dir
  empty : ∀ q, buildOf s c <+: q → q ≠ buildOf s c → fs q = none
  others : ∀ q, ¬ s.scratch ++ ["LegionSolversBuild".toList] <+: q → fs q = w.fs q

/-- What `refresh_cmake.py` has done: `done` are the configurations it has configured, each with the file system its command was given;
`rest` are those it has not got to. -/
structure Refreshed (E : Ext) (s : Site) (cs : List Config) (w : World) (done : List (Config × FS)) (rest : List Config)
    (r : Except Exc Unit × World) : Prop where
  /-- Configurations are those whose library is there, in order. -/
  which : cs.filter (fun c => w.fs (libraryOf s c) = some .dir) = done.map (·.1) ++ rest
  cwd : r.2.cwd = w.cwd
  log : r.2.log = w.log ++ done.map fun d => (buildOf s d.1, configureCommand s w.cwd d.1)
  /-- Nothing else is touched. -/
  others : ∀ q, (∀ d ∈ done, ¬ buildOf s d.1 <+: q) → r.2.fs q = w.fs q
  given : ∀ d ∈ done, JustMade s w d.1 d.2
  /-- The build directories are what the commands made of them. -/
  made : ∀ d ∈ done, ∀ q, buildOf s d.1 <+: q → r.2.fs q = (E (buildOf s d.1) (configureCommand s w.cwd d.1) d.2).2 q
  /-- The script ends normally after the last configuration, or with the first command that fails. -/
  ends : (r.1 = .ok () ∧ rest = [] ∧ ∀ d ∈ done, (E (buildOf s d.1) (configureCommand s w.cwd d.1) d.2).1 = .exited 0) ∨
    ∃ l d, done = l ++ [d] ∧ (∀ d ∈ l, (E (buildOf s d.1) (configureCommand s w.cwd d.1) d.2).1 = .exited 0) ∧
      (E (buildOf s d.1) (configureCommand s w.cwd d.1) d.2).1 ≠ .exited 0 ∧
      r.1 = .error (if (E (buildOf s d.1) (configureCommand s w.cwd d.1) d.2).1 = .missing then .osError else .calledProcess)

theorem asResult_ok {o : Outcome} (h : o = .exited 0) : asResult o = .ok () := by subst h; rfl

theorem asResult_error {o : Outcome} (h : o ≠ .exited 0) : asResult o = .error (if o = .missing then .osError else .calledProcess) := by
  cases o with
  | missing => rfl
  | exited code =>
    have : code ≠ 0 := fun e => h (by rw [e])
    simp [asResult, this]

theorem emptied_other {p q : Path} (fs : FS) (h : ¬ p <+: q) : emptied p fs q = fs q := by
  unfold emptied
  rw [if_neg (fun (e : q = p) => h (e ▸ List.prefix_refl _)), if_neg h]

theorem justMade (s : Site) (c : Config) (w : World) : JustMade s w c (emptied (buildOf s c) w.fs) where
  dir := by simp [emptied]
  empty := fun q h hne => by simp [emptied, h, hne]
  others := fun q h => emptied_other _ fun hp => h ((base_prefix s c).trans hp)

theorem refresh_list {E : Ext} (hE : StaysInside E) (s : Site) (cs : List Config) (hcs : cs.Pairwise fun c c' => buildOf s c ≠ buildOf s c')
    (w : World) (h : CanRefresh s cs w) : ∃ done rest, Refreshed E s cs w done rest (forEach cs (refreshOne E s) w) := by
  induction cs generalizing w with
  | nil =>
    exact ⟨[], [], rfl, rfl, (List.append_nil _).symm, fun _ _ => rfl, fun d hd => absurd hd (List.not_mem_nil),
      fun d hd => absurd hd (List.not_mem_nil), .inl ⟨rfl, rfl, fun d hd => absurd hd (List.not_mem_nil)⟩⟩
  | cons c cs ih =>
    have hcs' := List.pairwise_cons.1 hcs
    have htail : CanRefresh s cs w := ⟨h.base, fun c hc => h.noFile c (List.mem_cons_of_mem _ hc),
      fun c hc => h.tree c (List.mem_cons_of_mem _ hc), h.here, h.outside, h.libs⟩
    show ∃ done rest, Refreshed E s (c :: cs) w done rest ((refreshOne E s c >>= fun _ => forEach cs (refreshOne E s)) w)
    by_cases hl : w.fs (libraryOf s c) = some .dir
    · have hrun := refreshOne_run hE s c w hl h.base (h.noFile c (List.mem_cons_self ..)) (h.tree c (List.mem_cons_self ..)) h.here
        (cwd_outside s c w h.outside)
      have hkeep : ∀ q, ¬ buildOf s c <+: q →
          (E (buildOf s c) (configureCommand s w.cwd c) (emptied (buildOf s c) w.fs)).2 q = w.fs q := fun q hq => by
        rw [hE _ _ _ _ hq, emptied_other _ hq]
      have hfil : (c :: cs).filter (fun c => w.fs (libraryOf s c) = some .dir) =
          c :: cs.filter (fun c => w.fs (libraryOf s c) = some .dir) := List.filter_cons_of_pos (by simpa using hl)
      by_cases hex : (E (buildOf s c) (configureCommand s w.cwd c) (emptied (buildOf s c) w.fs)).1 = .exited 0
      · rw [asResult_ok hex] at hrun
        rw [bind_ok hrun]
        generalize hw1 : ranIn E (buildOf s c) (configureCommand s w.cwd c) { w with fs := emptied (buildOf s c) w.fs } = w1
        have hfs : w1.fs = (E (buildOf s c) (configureCommand s w.cwd c) (emptied (buildOf s c) w.fs)).2 := by rw [← hw1]; rfl
        have hcwd : w1.cwd = w.cwd := by rw [← hw1]; rfl
        have hlog : w1.log = w.log ++ [(buildOf s c, configureCommand s w.cwd c)] := by rw [← hw1]; rfl
        have hk : ∀ q, ¬ buildOf s c <+: q → w1.fs q = w.fs q := fun q hq => by rw [hfs]; exact hkeep q hq
        have hne : ∀ c' ∈ cs, ∀ q, buildOf s c' <+: q → ¬ buildOf s c <+: q := fun c' hc' q hq hp =>
          hcs'.1 c' hc' (prefix_eq (by rw [buildOf_length, buildOf_length])
            (List.prefix_of_prefix_length_le hp hq (Nat.le_of_eq (by rw [buildOf_length, buildOf_length]))))
        have hbase : ∀ q, ¬ s.scratch ++ ["LegionSolversBuild".toList] <+: q → w1.fs q = w.fs q := fun q hq =>
          hk q fun hp => hq ((base_prefix s c).trans hp)
        have hfil1 : cs.filter (fun c => w1.fs (libraryOf s c) = some .dir) = cs.filter (fun c => w.fs (libraryOf s c) = some .dir) :=
          List.filter_congr fun c' _ => by simp only [hk _ (library_outside s c c' h.libs)]
        obtain ⟨done, rest, ⟨r1, r2, r3, r4, r5, r6, r7⟩⟩ := ih hcs'.2 w1
          ⟨by rw [hk _ (not_above_base s c)]; exact h.base,
            fun c' hc' => by rw [hk _ (hne c' hc' _ (List.prefix_refl _))]; exact htail.noFile c' hc',
            fun c' hc' hn q hq => by
              rw [hk _ (hne c' hc' _ (List.prefix_refl _))] at hn
              rw [hk _ (hne c' hc' q hq)]
              exact htail.tree c' hc' hn q hq,
            by rw [hcwd, hk _ (cwd_outside s c w h.outside)]; exact h.here,
            by rw [hcwd]; exact h.outside, h.libs⟩
        rw [hcwd] at r2 r3 r6 r7
        rw [hfil1] at r1
        have hdone : ∀ d ∈ done, d.1 ∈ cs := fun d hd =>
          (List.mem_filter.1 (r1 ▸ List.mem_append_left _ (List.mem_map_of_mem hd) : d.1 ∈ cs.filter _)).1
        refine ⟨(c, emptied (buildOf s c) w.fs) :: done, rest, ?_, r2, ?_, ?_, ?_, ?_, ?_⟩
        · rw [hfil, r1]; rfl
        · rw [r3, hlog]; simp
        · intro q hq
          rw [r4 q fun d hd => hq d (List.mem_cons_of_mem _ hd)]
          exact hk q (hq _ (List.mem_cons_self ..))
        · intro d hd
          rcases List.mem_cons.1 hd with rfl | hd
          · exact justMade s c w
          · obtain ⟨a1, a2, a3⟩ := r5 d hd
            exact ⟨a1, a2, fun q hq => (a3 q hq).trans (hbase q hq)⟩
        · intro d hd q hq
          rcases List.mem_cons.1 hd with rfl | hd
          · rw [r4 q fun d hd hp => hne d.1 (hdone d hd) q hp hq, hfs]
          · exact r6 d hd q hq
        · rcases r7 with ⟨e1, e2, e3⟩ | ⟨l, d, e1, e2, e3, e4⟩
          · refine .inl ⟨e1, e2, fun d hd => ?_⟩
            rcases List.mem_cons.1 hd with rfl | hd
            · exact hex
            · exact e3 d hd
          · refine .inr ⟨(c, emptied (buildOf s c) w.fs) :: l, d, by rw [e1]; rfl, fun d hd => ?_, e3, e4⟩
            rcases List.mem_cons.1 hd with rfl | hd
            · exact hex
            · exact e2 d hd
      · rw [asResult_error hex] at hrun
        rw [bind_error hrun]
        refine ⟨[(c, emptied (buildOf s c) w.fs)], cs.filter (fun c => w.fs (libraryOf s c) = some .dir), hfil, rfl, rfl, ?_, ?_, ?_, ?_⟩
        · exact fun q hq => hkeep q (hq _ (List.mem_cons_self ..))
        · intro d hd
          rw [List.mem_singleton.1 hd]
          exact justMade s c w
        · intro d hd q _
          rw [List.mem_singleton.1 hd]
          rfl
        · exact .inr ⟨[], (c, emptied (buildOf s c) w.fs), rfl, fun d hd => absurd hd (List.not_mem_nil), hex, rfl⟩
    · rw [bind_ok (refreshOne_skip E s c w hl)]
      obtain ⟨done, rest, hr⟩ := ih hcs'.2 w htail
      exact ⟨done, rest, { hr with which := (List.filter_cons_of_neg (by simpa using hl)).trans hr.which }⟩

/-- **C90**, configuring: if the directory of all builds is there and neither the libraries nor the working directory are in it, then
`refresh_cmake.py` configures, in order, exactly the configurations whose Legion library is installed, each from an empty directory and with
the options for that library; it leaves everything else alone and ends where it started.  If a command fails the script ends there with an
exception, and the configurations after it keep what they had. -/
theorem c90_refresh {E : Ext} (hE : StaysInside E) (s : Site) (bs : List Branch) (ts : List (Text × Text)) (hg : GoodTags bs ts)
    (w : World) (h : CanRefresh s (configs bs ts) w) :
    ∃ done rest, Refreshed E s (configs bs ts) w done rest (refresh E s (rows3 bs) (rows2 ts) w) := by
  rw [refresh_eq]
  exact refresh_list hE s _ (configs_distinct hg s) w h

theorem refreshOne_no_base (E : Ext) (s : Site) (c : Config) (w : World) (h : w.fs (libraryOf s c) = some .dir)
    (hb : w.fs (s.scratch ++ ["LegionSolversBuild".toList]) = none) (hn : w.fs (buildOf s c) = none) :
    refreshOne E s c w = (.error .osError, w) := by
  have h' : isDir (s.legionPath c.tag c.cuda c.kokkos c.build) w = (.ok true, w) := by
    unfold isDir
    rw [show (w.fs (s.legionPath c.tag c.cuda c.kokkos c.build) == some .dir) = true from beq_iff_eq.2 h]
  have he : pathExists (buildOf s c) w = (.ok false, w) := by unfold pathExists; rw [hn]; rfl
  unfold refreshOne
  rw [bind_ok h']
  simp only [if_true]
  rw [show s.buildPath c.tag c.cuda c.kokkos c.build = buildOf s c from rfl,
    bind_ok (show removeDirectory (buildOf s c) w = (.ok (), w) by unfold removeDirectory; rw [bind_ok he]; rfl), getCwd_run]
  unfold cmake
  refine bind_error ?_
  unfold createDirectory
  rw [bind_ok he, bind_ok (show assertThat (!false) w = (.ok (), w) from rfl)]
  unfold mkdir
  rw [if_neg]
  rw [base_dropLast, hb]
  exact fun e => absurd e.2 (by simp)

/-- **C90**, a defect: in a scratch directory in which nothing has been built before, `refresh_cmake.py` does not work.  As soon as one library
is installed it raises an exception; no command is run, and nothing is made (`os.mkdir` does not make the directory of all builds). -/
theorem c90_refresh_new_scratch (E : Ext) (s : Site) (bs : List Branch) (ts : List (Text × Text)) (w : World)
    (hb : ∀ q, s.scratch ++ ["LegionSolversBuild".toList] <+: q → w.fs q = none)
    (hl : ∃ c ∈ configs bs ts, w.fs (libraryOf s c) = some .dir) :
    refresh E s (rows3 bs) (rows2 ts) w = (.error .osError, w) := by
  rw [refresh_eq]
  generalize configs bs ts = cs at hl
  induction cs with
  | nil => obtain ⟨c, hc, -⟩ := hl; exact absurd hc (List.not_mem_nil)
  | cons c cs ih =>
    show (refreshOne E s c >>= fun _ => forEach cs (refreshOne E s)) w = _
    by_cases h : w.fs (libraryOf s c) = some .dir
    · exact bind_error (refreshOne_no_base E s c w h (hb _ (List.prefix_refl _)) (hb _ (base_prefix s c)))
    · rw [bind_ok (refreshOne_skip E s c w h)]
      refine ih ?_
      obtain ⟨c', hc', h'⟩ := hl
      rcases List.mem_cons.1 hc' with rfl | hc'
      · exact absurd h' h
      · exact ⟨c', hc', h'⟩

/-! ## test_all.py -/

/-- **C90**, a defect: `test_all.py` runs no test.  Its `main` takes the branches for pairs, and they are triples: it ends with an exception
before anything else, whatever the state of the machine and whatever the tests do. -/
theorem c90_no_tests (s : Site) (types : List (List Text)) (tests : Bool → Bool → Py Unit) (w : World) :
    testAll s legionBranches types tests w = (.error .valueError, w) := rfl

/-- It is the same for every list of branches with three parts but the empty one. -/
theorem c90_no_tests_ever (s : Site) (bs : List Branch) (hbs : bs ≠ []) (types : List (List Text)) (tests : Bool → Bool → Py Unit) (w : World) :
    testAll s (rows3 bs) types tests w = (.error .valueError, w) := by
  cases bs with
  | nil => exact absurd rfl hbs
  | cons b bs => rfl

/-! ## The benchmark scripts -/

/-- **C90**, a defect: the benchmark scripts start a program in a directory that is none of the build directories of the committed
configurations, on any site. -/
theorem c90_benchmark_directory (s : Site) : ∀ c ∈ configs ourBranches ourTypes, buildOf s c ≠ benchDir := by
  intro c hc h
  have h2 : (buildOf s c).getLast? = benchDir.getLast? := by rw [h]
  rw [show (buildOf s c).getLast? = some (underscoreJoin [c.tag, cudaTag c.cuda, kokkosTag c.kokkos, c.build]) by
    unfold buildOf Site.buildPath
    rw [show s.scratch ++ ["LegionSolversBuild".toList, underscoreJoin [c.tag, cudaTag c.cuda, kokkosTag c.kokkos, c.build]] =
      (s.scratch ++ ["LegionSolversBuild".toList]) ++ [underscoreJoin [c.tag, cudaTag c.cuda, kokkosTag c.kokkos, c.build]] by simp]
    exact List.getLast?_concat ..] at h2
  have key : ∀ c ∈ configs ourBranches ourTypes, some (underscoreJoin [c.tag, cudaTag c.cuda, kokkosTag c.kokkos, c.build]) ≠ benchDir.getLast? := by
    decide +kernel
  exact key c hc h2

end Verif.Build
