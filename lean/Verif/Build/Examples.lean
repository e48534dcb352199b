import Verif.Build.Install
/-! # C90: the hypotheses can be met -/
set_option linter.unusedSectionVars false
set_option linter.dupNamespace false
namespace Verif.Build

/-- A site. -/
def exSite : Site := ⟨.sapling, ["scratch".toList], ["lib".toList], some 40⟩

/-- Tools: `git clone` makes its directory, `make install` installs nothing, everything else makes a file in the directory it runs in. -/
def exTools : Ext := fun d cmd fs => (.exited 0, match cmd with
  | [a, b, _, _, _, n] => if a = "git".toList ∧ b = "clone".toList then fun q => if q = d ++ [n] then some .dir else fs q else fs
  | _ => fs)

/-- Tools for the library: `cmake` makes a file in the directory it runs in. -/
def exCMake : Ext := fun d _ fs => (.exited 0, fun q => if q = d ++ ["Makefile".toList] then some .file else fs q)

/-- A `cmake` that fails in the second configuration. -/
def exFails : Ext := fun d cmd fs => (if d = buildOf exSite ⟨"master".toList, true, false, "release".toList, []⟩ then .exited 1 else .exited 0, (exCMake d cmd fs).2)

/-- Two libraries are installed; the second was configured before, and so was one whose library is gone. -/
def exWorld : World where
  fs := fun q => if q ∈ [[], ["scratch".toList], ["lib".toList], ["home".toList], ["scratch".toList, "LegionSolversBuild".toList],
      libraryOf exSite ⟨"master".toList, false, true, "debug".toList, []⟩, libraryOf exSite ⟨"master".toList, true, false, "release".toList, []⟩,
      buildOf exSite ⟨"master".toList, true, false, "release".toList, []⟩, buildOf exSite ⟨"r2412".toList, false, false, "debug".toList, []⟩]
    then some .dir else if q = buildOf exSite ⟨"master".toList, true, false, "release".toList, []⟩ ++ ["old".toList] then some .file else none
  cwd := ["home".toList]
  log := []

theorem exCMake_inside : StaysInside exCMake := fun d cmd fs q h => by
  unfold exCMake
  exact if_neg fun (e : q = _) => h (e ▸ ⟨_, rfl⟩)

theorem exFails_inside : StaysInside exFails := fun d cmd fs q h => exCMake_inside d cmd fs q h

theorem exWorld_ready : CanRefresh exSite (configs ourBranches ourTypes) exWorld where
  base := by decide +kernel
  noFile := by decide +kernel
  tree := by
    intro c hc hn q hq
    have key : ∀ c ∈ configs ourBranches ourTypes, exWorld.fs (buildOf exSite c) = none → ∀ p ∈
        ([[], ["scratch".toList], ["lib".toList], ["home".toList], ["scratch".toList, "LegionSolversBuild".toList],
          libraryOf exSite ⟨"master".toList, false, true, "debug".toList, []⟩, libraryOf exSite ⟨"master".toList, true, false, "release".toList, []⟩,
          buildOf exSite ⟨"master".toList, true, false, "release".toList, []⟩, buildOf exSite ⟨"r2412".toList, false, false, "debug".toList, []⟩,
          buildOf exSite ⟨"master".toList, true, false, "release".toList, []⟩ ++ ["old".toList]] : List Path), ¬ buildOf exSite c <+: p := by
      decide +kernel
    have h := key c hc hn
    show (if q ∈ _ then _ else if q = _ then _ else none) = none
    rw [if_neg, if_neg]
    · intro e
      exact h q (by rw [e]; simp) hq
    · intro e
      refine h q ?_ hq
      simp only [List.mem_cons, List.not_mem_nil, or_false] at e ⊢
      rcases e with e | e | e | e | e | e | e | e | e <;> simp [e]
  here := by decide +kernel
  outside := by decide +kernel
  libs := by decide +kernel

/-- `c90_refresh` applies, … -/
example := c90_refresh exCMake_inside exSite ourBranches ourTypes c90_committed.2.2 exWorld exWorld_ready

/-- … and this is what happens: the two configurations whose libraries are there are configured, the old file is gone, the directory of the
third is still there. -/
example : (refresh exCMake exSite legionBranches buildTypes exWorld).2.log.map (·.1) =
    [buildOf exSite ⟨"master".toList, false, true, "debug".toList, []⟩, buildOf exSite ⟨"master".toList, true, false, "release".toList, []⟩] := by
  decide +kernel

example : let fs := (refresh exCMake exSite legionBranches buildTypes exWorld).2.fs
    fs (buildOf exSite ⟨"master".toList, true, false, "release".toList, []⟩ ++ ["old".toList]) = none ∧
    fs (buildOf exSite ⟨"master".toList, true, false, "release".toList, []⟩ ++ ["Makefile".toList]) = some .file ∧
    fs (buildOf exSite ⟨"r2412".toList, false, false, "debug".toList, []⟩) = some .dir := by
  decide +kernel

/-- A failing command ends the script with an exception, where it started. -/
example : (refresh exFails exSite legionBranches buildTypes exWorld).2.cwd = ["home".toList] ∧
    (match (refresh exFails exSite legionBranches buildTypes exWorld).1 with | .error .calledProcess => true | _ => false) = true := by
  decide +kernel

example := c90_refresh exFails_inside exSite ourBranches ourTypes c90_committed.2.2 exWorld exWorld_ready

/-- `make_all.py` builds in three directories, one of them that of a library that is gone. -/
example : ((do refresh exCMake exSite legionBranches buildTypes; makeAll exCMake exSite legionBranches buildTypes) exWorld).2.log.length = 5 := by
  decide +kernel

example := c90_make_all exCMake_inside exSite ourBranches ourTypes c90_committed.2.2 exWorld (by decide +kernel) (by decide +kernel)

/-- A scratch directory in which nothing has been built. -/
def exNew : World := { exWorld with fs := fun q => if ["scratch".toList, "LegionSolversBuild".toList] <+: q then none else exWorld.fs q }

example : refresh exCMake exSite legionBranches buildTypes exNew = (.error .osError, exNew) := by
  refine c90_refresh_new_scratch exCMake exSite ourBranches ourTypes exNew (fun q hq => ?_)
    ⟨⟨"master".toList, false, true, "debug".toList, "Debug".toList⟩, by decide +kernel, by decide +kernel⟩
  show (if _ then none else _) = none
  rw [if_pos]
  exact hq

/-- The tools of the example are good tools. -/
theorem exTools_good : GoodTools exTools exSite where
  works := fun _ _ _ _ => rfl
  keeps := fun d cmd fs p h => by
    unfold exTools
    dsimp only
    split
    · split
      · dsimp only
        split
        · rfl
        · exact h
      · exact h
    · exact h
  inside := fun d cmd fs q h _ => by
    unfold exTools
    dsimp only
    split
    · split
      · exact if_neg fun (e : q = _) => h (e ▸ ⟨_, rfl⟩)
      · rfl
    · rfl
  noFile := fun d cmd fs x h => by
    unfold exTools at h
    dsimp only at h
    split at h
    · split at h
      · dsimp only at h
        split at h
        · exact absurd h (by simp)
        · exact h
      · exact h
    · exact h
  clone := fun d b fs => by
    have e : (exTools d (cloneCommand b) fs).2 = fun q => if q = d ++ [underscoreJoin ["legion".toList, b.1]] then some .dir else fs q := rfl
    rw [e]
    exact ⟨if_pos rfl, fun q h => if_neg fun (e : q = _) => h (e ▸ List.prefix_refl _)⟩
  sources := fun d b fs h x q hq => by
    have e : (exTools d (cloneCommand b) fs).2 = fun q => if q = d ++ [underscoreJoin ["legion".toList, b.1]] then some .dir else fs q := rfl
    have hp : d ++ [underscoreJoin ["legion".toList, b.1]] <+: q := List.IsPrefix.trans ⟨["build_".toList ++ x], by simp⟩ hq
    rw [e]
    dsimp only
    rw [if_neg, h q hp]
    intro e
    have := hq.length_le
    rw [e] at this
    simp only [List.length_append, List.length_cons, List.length_nil] at this
    omega
  checkout := fun d b fs x h q hq => h q hq

theorem exWorld_canBuild : CanBuild exSite ourBranches exWorld where
  scratch := by decide +kernel
  noFile := fun x => by
    show (if _ then _ else if _ = _ then _ else none) ≠ _
    split
    · simp
    · rw [if_neg]
      · simp
      · intro e
        have := congrArg List.length e
        revert this
        simp [buildOf, Site.buildPath, exSite]
  noFile' := by decide +kernel
  tree := by
    intro b hb hn q hq
    have key : ∀ b ∈ ourBranches, ∀ p ∈
        ([[], ["scratch".toList], ["lib".toList], ["home".toList], ["scratch".toList, "LegionSolversBuild".toList],
          libraryOf exSite ⟨"master".toList, false, true, "debug".toList, []⟩, libraryOf exSite ⟨"master".toList, true, false, "release".toList, []⟩,
          buildOf exSite ⟨"master".toList, true, false, "release".toList, []⟩, buildOf exSite ⟨"r2412".toList, false, false, "debug".toList, []⟩,
          buildOf exSite ⟨"master".toList, true, false, "release".toList, []⟩ ++ ["old".toList]] : List Path), ¬ sourceOf exSite b.1 <+: p := by
      decide +kernel
    have h := key b hb
    show (if q ∈ _ then _ else if q = _ then _ else none) = none
    rw [if_neg, if_neg]
    · intro e
      exact h q (by rw [e]; simp) hq
    · intro e
      refine h q ?_ hq
      simp only [List.mem_cons, List.not_mem_nil, or_false] at e ⊢
      rcases e with e | e | e | e | e | e | e | e | e <;> simp [e]

/-- `c90_build_legion` applies. -/
example := c90_build_legion exTools_good (by decide) ourBranches ourTypes c90_committed.2.2 ["--skip-kokkos".toList] exWorld exWorld_canBuild

/-- Two branches, two build types, with and without CUDA: two times two commands of `git` and eight times three others. -/
example : (buildLegion exTools exSite legionBranches buildTypes ["--skip-kokkos".toList] exWorld).2.log.length = 2 * 2 + 8 * 3 := by
  decide +kernel

/-- Without a tool nothing works. -/
example : (match (buildLegion (fun _ _ fs => (.missing, fs)) exSite legionBranches buildTypes [] exWorld).1 with
    | .error .osError => true | _ => false) = true := by decide +kernel

/-- Tags of branches may be empty or contain underscores. -/
example : buildOf exSite ⟨[], true, false, "debug".toList, []⟩ ≠ buildOf exSite ⟨"x_cuda".toList, true, false, "debug".toList, []⟩ := by
  decide +kernel

/-- But tags of build types must not: two configurations would share a directory. -/
example : buildOf exSite ⟨"a".toList, true, true, "cuda_kokkos_x".toList, []⟩ = buildOf exSite ⟨"a_cuda_kokkos".toList, true, true, "x".toList, []⟩ := by
  decide +kernel

end Verif.Build
