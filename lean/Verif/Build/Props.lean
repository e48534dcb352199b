import Verif.Build.Model
import Mathlib.Data.List.Basic
/-! # C90: the build scripts -/
set_option linter.unusedSectionVars false
set_option linter.dupNamespace false
namespace Verif.Build

/-! ## Specification -/

/-- A configuration: a branch of Legion, with or without CUDA and Kokkos, and a build type. -/
structure Config where
  tag : Text
  cuda : Bool
  kokkos : Bool
  build : Text
  type : Text
deriving DecidableEq

/-- The directory Legion is installed in for a configuration. -/
def libraryOf (s : Site) (c : Config) : Path := s.legionPath c.tag c.cuda c.kokkos c.build

/-- The directory the library is built in for a configuration. -/
def buildOf (s : Site) (c : Config) : Path := s.buildPath c.tag c.cuda c.kokkos c.build

/-- A branch: a tag, a branch name, a commit. -/
abbrev Branch := Text × Text × Text

/-- Branches as tuples of Python. -/
def rows3 (l : List Branch) : List (List Text) := l.map fun b => [b.1, b.2.1, b.2.2]

/-- Build types as tuples of Python. -/
def rows2 (l : List (Text × Text)) : List (List Text) := l.map fun b => [b.1, b.2]

/-- The four combinations of CUDA and Kokkos, in the order the scripts go through them. -/
def features : List (Bool × Bool) := [(false, false), (false, true), (true, false), (true, true)]

/-- All configurations: every branch with every build type and all four combinations. -/
def configs (bs : List Branch) (ts : List (Text × Text)) : List Config :=
  bs.flatMap fun b => ts.flatMap fun t => features.map fun f => ⟨b.1, f.1, f.2, t.1, t.2⟩

/-- The tags tell the configurations apart: no two branches and no two build types have the same tag, and the tags of the build types are
not empty and contain no underscore.  Tags of branches may contain anything. -/
structure GoodTags (bs : List Branch) (ts : List (Text × Text)) : Prop where
  branches : (bs.map (·.1)).Nodup
  types : (ts.map (·.1)).Nodup
  proper : ∀ t ∈ ts, t.1 ≠ [] ∧ '_' ∉ t.1

/-- The committed lists (`build_legion.py` 32-44). -/
def ourBranches : List Branch :=
  [("master".toList, "master".toList, "master".toList), ("r2412".toList, "legion-24.12.0".toList, "legion-24.12.0".toList)]

def ourTypes : List (Text × Text) := [("debug".toList, "Debug".toList), ("release".toList, "RelWithDebInfo".toList)]

/-- External commands stay in the directory they are run in: they change nothing outside it. -/
def StaysInside (E : Ext) : Prop := ∀ d cmd fs q, ¬ d <+: q → (E d cmd fs).2 q = fs q

/-- The command that configures the build of a configuration, for sources in `src`. -/
def configureCommand (s : Site) (src : Path) (c : Config) : List Text :=
  ["cmake".toList, showPath src, "-DCMAKE_CXX_STANDARD=17".toList,
    "-DCMAKE_CXX_FLAGS=-Wall -Wextra -pedantic -Wfatal-errors".toList, "-DCMAKE_BUILD_TYPE=".toList ++ c.type,
    "-DLegion_DIR=".toList ++ showPath (libraryOf s c ++ ["share".toList, "Legion".toList, "cmake".toList])] ++
  if c.kokkos then ["-DKokkos_DIR=".toList ++ showPath (s.lib ++
    [if c.cuda then "kokkos-4.5.01-cuda".toList else "kokkos-4.5.01-nocuda".toList,
      if s.machine = .sapling then "lib".toList else "lib64".toList, "cmake".toList, "Kokkos".toList])] else []

/-- The file system with the directory `p` there and empty. -/
def emptied (p : Path) (fs : FS) : FS := fun q => if q = p then some .dir else if p <+: q then none else fs q

/-- The world `refresh_cmake.py` needs. -/
structure CanRefresh (s : Site) (cs : List Config) (w : World) : Prop where
  /-- The directory of all builds is there. -/
  base : w.fs (s.scratch ++ ["LegionSolversBuild".toList]) = some .dir
  /-- There is no plain file where a build directory goes. -/
  noFile : ∀ c ∈ cs, w.fs (buildOf s c) ≠ some .file
  /-- Nothing is below a path where there is nothing. -/
  tree : ∀ c ∈ cs, w.fs (buildOf s c) = none → ∀ q, buildOf s c <+: q → w.fs q = none
  /-- The script runs in a directory, which is not in the directory of all builds. -/
  here : w.fs w.cwd = some .dir
  outside : ¬ s.scratch ++ ["LegionSolversBuild".toList] <+: w.cwd
  /-- The libraries are not in the directory of all builds. -/
  libs : ¬ s.scratch ++ ["LegionSolversBuild".toList] <+: s.lib

/-! ## Proofs -/

section Monad
variable {α β : Type}

theorem bind_run (m : Py α) (f : α → Py β) (w : World) :
    (m >>= f) w = match m w with | (.ok a, w') => f a w' | (.error e, w') => (.error e, w') := rfl

theorem pure_run (a : α) (w : World) : (pure a : Py α) w = (.ok a, w) := rfl

theorem bind_ok {m : Py α} {f : α → Py β} {w w' : World} {a : α} (h : m w = (.ok a, w')) : (m >>= f) w = f a w' := by
  rw [bind_run, h]

theorem getCwd_run (f : Path → Py β) (w : World) : (getCwd >>= f) w = f w.cwd w := rfl

theorem bind_error {m : Py α} {f : α → Py β} {w w' : World} {e : Exc} (h : m w = (.error e, w')) : (m >>= f) w = (.error e, w') := by
  rw [bind_run, h]

theorem bind_assoc' {γ : Type} (m : Py α) (f : α → Py β) (g : β → Py γ) : ((m >>= f) >>= g) = (m >>= fun a => f a >>= g) := by
  funext w
  simp only [bind_run]
  rcases m w with ⟨_ | _, w'⟩ <;> rfl

theorem pure_bind' (a : α) (f : α → Py β) : ((pure a : Py α) >>= f) = f a := rfl

theorem forEach_append (l l' : List α) (f : α → Py Unit) : forEach (l ++ l') f = (forEach l f >>= fun _ => forEach l' f) := by
  induction l with
  | nil => rfl
  | cons a l ih =>
    show (f a >>= fun _ => forEach (l ++ l') f) = ((f a >>= fun _ => forEach l f) >>= fun _ => forEach l' f)
    rw [bind_assoc', ih]

theorem forEach_flatMap (l : List α) (g : α → List β) (f : β → Py Unit) :
    forEach (l.flatMap g) f = forEach l fun a => forEach (g a) f := by
  induction l with
  | nil => rfl
  | cons a l ih =>
    rw [List.flatMap_cons, forEach_append, ih]
    rfl

theorem forEach_map (l : List α) (g : α → β) (f : β → Py Unit) : forEach (l.map g) f = forEach l fun a => f (g a) := by
  induction l with
  | nil => rfl
  | cons a l ih =>
    show (f (g a) >>= fun _ => _) = (f (g a) >>= fun _ => _)
    rw [ih]

theorem bind_pure_unit (m : Py Unit) : (m >>= fun _ => pure ()) = m := by
  funext w
  rw [bind_run]
  rcases m w with ⟨_ | ⟨⟩, w'⟩ <;> rfl

theorem forEach_features (f : Bool × Bool → Py Unit) :
    forEach features f = forEach [false, true] fun a => forEach [false, true] fun b => f (a, b) := by
  simp only [features, forEach, bind_assoc', pure_bind']

end Monad

theorem configs_forEach (bs : List Branch) (ts : List (Text × Text)) (f : Config → Py Unit) :
    forEach (configs bs ts) f = forEach bs fun b => forEach ts fun t => forEach [false, true] fun cu => forEach [false, true] fun ko =>
      f ⟨b.1, cu, ko, t.1, t.2⟩ := by
  unfold configs
  simp only [forEach_flatMap, forEach_map, forEach_features]

/-! ### Names -/

theorem split_last {a a' b b' : Text} (hb : '_' ∉ b) (hb' : '_' ∉ b') (h : a ++ '_' :: b = a' ++ '_' :: b') : a = a' ∧ b = b' := by
  induction a generalizing a' with
  | nil =>
    cases a' with
    | nil => simpa using h
    | cons x a' =>
      simp only [List.nil_append, List.cons_append, List.cons.injEq] at h
      exact absurd (h.2 ▸ List.mem_append_right _ (List.mem_cons_self ..) : '_' ∈ b) hb
  | cons x a ih =>
    cases a' with
    | nil =>
      simp only [List.nil_append, List.cons_append, List.cons.injEq] at h
      exact absurd (h.2 ▸ List.mem_append_right _ (List.mem_cons_self ..) : '_' ∈ b') hb'
    | cons y a' =>
      simp only [List.cons_append, List.cons.injEq] at h
      obtain ⟨h1, h2⟩ := ih h.2
      exact ⟨by rw [h.1, h1], h2⟩

theorem cudaTag_facts (b : Bool) : cudaTag b ≠ [] ∧ '_' ∉ cudaTag b := by cases b <;> decide
theorem kokkosTag_facts (b : Bool) : kokkosTag b ≠ [] ∧ '_' ∉ kokkosTag b := by cases b <;> decide
theorem cudaTag_inj {a b : Bool} (h : cudaTag a = cudaTag b) : a = b := by cases a <;> cases b <;> first | rfl | exact absurd h (by decide)
theorem kokkosTag_inj {a b : Bool} (h : kokkosTag a = kokkosTag b) : a = b := by cases a <;> cases b <;> first | rfl | exact absurd h (by decide)

theorem keep {x : Text} (h : x ≠ []) : (x != []) = true := bne_iff_ne.2 h

theorem join_name (tag : Text) (a b : Bool) (t : Text) (ht : t ≠ []) : underscoreJoin [tag, cudaTag a, kokkosTag b, t] =
    (if tag = [] then cudaTag a else tag ++ '_' :: cudaTag a) ++ '_' :: kokkosTag b ++ '_' :: t := by
  have h1 := (cudaTag_facts a).1
  have h2 := (kokkosTag_facts b).1
  by_cases h : tag = []
  · subst h
    simp [underscoreJoin, joinWith, keep h1, keep h2, keep ht]
  · simp [underscoreJoin, joinWith, h, keep h, keep h1, keep h2, keep ht]

theorem join_name' (tag : Text) (a b : Bool) (t : Text) (ht : t ≠ []) : underscoreJoin ["legion".toList, tag, cudaTag a, kokkosTag b, t] =
    "legion_".toList ++ underscoreJoin [tag, cudaTag a, kokkosTag b, t] := by
  have h1 := (cudaTag_facts a).1
  have h2 := (kokkosTag_facts b).1
  by_cases h : tag = []
  · subst h
    simp [underscoreJoin, joinWith, keep h1, keep h2, keep ht]
  · simp [underscoreJoin, joinWith, keep h, keep h1, keep h2, keep ht]

theorem name_inj {tag tag' : Text} {a a' b b' : Bool} {t t' : Text} (ht : t ≠ []) (ht' : t' ≠ []) (hu : '_' ∉ t) (hu' : '_' ∉ t')
    (h : underscoreJoin [tag, cudaTag a, kokkosTag b, t] = underscoreJoin [tag', cudaTag a', kokkosTag b', t']) :
    tag = tag' ∧ a = a' ∧ b = b' ∧ t = t' := by
  rw [join_name _ _ _ _ ht, join_name _ _ _ _ ht'] at h
  obtain ⟨h, h4⟩ := split_last hu hu' h
  obtain ⟨h, h3⟩ := split_last (kokkosTag_facts b).2 (kokkosTag_facts b').2 h
  have h12 : tag = tag' ∧ cudaTag a = cudaTag a' := by
    by_cases e : tag = [] <;> by_cases e' : tag' = []
    · simp only [e, e', if_true] at h ⊢
      exact ⟨trivial, h⟩
    · simp only [e, e', if_true, if_false] at h
      exact absurd (h ▸ List.mem_append_right _ (List.mem_cons_self ..) : '_' ∈ cudaTag a) (cudaTag_facts a).2
    · simp only [e, e', if_true, if_false] at h
      exact absurd (h.symm ▸ List.mem_append_right _ (List.mem_cons_self ..) : '_' ∈ cudaTag a') (cudaTag_facts a').2
    · simp only [e, e', if_false] at h
      exact split_last (cudaTag_facts a).2 (cudaTag_facts a').2 h
  exact ⟨h12.1, cudaTag_inj h12.2, kokkosTag_inj h3, h4⟩

theorem build_inj (s : Site) {c c' : Config} (ht : c.build ≠ []) (ht' : c'.build ≠ []) (hu : '_' ∉ c.build) (hu' : '_' ∉ c'.build)
    (h : buildOf s c = buildOf s c') : c.tag = c'.tag ∧ c.cuda = c'.cuda ∧ c.kokkos = c'.kokkos ∧ c.build = c'.build := by
  have h := List.append_cancel_left h
  simp only [List.cons.injEq, and_true, true_and] at h
  exact name_inj ht ht' hu hu' h

theorem library_inj (s : Site) {c c' : Config} (ht : c.build ≠ []) (ht' : c'.build ≠ []) (hu : '_' ∉ c.build) (hu' : '_' ∉ c'.build)
    (h : libraryOf s c = libraryOf s c') : c.tag = c'.tag ∧ c.cuda = c'.cuda ∧ c.kokkos = c'.kokkos ∧ c.build = c'.build := by
  have h := List.append_cancel_left h
  simp only [List.cons.injEq, and_true] at h
  rw [join_name' _ _ _ _ ht, join_name' _ _ _ _ ht'] at h
  exact name_inj ht ht' hu hu' (List.append_cancel_left h)

/-- Two paths of the same length: one is below the other only if they are equal. -/
theorem prefix_eq {p q : Path} (hl : p.length = q.length) (h : p <+: q) : p = q := h.eq_of_length hl

theorem buildOf_length (s : Site) (c : Config) : (buildOf s c).length = s.scratch.length + 2 := by
  simp [buildOf, Site.buildPath]

theorem libraryOf_length (s : Site) (c : Config) : (libraryOf s c).length = s.lib.length + 1 := by
  simp [libraryOf, Site.legionPath]

/-- **C90**, directories: two configurations with different tags, features or build types have different library directories and different
build directories, and none is inside another. -/
theorem c90_directories (s : Site) (c c' : Config) (h : c.build ≠ [] ∧ '_' ∉ c.build) (h' : c'.build ≠ [] ∧ '_' ∉ c'.build)
    (hne : (c.tag, c.cuda, c.kokkos, c.build) ≠ (c'.tag, c'.cuda, c'.kokkos, c'.build)) :
    ¬ libraryOf s c <+: libraryOf s c' ∧ ¬ buildOf s c <+: buildOf s c' := by
  refine ⟨fun hp => hne ?_, fun hp => hne ?_⟩
  · obtain ⟨h1, h2, h3, h4⟩ := library_inj s h.1 h'.1 h.2 h'.2 (prefix_eq (by rw [libraryOf_length, libraryOf_length]) hp)
    simp only [h1, h2, h3, h4]
  · obtain ⟨h1, h2, h3, h4⟩ := build_inj s h.1 h'.1 h.2 h'.2 (prefix_eq (by rw [buildOf_length, buildOf_length]) hp)
    simp only [h1, h2, h3, h4]

theorem mem_configs {bs : List Branch} {ts : List (Text × Text)} {c : Config} (h : c ∈ configs bs ts) :
    (∃ b ∈ bs, c.tag = b.1) ∧ ∃ t ∈ ts, c.build = t.1 ∧ c.type = t.2 := by
  unfold configs at h
  simp only [List.mem_flatMap, List.mem_map] at h
  obtain ⟨b, hb, t, ht, f, -, rfl⟩ := h
  exact ⟨⟨b, hb, rfl⟩, t, ht, rfl, rfl⟩

theorem configs_proper {bs : List Branch} {ts : List (Text × Text)} (hg : GoodTags bs ts) {c : Config} (h : c ∈ configs bs ts) :
    c.build ≠ [] ∧ '_' ∉ c.build := by
  obtain ⟨-, t, ht, e, -⟩ := mem_configs h
  rw [e]
  exact hg.proper t ht

/-- The build directories of all configurations are different. -/
theorem configs_distinct {bs : List Branch} {ts : List (Text × Text)} (hg : GoodTags bs ts) (s : Site) :
    (configs bs ts).Pairwise fun c c' => buildOf s c ≠ buildOf s c' := by
  have key : ∀ c ∈ configs bs ts, ∀ c' ∈ configs bs ts, buildOf s c = buildOf s c' →
      c.tag = c'.tag ∧ c.cuda = c'.cuda ∧ c.kokkos = c'.kokkos ∧ c.build = c'.build := fun c hc c' hc' h =>
    build_inj s (configs_proper hg hc).1 (configs_proper hg hc').1 (configs_proper hg hc).2 (configs_proper hg hc').2 h
  suffices H : (configs bs ts).Pairwise fun c c' => (c.tag, c.cuda, c.kokkos, c.build) ≠ (c'.tag, c'.cuda, c'.kokkos, c'.build) by
    refine (List.Pairwise.and_mem.1 H).imp ?_
    rintro c c' ⟨hc, hc', hne⟩ h
    obtain ⟨h1, h2, h3, h4⟩ := key c hc c' hc' h
    exact hne (by rw [h1, h2, h3, h4])
  unfold configs
  rw [List.pairwise_flatMap]
  refine ⟨fun b _ => ?_, ?_⟩
  · rw [List.pairwise_flatMap]
    refine ⟨fun t _ => ?_, ?_⟩
    · simp [features]
    · refine (List.pairwise_map.1 hg.types).imp ?_
      intro t t' hne x hx y hy h
      simp only [List.mem_map] at hx hy
      obtain ⟨f, -, rfl⟩ := hx
      obtain ⟨f', -, rfl⟩ := hy
      simp only [Prod.mk.injEq] at h
      exact hne h.2.2.2
  · refine (List.pairwise_map.1 hg.branches).imp ?_
    intro t t' hne x hx y hy h
    simp only [List.mem_map, List.mem_flatMap] at hx hy
    obtain ⟨_, -, f, -, rfl⟩ := hx
    obtain ⟨_, -, f', -, rfl⟩ := hy
    simp only [Prod.mk.injEq] at h
    exact hne h.1

/-! ### changing directories -/

/-- What `run` does to a world. -/
def ranIn (E : Ext) (d : Path) (cmd : List Text) (w : World) : World := ⟨(E d cmd w.fs).2, w.cwd, w.log ++ [(d, cmd)]⟩

/-- How a command ended, as Python sees it. -/
def asResult : Outcome → Except Exc Unit
  | .missing => .error .osError
  | .exited code => if code = 0 then .ok () else .error .calledProcess

/-- **C90**, directories: after a block in another directory the script is back where it was, whether or not the block raised, provided the
directory is still there; and it does not enter a directory that is not there. -/
theorem c90_change_directory {α : Type} (p : Path) (body : Py α) (w : World) :
    (w.fs p = some .dir → (body { w with cwd := p }).2.fs w.cwd = some .dir →
      changeDirectory p body w = ((body { w with cwd := p }).1, { (body { w with cwd := p }).2 with cwd := w.cwd })) ∧
    (w.fs p ≠ some .dir → changeDirectory p body w = (.error .osError, w)) := by
  constructor
  · intro h h'
    unfold changeDirectory
    rw [bind_ok (show getCwd w = (.ok w.cwd, w) from rfl), bind_ok (show chdir p w = (.ok (), { w with cwd := p }) by simp only [chdir, h, if_true])]
    simp only [tryFinally, chdir, h', if_true]
  · intro h
    unfold changeDirectory
    rw [bind_ok (show getCwd w = (.ok w.cwd, w) from rfl), bind_error (show chdir p w = (.error .osError, w) by simp only [chdir, h, if_false])]

theorem run_result (E : Ext) (cmd : List Text) (w : World) : run E cmd true w = (asResult (E w.cwd cmd w.fs).1, ranIn E w.cwd cmd w) := by
  unfold run ranIn asResult
  cases h : (E w.cwd cmd w.fs).1 with
  | missing => simp [h]
  | exited code =>
    by_cases hc : code = 0
    · simp [h, hc]
    · simp [h, hc]

end Verif.Build
