import Verif.Spec.Launch
import Mathlib.Data.List.Infix
import Mathlib.Data.Fintype.Basic

/-!
# C103, C104: starting the program and leaving it
-/

namespace Heracles

private theorem pdiPath_snoc (args : List Str) (a : Str) :
    pdiPath (args ++ [a])
      = if pdiOption.isPrefixOf a then a.drop pdiOption.length else pdiPath args := by
  simp [pdiPath, List.foldl_append]

private theorem pdiPath_ignore (args more : List Str) (h : ∀ a ∈ more, ¬ pdiOption <+: a) :
    pdiPath (args ++ more) = pdiPath args := by
  induction more using List.reverseRecOn with
  | nil => simp
  | append_singleton l a ih =>
    have ha : pdiOption.isPrefixOf a = false := by
      rw [← Bool.not_eq_true, List.isPrefixOf_iff_prefix]
      exact h a (by simp)
    rw [← List.append_assoc, pdiPath_snoc, ha]
    simpa using ih fun b hb => h b (by simp [hb])

private theorem pdiPath_last {args : List Str} {v : Str} (h : LastOption args v) :
    pdiPath args = v := by
  obtain ⟨before, after, rfl, ha⟩ := h
  have e : before ++ ("--pdi-config=".toList ++ v) :: after
      = (before ++ [pdiOption ++ v]) ++ after := by
    rw [List.append_assoc]; rfl
  have hp : pdiOption.isPrefixOf (pdiOption ++ v) = true :=
    List.isPrefixOf_iff_prefix.2 (List.prefix_append _ _)
  rw [e, pdiPath_ignore _ _ ha, pdiPath_snoc, hp, if_pos rfl]
  exact List.drop_left

private theorem pdiPath_none {args : List Str} (h : ∀ a ∈ args, ¬ pdiOption <+: a) :
    pdiPath args = [] := by
  simpa [pdiPath] using pdiPath_ignore [] args h

/-- **C103 (the arguments after the configuration file).** Whatever MPI and Kokkos leave of the
command line, when at least two arguments are left the second one is the configuration file; the
file given to PDI is the one named by the last argument of the form `--pdi-config=file` after it;
and the text compiled in the program is used exactly when there is no such argument or the last one
names no file. -/
theorem C103_options (mpiInit kokkosInit : List Str → List Str) (argv : List Str)
    (hargc : 2 ≤ argv.length) {exe ini : Str} {rest : List Str}
    (hleft : kokkosInit (mpiInit argv) = exe :: ini :: rest) :
    (∀ v, LastOption rest v → v ≠ [] → launch mpiInit kokkosInit argv = .started ini (some v))
    ∧ (LastOption rest [] → launch mpiInit kokkosInit argv = .started ini none)
    ∧ ((∀ a ∈ rest, ¬ "--pdi-config=".toList <+: a) →
        launch mpiInit kokkosInit argv = .started ini none) := by
  have key : launch mpiInit kokkosInit argv
      = .started ini (if pdiPath rest = [] then none else some (pdiPath rest)) := by
    match argv, hargc with
    | a :: b :: l, _ => simp only [launch, hleft]
  rw [key]
  refine ⟨fun v hv hne => ?_, fun h => ?_, fun h => ?_⟩
  · rw [pdiPath_last hv, if_neg hne]
  · rw [pdiPath_last h, if_pos rfl]
  · rw [pdiPath_none h, if_pos rfl]

/-- The command `heracles setup.ini --pdi-config=a.yml -v --pdi-config=b.yml` (with nothing taken
out): `b.yml` is used. -/
example : launch id id (["heracles", "setup.ini", "--pdi-config=a.yml", "-v",
      "--pdi-config=b.yml"].map String.toList)
    = .started "setup.ini".toList (some "b.yml".toList) := by
  refine (C103_options id id _ (by decide) rfl).1 _ ⟨["--pdi-config=a.yml".toList, "-v".toList], [],
    rfl, by simp⟩ (by decide)

/-- **C103 (arguments that say nothing).** Arguments that do not start with `--pdi-config=` may be
added or removed anywhere after the configuration file without any effect: unknown options are
never reported. -/
theorem C103_unknown_ignored (exe ini : Str) (before more after : List Str)
    (hmore : ∀ a ∈ more, ¬ "--pdi-config=".toList <+: a) :
    launch id id (exe :: ini :: (before ++ more ++ after))
      = launch id id (exe :: ini :: (before ++ after)) := by
  have h : pdiPath (before ++ more ++ after) = pdiPath (before ++ after) := by
    induction after using List.reverseRecOn with
    | nil => simpa using pdiPath_ignore before more hmore
    | append_singleton l a ih =>
      rw [← List.append_assoc, ← List.append_assoc, pdiPath_snoc, pdiPath_snoc, ih]
  simp only [launch, id_eq, h]

example : launch id id (["heracles", "setup.ini", "--pdi-confg=a.yml"].map String.toList)
    = launch id id (["heracles", "setup.ini"].map String.toList) :=
  C103_unknown_ignored "heracles".toList "setup.ini".toList [] ["--pdi-confg=a.yml".toList] []
    (by simp)

/-- **C103 (partial): no configuration file, no run.** The full claim, that a command line in which
no configuration file is left is answered by the usage message, holds when MPI and Kokkos take
nothing out of the command line: then the program starts exactly when there are two arguments or
more, and a command line of one word is answered by the usage message. What is missing is
`C103_flags_violated`. -/
theorem C103_usage_partial (argv : List Str) (hargv : argv ≠ []) :
    (argv.length < 2 → ∃ exe, argv = [exe] ∧ launch id id argv = .usage (helpMessage exe))
    ∧ (2 ≤ argv.length → ∃ ini pdi, argv[1]? = some ini ∧ launch id id argv = .started ini pdi) := by
  match argv, hargv with
  | [exe], _ => exact ⟨fun _ => ⟨exe, rfl, rfl⟩, fun h => by simp at h⟩
  | exe :: ini :: rest, _ =>
    exact ⟨fun h => by simp at h; omega, fun _ => ⟨ini, _, rfl, rfl⟩⟩

/-- The usage message of `/usr/bin/heracles`, with the quotes put around a path. -/
example : launch id id ["/usr/bin/heracles".toList]
    = .usage "usage: \"heracles\" <path to the ini file> [options]".toList := by decide

/-- What Kokkos does to the command line: it takes out the arguments that start with `--kokkos-`. -/
def kokkosStrip (argv : List Str) : List Str :=
  argv.filter fun a => !("--kokkos-".toList).isPrefixOf a

/-- **C103 (violated): flags meant for Kokkos count as a configuration file.** The number of
arguments is looked at before MPI and Kokkos take out their own: `heracles --kokkos-num-threads=4`
passes the test, no configuration file is left, and the program makes a string of a null pointer
instead of printing the usage message. The same holds for any number of flags meant for Kokkos. -/
theorem C103_flags_violated (exe flag : Str) (flags : List Str)
    (hexe : ¬ "--kokkos-".toList <+: exe)
    (hflags : ∀ a ∈ flag :: flags, "--kokkos-".toList <+: a) :
    launch id kokkosStrip (exe :: flag :: flags) = .nullArgument := by
  have h1 : kokkosStrip (exe :: flag :: flags) = [exe] := by
    have he : ("--kokkos-".toList).isPrefixOf exe = false := by
      rw [← Bool.not_eq_true, List.isPrefixOf_iff_prefix]
      exact hexe
    have : (flag :: flags).filter (fun a => !("--kokkos-".toList).isPrefixOf a) = [] := by
      rw [List.filter_eq_nil_iff]
      intro a ha
      have := List.isPrefixOf_iff_prefix.2 (hflags a ha)
      rw [this]
      decide
    rw [kokkosStrip, List.filter_cons, this, he]
    rfl
  simp only [launch, id_eq, h1]

example : launch id kokkosStrip (["heracles", "--kokkos-num-threads=4"].map String.toList)
    = .nullArgument :=
  C103_flags_violated "heracles".toList "--kokkos-num-threads=4".toList [] (by decide)
    (by simp)

/-- **C103 (violated): the option before the configuration file.** Options are looked for from the
third argument on only: `heracles --pdi-config=io.yml setup.ini` reads its configuration from a file
called `--pdi-config=io.yml`, and PDI gets the text compiled in the program. -/
theorem C103_option_first_violated (exe v ini : Str)
    (hini : ¬ "--pdi-config=".toList <+: ini) :
    launch id id [exe, "--pdi-config=".toList ++ v, ini]
      = .started ("--pdi-config=".toList ++ v) none :=
  (C103_options id id _ (by simp) rfl).2.2 (by simpa using hini)

example : launch id id (["heracles", "--pdi-config=io.yml", "setup.ini"].map String.toList)
    = .started "--pdi-config=io.yml".toList none :=
  C103_option_first_violated "heracles".toList "io.yml".toList "setup.ini".toList (by decide)

/-! ### C104: resources -/

private instance : Fintype Resource where
  elems := {.mpi, .kokkos, .tree, .pdi, .cart, .horizontal, .memory}
  complete r := by cases r <;> decide

/-- Only the first statement that throws matters. -/
private theorem runStmts_first (throws : ℕ → Bool) (l : List Stmt) :
    ∀ (k : ℕ) (owned : List Resource), ∃ j, j ≤ l.length ∧
      runStmts throws k l owned = runStmts (fun i => i == k + j) k l owned := by
  induction l with
  | nil => intro k owned; exact ⟨0, le_refl _, rfl⟩
  | cons s rest ih =>
    intro k owned
    by_cases h : (s.mayThrow && throws k) = true
    · refine ⟨0, Nat.zero_le _, ?_⟩
      have hm : s.mayThrow = true := by
        revert h; cases s.mayThrow <;> simp
      have h' : (s.mayThrow && (k == k + 0)) = true := by simp [hm]
      cases s <;> simp only [runStmts, h, h', if_true]
    · have step : ∀ owned', ∃ j, j + 1 ≤ (s :: rest).length ∧
          runStmts throws (k + 1) rest owned'
            = runStmts (fun i => i == k + (j + 1)) (k + 1) rest owned' := by
        intro owned'
        obtain ⟨j, hj, e⟩ := ih (k + 1) owned'
        refine ⟨j, by simpa using hj, ?_⟩
        rw [e]
        congr 1
        funext i
        congr 1
        omega
      have hk : ∀ j, (s.mayThrow && (k == k + (j + 1))) = false := by
        intro j
        have : (k == k + (j + 1)) = false := by simp
        rw [this, Bool.and_false]
      cases s with
      | take r =>
        obtain ⟨j, hj, e⟩ := step owned
        exact ⟨j + 1, hj, by simp only [runStmts, h, hk, e]⟩
      | own r =>
        obtain ⟨j, hj, e⟩ := step (r :: owned)
        exact ⟨j + 1, hj, by simp only [runStmts, h, hk, e]⟩
      | give r =>
        obtain ⟨j, hj, e⟩ := step owned
        exact ⟨j + 1, hj, by simp only [runStmts, h, hk, e]⟩
      | work =>
        obtain ⟨j, hj, e⟩ := step owned
        exact ⟨j + 1, hj, by simp only [runStmts, h, hk, e]⟩

private theorem programRun_first (throws : ℕ → Bool) :
    ∃ j : Fin 21, programRun throws = programRun fun i => i == j.1 := by
  obtain ⟨j, hj, e⟩ := runStmts_first throws mainStmts 0 []
  refine ⟨⟨j, by have : mainStmts.length = 20 := rfl; omega⟩, ?_⟩
  simp only [programRun, e, Nat.zero_add]

/-- **C104 (partial): resources.** The full claim is that every resource taken is given back on
every way out of the program. Whichever statements throw: nothing is ever given back that is not
held; MPI, Kokkos and the memory are given back; nothing is taken or given back before MPI_Init or
after MPI_Finalize; and the program returns 0 or 1. When it returns 0, PDI, the PDI tree and the
Cartesian communicator have been given back as well. What is missing is in the three theorems that
follow. -/
theorem C104_resources_partial (throws : ℕ → Bool) :
    NeverTooMany (programRun throws).1
    ∧ (∀ r, r = .mpi ∨ r = .kokkos ∨ r = .memory → GivenBack (programRun throws).1 r)
    ∧ InsideMpi (programRun throws).1
    ∧ ((programRun throws).2 = 0 ∨ (programRun throws).2 = 1)
    ∧ ((programRun throws).2 = 0 → ∀ r, r ≠ .horizontal → GivenBack (programRun throws).1 r) := by
  obtain ⟨j, e⟩ := programRun_first throws
  rw [e]
  have h1 : ∀ j : Fin 21, ∀ pre ∈ (programRun fun i => i == j.1).1.inits, ∀ r : Resource,
      pre.count (.give r) ≤ pre.count (.take r) := by decide
  have h2 : ∀ j : Fin 21, ∀ r : Resource, r = .mpi ∨ r = .kokkos ∨ r = .memory →
      GivenBack (programRun fun i => i == j.1).1 r := by
    unfold GivenBack; decide
  have h3 : ∀ j : Fin 21, (programRun fun i => i == j.1).1 = [] ∨
      ((programRun fun i => i == j.1).1
          = .take .mpi :: (programRun fun i => i == j.1).1.tail.dropLast ++ [.give .mpi]
        ∧ .take .mpi ∉ (programRun fun i => i == j.1).1.tail.dropLast
        ∧ .give .mpi ∉ (programRun fun i => i == j.1).1.tail.dropLast) := by decide
  have h4 : ∀ j : Fin 21, (programRun fun i => i == j.1).2 = 0
      ∨ (programRun fun i => i == j.1).2 = 1 := by decide
  have h5 : ∀ j : Fin 21, (programRun fun i => i == j.1).2 = 0 → ∀ r : Resource, r ≠ .horizontal →
      GivenBack (programRun fun i => i == j.1).1 r := by
    unfold GivenBack; decide
  refine ⟨fun pre hp r => h1 j pre ((List.mem_inits _ _).2 hp) r, h2 j, ?_, h4 j, h5 j⟩
  rcases h3 j with h | ⟨h, h', h''⟩
  · exact .inl h
  · exact .inr ⟨_, h, h', h''⟩

/-- A run without exceptions: what is taken and given back, in this order. -/
example : programRun (fun _ => false)
    = ([.take .mpi, .take .kokkos, .take .tree, .take .pdi, .take .cart, .take .horizontal,
        .take .memory, .give .pdi, .give .tree, .give .memory, .give .cart, .give .kokkos,
        .give .mpi], 0) := by decide

/-- **C104 (what the program returns).** It returns 0 exactly when nothing throws. -/
theorem C104_returned (throws : ℕ → Bool) :
    (programRun throws).2 = 0 ↔
      ∀ k, (h : k < mainStmts.length) → mainStmts[k].mayThrow = true → throws k = false := by
  have key : ∀ (l : List Stmt) (k : ℕ) (owned : List Resource),
      (runStmts throws k l owned).2 = true ↔
        ∀ i, (h : i < l.length) → l[i].mayThrow = true → throws (k + i) = false := by
    intro l
    induction l with
    | nil => intro k owned; simp [runStmts]
    | cons s rest ih =>
      intro k owned
      have split : (∀ i, (h : i < (s :: rest).length) → (s :: rest)[i].mayThrow = true →
            throws (k + i) = false)
          ↔ (s.mayThrow = true → throws k = false) ∧
            ∀ i, (h : i < rest.length) → rest[i].mayThrow = true → throws (k + 1 + i) = false := by
        constructor
        · intro h
          refine ⟨fun hs => by simpa using h 0 (by simp) (by simpa using hs), fun i hi hm => ?_⟩
          have := h (i + 1) (by simpa using hi) (by simpa using hm)
          rwa [show k + 1 + i = k + (i + 1) by omega]
        · rintro ⟨h0, h⟩ i hi hm
          cases i with
          | zero => simpa using h0 (by simpa using hm)
          | succ i =>
            have := h i (by simpa using hi) (by simpa using hm)
            rwa [show k + (i + 1) = k + 1 + i by omega]
      rw [split]
      by_cases hb : (s.mayThrow && throws k) = true
      · have : ¬ (s.mayThrow = true → throws k = false) := by
          rw [Bool.and_eq_true] at hb
          intro h
          rw [h hb.1] at hb
          exact absurd hb.2 (by decide)
        simp [runStmts, hb, this]
      · have h0 : s.mayThrow = true → throws k = false := by
          intro hs
          rw [hs, Bool.true_and] at hb
          simpa using hb
        cases s <;> simp only [runStmts, hb] <;> simp only [ih, h0, true_and, Bool.false_eq_true,
          if_false] <;> simp_all
  have := key mainStmts 0 []
  simp only [Nat.zero_add] at this
  rw [← this, programRun]
  dsimp only
  cases (runStmts throws 0 mainStmts []).2 <;> simp

/-- A missing parameter (statement 8 throws): the program returns 1. -/
example : (programRun fun k => k == 8).2 = 1 := by decide

/-- **C104 (violated): an exception leaves PDI open.** PDI and the tree are given back by plain
calls at the end of the function: whenever an exception is thrown, whatever was taken of the two
stays taken. With a parameter missing in the configuration file, both do, while MPI is finalized. -/
theorem C104_exception_violated :
    (∀ throws, (programRun throws).2 = 1 →
      .give .pdi ∉ (programRun throws).1 ∧ .give .tree ∉ (programRun throws).1)
    ∧ ∃ throws, (programRun throws).2 = 1 ∧ ¬ GivenBack (programRun throws).1 .pdi
        ∧ ¬ GivenBack (programRun throws).1 .tree ∧ .give .mpi ∈ (programRun throws).1 := by
  constructor
  · intro throws
    obtain ⟨j, e⟩ := programRun_first throws
    rw [e]
    revert j
    have : ∀ j : Fin 21, (programRun fun i => i == j.1).2 = 1 →
      .give .pdi ∉ (programRun fun i => i == j.1).1
        ∧ .give .tree ∉ (programRun fun i => i == j.1).1 := by decide
    intro j _
    exact this j
  · exact ⟨fun k => k == 8, by unfold GivenBack; decide⟩

/-- **C104 (violated): the horizontal communicator is never freed.** On no way out of the program is
the communicator made by MPI_Cart_sub given back; a run without exceptions takes it. -/
theorem C104_horizontal_violated :
    (∀ throws, .give .horizontal ∉ (programRun throws).1)
    ∧ ¬ GivenBack (programRun fun _ => false).1 .horizontal := by
  constructor
  · intro throws
    obtain ⟨j, e⟩ := programRun_first throws
    rw [e]
    have : ∀ j : Fin 21, .give .horizontal ∉ (programRun fun i => i == j.1).1 := by decide
    exact this j
  · unfold GivenBack; decide

/-- **C104 (violated): a grid that cannot be allocated.** When the constructor of the grid throws
after the Cartesian communicator was made (statements 10 to 12: no memory for the views of the
grid), its destructor does not run and the communicator is not freed. -/
theorem C104_grid_violated :
    ∀ k, 10 ≤ k → k ≤ 12 → ¬ GivenBack (programRun fun i => i == k).1 .cart := by
  have : ∀ k : Fin 13, 10 ≤ k.1 → ¬ GivenBack (programRun fun i => i == k.1).1 .cart := by
    unfold GivenBack; decide
  intro k h1 h2
  exact this ⟨k, by omega⟩ h1

end Heracles
