import Verif.Props.Param
import Verif.Props.Runs
import Verif.Model.Configured

/-!
# C76: shipped and small configuration files; what is accepted; from the text of the file to the results
-/

namespace Heracles

/-! ### Files of sections and entries -/

/-- `[name]` -/
def secLine (name : String) : IniItem := .header [] name.toList []

/-- `name = value` -/
def keyLine (name value : String) : IniItem := .entry [] name.toList [' '] '=' [' '] value.toList [] []

/-- Printable, without white space at the ends, semicolons and separators. -/
def plainText (s : Str) : Bool :=
  s.all (fun c => c != '\n' && c != Char.ofNat 0 && c != ';') && (s.head?.all fun c => !iniSpace c) && (s.getLast?.all fun c => !iniSpace c)

/-- A line of the form `[name]`, `name = value`, `; text` or an empty one, of a reasonable length. -/
def simpleLine : IniItem → Bool
  | .blank [] => true
  | .comment [] ';' text => text.all (fun c => c != '\n' && c != Char.ofNat 0) && decide (text.length ≤ 150)
  | .header [] name [] => plainText name && name.all (fun c => c != ']') && decide (name.length ≤ 49)
  | .entry [] name [' '] '=' [' '] value [] [] =>
    plainText name && plainText value && !name.isEmpty && name.all (fun c => c != '=' && c != ':' && c != '[' && c != '#') && decide (name.length ≤ 49) &&
      decide (value.length ≤ 100)
  | _ => false

theorem plainText_spec {s : Str} (h : plainText s = true) : InLine s ∧ Trimmed s ∧ NoInline s := by
  simp only [plainText, Bool.and_eq_true, List.all_eq_true, bne_iff_ne, ne_eq] at h
  exact ⟨fun c hc => ⟨(h.1.1 c hc).1.1, (h.1.1 c hc).1.2⟩, trimmed_of h.1.2 h.2, noInline_of fun hc => (h.1.1 _ hc).2 rfl⟩

theorem blank_nil : Blank [] := fun c hc => absurd hc (by simp)

theorem blank_space : Blank [' '] := fun c hc => by
  rw [List.mem_singleton.1 hc]; decide

theorem inLine_nil : InLine [] := fun c hc => absurd hc (by simp)

theorem simpleLine_ok {it : IniItem} (h : simpleLine it = true) (prev : Option Str) : it.WF prev ∧ it.text.length ≤ 198 := by
  unfold simpleLine at h
  split at h
  · exact ⟨blank_nil, by simp [IniItem.text]⟩
  · simp only [Bool.and_eq_true, List.all_eq_true, bne_iff_ne, ne_eq, decide_eq_true_eq] at h
    exact ⟨⟨blank_nil, Or.inl rfl, h.1⟩, by simp only [IniItem.text, List.nil_append, List.length_cons]; omega⟩
  · simp only [Bool.and_eq_true, List.all_eq_true, bne_iff_ne, ne_eq, decide_eq_true_eq] at h
    obtain ⟨h1, -, h3⟩ := plainText_spec h.1.1
    exact ⟨⟨blank_nil, Or.inl rfl, h1, inLine_nil, fun hc => h.1.2 _ hc rfl, h3, h.2⟩, by simp [IniItem.text]; omega⟩
  · rename_i name value
    simp only [Bool.and_eq_true, List.all_eq_true, bne_iff_ne, ne_eq, decide_eq_true_eq, Bool.not_eq_true', List.isEmpty_eq_false_iff] at h
    obtain ⟨⟨⟨⟨⟨g1, g2⟩, g3⟩, g4⟩, g5⟩, g6⟩ := h
    obtain ⟨h1, h2, h3⟩ := plainText_spec g1
    obtain ⟨h4, h5, h6⟩ := plainText_spec g2
    refine ⟨⟨blank_nil, Or.inl rfl, h1, h2, g3, fun c hc => ?_, fun hc => ?_, fun hc => ?_, h3, blank_space, Or.inl rfl, blank_space, h4, h5, ?_, blank_nil, Or.inl rfl⟩, ?_⟩
    · have hm := List.mem_of_mem_head? hc
      have hs : c ≠ ';' := by
        simp only [plainText, Bool.and_eq_true, List.all_eq_true, bne_iff_ne, ne_eq] at g1
        exact (g1.1.1 c hm).2
      exact ⟨hs, (g4 c hm).2, (g4 c hm).1.2⟩
    · exact (g4 _ hc).1.1.1 rfl
    · exact (g4 _ hc).1.1.2 rfl
    · refine noInline_of fun hc => ?_
      rcases List.mem_append.1 hc with hc | hc
      · revert hc; decide
      · simp only [plainText, Bool.and_eq_true, List.all_eq_true, bne_iff_ne, ne_eq] at g2
        exact (g2.1.1 _ hc).2 rfl
    · simp [IniItem.text]; omega
  · cases h

theorem simpleFile_ok {items : List IniItem} (h : items.all simpleLine = true)
    (hb : (fileText items).take 3 ≠ [Char.ofNat 0xEF, Char.ofNat 0xBB, Char.ofNat 0xBF]) : FileOk items := by
  rw [List.all_eq_true] at h
  refine ⟨?_, fun it hit => (simpleLine_ok (h it hit) none).2, hb⟩
  have : ∀ prev, LinesWF prev items := by
    clear hb
    induction items with
    | nil => exact fun _ => trivial
    | cons it items ih => exact fun prev => ⟨(simpleLine_ok (h it (by simp)) prev).1, ih (fun i hi => h i (by simp [hi])) _⟩
  exact this none

theorem stored {items : List IniItem} (h : FileOk items) : ∃ values, Stored items values := by
  obtain ⟨v, hv, -⟩ := C57_entries h
  exact ⟨v, h, hv⟩

/-! ### inputs/shock_tube.ini -/

/-- The lines of inputs/shock_tube.ini. -/
def shockTubeFile : List IniItem :=
  [.comment [] ';' " SPDX-FileCopyrightText: 2025 The HERACLES++ development team, see COPYRIGHT.md file".toList, .comment [] ';' [],
   .comment [] ';' " SPDX-License-Identifier: MIT".toList, .blank [],
   secLine "Grid", keyLine "Nx0_glob" "100", keyLine "Nx1_glob" "1", keyLine "Nx2_glob" "1", .blank [], keyLine "x0min" "0", keyLine "x0max" "1", .blank [],
   secLine "Run", keyLine "t_end" "0.2", keyLine "cfl" "0.4", .blank [],
   secLine "Output", keyLine "max_iter" "1000", keyLine "time_frequency" "0.1", keyLine "prefix" "shock_tube", .blank [],
   secLine "Hydro", keyLine "reconstruction" "Minmod", keyLine "riemann_solver" "HLLC", .blank [],
   secLine "Boundary Condition", keyLine "BC_X0" "NullGradient", .blank [],
   secLine "Perfect Gas", keyLine "gamma" "1.4", .blank [],
   secLine "Initialisation", keyLine "rho0" "1", keyLine "rho1" "0.125", keyLine "u0" "0", keyLine "u1" "0", keyLine "P0" "1", keyLine "P1" "0.1",
   keyLine "inter" "0.5"]

example : fileText shockTubeFile = "; SPDX-FileCopyrightText: 2025 The HERACLES++ development team, see COPYRIGHT.md file
;
; SPDX-License-Identifier: MIT

[Grid]
Nx0_glob = 100
Nx1_glob = 1
Nx2_glob = 1

x0min = 0
x0max = 1

[Run]
t_end = 0.2
cfl = 0.4

[Output]
max_iter = 1000
time_frequency = 0.1
prefix = shock_tube

[Hydro]
reconstruction = Minmod
riemann_solver = HLLC

[Boundary Condition]
BC_X0 = NullGradient

[Perfect Gas]
gamma = 1.4

[Initialisation]
rho0 = 1
rho1 = 0.125
u0 = 0
u1 = 0
P0 = 1
P1 = 0.1
inter = 0.5
".toList := by decide +kernel

theorem shockTubeFile_ok : FileOk shockTubeFile := simpleFile_ok (by decide +kernel) (by decide +kernel)

/-- The parameters of inputs/shock_tube.ini. -/
def shockTubeParam : Param ℚ :=
  { problem := "ShockTube".toList, restart := false, restartFile := "None".toList, rmaxShift := 10 ^ 20, nx := ![100, 1, 1], gridType := "Regular".toList
    ng := 2, xmin := ![0, 0, 0], xmax := ![1, 1, 1], shiftGrid := "Off".toList, deviceAware := false, dims := ![0, 0, 0], tIni := 0, tEnd := 1 / 5
    cfl := 2 / 5, maxIter := 1000, iterFreq := 0, timeFreq := 1 / 10, timeFirst := 1 / 10, directory := ".".toList, pfx := "shock_tube".toList
    timeJob := 20, reconstruction := "Minmod".toList, riemann := "HLLC".toList, gx := ![0, 0, 0], mass := 1, gamma := 7 / 5, mu := 1, bc := []
    priority := [], nfx := 0, userStep := "Off".toList, pressureFix := "Off".toList, epsPf := 1 / 1000000 }

/-- A key that is not written has its default. -/
theorem SaysInt.absent {items : List IniItem} {sec name : String} {dflt : ℤ} (h : written items sec name = []) : SaysInt items sec name dflt dflt :=
  Or.inl ⟨h, rfl⟩

theorem SaysReal.absent {K : Type} [Field K] {items : List IniItem} {sec name : String} {dflt : K} (h : written items sec name = []) :
    SaysReal items sec name dflt dflt := Or.inl ⟨h, rfl⟩

theorem SaysText.absent {items : List IniItem} {sec name dflt : String} (h : valuesOf sec.toList name.toList [] none items = []) :
    SaysText items sec name dflt dflt.toList := by unfold SaysText; rw [if_pos h]

/-- A written text. -/
theorem SaysText.of {items : List IniItem} {sec name dflt : String} {v : Str} (h : valuesOf sec.toList name.toList [] none items ≠ [])
    (hw : written items sec name = v) : SaysText items sec name dflt v := by unfold SaysText; rw [if_neg h, hw]

theorem apart_nil : Apart [] := fun c hc => by cases hc

/-- A written decimal number. -/
theorem SaysReal.of {K : Type} [Field K] {items : List IniItem} {sec name : String} {dflt v : K} (x : Decimal) (hx : x.WF)
    (h : written items sec name = x.text) (hv : (x.value : K) = v) : SaysReal items sec name dflt v :=
  Or.inr ⟨x, [], hx, apart_nil, by rw [List.append_nil]; exact h, hv.symm⟩

/-- A written integer. -/
theorem SaysInt.of {items : List IniItem} {sec name : String} {dflt : ℤ} (ds : List ℕ) (hd : ds ≠ [] ∧ ∀ k ∈ ds, k < 10)
    (h : written items sec name = ds.map digitText) (hv : (decimalValue ds : ℤ) < 2 ^ 31) : SaysInt items sec name dflt (decimalValue ds) :=
  Or.inr ⟨.none, ds, [], hd.1, hd.2, apart_nil, by rw [List.append_nil]; exact h, rfl, by omega, hv⟩

theorem digits_wf {i f : List ℕ} (h : ∀ k ∈ i ++ f, k < 10) (hne : i ++ f ≠ []) : (⟨.none, i, some f, none⟩ : Decimal).WF :=
  ⟨h, hne, fun e he => by cases he⟩

theorem int_wf {i : List ℕ} (h : ∀ k ∈ i, k < 10) (hne : i ≠ []) : (⟨.none, i, none, none⟩ : Decimal).WF :=
  ⟨by simpa [Decimal.fracDigits] using h, by simpa [Decimal.fracDigits] using hne, fun e he => by cases he⟩

/-- inputs/shock_tube.ini asks for these parameters. -/
theorem shockTube_says : ParamSays shockTubeFile shockTubeParam where
  problem := .absent (by decide +kernel)
  restartFile := .absent (by decide +kernel)
  gridType := .absent (by decide +kernel)
  shiftGrid := .absent (by decide +kernel)
  directory := .absent (by decide +kernel)
  pfx := .of (by decide +kernel) (by decide +kernel)
  reconstruction := .of (by decide +kernel) (by decide +kernel)
  riemann := .of (by decide +kernel) (by decide +kernel)
  bc := .absent (by decide +kernel)
  priority := .absent (by decide +kernel)
  userStep := .absent (by decide +kernel)
  pressureFix := .absent (by decide +kernel)
  restart := Or.inl ⟨by decide +kernel, rfl⟩
  deviceAware := Or.inl ⟨by decide +kernel, rfl⟩
  rmaxShift := .absent (by decide +kernel)
  nx := fun a => by
    fin_cases a
    · exact SaysInt.of [1, 0, 0] (by decide) (by decide +kernel) (by decide)
    · exact SaysInt.of [1] (by decide) (by decide +kernel) (by decide)
    · exact SaysInt.of [1] (by decide) (by decide +kernel) (by decide)
  ng := .absent (by decide +kernel)
  xmin := fun a => by
    fin_cases a
    · exact SaysReal.of ⟨.none, [0], none, none⟩ (int_wf (by decide) (by decide)) (by decide +kernel) (by decide +kernel)
    · exact .absent (by decide +kernel)
    · exact .absent (by decide +kernel)
  xmax := fun a => by
    fin_cases a
    · exact SaysReal.of ⟨.none, [1], none, none⟩ (int_wf (by decide) (by decide)) (by decide +kernel) (by decide +kernel)
    · exact .absent (by decide +kernel)
    · exact .absent (by decide +kernel)
  dims := fun a => by fin_cases a <;> exact .absent (by decide +kernel)
  tIni := .absent (by decide +kernel)
  tEnd := SaysReal.of ⟨.none, [0], some [2], none⟩ (digits_wf (by decide) (by decide)) (by decide +kernel) (by decide +kernel)
  cfl := SaysReal.of ⟨.none, [0], some [4], none⟩ (digits_wf (by decide) (by decide)) (by decide +kernel) (by decide +kernel)
  maxIter := SaysInt.of [1, 0, 0, 0] (by decide) (by decide +kernel) (by decide)
  iterFreq := .absent (by decide +kernel)
  timeFreq := SaysReal.of ⟨.none, [0], some [1], none⟩ (digits_wf (by decide) (by decide)) (by decide +kernel) (by decide +kernel)
  timeFirst := Or.inl ⟨by decide +kernel, by decide +kernel⟩
  timeJob := .absent (by decide +kernel)
  gx := fun a => by fin_cases a <;> exact .absent (by decide +kernel)
  mass := .absent (by decide +kernel)
  gamma := SaysReal.of ⟨.none, [1], some [4], none⟩ (digits_wf (by decide) (by decide)) (by decide +kernel) (by decide +kernel)
  mu := .absent (by decide +kernel)
  nfx := .absent (by decide +kernel)
  epsPf := .absent (by decide +kernel)

/-- The run of inputs/shock_tube.ini; the gas is given by its two parameters. -/
def shockTubeConfig : RunConfig 1 (ℚ × ℚ) ℚ :=
  { param := shockTubeParam, gas := (7 / 5, 1), grid := some .regular, bcs := fun _ _ => .nullGradient, order := [some 0, some 1], lim := .minmod, sol := .hllc
    step := .off, shift := false }

theorem shockTube_choices : ChoicesSay (fun a b => .ok (a, b)) shockTubeFile shockTubeConfig where
  gas := rfl
  grid := Or.inl ⟨rfl, rfl⟩
  bcs := fun a a' f h => by
    have : a' = 0 := by ext; have := a.2; simp only [Fin.val_zero]; omega
    subst this
    clear h
    revert a f
    decide +kernel
  lim := by decide +kernel
  sol := by decide +kernel
  step := by decide +kernel
  shift := by decide +kernel

/-- The shipped file, read and configured, gives this run: the theorem applies. -/
example {values : Str → Option Str} (hv : iniReader (fileText shockTubeFile) = .ok values) :
    ∃ o : List ℕ, o.Perm [0, 1] ∧ configure 1 stodDecimal (fun a b => .ok (a, b)) values = .ok { shockTubeConfig with order := o.map some } :=
  C76_config (by norm_num) (by norm_num) ⟨shockTubeFile_ok, hv⟩ C76_real shockTube_says shockTube_choices (Or.inl rfl)

/-! ### What is accepted -/

/-- The configuration of a text, with the gas given by its two parameters. -/
def configureText (d : ℕ) (text : Str) : Except String (RunConfig d (ℚ × ℚ) ℚ) :=
  match iniReader text with
  | .ok values => configure d stodDecimal (fun a b => .ok (a, b)) values
  | .error m => .error m

/-- ```
[Boundary Condition]
BC = Periodic
[Grid]
shift_grid = Yes
[Pressure fix]
pressure_fix = on
``` -/
def switchFile : List IniItem :=
  [secLine "Boundary Condition", keyLine "BC" "Periodic", secLine "Grid", keyLine "shift_grid" "Yes", secLine "Pressure fix", keyLine "pressure_fix" "on"]

/-- C76 is violated by the switches `pressure_fix` and `shift_grid`: unlike all other names, a name that is not known is not refused. "on" leaves the
pressure fix off, "Yes" leaves the grid at rest. -/
theorem C76_switches_violated : FileOk switchFile ∧ written switchFile "Pressure fix" "pressure_fix" = "on".toList ∧
    written switchFile "Grid" "shift_grid" = "Yes".toList ∧
    (configureText 2 (fileText switchFile)).map (fun c => (c.fix, c.shift)) = .ok (none, false) :=
  ⟨simpleFile_ok (by decide +kernel) (by decide +kernel), by decide +kernel, by decide +kernel, by decide +kernel⟩

/-- ```
[Boundary Condition]
BC = Periodic
[Grid]
Nx_glob = 100
[User step]
user_step = Heat_nickel
[Run]
t_ini = 1
``` -/
def emptyFile : List IniItem :=
  [secLine "Boundary Condition", keyLine "BC" "Periodic", secLine "Grid", keyLine "Nx_glob" "100", secLine "User step", keyLine "user_step" "Heat_nickel",
   secLine "Run", keyLine "t_ini" "1"]

/-- C76: what no check refuses: a grid without cells (the default of the numbers of cells is 0; the misspelt key is ignored), the nickel heating without
a passive scalar, which reads outside of the arrays (`C51_without_scalars`), an initial time beyond the final time. -/
theorem C76_unchecked : FileOk emptyFile ∧
    (configureText 2 (fileText emptyFile)).map (fun c => ((c.param.nx 0, c.param.nx 1), (c.step, c.param.nfx), (c.param.tIni, c.param.tEnd))) =
      .ok ((0, 0), (.heatNickel, 0), (1, 1 / 5)) :=
  ⟨simpleFile_ok (by decide +kernel) (by decide +kernel), by decide +kernel⟩

/-- C76: with an initial time beyond the final time and no timed outputs, the run makes one step of negative length, without error. -/
theorem C76_backwards {H K : Type} [Field K] [LinearOrder K] [IsStrictOrderedRing K] {d : ℕ} {G : Type} (c : RunConfig d G K) (ht : c.param.tEnd < c.param.tIni)
    (hf : c.param.timeFreq ≤ 0) (hc : 0 ≤ c.param.cfl) {dt0 : K} (h0 : 0 ≤ dt0) (clock : Bool) (s : LoopState H K) (hs : s.t = c.param.tIni) :
    ∃ D, decideStep c.loop dt0 clock s = .ok D ∧ D.dt = c.param.tEnd - c.param.tIni ∧ D.dt < 0 ∧ D.exit = true := by
  have htt : timeTrigger c.loop s (c.loop.cfl * dt0) = false := by
    unfold timeTrigger
    rw [show decide (0 < c.loop.timeFreq) = false from decide_eq_false (not_lt.2 hf)]
    rfl
  have hd : dtTimed c.loop s (c.loop.cfl * dt0) = c.param.cfl * dt0 := by
    unfold dtTimed
    rw [htt]; rfl
  have hend : s.t + dtTimed c.loop s (c.loop.cfl * dt0) ≥ c.loop.tEnd := by
    rw [hd, hs]
    have := mul_nonneg hc h0
    show c.param.tEnd ≤ _
    linarith
  refine ⟨_, by rw [decideStep_eq, if_neg (by rw [htt]; simp)], ?_, ?_, ?_⟩
  · simp only [if_pos hend]; rw [hs]; rfl
  · simp only [if_pos hend]; rw [hs]
    show c.param.tEnd - c.param.tIni < 0
    linarith
  · simp only [hend, decide_true, Bool.or_true, Bool.true_or]

/-! ### From the text of the file to the results -/

open Finset in
/-- C76, the parameters of the run: if the file says the configuration `c`, the time loop gets the final time, the CFL number, the dates and periods of
the outputs and the number of iterations that the file gives, the run starts at its initial time, and the pressure fix is applied, with the
threshold of the file, when the file says "On". -/
theorem C76_prog {d : ℕ} (n : ℕ) {items : List IniItem} {gas : ℝ → ℝ → Except String (EoS ℝ)} {c : RunConfig d (EoS ℝ) ℝ} (hp : ParamSays items c.param)
    (hc : ChoicesSay gas items c) (tr : Trig ℝ) (geom : Geom) (lo top : ℝ) (user : UserBc d n ℝ) (temp : ℝ → ℝ → ℝ) :
    let p := c.prog n tr geom lo top user temp
    SaysReal items "Run" "t_ini" 0 p.tIni ∧ SaysReal items "Run" "t_end" (1 / 5) p.loop.tEnd ∧ SaysReal items "Run" "cfl" (2 / 5) p.loop.cfl ∧
    SaysInt items "Output" "max_iter" 10000 p.loop.maxIter ∧ SaysInt items "Output" "iter_frequency" 0 p.loop.iterFreq ∧
    SaysReal items "Output" "time_frequency" 0 p.loop.timeFreq ∧
    SaysReal items "Output" "time_first_output" (p.tIni + p.loop.timeFreq) p.loop.timeFirst ∧
    (SaysText items "Pressure fix" "pressure_fix" "Off" "On".toList → ∃ e, p.fix = some e ∧ SaysReal items "Pressure fix" "eps_pf" (1 / 1000000) e) ∧
    (¬ SaysText items "Pressure fix" "pressure_fix" "Off" "On".toList → p.fix = none) ∧
    (∃ r, SaysText items "Hydro" "reconstruction" "VanLeer" r ∧ (r, p.hydro.lim) ∈ [("Constant".toList, Limiter.constant),
      ("VanLeer".toList, .vanLeer), ("Minmod".toList, .minmod), ("VanAlbada".toList, .vanAlbada)]) ∧
    (∃ r, SaysText items "Hydro" "riemann_solver" "HLL" r ∧ (r, p.hydro.sol) ∈ [("HLL".toList, Solver.hll), ("HLLC".toList, .hllc),
      ("Low Mach".toList, .splitting)]) ∧
    (∃ r, SaysText items "User step" "user_step" "Off" r ∧ (r, p.step) ∈ [("Off".toList, UserStepKind.off), ("Heat_nickel".toList, .heatNickel),
      ("UserDefined".toList, .userDefined)]) ∧
    (∃ gamma mu, SaysReal items "Perfect Gas" "gamma" (5 / 3) gamma ∧ SaysReal items "Perfect Gas" "mu" 1 mu ∧ gas gamma mu = .ok p.hydro.eos) := by
  have hfix : c.fix = if c.param.pressureFix = "On".toList then some c.param.epsPf else none := rfl
  have hiff : SaysText items "Pressure fix" "pressure_fix" "Off" "On".toList ↔ c.param.pressureFix = "On".toList := by
    have := hp.pressureFix
    unfold SaysText at this ⊢
    rw [this]
    exact eq_comm
  refine ⟨hp.tIni, hp.tEnd, hp.cfl, hp.maxIter, hp.iterFreq, hp.timeFreq, hp.timeFirst, fun h => ⟨c.param.epsPf, ?_, hp.epsPf⟩, fun h => ?_,
    ⟨_, hp.reconstruction, hc.lim⟩, ⟨_, hp.riemann, hc.sol⟩, ⟨_, hp.userStep, hc.step⟩, _, _, hp.gamma, hp.mu, hc.gas⟩
  · show c.fix = _
    rw [hfix, if_pos (hiff.1 h)]
  · show c.fix = none
    rw [hfix, if_neg (mt hiff.2 h)]

/-- C76, end to end: if the file asks for periodic conditions on all faces (and heats only with a passive scalar), the program is configured and, on
every process grid, every result file of the run has the mass of the initial state. -/
theorem C76_periodic_mass {items : List IniItem} {values : Str → Option Str} (h : Stored items values) {stod : Str → Except String ℝ} (hr : ReadsDecimals stod)
    {d n : ℕ} (h1 : 1 ≤ d) (hd : d ≤ 3) {gas : ℝ → ℝ → Except String (EoS ℝ)} {c : RunConfig d (EoS ℝ) ℝ} (hp : ParamSays items c.param)
    (hc : ChoicesSay gas items c) (hq : c.param.priority = [] ∨ ∃ q : List ℕ, q.Perm (List.range (2 * d)) ∧ c.param.priority = priorityText q)
    (hper : ∀ (a : Fin d) (a' : Fin 3) f, a'.val = a.val → saysFace items a' f = "Periodic".toList) (hheat : c.param.userStep = "Heat_nickel".toList → 0 < n)
    (hcells : ∀ a, 0 < c.param.nx a) (hng : 2 ≤ c.param.ng) :
    ∃ c', configure d stod gas values = .ok c' ∧ c'.param = c.param ∧
      ∀ (tr : Trig ℝ) (lo top : ℝ) (user : UserBc d n ℝ) (temp : ℝ → ℝ → ℝ), 0 ≤ top →
      ∀ {X : Fin 3 → ℤ → ℝ} {Gr : (Cell → Fields d n ℝ) → Cell → Fin d → ℝ} {A : Machine d n} {S Fx U up}, MachineOk c.param.nx c.param.ng Gr A →
        InitOf c.param.nx c.param.ng A S Fx U up → PeriodicMesh d c.param.nx c.param.ng X → (∀ W, Periodic d c.param.nx W → Periodic d c.param.nx (Gr W)) →
      ∀ (clock : ℕ → Bool) (k : ℕ), let p := c'.prog n tr .cartesian lo top user temp
        ∃ z, progRun p c.param.nx (nghostOf d c.param.ng) (borderOf A.dims) A clock
            (progFresh p c.param.nx (nghostOf d c.param.ng) (borderOf A.dims) A X U up) k = some z ∧
          ∀ f ∈ z.files, ∑ g ∈ domain c.param.nx, boxCellVol d c.param.ng X g * f.h.rho.at g =
            ∑ g ∈ domain c.param.nx, boxCellVol d c.param.ng X g * (S g).rho := by
  obtain ⟨o, ho, hcfg⟩ := C76_config h1 hd h hr hp hc hq
  have hb : ∀ a f, c.bcs a f = .periodic := by
    intro a f
    have := hc.bcs a ⟨a, by omega⟩ f rfl
    rw [hper a ⟨a, by omega⟩ f rfl] at this
    simp only [List.mem_cons, Prod.mk.injEq, List.not_mem_nil, or_false] at this
    rcases this with ⟨e, -⟩ | ⟨-, e⟩ | ⟨e, -⟩ | ⟨e, -⟩
    · exact absurd e (by decide)
    · exact e
    · exact absurd e (by decide)
    · exact absurd e (by decide)
  refine ⟨_, hcfg, rfl, fun tr lo top user temp htop X Gr A S Fx U up hA hi hX hGr clock k => ?_⟩
  refine C69_mass (order := o) hd hcells hng ⟨fun a f => ?_, fun id hid => ?_, rfl, fun hst => hheat ?_, htop⟩ hA hi clock hb rfl hX hGr k
  · show c.bcs a f ≠ _
    rw [hb]; decide
  · have := ho.mem_iff.1 hid
    simpa using this
  · have hst' : c.step = .heatNickel := hst
    have := hc.step
    rw [hst'] at this
    simp only [List.mem_cons, Prod.mk.injEq, List.not_mem_nil, or_false, reduceCtorEq, and_false, and_true, false_or] at this
    exact this

/-- ```
[Grid]
Nx0_glob = 8
Nx1_glob = 6
Nx2_glob = 1
[Boundary Condition]
BC = Periodic
priority = Y_left X_right X_left Y_right
``` -/
def boxFile : List IniItem :=
  [secLine "Grid", keyLine "Nx0_glob" "8", keyLine "Nx1_glob" "6", keyLine "Nx2_glob" "1", secLine "Boundary Condition", keyLine "BC" "Periodic",
   keyLine "priority" "Y_left X_right X_left Y_right"]

theorem boxFile_ok : FileOk boxFile := simpleFile_ok (by decide +kernel) (by decide +kernel)

/-- The run of `boxFile`, with the gas that the constructor returns. -/
noncomputable def boxConfig (eos : EoS ℝ) : RunConfig 2 (EoS ℝ) ℝ :=
  { param := { problem := "ShockTube".toList, restart := false, restartFile := "None".toList, rmaxShift := 10 ^ 20, nx := ![8, 6, 1]
               gridType := "Regular".toList, ng := 2, xmin := ![0, 0, 0], xmax := ![1, 1, 1], shiftGrid := "Off".toList, deviceAware := false
               dims := ![0, 0, 0], tIni := 0, tEnd := 1 / 5, cfl := 2 / 5, maxIter := 10000, iterFreq := 0, timeFreq := 0, timeFirst := 0 + 0
               directory := ".".toList, pfx := "result".toList, timeJob := 20, reconstruction := "VanLeer".toList, riemann := "HLL".toList
               gx := ![0, 0, 0], mass := 1, gamma := 5 / 3, mu := 1, bc := "Periodic".toList, priority := priorityText [2, 1, 0, 3], nfx := 0
               userStep := "Off".toList, pressureFix := "Off".toList, epsPf := 1 / 1000000 }
    gas := eos, grid := some .regular, bcs := fun _ _ => .periodic, order := [], lim := .vanLeer, sol := .hll, step := .off, shift := false }

theorem box_says (eos : EoS ℝ) : ParamSays boxFile (boxConfig eos).param where
  problem := .absent (by decide +kernel)
  restartFile := .absent (by decide +kernel)
  gridType := .absent (by decide +kernel)
  shiftGrid := .absent (by decide +kernel)
  directory := .absent (by decide +kernel)
  pfx := .absent (by decide +kernel)
  reconstruction := .absent (by decide +kernel)
  riemann := .absent (by decide +kernel)
  bc := .of (v := "Periodic".toList) (by decide +kernel) (by decide +kernel)
  priority := .of (v := priorityText [2, 1, 0, 3]) (by decide +kernel) (by decide +kernel)
  userStep := .absent (by decide +kernel)
  pressureFix := .absent (by decide +kernel)
  restart := Or.inl ⟨by decide +kernel, rfl⟩
  deviceAware := Or.inl ⟨by decide +kernel, rfl⟩
  rmaxShift := .absent (by decide +kernel)
  nx := fun a => by
    fin_cases a
    · exact SaysInt.of [8] (by decide) (by decide +kernel) (by decide)
    · exact SaysInt.of [6] (by decide) (by decide +kernel) (by decide)
    · exact SaysInt.of [1] (by decide) (by decide +kernel) (by decide)
  ng := .absent (by decide +kernel)
  xmin := fun a => by fin_cases a <;> exact .absent (by decide +kernel)
  xmax := fun a => by fin_cases a <;> exact .absent (by decide +kernel)
  dims := fun a => by fin_cases a <;> exact .absent (by decide +kernel)
  tIni := .absent (by decide +kernel)
  tEnd := .absent (by decide +kernel)
  cfl := .absent (by decide +kernel)
  maxIter := .absent (by decide +kernel)
  iterFreq := .absent (by decide +kernel)
  timeFreq := .absent (by decide +kernel)
  timeFirst := .absent (by decide +kernel)
  timeJob := .absent (by decide +kernel)
  gx := fun a => by fin_cases a <;> exact .absent (by decide +kernel)
  mass := .absent (by decide +kernel)
  gamma := .absent (by decide +kernel)
  mu := .absent (by decide +kernel)
  nfx := .absent (by decide +kernel)
  epsPf := .absent (by decide +kernel)

theorem box_faces : ∀ a f, saysFace boxFile a f = "Periodic".toList := by decide +kernel

theorem box_choices (eos : EoS ℝ) {gas : ℝ → ℝ → Except String (EoS ℝ)} (hg : gas (5 / 3) 1 = .ok eos) : ChoicesSay gas boxFile (boxConfig eos) where
  gas := hg
  grid := Or.inl ⟨rfl, rfl⟩
  bcs := fun a a' f _ => by
    rw [box_faces]
    exact List.mem_cons_of_mem _ List.mem_cons_self
  lim := List.mem_cons_of_mem _ List.mem_cons_self
  sol := List.mem_cons_self
  step := List.mem_cons_self
  shift := show false = true ↔ "Off".toList = "UserDefined".toList by decide

/-- C76_prog for the run of `boxFile`: no pressure fix, and the final time of the file. -/
example (eos : EoS ℝ) {gas : ℝ → ℝ → Except String (EoS ℝ)} (hg : gas (5 / 3) 1 = .ok eos) (tr : Trig ℝ) (user : UserBc 2 1 ℝ) (temp : ℝ → ℝ → ℝ) :
    ((boxConfig eos).prog 1 tr .cartesian 0 (10 ^ 308) user temp).fix = none ∧
    SaysReal boxFile "Run" "t_end" (1 / 5) ((boxConfig eos).prog 1 tr .cartesian 0 (10 ^ 308) user temp).loop.tEnd := by
  have h := C76_prog 1 (box_says eos) (box_choices eos hg) tr .cartesian 0 (10 ^ 308) user temp
  exact ⟨h.2.2.2.2.2.2.2.2.1 (by unfold SaysText; decide +kernel), h.2.1⟩

/-- From the text of `boxFile` to the mass in the result files of a run on 2 x 3 ranks. -/
example (eos : EoS ℝ) {gas : ℝ → ℝ → Except String (EoS ℝ)} (hg : gas (5 / 3) 1 = .ok eos) (tr : Trig ℝ) (user : UserBc 2 1 ℝ) (temp : ℝ → ℝ → ℝ)
    (S : Cell → Prim 2 ℝ) (Fx : Cell → Fin 1 → ℝ) (clock : ℕ → Bool) (k : ℕ) :
    ∃ (values : Str → Option Str) (c : RunConfig 2 (EoS ℝ) ℝ) (A : Machine 2 1)
      (IA : (Cell → View Cell (Fields 2 1 ℝ)) × (Cell → View Cell (VelPres 2 ℝ))) (z : ProgState 2 1),
      iniReader (fileText boxFile) = .ok values ∧ configure 2 (fun s => (stodDecimal s).map Rat.cast) gas values = .ok c ∧ A.dims = ![2, 3, 1] ∧
      progRun (c.prog 1 tr .cartesian 0 (10 ^ 308) user temp) ![8, 6, 1] (nghostOf 2 2) (borderOf A.dims) A clock
        (progFresh (c.prog 1 tr .cartesian 0 (10 ^ 308) user temp) ![8, 6, 1] (nghostOf 2 2) (borderOf A.dims) A (fun _ i => (i : ℝ) / 10) IA.1 IA.2) k = some z ∧
      ∀ f ∈ z.files, ∑ g ∈ domain ![8, 6, 1], boxCellVol 2 2 (fun _ i => (i : ℝ) / 10) g * f.h.rho.at g =
        ∑ g ∈ domain ![8, 6, 1], boxCellVol 2 2 (fun _ i => (i : ℝ) / 10) g * (S g).rho := by
  have hN : ∀ a, 0 ≤ (![8, 6, 1] : Cell) a := by decide
  obtain ⟨values, hv⟩ := stored boxFile_ok
  have hA := mkMachine_ok (d := 2) (n := 1) hN (dims := ![2, 3, 1]) (by decide) 0 (by norm_num) (demo_size _ (.inl rfl))
  have hi := initArrays_ok (nx := ![8, 6, 1]) (ng := 2) (A := mkMachine 2 1 ![8, 6, 1] 2 hN ![2, 3, 1] (by decide) 0) S Fx
  obtain ⟨c, hc, hpar, hrun⟩ := C76_periodic_mass (n := 1) hv C76_real_cast (by norm_num) (by norm_num) (box_says eos) (box_choices eos hg)
    (Or.inr ⟨[2, 1, 0, 3], by decide, rfl⟩) (fun a a' f _ => box_faces a' f) (fun _ => one_pos) (show ∀ a, 0 < (![8, 6, 1] : Cell) a by decide) le_rfl
  obtain ⟨z, e, h⟩ := hrun tr 0 (10 ^ 308) user temp (by norm_num) hA hi (unit_mesh 2 ![8, 6, 1] 2) (fun _ _ _ _ => rfl) clock k
  exact ⟨values, c, _, _, z, hv.read, hc, rfl, e, h⟩

end Heracles
