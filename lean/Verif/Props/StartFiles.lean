import Verif.Props.Start
import Verif.Props.ParamRuns
import Verif.Props.Inputs
import Verif.Lemmas.IniTables
import Verif.Props.Transport

/-!
# C107: the advections that come with the code, from the input files to the result files
-/

namespace Heracles

/-- The lines of inputs/advection_sinus.ini. -/
def sinusFile : List IniItem :=
  [.comment [] ';' " SPDX-FileCopyrightText: 2025 The HERACLES++ development team, see COPYRIGHT.md file".toList, .comment [] ';' [],
   .comment [] ';' " SPDX-License-Identifier: MIT".toList, .blank [],
   secLine "Grid", keyLine "Nx0_glob" "100", keyLine "Nx1_glob" "1", keyLine "Nx2_glob" "1", .blank [], keyLine "x0min" "0", keyLine "x0max" "1", .blank [],
   secLine "Run", keyLine "t_end" "1", keyLine "cfl" "0.4", .blank [],
   secLine "Output", keyLine "max_iter" "1000000", keyLine "time_frequency" "1", keyLine "prefix" "adv_sinus", .blank [],
   secLine "Hydro", keyLine "reconstruction" "VanLeer", keyLine "riemann_solver" "HLLC", .blank [],
   secLine "Boundary Condition", keyLine "BC_X0" "Periodic", .blank [],
   secLine "Perfect Gas", keyLine "gamma" "1.4", .blank [],
   secLine "Initialisation", keyLine "u0" "1", keyLine "P0" "0.1"]

/-- The lines of inputs/advection_gap.ini. -/
def gapFile : List IniItem :=
  [.comment [] ';' " SPDX-FileCopyrightText: 2025 The HERACLES++ development team, see COPYRIGHT.md file".toList, .comment [] ';' [],
   .comment [] ';' " SPDX-License-Identifier: MIT".toList, .blank [],
   secLine "Grid", keyLine "Nx0_glob" "100", keyLine "Nx1_glob" "1", keyLine "Nx2_glob" "1", .blank [],
   secLine "Run", keyLine "t_end" "1", keyLine "cfl" "0.4", .blank [],
   secLine "Output", keyLine "max_iter" "1000000", keyLine "time_frequency" "1", keyLine "prefix" "adv_gap", .blank [],
   secLine "Hydro", keyLine "reconstruction" "Minmod", keyLine "riemann_solver" "HLLC", .blank [],
   secLine "Boundary Condition", keyLine "BC_X0" "Periodic", .blank [],
   secLine "Perfect Gas", keyLine "gamma" "1.4", .blank [],
   secLine "Initialisation", keyLine "rho0" "1", keyLine "rho1" "2", keyLine "u0" "1", keyLine "P0" "0.1"]

theorem sinusFile_text : fileText sinusFile = linesText iniAdvectionSinus := by decide +kernel

theorem gapFile_text : fileText gapFile = linesText iniAdvectionGap := by decide +kernel

/-- The parameters of both files. -/
noncomputable def windParam (rec pfx : String) : Param ℝ :=
  { problem := "ShockTube".toList, restart := false, restartFile := "None".toList, rmaxShift := 10 ^ 20, nx := ![100, 1, 1]
    gridType := "Regular".toList, ng := 2, xmin := ![0, 0, 0], xmax := ![1, 1, 1], shiftGrid := "Off".toList, deviceAware := false
    dims := ![0, 0, 0], tIni := 0, tEnd := 1, cfl := 2 / 5, maxIter := 1000000, iterFreq := 0, timeFreq := 1, timeFirst := 0 + 1
    directory := ".".toList, pfx := pfx.toList, timeJob := 20, reconstruction := rec.toList, riemann := "HLLC".toList
    gx := ![0, 0, 0], mass := 1, gamma := 7 / 5, mu := 1, bc := "".toList, priority := "".toList, nfx := 0
    userStep := "Off".toList, pressureFix := "Off".toList, epsPf := 1 / 1000000 }

/-- The run of inputs/advection_sinus.ini. -/
noncomputable def sinusConfig (eos : EoS ℝ) : RunConfig 1 (EoS ℝ) ℝ :=
  { param := windParam "VanLeer" "adv_sinus", gas := eos, grid := some .regular, bcs := fun _ _ => .periodic, order := [], lim := .vanLeer, sol := .hllc, step := .off, shift := false }

/-- The run of inputs/advection_gap.ini. -/
noncomputable def gapConfig (eos : EoS ℝ) : RunConfig 1 (EoS ℝ) ℝ :=
  { param := windParam "Minmod" "adv_gap", gas := eos, grid := some .regular, bcs := fun _ _ => .periodic, order := [], lim := .minmod, sol := .hllc, step := .off, shift := false }

theorem sinusConfig_says (eos : EoS ℝ) : ParamSays sinusFile (sinusConfig eos).param where
  problem := .absent (by decide +kernel)
  restartFile := .absent (by decide +kernel)
  gridType := .absent (by decide +kernel)
  shiftGrid := .absent (by decide +kernel)
  directory := .absent (by decide +kernel)
  pfx := .of (v := "adv_sinus".toList) (by decide +kernel) (by decide +kernel)
  reconstruction := .of (v := "VanLeer".toList) (by decide +kernel) (by decide +kernel)
  riemann := .of (v := "HLLC".toList) (by decide +kernel) (by decide +kernel)
  bc := .absent (by decide +kernel)
  priority := .absent (by decide +kernel)
  userStep := .absent (by decide +kernel)
  pressureFix := .absent (by decide +kernel)
  restart := Or.inl ⟨by decide +kernel, rfl⟩
  deviceAware := Or.inl ⟨by decide +kernel, rfl⟩
  rmaxShift := .absent (by decide +kernel)
  nx := fun a => by
    fin_cases a
    · exact SaysInt.of [1, 0, 0] (by decide) (by decide +kernel) (by decide)
    · exact SaysInt.of [1] (by decide) (by decide +kernel) (by decide)
    · exact SaysInt.of [1] (by decide) (by decide +kernel) (by decide)
  ng := .absent (by decide +kernel)
  xmin := fun a => by
    fin_cases a
    · exact SaysReal.of ⟨.none, [0], none, none⟩ (int_wf (by decide) (by decide)) (by decide +kernel) (show _ = (0 : ℝ) by norm_num [Decimal.value, Decimal.fracDigits, Decimal.power, decimalValue, Sign.apply])
    · exact .absent (by decide +kernel)
    · exact .absent (by decide +kernel)
  xmax := fun a => by
    fin_cases a
    · exact SaysReal.of ⟨.none, [1], none, none⟩ (int_wf (by decide) (by decide)) (by decide +kernel) (show _ = (1 : ℝ) by norm_num [Decimal.value, Decimal.fracDigits, Decimal.power, decimalValue, Sign.apply])
    · exact .absent (by decide +kernel)
    · exact .absent (by decide +kernel)
  dims := fun a => by fin_cases a <;> exact .absent (by decide +kernel)
  tIni := .absent (by decide +kernel)
  tEnd := SaysReal.of ⟨.none, [1], none, none⟩ (int_wf (by decide) (by decide)) (by decide +kernel) (show _ = (1 : ℝ) by norm_num [Decimal.value, Decimal.fracDigits, Decimal.power, decimalValue, Sign.apply])
  cfl := SaysReal.of ⟨.none, [0], some [4], none⟩ (digits_wf (by decide) (by decide)) (by decide +kernel) (show _ = (2 / 5 : ℝ) by norm_num [Decimal.value, Decimal.fracDigits, Decimal.power, decimalValue, Sign.apply])
  maxIter := SaysInt.of [1, 0, 0, 0, 0, 0, 0] (by decide) (by decide +kernel) (by decide)
  iterFreq := .absent (by decide +kernel)
  timeFreq := SaysReal.of ⟨.none, [1], none, none⟩ (int_wf (by decide) (by decide)) (by decide +kernel) (show _ = (1 : ℝ) by norm_num [Decimal.value, Decimal.fracDigits, Decimal.power, decimalValue, Sign.apply])
  timeFirst := .absent (by decide +kernel)
  timeJob := .absent (by decide +kernel)
  gx := fun a => by fin_cases a <;> exact .absent (by decide +kernel)
  mass := .absent (by decide +kernel)
  gamma := SaysReal.of ⟨.none, [1], some [4], none⟩ (digits_wf (by decide) (by decide)) (by decide +kernel) (show _ = (7 / 5 : ℝ) by norm_num [Decimal.value, Decimal.fracDigits, Decimal.power, decimalValue, Sign.apply])
  mu := .absent (by decide +kernel)
  nfx := .absent (by decide +kernel)
  epsPf := .absent (by decide +kernel)

theorem sinusConfig_faces : ∀ f, saysFace sinusFile 0 f = "Periodic".toList := by decide +kernel

theorem sinusConfig_choices (eos : EoS ℝ) {gas : ℝ → ℝ → Except String (EoS ℝ)} (hg : gas (7 / 5) 1 = .ok eos) : ChoicesSay gas sinusFile (sinusConfig eos) where
  gas := hg
  grid := Or.inl ⟨rfl, rfl⟩
  bcs := fun a a' f h => by
    obtain rfl : a' = 0 := by ext; have := a.2; simp only [Fin.val_zero]; omega
    rw [sinusConfig_faces]
    exact List.mem_cons_of_mem _ List.mem_cons_self
  lim := List.mem_cons_of_mem _ List.mem_cons_self
  sol := List.mem_cons_of_mem _ List.mem_cons_self
  step := List.mem_cons_self
  shift := show false = true ↔ "Off".toList = "UserDefined".toList by decide

theorem sinusFile_ok : FileOk sinusFile := simpleFile_ok (by decide +kernel) (by decide +kernel)

theorem gapConfig_says (eos : EoS ℝ) : ParamSays gapFile (gapConfig eos).param where
  problem := .absent (by decide +kernel)
  restartFile := .absent (by decide +kernel)
  gridType := .absent (by decide +kernel)
  shiftGrid := .absent (by decide +kernel)
  directory := .absent (by decide +kernel)
  pfx := .of (v := "adv_gap".toList) (by decide +kernel) (by decide +kernel)
  reconstruction := .of (v := "Minmod".toList) (by decide +kernel) (by decide +kernel)
  riemann := .of (v := "HLLC".toList) (by decide +kernel) (by decide +kernel)
  bc := .absent (by decide +kernel)
  priority := .absent (by decide +kernel)
  userStep := .absent (by decide +kernel)
  pressureFix := .absent (by decide +kernel)
  restart := Or.inl ⟨by decide +kernel, rfl⟩
  deviceAware := Or.inl ⟨by decide +kernel, rfl⟩
  rmaxShift := .absent (by decide +kernel)
  nx := fun a => by
    fin_cases a
    · exact SaysInt.of [1, 0, 0] (by decide) (by decide +kernel) (by decide)
    · exact SaysInt.of [1] (by decide) (by decide +kernel) (by decide)
    · exact SaysInt.of [1] (by decide) (by decide +kernel) (by decide)
  ng := .absent (by decide +kernel)
  xmin := fun a => by
    fin_cases a
    · exact .absent (by decide +kernel)
    · exact .absent (by decide +kernel)
    · exact .absent (by decide +kernel)
  xmax := fun a => by
    fin_cases a
    · exact .absent (by decide +kernel)
    · exact .absent (by decide +kernel)
    · exact .absent (by decide +kernel)
  dims := fun a => by fin_cases a <;> exact .absent (by decide +kernel)
  tIni := .absent (by decide +kernel)
  tEnd := SaysReal.of ⟨.none, [1], none, none⟩ (int_wf (by decide) (by decide)) (by decide +kernel) (show _ = (1 : ℝ) by norm_num [Decimal.value, Decimal.fracDigits, Decimal.power, decimalValue, Sign.apply])
  cfl := SaysReal.of ⟨.none, [0], some [4], none⟩ (digits_wf (by decide) (by decide)) (by decide +kernel) (show _ = (2 / 5 : ℝ) by norm_num [Decimal.value, Decimal.fracDigits, Decimal.power, decimalValue, Sign.apply])
  maxIter := SaysInt.of [1, 0, 0, 0, 0, 0, 0] (by decide) (by decide +kernel) (by decide)
  iterFreq := .absent (by decide +kernel)
  timeFreq := SaysReal.of ⟨.none, [1], none, none⟩ (int_wf (by decide) (by decide)) (by decide +kernel) (show _ = (1 : ℝ) by norm_num [Decimal.value, Decimal.fracDigits, Decimal.power, decimalValue, Sign.apply])
  timeFirst := .absent (by decide +kernel)
  timeJob := .absent (by decide +kernel)
  gx := fun a => by fin_cases a <;> exact .absent (by decide +kernel)
  mass := .absent (by decide +kernel)
  gamma := SaysReal.of ⟨.none, [1], some [4], none⟩ (digits_wf (by decide) (by decide)) (by decide +kernel) (show _ = (7 / 5 : ℝ) by norm_num [Decimal.value, Decimal.fracDigits, Decimal.power, decimalValue, Sign.apply])
  mu := .absent (by decide +kernel)
  nfx := .absent (by decide +kernel)
  epsPf := .absent (by decide +kernel)

theorem gapConfig_faces : ∀ f, saysFace gapFile 0 f = "Periodic".toList := by decide +kernel

theorem gapConfig_choices (eos : EoS ℝ) {gas : ℝ → ℝ → Except String (EoS ℝ)} (hg : gas (7 / 5) 1 = .ok eos) : ChoicesSay gas gapFile (gapConfig eos) where
  gas := hg
  grid := Or.inl ⟨rfl, rfl⟩
  bcs := fun a a' f h => by
    obtain rfl : a' = 0 := by ext; have := a.2; simp only [Fin.val_zero]; omega
    rw [gapConfig_faces]
    exact List.mem_cons_of_mem _ List.mem_cons_self
  lim := List.mem_cons_of_mem _ (List.mem_cons_of_mem _ List.mem_cons_self)
  sol := List.mem_cons_of_mem _ List.mem_cons_self
  step := List.mem_cons_self
  shift := show false = true ↔ "Off".toList = "UserDefined".toList by decide

theorem gapFile_ok : FileOk gapFile := simpleFile_ok (by decide +kernel) (by decide +kernel)

/-- The gas of both files. -/
noncomputable def windGas : Gas := ⟨7 / 5, 7 / 5 - 1, 1⟩

theorem windGas_phys : windGas.Physical := ⟨by norm_num [windGas], by norm_num [windGas], rfl⟩

theorem windGas_of : perfectGasOf (7 / 5) 1 = .ok (PerfectGas.toEoS windGas) := by
  unfold perfectGasOf Gas.mk?
  rw [if_neg, if_neg]
  · rfl
  · norm_num [Dbl.isFinite, Dbl.leConst]
  · norm_num [Dbl.isFinite, Dbl.leConst]

/-- `std::stod`, without rounding, into the reals. -/
noncomputable def readReal (s : Str) : Except String ℝ := (stodDecimal s).map Rat.cast

theorem sinus_says : AdvectionSinusSays sinusFile (⟨1, 1 / 10⟩ : AdvectionSinusParam ℝ) where
  u0 := SaysReal.of ⟨.none, [1], none, none⟩ (int_wf (by decide) (by decide)) (by decide +kernel) (show _ = (1 : ℝ) by norm_num [Decimal.value, Decimal.fracDigits, Decimal.power, decimalValue, Sign.apply])
  P0 := SaysReal.of ⟨.none, [0], some [1], none⟩ (digits_wf (by decide) (by decide)) (by decide +kernel) (show _ = (1 / 10 : ℝ) by norm_num [Decimal.value, Decimal.fracDigits, Decimal.power, decimalValue, Sign.apply])

theorem gap_says : AdvectionGapSays gapFile (⟨1, 2, 1, 1 / 10⟩ : AdvectionGapParam ℝ) where
  rho0 := SaysReal.of ⟨.none, [1], none, none⟩ (int_wf (by decide) (by decide)) (by decide +kernel) (show _ = (1 : ℝ) by norm_num [Decimal.value, Decimal.fracDigits, Decimal.power, decimalValue, Sign.apply])
  rho1 := SaysReal.of ⟨.none, [2], none, none⟩ (int_wf (by decide) (by decide)) (by decide +kernel) (show _ = (2 : ℝ) by norm_num [Decimal.value, Decimal.fracDigits, Decimal.power, decimalValue, Sign.apply])
  u0 := SaysReal.of ⟨.none, [1], none, none⟩ (int_wf (by decide) (by decide)) (by decide +kernel) (show _ = (1 : ℝ) by norm_num [Decimal.value, Decimal.fracDigits, Decimal.power, decimalValue, Sign.apply])
  P0 := SaysReal.of ⟨.none, [0], some [1], none⟩ (digits_wf (by decide) (by decide)) (by decide +kernel) (show _ = (1 / 10 : ℝ) by norm_num [Decimal.value, Decimal.fracDigits, Decimal.power, decimalValue, Sign.apply])

/-- **C107, inputs/advection_sinus.ini.** The text of the file, character by character, is read, accepted and gives a run; the setup gets its parameters. On every process grid, whatever the order of the loops, after any number of turns of
the main loop no array was accessed out of bounds, and every result file says: the velocity is 1 and the pressure 1/10 in every cell, without any error; every density is in [9/10, 11/10]; the variation of the densities is at most that of
the sine sampled at the centres of the 100 cells; their sum is that of the samples (no mass is lost); the mean error against the transported samples obeys C106. Partial: the full statement would be on doubles; here the arithmetic is exact (the
program's constants, `std::stod` and the sine included), as in C102. -/
theorem C107_advection_sinus_partial : ∃ values, iniReader (linesText iniAdvectionSinus) = .ok values ∧
    ∃ c s, configure 1 readReal perfectGasOf values = .ok c ∧ advectionSinusParam readReal values = .ok s ∧
      ∀ (n : ℕ) (tr : Trig ℝ) (lo top : ℝ) (user : UserBc 1 n ℝ) (temp : ℝ → ℝ → ℝ), 0 ≤ top →
      ∀ (Gr : (Cell → Fields 1 n ℝ) → Cell → Fin 1 → ℝ) (A : Machine 1 n), (∀ W C a, Gr W C a = 0) → MachineOk c.param.nx c.param.ng Gr A →
      ∀ initL, InitOrders 1 c.param.nx c.param.ng A.dims initL → ∀ (clock : ℕ → Bool) (k : ℕ),
      let p := c.prog n tr .cartesian lo top user temp
      let nghost := nghostOf 1 c.param.ng
      ∃ z, progRun p c.param.nx nghost (borderOf A.dims) A clock (progSetup p c.param.nx nghost (borderOf A.dims) A (cartRank A.dims) initL
          (regularNodes nghost c.param.nx c.param.xmin c.param.xmax) fun _ _ g _ => s.init g) k = some z ∧
        ∀ f ∈ z.files, WindFile ![100, 1, 1] 100 (1 / 100) 1 (1 / 10) (9 / 10) (11 / 10)
          (fun i => 1 + 1 / 10 * Real.sin (2 * Real.pi * (((i % 100 : ℤ) + 1 / 2) / 100))) f.t f.h := by
  obtain ⟨values, hv⟩ := stored sinusFile_ok
  obtain ⟨o, ho, hc⟩ := C76_config (by norm_num) (by norm_num) hv (C76_real_cast (K := ℝ)) (sinusConfig_says _) (sinusConfig_choices _ windGas_of) (Or.inl rfl)
  refine ⟨values, sinusFile_text ▸ hv.read, _, _, hc, (C89_setup_params hv (C76_real_cast (K := ℝ))).2.1 _ sinus_says, ?_⟩
  intro n tr lo top user temp htop Gr A h0 hA initL hil clock k p nghost
  obtain ⟨z, e, hf⟩ := wind_setup (n := n) (p := p) (order := o) (ng := 2) (nx := ![100, 1, 1]) (Gr := Gr) (A := A) (lo := 9 / 10) (hi := 11 / 10) (initL := initL) (xmin := ![0, 0, 0]) (xmax := ![1, 1, 1])
    (N := 100) (u0 := 1) (P0 := 1 / 10) (rho := fun x => 1 + 1 / 10 * Real.sin (2 * Real.pi * x)) (T := fun _ _ g _ => AdvectionSinusParam.init ⟨1, 1 / 10⟩ g) (by decide) le_rfl
    ⟨fun a f => by show BcKind.periodic ≠ _; decide, fun id hid => by simpa using ho.mem_iff.1 hid, rfl, fun h => UserStepKind.noConfusion h, htop⟩ hA hil clock
    (PerfectGas.lawful windGas_phys) (fun r hr => perfectGas_evol windGas_phys _ hr) (by norm_num) (Or.inr (Or.inr (by norm_num))) rfl rfl (fun _ _ => rfl) h0 rfl (by intro h; cases h)
    (fun a => by fin_cases a <;> norm_num) (show (0 : ℝ) ≤ 2 / 5 by norm_num) (show (2 / 5 : ℝ) ≤ 1 by norm_num) (show (0 : ℝ) ≤ 1 by norm_num) rfl rfl rfl (by norm_num)
    (fun x => ⟨by linarith [Real.neg_one_le_sin (2 * Real.pi * x)], by linarith [Real.sin_le_one (2 * Real.pi * x)]⟩)
    (fun q topo g grav c xl xm dv gr h => by
      simp only [AdvectionSinusParam.init, advectionSinusInit, h.xc, Option.bind_eq_bind, Option.bind_some]
      norm_num) k
  refine ⟨z, e, fun f hfz => ?_⟩
  have := hf f hfz
  have et : f.t - p.tIni = f.t := sub_zero _
  rw [et] at this
  convert this using 1
  · norm_num
  · funext i
    norm_num
    ring_nf

open Finset in
/-- The gap has two jumps. -/
theorem gap_var : circleVar 100 (fun i => if 30 ≤ i % 100 ∧ i % 100 < 70 then (2 : ℝ) else 1) = 2 := by
  have h : circleVar 100 (fun i => if 30 ≤ i % 100 ∧ i % 100 < 70 then (2 : ℝ) else 1) =
      ((∑ i ∈ range 100, |(if 30 ≤ (((i : ℤ) + 1) % 100) % 100 ∧ (((i : ℤ) + 1) % 100) % 100 < 70 then (2 : ℤ) else 1) - if 30 ≤ (i : ℤ) % 100 ∧ (i : ℤ) % 100 < 70 then (2 : ℤ) else 1| : ℤ) : ℝ) := by
    unfold circleVar
    push_cast
    refine sum_congr rfl fun i _ => ?_
    norm_num
  rw [h, show (∑ i ∈ range 100, |(if 30 ≤ (((i : ℤ) + 1) % 100) % 100 ∧ (((i : ℤ) + 1) % 100) % 100 < 70 then (2 : ℤ) else 1) - if 30 ≤ (i : ℤ) % 100 ∧ (i : ℤ) % 100 < 70 then (2 : ℤ) else 1| : ℤ) = 2 by decide +kernel]
  norm_num

/-- **C107, inputs/advection_gap.ini.** As for the sine: the file is read and accepted, and every result file says velocity 1 and pressure 1/10 in every cell, densities in [1, 2], no mass lost, and a variation of at most 2: the two jumps of the start
(cells 30 to 69 hold 2, the others 1) may be smeared but nothing oscillates. Partial: exact arithmetic, as in C102. -/
theorem C107_advection_gap_partial : ∃ values, iniReader (linesText iniAdvectionGap) = .ok values ∧
    ∃ c s, configure 1 readReal perfectGasOf values = .ok c ∧ advectionGapParam readReal values = .ok s ∧
      ∀ (n : ℕ) (tr : Trig ℝ) (lo top : ℝ) (user : UserBc 1 n ℝ) (temp : ℝ → ℝ → ℝ), 0 ≤ top →
      ∀ (Gr : (Cell → Fields 1 n ℝ) → Cell → Fin 1 → ℝ) (A : Machine 1 n), (∀ W C a, Gr W C a = 0) → MachineOk c.param.nx c.param.ng Gr A →
      ∀ initL, InitOrders 1 c.param.nx c.param.ng A.dims initL → ∀ (clock : ℕ → Bool) (k : ℕ),
      let p := c.prog n tr .cartesian lo top user temp
      let nghost := nghostOf 1 c.param.ng
      ∃ z, progRun p c.param.nx nghost (borderOf A.dims) A clock (progSetup p c.param.nx nghost (borderOf A.dims) A (cartRank A.dims) initL
          (regularNodes nghost c.param.nx c.param.xmin c.param.xmax) fun _ _ g _ => s.init g) k = some z ∧
        ∀ f ∈ z.files, WindFile ![100, 1, 1] 100 (1 / 100) 1 (1 / 10) 1 2 (fun i => if 30 ≤ i % 100 ∧ i % 100 < 70 then 2 else 1) f.t f.h ∧
          circleVar 100 (fun i => f.h.rho.at ![i, 0, 0]) ≤ 2 := by
  obtain ⟨values, hv⟩ := stored gapFile_ok
  obtain ⟨o, ho, hc⟩ := C76_config (by norm_num) (by norm_num) hv (C76_real_cast (K := ℝ)) (gapConfig_says _) (gapConfig_choices _ windGas_of) (Or.inl rfl)
  refine ⟨values, gapFile_text ▸ hv.read, _, _, hc, (C89_setup_params hv (C76_real_cast (K := ℝ))).1 _ gap_says, ?_⟩
  intro n tr lo top user temp htop Gr A h0 hA initL hil clock k p nghost
  obtain ⟨z, e, hf⟩ := wind_setup (n := n) (p := p) (order := o) (ng := 2) (nx := ![100, 1, 1]) (Gr := Gr) (A := A) (lo := 1) (hi := 2) (initL := initL) (xmin := ![0, 0, 0]) (xmax := ![1, 1, 1])
    (N := 100) (u0 := 1) (P0 := 1 / 10) (rho := fun x => if x ≤ 0.3 ∨ x ≥ 0.7 then 1 else 2) (T := fun _ _ g _ => AdvectionGapParam.init ⟨1, 2, 1, 1 / 10⟩ g) (by decide) le_rfl
    ⟨fun a f => by show BcKind.periodic ≠ _; decide, fun id hid => by simpa using ho.mem_iff.1 hid, rfl, fun h => UserStepKind.noConfusion h, htop⟩ hA hil clock
    (PerfectGas.lawful windGas_phys) (fun r hr => perfectGas_evol windGas_phys _ hr) (by norm_num) (Or.inr (Or.inl rfl)) rfl rfl (fun _ _ => rfl) h0 rfl (by intro h; cases h)
    (fun a => by fin_cases a <;> norm_num) (show (0 : ℝ) ≤ 2 / 5 by norm_num) (show (2 / 5 : ℝ) ≤ 1 by norm_num) (show (0 : ℝ) ≤ 1 by norm_num) rfl rfl rfl (by norm_num)
    (fun x => by split <;> norm_num)
    (fun q topo g grav c xl xm dv gr h => by
      simp only [AdvectionGapParam.init, advectionGapInit, h.xc, Option.bind_eq_bind, Option.bind_some]
      rfl) k
  refine ⟨z, e, fun f hfz => ?_⟩
  have := hf f hfz
  have et : f.t - p.tIni = f.t := sub_zero _
  rw [et] at this
  have hr : (fun i : ℤ => if 30 ≤ i % 100 ∧ i % 100 < 70 then (2 : ℝ) else 1) = fun i : ℤ => (fun x : ℝ => if x ≤ 0.3 ∨ x ≥ 0.7 then (1 : ℝ) else 2)
      ((![0, 0, 0] : Fin 3 → ℝ) 0 + ((i % (100 : ℕ) : ℤ) + 1 / 2) * (((![1, 1, 1] : Fin 3 → ℝ) 0 - (![0, 0, 0] : Fin 3 → ℝ) 0) / (100 : ℕ))) := by
    funext i
    generalize hj : i % 100 = j
    beta_reduce
    by_cases h : 30 ≤ j ∧ j < 70
    · rw [if_pos h, if_neg]
      have h1 : (30 : ℝ) ≤ j := by exact_mod_cast h.1
      have h2 : (j : ℝ) ≤ 69 := by exact_mod_cast (by omega : j ≤ 69)
      norm_num
      constructor <;> linarith
    · rw [if_neg h, if_pos]
      norm_num
      by_cases h' : j < 30
      · left
        have h2 : (j : ℝ) ≤ 29 := by exact_mod_cast (by omega : j ≤ 29)
        linarith
      · right
        have h2 : (70 : ℝ) ≤ j := by exact_mod_cast (by omega : 70 ≤ j)
        linarith
  have hw : WindFile ![100, 1, 1] 100 (1 / 100) 1 (1 / 10) 1 2 (fun i => if 30 ≤ i % 100 ∧ i % 100 < 70 then 2 else 1) f.t f.h := by
    rw [hr]
    convert this using 1
    norm_num
  exact ⟨hw, hw.var.trans gap_var.le⟩

/-- The order of the initialisation in these examples. -/
def plainInit (nx : Cell) (ng : ℤ) (dims r : Cell) : List Cell := boxList (nghostOf 1 ng) (fun a => localExt nx dims (nghostOf 1 ng) r a - nghostOf 1 ng a)

theorem plainInit_ok (nx : Cell) (ng : ℤ) (dims : Cell) : InitOrders 1 nx ng dims (plainInit nx ng dims) := fun _ _ => boxList_isSchedule _ _

theorem wind_size (m : ℤ) (h : m = 1 ∨ m = 4) :
    ∀ a : Fin 3, a.val < 1 → ∀ r, 0 ≤ r → r < (![m, 1, 1] : Cell) a → 2 ≤ localSize ((![100, 1, 1] : Cell) a) ((![m, 1, 1] : Cell) a) r := by
  intro a ha r h0 h1
  obtain rfl : a = 0 := by ext; simp only [Fin.val_zero]; omega
  rcases h with rfl | rfl
  · have h1 : r < 1 := h1
    interval_cases r <;> decide
  · have h1 : r < 4 := h1
    interval_cases r <;> decide

/-- The sine of inputs/advection_sinus.ini, on 4 ranks, with one passive scalar. -/
example (tr : Trig ℝ) (user : UserBc 1 1 ℝ) (temp : ℝ → ℝ → ℝ) (clock : ℕ → Bool) (k : ℕ) :
    ∃ (c : RunConfig 1 (EoS ℝ) ℝ) (A : Machine 1 1) (s : AdvectionSinusParam ℝ) (z : ProgState 1 1), A.dims = ![4, 1, 1] ∧
      progRun (c.prog 1 tr .cartesian 0 (10 ^ 308) user temp) ![100, 1, 1] (nghostOf 1 2) (borderOf A.dims) A clock
        (progSetup (c.prog 1 tr .cartesian 0 (10 ^ 308) user temp) ![100, 1, 1] (nghostOf 1 2) (borderOf A.dims) A (cartRank A.dims) (plainInit ![100, 1, 1] 2 A.dims)
          (regularNodes (nghostOf 1 2) ![100, 1, 1] ![0, 0, 0] ![1, 1, 1]) fun _ _ g _ => s.init g) k = some z ∧
      ∀ f ∈ z.files, ∀ g, inBox 0 ![100, 1, 1] g → (f.h.u 0).at g = 1 ∧ f.h.P.at g = 1 / 10 := by
  have hN : ∀ a, 0 ≤ (![100, 1, 1] : Cell) a := by decide
  have hA := mkMachine_ok (d := 1) (n := 1) (ng := 2) hN (dims := ![4, 1, 1]) (by decide) 0 (by norm_num) (wind_size 4 (.inr rfl))
  obtain ⟨values, hv, c, s, hc, -, h⟩ := C107_advection_sinus_partial
  obtain ⟨values', hv'⟩ := stored sinusFile_ok
  obtain ⟨o, -, hc'⟩ := C76_config (by norm_num) (by norm_num) hv' (C76_real_cast (K := ℝ)) (sinusConfig_says _) (sinusConfig_choices _ windGas_of) (Or.inl rfl)
  obtain rfl : values = values' := Except.ok.inj (hv.symm.trans (sinusFile_text ▸ hv'.read))
  obtain rfl := Except.ok.inj (hc.symm.trans hc')
  obtain ⟨z, e, hf⟩ := h 1 tr 0 (10 ^ 308) user temp (by norm_num) (fun _ _ _ => 0) _ (fun _ _ _ => rfl) hA _ (plainInit_ok _ _ _) clock k
  exact ⟨_, _, s, z, rfl, e, fun f hfz => (hf f hfz).wind⟩

/-- A shock tube with open ends, on 1 and on 4 ranks. -/
example (tr : Trig ℝ) (user : UserBc 1 1 ℝ) (temp : ℝ → ℝ → ℝ) (clock : ℕ → Bool) (k : ℕ) :
    let p := (({ gapConfig (PerfectGas.toEoS windGas) with bcs := fun _ _ => .nullGradient, order := [some 0, some 1] } : RunConfig 1 (EoS ℝ) ℝ)).prog 1 tr .cartesian 0 (10 ^ 308) user temp
    ∃ A B : Machine 1 1, A.dims = ![1, 1, 1] ∧ B.dims = ![4, 1, 1] ∧
      ∃ z z', progRun p ![100, 1, 1] (nghostOf 1 2) (borderOf A.dims) A clock (progSetup p ![100, 1, 1] (nghostOf 1 2) (borderOf A.dims) A (cartRank A.dims) (plainInit ![100, 1, 1] 2 A.dims)
          (regularNodes (nghostOf 1 2) ![100, 1, 1] ![0, 0, 0] ![1, 1, 1]) fun _ _ g _ => shockTubeInit 1 (1 / 8) 0 0 1 (1 / 10) (1 / 2) g) k = some z ∧
        progRun p ![100, 1, 1] (nghostOf 1 2) (borderOf B.dims) B clock (progSetup p ![100, 1, 1] (nghostOf 1 2) (borderOf B.dims) B (cartRank B.dims) (plainInit ![100, 1, 1] 2 B.dims)
          (regularNodes (nghostOf 1 2) ![100, 1, 1] ![0, 0, 0] ![1, 1, 1]) fun _ _ g _ => shockTubeInit 1 (1 / 8) 0 0 1 (1 / 10) (1 / 2) g) k = some z' ∧
        List.Forall₂ SameFile z.files z'.files := by
  have hN : ∀ a, 0 ≤ (![100, 1, 1] : Cell) a := by decide
  have hA := mkMachine_ok (d := 1) (n := 1) (ng := 2) hN (dims := ![1, 1, 1]) (by decide) 0 (by norm_num) (wind_size 1 (.inl rfl))
  have hB := mkMachine_ok (d := 1) (n := 1) (ng := 2) hN (dims := ![4, 1, 1]) (by decide) 0 (by norm_num) (wind_size 4 (.inr rfl))
  intro p
  obtain ⟨z, z', e, e', -, h⟩ := C107_decomposition (p := p) (order := [0, 1]) (X := regularNodes (nghostOf 1 2) ![100, 1, 1] ![0, 0, 0] ![1, 1, 1]) (by norm_num) hN le_rfl
    ⟨fun _ _ => by show BcKind.nullGradient ≠ _; decide, by decide, rfl, fun h => UserStepKind.noConfusion h, show (0 : ℝ) ≤ 10 ^ 308 by norm_num⟩ hA hB
    (C66_independent_1d ⟨7 / 5, 1, fun _ _ => 0, fun _ _ => 0, fun _ _ => 0, fun _ _ => 0⟩ 1 (1 / 8) 0 0 1 (1 / 10) (1 / 2) 0 0 0).1 (plainInit_ok _ _ _) (plainInit_ok _ _ _) clock k
  exact ⟨_, _, rfl, rfl, z, z', e, e', h⟩

end Heracles
