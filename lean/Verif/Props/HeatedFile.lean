import Verif.Props.Heated
import Verif.Props.StartFiles

/-!
# C110: inputs/heat_nickel.ini, from the text to the result files
-/

namespace Heracles

/-- `name = value ; text` -/
def notedLine (name value note : String) : IniItem := .entry [] name.toList [' '] '=' [' '] value.toList [' '] (';' :: note.toList)

theorem notedLine_ok {name value note : String} (h : simpleLine (keyLine name value) = true) (hn : InLine note.toList) (hl : note.toList.length ≤ 40) (prev : Option Str) :
    (notedLine name value note).WF prev ∧ (notedLine name value note).text.length ≤ 198 := by
  obtain ⟨⟨a1, a2, a3, a4, a5, a6, a7, a8, a9, a10, a11, a12, a13, a14, a15, -, -⟩, -⟩ := simpleLine_ok h prev
  refine ⟨⟨a1, a2, a3, a4, a5, a6, a7, a8, a9, a10, a11, a12, a13, a14, a15, blank_space, Or.inr ⟨by simp, rfl, ?_⟩⟩, ?_⟩
  · intro c hc
    rcases List.mem_cons.1 hc with rfl | hc
    · decide
    · exact hn c hc
  · have h' := h
    simp only [keyLine, simpleLine, Bool.and_eq_true, decide_eq_true_eq] at h'
    have h1 := h'.1.2
    have h2 := h'.2
    simp only [notedLine, IniItem.text, List.length_append, List.length_cons, List.length_nil]
    omega

/-- The lines of inputs/heat_nickel.ini before the end of the run. -/
def nickelHead : List IniItem :=
  [.comment [] ';' " SPDX-FileCopyrightText: 2025 The HERACLES++ development team, see COPYRIGHT.md file".toList, .comment [] ';' [],
   .comment [] ';' " SPDX-License-Identifier: MIT".toList, .blank [],
   secLine "Problem", keyLine "type" "heat_nickel", .blank [],
   secLine "Grid", keyLine "Nx0_glob" "10 # global size in x0", keyLine "Nx1_glob" "1 # global size in x1", keyLine "Nx2_glob" "1 # global size in x2", .blank [],
   keyLine "x0min" "0", keyLine "x0max" "1000000000", .blank [],
   secLine "Run"]

/-- The lines of inputs/heat_nickel.ini after the end of the run. -/
def nickelTail : List IniItem :=
  [keyLine "cfl" "0.4", .blank [],
   secLine "Output", keyLine "max_iter" "100000000", keyLine "iter_frequency" "100000", .blank [],
   secLine "Hydro", keyLine "reconstruction" "VanLeer", keyLine "riemann_solver" "HLL", .blank [],
   secLine "Perfect Gas", keyLine "mu" "55.9421278", .blank [],
   secLine "Passive Scalar", keyLine "nfx" "1", .blank [],
   secLine "User step", keyLine "user_step" "Heat_nickel", .blank [],
   secLine "Boundary Condition", keyLine "BC_X0_left" "NullGradient", keyLine "BC_X0_right" "NullGradient", .blank [],
   secLine "Initialisation", keyLine "rho0" "1E-6", keyLine "u0" "0", keyLine "T0" "1E5", keyLine "fx0" "1"]

/-- The lines of inputs/heat_nickel.ini. -/
def nickelFile : List IniItem := nickelHead ++ notedLine "t_end" "60480000" " 700 days" :: nickelTail

theorem nickelFile_text : fileText nickelFile = linesText iniHeatNickel := by decide +kernel

theorem nickelFile_lines : nickelHead.all simpleLine = true ∧ nickelTail.all simpleLine = true := by decide +kernel

theorem nickelFile_ok : FileOk nickelFile := by
  have h : ∀ it ∈ nickelFile, ∀ prev, it.WF prev ∧ it.text.length ≤ 198 := by
    intro it hit prev
    rcases List.mem_append.1 hit with h | h
    · exact simpleLine_ok (List.all_eq_true.1 nickelFile_lines.1 it h) prev
    · rcases List.mem_cons.1 h with rfl | h
      · exact notedLine_ok (by decide +kernel) (fun c hc => by revert c; decide) (by decide) prev
      · exact simpleLine_ok (List.all_eq_true.1 nickelFile_lines.2 it h) prev
  refine ⟨?_, fun it hit => (h it hit none).2, by decide +kernel⟩
  have key : ∀ items : List IniItem, (∀ it ∈ items, ∀ prev, it.WF prev) → ∀ prev, LinesWF prev items := by
    intro items
    induction items with
    | nil => exact fun _ _ => trivial
    | cons it items ih => exact fun hw prev => ⟨hw it (by simp) prev, ih (fun i hi => hw i (by simp [hi])) _⟩
  exact key _ (fun it hit prev => (h it hit prev).1) none

/-- The parameters of the file. -/
noncomputable def nickelParam : Param ℝ :=
  { problem := "heat_nickel".toList, restart := false, restartFile := "None".toList, rmaxShift := 10 ^ 20, nx := ![10, 1, 1]
    gridType := "Regular".toList, ng := 2, xmin := ![0, 0, 0], xmax := ![10 ^ 9, 1, 1], shiftGrid := "Off".toList, deviceAware := false
    dims := ![0, 0, 0], tIni := 0, tEnd := 60480000, cfl := 2 / 5, maxIter := 100000000, iterFreq := 100000, timeFreq := 0, timeFirst := 0 + 0
    directory := ".".toList, pfx := "result".toList, timeJob := 20, reconstruction := "VanLeer".toList, riemann := "HLL".toList
    gx := ![0, 0, 0], mass := 1, gamma := 5 / 3, mu := 279710639 / 5000000, bc := "".toList, priority := "".toList, nfx := 1
    userStep := "Heat_nickel".toList, pressureFix := "Off".toList, epsPf := 1 / 1000000 }

/-- The run of inputs/heat_nickel.ini. -/
noncomputable def nickelConfig (eos : EoS ℝ) : RunConfig 1 (EoS ℝ) ℝ :=
  { param := nickelParam, gas := eos, grid := some .regular, bcs := fun _ _ => .nullGradient, order := [], lim := .vanLeer, sol := .hll, step := .heatNickel, shift := false }

/-- A written integer with a remark behind it. -/
theorem SaysInt.noted {items : List IniItem} {sec name : String} {dflt : ℤ} (ds : List ℕ) (rest : Str) (hr : Apart rest) (hd : ds ≠ [] ∧ ∀ k ∈ ds, k < 10)
    (h : written items sec name = ds.map digitText ++ rest) (hv : (decimalValue ds : ℤ) < 2 ^ 31) : SaysInt items sec name dflt (decimalValue ds) :=
  Or.inr ⟨.none, ds, rest, hd.1, hd.2, hr, h, rfl, by omega, hv⟩

theorem apart_space (s : Str) : Apart (' ' :: s) := fun c h => by
  obtain rfl : ' ' = c := Option.some.inj h
  decide

theorem nickelConfig_says (eos : EoS ℝ) : ParamSays nickelFile (nickelConfig eos).param where
  problem := .of (v := "heat_nickel".toList) (by decide +kernel) (by decide +kernel)
  restartFile := .absent (by decide +kernel)
  gridType := .absent (by decide +kernel)
  shiftGrid := .absent (by decide +kernel)
  directory := .absent (by decide +kernel)
  pfx := .absent (by decide +kernel)
  reconstruction := .of (v := "VanLeer".toList) (by decide +kernel) (by decide +kernel)
  riemann := .of (v := "HLL".toList) (by decide +kernel) (by decide +kernel)
  bc := .absent (by decide +kernel)
  priority := .absent (by decide +kernel)
  userStep := .of (v := "Heat_nickel".toList) (by decide +kernel) (by decide +kernel)
  pressureFix := .absent (by decide +kernel)
  restart := Or.inl ⟨by decide +kernel, rfl⟩
  deviceAware := Or.inl ⟨by decide +kernel, rfl⟩
  rmaxShift := .absent (by decide +kernel)
  nx := fun a => by
    fin_cases a
    · exact SaysInt.noted [1, 0] " # global size in x0".toList (apart_space _) (by decide) (by decide +kernel) (by decide)
    · exact SaysInt.noted [1] " # global size in x1".toList (apart_space _) (by decide) (by decide +kernel) (by decide)
    · exact SaysInt.noted [1] " # global size in x2".toList (apart_space _) (by decide) (by decide +kernel) (by decide)
  ng := .absent (by decide +kernel)
  xmin := fun a => by
    fin_cases a
    · exact SaysReal.of ⟨.none, [0], none, none⟩ ⟨by decide, by decide, by simp⟩ (by decide +kernel) (show _ = (0 : ℝ) by norm_num [Decimal.value, Decimal.fracDigits, Decimal.power, decimalValue, Sign.apply])
    · exact .absent (by decide +kernel)
    · exact .absent (by decide +kernel)
  xmax := fun a => by
    fin_cases a
    · exact SaysReal.of ⟨.none, [1, 0, 0, 0, 0, 0, 0, 0, 0, 0], none, none⟩ ⟨by decide, by decide, by simp⟩ (by decide +kernel) (show _ = (10 ^ 9 : ℝ) by norm_num [Decimal.value, Decimal.fracDigits, Decimal.power, decimalValue, Sign.apply])
    · exact .absent (by decide +kernel)
    · exact .absent (by decide +kernel)
  dims := fun a => by fin_cases a <;> exact .absent (by decide +kernel)
  tIni := .absent (by decide +kernel)
  tEnd := SaysReal.of ⟨.none, [6, 0, 4, 8, 0, 0, 0, 0], none, none⟩ ⟨by decide, by decide, by simp⟩ (by decide +kernel) (show _ = (60480000 : ℝ) by norm_num [Decimal.value, Decimal.fracDigits, Decimal.power, decimalValue, Sign.apply])
  cfl := SaysReal.of ⟨.none, [0], some [4], none⟩ ⟨by decide, by decide, by simp⟩ (by decide +kernel) (show _ = (2 / 5 : ℝ) by norm_num [Decimal.value, Decimal.fracDigits, Decimal.power, decimalValue, Sign.apply])
  maxIter := SaysInt.of [1, 0, 0, 0, 0, 0, 0, 0, 0] (by decide) (by decide +kernel) (by decide)
  iterFreq := SaysInt.of [1, 0, 0, 0, 0, 0] (by decide) (by decide +kernel) (by decide)
  timeFreq := .absent (by decide +kernel)
  timeFirst := .absent (by decide +kernel)
  timeJob := .absent (by decide +kernel)
  gx := fun a => by fin_cases a <;> exact .absent (by decide +kernel)
  mass := .absent (by decide +kernel)
  gamma := .absent (by decide +kernel)
  mu := SaysReal.of ⟨.none, [5, 5], some [9, 4, 2, 1, 2, 7, 8], none⟩ ⟨by decide, by decide, by simp⟩ (by decide +kernel) (show _ = (279710639 / 5000000 : ℝ) by norm_num [Decimal.value, Decimal.fracDigits, Decimal.power, decimalValue, Sign.apply])
  nfx := SaysInt.of [1] (by decide) (by decide +kernel) (by decide)
  epsPf := .absent (by decide +kernel)

theorem nickelConfig_faces : ∀ f, saysFace nickelFile 0 f = "NullGradient".toList := by decide +kernel

theorem nickelConfig_choices (eos : EoS ℝ) {gas : ℝ → ℝ → Except String (EoS ℝ)} (hg : gas (5 / 3) (279710639 / 5000000) = .ok eos) : ChoicesSay gas nickelFile (nickelConfig eos) where
  gas := hg
  grid := Or.inl ⟨rfl, rfl⟩
  bcs := fun a a' f h => by
    obtain rfl : a' = 0 := by ext; have := a.2; simp only [Fin.val_zero]; omega
    rw [nickelConfig_faces]
    exact List.mem_cons_self
  lim := List.mem_cons_of_mem _ List.mem_cons_self
  sol := List.mem_cons_self
  step := List.mem_cons_of_mem _ List.mem_cons_self
  shift := show false = true ↔ "Off".toList = "UserDefined".toList by decide

/-- The gas of the file: the default adiabatic index, nuclei of nickel. -/
noncomputable def nickelGas : Gas := ⟨5 / 3, 5 / 3 - 1, 279710639 / 5000000⟩

theorem nickelGas_phys : nickelGas.Physical := ⟨by norm_num [nickelGas], by norm_num [nickelGas], rfl⟩

theorem nickelGas_of : perfectGasOf (5 / 3) (279710639 / 5000000) = .ok (PerfectGas.toEoS nickelGas) := by
  unfold perfectGasOf Gas.mk?
  rw [if_neg, if_neg]
  · rfl
  · norm_num [Dbl.isFinite, Dbl.leConst]
  · norm_num [Dbl.isFinite, Dbl.leConst]

theorem nickel_says : HeatNickelSays nickelFile (⟨1 / 10 ^ 6, 0, 10 ^ 5, 1⟩ : HeatNickelParam ℝ) where
  rho0 := SaysReal.of ⟨.none, [1], none, some (true, .minus, [6])⟩ ⟨by decide, by decide, by simp⟩ (by decide +kernel) (show _ = (1 / 10 ^ 6 : ℝ) by norm_num [Decimal.value, Decimal.fracDigits, Decimal.power, decimalValue, Sign.apply])
  u0 := SaysReal.of ⟨.none, [0], none, none⟩ ⟨by decide, by decide, by simp⟩ (by decide +kernel) (show _ = (0 : ℝ) by norm_num [Decimal.value, Decimal.fracDigits, Decimal.power, decimalValue, Sign.apply])
  T0 := SaysReal.of ⟨.none, [1], none, some (true, .none, [5])⟩ ⟨by decide, by decide, by simp⟩ (by decide +kernel) (show _ = (10 ^ 5 : ℝ) by norm_num [Decimal.value, Decimal.fracDigits, Decimal.power, decimalValue, Sign.apply])
  fx0 := SaysReal.of ⟨.none, [1], none, none⟩ ⟨by decide, by decide, by simp⟩ (by decide +kernel) (show _ = (1 : ℝ) by norm_num [Decimal.value, Decimal.fracDigits, Decimal.power, decimalValue, Sign.apply])

/-- The pressure of the start. -/
noncomputable def nickelPres : ℝ := 1 / 10 ^ 6 * kB * 10 ^ 5 / (279710639 / 5000000 * mP)

theorem nickel_sound : (2 / 5 : ℝ) * 10 ^ 8 ≤ 8100 * (PerfectGas.toEoS nickelGas).sound (1 / 10 ^ 6) nickelPres := by
  have h : (4939 : ℝ) ≤ (PerfectGas.toEoS nickelGas).sound (1 / 10 ^ 6) nickelPres := by
    refine Real.le_sqrt_of_sq_le ?_
    norm_num [nickelGas, nickelPres, kB, mP]
  linarith

/-- **C110, inputs/heat_nickel.ini.** The text of the file is read, accepted and gives a run; the setup gets its parameters. On every process grid, whatever the order of the loops, after any number of turns of the main loop no array was
accessed out of bounds, the run has not failed, and every result file says: density 10^-6, velocity 0 and nickel fraction 1 in every cell, the same energy in all cells, pressure 2/3 of it, and an energy between that of the start (3/2 of the
pressure of a perfect gas of nickel at 10^5 K) plus what the decay chain has released by the time of the file, and that plus the loss of power times 8100 s (a bound of the first time step). Partial: the full statement would be on doubles;
here the arithmetic is exact (the program's constants, `std::stod` and the exponential included). -/
theorem C110_heat_nickel_partial : ∃ values, iniReader (linesText iniHeatNickel) = .ok values ∧
    ∃ c s, configure 1 readReal perfectGasOf values = .ok c ∧ heatNickelParam readReal values = .ok s ∧ c.param.nfx = 1 ∧
      ∀ (tr : Trig ℝ) (lo top : ℝ) (user : UserBc 1 1 ℝ) (temp : ℝ → ℝ → ℝ), 0 ≤ top →
      ∀ (Gr : (Cell → Fields 1 1 ℝ) → Cell → Fin 1 → ℝ) (A : Machine 1 1), (∀ W C a, Gr W C a = 0) → MachineOk c.param.nx c.param.ng Gr A →
      ∀ initL, InitOrders 1 c.param.nx c.param.ng A.dims initL → ∀ (clock : ℕ → Bool) (k : ℕ),
      let p := c.prog 1 tr .cartesian lo top user temp
      let nghost := nghostOf 1 c.param.ng
      ∃ z, progRun p c.param.nx nghost (borderOf A.dims) A clock (progSetup p c.param.nx nghost (borderOf A.dims) A (cartRank A.dims) initL
          (regularNodes nghost c.param.nx c.param.xmin c.param.xmax) fun _ _ _ _ => s.init (PerfectGas.setupEos nickelGas)) k = some z ∧
        z.status ≠ .failed ∧ ∀ f ∈ z.files, HeatedFile ![10, 1, 1] (1 / 10 ^ 6) (fun _ => 0) (fun _ => 1) 1 0 (3 / 2 * (1 / 10 ^ 6 * kB * 10 ^ 5 / (55.9421278 * mP))) (2 / 3) 8100 f := by
  obtain ⟨values, hv⟩ := stored nickelFile_ok
  obtain ⟨o, ho, hc⟩ := C76_config (by norm_num) (by norm_num) hv (C76_real_cast (K := ℝ)) (nickelConfig_says _) (nickelConfig_choices _ nickelGas_of) (Or.inl rfl)
  refine ⟨values, nickelFile_text ▸ hv.read, _, _, hc, (C89_setup_params hv (C76_real_cast (K := ℝ))).2.2.2.2.1 _ nickel_says, rfl, ?_⟩
  intro tr lo top user temp htop Gr A h0 hA initL hil clock k p nghost
  have hpos : ∀ a, 0 < (![10, 1, 1] : Cell) a := by decide
  have hW := positional_state (d := 1) (n := 1) (S := fun _ _ _ _ => HeatNickelParam.init ⟨1 / 10 ^ 6, 0, 10 ^ 5, 1⟩ (PerfectGas.setupEos nickelGas)) (F := fun _ _ _ _ => ⟨1 / 10 ^ 6, fun _ => 0, nickelPres, fun _ => 1⟩)
    (fun q topo g grav c xl xm dv gr h => rfl) p.hydro.tr p.hydro.geom (nx := ![10, 1, 1]) (fun a => (hpos a).le) (ng := 2) (by norm_num)
    (regularNodes (nghostOf 1 2) ![10, 1, 1] ![0, 0, 0] ![10 ^ 9, 1, 1]) (startGravity Gr (nghostOf 1 2))
  obtain ⟨U, up, hi', e'⟩ := progSetup_eq (p := p) (nx := ![10, 1, 1]) (ng := 2) (fun a => (hpos a).le) (by norm_num) hA trivial hW hil
  have hnode : ∀ a i, regularNodes (nghostOf 1 2) ![10, 1, 1] ![0, 0, 0] ![10 ^ 9, 1, 1] a i =
    (![0, 0, 0] : Fin 3 → ℝ) a + ((i - nghostOf 1 2 a : ℤ) : ℝ) * (((![10 ^ 9, 1, 1] : Fin 3 → ℝ) a - (![0, 0, 0] : Fin 3 → ℝ) a) / ((![10, 1, 1] : Cell) a : ℤ)) := fun a i => rfl
  have hP : 0 < nickelPres := div_pos (by have := kB_pos; positivity) (by have := mP_pos; positivity)
  obtain ⟨z, e, hs, hf⟩ := C110_heated (p := p) (order := o) (ng := 2) (nx := ![10, 1, 1]) (Gr := Gr) (A := A) (X := regularNodes (nghostOf 1 2) ![10, 1, 1] ![0, 0, 0] ![10 ^ 9, 1, 1]) (G := nickelGas)
    (w := ⟨1 / 10 ^ 6, fun _ => 0, nickelPres⟩) (fx := fun _ => 1) (tau := 8100) (by norm_num) (by norm_num) hpos le_rfl
    ⟨fun a f => by show BcKind.nullGradient ≠ _; decide, fun id hid => by simpa using ho.mem_iff.1 hid, rfl, fun _ => Nat.one_pos, htop⟩ hA hi' clock
    nickelGas_phys rfl rfl (fun _ _ => Or.inr rfl) h0 rfl rfl Nat.one_pos
    (fun a i _ _ => by
      rw [hnode, hnode, ← sub_pos]
      have h1 : ∀ x y z : ℝ, x + y * z - (x + ((i - nghostOf 1 2 a : ℤ) : ℝ) * z) = (y - ((i - nghostOf 1 2 a : ℤ) : ℝ)) * z := fun x y z => by ring
      rw [h1]
      refine mul_pos (by push_cast; linarith) ?_
      fin_cases a <;> norm_num)
    (show (0 : ℝ) ≤ 2 / 5 by norm_num) (show (0 : ℝ) ≤ 60480000 by norm_num) (show (0 : ℝ) < 1 / 10 ^ 6 by norm_num) hP (fun _ => ⟨zero_le_one, le_rfl⟩) (fun g _ => ⟨rfl, rfl⟩)
    (by
      refine le_trans (le_of_eq ?_) nickel_sound
      rw [hnode, hnode]
      show (2 / 5 : ℝ) * _ = _
      norm_num [ax]
      ring) k
  refine ⟨z, ?_, hs le_rfl, fun f hfz => ?_⟩
  · rw [← e'] at e
    exact e
  · have := hf f hfz
    convert this using 1
    · rfl
    · show _ = nickelPres / (5 / 3 - 1)
      unfold nickelPres
      norm_num
      ring
    · show _ = (5 / 3 - 1 : ℝ)
      norm_num

/-- inputs/heat_nickel.ini on 4 processes: the gas stays at rest and uniform. -/
example (tr : Trig ℝ) (user : UserBc 1 1 ℝ) (temp : ℝ → ℝ → ℝ) (clock : ℕ → Bool) (k : ℕ) :
    ∃ (c : RunConfig 1 (EoS ℝ) ℝ) (A : Machine 1 1) (s : HeatNickelParam ℝ) (z : ProgState 1 1), A.dims = ![4, 1, 1] ∧
      progRun (c.prog 1 tr .cartesian 0 (10 ^ 308) user temp) ![10, 1, 1] (nghostOf 1 2) (borderOf A.dims) A clock
        (progSetup (c.prog 1 tr .cartesian 0 (10 ^ 308) user temp) ![10, 1, 1] (nghostOf 1 2) (borderOf A.dims) A (cartRank A.dims) (plainInit ![10, 1, 1] 2 A.dims)
          (regularNodes (nghostOf 1 2) ![10, 1, 1] ![0, 0, 0] ![10 ^ 9, 1, 1]) fun _ _ _ _ => s.init (PerfectGas.setupEos nickelGas)) k = some z ∧ z.status ≠ .failed ∧
      ∀ f ∈ z.files, (f.h.u 0).at ![7, 0, 0] = 0 ∧ f.h.E.at ![7, 0, 0] = f.h.E.at ![2, 0, 0] := by
  have hN : ∀ a, 0 ≤ (![10, 1, 1] : Cell) a := by decide
  have hA := mkMachine_ok (d := 1) (n := 1) (ng := 2) hN (dims := ![4, 1, 1]) (by decide) 0 (by norm_num) (by
    intro a ha r h0 h1
    obtain rfl : a = 0 := by ext; simp only [Fin.val_zero]; omega
    have h1 : r < 4 := h1
    interval_cases r <;> decide)
  obtain ⟨values, hv, c, s, hc, -, -, h⟩ := C110_heat_nickel_partial
  obtain ⟨values', hv'⟩ := stored nickelFile_ok
  obtain ⟨o, -, hc'⟩ := C76_config (by norm_num) (by norm_num) hv' (C76_real_cast (K := ℝ)) (nickelConfig_says _) (nickelConfig_choices _ nickelGas_of) (Or.inl rfl)
  obtain rfl : values = values' := Except.ok.inj (hv.symm.trans (nickelFile_text ▸ hv'.read))
  obtain rfl := Except.ok.inj (hc.symm.trans hc')
  obtain ⟨z, e, hs, hf⟩ := h tr 0 (10 ^ 308) user temp (by norm_num) (fun _ _ _ => 0) _ (fun _ _ _ => rfl) hA _ (plainInit_ok _ _ _) clock k
  exact ⟨_, _, s, z, rfl, e, hs, fun f hfz => ⟨(hf f hfz).u _ (by decide) 0, (hf f hfz).uniform _ _ (by decide) (by decide)⟩⟩

end Heracles
