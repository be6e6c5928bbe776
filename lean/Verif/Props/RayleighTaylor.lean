import Verif.Props.Slide
import Verif.Props.KelvinHelmholtz

/-!
# C112: the Rayleigh-Taylor instability that comes with the code, from the input file to the result files
-/

namespace Heracles

variable {n : ℕ}

/-- The lines of inputs/rayleigh_taylor.ini. -/
def rtFile : List IniItem :=
  [.comment [] ';' " SPDX-FileCopyrightText: 2025 The HERACLES++ development team, see COPYRIGHT.md file".toList, .comment [] ';' [],
   .comment [] ';' " SPDX-License-Identifier: MIT".toList, .blank [],
   secLine "Grid", keyLine "Nx0_glob" "100", keyLine "Nx1_glob" "200", keyLine "Nx2_glob" "1", .blank [],
   keyLine "x0min" "-0.5", keyLine "x0max" "0.5", keyLine "x1min" "-1", keyLine "x1max" "1", .blank [],
   secLine "Run", keyLine "t_end" "10", keyLine "cfl" "0.4", .blank [],
   secLine "Output", keyLine "max_iter" "1000000000", keyLine "time_frequency" "0.5", keyLine "prefix" "rt_2D", .blank [],
   secLine "Hydro", keyLine "reconstruction" "Minmod", keyLine "riemann_solver" "HLLC", .blank [],
   secLine "Boundary Condition", keyLine "BC_X0" "Periodic", keyLine "BC_X1" "Reflexive", .blank [],
   secLine "Gravity", keyLine "gx1" "-0.5", .blank [],
   secLine "Perfect Gas", keyLine "gamma" "1.4", .blank [],
   secLine "Passive Scalar", keyLine "nfx" "1", .blank [],
   secLine "Initialisation", keyLine "rho0" "2", keyLine "fx0" "1", .blank [], keyLine "rho1" "1", keyLine "fx1" "0", .blank [], keyLine "u" "0", keyLine "A" "0.01"]

theorem rtFile_text : fileText rtFile = linesText iniRayleighTaylor := by decide +kernel

theorem rtFile_ok : FileOk rtFile := simpleFile_ok (by decide +kernel) (by decide +kernel)

/-- The parameters of the file. -/
noncomputable def rtParam : Param ℝ :=
  { problem := "ShockTube".toList, restart := false, restartFile := "None".toList, rmaxShift := 10 ^ 20, nx := ![100, 200, 1]
    gridType := "Regular".toList, ng := 2, xmin := ![-1 / 2, -1, 0], xmax := ![1 / 2, 1, 1], shiftGrid := "Off".toList, deviceAware := false
    dims := ![0, 0, 0], tIni := 0, tEnd := 10, cfl := 2 / 5, maxIter := 1000000000, iterFreq := 0, timeFreq := 1 / 2, timeFirst := 0 + 1 / 2
    directory := ".".toList, pfx := "rt_2D".toList, timeJob := 20, reconstruction := "Minmod".toList, riemann := "HLLC".toList
    gx := ![0, -1 / 2, 0], mass := 1, gamma := 7 / 5, mu := 1, bc := [], priority := [], nfx := 1
    userStep := "Off".toList, pressureFix := "Off".toList, epsPf := 1 / 1000000 }

/-- The run of the file. -/
noncomputable def rtConfig (eos : EoS ℝ) : RunConfig 2 (EoS ℝ) ℝ :=
  { param := rtParam, gas := eos, grid := some .regular, bcs := fun a _ => if a = 0 then .periodic else .reflexive, order := [], lim := .minmod, sol := .hllc, step := .off, shift := false }

theorem rtConfig_says (eos : EoS ℝ) : ParamSays rtFile (rtConfig eos).param where
  problem := .absent (by decide +kernel)
  restartFile := .absent (by decide +kernel)
  gridType := .absent (by decide +kernel)
  shiftGrid := .absent (by decide +kernel)
  directory := .absent (by decide +kernel)
  pfx := .of (v := "rt_2D".toList) (by decide +kernel) (by decide +kernel)
  reconstruction := .of (v := "Minmod".toList) (by decide +kernel) (by decide +kernel)
  riemann := .of (v := "HLLC".toList) (by decide +kernel) (by decide +kernel)
  bc := .absent (by decide +kernel)
  priority := .absent (by decide +kernel)
  userStep := .absent (by decide +kernel)
  pressureFix := .absent (by decide +kernel)
  restart := Or.inl ⟨by decide +kernel, rfl⟩
  deviceAware := Or.inl ⟨by decide +kernel, rfl⟩
  rmaxShift := .absent (by decide +kernel)
  nx := fun a => by
    fin_cases a
    · exact SaysInt.of [1, 0, 0] (by decide) (by decide +kernel) (by decide)
    · exact SaysInt.of [2, 0, 0] (by decide) (by decide +kernel) (by decide)
    · exact SaysInt.of [1] (by decide) (by decide +kernel) (by decide)
  ng := .absent (by decide +kernel)
  xmin := fun a => by
    fin_cases a
    · exact SaysReal.of ⟨.minus, [0], some [5], none⟩ ⟨by decide, by decide, by simp⟩ (by decide +kernel) (show _ = (-1 / 2 : ℝ) by norm_num [Decimal.value, Decimal.fracDigits, Decimal.power, decimalValue, Sign.apply])
    · exact SaysReal.of ⟨.minus, [1], none, none⟩ ⟨by decide, by decide, by simp⟩ (by decide +kernel) (show _ = (-1 : ℝ) by norm_num [Decimal.value, Decimal.fracDigits, Decimal.power, decimalValue, Sign.apply])
    · exact .absent (by decide +kernel)
  xmax := fun a => by
    fin_cases a
    · exact SaysReal.of ⟨.none, [0], some [5], none⟩ ⟨by decide, by decide, by simp⟩ (by decide +kernel) (show _ = (1 / 2 : ℝ) by norm_num [Decimal.value, Decimal.fracDigits, Decimal.power, decimalValue, Sign.apply])
    · exact SaysReal.of ⟨.none, [1], none, none⟩ ⟨by decide, by decide, by simp⟩ (by decide +kernel) (show _ = (1 : ℝ) by norm_num [Decimal.value, Decimal.fracDigits, Decimal.power, decimalValue, Sign.apply])
    · exact .absent (by decide +kernel)
  dims := fun a => by fin_cases a <;> exact .absent (by decide +kernel)
  tIni := .absent (by decide +kernel)
  tEnd := SaysReal.of ⟨.none, [1, 0], none, none⟩ ⟨by decide, by decide, by simp⟩ (by decide +kernel) (show _ = (10 : ℝ) by norm_num [Decimal.value, Decimal.fracDigits, Decimal.power, decimalValue, Sign.apply])
  cfl := SaysReal.of ⟨.none, [0], some [4], none⟩ (digits_wf (by decide) (by decide)) (by decide +kernel) (show _ = (2 / 5 : ℝ) by norm_num [Decimal.value, Decimal.fracDigits, Decimal.power, decimalValue, Sign.apply])
  maxIter := SaysInt.of [1, 0, 0, 0, 0, 0, 0, 0, 0, 0] (by decide) (by decide +kernel) (by decide)
  iterFreq := .absent (by decide +kernel)
  timeFreq := SaysReal.of ⟨.none, [0], some [5], none⟩ (digits_wf (by decide) (by decide)) (by decide +kernel) (show _ = (1 / 2 : ℝ) by norm_num [Decimal.value, Decimal.fracDigits, Decimal.power, decimalValue, Sign.apply])
  timeFirst := .absent (by decide +kernel)
  timeJob := .absent (by decide +kernel)
  gx := fun a => by
    fin_cases a
    · exact .absent (by decide +kernel)
    · exact SaysReal.of ⟨.minus, [0], some [5], none⟩ ⟨by decide, by decide, by simp⟩ (by decide +kernel) (show _ = (-1 / 2 : ℝ) by norm_num [Decimal.value, Decimal.fracDigits, Decimal.power, decimalValue, Sign.apply])
    · exact .absent (by decide +kernel)
  mass := .absent (by decide +kernel)
  gamma := SaysReal.of ⟨.none, [1], some [4], none⟩ (digits_wf (by decide) (by decide)) (by decide +kernel) (show _ = (7 / 5 : ℝ) by norm_num [Decimal.value, Decimal.fracDigits, Decimal.power, decimalValue, Sign.apply])
  mu := .absent (by decide +kernel)
  nfx := SaysInt.of [1] (by decide) (by decide +kernel) (by decide)
  epsPf := .absent (by decide +kernel)

theorem rtConfig_faces : ∀ f, saysFace rtFile 0 f = "Periodic".toList ∧ saysFace rtFile 1 f = "Reflexive".toList := by decide +kernel

theorem rtConfig_choices (eos : EoS ℝ) {gas : ℝ → ℝ → Except String (EoS ℝ)} (hg : gas (7 / 5) 1 = .ok eos) : ChoicesSay gas rtFile (rtConfig eos) where
  gas := hg
  grid := Or.inl ⟨rfl, rfl⟩
  bcs := fun a a' f h => by
    fin_cases a
    · obtain rfl : a' = 0 := Fin.ext h
      rw [(rtConfig_faces f).1]
      exact List.mem_cons_of_mem _ List.mem_cons_self
    · obtain rfl : a' = 1 := Fin.ext h
      rw [(rtConfig_faces f).2]
      exact List.mem_cons_of_mem _ (List.mem_cons_of_mem _ List.mem_cons_self)
  lim := List.mem_cons_of_mem _ (List.mem_cons_of_mem _ List.mem_cons_self)
  sol := List.mem_cons_of_mem _ List.mem_cons_self
  step := List.mem_cons_self
  shift := show false = true ↔ "Off".toList = "UserDefined".toList by decide

theorem rt_says : RayleighTaylorSays rtFile (⟨2, 1, 0, 1 / 100, 1, 0⟩ : RayleighTaylorParam ℝ) where
  rho0 := SaysReal.of ⟨.none, [2], none, none⟩ ⟨by decide, by decide, by simp⟩ (by decide +kernel) (show _ = (2 : ℝ) by norm_num [Decimal.value, Decimal.fracDigits, Decimal.power, decimalValue, Sign.apply])
  rho1 := SaysReal.of ⟨.none, [1], none, none⟩ ⟨by decide, by decide, by simp⟩ (by decide +kernel) (show _ = (1 : ℝ) by norm_num [Decimal.value, Decimal.fracDigits, Decimal.power, decimalValue, Sign.apply])
  u := SaysReal.of ⟨.none, [0], none, none⟩ ⟨by decide, by decide, by simp⟩ (by decide +kernel) (show _ = (0 : ℝ) by norm_num [Decimal.value, Decimal.fracDigits, Decimal.power, decimalValue, Sign.apply])
  A := SaysReal.of ⟨.none, [0], some [0, 1], none⟩ ⟨by decide, by decide, by simp⟩ (by decide +kernel) (show _ = (1 / 100 : ℝ) by norm_num [Decimal.value, Decimal.fracDigits, Decimal.power, decimalValue, Sign.apply])
  fx0 := SaysReal.of ⟨.none, [1], none, none⟩ ⟨by decide, by decide, by simp⟩ (by decide +kernel) (show _ = (1 : ℝ) by norm_num [Decimal.value, Decimal.fracDigits, Decimal.power, decimalValue, Sign.apply])
  fx1 := SaysReal.of ⟨.none, [0], none, none⟩ ⟨by decide, by decide, by simp⟩ (by decide +kernel) (show _ = (0 : ℝ) by norm_num [Decimal.value, Decimal.fracDigits, Decimal.power, decimalValue, Sign.apply])

/-- The state that the setup gives to the point `(x, y)` under the gravity `gr`. -/
noncomputable def rtStart (q : RayleighTaylorParam ℝ) (gr x y : ℝ) : InitCell 2 1 :=
  { rho := q.rho1 + (q.rho0 - q.rho1) / 2 * (1 + Real.tanh ((y - 0.01 * Real.cos (4 * Real.pi * x)) / 0.005))
    fx := fun _ => (q.fx0 - q.fx1) / 2 * (1 + Real.tanh ((y - 0.01 * Real.cos (4 * Real.pi * x)) / 0.005))
    u := fun _ => q.u
    P := 10 / 7 + 1 / 4 - q.rho0 * |gr| * y }

/-- Half the box further along the interface the state is the same. -/
theorem rtStart_period (q : RayleighTaylorParam ℝ) (gr : ℝ) {x x' : ℝ} (y : ℝ) (h : x = x' + 1 / 2 ∨ x = x' - 1 / 2) : rtStart q gr x' y = rtStart q gr x y := by
  have e : Real.cos (4 * Real.pi * x') = Real.cos (4 * Real.pi * x) := by
    rcases h with rfl | rfl
    · rw [show 4 * Real.pi * (x' + 1 / 2) = 4 * Real.pi * x' + 2 * Real.pi by ring, Real.cos_add_two_pi]
    · rw [show 4 * Real.pi * (x' - 1 / 2) = 4 * Real.pi * x' - 2 * Real.pi by ring, Real.cos_sub_two_pi]
  unfold rtStart
  rw [e]

/-- **C112, inputs/rayleigh_taylor.ini.** The text is read, accepted and gives a run; the setup gets its parameters. With the gravity of the file, on every process grid, whatever the order of the loops, after any number of turns of the main
loop no array was accessed out of bounds, and every result file repeats exactly every 50 cells along the interface: the two bubbles and the two spikes of the box are copies of each other at all times, though the walls are reflexive and the
number of ranks along the interface need not be even. Partial: exact arithmetic, as in C107. -/
theorem C112_rayleigh_taylor_partial : ∃ values, iniReader (linesText iniRayleighTaylor) = .ok values ∧
    ∃ c s, configure 2 readReal perfectGasOf values = .ok c ∧ rayleighTaylorParam readReal values = .ok s ∧
      ∀ (tr : Trig ℝ) (lo top : ℝ) (user : UserBc 2 1 ℝ) (temp : ℝ → ℝ → ℝ), 0 ≤ top →
      ∀ (Gr : (Cell → Fields 2 1 ℝ) → Cell → Fin 2 → ℝ) (A : Machine 2 1), (∀ W C a, Gr W C a = c.param.gx (ax a)) → MachineOk c.param.nx c.param.ng Gr A →
      ∀ initL, InitOrders 2 c.param.nx c.param.ng A.dims initL → ∀ (clock : ℕ → Bool) (k : ℕ),
      let p := c.prog 1 tr .cartesian lo top user temp
      let nghost := nghostOf 2 c.param.ng
      ∃ z, progRun p c.param.nx nghost (borderOf A.dims) A clock (progSetup p c.param.nx nghost (borderOf A.dims) A (cartRank A.dims) initL
          (regularNodes nghost c.param.nx c.param.xmin c.param.xmax) fun _ _ g grav => s.init g grav) k = some z ∧ ∀ f ∈ z.files, SlidFile ![100, 200, 1] 0 50 f f := by
  obtain ⟨values, hv⟩ := stored rtFile_ok
  obtain ⟨o, ho, hc⟩ := C76_config (by norm_num) (by norm_num) hv (C76_real_cast (K := ℝ)) (rtConfig_says _) (rtConfig_choices _ windGas_of) (Or.inl rfl)
  refine ⟨values, rtFile_text ▸ hv.read, _, _, hc, (C89_setup_params hv (C76_real_cast (K := ℝ))).2.2.2.2.2.2.2.1 _ rt_says, ?_⟩
  intro tr lo top user temp htop Gr A h0 hA initL hil clock k p nghost
  have hpos : ∀ a, 0 < (![100, 200, 1] : Cell) a := by decide
  have hN : ∀ a, 0 ≤ (![100, 200, 1] : Cell) a := by decide
  have hp : ParamsOk p o := ⟨fun a f => by
    show (if a = 0 then BcKind.periodic else .reflexive) ≠ _
    split <;> decide, fun id hid => by simpa using ho.mem_iff.1 hid, rfl, fun h => UserStepKind.noConfusion h, htop⟩
  have hT : ∀ q topo g grav c xl xm dv gr, CellData g grav c xl xm dv gr →
      (fun _ _ g grav => RayleighTaylorParam.init ⟨2, 1, 0, 1 / 100, 1, 0⟩ g grav : Setup 2 1) q topo g grav c ⟨0, 0, 0, 0⟩ = some (rtStart ⟨2, 1, 0, 1 / 100, 1, 0⟩ (gr 1) (xm 0) (xm 1)) :=
    fun q topo g grav c xl xm dv gr h => by
      simp only [RayleighTaylorParam.init, rayleighTaylorInit, h.xc, h.grav, Option.bind_eq_bind, Option.bind_some, Option.pure_def, Option.some.injEq]
      rfl
  set X := regularNodes (nghostOf 2 2) ![100, 200, 1] ![-1 / 2, -1, 0] ![1 / 2, 1, 1] with hXdef
  have hnode : ∀ i, X 0 i = -1 / 2 + ((i - 2 : ℤ) : ℝ) * ((1 / 2 - -1 / 2) / ((100 : ℤ) : ℝ)) := fun i => rfl
  have hW := positional_state (F := fun _ xm _ gr => rtStart ⟨2, 1, 0, 1 / 100, 1, 0⟩ (gr 1) (xm 0) (xm 1)) hT tr .cartesian (nx := ![100, 200, 1]) (ng := 2) hN (by norm_num) X
    (startGravity Gr (nghostOf 2 2))
  obtain ⟨U, up, hI, e'⟩ := progSetup_eq (p := p) (nx := ![100, 200, 1]) (ng := 2) (A := A) (Gr := Gr) hN (by norm_num) hA trivial hW hil
  have hG : ∀ W W' C C', Gr W C = Gr W' C' := fun W W' C C' => funext fun a => by rw [h0, h0]
  obtain ⟨z, e, -, hf⟩ := C112_period (b := 0) (h := 1 / 100) (X := X) (by norm_num) hpos le_rfl hp hA rfl (fun f => rfl) (fun i => by
      show X 0 (i + 1) - X 0 i = _
      rw [hnode, hnode]
      push_cast
      ring) (fun W W' C C' _ => hG W W' C C') 50 (fun g g' hg hg' hS => by
    have h1 : g 0 % 100 = (g' 0 + 50) % 100 := hS.1
    have h2 := hg 0
    have h3 := hg' 0
    have h2' : 0 ≤ g 0 ∧ g 0 < 100 := h2
    have h3' : 0 ≤ g' 0 ∧ g' 0 < 100 := h3
    have hx : (X 0 (g 0 + 2) + X 0 (g 0 + 2 + 1)) / 2 = (X 0 (g' 0 + 2) + X 0 (g' 0 + 2 + 1)) / 2 + 1 / 2 ∨
        (X 0 (g 0 + 2) + X 0 (g 0 + 2 + 1)) / 2 = (X 0 (g' 0 + 2) + X 0 (g' 0 + 2 + 1)) / 2 - 1 / 2 := by
      rcases (by omega : g 0 = g' 0 + 50 ∨ g 0 = g' 0 - 50) with e | e
      · left
        rw [hnode, hnode, hnode, hnode, e]
        push_cast
        ring
      · right
        rw [hnode, hnode, hnode, hnode, e]
        push_cast
        ring
    have key := rtStart_period ⟨2, 1, 0, 1 / 100, 1, 0⟩ (Gr (fun _ => ⟨0, 0, 0, 0⟩) (g + nghostOf 2 2) 1) ((X 1 (g 1 + 2) + X 1 (g 1 + 2 + 1)) / 2) hx
    have hy : g 1 = g' 1 := hS.2 1 (by decide)
    have hgr : Gr (fun _ => ⟨0, 0, 0, 0⟩) (g' + nghostOf 2 2) 1 = Gr (fun _ => ⟨0, 0, 0, 0⟩) (g + nghostOf 2 2) 1 := congrFun (hG _ _ _ _) 1
    have all : rtStart ⟨2, 1, 0, 1 / 100, 1, 0⟩ (Gr (fun _ => ⟨0, 0, 0, 0⟩) (g' + nghostOf 2 2) 1) ((X 0 (g' 0 + 2) + X 0 (g' 0 + 2 + 1)) / 2) ((X 1 (g' 1 + 2) + X 1 (g' 1 + 2 + 1)) / 2) =
        rtStart ⟨2, 1, 0, 1 / 100, 1, 0⟩ (Gr (fun _ => ⟨0, 0, 0, 0⟩) (g + nghostOf 2 2) 1) ((X 0 (g 0 + 2) + X 0 (g 0 + 2 + 1)) / 2) ((X 1 (g 1 + 2) + X 1 (g 1 + 2 + 1)) / 2) := by
      rw [hgr, ← hy]
      exact key
    exact ⟨congrArg (fun q : InitCell 2 1 => (⟨q.rho, q.u, q.P⟩ : Prim 2 ℝ)) all, congrArg (fun q : InitCell 2 1 => q.fx) all⟩) hI clock k
  exact ⟨z, e' ▸ e, hf⟩

/-- A machine whose force has a direction. -/
theorem pulled_ok {d n : ℕ} {nx : Cell} {ng : ℤ} (hN : ∀ a, 0 ≤ nx a) {dims : Cell} (hd : ∀ a, 0 < dims a) (v : Fin d → ℝ) (hng : 0 ≤ ng)
    (hs : ∀ a : Fin 3, a.val < d → ∀ r, 0 ≤ r → r < dims a → ng ≤ localSize (nx a) (dims a) r) :
    MachineOk nx ng (fun _ _ a => v a) { mkMachine d n nx ng hN dims hd 0 with grav := fun _ _ _ a => some (v a) } :=
  { mkMachine_ok (n := n) hN hd 0 hng hs with force := fun _ _ _ _ _ _ _ _ => rfl }

/-- The file on 3 x 2 ranks: the flow repeats after half the box, though no rank boundary is there. -/
example (tr : Trig ℝ) (user : UserBc 2 1 ℝ) (temp : ℝ → ℝ → ℝ) (clock : ℕ → Bool) (k : ℕ) :
    ∃ (c : RunConfig 2 (EoS ℝ) ℝ) (A : Machine 2 1) (s : RayleighTaylorParam ℝ) (z : ProgState 2 1), A.dims = ![3, 2, 1] ∧
      progRun (c.prog 1 tr .cartesian 0 (10 ^ 308) user temp) ![100, 200, 1] (nghostOf 2 2) (borderOf A.dims) A clock
        (progSetup (c.prog 1 tr .cartesian 0 (10 ^ 308) user temp) ![100, 200, 1] (nghostOf 2 2) (borderOf A.dims) A (cartRank A.dims)
          (fun r => boxList (nghostOf 2 2) (fun a => localExt ![100, 200, 1] A.dims (nghostOf 2 2) r a - nghostOf 2 2 a))
          (regularNodes (nghostOf 2 2) ![100, 200, 1] ![-1 / 2, -1, 0] ![1 / 2, 1, 1]) fun _ _ g grav => s.init g grav) k = some z ∧
      ∀ f ∈ z.files, f.h.rho.at ![60, 117, 0] = f.h.rho.at ![10, 117, 0] ∧ (f.h.u 1).at ![75, 99, 0] = (f.h.u 1).at ![25, 99, 0] := by
  have hN : ∀ a, 0 ≤ (![100, 200, 1] : Cell) a := by decide
  have hA := pulled_ok (d := 2) (n := 1) (ng := 2) hN (dims := ![3, 2, 1]) (by decide) ![0, -1 / 2] (by norm_num) (by
    intro a ha r h0 h1
    fin_cases a
    · have h1 : r < 3 := h1
      interval_cases r <;> decide
    · have h1 : r < 2 := h1
      interval_cases r <;> decide
    · simp at ha)
  obtain ⟨values, hv, c, s, hc, -, h⟩ := C112_rayleigh_taylor_partial
  obtain ⟨values', hv'⟩ := stored rtFile_ok
  obtain ⟨o, -, hc'⟩ := C76_config (by norm_num) (by norm_num) hv' (C76_real_cast (K := ℝ)) (rtConfig_says _) (rtConfig_choices _ windGas_of) (Or.inl rfl)
  obtain rfl : values = values' := Except.ok.inj (hv.symm.trans (rtFile_text ▸ hv'.read))
  obtain rfl := Except.ok.inj (hc.symm.trans hc')
  obtain ⟨z, e, hf⟩ := h tr 0 (10 ^ 308) user temp (by norm_num) _ _ (fun W C a => by fin_cases a <;> rfl) hA _ (fun _ _ => boxList_isSchedule _ _) clock k
  refine ⟨_, _, s, z, rfl, e, fun f hfz => ⟨(hf f hfz).rho ![10, 117, 0] ![60, 117, 0] (by decide) (by decide) ⟨by decide, by decide⟩,
    (hf f hfz).u ![25, 99, 0] ![75, 99, 0] (by decide) (by decide) ⟨by decide, by decide⟩ 1⟩⟩

end Heracles
