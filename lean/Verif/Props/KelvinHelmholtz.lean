import Verif.Props.Translate
import Verif.Props.StartFiles
import Verif.Props.Physical
import Verif.Spec.KelvinHelmholtz

/-!
# C108: the shear layers that come with the code, from the input file to the result files
-/

namespace Heracles

variable {d n : ℕ}

/-- A sum over the cells of a box, displaced around the box. -/
theorem sum_displaced {nx : Cell} (hpos : ∀ a, 0 < nx a) (s : Cell) (F : Cell → ℝ) : ∑ g ∈ domain nx, F (wrap nx (g + s)) = ∑ g ∈ domain nx, F g := by
  refine Finset.sum_nbij' (fun g => wrap nx (g + s)) (fun g => wrap nx (g - s)) (fun g _ => mem_domain.2 (wrap_mem hpos _)) (fun g _ => mem_domain.2 (wrap_mem hpos _))
    (fun g hg => ?_) (fun g hg => ?_) (fun g _ => rfl)
  · beta_reduce
    rw [sub_eq_add_neg, wrap_wrap_add, add_neg_cancel_right, wrap_of_mem (mem_domain.1 hg)]
  · beta_reduce
    rw [wrap_wrap_add, sub_add_cancel, wrap_of_mem (mem_domain.1 hg)]

/-- What is proved of the files of a periodic box without gravity, from a setup that knows the cells by their positions. -/
theorem box_files {p : ProgParams d n} {nx : Cell} {ng : ℤ} {Gr : (Cell → Fields d n ℝ) → Cell → Fin d → ℝ} {A : Machine d n} {order : List ℕ}
    (hd3 : d ≤ 3) (hpos : ∀ a, 0 < nx a) (hng : 2 ≤ ng) (hp : ParamsOk p order) (hA : MachineOk nx ng Gr A) {initL : Cell → List Cell} (hil : InitOrders d nx ng A.dims initL)
    (clock : ℕ → Bool) (hgeom : p.hydro.geom = .cartesian) (hb : ∀ a f, p.hydro.bcs a f = .periodic) (h0 : ∀ W C a, Gr W C a = 0) (hfix : p.fix = none)
    (hs : p.step ≠ .heatNickel) {xmin xmax : Fin 3 → ℝ} (hx : ∀ a, xmin a < xmax a) {F : (Fin 3 → ℝ) → InitCell d n} {T : Setup d n}
    (hT : ∀ q topo g grav c xl xm dv gr, CellData g grav c xl xm dv gr → T q topo g grav c ⟨0, 0, 0, 0⟩ = some (F xm))
    {S : Cell → InitCell d n} (hS : ∀ g, S g = F fun a => xmin a + (g a + 1 / 2) * ((xmax a - xmin a) / nx a)) {s : Cell}
    (hper : ∀ g g', inBox 0 nx g → inBox 0 nx g' → (∀ a, g a % nx a = (g' a + s a) % nx a) → S g' = S g) (k : ℕ) :
    ∃ z, progRun p nx (nghostOf d ng) (borderOf A.dims) A clock
        (progSetup p nx (nghostOf d ng) (borderOf A.dims) A (cartRank A.dims) initL (regularNodes (nghostOf d ng) nx xmin xmax) T) k = some z ∧
      ∀ f ∈ z.files, ShiftedFile nx s f f ∧ ∑ g ∈ domain nx, f.h.rho.at g = ∑ g ∈ domain nx, (S g).rho ∧
        ∑ g ∈ domain nx, f.h.E.at g = ∑ g ∈ domain nx, (p.hydro.eos.evolFromPres (S g).rho (S g).P + (S g).rho * (∑ i, (S g).u i ^ 2) / 2) ∧
        ((∀ g, inBox 0 nx g → f.h.rho.at g ≠ 0) → ∀ i, ∑ g ∈ domain nx, f.h.rho.at g * (f.h.u i).at g = ∑ g ∈ domain nx, (S g).rho * (S g).u i) := by
  have hW := positional_state (F := fun _ xm _ _ => F xm) hT p.hydro.tr p.hydro.geom (fun a => (hpos a).le) (ng := ng) (by omega)
    (regularNodes (nghostOf d ng) nx xmin xmax) (startGravity Gr (nghostOf d ng))
  have hnode : ∀ a i, regularNodes (nghostOf d ng) nx xmin xmax a i = xmin a + ((i - nghostOf d ng a : ℤ) : ℝ) * ((xmax a - xmin a) / nx a) := fun a i => rfl
  have hmid : (fun C : Cell => F fun a => (regularNodes (nghostOf d ng) nx xmin xmax a (C a + nghostOf d ng a) +
      regularNodes (nghostOf d ng) nx xmin xmax a (C a + nghostOf d ng a + 1)) / 2) = S := by
    funext C
    rw [hS]
    congr 1
    funext a
    rw [hnode, hnode]
    push_cast
    ring
  beta_reduce at hW
  rw [hmid] at hW
  obtain ⟨U, up, hI, e'⟩ := progSetup_eq (p := p) (fun a => (hpos a).le) (by omega) hA trivial hW hil
  rw [e']
  have hposR : ∀ a, (0 : ℝ) < nx a := fun a => by exact_mod_cast hpos a
  have hh : ∀ a, 0 < (xmax a - xmin a) / nx a := fun a => div_pos (sub_pos.2 (hx a)) (hposR a)
  have hX : ∀ a i, regularNodes (nghostOf d ng) nx xmin xmax a (i + 1) - regularNodes (nghostOf d ng) nx xmin xmax a i = (xmax a - xmin a) / nx a := fun a i => by
    rw [hnode, hnode]; push_cast; ring
  have hM : PeriodicMesh d nx ng (regularNodes (nghostOf d ng) nx xmin xmax) :=
    ⟨fun a i _ _ => sub_pos.1 (by rw [hX]; exact hh a), fun a _ i _ _ => by rw [hX, hX]⟩
  have hGr : ∀ W, Periodic d nx W → Periodic d nx (Gr W) := fun W _ a C => funext fun b => by rw [h0, h0]
  obtain ⟨z, e1, -, f1⟩ := C108_period hd3 hpos hng hp hA hgeom hb hX (fun W s C => funext fun a => by rw [h0, h0]) s (fun g g' hg hg' eg => by rw [hper g g' hg hg' eg]; exact ⟨rfl, rfl⟩) hI clock k
  obtain ⟨z2, e2, f2⟩ := C69_mass hd3 hpos hng hp hA hI clock hb hgeom hM hGr k
  obtain ⟨z3, e3, f3⟩ := C69_energy hd3 hpos hng hp hA hI clock hb hgeom hM h0 hfix hs k
  have hv : ∀ g, boxCellVol d ng (regularNodes (nghostOf d ng) nx xmin xmax) g = ∏ a : Fin 3, (xmax a - xmin a) / nx a := fun g => by
    unfold boxCellVol
    exact Finset.prod_congr rfl fun a _ => hX a _
  have hne : ∏ a : Fin 3, (xmax a - xmin a) / nx a ≠ 0 := Finset.prod_ne_zero_iff.2 fun a _ => (hh a).ne'
  obtain rfl := Option.some.inj (e1.symm.trans e2)
  obtain rfl := Option.some.inj (e1.symm.trans e3)
  refine ⟨z, e1, fun f hf => ⟨f1 f hf, ?_, ?_, fun hr i => ?_⟩⟩
  · have := f2 f hf
    simp only [hv, ← Finset.mul_sum] at this
    exact mul_left_cancel₀ hne this
  · have := f3 f hf
    simp only [hv, ← Finset.mul_sum] at this
    exact mul_left_cancel₀ hne this
  · obtain ⟨z4, e4, f4⟩ := C69_momentum hd3 hpos hng hp hA hI clock hb hgeom hM hGr (i := i) (fun W C => h0 W C i) k
    obtain rfl := Option.some.inj (e1.symm.trans e4)
    have := f4 f hf hr
    simp only [hv, ← Finset.mul_sum] at this
    exact mul_left_cancel₀ hne this

/-! ### The file -/

/-- The lines of inputs/kelvin_helmholtz.ini with the names of the faces that the program knows; the file that comes with the code writes other
names and is refused (`C89_kelvin_helmholtz_violated`). -/
def khFile : List IniItem :=
  [.comment [] ';' " SPDX-FileCopyrightText: 2025 The HERACLES++ development team, see COPYRIGHT.md file".toList, .comment [] ';' [],
   .comment [] ';' " SPDX-License-Identifier: MIT".toList, .blank [],
   secLine "Grid", keyLine "Nx0_glob" "2048", keyLine "Nx1_glob" "1024", keyLine "Nx2_glob" "1", .blank [],
   keyLine "x0min" "0", keyLine "x0max" "4", keyLine "x1min" "0", keyLine "x1max" "2", .blank [],
   secLine "Run", keyLine "t_end" "6", keyLine "cfl" "0.4", .blank [],
   secLine "Output", keyLine "max_iter" "1000000", keyLine "time_frequency" "1", keyLine "prefix" "kh", .blank [],
   secLine "Hydro", keyLine "reconstruction" "Minmod", keyLine "riemann_solver" "HLLC", .blank [],
   secLine "Boundary Condition", keyLine "BC" "Periodic", keyLine "Priority" "X_right X_left Y_left Y_right", .blank [],
   secLine "Perfect Gas", keyLine "gamma" "1.4", .blank [],
   secLine "Initialisation", keyLine "u0" "1", keyLine "P0" "10"]

/-- inputs/kelvin_helmholtz.ini with one line corrected. -/
def iniKelvinHelmholtzCorrected : List String :=
  iniKelvinHelmholtz.map fun l => if l = "Priority = X0_right X0_left X1_left X1_right" then "Priority = X_right X_left Y_left Y_right" else l

theorem khFile_text : fileText khFile = linesText iniKelvinHelmholtzCorrected := by decide +kernel

/-- The parameters of the file. -/
noncomputable def khParam : Param ℝ :=
  { problem := "ShockTube".toList, restart := false, restartFile := "None".toList, rmaxShift := 10 ^ 20, nx := ![2048, 1024, 1]
    gridType := "Regular".toList, ng := 2, xmin := ![0, 0, 0], xmax := ![4, 2, 1], shiftGrid := "Off".toList, deviceAware := false
    dims := ![0, 0, 0], tIni := 0, tEnd := 6, cfl := 2 / 5, maxIter := 1000000, iterFreq := 0, timeFreq := 1, timeFirst := 0 + 1
    directory := ".".toList, pfx := "kh".toList, timeJob := 20, reconstruction := "Minmod".toList, riemann := "HLLC".toList
    gx := ![0, 0, 0], mass := 1, gamma := 7 / 5, mu := 1, bc := "Periodic".toList, priority := "X_right X_left Y_left Y_right".toList, nfx := 0
    userStep := "Off".toList, pressureFix := "Off".toList, epsPf := 1 / 1000000 }

/-- The run of the file. -/
noncomputable def khConfig (eos : EoS ℝ) : RunConfig 2 (EoS ℝ) ℝ :=
  { param := khParam, gas := eos, grid := some .regular, bcs := fun _ _ => .periodic, order := [], lim := .minmod, sol := .hllc, step := .off, shift := false }

theorem khConfig_says (eos : EoS ℝ) : ParamSays khFile (khConfig eos).param where
  problem := .absent (by decide +kernel)
  restartFile := .absent (by decide +kernel)
  gridType := .absent (by decide +kernel)
  shiftGrid := .absent (by decide +kernel)
  directory := .absent (by decide +kernel)
  pfx := .of (v := "kh".toList) (by decide +kernel) (by decide +kernel)
  reconstruction := .of (v := "Minmod".toList) (by decide +kernel) (by decide +kernel)
  riemann := .of (v := "HLLC".toList) (by decide +kernel) (by decide +kernel)
  bc := .of (v := "Periodic".toList) (by decide +kernel) (by decide +kernel)
  priority := .of (v := "X_right X_left Y_left Y_right".toList) (by decide +kernel) (by decide +kernel)
  userStep := .absent (by decide +kernel)
  pressureFix := .absent (by decide +kernel)
  restart := Or.inl ⟨by decide +kernel, rfl⟩
  deviceAware := Or.inl ⟨by decide +kernel, rfl⟩
  rmaxShift := .absent (by decide +kernel)
  nx := fun a => by
    fin_cases a
    · exact SaysInt.of [2, 0, 4, 8] (by decide) (by decide +kernel) (by decide)
    · exact SaysInt.of [1, 0, 2, 4] (by decide) (by decide +kernel) (by decide)
    · exact SaysInt.of [1] (by decide) (by decide +kernel) (by decide)
  ng := .absent (by decide +kernel)
  xmin := fun a => by
    fin_cases a
    · exact SaysReal.of ⟨.none, [0], none, none⟩ (int_wf (by decide) (by decide)) (by decide +kernel) (show _ = (0 : ℝ) by norm_num [Decimal.value, Decimal.fracDigits, Decimal.power, decimalValue, Sign.apply])
    · exact SaysReal.of ⟨.none, [0], none, none⟩ (int_wf (by decide) (by decide)) (by decide +kernel) (show _ = (0 : ℝ) by norm_num [Decimal.value, Decimal.fracDigits, Decimal.power, decimalValue, Sign.apply])
    · exact .absent (by decide +kernel)
  xmax := fun a => by
    fin_cases a
    · exact SaysReal.of ⟨.none, [4], none, none⟩ (int_wf (by decide) (by decide)) (by decide +kernel) (show _ = (4 : ℝ) by norm_num [Decimal.value, Decimal.fracDigits, Decimal.power, decimalValue, Sign.apply])
    · exact SaysReal.of ⟨.none, [2], none, none⟩ (int_wf (by decide) (by decide)) (by decide +kernel) (show _ = (2 : ℝ) by norm_num [Decimal.value, Decimal.fracDigits, Decimal.power, decimalValue, Sign.apply])
    · exact .absent (by decide +kernel)
  dims := fun a => by fin_cases a <;> exact .absent (by decide +kernel)
  tIni := .absent (by decide +kernel)
  tEnd := SaysReal.of ⟨.none, [6], none, none⟩ (int_wf (by decide) (by decide)) (by decide +kernel) (show _ = (6 : ℝ) by norm_num [Decimal.value, Decimal.fracDigits, Decimal.power, decimalValue, Sign.apply])
  cfl := SaysReal.of ⟨.none, [0], some [4], none⟩ (digits_wf (by decide) (by decide)) (by decide +kernel) (show _ = (2 / 5 : ℝ) by norm_num [Decimal.value, Decimal.fracDigits, Decimal.power, decimalValue, Sign.apply])
  maxIter := SaysInt.of [1, 0, 0, 0, 0, 0, 0] (by decide) (by decide +kernel) (by decide)
  iterFreq := .absent (by decide +kernel)
  timeFreq := SaysReal.of ⟨.none, [1], none, none⟩ (int_wf (by decide) (by decide)) (by decide +kernel) (show _ = (1 : ℝ) by norm_num [Decimal.value, Decimal.fracDigits, Decimal.power, decimalValue, Sign.apply])
  timeFirst := .absent (by decide +kernel)
  timeJob := .absent (by decide +kernel)
  gx := fun a => by fin_cases a <;> exact .absent (by decide +kernel)
  mass := .absent (by decide +kernel)
  gamma := SaysReal.of ⟨.none, [1], some [4], none⟩ (digits_wf (by decide) (by decide)) (by decide +kernel) (show _ = (7 / 5 : ℝ) by norm_num [Decimal.value, Decimal.fracDigits, Decimal.power, decimalValue, Sign.apply])
  mu := .absent (by decide +kernel)
  nfx := .absent (by decide +kernel)
  epsPf := .absent (by decide +kernel)

theorem khConfig_faces : ∀ a f, saysFace khFile a f = "Periodic".toList := by decide +kernel

theorem khConfig_choices (eos : EoS ℝ) {gas : ℝ → ℝ → Except String (EoS ℝ)} (hg : gas (7 / 5) 1 = .ok eos) : ChoicesSay gas khFile (khConfig eos) where
  gas := hg
  grid := Or.inl ⟨rfl, rfl⟩
  bcs := fun a a' f h => by
    rw [khConfig_faces]
    exact List.mem_cons_of_mem _ List.mem_cons_self
  lim := List.mem_cons_of_mem _ (List.mem_cons_of_mem _ List.mem_cons_self)
  sol := List.mem_cons_of_mem _ List.mem_cons_self
  step := List.mem_cons_self
  shift := show false = true ↔ "Off".toList = "UserDefined".toList by decide

theorem khFile_ok : FileOk khFile := simpleFile_ok (by decide +kernel) (by decide +kernel)

theorem kh_says : KelvinHelmholtzSays khFile (⟨10⟩ : KelvinHelmholtzParam ℝ) where
  P0 := SaysReal.of ⟨.none, [1, 0], none, none⟩ (int_wf (by decide) (by decide)) (by decide +kernel) (show _ = (10 : ℝ) by norm_num [Decimal.value, Decimal.fracDigits, Decimal.power, decimalValue, Sign.apply])

theorem kh_order : "X_right X_left Y_left Y_right".toList = priorityText [1, 0, 2, 3] := by decide +kernel

theorem khShear_nonneg (g : Cell) : 0 ≤ khShear g := sub_nonneg.2 (tanh_le (by linarith))

/-- Half a wavelength further the push is opposite. -/
theorem khPush_opposite {g : Cell} (hg : inBox 0 ![2048, 1024, 1] g) : khPush (wrap ![2048, 1024, 1] (g + ![512, 0, 0])) = -khPush g := by
  have h0 := hg 0
  have h1 := hg 1
  have e1 : wrap ![2048, 1024, 1] (g + ![512, 0, 0]) 1 = g 1 := by
    show (g 1 + 0) % 1024 = g 1
    rw [add_zero]
    exact Int.emod_eq_of_lt h1.1 h1.2
  have e0 : wrap ![2048, 1024, 1] (g + ![512, 0, 0]) 0 = (g 0 + 512) % 2048 := rfl
  have hy : khY (wrap ![2048, 1024, 1] (g + ![512, 0, 0])) = khY g := by unfold khY; rw [e1]
  have hsin : Real.sin (Real.pi * khX (wrap ![2048, 1024, 1] (g + ![512, 0, 0]))) = -Real.sin (Real.pi * khX g) := by
    unfold khX
    rw [e0]
    have hlo : (0 : ℤ) ≤ g 0 := h0.1
    have hhi : g 0 < 2048 := h0.2
    by_cases h : g 0 < 1536
    · rw [Int.emod_eq_of_lt (by omega) (by omega), ← Real.sin_add_pi]
      congr 1
      push_cast
      ring
    · rw [show (g 0 + 512) % 2048 = g 0 - 1536 by omega, ← Real.sin_sub_pi, ← Real.sin_sub_two_pi (Real.pi * ((g 0 + 1 / 2) / 512) - Real.pi)]
      congr 1
      push_cast
      ring
  unfold khPush
  rw [hy, hsin]
  ring

theorem khShear_same {g : Cell} (hg : inBox 0 ![2048, 1024, 1] g) : khShear (wrap ![2048, 1024, 1] (g + ![512, 0, 0])) = khShear g := by
  have h1 := hg 1
  have e1 : wrap ![2048, 1024, 1] (g + ![512, 0, 0]) 1 = g 1 := by
    show (g 1 + 0) % 1024 = g 1
    rw [add_zero]
    exact Int.emod_eq_of_lt h1.1 h1.2
  unfold khShear khY
  rw [e1]

/-- A sum of terms that a displacement around the box turns into their opposites. -/
theorem sum_opposite {nx : Cell} (hpos : ∀ a, 0 < nx a) (s : Cell) {F : Cell → ℝ} (h : ∀ g, inBox 0 nx g → F (wrap nx (g + s)) = -F g) : ∑ g ∈ domain nx, F g = 0 := by
  have h1 := sum_displaced hpos s F
  rw [Finset.sum_congr rfl fun g hg => h g (mem_domain.1 hg), Finset.sum_neg_distrib] at h1
  linarith

/-- At the start the layers are pushed up as much as down. -/
theorem kh_balanced : ∑ g ∈ domain ![2048, 1024, 1], (1 + khShear g) * khPush g = 0 :=
  sum_opposite (by decide) ![512, 0, 0] fun g hg => by rw [khPush_opposite hg, khShear_same hg, mul_neg]

/-- The state at the start. -/
noncomputable def khStart (n : ℕ) (g : Cell) : InitCell 2 n := ⟨1 + khShear g, ![khShear g, khPush g], 10, 0⟩

/-- The state at the start repeats every 1024 cells. -/
theorem khStart_period {g g' : Cell} (hg : inBox 0 ![2048, 1024, 1] g) (hg' : inBox 0 ![2048, 1024, 1] g')
    (e : ∀ a, g a % (![2048, 1024, 1] : Cell) a = (g' a + (![1024, 0, 0] : Cell) a) % (![2048, 1024, 1] : Cell) a) : khStart n g' = khStart n g := by
  have e0 : g 0 % 2048 = (g' 0 + 1024) % 2048 := e 0
  have e1 : g 1 % 1024 = (g' 1 + 0) % 1024 := e 1
  have h0 : 0 ≤ g 0 ∧ g 0 < 2048 := hg 0
  have h0' : 0 ≤ g' 0 ∧ g' 0 < 2048 := hg' 0
  have h1 : 0 ≤ g 1 ∧ g 1 < 1024 := hg 1
  have h1' : 0 ≤ g' 1 ∧ g' 1 < 1024 := hg' 1
  have hy : khY g' = khY g := by unfold khY; rw [show g' 1 = g 1 by omega]
  have hsin : Real.sin (Real.pi * khX g') = Real.sin (Real.pi * khX g) := by
    unfold khX
    rcases (by omega : g 0 = g' 0 + 1024 ∨ g 0 = g' 0 - 1024) with h | h
    · rw [h, ← Real.sin_add_two_pi]
      congr 1
      push_cast
      ring
    · rw [h, ← Real.sin_sub_two_pi]
      congr 1
      push_cast
      ring
  unfold khStart khShear khPush
  rw [hy, hsin]

/-- **C108, inputs/kelvin_helmholtz.ini** (with the names of the faces that the program knows). The text is read, accepted and gives a run; the setup gets its parameter. On every process grid, whatever the order of the loops, after any
number of turns of the main loop no array was accessed out of bounds, and every result file says: the flow repeats exactly every 1024 cells along the layers (half the box: two copies of one billow); the total mass, energy and momentum along the
layers are those of the start and the total momentum across the layers is zero (the momenta as density times velocity, if no density in the file is zero). Partial: exact arithmetic, as in C107. -/
theorem C108_kelvin_helmholtz_partial : ∃ values, iniReader (linesText iniKelvinHelmholtzCorrected) = .ok values ∧
    ∃ c s, configure 2 readReal perfectGasOf values = .ok c ∧ kelvinHelmholtzParam readReal values = .ok s ∧
      ∀ (n : ℕ) (tr : Trig ℝ) (lo top : ℝ) (user : UserBc 2 n ℝ) (temp : ℝ → ℝ → ℝ), 0 ≤ top →
      ∀ (Gr : (Cell → Fields 2 n ℝ) → Cell → Fin 2 → ℝ) (A : Machine 2 n), (∀ W C a, Gr W C a = 0) → MachineOk c.param.nx c.param.ng Gr A →
      ∀ initL, InitOrders 2 c.param.nx c.param.ng A.dims initL → ∀ (clock : ℕ → Bool) (k : ℕ),
      let p := c.prog n tr .cartesian lo top user temp
      let nghost := nghostOf 2 c.param.ng
      ∃ z, progRun p c.param.nx nghost (borderOf A.dims) A clock (progSetup p c.param.nx nghost (borderOf A.dims) A (cartRank A.dims) initL
          (regularNodes nghost c.param.nx c.param.xmin c.param.xmax) fun _ _ g _ => s.init g) k = some z ∧ ∀ f ∈ z.files, ShearFile f := by
  obtain ⟨values, hv⟩ := stored khFile_ok
  obtain ⟨o, ho, hc⟩ := C76_config (by norm_num) (by norm_num) hv (C76_real_cast (K := ℝ)) (khConfig_says _) (khConfig_choices _ windGas_of) (Or.inr ⟨[1, 0, 2, 3], by decide, kh_order⟩)
  refine ⟨values, khFile_text ▸ hv.read, _, _, hc, (C89_setup_params hv (C76_real_cast (K := ℝ))).2.2.2.2.2.2.1 _ kh_says, ?_⟩
  intro n tr lo top user temp htop Gr A h0 hA initL hil clock k p nghost
  obtain ⟨z, e, hf⟩ := box_files (n := n) (p := p) (order := o) (ng := 2) (nx := ![2048, 1024, 1]) (Gr := Gr) (A := A) (initL := initL) (xmin := ![0, 0, 0]) (xmax := ![4, 2, 1])
    (F := fun x => ⟨1 + (Real.tanh (20 * (x 1 - 1 / 2)) - Real.tanh (20 * (x 1 - 3 / 2))), ![Real.tanh (20 * (x 1 - 1 / 2)) - Real.tanh (20 * (x 1 - 3 / 2)),
      1 / 100 * Real.sin (Real.pi * x 0) * (Real.exp (-(25 * (x 1 - 1 / 2) ^ 2)) + Real.exp (-(25 * (x 1 - 3 / 2) ^ 2)))], 10, 0⟩)
    (T := fun _ _ g _ => KelvinHelmholtzParam.init ⟨10⟩ g) (S := khStart n) (s := ![1024, 0, 0]) (by norm_num) (by decide) le_rfl
    ⟨fun a f => by show BcKind.periodic ≠ _; decide, fun id hid => by simpa using ho.mem_iff.1 hid, rfl, fun h => UserStepKind.noConfusion h, htop⟩ hA hil clock
    rfl (fun _ _ => rfl) h0 rfl (by intro h; cases h) (fun a => by fin_cases a <;> norm_num)
    (fun q topo g grav c xl xm dv gr h => by
      simp only [KelvinHelmholtzParam.init, kelvinHelmholtzInit, h.xc, Option.bind_eq_bind, Option.bind_some, Option.pure_def, Option.some.injEq]
      have a1 : (xm 1 - 0.5) / 0.05 = 20 * (xm 1 - 1 / 2) := by ring
      have a2 : (xm 1 - 1.5) / 0.05 = 20 * (xm 1 - 3 / 2) := by ring
      have a3 : -(xm 1 - 0.5) * (xm 1 - 0.5) / (0.2 * 0.2) = -(25 * (xm 1 - 1 / 2) ^ 2) := by ring
      have a4 : -(xm 1 - 1.5) * (xm 1 - 1.5) / (0.2 * 0.2) = -(25 * (xm 1 - 3 / 2) ^ 2) := by ring
      rw [a1, a2, a3, a4, one_mul, show (0.01 : ℝ) = 1 / 100 by norm_num])
    (fun g => by
      have b0 : (![0, 0, 0] : Fin 3 → ℝ) 0 + (g 0 + 1 / 2) * (((![4, 2, 1] : Fin 3 → ℝ) 0 - (![0, 0, 0] : Fin 3 → ℝ) 0) / (((![2048, 1024, 1] : Cell) 0 : ℤ) : ℝ)) = khX g := by
        show (0 : ℝ) + (g 0 + 1 / 2) * ((4 - 0) / ((2048 : ℤ) : ℝ)) = (g 0 + 1 / 2) / 512
        push_cast
        ring
      have b1 : (![0, 0, 0] : Fin 3 → ℝ) 1 + (g 1 + 1 / 2) * (((![4, 2, 1] : Fin 3 → ℝ) 1 - (![0, 0, 0] : Fin 3 → ℝ) 1) / (((![2048, 1024, 1] : Cell) 1 : ℤ) : ℝ)) = khY g := by
        show (0 : ℝ) + (g 1 + 1 / 2) * ((2 - 0) / ((1024 : ℤ) : ℝ)) = (g 1 + 1 / 2) / 512
        push_cast
        ring
      beta_reduce
      rw [b0, b1]
      rfl)
    (fun g g' hg hg' eg => khStart_period hg hg' eg) k
  refine ⟨z, e, fun f hfz => ?_⟩
  obtain ⟨q1, q2, q3, q4⟩ := hf f hfz
  refine ⟨q1, q2, q3.trans (Finset.sum_congr rfl fun g _ => ?_), fun hr => q4 hr 0, fun hr => (q4 hr 1).trans kh_balanced⟩
  have hrho : (0 : ℝ) < 1 + khShear g := by linarith [khShear_nonneg g]
  have he : p.hydro.eos.evolFromPres (1 + khShear g) 10 = 25 := by
    refine (perfectGas_evol windGas_phys 10 hrho).trans ?_
    norm_num [windGas]
  have hu : ∑ i : Fin 2, (khStart n g).u i ^ 2 = khShear g ^ 2 + khPush g ^ 2 := by
    rw [Fin.sum_univ_two]
    rfl
  show p.hydro.eos.evolFromPres (1 + khShear g) 10 + (1 + khShear g) * (∑ i : Fin 2, (khStart n g).u i ^ 2) / 2 = _
  rw [he, hu]

/-- The shear layers on 4 x 2 ranks, with one passive scalar: what the files say of two cells half a box apart. -/
example (tr : Trig ℝ) (user : UserBc 2 1 ℝ) (temp : ℝ → ℝ → ℝ) (clock : ℕ → Bool) (k : ℕ) :
    ∃ (c : RunConfig 2 (EoS ℝ) ℝ) (A : Machine 2 1) (s : KelvinHelmholtzParam ℝ) (z : ProgState 2 1), A.dims = ![4, 2, 1] ∧
      progRun (c.prog 1 tr .cartesian 0 (10 ^ 308) user temp) ![2048, 1024, 1] (nghostOf 2 2) (borderOf A.dims) A clock
        (progSetup (c.prog 1 tr .cartesian 0 (10 ^ 308) user temp) ![2048, 1024, 1] (nghostOf 2 2) (borderOf A.dims) A (cartRank A.dims)
          (fun r => boxList (nghostOf 2 2) (fun a => localExt ![2048, 1024, 1] A.dims (nghostOf 2 2) r a - nghostOf 2 2 a))
          (regularNodes (nghostOf 2 2) ![2048, 1024, 1] ![0, 0, 0] ![4, 2, 1]) fun _ _ g _ => s.init g) k = some z ∧
      ∀ f ∈ z.files, ShearFile f ∧ f.h.rho.at ![1034, 7, 0] = f.h.rho.at ![10, 7, 0] := by
  have hN : ∀ a, 0 ≤ (![2048, 1024, 1] : Cell) a := by decide
  have hA := mkMachine_ok (d := 2) (n := 1) (ng := 2) hN (dims := ![4, 2, 1]) (by decide) 0 (by norm_num) (by
    intro a ha r h0 h1
    fin_cases a
    · have h1 : r < 4 := h1
      interval_cases r <;> decide
    · have h1 : r < 2 := h1
      interval_cases r <;> decide
    · simp at ha)
  obtain ⟨values, hv, c, s, hc, -, h⟩ := C108_kelvin_helmholtz_partial
  obtain ⟨values', hv'⟩ := stored khFile_ok
  obtain ⟨o, -, hc'⟩ := C76_config (by norm_num) (by norm_num) hv' (C76_real_cast (K := ℝ)) (khConfig_says _) (khConfig_choices _ windGas_of) (Or.inr ⟨[1, 0, 2, 3], by decide, kh_order⟩)
  obtain rfl : values = values' := Except.ok.inj (hv.symm.trans (khFile_text ▸ hv'.read))
  obtain rfl := Except.ok.inj (hc.symm.trans hc')
  obtain ⟨z, e, hf⟩ := h 1 tr 0 (10 ^ 308) user temp (by norm_num) (fun _ _ _ => 0) _ (fun _ _ _ => rfl) hA _ (fun _ _ => boxList_isSchedule _ _) clock k
  exact ⟨_, _, s, z, rfl, e, fun f hfz => ⟨hf f hfz, (hf f hfz).period.rho ![10, 7, 0] ![1034, 7, 0] (by decide) (by decide) (by decide)⟩⟩

end Heracles
