import Verif.Props.StartFiles
import Verif.Props.SymmetryRuns
import Verif.Lemmas.Translate
import Verif.Spec.SquareFiles

/-!
# C109: the square problems that come with the code stay symmetric, from the input files to the result files
-/

namespace Heracles

variable {n : ℕ}

/-- What is proved of the files of a square with equal conditions on all sides, from a setup that treats both axes alike. -/
theorem square_files {p : ProgParams 2 n} {N : ℤ} {ng : ℤ} {Gr : (Cell → Fields 2 n ℝ) → Cell → Fin 2 → ℝ} {A : Machine 2 n} {order : List ℕ}
    (hpos : 0 < N) (hng : 2 ≤ ng) (hp : ParamsOk p order) (hall : order.Perm (List.range (2 * 2))) (hA : MachineOk ![N, N, 1] ng Gr A) {initL : Cell → List Cell}
    (hil : InitOrders 2 ![N, N, 1] ng A.dims initL) (clock : ℕ → Bool) (hgeom : p.hydro.geom = .cartesian) {b : BcKind} (hb : ∀ a f, p.hydro.bcs a f = b)
    (h0 : ∀ W C a, Gr W C a = 0) {lo hi : ℝ} {F : (Fin 3 → ℝ) → (Fin 3 → ℝ) → ℝ → InitCell 2 n} {T : Setup 2 n}
    (hT : ∀ q topo g grav c xl xm dv gr, CellData g grav c xl xm dv gr → T q topo g grav c ⟨0, 0, 0, 0⟩ = some (F xl xm dv))
    (hF : ∀ xl xm dv, (F (xl ∘ Equiv.swap 0 1) (xm ∘ Equiv.swap 0 1) dv).rho = (F xl xm dv).rho ∧ (F (xl ∘ Equiv.swap 0 1) (xm ∘ Equiv.swap 0 1) dv).u 0 = (F xl xm dv).u 1 ∧
      (F (xl ∘ Equiv.swap 0 1) (xm ∘ Equiv.swap 0 1) dv).u 1 = (F xl xm dv).u 0 ∧ (F (xl ∘ Equiv.swap 0 1) (xm ∘ Equiv.swap 0 1) dv).P = (F xl xm dv).P ∧
      (F (xl ∘ Equiv.swap 0 1) (xm ∘ Equiv.swap 0 1) dv).fx = (F xl xm dv).fx) (k : ℕ) :
    ∃ z, progRun p ![N, N, 1] (nghostOf 2 ng) (borderOf A.dims) A clock
        (progSetup p ![N, N, 1] (nghostOf 2 ng) (borderOf A.dims) A (cartRank A.dims) initL (regularNodes (nghostOf 2 ng) ![N, N, 1] ![lo, lo, 0] ![hi, hi, 1]) T) k = some z ∧
      ∀ f ∈ z.files, DiagonalFile N f.h := by
  have hposA : ∀ a, 0 < (![N, N, 1] : Cell) a := fun a => by
    fin_cases a
    · exact hpos
    · exact hpos
    · exact one_pos
  have hW := positional_state (F := fun xl xm dv _ => F xl xm dv) hT p.hydro.tr p.hydro.geom (fun a => (hposA a).le) (ng := ng) (by omega)
    (regularNodes (nghostOf 2 ng) ![N, N, 1] ![lo, lo, 0] ![hi, hi, 1]) (startGravity Gr (nghostOf 2 ng))
  obtain ⟨U, up, hI, e'⟩ := progSetup_eq (p := p) (fun a => (hposA a).le) (by omega) hA trivial hW hil
  rw [e']
  set X := regularNodes (nghostOf 2 ng) ![N, N, 1] ![lo, lo, 0] ![hi, hi, 1] with hXdef
  have hX01 : X 0 = X 1 := rfl
  have hnode : ∀ a i, X a i = (![lo, lo, 0] : Fin 3 → ℝ) a + ((i - nghostOf 2 ng a : ℤ) : ℝ) * (((![hi, hi, 1] : Fin 3 → ℝ) a - (![lo, lo, 0] : Fin 3 → ℝ) a) / (![N, N, 1] : Cell) a) := fun a i => rfl
  have hX : ∀ a i, X a (i + 1) - X a i = ((![hi, hi, 1] : Fin 3 → ℝ) a - (![lo, lo, 0] : Fin 3 → ℝ) a) / (![N, N, 1] : Cell) a := fun a i => by
    rw [hnode, hnode]; push_cast; ring
  have hτX : ∀ x i, X (Equiv.swap 0 1 x) i = X x i := fun x i => by
    fin_cases x
    · rfl
    · rfl
    · rfl
  have hτn : ∀ x, nghostOf 2 ng (Equiv.swap 0 1 x) = nghostOf 2 ng x := fun x => by
    fin_cases x <;> rfl
  obtain ⟨z, e, -, h⟩ := C81_symmetric (p := p) (σ := Equiv.swap 0 1) (τ := Equiv.swap 0 1) (X := X) (by norm_num) (by decide) hposA
    (fun x => by fin_cases x <;> rfl) hng hp hall hgeom (fun a f => by rw [hb, hb]) hA 0 (fun x i _ _ => by rw [hτX]; simp)
    (fun W C a _ => by rw [h0, h0]) (fun g hg => by
      have hl : (fun a => X a ((g ∘ Equiv.swap 0 1) a + nghostOf 2 ng a)) = (fun a => X a (g a + nghostOf 2 ng a)) ∘ Equiv.swap 0 1 := by
        funext a
        simp only [Function.comp_apply, hτX, hτn]
      have hm : (fun a => (X a ((g ∘ Equiv.swap 0 1) a + nghostOf 2 ng a) + X a ((g ∘ Equiv.swap 0 1) a + nghostOf 2 ng a + 1)) / 2) =
          (fun a => (X a (g a + nghostOf 2 ng a) + X a (g a + nghostOf 2 ng a + 1)) / 2) ∘ Equiv.swap 0 1 := by
        funext a
        simp only [Function.comp_apply, hτX, hτn]
      have hv : (globGrid p.hydro.tr p.hydro.geom X (startGravity Gr (nghostOf 2 ng))).dv (g ∘ Equiv.swap 0 1 + nghostOf 2 ng) =
          (globGrid p.hydro.tr p.hydro.geom X (startGravity Gr (nghostOf 2 ng))).dv (g + nghostOf 2 ng) := by
        rw [hgeom]
        exact dv_uniform hX _ _ _ _ _
      beta_reduce
      rw [hl, hm, hv]
      obtain ⟨q1, q2, q3, q4, q5⟩ := hF (fun a => X a (g a + nghostOf 2 ng a)) (fun a => (X a (g a + nghostOf 2 ng a) + X a (g a + nghostOf 2 ng a + 1)) / 2)
        ((globGrid p.hydro.tr p.hydro.geom X (startGravity Gr (nghostOf 2 ng))).dv (g + nghostOf 2 ng))
      refine ⟨Prim.ext q1.symm (funext fun i => ?_) q4.symm, q5.symm⟩
      fin_cases i
      · exact q3.symm
      · exact q2.symm) hI clock k
  refine ⟨z, e, fun f hf => ?_⟩
  have hbox : ∀ i j, 0 ≤ i → i < N → 0 ≤ j → j < N → inBox 0 ![N, N, 1] ![i, j, 0] := fun i j a1 a2 a3 a4 a => by
    fin_cases a
    · exact ⟨a1, a2⟩
    · exact ⟨a3, a4⟩
    · exact ⟨le_rfl, one_pos⟩
  have hsw : ∀ i j : ℤ, (![i, j, 0] : Cell) ∘ Equiv.swap 0 1 = ![j, i, 0] := fun i j => by
    funext a
    fin_cases a <;> rfl
  have key := fun i j a1 a2 a3 a4 => h f hf ![i, j, 0] (hbox i j a1 a2 a3 a4)
  simp only [hsw] at key
  refine ⟨fun i j a1 a2 a3 a4 => (key i j a1 a2 a3 a4).1, fun i j a1 a2 a3 a4 => ?_, fun i j a1 a2 a3 a4 => (key i j a1 a2 a3 a4).2.2.1,
    fun i j a1 a2 a3 a4 => (key i j a1 a2 a3 a4).2.2.2.1, fun i j a1 a2 a3 a4 => (key i j a1 a2 a3 a4).2.2.2.2.1, fun l i j a1 a2 a3 a4 => (key i j a1 a2 a3 a4).2.2.2.2.2 l⟩
  have := (key i j a1 a2 a3 a4).2.1 1
  rwa [Equiv.swap_apply_right] at this

/-! ### The files -/

/-- The lines of inputs/implosion_test.ini. -/
def implosionFile : List IniItem :=
  [.comment [] ';' " SPDX-FileCopyrightText: 2025 The HERACLES++ development team, see COPYRIGHT.md file".toList, .comment [] ';' [],
   .comment [] ';' " SPDX-License-Identifier: MIT".toList, .blank [],
   secLine "Grid", keyLine "Nx0_glob" "400", keyLine "Nx1_glob" "400", keyLine "Nx2_glob" "1", .blank [],
   keyLine "x0min" "0", keyLine "x0max" "0.3", keyLine "x1min" "0", keyLine "x1max" "0.3", .blank [],
   secLine "Run", keyLine "t_end" "2.5", keyLine "cfl" "0.4", .blank [],
   secLine "Output", keyLine "max_iter" "1000000", keyLine "time_frequency" "0.5", keyLine "prefix" "implosion", .blank [],
   secLine "Hydro", keyLine "reconstruction" "Minmod", keyLine "riemann_solver" "HLLC", .blank [],
   secLine "Boundary Condition", keyLine "BC" "Reflexive", .blank [],
   secLine "Perfect Gas", keyLine "gamma" "1.4", .blank [],
   secLine "Initialisation", keyLine "rho0" "1", keyLine "rho1" "0.125", keyLine "u0" "0", keyLine "P0" "1", keyLine "P1" "0.14"]

/-- The lines of inputs/sedov2d.ini. -/
def blastFile : List IniItem :=
  [.comment [] ';' " SPDX-FileCopyrightText: 2025 The HERACLES++ development team, see COPYRIGHT.md file".toList, .comment [] ';' [],
   .comment [] ';' " SPDX-License-Identifier: MIT".toList, .blank [],
   secLine "Grid", keyLine "Nx0_glob" "400", keyLine "Nx1_glob" "400", keyLine "Nx2_glob" "1", .blank [],
   keyLine "x0min" "-5", keyLine "x0max" "5", keyLine "x1min" "-5", keyLine "x1max" "5", .blank [],
   secLine "Run", keyLine "t_end" "0.025", keyLine "cfl" "0.4", .blank [],
   secLine "Output", keyLine "max_iter" "1000000", keyLine "time_frequency" "0.01", keyLine "prefix" "sedov_2D", .blank [],
   secLine "Hydro", keyLine "reconstruction" "Minmod", keyLine "riemann_solver" "HLLC", .blank [],
   secLine "Boundary Condition", keyLine "BC" "NullGradient", .blank [],
   secLine "Initialisation", keyLine "rho0" "1", keyLine "u0" "0", keyLine "E0" "1E-12", keyLine "E1" "1E5"]

theorem implosionFile_text : fileText implosionFile = linesText iniImplosionTest := by decide +kernel

theorem blastFile_text : fileText blastFile = linesText iniSedov2d := by decide +kernel

/-- The parameters of the file. -/
noncomputable def implosionRunParam : Param ℝ :=
  { problem := "ShockTube".toList, restart := false, restartFile := "None".toList, rmaxShift := 10 ^ 20, nx := ![400, 400, 1]
    gridType := "Regular".toList, ng := 2, xmin := ![0, 0, 0], xmax := ![3 / 10, 3 / 10, 1], shiftGrid := "Off".toList, deviceAware := false
    dims := ![0, 0, 0], tIni := 0, tEnd := 5 / 2, cfl := 2 / 5, maxIter := 1000000, iterFreq := 0, timeFreq := 1 / 2, timeFirst := 0 + 1 / 2
    directory := ".".toList, pfx := "implosion".toList, timeJob := 20, reconstruction := "Minmod".toList, riemann := "HLLC".toList
    gx := ![0, 0, 0], mass := 1, gamma := 7 / 5, mu := 1, bc := "Reflexive".toList, priority := "".toList, nfx := 0
    userStep := "Off".toList, pressureFix := "Off".toList, epsPf := 1 / 1000000 }

/-- The parameters of the file. -/
noncomputable def blastParam : Param ℝ :=
  { problem := "ShockTube".toList, restart := false, restartFile := "None".toList, rmaxShift := 10 ^ 20, nx := ![400, 400, 1]
    gridType := "Regular".toList, ng := 2, xmin := ![-5, -5, 0], xmax := ![5, 5, 1], shiftGrid := "Off".toList, deviceAware := false
    dims := ![0, 0, 0], tIni := 0, tEnd := 1 / 40, cfl := 2 / 5, maxIter := 1000000, iterFreq := 0, timeFreq := 1 / 100, timeFirst := 0 + 1 / 100
    directory := ".".toList, pfx := "sedov_2D".toList, timeJob := 20, reconstruction := "Minmod".toList, riemann := "HLLC".toList
    gx := ![0, 0, 0], mass := 1, gamma := 5 / 3, mu := 1, bc := "NullGradient".toList, priority := "".toList, nfx := 0
    userStep := "Off".toList, pressureFix := "Off".toList, epsPf := 1 / 1000000 }

/-- The run of the file. -/
noncomputable def implosionConfig (eos : EoS ℝ) : RunConfig 2 (EoS ℝ) ℝ :=
  { param := implosionRunParam, gas := eos, grid := some .regular, bcs := fun _ _ => .reflexive, order := [], lim := .minmod, sol := .hllc, step := .off, shift := false }

/-- The run of the file. -/
noncomputable def blastConfig (eos : EoS ℝ) : RunConfig 2 (EoS ℝ) ℝ :=
  { param := blastParam, gas := eos, grid := some .regular, bcs := fun _ _ => .nullGradient, order := [], lim := .minmod, sol := .hllc, step := .off, shift := false }

theorem implosionConfig_says (eos : EoS ℝ) : ParamSays implosionFile (implosionConfig eos).param where
  problem := .absent (by decide +kernel)
  restartFile := .absent (by decide +kernel)
  gridType := .absent (by decide +kernel)
  shiftGrid := .absent (by decide +kernel)
  directory := .absent (by decide +kernel)
  pfx := .of (v := "implosion".toList) (by decide +kernel) (by decide +kernel)
  reconstruction := .of (v := "Minmod".toList) (by decide +kernel) (by decide +kernel)
  riemann := .of (v := "HLLC".toList) (by decide +kernel) (by decide +kernel)
  bc := .of (v := "Reflexive".toList) (by decide +kernel) (by decide +kernel)
  priority := .absent (by decide +kernel)
  userStep := .absent (by decide +kernel)
  pressureFix := .absent (by decide +kernel)
  restart := Or.inl ⟨by decide +kernel, rfl⟩
  deviceAware := Or.inl ⟨by decide +kernel, rfl⟩
  rmaxShift := .absent (by decide +kernel)
  nx := fun a => by
    fin_cases a
    · exact SaysInt.of [4, 0, 0] (by decide) (by decide +kernel) (by decide)
    · exact SaysInt.of [4, 0, 0] (by decide) (by decide +kernel) (by decide)
    · exact SaysInt.of [1] (by decide) (by decide +kernel) (by decide)
  ng := .absent (by decide +kernel)
  xmin := fun a => by
    fin_cases a
    · exact SaysReal.of ⟨.none, [0], none, none⟩ ⟨by decide, by decide, by simp⟩ (by decide +kernel) (show _ = (0 : ℝ) by norm_num [Decimal.value, Decimal.fracDigits, Decimal.power, decimalValue, Sign.apply])
    · exact SaysReal.of ⟨.none, [0], none, none⟩ ⟨by decide, by decide, by simp⟩ (by decide +kernel) (show _ = (0 : ℝ) by norm_num [Decimal.value, Decimal.fracDigits, Decimal.power, decimalValue, Sign.apply])
    · exact .absent (by decide +kernel)
  xmax := fun a => by
    fin_cases a
    · exact SaysReal.of ⟨.none, [0], some [3], none⟩ ⟨by decide, by decide, by simp⟩ (by decide +kernel) (show _ = (3 / 10 : ℝ) by norm_num [Decimal.value, Decimal.fracDigits, Decimal.power, decimalValue, Sign.apply])
    · exact SaysReal.of ⟨.none, [0], some [3], none⟩ ⟨by decide, by decide, by simp⟩ (by decide +kernel) (show _ = (3 / 10 : ℝ) by norm_num [Decimal.value, Decimal.fracDigits, Decimal.power, decimalValue, Sign.apply])
    · exact .absent (by decide +kernel)
  dims := fun a => by fin_cases a <;> exact .absent (by decide +kernel)
  tIni := .absent (by decide +kernel)
  tEnd := SaysReal.of ⟨.none, [2], some [5], none⟩ ⟨by decide, by decide, by simp⟩ (by decide +kernel) (show _ = (5 / 2 : ℝ) by norm_num [Decimal.value, Decimal.fracDigits, Decimal.power, decimalValue, Sign.apply])
  cfl := SaysReal.of ⟨.none, [0], some [4], none⟩ (digits_wf (by decide) (by decide)) (by decide +kernel) (show _ = (2 / 5 : ℝ) by norm_num [Decimal.value, Decimal.fracDigits, Decimal.power, decimalValue, Sign.apply])
  maxIter := SaysInt.of [1, 0, 0, 0, 0, 0, 0] (by decide) (by decide +kernel) (by decide)
  iterFreq := .absent (by decide +kernel)
  timeFreq := SaysReal.of ⟨.none, [0], some [5], none⟩ ⟨by decide, by decide, by simp⟩ (by decide +kernel) (show _ = (1 / 2 : ℝ) by norm_num [Decimal.value, Decimal.fracDigits, Decimal.power, decimalValue, Sign.apply])
  timeFirst := .absent (by decide +kernel)
  timeJob := .absent (by decide +kernel)
  gx := fun a => by fin_cases a <;> exact .absent (by decide +kernel)
  mass := .absent (by decide +kernel)
  gamma := SaysReal.of ⟨.none, [1], some [4], none⟩ ⟨by decide, by decide, by simp⟩ (by decide +kernel) (show _ = (7 / 5 : ℝ) by norm_num [Decimal.value, Decimal.fracDigits, Decimal.power, decimalValue, Sign.apply])
  mu := .absent (by decide +kernel)
  nfx := .absent (by decide +kernel)
  epsPf := .absent (by decide +kernel)

theorem implosionConfig_faces : ∀ a f, saysFace implosionFile a f = "Reflexive".toList := by decide +kernel

theorem implosionConfig_choices (eos : EoS ℝ) {gas : ℝ → ℝ → Except String (EoS ℝ)} (hg : gas (7 / 5) 1 = .ok eos) : ChoicesSay gas implosionFile (implosionConfig eos) where
  gas := hg
  grid := Or.inl ⟨rfl, rfl⟩
  bcs := fun a a' f h => by
    rw [implosionConfig_faces]
    exact List.mem_cons_of_mem _ (List.mem_cons_of_mem _ List.mem_cons_self)
  lim := List.mem_cons_of_mem _ (List.mem_cons_of_mem _ List.mem_cons_self)
  sol := List.mem_cons_of_mem _ List.mem_cons_self
  step := List.mem_cons_self
  shift := show false = true ↔ "Off".toList = "UserDefined".toList by decide

theorem implosionFile_ok : FileOk implosionFile := simpleFile_ok (by decide +kernel) (by decide +kernel)

theorem blastConfig_says (eos : EoS ℝ) : ParamSays blastFile (blastConfig eos).param where
  problem := .absent (by decide +kernel)
  restartFile := .absent (by decide +kernel)
  gridType := .absent (by decide +kernel)
  shiftGrid := .absent (by decide +kernel)
  directory := .absent (by decide +kernel)
  pfx := .of (v := "sedov_2D".toList) (by decide +kernel) (by decide +kernel)
  reconstruction := .of (v := "Minmod".toList) (by decide +kernel) (by decide +kernel)
  riemann := .of (v := "HLLC".toList) (by decide +kernel) (by decide +kernel)
  bc := .of (v := "NullGradient".toList) (by decide +kernel) (by decide +kernel)
  priority := .absent (by decide +kernel)
  userStep := .absent (by decide +kernel)
  pressureFix := .absent (by decide +kernel)
  restart := Or.inl ⟨by decide +kernel, rfl⟩
  deviceAware := Or.inl ⟨by decide +kernel, rfl⟩
  rmaxShift := .absent (by decide +kernel)
  nx := fun a => by
    fin_cases a
    · exact SaysInt.of [4, 0, 0] (by decide) (by decide +kernel) (by decide)
    · exact SaysInt.of [4, 0, 0] (by decide) (by decide +kernel) (by decide)
    · exact SaysInt.of [1] (by decide) (by decide +kernel) (by decide)
  ng := .absent (by decide +kernel)
  xmin := fun a => by
    fin_cases a
    · exact SaysReal.of ⟨.minus, [5], none, none⟩ ⟨by decide, by decide, by simp⟩ (by decide +kernel) (show _ = (-5 : ℝ) by norm_num [Decimal.value, Decimal.fracDigits, Decimal.power, decimalValue, Sign.apply])
    · exact SaysReal.of ⟨.minus, [5], none, none⟩ ⟨by decide, by decide, by simp⟩ (by decide +kernel) (show _ = (-5 : ℝ) by norm_num [Decimal.value, Decimal.fracDigits, Decimal.power, decimalValue, Sign.apply])
    · exact .absent (by decide +kernel)
  xmax := fun a => by
    fin_cases a
    · exact SaysReal.of ⟨.none, [5], none, none⟩ ⟨by decide, by decide, by simp⟩ (by decide +kernel) (show _ = (5 : ℝ) by norm_num [Decimal.value, Decimal.fracDigits, Decimal.power, decimalValue, Sign.apply])
    · exact SaysReal.of ⟨.none, [5], none, none⟩ ⟨by decide, by decide, by simp⟩ (by decide +kernel) (show _ = (5 : ℝ) by norm_num [Decimal.value, Decimal.fracDigits, Decimal.power, decimalValue, Sign.apply])
    · exact .absent (by decide +kernel)
  dims := fun a => by fin_cases a <;> exact .absent (by decide +kernel)
  tIni := .absent (by decide +kernel)
  tEnd := SaysReal.of ⟨.none, [0], some [0, 2, 5], none⟩ ⟨by decide, by decide, by simp⟩ (by decide +kernel) (show _ = (1 / 40 : ℝ) by norm_num [Decimal.value, Decimal.fracDigits, Decimal.power, decimalValue, Sign.apply])
  cfl := SaysReal.of ⟨.none, [0], some [4], none⟩ (digits_wf (by decide) (by decide)) (by decide +kernel) (show _ = (2 / 5 : ℝ) by norm_num [Decimal.value, Decimal.fracDigits, Decimal.power, decimalValue, Sign.apply])
  maxIter := SaysInt.of [1, 0, 0, 0, 0, 0, 0] (by decide) (by decide +kernel) (by decide)
  iterFreq := .absent (by decide +kernel)
  timeFreq := SaysReal.of ⟨.none, [0], some [0, 1], none⟩ ⟨by decide, by decide, by simp⟩ (by decide +kernel) (show _ = (1 / 100 : ℝ) by norm_num [Decimal.value, Decimal.fracDigits, Decimal.power, decimalValue, Sign.apply])
  timeFirst := .absent (by decide +kernel)
  timeJob := .absent (by decide +kernel)
  gx := fun a => by fin_cases a <;> exact .absent (by decide +kernel)
  mass := .absent (by decide +kernel)
  gamma := .absent (by decide +kernel)
  mu := .absent (by decide +kernel)
  nfx := .absent (by decide +kernel)
  epsPf := .absent (by decide +kernel)

theorem blastConfig_faces : ∀ a f, saysFace blastFile a f = "NullGradient".toList := by decide +kernel

theorem blastConfig_choices (eos : EoS ℝ) {gas : ℝ → ℝ → Except String (EoS ℝ)} (hg : gas (5 / 3) 1 = .ok eos) : ChoicesSay gas blastFile (blastConfig eos) where
  gas := hg
  grid := Or.inl ⟨rfl, rfl⟩
  bcs := fun a a' f h => by
    rw [blastConfig_faces]
    exact List.mem_cons_self
  lim := List.mem_cons_of_mem _ (List.mem_cons_of_mem _ List.mem_cons_self)
  sol := List.mem_cons_of_mem _ List.mem_cons_self
  step := List.mem_cons_self
  shift := show false = true ↔ "Off".toList = "UserDefined".toList by decide

theorem blastFile_ok : FileOk blastFile := simpleFile_ok (by decide +kernel) (by decide +kernel)

theorem implosion_says : ImplosionSays implosionFile (⟨1, 1 / 8, 0, 1, 7 / 50⟩ : ImplosionParam ℝ) where
  rho0 := SaysReal.of ⟨.none, [1], none, none⟩ ⟨by decide, by decide, by simp⟩ (by decide +kernel) (show _ = (1 : ℝ) by norm_num [Decimal.value, Decimal.fracDigits, Decimal.power, decimalValue, Sign.apply])
  rho1 := SaysReal.of ⟨.none, [0], some [1, 2, 5], none⟩ ⟨by decide, by decide, by simp⟩ (by decide +kernel) (show _ = (1 / 8 : ℝ) by norm_num [Decimal.value, Decimal.fracDigits, Decimal.power, decimalValue, Sign.apply])
  u0 := SaysReal.of ⟨.none, [0], none, none⟩ ⟨by decide, by decide, by simp⟩ (by decide +kernel) (show _ = (0 : ℝ) by norm_num [Decimal.value, Decimal.fracDigits, Decimal.power, decimalValue, Sign.apply])
  P0 := SaysReal.of ⟨.none, [1], none, none⟩ ⟨by decide, by decide, by simp⟩ (by decide +kernel) (show _ = (1 : ℝ) by norm_num [Decimal.value, Decimal.fracDigits, Decimal.power, decimalValue, Sign.apply])
  P1 := SaysReal.of ⟨.none, [0], some [1, 4], none⟩ ⟨by decide, by decide, by simp⟩ (by decide +kernel) (show _ = (7 / 50 : ℝ) by norm_num [Decimal.value, Decimal.fracDigits, Decimal.power, decimalValue, Sign.apply])

theorem blast_says : Sedov2dSays blastFile ({ rho0 := 1, u0 := 0, P0 := 1, E0 := 1 / 10 ^ 12, E1 := 100000 } : Sedov2dParam ℝ) where
  rho0 := SaysReal.of ⟨.none, [1], none, none⟩ ⟨by decide, by decide, by simp⟩ (by decide +kernel) (show _ = (1 : ℝ) by norm_num [Decimal.value, Decimal.fracDigits, Decimal.power, decimalValue, Sign.apply])
  u0 := SaysReal.of ⟨.none, [0], none, none⟩ ⟨by decide, by decide, by simp⟩ (by decide +kernel) (show _ = (0 : ℝ) by norm_num [Decimal.value, Decimal.fracDigits, Decimal.power, decimalValue, Sign.apply])
  P0 := .absent (by decide +kernel)
  E0 := SaysReal.of ⟨.none, [1], none, some (true, .minus, [1, 2])⟩ ⟨by decide, by decide, by simp⟩ (by decide +kernel) (show _ = (1 / 10 ^ 12 : ℝ) by norm_num [Decimal.value, Decimal.fracDigits, Decimal.power, decimalValue, Sign.apply])
  E1 := SaysReal.of ⟨.none, [1], none, some (true, .none, [5])⟩ ⟨by decide, by decide, by simp⟩ (by decide +kernel) (show _ = (100000 : ℝ) by norm_num [Decimal.value, Decimal.fracDigits, Decimal.power, decimalValue, Sign.apply])

/-- The gas of inputs/sedov2d.ini: the file does not write the adiabatic index. -/
noncomputable def blastGas : Gas := ⟨5 / 3, 5 / 3 - 1, 1⟩

theorem blastGas_of : perfectGasOf (5 / 3) 1 = .ok (PerfectGas.toEoS blastGas) := by
  unfold perfectGasOf Gas.mk?
  rw [if_neg, if_neg]
  · rfl
  · norm_num [Dbl.isFinite, Dbl.leConst]
  · norm_num [Dbl.isFinite, Dbl.leConst]

/-- **C109, inputs/implosion_test.ini.** The text of the file is read, accepted and gives a run; the setup gets its parameters. On every process grid, whatever the order of the loops, after any number of turns of the main loop no array was
accessed out of bounds, and every result file is exactly symmetric about the diagonal of the square, however far the jet along the diagonal has gone. Partial: exact arithmetic, as in C107. -/
theorem C109_implosion_partial : ∃ values, iniReader (linesText iniImplosionTest) = .ok values ∧
    ∃ c s, configure 2 readReal perfectGasOf values = .ok c ∧ implosionParam readReal values = .ok s ∧
      ∀ (n : ℕ) (tr : Trig ℝ) (lo top : ℝ) (user : UserBc 2 n ℝ) (temp : ℝ → ℝ → ℝ), 0 ≤ top →
      ∀ (Gr : (Cell → Fields 2 n ℝ) → Cell → Fin 2 → ℝ) (A : Machine 2 n), (∀ W C a, Gr W C a = 0) → MachineOk c.param.nx c.param.ng Gr A →
      ∀ initL, InitOrders 2 c.param.nx c.param.ng A.dims initL → ∀ (clock : ℕ → Bool) (k : ℕ),
      let p := c.prog n tr .cartesian lo top user temp
      let nghost := nghostOf 2 c.param.ng
      ∃ z, progRun p c.param.nx nghost (borderOf A.dims) A clock (progSetup p c.param.nx nghost (borderOf A.dims) A (cartRank A.dims) initL
          (regularNodes nghost c.param.nx c.param.xmin c.param.xmax) fun _ _ g _ => s.init g) k = some z ∧ ∀ f ∈ z.files, DiagonalFile 400 f.h := by
  obtain ⟨values, hv⟩ := stored implosionFile_ok
  obtain ⟨o, ho, hc⟩ := C76_config (by norm_num) (by norm_num) hv (C76_real_cast (K := ℝ)) (implosionConfig_says _) (implosionConfig_choices _ windGas_of) (Or.inl rfl)
  refine ⟨values, implosionFile_text ▸ hv.read, _, _, hc, (C89_setup_params hv (C76_real_cast (K := ℝ))).2.2.2.2.2.1 _ implosion_says, ?_⟩
  intro n tr lo top user temp htop Gr A h0 hA initL hil clock k p nghost
  exact square_files (n := n) (p := p) (order := o) (ng := 2) (N := 400) (Gr := Gr) (A := A) (initL := initL) (lo := 0) (hi := 3 / 10) (b := .reflexive)
    (F := fun _ x _ => open Classical in if x 0 + x 1 > 0.15 then ⟨1, fun _ => 0, 1, 0⟩ else ⟨1 / 8, fun _ => 0, 7 / 50, 0⟩)
    (T := fun _ _ g _ => ImplosionParam.init ⟨1, 1 / 8, 0, 1, 7 / 50⟩ g) (by norm_num) le_rfl
    ⟨fun a f => by show BcKind.reflexive ≠ _; decide, fun id hid => by simpa using ho.mem_iff.1 hid, rfl, fun h => UserStepKind.noConfusion h, htop⟩ ho hA hil clock
    rfl (fun _ _ => rfl) h0
    (fun q topo g grav c xl xm dv gr h => by
      simp only [ImplosionParam.init, implosionInit, h.xc, Option.bind_eq_bind, Option.bind_some]
      split <;> rfl)
    (fun xl xm dv => by
      simp only [Function.comp_apply, Equiv.swap_apply_left, Equiv.swap_apply_right, add_comm (xm 1)]
      split <;> simp) k

/-- **C109, inputs/sedov2d.ini.** As for the implosion: the file is read and accepted, the setup (in Cartesian coordinates, with the functions `eos` of any equation of state) accepts it, and every result file is exactly symmetric about
the diagonal of the square. (It is not centred, nor need it be symmetric about the axes: C77, C92.) Partial: exact arithmetic. -/
theorem C109_sedov_partial : ∃ values, iniReader (linesText iniSedov2d) = .ok values ∧
    ∃ c s, configure 2 readReal perfectGasOf values = .ok c ∧ sedov2dParam readReal values = .ok s ∧
      ∀ (n : ℕ) (eos : SetupEos) (tr : Trig ℝ) (lo top : ℝ) (user : UserBc 2 n ℝ) (temp : ℝ → ℝ → ℝ), 0 ≤ top →
      ∃ T : GridData ℝ → InitKernel 2 n, (∀ g, s.init .cartesian eos g = .ok (T g)) ∧
      ∀ (Gr : (Cell → Fields 2 n ℝ) → Cell → Fin 2 → ℝ) (A : Machine 2 n), (∀ W C a, Gr W C a = 0) → MachineOk c.param.nx c.param.ng Gr A →
      ∀ initL, InitOrders 2 c.param.nx c.param.ng A.dims initL → ∀ (clock : ℕ → Bool) (k : ℕ),
      let p := c.prog n tr .cartesian lo top user temp
      let nghost := nghostOf 2 c.param.ng
      ∃ z, progRun p c.param.nx nghost (borderOf A.dims) A clock (progSetup p c.param.nx nghost (borderOf A.dims) A (cartRank A.dims) initL
          (regularNodes nghost c.param.nx c.param.xmin c.param.xmax) fun _ _ g _ => T g) k = some z ∧ ∀ f ∈ z.files, DiagonalFile 400 f.h := by
  obtain ⟨values, hv⟩ := stored blastFile_ok
  obtain ⟨o, ho, hc⟩ := C76_config (by norm_num) (by norm_num) hv (C76_real_cast (K := ℝ)) (blastConfig_says _) (blastConfig_choices _ blastGas_of) (Or.inl rfl)
  refine ⟨values, blastFile_text ▸ hv.read, _, _, hc, (C89_setup_params hv (C76_real_cast (K := ℝ))).2.2.2.2.2.2.2.2.2.2.1 _ blast_says, ?_⟩
  intro n eos tr lo top user temp htop
  refine ⟨fun g => sedov2dKernel eos 1 0 (1 / 10 ^ 12) 100000 g, fun g => rfl, ?_⟩
  intro Gr A h0 hA initL hil clock k p nghost
  exact square_files (n := n) (p := p) (order := o) (ng := 2) (N := 400) (Gr := Gr) (A := A) (initL := initL) (lo := -5) (hi := 5) (b := .nullGradient)
    (F := fun x _ dv => ⟨1, fun _ => 0, open Classical in if Real.sqrt (x 0 * x 0 + x 1 * x 1) < 0.025 then eos.presFromEvol 1 (100000 / dv) else eos.presFromEvol 1 (1 / 10 ^ 12 / dv), 0⟩)
    (T := fun _ _ g _ => sedov2dKernel eos 1 0 (1 / 10 ^ 12) 100000 g) (by norm_num) le_rfl
    ⟨fun a f => by show BcKind.nullGradient ≠ _; decide, fun id hid => by simpa using ho.mem_iff.1 hid, rfl, fun h => UserStepKind.noConfusion h, htop⟩ ho hA hil clock
    rfl (fun _ _ => rfl) h0
    (fun q topo g grav c xl xm dv gr h => by
      simp only [sedov2dKernel, h.x, h.dv, Option.bind_eq_bind, Option.bind_some]
      rfl)
    (fun xl xm dv => by
      simp only [Function.comp_apply, Equiv.swap_apply_left, Equiv.swap_apply_right, add_comm (xl 1 * xl 1)]
      simp) k

/-- inputs/implosion_test.ini on 4 x 2 processes: a run of the text, and cells (3, 390) and (390, 3) of every file agree. -/
example (tr : Trig ℝ) (user : UserBc 2 1 ℝ) (temp : ℝ → ℝ → ℝ) (clock : ℕ → Bool) (k : ℕ) :
    ∃ (c : RunConfig 2 (EoS ℝ) ℝ) (A : Machine 2 1) (s : ImplosionParam ℝ) (z : ProgState 2 1), A.dims = ![4, 2, 1] ∧
      progRun (c.prog 1 tr .cartesian 0 (10 ^ 308) user temp) ![400, 400, 1] (nghostOf 2 2) (borderOf A.dims) A clock
        (progSetup (c.prog 1 tr .cartesian 0 (10 ^ 308) user temp) ![400, 400, 1] (nghostOf 2 2) (borderOf A.dims) A (cartRank A.dims)
          (fun r => boxList (nghostOf 2 2) (fun a => localExt ![400, 400, 1] A.dims (nghostOf 2 2) r a - nghostOf 2 2 a))
          (regularNodes (nghostOf 2 2) ![400, 400, 1] ![0, 0, 0] ![3 / 10, 3 / 10, 1]) fun _ _ g _ => s.init g) k = some z ∧
      ∀ f ∈ z.files, f.h.rho.at ![3, 390, 0] = f.h.rho.at ![390, 3, 0] ∧ (f.h.u 0).at ![3, 390, 0] = (f.h.u 1).at ![390, 3, 0] := by
  have hN : ∀ a, 0 ≤ (![400, 400, 1] : Cell) a := by decide
  have hA := mkMachine_ok (d := 2) (n := 1) (ng := 2) hN (dims := ![4, 2, 1]) (by decide) 0 (by norm_num) (by
    intro a ha r h0 h1
    fin_cases a
    · have h1 : r < 4 := h1
      interval_cases r <;> decide
    · have h1 : r < 2 := h1
      interval_cases r <;> decide
    · simp at ha)
  obtain ⟨values, hv, c, s, hc, -, h⟩ := C109_implosion_partial
  obtain ⟨values', hv'⟩ := stored implosionFile_ok
  obtain ⟨o, -, hc'⟩ := C76_config (by norm_num) (by norm_num) hv' (C76_real_cast (K := ℝ)) (implosionConfig_says _) (implosionConfig_choices _ windGas_of) (Or.inl rfl)
  obtain rfl : values = values' := Except.ok.inj (hv.symm.trans (implosionFile_text ▸ hv'.read))
  obtain rfl := Except.ok.inj (hc.symm.trans hc')
  obtain ⟨z, e, hf⟩ := h 1 tr 0 (10 ^ 308) user temp (by norm_num) (fun _ _ _ => 0) _ (fun _ _ _ => rfl) hA _ (fun _ _ => boxList_isSchedule _ _) clock k
  exact ⟨_, _, s, z, rfl, e, fun f hfz => ⟨(hf f hfz).rho 3 390 (by norm_num) (by norm_num) (by norm_num) (by norm_num), (hf f hfz).u 3 390 (by norm_num) (by norm_num) (by norm_num) (by norm_num)⟩⟩

/-- inputs/sedov2d.ini on 2 x 3 processes, with the gas of the file for the setup. -/
example (tr : Trig ℝ) (user : UserBc 2 0 ℝ) (temp : ℝ → ℝ → ℝ) (eos : SetupEos) (clock : ℕ → Bool) (k : ℕ) :
    ∃ (c : RunConfig 2 (EoS ℝ) ℝ) (A : Machine 2 0) (s : Sedov2dParam ℝ) (T : GridData ℝ → InitKernel 2 0) (z : ProgState 2 0), A.dims = ![2, 3, 1] ∧
      (∀ g, s.init .cartesian eos g = .ok (T g)) ∧
      progRun (c.prog 0 tr .cartesian 0 (10 ^ 308) user temp) ![400, 400, 1] (nghostOf 2 2) (borderOf A.dims) A clock
        (progSetup (c.prog 0 tr .cartesian 0 (10 ^ 308) user temp) ![400, 400, 1] (nghostOf 2 2) (borderOf A.dims) A (cartRank A.dims)
          (fun r => boxList (nghostOf 2 2) (fun a => localExt ![400, 400, 1] A.dims (nghostOf 2 2) r a - nghostOf 2 2 a))
          (regularNodes (nghostOf 2 2) ![400, 400, 1] ![-5, -5, 0] ![5, 5, 1]) fun _ _ g _ => T g) k = some z ∧
      ∀ f ∈ z.files, f.h.P.at ![250, 201, 0] = f.h.P.at ![201, 250, 0] := by
  have hN : ∀ a, 0 ≤ (![400, 400, 1] : Cell) a := by decide
  have hA := mkMachine_ok (d := 2) (n := 0) (ng := 2) hN (dims := ![2, 3, 1]) (by decide) 0 (by norm_num) (by
    intro a ha r h0 h1
    fin_cases a
    · have h1 : r < 2 := h1
      interval_cases r <;> decide
    · have h1 : r < 3 := h1
      interval_cases r <;> decide
    · simp at ha)
  obtain ⟨values, hv, c, s, hc, -, h⟩ := C109_sedov_partial
  obtain ⟨values', hv'⟩ := stored blastFile_ok
  obtain ⟨o, -, hc'⟩ := C76_config (by norm_num) (by norm_num) hv' (C76_real_cast (K := ℝ)) (blastConfig_says _) (blastConfig_choices _ blastGas_of) (Or.inl rfl)
  obtain rfl : values = values' := Except.ok.inj (hv.symm.trans (blastFile_text ▸ hv'.read))
  obtain rfl := Except.ok.inj (hc.symm.trans hc')
  obtain ⟨T, hT, h⟩ := h 0 eos tr 0 (10 ^ 308) user temp (by norm_num)
  obtain ⟨z, e, hf⟩ := h (fun _ _ _ => 0) _ (fun _ _ _ => rfl) hA _ (fun _ _ => boxList_isSchedule _ _) clock k
  exact ⟨_, _, s, T, z, rfl, hT, e, fun f hfz => (hf f hfz).P 250 201 (by norm_num) (by norm_num) (by norm_num) (by norm_num)⟩

end Heracles
