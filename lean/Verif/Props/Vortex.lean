import Verif.Props.StartFiles
import Verif.Props.SymmetryRuns
import Verif.Props.Gresho
import Verif.Props.KelvinHelmholtz
import Verif.Lemmas.Translate
import Verif.Spec.Vortex

/-!
# C111: what a quarter turn leaves as it is stays so; the Gresho vortex from the input file to the result files
-/

namespace Heracles

variable {n : ℕ}

theorem forall₂_comp {α : Type} {R Q : α → α → Prop} {l l' l'' : List α} (h : List.Forall₂ R l l') (h' : List.Forall₂ Q l' l'') :
    List.Forall₂ (fun a c => ∃ b, R a b ∧ Q b c) l l'' := by
  induction h generalizing l'' with
  | nil => cases h'; exact .nil
  | cons h1 _ ih =>
    cases h' with
    | cons h2 h3 => exact .cons ⟨_, h1, h2⟩ (ih h3)

/-- **C111.** A run in a square with the same boundary condition on all sides, nodes placed alike on both axes and symmetric about the centre, with
HLL or the low-Mach solver, any reconstruction, no gravity and no pressure fix, on any process grid: if a quarter turn about the centre leaves the initial state as it is,
then it leaves every result file as it is, after any number of turns of the main loop. Partial: exact arithmetic; HLLC and gravity towards the centre are not covered. -/
theorem C111_quarter_turn_partial {p : ProgParams 2 n} {N ng : ℤ} {X : Fin 3 → ℤ → ℝ} {Gr : (Cell → Fields 2 n ℝ) → Cell → Fin 2 → ℝ} {A : Machine 2 n} {order : List ℕ}
    {S : Cell → Prim 2 ℝ} {Fx : Cell → Fin n → ℝ} (hpos : 0 < N) (hng : 2 ≤ ng) (hp : ParamsOk p order) (hall : order.Perm (List.range (2 * 2)))
    (hA : MachineOk ![N, N, 1] ng Gr A) (clock : ℕ → Bool) (hgeom : p.hydro.geom = .cartesian) {b : BcKind} (hb : ∀ a f, p.hydro.bcs a f = b)
    (he : p.hydro.eos.Lawful) (hsol : p.hydro.sol = .hll ∨ p.hydro.sol = .splitting) (hfix : p.fix = none) (h0 : ∀ W C a, Gr W C a = 0) {L : ℝ}
    (hX : ∀ i, 0 ≤ i → i ≤ N + 2 * ng → X 0 i = L - X 0 (N + 2 * ng - i)) (hX1 : ∀ i, 0 ≤ i → i ≤ N + 2 * ng → X 1 i = X 0 i)
    (hS : ∀ i j, 0 ≤ i → i < N → 0 ≤ j → j < N → (S ![N - 1 - j, i, 0]).rho = (S ![i, j, 0]).rho ∧ (S ![N - 1 - j, i, 0]).u 0 = -(S ![i, j, 0]).u 1 ∧
      (S ![N - 1 - j, i, 0]).u 1 = (S ![i, j, 0]).u 0 ∧ (S ![N - 1 - j, i, 0]).P = (S ![i, j, 0]).P ∧ Fx ![N - 1 - j, i, 0] = Fx ![i, j, 0])
    {U : Cell → View Cell (Fields 2 n ℝ)} {up : Cell → View Cell (VelPres 2 ℝ)} (hi : InitOf ![N, N, 1] ng A S Fx U up) (k : ℕ) :
    ∃ z, progRun p ![N, N, 1] (nghostOf 2 ng) (borderOf A.dims) A clock
        (progFresh p ![N, N, 1] (nghostOf 2 ng) (borderOf A.dims) A X U up) k = some z ∧ ∀ f ∈ z.files, TurnedFile N f.h := by
  have hposA : ∀ a, 0 < (![N, N, 1] : Cell) a := fun a => by
    fin_cases a
    · exact hpos
    · exact hpos
    · exact one_pos
  have hcell : ∀ g : Cell, inBox 0 ![N, N, 1] g → g = ![g 0, g 1, 0] := fun g hg => by
    have h2 : 0 ≤ g 2 ∧ g 2 < 1 := hg 2
    funext a
    fin_cases a
    · rfl
    · rfl
    · show g 2 = 0
      omega
  have hrs : ∀ i j : ℤ, reflect 0 N ((![i, j, 0] : Cell) ∘ Equiv.swap 0 1) = ![N - 1 - j, i, 0] := fun i j => by
    funext a
    fin_cases a <;> simp [reflect, Equiv.swap_apply_def]
  -- the run seen in a mirror
  obtain ⟨z, z', e, e', h⟩ := C81_mirror_any_partial (p := p) (p' := p) (b := (0 : Fin 2)) (nx := ![N, N, 1]) (X := X) (X' := X) (S := S) (Fx := Fx)
    (S' := fun g => (S (reflect 0 N g)).flip 0) (Fx' := fun g => Fx (reflect 0 N g)) (by norm_num) hposA hng hp hp hall hall
    ⟨rfl, rfl, rfl, rfl, rfl, hgeom, hgeom, fun a f => by rw [hb, hb], rfl, rfl, rfl, hfix, hfix, rfl⟩ he
    (by rcases hsol with h | h <;> rw [h] <;> decide) hA hA L hX (fun _ _ _ _ _ => rfl) (fun W C a _ => by rw [h0, h0, mul_zero]) (fun g _ => ⟨rfl, rfl⟩) hi
    (initArrays_ok _ _) clock k
  -- the mirrored run with exchanged axes is the run
  obtain ⟨w', w, q', q, h'⟩ := C81_exchange (p := p) (p' := p) (σ := Equiv.swap 0 1) (τ := Equiv.swap 0 1) (nx := ![N, N, 1]) (nx' := ![N, N, 1]) (X := X) (X' := X)
    (S := fun g => (S (reflect 0 N g)).flip 0) (Fx := fun g => Fx (reflect 0 N g)) (S' := S) (Fx' := Fx) (by norm_num) (by decide) hposA
    (fun x => by fin_cases x <;> rfl) hng hp hp hall hall ⟨rfl, rfl, rfl, rfl, rfl, hgeom, hgeom, fun a f => by rw [hb, hb], rfl, rfl, rfl, rfl, rfl⟩ hA hA 0
    (fun x i h1 h2 => by
      fin_cases x
      · simpa using hX1 i h1 h2
      · simpa using (hX1 i h1 h2).symm
      · exact (add_zero _).symm)
    (fun W C a _ => by rw [h0, h0]) (fun g hg => by
      have hc := hcell g hg
      obtain ⟨q1, q2, q3, q4, q5⟩ := hS (g 0) (g 1) (hg 0).1 (hg 0).2 (hg 1).1 (hg 1).2
      beta_reduce
      rw [hc, hrs]
      refine ⟨Prim.ext q1.symm (funext fun i => ?_) q4.symm, q5.symm⟩
      fin_cases i
      · simp [Prim.perm, Prim.flip, q3]
      · simp [Prim.perm, Prim.flip, q2]) (initArrays_ok _ _) hi clock k
  obtain rfl := Option.some.inj (e'.symm.trans q')
  obtain rfl := Option.some.inj (e.symm.trans q)
  refine ⟨z, e, fun f hf => ?_⟩
  obtain ⟨f', s1, s2⟩ := forall₂_diag (forall₂_comp h.files h'.files) f hf
  have hbox : ∀ i j, 0 ≤ i → i < N → 0 ≤ j → j < N → inBox 0 ![N, N, 1] ![i, j, 0] := fun i j a1 a2 a3 a4 a => by
    fin_cases a
    · exact ⟨a1, a2⟩
    · exact ⟨a3, a4⟩
    · exact ⟨le_rfl, one_pos⟩
  have hsw : ∀ i j : ℤ, (![i, j, 0] : Cell) ∘ Equiv.swap 0 1 = ![j, i, 0] := fun i j => by
    funext a
    fin_cases a <;> rfl
  have hre : ∀ i j : ℤ, reflect (ax (0 : Fin 2)) ((![N, N, 1] : Cell) (ax (0 : Fin 2))) (![j, i, 0] : Cell) = ![N - 1 - j, i, 0] := fun i j => by
    rw [← hsw i j]
    exact hrs i j
  refine ⟨fun i j a1 a2 a3 a4 => ?_, fun i j a1 a2 a3 a4 => ?_, fun i j a1 a2 a3 a4 => ?_, fun i j a1 a2 a3 a4 => ?_, fun i j a1 a2 a3 a4 => ?_,
    fun i j a1 a2 a3 a4 => ?_, fun l i j a1 a2 a3 a4 => ?_⟩
  · have t1 := s1.rho _ (hbox j i a3 a4 a1 a2)
    have t2 := s2.rho _ (hbox i j a1 a2 a3 a4)
    simp only [hre, hsw] at t1 t2
    exact (t2.trans t1).symm
  · have t1 := s1.u _ (hbox j i a3 a4 a1 a2) 0
    have t2 := s2.u _ (hbox i j a1 a2 a3 a4) 1
    simp only [hre, hsw, flipVec, permVec, Equiv.symm_swap, Equiv.swap_apply_right, if_true] at t1 t2
    show (f.h.u 0).val _ = -(f.h.u 1).val _
    exact neg_eq_iff_eq_neg.1 (t2.trans t1).symm
  · have t1 := s1.u _ (hbox j i a3 a4 a1 a2) 1
    have t2 := s2.u _ (hbox i j a1 a2 a3 a4) 0
    simp only [hre, hsw, flipVec, permVec, Equiv.symm_swap, Equiv.swap_apply_left, if_neg (by decide : ¬(1 : Fin 2) = 0)] at t1 t2
    exact (t2.trans t1).symm
  · have t1 := s1.P _ (hbox j i a3 a4 a1 a2)
    have t2 := s2.P _ (hbox i j a1 a2 a3 a4)
    simp only [hre, hsw] at t1 t2
    exact (t2.trans t1).symm
  · have t1 := s1.E _ (hbox j i a3 a4 a1 a2)
    have t2 := s2.E _ (hbox i j a1 a2 a3 a4)
    simp only [hre, hsw] at t1 t2
    exact (t2.trans t1).symm
  · have t1 := s1.T _ (hbox j i a3 a4 a1 a2)
    have t2 := s2.T _ (hbox i j a1 a2 a3 a4)
    simp only [hre, hsw] at t1 t2
    exact (t2.trans t1).symm
  · have t1 := s1.fx _ (hbox j i a3 a4 a1 a2) l
    have t2 := s2.fx _ (hbox i j a1 a2 a3 a4) l
    simp only [hre, hsw] at t1 t2
    exact (t2.trans t1).symm

/-- What is proved of the files of a square about the origin from a setup that a quarter turn leaves as it is. -/
theorem turned_files {p : ProgParams 2 n} {N : ℤ} {ng : ℤ} {Gr : (Cell → Fields 2 n ℝ) → Cell → Fin 2 → ℝ} {A : Machine 2 n} {order : List ℕ}
    (hpos : 0 < N) (hng : 2 ≤ ng) (hp : ParamsOk p order) (hall : order.Perm (List.range (2 * 2))) (hA : MachineOk ![N, N, 1] ng Gr A) {initL : Cell → List Cell}
    (hil : InitOrders 2 ![N, N, 1] ng A.dims initL) (clock : ℕ → Bool) (hgeom : p.hydro.geom = .cartesian) {b : BcKind} (hb : ∀ a f, p.hydro.bcs a f = b)
    (he : p.hydro.eos.Lawful) (hsol : p.hydro.sol = .hll ∨ p.hydro.sol = .splitting) (hfix : p.fix = none) (h0 : ∀ W C a, Gr W C a = 0) {h : ℝ}
    {F : ℝ → ℝ → InitCell 2 n} {T : Setup 2 n} (hT : ∀ q topo g grav c xl xm dv gr, CellData g grav c xl xm dv gr → T q topo g grav c ⟨0, 0, 0, 0⟩ = some (F (xm 0) (xm 1)))
    (hF : ∀ x y, (F (-y) x).rho = (F x y).rho ∧ (F (-y) x).u 0 = -(F x y).u 1 ∧ (F (-y) x).u 1 = (F x y).u 0 ∧ (F (-y) x).P = (F x y).P ∧ (F (-y) x).fx = (F x y).fx)
    (k : ℕ) :
    ∃ z, progRun p ![N, N, 1] (nghostOf 2 ng) (borderOf A.dims) A clock
        (progSetup p ![N, N, 1] (nghostOf 2 ng) (borderOf A.dims) A (cartRank A.dims) initL (regularNodes (nghostOf 2 ng) ![N, N, 1] ![-h, -h, 0] ![h, h, 1]) T) k = some z ∧
      ∀ f ∈ z.files, TurnedFile N f.h := by
  have hposA : ∀ a, 0 < (![N, N, 1] : Cell) a := fun a => by
    fin_cases a
    · exact hpos
    · exact hpos
    · exact one_pos
  have hN : (N : ℝ) ≠ 0 := by exact_mod_cast hpos.ne'
  have hW := positional_state (F := fun _ xm _ _ => F (xm 0) (xm 1)) hT p.hydro.tr p.hydro.geom (fun a => (hposA a).le) (ng := ng) (by omega)
    (regularNodes (nghostOf 2 ng) ![N, N, 1] ![-h, -h, 0] ![h, h, 1]) (startGravity Gr (nghostOf 2 ng))
  obtain ⟨U, up, hI, e'⟩ := progSetup_eq (p := p) (fun a => (hposA a).le) (by omega) hA trivial hW hil
  rw [e']
  set X := regularNodes (nghostOf 2 ng) ![N, N, 1] ![-h, -h, 0] ![h, h, 1] with hXdef
  have hnode : ∀ i, X 0 i = -h + ((i - ng : ℤ) : ℝ) * ((h - -h) / N) := fun i => rfl
  have hnode' : ∀ i, X 1 i = -h + ((i - ng : ℤ) : ℝ) * ((h - -h) / N) := fun i => rfl
  refine C111_quarter_turn_partial (L := 0) hpos hng hp hall hA clock hgeom hb he hsol hfix h0 (fun i _ _ => ?_) (fun i _ _ => rfl) (fun i j _ _ _ _ => ?_) hI k
  · rw [hnode, hnode]
    push_cast
    field_simp
    ring
  · have m0 : (X 0 (N - 1 - j + ng) + X 0 (N - 1 - j + ng + 1)) / 2 = -((X 1 (j + ng) + X 1 (j + ng + 1)) / 2) := by
      rw [hnode, hnode, hnode', hnode']
      push_cast
      field_simp
      ring
    have m1 : (X 1 (i + ng) + X 1 (i + ng + 1)) / 2 = (X 0 (i + ng) + X 0 (i + ng + 1)) / 2 := rfl
    have q := hF ((X 0 (i + ng) + X 0 (i + ng + 1)) / 2) ((X 1 (j + ng) + X 1 (j + ng + 1)) / 2)
    rw [← m0, ← m1] at q
    exact q

/-! ### The file -/

/-- The lines of inputs/gresho_vortex.ini with the names of the faces that the program knows; the file that comes with the code writes other
names and is refused (`C89_gresho_vortex_violated`). -/
def vortexFile : List IniItem :=
  [.comment [] ';' " SPDX-FileCopyrightText: 2025 The HERACLES++ development team, see COPYRIGHT.md file".toList, .comment [] ';' [],
   .comment [] ';' " SPDX-License-Identifier: MIT".toList, .blank [],
   secLine "Grid", keyLine "Nx0_glob" "100", keyLine "Nx1_glob" "100", keyLine "Nx2_glob" "1", .blank [],
   keyLine "x0min" "-1", keyLine "x0max" "1", keyLine "x1min" "-1", keyLine "x1max" "1", .blank [],
   secLine "Run", keyLine "t_end" "0.001", keyLine "cfl" "0.4", .blank [],
   secLine "Output", keyLine "max_iter" "100000", keyLine "iter_frequency" "1000", .blank [],
   secLine "Hydro", keyLine "reconstruction" "Constant", keyLine "riemann_solver" "Low Mach", .blank [],
   secLine "Boundary Condition", keyLine "BC" "NullGradient", keyLine "Priority" "X_right X_left Y_left Y_right", .blank [],
   secLine "Perfect Gas", keyLine "gamma" "1.4", .blank [],
   secLine "Initialisation", keyLine "rho0" "1", keyLine "u0" "0", keyLine "Ma" "0.00001"]

/-- inputs/gresho_vortex.ini with one line corrected. -/
def iniGreshoVortexCorrected : List String :=
  iniGreshoVortex.map fun l => if l = "Priority = X0_right X0_left X1_left X1_right" then "Priority = X_right X_left Y_left Y_right" else l

theorem vortexFile_text : fileText vortexFile = linesText iniGreshoVortexCorrected := by decide +kernel

/-- The parameters of the file. -/
noncomputable def vortexParam : Param ℝ :=
  { problem := "ShockTube".toList, restart := false, restartFile := "None".toList, rmaxShift := 10 ^ 20, nx := ![100, 100, 1]
    gridType := "Regular".toList, ng := 2, xmin := ![-1, -1, 0], xmax := ![1, 1, 1], shiftGrid := "Off".toList, deviceAware := false
    dims := ![0, 0, 0], tIni := 0, tEnd := 1 / 1000, cfl := 2 / 5, maxIter := 100000, iterFreq := 1000, timeFreq := 0, timeFirst := 0 + 0
    directory := ".".toList, pfx := "result".toList, timeJob := 20, reconstruction := "Constant".toList, riemann := "Low Mach".toList
    gx := ![0, 0, 0], mass := 1, gamma := 7 / 5, mu := 1, bc := "NullGradient".toList, priority := "X_right X_left Y_left Y_right".toList, nfx := 0
    userStep := "Off".toList, pressureFix := "Off".toList, epsPf := 1 / 1000000 }

/-- The run of the file. -/
noncomputable def vortexConfig (eos : EoS ℝ) : RunConfig 2 (EoS ℝ) ℝ :=
  { param := vortexParam, gas := eos, grid := some .regular, bcs := fun _ _ => .nullGradient, order := [], lim := .constant, sol := .splitting, step := .off, shift := false }

theorem vortexConfig_says (eos : EoS ℝ) : ParamSays vortexFile (vortexConfig eos).param where
  problem := .absent (by decide +kernel)
  restartFile := .absent (by decide +kernel)
  gridType := .absent (by decide +kernel)
  shiftGrid := .absent (by decide +kernel)
  directory := .absent (by decide +kernel)
  pfx := .absent (by decide +kernel)
  reconstruction := .of (v := "Constant".toList) (by decide +kernel) (by decide +kernel)
  riemann := .of (v := "Low Mach".toList) (by decide +kernel) (by decide +kernel)
  bc := .of (v := "NullGradient".toList) (by decide +kernel) (by decide +kernel)
  priority := .of (v := "X_right X_left Y_left Y_right".toList) (by decide +kernel) (by decide +kernel)
  userStep := .absent (by decide +kernel)
  pressureFix := .absent (by decide +kernel)
  restart := Or.inl ⟨by decide +kernel, rfl⟩
  deviceAware := Or.inl ⟨by decide +kernel, rfl⟩
  rmaxShift := .absent (by decide +kernel)
  nx := fun a => by
    fin_cases a
    · exact SaysInt.of [1, 0, 0] (by decide) (by decide +kernel) (by decide)
    · exact SaysInt.of [1, 0, 0] (by decide) (by decide +kernel) (by decide)
    · exact SaysInt.of [1] (by decide) (by decide +kernel) (by decide)
  ng := .absent (by decide +kernel)
  xmin := fun a => by
    fin_cases a
    · exact SaysReal.of ⟨.minus, [1], none, none⟩ ⟨by decide, by decide, by simp⟩ (by decide +kernel) (show _ = (-1 : ℝ) by norm_num [Decimal.value, Decimal.fracDigits, Decimal.power, decimalValue, Sign.apply])
    · exact SaysReal.of ⟨.minus, [1], none, none⟩ ⟨by decide, by decide, by simp⟩ (by decide +kernel) (show _ = (-1 : ℝ) by norm_num [Decimal.value, Decimal.fracDigits, Decimal.power, decimalValue, Sign.apply])
    · exact .absent (by decide +kernel)
  xmax := fun a => by
    fin_cases a
    · exact SaysReal.of ⟨.none, [1], none, none⟩ ⟨by decide, by decide, by simp⟩ (by decide +kernel) (show _ = (1 : ℝ) by norm_num [Decimal.value, Decimal.fracDigits, Decimal.power, decimalValue, Sign.apply])
    · exact SaysReal.of ⟨.none, [1], none, none⟩ ⟨by decide, by decide, by simp⟩ (by decide +kernel) (show _ = (1 : ℝ) by norm_num [Decimal.value, Decimal.fracDigits, Decimal.power, decimalValue, Sign.apply])
    · exact .absent (by decide +kernel)
  dims := fun a => by fin_cases a <;> exact .absent (by decide +kernel)
  tIni := .absent (by decide +kernel)
  tEnd := SaysReal.of ⟨.none, [0], some [0, 0, 1], none⟩ ⟨by decide, by decide, by simp⟩ (by decide +kernel) (show _ = (1 / 1000 : ℝ) by norm_num [Decimal.value, Decimal.fracDigits, Decimal.power, decimalValue, Sign.apply])
  cfl := SaysReal.of ⟨.none, [0], some [4], none⟩ (digits_wf (by decide) (by decide)) (by decide +kernel) (show _ = (2 / 5 : ℝ) by norm_num [Decimal.value, Decimal.fracDigits, Decimal.power, decimalValue, Sign.apply])
  maxIter := SaysInt.of [1, 0, 0, 0, 0, 0] (by decide) (by decide +kernel) (by decide)
  iterFreq := SaysInt.of [1, 0, 0, 0] (by decide) (by decide +kernel) (by decide)
  timeFreq := .absent (by decide +kernel)
  timeFirst := .absent (by decide +kernel)
  timeJob := .absent (by decide +kernel)
  gx := fun a => by fin_cases a <;> exact .absent (by decide +kernel)
  mass := .absent (by decide +kernel)
  gamma := SaysReal.of ⟨.none, [1], some [4], none⟩ (digits_wf (by decide) (by decide)) (by decide +kernel) (show _ = (7 / 5 : ℝ) by norm_num [Decimal.value, Decimal.fracDigits, Decimal.power, decimalValue, Sign.apply])
  mu := .absent (by decide +kernel)
  nfx := .absent (by decide +kernel)
  epsPf := .absent (by decide +kernel)

theorem vortexConfig_faces : ∀ a f, saysFace vortexFile a f = "NullGradient".toList := by decide +kernel

theorem vortexConfig_choices (eos : EoS ℝ) {gas : ℝ → ℝ → Except String (EoS ℝ)} (hg : gas (7 / 5) 1 = .ok eos) : ChoicesSay gas vortexFile (vortexConfig eos) where
  gas := hg
  grid := Or.inl ⟨rfl, rfl⟩
  bcs := fun a a' f h => by
    rw [vortexConfig_faces]
    exact List.mem_cons_self
  lim := List.mem_cons_self
  sol := List.mem_cons_of_mem _ (List.mem_cons_of_mem _ List.mem_cons_self)
  step := List.mem_cons_self
  shift := show false = true ↔ "Off".toList = "UserDefined".toList by decide

theorem vortexFile_ok : FileOk vortexFile := simpleFile_ok (by decide +kernel) (by decide +kernel)

theorem vortex_says : GreshoSays vortexFile (⟨1, 0, 1 / 100000⟩ : GreshoParam ℝ) where
  rho0 := SaysReal.of ⟨.none, [1], none, none⟩ ⟨by decide, by decide, by simp⟩ (by decide +kernel) (show _ = (1 : ℝ) by norm_num [Decimal.value, Decimal.fracDigits, Decimal.power, decimalValue, Sign.apply])
  u0 := SaysReal.of ⟨.none, [0], none, none⟩ ⟨by decide, by decide, by simp⟩ (by decide +kernel) (show _ = (0 : ℝ) by norm_num [Decimal.value, Decimal.fracDigits, Decimal.power, decimalValue, Sign.apply])
  Ma := SaysReal.of ⟨.none, [0], some [0, 0, 0, 0, 1], none⟩ ⟨by decide, by decide, by simp⟩ (by decide +kernel) (show _ = (1 / 100000 : ℝ) by norm_num [Decimal.value, Decimal.fracDigits, Decimal.power, decimalValue, Sign.apply])

/-- The state that the setup gives to the point `(x, y)`. -/
noncomputable def vortexStart (n : ℕ) (P0 x y : ℝ) : InitCell 2 n :=
  ⟨1, ![-greshoSpeed (Real.sqrt (x * x + y * y)) * Real.sin (atan2 y x), greshoSpeed (Real.sqrt (x * x + y * y)) * Real.cos (atan2 y x)],
    greshoPressure P0 (Real.sqrt (x * x + y * y)), 0⟩

/-- A quarter turn leaves the state of the setup as it is. -/
theorem vortexStart_turned (P0 x y : ℝ) : (vortexStart n P0 (-y) x).rho = (vortexStart n P0 x y).rho ∧ (vortexStart n P0 (-y) x).u 0 = -(vortexStart n P0 x y).u 1 ∧
    (vortexStart n P0 (-y) x).u 1 = (vortexStart n P0 x y).u 0 ∧ (vortexStart n P0 (-y) x).P = (vortexStart n P0 x y).P ∧
    (vortexStart n P0 (-y) x).fx = (vortexStart n P0 x y).fx := by
  have hr : Real.sqrt (-y * -y + x * x) = Real.sqrt (x * x + y * y) := by rw [neg_mul_neg, add_comm]
  obtain ⟨s1, c1⟩ := atan2_angle x y
  obtain ⟨s2, c2⟩ := atan2_angle (-y) x
  rw [hr] at s2 c2
  simp only [vortexStart, hr, Matrix.cons_val_zero, Matrix.cons_val_one, true_and, and_true]
  rcases eq_or_ne (Real.sqrt (x * x + y * y)) 0 with h | h
  · rw [h]
    have g0 : greshoSpeed 0 = 0 := by norm_num [greshoSpeed]
    simp [g0]
  · have hs : Real.sin (atan2 x (-y)) = Real.cos (atan2 y x) := mul_left_cancel₀ h (s2.trans c1.symm)
    have hc : Real.cos (atan2 x (-y)) = -Real.sin (atan2 y x) := mul_left_cancel₀ h (by rw [c2, mul_neg, s1])
    rw [hs, hc]
    exact ⟨neg_mul _ _, by ring⟩

/-- **C111, inputs/gresho_vortex.ini** (with the names of the faces that the program knows). The text is read, accepted and gives a run; the setup gets its parameters. On every process grid, whatever the
order of the loops, with the functions `eos` of any equation of state in the setup, after any number of turns of the main loop no array was accessed out of bounds, and a quarter turn about the centre
leaves every result file exactly as it is: whatever the low-Mach solver does to the vortex, it does alike in the four quarters. Partial: exact arithmetic. -/
theorem C111_gresho_partial : ∃ values, iniReader (linesText iniGreshoVortexCorrected) = .ok values ∧
    ∃ c s, configure 2 readReal perfectGasOf values = .ok c ∧ greshoParam readReal values = .ok s ∧
      ∀ (n : ℕ) (eos : SetupEos) (tr : Trig ℝ) (lo top : ℝ) (user : UserBc 2 n ℝ) (temp : ℝ → ℝ → ℝ), 0 ≤ top →
      ∀ (Gr : (Cell → Fields 2 n ℝ) → Cell → Fin 2 → ℝ) (A : Machine 2 n), (∀ W C a, Gr W C a = 0) → MachineOk c.param.nx c.param.ng Gr A →
      ∀ initL, InitOrders 2 c.param.nx c.param.ng A.dims initL → ∀ (clock : ℕ → Bool) (k : ℕ),
      let p := c.prog n tr .cartesian lo top user temp
      let nghost := nghostOf 2 c.param.ng
      ∃ z, progRun p c.param.nx nghost (borderOf A.dims) A clock (progSetup p c.param.nx nghost (borderOf A.dims) A (cartRank A.dims) initL
          (regularNodes nghost c.param.nx c.param.xmin c.param.xmax) fun _ _ g _ => s.init eos g) k = some z ∧ ∀ f ∈ z.files, TurnedFile 100 f.h := by
  obtain ⟨values, hv⟩ := stored vortexFile_ok
  obtain ⟨o, ho, hc⟩ := C76_config (by norm_num) (by norm_num) hv (C76_real_cast (K := ℝ)) (vortexConfig_says _) (vortexConfig_choices _ windGas_of) (Or.inr ⟨[1, 0, 2, 3], by decide, kh_order⟩)
  refine ⟨values, vortexFile_text ▸ hv.read, _, _, hc, (C89_setup_params hv (C76_real_cast (K := ℝ))).2.2.2.1 _ vortex_says, ?_⟩
  intro n eos tr lo top user temp htop Gr A h0 hA initL hil clock k p nghost
  exact turned_files (n := n) (p := p) (order := o) (ng := 2) (N := 100) (Gr := Gr) (A := A) (initL := initL) (h := 1) (b := .nullGradient)
    (F := vortexStart n (1 / (eos.gamma * (1 / 100000) * (1 / 100000)))) (T := fun _ _ g _ => GreshoParam.init ⟨1, 0, 1 / 100000⟩ eos g) (by norm_num) le_rfl
    ⟨fun a f => by show BcKind.nullGradient ≠ _; decide, fun id hid => by simpa using ho.mem_iff.1 hid, rfl, fun h => UserStepKind.noConfusion h, htop⟩ ho hA hil clock
    rfl (fun _ _ => rfl) (PerfectGas.lawful windGas_phys) (Or.inr rfl) rfl h0
    (fun q topo g grav c xl xm dv gr h => gresho_values eos 1 (1 / 100000) g c (xm 0) (xm 1) ⟨0, 0, 0, 0⟩ (h.xc 0) (h.xc 1))
    (vortexStart_turned _) k

/-- The corrected file on 4 x 2 processes: in every result file cells (70, 50), (49, 70), (29, 49) and (50, 29) have the same pressure, and turned velocities. -/
example (tr : Trig ℝ) (user : UserBc 2 1 ℝ) (temp : ℝ → ℝ → ℝ) (eos : SetupEos) (clock : ℕ → Bool) (k : ℕ) :
    ∃ (c : RunConfig 2 (EoS ℝ) ℝ) (A : Machine 2 1) (s : GreshoParam ℝ) (z : ProgState 2 1), A.dims = ![4, 2, 1] ∧
      progRun (c.prog 1 tr .cartesian 0 (10 ^ 308) user temp) ![100, 100, 1] (nghostOf 2 2) (borderOf A.dims) A clock
        (progSetup (c.prog 1 tr .cartesian 0 (10 ^ 308) user temp) ![100, 100, 1] (nghostOf 2 2) (borderOf A.dims) A (cartRank A.dims)
          (fun r => boxList (nghostOf 2 2) (fun a => localExt ![100, 100, 1] A.dims (nghostOf 2 2) r a - nghostOf 2 2 a))
          (regularNodes (nghostOf 2 2) ![100, 100, 1] ![-1, -1, 0] ![1, 1, 1]) fun _ _ g _ => s.init eos g) k = some z ∧
      ∀ f ∈ z.files, f.h.P.at ![49, 70, 0] = f.h.P.at ![70, 50, 0] ∧ f.h.P.at ![29, 49, 0] = f.h.P.at ![70, 50, 0] ∧
        (f.h.u 0).at ![49, 70, 0] = -(f.h.u 1).at ![70, 50, 0] ∧ (f.h.u 1).at ![29, 49, 0] = -(f.h.u 1).at ![70, 50, 0] := by
  have hN : ∀ a, 0 ≤ (![100, 100, 1] : Cell) a := by decide
  have hA := mkMachine_ok (d := 2) (n := 1) (ng := 2) hN (dims := ![4, 2, 1]) (by decide) 0 (by norm_num) (by
    intro a ha r h0 h1
    fin_cases a
    · have h1 : r < 4 := h1
      interval_cases r <;> decide
    · have h1 : r < 2 := h1
      interval_cases r <;> decide
    · simp at ha)
  obtain ⟨values, hv, c, s, hc, -, h⟩ := C111_gresho_partial
  obtain ⟨values', hv'⟩ := stored vortexFile_ok
  obtain ⟨o, -, hc'⟩ := C76_config (by norm_num) (by norm_num) hv' (C76_real_cast (K := ℝ)) (vortexConfig_says _) (vortexConfig_choices _ windGas_of) (Or.inr ⟨[1, 0, 2, 3], by decide, kh_order⟩)
  obtain rfl : values = values' := Except.ok.inj (hv.symm.trans (vortexFile_text ▸ hv'.read))
  obtain rfl := Except.ok.inj (hc.symm.trans hc')
  obtain ⟨z, e, hf⟩ := h 1 eos tr 0 (10 ^ 308) user temp (by norm_num) (fun _ _ _ => 0) _ (fun _ _ _ => rfl) hA _ (fun _ _ => boxList_isSchedule _ _) clock k
  refine ⟨_, _, s, z, rfl, e, fun f hfz => ?_⟩
  have t := hf f hfz
  have p1 := t.P 70 50 (by norm_num) (by norm_num) (by norm_num) (by norm_num)
  have p2 := t.P 49 70 (by norm_num) (by norm_num) (by norm_num) (by norm_num)
  have v1 := t.u0 70 50 (by norm_num) (by norm_num) (by norm_num) (by norm_num)
  have v2 := t.u1 49 70 (by norm_num) (by norm_num) (by norm_num) (by norm_num)
  norm_num at p1 p2 v1 v2
  exact ⟨p1, p2.trans p1, v1, v2.trans v1⟩

end Heracles
