import Verif.Spec.Inputs
import Verif.Lemmas.IniTables
import Verif.Spec.SetupParam
import Verif.Model.SetupInit
import Verif.Props.ParamRuns

/-!
# C89: the input files that come with the code, and the parameters of the setups
-/

namespace Heracles

/-- The test that `c` is the described run. -/
def runTest {d : ℕ} (e : Described) (r : Except String (RunConfig d Unit ℚ)) : Bool :=
  match r with
  | .error _ => false
  | .ok c => decide (c.param = e.param ∧ ((List.finRange d).flatMap fun a => [c.bcs a 0, c.bcs a 1]) = e.bcs ∧ c.order = e.order.map some ∧
      c.grid = some e.grid ∧ c.lim = e.lim ∧ c.sol = e.sol ∧ c.step = e.step ∧ c.shift = e.shift)

theorem runIs_of {d : ℕ} {e : Described} {r : Except String (RunConfig d Unit ℚ)} (h : runTest e r = true) : ∃ c, r = .ok c ∧ RunIs e c := by
  unfold runTest at h
  split at h
  · cases h
  · rename_i c
    obtain ⟨h1, h2, h3, h4, h5, h6, h7, h8⟩ := of_decide_eq_true h
    exact ⟨c, rfl, h1, h2, h3, h4, h5, h6, h7, h8⟩


theorem refused_of {d : ℕ} {msg : String} {r : Except String (RunConfig d Unit ℚ)}
    (h : (match r with | .error m => decide (m = msg) | .ok _ => false) = true) : r = .error msg := by
  split at h
  · rw [of_decide_eq_true h]
  · cases h

theorem error_of {msg : String} {r : Except String (Param ℚ)} (h : (match r with | .error m => decide (m = msg) | .ok _ => false) = true) :
    r = .error msg := by
  split at h
  · rw [of_decide_eq_true h]
  · cases h

theorem order_of {d : ℕ} {l : List (Option ℕ)} {r : Except String (RunConfig d Unit ℚ)}
    (h : (match r with | .error _ => false | .ok c => decide (c.order = l)) = true) : ∃ c, r = .ok c ∧ c.order = l := by
  split at h
  · cases h
  · exact ⟨_, rfl, of_decide_eq_true h⟩

theorem okBind {α β : Type} {x : Except String α} {a : α} (h : x = .ok a) {f : α → Except String β} : (x >>= f) = f a := by rw [h]; rfl

/-- Tables that agree on the keys of the setups give the same parameters. -/
theorem setups_congr {K : Type} [Field K] {stod : Str → Except String K} {values values' : Str → Option Str}
    (e : ∀ x ∈ setupKeys, values (makeKey x.1.toList x.2.toList) = values' (makeKey x.1.toList x.2.toList)) : SetupsAgree stod values values' := by
  have gs : ∀ sec name : String, (sec, name) ∈ setupKeys → ∀ dflt, iniLookup values sec.toList name.toList dflt = iniLookup values' sec.toList name.toList dflt :=
    fun sec name hx dflt => by unfold iniLookup; rw [e _ hx]
  have gi : ∀ sec name : String, (sec, name) ∈ setupKeys →
      ∀ dflt, iniGetInteger values sec.toList name.toList dflt = iniGetInteger values' sec.toList name.toList dflt :=
    fun sec name hx dflt => by unfold iniGetInteger; rw [gs _ _ hx]
  have gr : ∀ sec name : String, (sec, name) ∈ setupKeys →
      ∀ dflt, iniGetReal stod values sec.toList name.toList dflt = iniGetReal stod values' sec.toList name.toList dflt :=
    fun sec name hx dflt => by unfold iniGetReal; rw [gs _ _ hx]
  have k0 := gr "Initialisation" "rho0" (by decide +kernel)
  have k1 := gr "Initialisation" "rho1" (by decide +kernel)
  have k2 := gr "Initialisation" "u0" (by decide +kernel)
  have k3 := gr "Initialisation" "P0" (by decide +kernel)
  have k4 := gr "Initialisation" "T0" (by decide +kernel)
  have k5 := gr "Gravity" "M" (by decide +kernel)
  have k6 := gr "Initialisation" "Ma" (by decide +kernel)
  have k7 := gr "Initialisation" "fx0" (by decide +kernel)
  have k8 := gr "Initialisation" "P1" (by decide +kernel)
  have k9 := gr "Initialisation" "u" (by decide +kernel)
  have k10 := gr "Initialisation" "A" (by decide +kernel)
  have k11 := gr "Initialisation" "fx1" (by decide +kernel)
  have k12 := gr "Initialisation" "E0" (by decide +kernel)
  have k13 := gr "Initialisation" "E1" (by decide +kernel)
  have k14 := gr "Initialisation" "u1" (by decide +kernel)
  have k15 := gr "Initialisation" "inter" (by decide +kernel)
  have k16 := gr "Gravity" "gx" (by decide +kernel)
  have k17 := gs "problem" "init_file" (by decide +kernel)
  have k18 := gr "problem" "vmax_shift" (by decide +kernel)
  have k19 := gi "problem" "cell_shift" (by decide +kernel)
  refine ⟨?_, ?_, ?_, ?_, ?_, ?_, ?_, ?_, ?_, ?_, ?_, ?_, ?_, ?_, ?_, ?_⟩
  · unfold advectionGapParam; rw [k0, k1, k2, k3]
  · unfold advectionSinusParam; rw [k2, k3]
  · unfold eqHydroParam; rw [k0, k2, k4, k5]
  · unfold greshoParam; rw [k0, k2, k6]
  · unfold heatNickelParam; rw [k0, k2, k4, k7]
  · unfold implosionParam; rw [k0, k1, k2, k3, k8]
  · unfold kelvinHelmholtzParam; rw [k3]
  · unfold rayleighTaylorParam; rw [k0, k1, k9, k10, k7, k11]
  · unfold rt3dParam; rw [k0, k1, k2, k3]
  · unfold sedov1dParam; rw [k0, k2, k12, k13]
  · unfold sedov2dParam; rw [k0, k2, k3, k12, k13]
  · unfold sedov3dParam; rw [k0, k3, k13]
  · unfold tubeParam; rw [k0, k1, k2, k14, k3, k8, k15]
  · unfold shockWallParam; rw [k0, k2, k3]
  · unfold stratifiedParam; rw [k0, k2, k4, k16]
  · unfold tabParam; rw [k17, k18, k19]

/-- C89: every parameter of every setup is the number that the file gives for its key, or the default (1; 100 for the temperature of `eq_hydro_sphe`;
0 for the velocity and the index of `v1d`) when the file does not write it. -/
theorem C89_setup_params {K : Type} [Field K] {items : List IniItem} {values : Str → Option Str} {stod : Str → Except String K} (h : Stored items values)
    (hr : ReadsDecimals stod) :
    (∀ p, AdvectionGapSays items p → advectionGapParam stod values = .ok p) ∧
    (∀ p, AdvectionSinusSays items p → advectionSinusParam stod values = .ok p) ∧
    (∀ p, EqHydroSays items p → eqHydroParam stod values = .ok p) ∧
    (∀ p, GreshoSays items p → greshoParam stod values = .ok p) ∧
    (∀ p, HeatNickelSays items p → heatNickelParam stod values = .ok p) ∧
    (∀ p, ImplosionSays items p → implosionParam stod values = .ok p) ∧
    (∀ p, KelvinHelmholtzSays items p → kelvinHelmholtzParam stod values = .ok p) ∧
    (∀ p, RayleighTaylorSays items p → rayleighTaylorParam stod values = .ok p) ∧
    (∀ p, Rt3dSays items p → rt3dParam stod values = .ok p) ∧
    (∀ p, Sedov1dSays items p → sedov1dParam stod values = .ok p) ∧
    (∀ p, Sedov2dSays items p → sedov2dParam stod values = .ok p) ∧
    (∀ p, Sedov3dSays items p → sedov3dParam stod values = .ok p) ∧
    (∀ p, ShockTubeSays items p → tubeParam stod values = .ok p) ∧
    (∀ p, ShockWallSays items p → shockWallParam stod values = .ok p) ∧
    (∀ p, StratifiedSays items p → stratifiedParam stod values = .ok p) ∧
    (∀ p, TabSays items p → tabParam stod values = .ok p) := by
  refine ⟨?_, ?_, ?_, ?_, ?_, ?_, ?_, ?_, ?_, ?_, ?_, ?_, ?_, ?_, ?_, ?_⟩ <;> intro p hp
  · unfold advectionGapParam
    rw [okBind (h.real hr (by decide) hp.rho0), okBind (h.real hr (by decide) hp.rho1), okBind (h.real hr (by decide) hp.u0), okBind (h.real hr (by decide) hp.P0)]; rfl
  · unfold advectionSinusParam
    rw [okBind (h.real hr (by decide) hp.u0), okBind (h.real hr (by decide) hp.P0)]; rfl
  · unfold eqHydroParam
    rw [okBind (h.real hr (by decide) hp.rho0), okBind (h.real hr (by decide) hp.u0), okBind (h.real hr (by decide) hp.T0), okBind (h.real hr (by decide) hp.M)]; rfl
  · unfold greshoParam
    rw [okBind (h.real hr (by decide) hp.rho0), okBind (h.real hr (by decide) hp.u0), okBind (h.real hr (by decide) hp.Ma)]; rfl
  · unfold heatNickelParam
    rw [okBind (h.real hr (by decide) hp.rho0), okBind (h.real hr (by decide) hp.u0), okBind (h.real hr (by decide) hp.T0), okBind (h.real hr (by decide) hp.fx0)]; rfl
  · unfold implosionParam
    rw [okBind (h.real hr (by decide) hp.rho0), okBind (h.real hr (by decide) hp.rho1), okBind (h.real hr (by decide) hp.u0), okBind (h.real hr (by decide) hp.P0), okBind (h.real hr (by decide) hp.P1)]; rfl
  · unfold kelvinHelmholtzParam
    rw [okBind (h.real hr (by decide) hp.P0)]; rfl
  · unfold rayleighTaylorParam
    rw [okBind (h.real hr (by decide) hp.rho0), okBind (h.real hr (by decide) hp.rho1), okBind (h.real hr (by decide) hp.u), okBind (h.real hr (by decide) hp.A), okBind (h.real hr (by decide) hp.fx0), okBind (h.real hr (by decide) hp.fx1)]; rfl
  · unfold rt3dParam
    rw [okBind (h.real hr (by decide) hp.rho0), okBind (h.real hr (by decide) hp.rho1), okBind (h.real hr (by decide) hp.u0), okBind (h.real hr (by decide) hp.P0)]; rfl
  · unfold sedov1dParam
    rw [okBind (h.real hr (by decide) hp.rho0), okBind (h.real hr (by decide) hp.u0), okBind (h.real hr (by decide) hp.E0), okBind (h.real hr (by decide) hp.E1)]; rfl
  · unfold sedov2dParam
    rw [okBind (h.real hr (by decide) hp.rho0), okBind (h.real hr (by decide) hp.u0), okBind (h.real hr (by decide) hp.P0), okBind (h.real hr (by decide) hp.E0), okBind (h.real hr (by decide) hp.E1)]; rfl
  · unfold sedov3dParam
    rw [okBind (h.real hr (by decide) hp.rho0), okBind (h.real hr (by decide) hp.P0), okBind (h.real hr (by decide) hp.E1)]; rfl
  · unfold tubeParam
    rw [okBind (h.real hr (by decide) hp.rho0), okBind (h.real hr (by decide) hp.rho1), okBind (h.real hr (by decide) hp.u0), okBind (h.real hr (by decide) hp.u1), okBind (h.real hr (by decide) hp.P0), okBind (h.real hr (by decide) hp.P1), okBind (h.real hr (by decide) hp.inter)]; rfl
  · unfold shockWallParam
    rw [okBind (h.real hr (by decide) hp.rho0), okBind (h.real hr (by decide) hp.u0), okBind (h.real hr (by decide) hp.P0)]; rfl
  · unfold stratifiedParam
    rw [okBind (h.real hr (by decide) hp.rho0), okBind (h.real hr (by decide) hp.u0), okBind (h.real hr (by decide) hp.T0), okBind (h.real hr (by decide) hp.gx)]; rfl
  · unfold tabParam
    have e : iniLookup values "problem".toList "init_file".toList [] = p.file := h.text (by decide) hp.file
    rw [okBind (h.real hr (by decide) hp.vmaxShift), okBind (h.int (by decide) hp.cellShift), e]; rfl

/-! ### The files that are refused -/

/-- C89 (violation): inputs/gresho_vortex.ini is refused. It writes the order of the faces with the names of its other keys (`X0_left`), while the order is
read with the names `X_left`, `Y_left`, … Its parameters are readable. -/
theorem C89_gresho_vortex_violated : ∃ values, iniReader (linesText iniGreshoVortex) = .ok values ∧
    configure 2 stodDecimal gasOk values = .error "boundary priority not fully defined !" ∧
    greshoParam stodDecimal values = .ok ⟨1, 0, 1 / 100000⟩ :=
  ⟨_, iniGreshoVortex_table, refused_of (by decide +kernel), by decide +kernel⟩

/-- C89 (violation): inputs/kelvin_helmholtz.ini is refused for the same reason. -/
theorem C89_kelvin_helmholtz_violated : ∃ values, iniReader (linesText iniKelvinHelmholtz) = .ok values ∧
    configure 2 stodDecimal gasOk values = .error "boundary priority not fully defined !" ∧
    kelvinHelmholtzParam stodDecimal values = .ok ⟨10⟩ :=
  ⟨_, iniKelvinHelmholtz_table, refused_of (by decide +kernel), by decide +kernel⟩

/-- C89: with the names that the order is read with, the two files would be accepted: the conditions are applied from the last
written to the first. -/
theorem C89_with_known_names {values : Str → Option Str} {file : List String} (hf : file = iniGreshoVortex ∨ file = iniKelvinHelmholtz)
    (hv : iniReader (linesText file) = .ok values) :
    ∃ c, configure 2 stodDecimal gasOk (withEntry values "Boundary Condition" "priority" "X_right X_left Y_left Y_right") = .ok c ∧
      c.order = [some 3, some 2, some 0, some 1] := by
  rcases hf with rfl | rfl
  · rw [iniGreshoVortex_table] at hv
    cases hv
    exact order_of (by decide +kernel)
  · rw [iniKelvinHelmholtz_table] at hv
    cases hv
    exact order_of (by decide +kernel)

/-- C89 (violation): inputs/example_init.ini, the file that lists the keys, is refused: the value of `restart` it shows is no boolean. -/
theorem C89_example_init_violated : ∃ values, iniReader (linesText iniExampleInit) = .ok values ∧
    ∀ d, configure d stodDecimal gasOk values = .error "stob" := by
  refine ⟨_, iniExampleInit_table, fun d => ?_⟩
  have h : paramOf stodDecimal (fun k => (tableOf iniExampleInitTable).lookup k) = .error "stob" := error_of (by decide +kernel)
  unfold configure
  rw [h]
  rfl

/-! ### Keys without effect -/

/-- C89: what a file writes under a key that is not known to the code has no effect, neither on the run nor on the parameters of any setup. -/
theorem C89_unknown_key {d : ℕ} {C K : Type} [Field K] {stod : Str → Except String K} {gas : K → K → Except String C} (values : Str → Option Str)
    {sec name : String} (hk : ∀ x ∈ knownKeys ++ setupKeys, makeKey x.1.toList x.2.toList ≠ makeKey sec.toList name.toList) (text : String) :
    configure d stod gas (withEntry values sec name text) = configure d stod gas values ∧
    SetupsAgree stod (withEntry values sec name text) values := by
  have e : ∀ x ∈ knownKeys ++ setupKeys, withEntry values sec name text (makeKey x.1.toList x.2.toList) = values (makeKey x.1.toList x.2.toList) :=
    fun x hx => if_neg (hk x hx)
  exact ⟨configure_congr fun x hx => e x (List.mem_append_left _ hx), setups_congr fun x hx => e x (List.mem_append_right _ hx)⟩

/-- C89 (violation): three shipped files write keys that the code does not know: `timeout` in shock_tube1d_sph.ini (the end of the run is `t_end`,
by default also 0.2), `u0` in kelvin_helmholtz.ini, the `type` of gravity in rayleigh_taylor3d.ini. Whatever is written there changes nothing. -/
theorem C89_shipped_keys_ignored_violated (text : String) :
    (∃ values, iniReader (linesText iniShockTube1dSph) = .ok values ∧ iniLookup values "Run".toList "timeout".toList [] = "0.2".toList ∧
      ∃ c, configure 1 stodDecimal gasOk (withEntry values "Run" "timeout" text) = .ok c ∧ c.param.tEnd = 1 / 5) ∧
    (∃ values, iniReader (linesText iniKelvinHelmholtz) = .ok values ∧ iniLookup values "Initialisation".toList "u0".toList [] = "1".toList ∧
      kelvinHelmholtzParam stodDecimal (withEntry values "Initialisation" "u0" text) = .ok ⟨10⟩) ∧
    (∃ values, iniReader (linesText iniRayleighTaylor3d) = .ok values ∧ iniLookup values "Gravity".toList "type".toList [] = "Uniform".toList ∧
      ∃ c, configure 3 stodDecimal gasOk (withEntry values "Gravity" "type" text) = .ok c ∧ RunIs runRayleighTaylor3d c) := by
  refine ⟨⟨_, iniShockTube1dSph_table, by decide +kernel, ?_⟩, ⟨_, iniKelvinHelmholtz_table, by decide +kernel, ?_⟩,
    ⟨_, iniRayleighTaylor3d_table, by decide +kernel, ?_⟩⟩
  · rw [(C89_unknown_key _ (by decide +kernel) text).1]
    obtain ⟨c, h, hc⟩ := runIs_of (e := runShockTube1dSph) (r := configure 1 stodDecimal gasOk fun k => (tableOf iniShockTube1dSphTable).lookup k)
      (by decide +kernel)
    exact ⟨c, h, by rw [hc.param]; rfl⟩
  · unfold kelvinHelmholtzParam
    rw [show iniGetReal stodDecimal (withEntry (fun k => (tableOf iniKelvinHelmholtzTable).lookup k) "Initialisation" "u0" text) "Initialisation".toList
      "P0".toList 1 = .ok 10 from by
        unfold iniGetReal iniLookup
        rw [show withEntry (fun k => (tableOf iniKelvinHelmholtzTable).lookup k) "Initialisation" "u0" text (makeKey "Initialisation".toList "P0".toList) =
          (tableOf iniKelvinHelmholtzTable).lookup (makeKey "Initialisation".toList "P0".toList) from if_neg (by decide +kernel)]
        decide +kernel]
    rfl
  · rw [(C89_unknown_key _ (by decide +kernel) text).1]
    exact runIs_of (by decide +kernel)

/-- C89 (violation): four parameters are read from the file and have no effect on the initial state: the amplitude `A` of the 2-D Rayleigh-Taylor setup
(the perturbation has the fixed amplitude 0.01), the pressures `P0` of the 3-D one and of `sedov2d`, the gravity `gx` of `stratified_atm`. -/
theorem C89_no_effect_violated {d n : ℕ} (x y : ℝ) :
    (∀ (p : RayleighTaylorParam ℝ) g grav, { p with A := x }.init g grav = { p with A := y }.init g grav) ∧
    (∀ (p : Rt3dParam ℝ) rnd g grav, { p with P0 := x }.init rnd g grav = { p with P0 := y }.init rnd g grav) ∧
    (∀ (p : Sedov2dParam ℝ) geom eos g, { p with P0 := x }.init (d := d) (n := n) geom eos g = { p with P0 := y }.init geom eos g) ∧
    (∀ (p : StratifiedParam ℝ) eos g grav, { p with gx := x }.init (d := d) (n := n) eos g grav = { p with gx := y }.init eos g grav) :=
  ⟨fun _ _ _ => rfl, fun _ _ _ _ => rfl, fun _ _ _ _ => rfl, fun _ _ _ _ => rfl⟩

/-! ### From the file to the initial state -/

/-- C89: the initial state of a shock tube is the one that the file gives: `rho0`, `u0`, `P0` where the centre of the cell is at most `inter`, and
`rho1`, `u1`, `P1` elsewhere. -/
theorem C89_shock_tube_start {d n : ℕ} {items : List IniItem} {values : Str → Option Str} {stod : Str → Except String ℝ} (h : Stored items values)
    (hr : ReadsDecimals stod) {rho u P : Bool → ℝ} {inter : ℝ}
    (h0 : SaysReal items "Initialisation" "rho0" 1 (rho false)) (h1 : SaysReal items "Initialisation" "rho1" 1 (rho true))
    (h2 : SaysReal items "Initialisation" "u0" 1 (u false)) (h3 : SaysReal items "Initialisation" "u1" 1 (u true))
    (h4 : SaysReal items "Initialisation" "P0" 1 (P false)) (h5 : SaysReal items "Initialisation" "P1" 1 (P true))
    (h6 : SaysReal items "Initialisation" "inter" 1 inter) :
    ∃ p, tubeParam stod values = .ok p ∧ ∀ (g : GridData ℝ) (c : Cell) (s : InitCell d n) (x : ℝ), (g.xc 0).rd (c 0) = some x →
      ∃ right : Bool, (right = true ↔ inter < x) ∧ p.init g c s = some { s with rho := rho right, u := fun _ => u right, P := P right } := by
  refine ⟨⟨_, _, _, _, _, _, _⟩, (C89_setup_params h hr).2.2.2.2.2.2.2.2.2.2.2.2.1 _ ⟨h0, h1, h2, h3, h4, h5, h6⟩, fun g c s x hx => ?_⟩
  simp only [ShockTubeParam.init, shockTubeInit, hx, Option.bind_eq_bind, Option.bind_some]
  by_cases hi : x ≤ inter
  · exact ⟨false, by simpa using hi, by rw [if_pos hi]; rfl⟩
  · exact ⟨true, by simpa using hi, by rw [if_neg hi]; rfl⟩

/-- The hypotheses of `C89_setup_params` and `C89_shock_tube_start` hold for inputs/shock_tube.ini. -/
example : FileOk shockTubeFile ∧ ShockTubeSays (K := ℚ) shockTubeFile ⟨1, 1 / 8, 0, 0, 1, 1 / 10, 1 / 2⟩ := by
  refine ⟨shockTubeFile_ok, ?_, ?_, ?_, ?_, ?_, ?_, ?_⟩
  · exact SaysReal.of ⟨.none, [1], none, none⟩ (int_wf (by decide) (by decide)) (by decide +kernel) (by decide +kernel)
  · exact SaysReal.of ⟨.none, [0], some [1, 2, 5], none⟩ (digits_wf (by decide) (by decide)) (by decide +kernel) (by decide +kernel)
  · exact SaysReal.of ⟨.none, [0], none, none⟩ (int_wf (by decide) (by decide)) (by decide +kernel) (by decide +kernel)
  · exact SaysReal.of ⟨.none, [0], none, none⟩ (int_wf (by decide) (by decide)) (by decide +kernel) (by decide +kernel)
  · exact SaysReal.of ⟨.none, [1], none, none⟩ (int_wf (by decide) (by decide)) (by decide +kernel) (by decide +kernel)
  · exact SaysReal.of ⟨.none, [0], some [1], none⟩ (digits_wf (by decide) (by decide)) (by decide +kernel) (by decide +kernel)
  · exact SaysReal.of ⟨.none, [0], some [5], none⟩ (digits_wf (by decide) (by decide)) (by decide +kernel) (by decide +kernel)

/-- A misspelt key is unknown: writing `Rho0` for `rho0` is the same key, `rho_0` is another one. -/
example : (∀ x ∈ knownKeys ++ setupKeys, makeKey x.1.toList x.2.toList ≠ makeKey "Initialisation".toList "rho_0".toList) ∧
    makeKey "Initialisation".toList "Rho0".toList = makeKey "Initialisation".toList "rho0".toList := by decide +kernel

/-! ### The files that are accepted -/

/-- C89: inputs/advection_gap.ini is accepted and gives the run it describes. -/
theorem C89_advection_gap : ∃ values, iniReader (linesText iniAdvectionGap) = .ok values ∧
    (∃ c, configure 1 stodDecimal gasOk values = .ok c ∧ RunIs runAdvectionGap c) ∧ advectionGapParam stodDecimal values = .ok ⟨1, 2, 1, 1 / 10⟩ :=
  ⟨_, iniAdvectionGap_table, runIs_of (by decide +kernel), by decide +kernel⟩

/-- C89: inputs/advection_sinus.ini is accepted and gives the run it describes. -/
theorem C89_advection_sinus : ∃ values, iniReader (linesText iniAdvectionSinus) = .ok values ∧
    (∃ c, configure 1 stodDecimal gasOk values = .ok c ∧ RunIs runAdvectionSinus c) ∧ advectionSinusParam stodDecimal values = .ok ⟨1, 1 / 10⟩ :=
  ⟨_, iniAdvectionSinus_table, runIs_of (by decide +kernel), by decide +kernel⟩

/-- C89: inputs/eq_hydro_sphe.ini is accepted and gives the run it describes. -/
theorem C89_eq_hydro_sphe : ∃ values, iniReader (linesText iniEqHydroSphe) = .ok values ∧
    (∃ c, configure 1 stodDecimal gasOk values = .ok c ∧ RunIs runEqHydroSphe c) ∧ eqHydroParam stodDecimal values = .ok ⟨10, 0, 100, 2 * 10 ^ 19⟩ :=
  ⟨_, iniEqHydroSphe_table, runIs_of (by decide +kernel), by decide +kernel⟩

/-- C89: inputs/heat_nickel.ini is accepted and gives the run it describes. -/
theorem C89_heat_nickel : ∃ values, iniReader (linesText iniHeatNickel) = .ok values ∧
    (∃ c, configure 1 stodDecimal gasOk values = .ok c ∧ RunIs runHeatNickel c) ∧ heatNickelParam stodDecimal values = .ok ⟨1 / 1000000, 0, 100000, 1⟩ :=
  ⟨_, iniHeatNickel_table, runIs_of (by decide +kernel), by decide +kernel⟩

/-- C89: inputs/implosion_test.ini is accepted and gives the run it describes. -/
theorem C89_implosion_test : ∃ values, iniReader (linesText iniImplosionTest) = .ok values ∧
    (∃ c, configure 2 stodDecimal gasOk values = .ok c ∧ RunIs runImplosionTest c) ∧ implosionParam stodDecimal values = .ok ⟨1, 1 / 8, 0, 1, 7 / 50⟩ :=
  ⟨_, iniImplosionTest_table, runIs_of (by decide +kernel), by decide +kernel⟩

/-- C89: inputs/rayleigh_taylor.ini is accepted and gives the run it describes. -/
theorem C89_rayleigh_taylor : ∃ values, iniReader (linesText iniRayleighTaylor) = .ok values ∧
    (∃ c, configure 2 stodDecimal gasOk values = .ok c ∧ RunIs runRayleighTaylor c) ∧ rayleighTaylorParam stodDecimal values = .ok ⟨2, 1, 0, 1 / 100, 1, 0⟩ :=
  ⟨_, iniRayleighTaylor_table, runIs_of (by decide +kernel), by decide +kernel⟩

/-- C89: inputs/rayleigh_taylor3d.ini is accepted and gives the run it describes. -/
theorem C89_rayleigh_taylor3d : ∃ values, iniReader (linesText iniRayleighTaylor3d) = .ok values ∧
    (∃ c, configure 3 stodDecimal gasOk values = .ok c ∧ RunIs runRayleighTaylor3d c) ∧ rt3dParam stodDecimal values = .ok ⟨3, 1, 0, 1⟩ :=
  ⟨_, iniRayleighTaylor3d_table, runIs_of (by decide +kernel), by decide +kernel⟩

/-- C89: inputs/sedov1d.ini is accepted and gives the run it describes. -/
theorem C89_sedov1d : ∃ values, iniReader (linesText iniSedov1d) = .ok values ∧
    (∃ c, configure 1 stodDecimal gasOk values = .ok c ∧ RunIs runSedov1d c) ∧ sedov1dParam stodDecimal values = .ok ⟨1, 0, 1 / 1000000000000, 1⟩ :=
  ⟨_, iniSedov1d_table, runIs_of (by decide +kernel), by decide +kernel⟩

/-- C89: inputs/sedov2d.ini is accepted and gives the run it describes. -/
theorem C89_sedov2d : ∃ values, iniReader (linesText iniSedov2d) = .ok values ∧
    (∃ c, configure 2 stodDecimal gasOk values = .ok c ∧ RunIs runSedov2d c) ∧ sedov2dParam stodDecimal values = .ok ⟨1, 0, 1, 1 / 1000000000000, 100000⟩ :=
  ⟨_, iniSedov2d_table, runIs_of (by decide +kernel), by decide +kernel⟩

/-- C89: inputs/sedov3d_sph.ini is accepted and gives the run it describes. -/
theorem C89_sedov3d_sph : ∃ values, iniReader (linesText iniSedov3dSph) = .ok values ∧
    (∃ c, configure 3 stodDecimal gasOk values = .ok c ∧ RunIs runSedov3dSph c) ∧ sedov3dParam stodDecimal values = .ok ⟨1, 1 / 100, 1⟩ :=
  ⟨_, iniSedov3dSph_table, runIs_of (by decide +kernel), by decide +kernel⟩

/-- C89: inputs/shock_tube.ini is accepted and gives the run it describes. -/
theorem C89_shock_tube : ∃ values, iniReader (linesText iniShockTube) = .ok values ∧
    (∃ c, configure 1 stodDecimal gasOk values = .ok c ∧ RunIs runShockTube c) ∧ tubeParam stodDecimal values = .ok ⟨1, 1 / 8, 0, 0, 1, 1 / 10, 1 / 2⟩ :=
  ⟨_, iniShockTube_table, runIs_of (by decide +kernel), by decide +kernel⟩

/-- C89: inputs/shock_tube1d_sph.ini is accepted and gives the run it describes. -/
theorem C89_shock_tube1d_sph : ∃ values, iniReader (linesText iniShockTube1dSph) = .ok values ∧
    (∃ c, configure 1 stodDecimal gasOk values = .ok c ∧ RunIs runShockTube1dSph c) ∧ tubeParam stodDecimal values = .ok ⟨1, 1 / 8, 0, 0, 1, 1 / 10, 3 / 2⟩ :=
  ⟨_, iniShockTube1dSph_table, runIs_of (by decide +kernel), by decide +kernel⟩

/-- C89: inputs/shock_tube3d_sph.ini is accepted and gives the run it describes. -/
theorem C89_shock_tube3d_sph : ∃ values, iniReader (linesText iniShockTube3dSph) = .ok values ∧
    (∃ c, configure 3 stodDecimal gasOk values = .ok c ∧ RunIs runShockTube3dSph c) ∧ tubeParam stodDecimal values = .ok ⟨1, 1 / 8, 0, 0, 1, 1 / 10, 3 / 2⟩ :=
  ⟨_, iniShockTube3dSph_table, runIs_of (by decide +kernel), by decide +kernel⟩

/-- C89: inputs/shock_wall_pg.ini is accepted and gives the run it describes. -/
theorem C89_shock_wall_pg : ∃ values, iniReader (linesText iniShockWallPg) = .ok values ∧
    (∃ c, configure 1 stodDecimal gasOk values = .ok c ∧ RunIs runShockWallPg c) ∧ shockWallParam stodDecimal values = .ok ⟨1, -5, 1 / 10⟩ :=
  ⟨_, iniShockWallPg_table, runIs_of (by decide +kernel), by decide +kernel⟩

/-- C89: inputs/shock_wall_rad.ini is accepted and gives the run it describes. -/
theorem C89_shock_wall_rad : ∃ values, iniReader (linesText iniShockWallRad) = .ok values ∧
    (∃ c, configure 1 stodDecimal gasOk values = .ok c ∧ RunIs runShockWallRad c) ∧ shockWallParam stodDecimal values = .ok ⟨1 / 1000000000, -50000, 1 / 10⟩ :=
  ⟨_, iniShockWallRad_table, runIs_of (by decide +kernel), by decide +kernel⟩

/-- C89: inputs/stratified_atm.ini is accepted and gives the run it describes. -/
theorem C89_stratified_atm : ∃ values, iniReader (linesText iniStratifiedAtm) = .ok values ∧
    (∃ c, configure 1 stodDecimal gasOk values = .ok c ∧ RunIs runStratifiedAtm c) ∧ stratifiedParam stodDecimal values = .ok ⟨10, 0, 100, 1⟩ :=
  ⟨_, iniStratifiedAtm_table, runIs_of (by decide +kernel), by decide +kernel⟩

/-- C89: inputs/v1d_1d.ini is accepted and gives the run it describes. -/
theorem C89_v1d_1d : ∃ values, iniReader (linesText iniV1d1d) = .ok values ∧
    (∃ c, configure 1 stodDecimal gasOk values = .ok c ∧ RunIs runV1d1d c) ∧ tabParam stodDecimal values = .ok ⟨"../src/setups/v1d/v1d_1d_start.h5".toList, 1000000, 50⟩ :=
  ⟨_, iniV1d1d_table, runIs_of (by decide +kernel), by decide +kernel⟩

/-- C89: inputs/v1d_3d.ini is accepted and gives the run it describes. -/
theorem C89_v1d_3d : ∃ values, iniReader (linesText iniV1d3d) = .ok values ∧
    (∃ c, configure 3 stodDecimal gasOk values = .ok c ∧ RunIs runV1d3d c) ∧ tabParam stodDecimal values = .ok ⟨"../src/setups/v1d/v1d_1d_start.h5".toList, 0, 0⟩ :=
  ⟨_, iniV1d3d_table, runIs_of (by decide +kernel), by decide +kernel⟩

end Heracles
