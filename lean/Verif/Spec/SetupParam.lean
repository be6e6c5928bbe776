import Verif.Spec.Param
import Verif.Model.SetupParam

/-!
# Specification: the parameters that a file gives to a setup
-/

namespace Heracles

variable {K : Type} [Field K]

/-- The parameters of the setup advection_gap. -/
structure AdvectionGapSays (items : List IniItem) (p : AdvectionGapParam K) : Prop where
  rho0 : SaysReal items "Initialisation" "rho0" 1 p.rho0
  rho1 : SaysReal items "Initialisation" "rho1" 1 p.rho1
  u0 : SaysReal items "Initialisation" "u0" 1 p.u0
  P0 : SaysReal items "Initialisation" "P0" 1 p.P0

/-- The parameters of the setup advection_sinus. -/
structure AdvectionSinusSays (items : List IniItem) (p : AdvectionSinusParam K) : Prop where
  u0 : SaysReal items "Initialisation" "u0" 1 p.u0
  P0 : SaysReal items "Initialisation" "P0" 1 p.P0

/-- The parameters of the setup eq_hydro_sphe. -/
structure EqHydroSays (items : List IniItem) (p : EqHydroParam K) : Prop where
  rho0 : SaysReal items "Initialisation" "rho0" 1 p.rho0
  u0 : SaysReal items "Initialisation" "u0" 1 p.u0
  T0 : SaysReal items "Initialisation" "T0" 100 p.T0
  M : SaysReal items "Gravity" "M" 1 p.M

/-- The parameters of the setup gresho_vortex. -/
structure GreshoSays (items : List IniItem) (p : GreshoParam K) : Prop where
  rho0 : SaysReal items "Initialisation" "rho0" 1 p.rho0
  u0 : SaysReal items "Initialisation" "u0" 1 p.u0
  Ma : SaysReal items "Initialisation" "Ma" 1 p.Ma

/-- The parameters of the setup heat_nickel. -/
structure HeatNickelSays (items : List IniItem) (p : HeatNickelParam K) : Prop where
  rho0 : SaysReal items "Initialisation" "rho0" 1 p.rho0
  u0 : SaysReal items "Initialisation" "u0" 1 p.u0
  T0 : SaysReal items "Initialisation" "T0" 1 p.T0
  fx0 : SaysReal items "Initialisation" "fx0" 1 p.fx0

/-- The parameters of the setup implosion_test. -/
structure ImplosionSays (items : List IniItem) (p : ImplosionParam K) : Prop where
  rho0 : SaysReal items "Initialisation" "rho0" 1 p.rho0
  rho1 : SaysReal items "Initialisation" "rho1" 1 p.rho1
  u0 : SaysReal items "Initialisation" "u0" 1 p.u0
  P0 : SaysReal items "Initialisation" "P0" 1 p.P0
  P1 : SaysReal items "Initialisation" "P1" 1 p.P1

/-- The parameters of the setup kelvin_helmholtz. -/
structure KelvinHelmholtzSays (items : List IniItem) (p : KelvinHelmholtzParam K) : Prop where
  P0 : SaysReal items "Initialisation" "P0" 1 p.P0

/-- The parameters of the setup rayleigh_taylor. -/
structure RayleighTaylorSays (items : List IniItem) (p : RayleighTaylorParam K) : Prop where
  rho0 : SaysReal items "Initialisation" "rho0" 1 p.rho0
  rho1 : SaysReal items "Initialisation" "rho1" 1 p.rho1
  u : SaysReal items "Initialisation" "u" 1 p.u
  A : SaysReal items "Initialisation" "A" 1 p.A
  fx0 : SaysReal items "Initialisation" "fx0" 1 p.fx0
  fx1 : SaysReal items "Initialisation" "fx1" 1 p.fx1

/-- The parameters of the setup rayleigh_taylor3d. -/
structure Rt3dSays (items : List IniItem) (p : Rt3dParam K) : Prop where
  rho0 : SaysReal items "Initialisation" "rho0" 1 p.rho0
  rho1 : SaysReal items "Initialisation" "rho1" 1 p.rho1
  u0 : SaysReal items "Initialisation" "u0" 1 p.u0
  P0 : SaysReal items "Initialisation" "P0" 1 p.P0

/-- The parameters of the setup sedov1d. -/
structure Sedov1dSays (items : List IniItem) (p : Sedov1dParam K) : Prop where
  rho0 : SaysReal items "Initialisation" "rho0" 1 p.rho0
  u0 : SaysReal items "Initialisation" "u0" 1 p.u0
  E0 : SaysReal items "Initialisation" "E0" 1 p.E0
  E1 : SaysReal items "Initialisation" "E1" 1 p.E1

/-- The parameters of the setup sedov2d. -/
structure Sedov2dSays (items : List IniItem) (p : Sedov2dParam K) : Prop where
  rho0 : SaysReal items "Initialisation" "rho0" 1 p.rho0
  u0 : SaysReal items "Initialisation" "u0" 1 p.u0
  P0 : SaysReal items "Initialisation" "P0" 1 p.P0
  E0 : SaysReal items "Initialisation" "E0" 1 p.E0
  E1 : SaysReal items "Initialisation" "E1" 1 p.E1

/-- The parameters of the setup sedov3d. -/
structure Sedov3dSays (items : List IniItem) (p : Sedov3dParam K) : Prop where
  rho0 : SaysReal items "Initialisation" "rho0" 1 p.rho0
  P0 : SaysReal items "Initialisation" "P0" 1 p.P0
  E1 : SaysReal items "Initialisation" "E1" 1 p.E1

/-- The parameters of the setup shock_tube. -/
structure ShockTubeSays (items : List IniItem) (p : ShockTubeParam K) : Prop where
  rho0 : SaysReal items "Initialisation" "rho0" 1 p.rho0
  rho1 : SaysReal items "Initialisation" "rho1" 1 p.rho1
  u0 : SaysReal items "Initialisation" "u0" 1 p.u0
  u1 : SaysReal items "Initialisation" "u1" 1 p.u1
  P0 : SaysReal items "Initialisation" "P0" 1 p.P0
  P1 : SaysReal items "Initialisation" "P1" 1 p.P1
  inter : SaysReal items "Initialisation" "inter" 1 p.inter

/-- The parameters of the setup shock_wall. -/
structure ShockWallSays (items : List IniItem) (p : ShockWallParam K) : Prop where
  rho0 : SaysReal items "Initialisation" "rho0" 1 p.rho0
  u0 : SaysReal items "Initialisation" "u0" 1 p.u0
  P0 : SaysReal items "Initialisation" "P0" 1 p.P0

/-- The parameters of the setup stratified_atm. -/
structure StratifiedSays (items : List IniItem) (p : StratifiedParam K) : Prop where
  rho0 : SaysReal items "Initialisation" "rho0" 1 p.rho0
  u0 : SaysReal items "Initialisation" "u0" 1 p.u0
  T0 : SaysReal items "Initialisation" "T0" 1 p.T0
  gx : SaysReal items "Gravity" "gx" 1 p.gx

/-- The parameters of the setup v1d. -/
structure TabSays (items : List IniItem) (p : TabParam K) : Prop where
  file : SaysText items "problem" "init_file" "" p.file
  vmaxShift : SaysReal items "problem" "vmax_shift" 0 p.vmaxShift
  cellShift : SaysInt items "problem" "cell_shift" 0 p.cellShift

/-- The keys read by the setups. -/
def setupKeys : List (String × String) :=
  [("Initialisation", "rho0"), ("Initialisation", "rho1"), ("Initialisation", "u0"), ("Initialisation", "P0"), ("Initialisation", "T0"), ("Gravity", "M"), ("Initialisation", "Ma"), ("Initialisation", "fx0"), ("Initialisation", "P1"), ("Initialisation", "u"), ("Initialisation", "A"), ("Initialisation", "fx1"), ("Initialisation", "E0"), ("Initialisation", "E1"), ("Initialisation", "u1"), ("Initialisation", "inter"), ("Gravity", "gx"), ("problem", "init_file"), ("problem", "vmax_shift"), ("problem", "cell_shift")]

/-- The table `values` with one entry replaced. -/
def withEntry (values : Str → Option Str) (sec name text : String) : Str → Option Str :=
  fun k => if k = makeKey sec.toList name.toList then some text.toList else values k

/-- Every setup reads the same parameters from the two tables. -/
def SetupsAgree (stod : Str → Except String K) (values values' : Str → Option Str) : Prop :=
  advectionGapParam stod values = advectionGapParam stod values' ∧
  advectionSinusParam stod values = advectionSinusParam stod values' ∧
  eqHydroParam stod values = eqHydroParam stod values' ∧
  greshoParam stod values = greshoParam stod values' ∧
  heatNickelParam stod values = heatNickelParam stod values' ∧
  implosionParam stod values = implosionParam stod values' ∧
  kelvinHelmholtzParam stod values = kelvinHelmholtzParam stod values' ∧
  rayleighTaylorParam stod values = rayleighTaylorParam stod values' ∧
  rt3dParam stod values = rt3dParam stod values' ∧
  sedov1dParam stod values = sedov1dParam stod values' ∧
  sedov2dParam stod values = sedov2dParam stod values' ∧
  sedov3dParam stod values = sedov3dParam stod values' ∧
  tubeParam stod values = tubeParam stod values' ∧
  shockWallParam stod values = shockWallParam stod values' ∧
  stratifiedParam stod values = stratifiedParam stod values' ∧
  tabParam stod values = tabParam stod values'

end Heracles
