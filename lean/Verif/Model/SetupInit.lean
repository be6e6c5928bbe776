import Verif.Model.SetupParam
import Verif.Model.Problems

/-!
# The initialisations with the parameters of the file

`InitializationSetup` holds a copy of `ParamSetup` (src/main.cpp 139, 263) and its loop reads the members below.
-/

namespace Heracles

variable {d n : ℕ}

/-- src/setups/shock_tube/setup.hpp 72 and the loop after it. -/
noncomputable def ShockTubeParam.init (p : ShockTubeParam ℝ) (g : GridData ℝ) : InitKernel d n :=
  shockTubeInit p.rho0 p.rho1 p.u0 p.u1 p.P0 p.P1 p.inter g

/-- src/setups/shock_wall/setup.hpp 62 and the loop after it. -/
noncomputable def ShockWallParam.init (p : ShockWallParam ℝ) : InitKernel d n :=
  shockWallInit p.rho0 p.u0 p.P0

/-- src/setups/advection_gap/setup.hpp 66 and the loop after it. -/
noncomputable def AdvectionGapParam.init (p : AdvectionGapParam ℝ) (g : GridData ℝ) : InitKernel d n :=
  advectionGapInit p.rho0 p.rho1 p.u0 p.P0 g

/-- src/setups/advection_sinus/setup.hpp 58 and the loop after it. -/
noncomputable def AdvectionSinusParam.init (p : AdvectionSinusParam ℝ) (g : GridData ℝ) : InitKernel d n :=
  advectionSinusInit p.u0 p.P0 g

/-- src/setups/implosion_test/setup.hpp 72 and the loop after it. -/
noncomputable def ImplosionParam.init (p : ImplosionParam ℝ) (g : GridData ℝ) : InitKernel d n :=
  implosionInit p.rho0 p.rho1 p.u0 p.P0 p.P1 g

/-- src/setups/gresho_vortex/setup.hpp 68 and the loop after it. -/
noncomputable def GreshoParam.init (p : GreshoParam ℝ) (eos : SetupEos) (g : GridData ℝ) : InitKernel 2 n :=
  greshoInit eos p.rho0 p.u0 p.Ma g

/-- src/setups/kelvin_helmholtz/setup.hpp 60 and the loop after it. -/
noncomputable def KelvinHelmholtzParam.init (p : KelvinHelmholtzParam ℝ) (g : GridData ℝ) : InitKernel 2 n :=
  kelvinHelmholtzInit p.P0 g

/-- src/setups/rayleigh_taylor/setup.hpp 74 and the loop after it. -/
noncomputable def RayleighTaylorParam.init (p : RayleighTaylorParam ℝ) (g : GridData ℝ) (grav : GravField 2 ℝ) : InitKernel 2 1 :=
  rayleighTaylorInit p.rho0 p.rho1 p.u p.fx0 p.fx1 g grav

/-- src/setups/rayleigh_taylor3d/setup.hpp 107 and the loop after it. -/
noncomputable def Rt3dParam.init (p : Rt3dParam ℝ) (rnd : Fin 4 → ℝ) (g : GridData ℝ) (grav : GravField 3 ℝ) : InitKernel 3 1 :=
  rt3dInit p.rho0 p.rho1 p.u0 rnd g grav

/-- src/setups/stratified_atm/setup.hpp 79 and the loop after it. -/
noncomputable def StratifiedParam.init (p : StratifiedParam ℝ) (eos : SetupEos) (g : GridData ℝ) (grav : GravField (d + 1) ℝ) : InitKernel (d + 1) n :=
  stratifiedInit eos p.rho0 p.u0 p.T0 g grav

/-- src/setups/eq_hydro_sphe/setup.hpp 71 and the loop after it. -/
noncomputable def EqHydroParam.init (p : EqHydroParam ℝ) (eos : SetupEos) (g : GridData ℝ) : InitKernel d n :=
  eqHydroInit eos p.rho0 p.u0 p.T0 p.M g

/-- src/setups/heat_nickel/setup.hpp 67 and the loop after it. -/
noncomputable def HeatNickelParam.init (p : HeatNickelParam ℝ) (eos : SetupEos) : InitKernel d 1 :=
  heatNickelInit eos p.rho0 p.u0 p.T0 p.fx0

/-- src/setups/sedov1d/setup.hpp 80 and the loop after it. -/
noncomputable def Sedov1dParam.init (p : Sedov1dParam ℝ) (eos : SetupEos) (geom : Geom) (rank : ℤ) (g : GridData ℝ) : InitKernel d n :=
  sedov1dInit eos geom rank p.rho0 p.u0 p.E0 p.E1 g

/-- src/setups/sedov2d/setup.hpp 78 and the loop after it. -/
noncomputable def Sedov2dParam.init (p : Sedov2dParam ℝ) (geom : Geom) (eos : SetupEos) (g : GridData ℝ) : Except String (InitKernel d n) :=
  sedov2dInit geom eos p.rho0 p.u0 p.E0 p.E1 g

/-- src/setups/sedov3d/setup.hpp 67 and the loop after it. -/
noncomputable def Sedov3dParam.init (p : Sedov3dParam ℝ) (geom : Geom) (eos : SetupEos) (nxGlob : Cell) (g : GridData ℝ) : Except String (InitKernel d n) :=
  sedov3dInit geom eos nxGlob p.rho0 p.P0 p.E1 g

end Heracles
