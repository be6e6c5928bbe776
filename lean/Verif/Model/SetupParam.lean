import Verif.Model.Ini
import Mathlib.Algebra.Field.Defs

/-!
# The parameters of the setups

`ParamSetup` of src/setups/*/setup.hpp: each setup reads its own keys of the configuration file (src/main.cpp 139). The unit factors of
src/units/units.hpp 19-45, all equal to 1, are left out. The first failing conversion throws.
-/

namespace Heracles

variable {K : Type} [Field K]

/-- src/setups/advection_gap/setup.hpp, the members of `ParamSetup`. -/
@[ext] structure AdvectionGapParam (K : Type) where
  (rho0 rho1 u0 P0 : K)
  deriving DecidableEq

/-- src/setups/advection_gap/setup.hpp 35-40. -/
def advectionGapParam (stod : Str → Except String K) (values : Str → Option Str) : Except String (AdvectionGapParam K) := do
  let rho0 ← iniGetReal stod values "Initialisation".toList "rho0".toList 1
  let rho1 ← iniGetReal stod values "Initialisation".toList "rho1".toList 1
  let u0 ← iniGetReal stod values "Initialisation".toList "u0".toList 1
  let P0 ← iniGetReal stod values "Initialisation".toList "P0".toList 1
  return { rho0 := rho0, rho1 := rho1, u0 := u0, P0 := P0 }

/-- src/setups/advection_sinus/setup.hpp, the members of `ParamSetup`. -/
@[ext] structure AdvectionSinusParam (K : Type) where
  (u0 P0 : K)
  deriving DecidableEq

/-- src/setups/advection_sinus/setup.hpp 33. -/
def advectionSinusParam (stod : Str → Except String K) (values : Str → Option Str) : Except String (AdvectionSinusParam K) := do
  let u0 ← iniGetReal stod values "Initialisation".toList "u0".toList 1
  let P0 ← iniGetReal stod values "Initialisation".toList "P0".toList 1
  return { u0 := u0, P0 := P0 }

/-- src/setups/eq_hydro_sphe/setup.hpp, the members of `ParamSetup`. -/
@[ext] structure EqHydroParam (K : Type) where
  (rho0 u0 T0 M : K)
  deriving DecidableEq

/-- src/setups/eq_hydro_sphe/setup.hpp 38-43. -/
def eqHydroParam (stod : Str → Except String K) (values : Str → Option Str) : Except String (EqHydroParam K) := do
  let rho0 ← iniGetReal stod values "Initialisation".toList "rho0".toList 1
  let u0 ← iniGetReal stod values "Initialisation".toList "u0".toList 1
  let T0 ← iniGetReal stod values "Initialisation".toList "T0".toList 100
  let M ← iniGetReal stod values "Gravity".toList "M".toList 1
  return { rho0 := rho0, u0 := u0, T0 := T0, M := M }

/-- src/setups/gresho_vortex/setup.hpp, the members of `ParamSetup`. -/
@[ext] structure GreshoParam (K : Type) where
  (rho0 u0 Ma : K)
  deriving DecidableEq

/-- src/setups/gresho_vortex/setup.hpp 35-39. -/
def greshoParam (stod : Str → Except String K) (values : Str → Option Str) : Except String (GreshoParam K) := do
  let rho0 ← iniGetReal stod values "Initialisation".toList "rho0".toList 1
  let u0 ← iniGetReal stod values "Initialisation".toList "u0".toList 1
  let Ma ← iniGetReal stod values "Initialisation".toList "Ma".toList 1
  return { rho0 := rho0, u0 := u0, Ma := Ma }

/-- src/setups/heat_nickel/setup.hpp, the members of `ParamSetup`. -/
@[ext] structure HeatNickelParam (K : Type) where
  (rho0 u0 T0 fx0 : K)
  deriving DecidableEq

/-- src/setups/heat_nickel/setup.hpp 35-40. -/
def heatNickelParam (stod : Str → Except String K) (values : Str → Option Str) : Except String (HeatNickelParam K) := do
  let rho0 ← iniGetReal stod values "Initialisation".toList "rho0".toList 1
  let u0 ← iniGetReal stod values "Initialisation".toList "u0".toList 1
  let T0 ← iniGetReal stod values "Initialisation".toList "T0".toList 1
  let fx0 ← iniGetReal stod values "Initialisation".toList "fx0".toList 1
  return { rho0 := rho0, u0 := u0, T0 := T0, fx0 := fx0 }

/-- src/setups/implosion_test/setup.hpp, the members of `ParamSetup`. -/
@[ext] structure ImplosionParam (K : Type) where
  (rho0 rho1 u0 P0 P1 : K)
  deriving DecidableEq

/-- src/setups/implosion_test/setup.hpp 36-42. -/
def implosionParam (stod : Str → Except String K) (values : Str → Option Str) : Except String (ImplosionParam K) := do
  let rho0 ← iniGetReal stod values "Initialisation".toList "rho0".toList 1
  let rho1 ← iniGetReal stod values "Initialisation".toList "rho1".toList 1
  let u0 ← iniGetReal stod values "Initialisation".toList "u0".toList 1
  let P0 ← iniGetReal stod values "Initialisation".toList "P0".toList 1
  let P1 ← iniGetReal stod values "Initialisation".toList "P1".toList 1
  return { rho0 := rho0, rho1 := rho1, u0 := u0, P0 := P0, P1 := P1 }

/-- src/setups/kelvin_helmholtz/setup.hpp, the members of `ParamSetup`. -/
@[ext] structure KelvinHelmholtzParam (K : Type) where
  (P0 : K)
  deriving DecidableEq

/-- src/setups/kelvin_helmholtz/setup.hpp 31. -/
def kelvinHelmholtzParam (stod : Str → Except String K) (values : Str → Option Str) : Except String (KelvinHelmholtzParam K) := do
  let P0 ← iniGetReal stod values "Initialisation".toList "P0".toList 1
  return { P0 := P0 }

/-- src/setups/rayleigh_taylor/setup.hpp, the members of `ParamSetup`. -/
@[ext] structure RayleighTaylorParam (K : Type) where
  (rho0 rho1 u A fx0 fx1 : K)
  deriving DecidableEq

/-- src/setups/rayleigh_taylor/setup.hpp 37-44. -/
def rayleighTaylorParam (stod : Str → Except String K) (values : Str → Option Str) : Except String (RayleighTaylorParam K) := do
  let rho0 ← iniGetReal stod values "Initialisation".toList "rho0".toList 1
  let rho1 ← iniGetReal stod values "Initialisation".toList "rho1".toList 1
  let u ← iniGetReal stod values "Initialisation".toList "u".toList 1
  let A ← iniGetReal stod values "Initialisation".toList "A".toList 1
  let fx0 ← iniGetReal stod values "Initialisation".toList "fx0".toList 1
  let fx1 ← iniGetReal stod values "Initialisation".toList "fx1".toList 1
  return { rho0 := rho0, rho1 := rho1, u := u, A := A, fx0 := fx0, fx1 := fx1 }

/-- src/setups/rayleigh_taylor3d/setup.hpp, the members of `ParamSetup`. -/
@[ext] structure Rt3dParam (K : Type) where
  (rho0 rho1 u0 P0 : K)
  deriving DecidableEq

/-- src/setups/rayleigh_taylor3d/setup.hpp 42-47. -/
def rt3dParam (stod : Str → Except String K) (values : Str → Option Str) : Except String (Rt3dParam K) := do
  let rho0 ← iniGetReal stod values "Initialisation".toList "rho0".toList 1
  let rho1 ← iniGetReal stod values "Initialisation".toList "rho1".toList 1
  let u0 ← iniGetReal stod values "Initialisation".toList "u0".toList 1
  let P0 ← iniGetReal stod values "Initialisation".toList "P0".toList 1
  return { rho0 := rho0, rho1 := rho1, u0 := u0, P0 := P0 }

/-- src/setups/sedov1d/setup.hpp, the members of `ParamSetup`. -/
@[ext] structure Sedov1dParam (K : Type) where
  (rho0 u0 E0 E1 : K)
  deriving DecidableEq

/-- src/setups/sedov1d/setup.hpp 36-41. -/
def sedov1dParam (stod : Str → Except String K) (values : Str → Option Str) : Except String (Sedov1dParam K) := do
  let rho0 ← iniGetReal stod values "Initialisation".toList "rho0".toList 1
  let u0 ← iniGetReal stod values "Initialisation".toList "u0".toList 1
  let E0 ← iniGetReal stod values "Initialisation".toList "E0".toList 1
  let E1 ← iniGetReal stod values "Initialisation".toList "E1".toList 1
  return { rho0 := rho0, u0 := u0, E0 := E0, E1 := E1 }

/-- src/setups/sedov2d/setup.hpp, the members of `ParamSetup`. -/
@[ext] structure Sedov2dParam (K : Type) where
  (rho0 u0 P0 E0 E1 : K)
  deriving DecidableEq

/-- src/setups/sedov2d/setup.hpp 38-44. -/
def sedov2dParam (stod : Str → Except String K) (values : Str → Option Str) : Except String (Sedov2dParam K) := do
  let rho0 ← iniGetReal stod values "Initialisation".toList "rho0".toList 1
  let u0 ← iniGetReal stod values "Initialisation".toList "u0".toList 1
  let P0 ← iniGetReal stod values "Initialisation".toList "P0".toList 1
  let E0 ← iniGetReal stod values "Initialisation".toList "E0".toList 1
  let E1 ← iniGetReal stod values "Initialisation".toList "E1".toList 1
  return { rho0 := rho0, u0 := u0, P0 := P0, E0 := E0, E1 := E1 }

/-- src/setups/sedov3d/setup.hpp, the members of `ParamSetup`. -/
@[ext] structure Sedov3dParam (K : Type) where
  (rho0 P0 E1 : K)
  deriving DecidableEq

/-- src/setups/sedov3d/setup.hpp 36-40. -/
def sedov3dParam (stod : Str → Except String K) (values : Str → Option Str) : Except String (Sedov3dParam K) := do
  let rho0 ← iniGetReal stod values "Initialisation".toList "rho0".toList 1
  let P0 ← iniGetReal stod values "Initialisation".toList "P0".toList 1
  let E1 ← iniGetReal stod values "Initialisation".toList "E1".toList 1
  return { rho0 := rho0, P0 := P0, E1 := E1 }

/-- src/setups/shock_tube/setup.hpp, the members of `ParamSetup`. -/
@[ext] structure ShockTubeParam (K : Type) where
  (rho0 rho1 u0 u1 P0 P1 inter : K)
  deriving DecidableEq

/-- src/setups/shock_tube/setup.hpp 38-46. -/
def tubeParam (stod : Str → Except String K) (values : Str → Option Str) : Except String (ShockTubeParam K) := do
  let rho0 ← iniGetReal stod values "Initialisation".toList "rho0".toList 1
  let rho1 ← iniGetReal stod values "Initialisation".toList "rho1".toList 1
  let u0 ← iniGetReal stod values "Initialisation".toList "u0".toList 1
  let u1 ← iniGetReal stod values "Initialisation".toList "u1".toList 1
  let P0 ← iniGetReal stod values "Initialisation".toList "P0".toList 1
  let P1 ← iniGetReal stod values "Initialisation".toList "P1".toList 1
  let inter ← iniGetReal stod values "Initialisation".toList "inter".toList 1
  return { rho0 := rho0, rho1 := rho1, u0 := u0, u1 := u1, P0 := P0, P1 := P1, inter := inter }

/-- src/setups/shock_wall/setup.hpp, the members of `ParamSetup`. -/
@[ext] structure ShockWallParam (K : Type) where
  (rho0 u0 P0 : K)
  deriving DecidableEq

/-- src/setups/shock_wall/setup.hpp 33-37. -/
def shockWallParam (stod : Str → Except String K) (values : Str → Option Str) : Except String (ShockWallParam K) := do
  let rho0 ← iniGetReal stod values "Initialisation".toList "rho0".toList 1
  let u0 ← iniGetReal stod values "Initialisation".toList "u0".toList 1
  let P0 ← iniGetReal stod values "Initialisation".toList "P0".toList 1
  return { rho0 := rho0, u0 := u0, P0 := P0 }

/-- src/setups/stratified_atm/setup.hpp, the members of `ParamSetup`. -/
@[ext] structure StratifiedParam (K : Type) where
  (rho0 u0 T0 gx : K)
  deriving DecidableEq

/-- src/setups/stratified_atm/setup.hpp 39-44. -/
def stratifiedParam (stod : Str → Except String K) (values : Str → Option Str) : Except String (StratifiedParam K) := do
  let rho0 ← iniGetReal stod values "Initialisation".toList "rho0".toList 1
  let u0 ← iniGetReal stod values "Initialisation".toList "u0".toList 1
  let T0 ← iniGetReal stod values "Initialisation".toList "T0".toList 1
  let gx ← iniGetReal stod values "Gravity".toList "gx".toList 1
  return { rho0 := rho0, u0 := u0, T0 := T0, gx := gx }

/-- src/setups/v1d/setup.hpp, the members of `ParamSetup`. -/
@[ext] structure TabParam (K : Type) where
  file : Str
  vmaxShift : K
  cellShift : ℤ
  deriving DecidableEq

/-- src/setups/v1d/setup.hpp 50-55. -/
def tabParam (stod : Str → Except String K) (values : Str → Option Str) : Except String (TabParam K) := do
  let file := iniLookup values "problem".toList "init_file".toList []
  let vmaxShift ← iniGetReal stod values "problem".toList "vmax_shift".toList 0
  let cellShift ← iniGetInteger values "problem".toList "cell_shift".toList 0
  return { file := file, vmaxShift := vmaxShift, cellShift := cellShift }

end Heracles
