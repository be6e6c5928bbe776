import Verif.Model.Param

/-!
# Specification: the runs that the input files describe
-/

namespace Heracles

/-- The parameters of a file that says nothing. -/
def defaultParam : Param ℚ :=
  { problem := "ShockTube".toList, restart := false, restartFile := "None".toList, rmaxShift := 10 ^ 20, nx := ![0, 0, 0]
    gridType := "Regular".toList, ng := 2, xmin := ![0, 0, 0], xmax := ![1, 1, 1], shiftGrid := "Off".toList, deviceAware := false
    dims := ![0, 0, 0], tIni := 0, tEnd := 1 / 5, cfl := 2 / 5, maxIter := 10000, iterFreq := 0, timeFreq := 0, timeFirst := 0
    directory := ".".toList, pfx := "result".toList, timeJob := 20, reconstruction := "VanLeer".toList, riemann := "HLL".toList
    gx := ![0, 0, 0], mass := 1, gamma := 5 / 3, mu := 1, bc := [], priority := [], nfx := 0, userStep := "Off".toList
    pressureFix := "Off".toList, epsPf := 1 / 1000000 }

deriving instance DecidableEq for Param

/-- A run: its parameters, the conditions at the faces (left and right of each direction), the order in which they are applied, the
grid, slopes, solver, heating, moving grid. -/
structure Described where
  param : Param ℚ
  bcs : List BcKind
  order : List ℕ
  grid : GridKind := .regular
  lim : Limiter := .vanLeer
  sol : Solver := .hll
  step : UserStepKind := .off
  shift : Bool := false
  deriving DecidableEq

/-- Gases with `gamma > 1` and a positive molecular weight are accepted (C18). -/
def gasOk (gamma mu : ℚ) : Except String Unit := if 1 < gamma ∧ 0 < mu then .ok () else .error "gas"

/-- The run `c` is the one described. -/
structure RunIs {d : ℕ} (e : Described) (c : RunConfig d Unit ℚ) : Prop where
  param : c.param = e.param
  bcs : ((List.finRange d).flatMap fun a => [c.bcs a 0, c.bcs a 1]) = e.bcs
  order : c.order = e.order.map some
  grid : c.grid = some e.grid
  lim : c.lim = e.lim
  sol : c.sol = e.sol
  step : c.step = e.step
  shift : c.shift = e.shift

/-- What inputs/advection_gap.ini asks for, in 1 dimension. -/
def runAdvectionGap : Described :=
  { param := { defaultParam with
      nx := ![100, 1, 1], tEnd := 1, maxIter := 1000000, timeFreq := 1, timeFirst := 1, pfx := "adv_gap".toList
      reconstruction := "Minmod".toList, riemann := "HLLC".toList, gamma := 7 / 5 }
    bcs := [.periodic, .periodic], order := [0, 1], lim := .minmod, sol := .hllc }

/-- What inputs/advection_sinus.ini asks for, in 1 dimension. -/
def runAdvectionSinus : Described :=
  { param := { defaultParam with
      nx := ![100, 1, 1], tEnd := 1, maxIter := 1000000, timeFreq := 1, timeFirst := 1, pfx := "adv_sinus".toList
      riemann := "HLLC".toList, gamma := 7 / 5 }
    bcs := [.periodic, .periodic], order := [0, 1], sol := .hllc }

/-- What inputs/eq_hydro_sphe.ini asks for, in 1 dimension. -/
def runEqHydroSphe : Described :=
  { param := { defaultParam with
      nx := ![10000, 1, 1], xmin := ![1000, 0, 0], xmax := ![1000000, 1, 1], tEnd := 50, maxIter := 1000000, timeFreq := 25
      timeFirst := 25, pfx := "eq_hydro".toList, riemann := "HLLC".toList, mass := 2 * 10 ^ 19 }
    bcs := [.userDefined, .userDefined], order := [0, 1], sol := .hllc }

/-- What inputs/heat_nickel.ini asks for, in 1 dimension. -/
def runHeatNickel : Described :=
  { param := { defaultParam with
      problem := "heat_nickel".toList, nx := ![10, 1, 1], xmax := ![10 ^ 9, 1, 1], tEnd := 60480000, maxIter := 10 ^ 8
      iterFreq := 100000, mu := 279710639 / 5000000, nfx := 1, userStep := "Heat_nickel".toList }
    bcs := [.nullGradient, .nullGradient], order := [0, 1], step := .heatNickel }

/-- What inputs/implosion_test.ini asks for, in 2 dimensions. -/
def runImplosionTest : Described :=
  { param := { defaultParam with
      nx := ![400, 400, 1], xmax := ![3 / 10, 3 / 10, 1], tEnd := 5 / 2, maxIter := 1000000, timeFreq := 1 / 2
      timeFirst := 1 / 2, pfx := "implosion".toList, reconstruction := "Minmod".toList, riemann := "HLLC".toList
      gamma := 7 / 5, bc := "Reflexive".toList }
    bcs := [.reflexive, .reflexive, .reflexive, .reflexive], order := [0, 1, 2, 3], lim := .minmod, sol := .hllc }

/-- What inputs/rayleigh_taylor.ini asks for, in 2 dimensions. -/
def runRayleighTaylor : Described :=
  { param := { defaultParam with
      nx := ![100, 200, 1], xmin := ![-1 / 2, -1, 0], xmax := ![1 / 2, 1, 1], tEnd := 10, maxIter := 10 ^ 9, timeFreq := 1 / 2
      timeFirst := 1 / 2, pfx := "rt_2D".toList, reconstruction := "Minmod".toList, riemann := "HLLC".toList
      gx := ![0, -1 / 2, 0], gamma := 7 / 5, nfx := 1 }
    bcs := [.periodic, .periodic, .reflexive, .reflexive], order := [0, 1, 2, 3], lim := .minmod, sol := .hllc }

/-- What inputs/rayleigh_taylor3d.ini asks for, in 3 dimensions. -/
def runRayleighTaylor3d : Described :=
  { param := { defaultParam with
      problem := "Rayleigh_Taylor_3D".toList, nx := ![256, 256, 512], xmin := ![-5, -5, -10], xmax := ![5, 5, 10]
      tEnd := 27 / 5, maxIter := 1, iterFreq := 1000, reconstruction := "Minmod".toList, gx := ![0, 0, -2], nfx := 1 }
    bcs := [.periodic, .periodic, .periodic, .periodic, .reflexive, .reflexive], order := [0, 1, 2, 3, 4, 5], lim := .minmod }

/-- What inputs/sedov1d.ini asks for, in 1 dimension. -/
def runSedov1d : Described :=
  { param := { defaultParam with
      nx := ![400, 1, 1], tEnd := 3 / 10, cfl := 1 / 5, maxIter := 1000000, timeFreq := 1 / 10, timeFirst := 1 / 10
      pfx := "sedov_1D".toList, reconstruction := "Minmod".toList, riemann := "HLLC".toList, gamma := 7 / 5 }
    bcs := [.reflexive, .nullGradient], order := [0, 1], lim := .minmod, sol := .hllc }

/-- What inputs/sedov2d.ini asks for, in 2 dimensions. -/
def runSedov2d : Described :=
  { param := { defaultParam with
      nx := ![400, 400, 1], xmin := ![-5, -5, 0], xmax := ![5, 5, 1], tEnd := 1 / 40, maxIter := 1000000, timeFreq := 1 / 100
      timeFirst := 1 / 100, pfx := "sedov_2D".toList, reconstruction := "Minmod".toList, riemann := "HLLC".toList
      bc := "NullGradient".toList }
    bcs := [.nullGradient, .nullGradient, .nullGradient, .nullGradient], order := [0, 1, 2, 3], lim := .minmod, sol := .hllc }

/-- What inputs/sedov3d_sph.ini asks for, in 3 dimensions. -/
def runSedov3dSph : Described :=
  { param := { defaultParam with
      problem := "Sedov_blast_wave_3D".toList, nx := ![20, 20, 100]
      xmin := ![1 / 2, 7853981633974483 / 10000000000000000, 7853981633974483 / 10000000000000000]
      xmax := ![3 / 2, 471238898038469 / 200000000000000, 471238898038469 / 200000000000000], tEnd := 2 / 25
      maxIter := 100000, iterFreq := 100, reconstruction := "Minmod".toList, riemann := "HLLC".toList }
    bcs := [.nullGradient, .nullGradient, .nullGradient, .nullGradient, .nullGradient, .nullGradient]
    order := [0, 1, 2, 3, 4, 5], lim := .minmod, sol := .hllc }

/-- What inputs/shock_tube.ini asks for, in 1 dimension. -/
def runShockTube : Described :=
  { param := { defaultParam with
      nx := ![100, 1, 1], tEnd := 1 / 5, maxIter := 1000, timeFreq := 1 / 10, timeFirst := 1 / 10, pfx := "shock_tube".toList
      reconstruction := "Minmod".toList, riemann := "HLLC".toList, gamma := 7 / 5 }
    bcs := [.nullGradient, .nullGradient], order := [0, 1], lim := .minmod, sol := .hllc }

/-- What inputs/shock_tube1d_sph.ini asks for, in 1 dimension. -/
def runShockTube1dSph : Described :=
  { param := { defaultParam with
      nx := ![100, 1, 1], xmin := ![1, 0, 0], xmax := ![2, 1, 1], maxIter := 1000, timeFreq := 1 / 10, timeFirst := 1 / 10
      pfx := "shock_tube".toList, reconstruction := "Minmod".toList, riemann := "HLLC".toList, gamma := 7 / 5, nfx := 1 }
    bcs := [.nullGradient, .nullGradient], order := [0, 1], lim := .minmod, sol := .hllc }

/-- What inputs/shock_tube3d_sph.ini asks for, in 3 dimensions. -/
def runShockTube3dSph : Described :=
  { param := { defaultParam with
      nx := ![100, 10, 10], xmin := ![1, 7853981633974483 / 10000000000000000, 19634954084936207 / 50000000000000000]
      xmax := ![2, 7853981633974483 / 5000000000000000, 7853981633974483 / 5000000000000000], tEnd := 1 / 5, maxIter := 10000
      timeFreq := 1 / 10, timeFirst := 1 / 10, pfx := "shock_tube".toList, reconstruction := "Minmod".toList
      riemann := "HLLC".toList, gamma := 7 / 5 }
    bcs := [.nullGradient, .nullGradient, .reflexive, .reflexive, .reflexive, .reflexive], order := [0, 1, 2, 3, 4, 5]
    lim := .minmod, sol := .hllc }

/-- What inputs/shock_wall_pg.ini asks for, in 1 dimension. -/
def runShockWallPg : Described :=
  { param := { defaultParam with
      nx := ![1000, 1, 1], tEnd := 3 / 10, maxIter := 1000000, timeFreq := 1 / 10, timeFirst := 1 / 10
      pfx := "shock_pg".toList, reconstruction := "Minmod".toList, riemann := "HLLC".toList }
    bcs := [.reflexive, .nullGradient], order := [0, 1], lim := .minmod, sol := .hllc }

/-- What inputs/shock_wall_rad.ini asks for, in 1 dimension. -/
def runShockWallRad : Described :=
  { param := { defaultParam with
      nx := ![1000, 1, 1], tEnd := 159 / 2500000, maxIter := 1000000, timeFreq := 1 / 50000, timeFirst := 1 / 50000
      pfx := "shock_rad".toList, reconstruction := "Minmod".toList, riemann := "HLLC".toList }
    bcs := [.reflexive, .nullGradient], order := [0, 1], lim := .minmod, sol := .hllc }

/-- What inputs/stratified_atm.ini asks for, in 1 dimension. -/
def runStratifiedAtm : Described :=
  { param := { defaultParam with
      nx := ![10000, 1, 1], xmax := ![1000000, 1, 1], tEnd := 400, maxIter := 10 ^ 7, timeFreq := 200, timeFirst := 200
      pfx := "strat_atm".toList, riemann := "HLLC".toList, gx := ![-10, 0, 0] }
    bcs := [.userDefined, .userDefined], order := [0, 1], sol := .hllc }

/-- What inputs/v1d_1d.ini asks for, in 1 dimension. -/
def runV1d1d : Described :=
  { param := { defaultParam with
      nx := ![999, 1, 1], gridType := "UserDefined".toList, shiftGrid := "UserDefined".toList, tIni := 5021 / 10
      tEnd := 100000, maxIter := 1000000, iterFreq := 10000, timeFirst := 5021 / 10, reconstruction := "Minmod".toList
      riemann := "HLLC".toList, mass := 27839 * 10 ^ 26, mu := 31 / 50, nfx := 5, userStep := "Heat_nickel".toList
      pressureFix := "On".toList, epsPf := 1 / 100000 }
    bcs := [.reflexive, .nullGradient], order := [0, 1], grid := .userDefined, lim := .minmod, sol := .hllc
    step := .heatNickel, shift := true }

/-- What inputs/v1d_3d.ini asks for, in 3 dimensions. -/
def runV1d3d : Described :=
  { param := { defaultParam with
      problem := "1d_to_3d".toList, nx := ![999, 10, 10], gridType := "UserDefined".toList
      xmin := ![2943390611 / 10, 7853981633974483 / 10000000000000000, 7853981633974483 / 10000000000000000]
      xmax := ![663263168580, 471238898038469 / 200000000000000, 471238898038469 / 200000000000000], tIni := 5021 / 10
      tEnd := 100000, maxIter := 100000, iterFreq := 100, timeFirst := 5021 / 10, reconstruction := "Minmod".toList
      riemann := "HLLC".toList, mass := 27839 * 10 ^ 26, mu := 31 / 50, nfx := 5, userStep := "Heat_nickel".toList
      pressureFix := "On".toList, epsPf := 1 / 100000 }
    bcs := [.reflexive, .nullGradient, .reflexive, .reflexive, .reflexive, .reflexive], order := [0, 1, 2, 3, 4, 5]
    grid := .userDefined, lim := .minmod, sol := .hllc, step := .heatNickel }

end Heracles
