import Verif.Model.Ini

/-!
# The input files that come with the code

The files inputs/*.ini, verbatim, line by line.
-/

namespace Heracles

/-- The contents of a file with these lines. -/
def linesText (lines : List String) : Str := lines.flatMap fun l => l.toList ++ ['\n']

/-- inputs/advection_gap.ini 1-33. -/
def iniAdvectionGap : List String :=
  ["; SPDX-FileCopyrightText: 2025 The HERACLES++ development team, see COPYRIGHT.md file", ";",
   "; SPDX-License-Identifier: MIT", "", "[Grid]", "Nx0_glob = 100", "Nx1_glob = 1", "Nx2_glob = 1", "", "[Run]", "t_end = 1",
   "cfl = 0.4", "", "[Output]", "max_iter = 1000000", "time_frequency = 1", "prefix = adv_gap", "", "[Hydro]",
   "reconstruction = Minmod", "riemann_solver = HLLC", "", "[Boundary Condition]", "BC_X0 = Periodic", "", "[Perfect Gas]",
   "gamma = 1.4", "", "[Initialisation]", "rho0 = 1", "rho1 = 2", "u0 = 1", "P0 = 0.1"]

/-- inputs/advection_sinus.ini 1-34. -/
def iniAdvectionSinus : List String :=
  ["; SPDX-FileCopyrightText: 2025 The HERACLES++ development team, see COPYRIGHT.md file", ";",
   "; SPDX-License-Identifier: MIT", "", "[Grid]", "Nx0_glob = 100", "Nx1_glob = 1", "Nx2_glob = 1", "", "x0min = 0",
   "x0max = 1", "", "[Run]", "t_end = 1", "cfl = 0.4", "", "[Output]", "max_iter = 1000000", "time_frequency = 1",
   "prefix = adv_sinus", "", "[Hydro]", "reconstruction = VanLeer", "riemann_solver = HLLC", "", "[Boundary Condition]",
   "BC_X0 = Periodic", "", "[Perfect Gas]", "gamma = 1.4", "", "[Initialisation]", "u0 = 1", "P0 = 0.1"]

/-- inputs/eq_hydro_sphe.ini 1-36. -/
def iniEqHydroSphe : List String :=
  ["; SPDX-FileCopyrightText: 2025 The HERACLES++ development team, see COPYRIGHT.md file", ";",
   "; SPDX-License-Identifier: MIT", "", "[Grid]", "Nx0_glob = 10000", "Nx1_glob = 1", "Nx2_glob = 1", "", "x0max = 1E6",
   "x0min = 1000", "", "[Run]", "t_end = 50", "cfl = 0.4", "", "[Output]", "max_iter = 1000000", "time_frequency = 25",
   "prefix = eq_hydro", "", "[Hydro]", "reconstruction = VanLeer", "riemann_solver = HLLC", "", "[Gravity]", "M = 2E19", "",
   "[Boundary Condition]", "BC_X0_left = UserDefined", "BC_X0_right = UserDefined", "", "[Initialisation]", "rho0 = 10",
   "u0 = 0", "T0 = 100"]

/-- inputs/example_init.ini 1-76. -/
def iniExampleInit : List String :=
  ["; SPDX-FileCopyrightText: 2025 The HERACLES++ development team, see COPYRIGHT.md file", ";",
   "; SPDX-License-Identifier: MIT", "", "[Problem]", "type =", "restart = restart, 1d_file", "restart_file =", "", "[Grid]",
   "Nx0_glob =  # global size in x0", "Nx1_glob =  # global size in x1", "Nx2_glob =  # global size in x2", "", "Nghost =", "",
   "x0min =", "x0max =", "x1min =", "x1max =", "x2min =", "x2max =", "", "[Parallelization]", "mpi_device_aware =", "",
   "mpi_dims_cart_x0 =", "mpi_dims_cart_x1 =", "mpi_dims_cart_x2 =", "", "[Run]", "t_ini =", "t_end =", "cfl =", "", "[Output]",
   "max_iter =", "iter_frequency =", "", "[Hydro]", "reconstruction =", "riemann_solver =", "", "[Gravity]", "gx0 =", "gx1 =",
   "gx2 =", "M =", "", "[Perfect Gas]", "gamma =", "mu =", "", "[Boundary Condition]", "BC =", "BC_X0_left =", "BC_X0_right =",
   "BC_X1_left =", "BC_X1_right =", "BC_X2_left =", "BC_X2_right =", "Priority =",
   "; priority high to low, high priority bc will overwrite low priority bc for the edge and corner data",
   "; if not defined, the priority will be by default X(l,r)->Y(l,r)->Z(l,r)", "", "[Initialisation]", "rho0 =", "rho1 =",
   "u0 =", "u1 =", "P0 =", "P1 =", "E0 =", "E1 =", "A =", "T ="]

/-- inputs/gresho_vortex.ini 1-37. -/
def iniGreshoVortex : List String :=
  ["; SPDX-FileCopyrightText: 2025 The HERACLES++ development team, see COPYRIGHT.md file", ";",
   "; SPDX-License-Identifier: MIT", "", "[Grid]", "Nx0_glob = 100", "Nx1_glob = 100", "Nx2_glob = 1", "", "x0min = -1",
   "x0max = 1", "x1min = -1", "x1max = 1", "", "[Run]", "t_end = 0.001", "cfl = 0.4", "", "[Output]", "max_iter = 100000",
   "iter_frequency = 1000", "", "[Hydro]", "reconstruction = Constant", "riemann_solver = Low Mach", "", "[Boundary Condition]",
   "BC = NullGradient", "Priority = X0_right X0_left X1_left X1_right", "", "[Perfect Gas]", "gamma = 1.4", "",
   "[Initialisation]", "rho0 = 1", "u0 = 0", "Ma = 0.00001"]

/-- inputs/heat_nickel.ini 1-45. -/
def iniHeatNickel : List String :=
  ["; SPDX-FileCopyrightText: 2025 The HERACLES++ development team, see COPYRIGHT.md file", ";",
   "; SPDX-License-Identifier: MIT", "", "[Problem]", "type = heat_nickel", "", "[Grid]", "Nx0_glob = 10 # global size in x0",
   "Nx1_glob = 1 # global size in x1", "Nx2_glob = 1 # global size in x2", "", "x0min = 0", "x0max = 1000000000", "", "[Run]",
   "t_end = 60480000 ; 700 days", "cfl = 0.4", "", "[Output]", "max_iter = 100000000", "iter_frequency = 100000", "", "[Hydro]",
   "reconstruction = VanLeer", "riemann_solver = HLL", "", "[Perfect Gas]", "mu = 55.9421278", "", "[Passive Scalar]", "nfx = 1",
   "", "[User step]", "user_step = Heat_nickel", "", "[Boundary Condition]", "BC_X0_left = NullGradient",
   "BC_X0_right = NullGradient", "", "[Initialisation]", "rho0 = 1E-6", "u0 = 0", "T0 = 1E5", "fx0 = 1"]

/-- inputs/implosion_test.ini 1-39. -/
def iniImplosionTest : List String :=
  ["; SPDX-FileCopyrightText: 2025 The HERACLES++ development team, see COPYRIGHT.md file", ";",
   "; SPDX-License-Identifier: MIT", "", "[Grid]", "Nx0_glob = 400", "Nx1_glob = 400", "Nx2_glob = 1", "", "x0min = 0",
   "x0max = 0.3", "x1min = 0", "x1max = 0.3", "", "[Run]", "t_end = 2.5", "cfl = 0.4", "", "[Output]", "max_iter = 1000000",
   "time_frequency = 0.5", "prefix = implosion", "", "[Hydro]", "reconstruction = Minmod", "riemann_solver = HLLC", "",
   "[Boundary Condition]", "BC = Reflexive", "", "[Perfect Gas]", "gamma = 1.4", "", "[Initialisation]", "rho0 = 1",
   "rho1 = 0.125", "u0 = 0", "P0 = 1", "P1 = 0.14"]

/-- inputs/kelvin_helmholtz.ini 1-37. -/
def iniKelvinHelmholtz : List String :=
  ["; SPDX-FileCopyrightText: 2025 The HERACLES++ development team, see COPYRIGHT.md file", ";",
   "; SPDX-License-Identifier: MIT", "", "[Grid]", "Nx0_glob = 2048", "Nx1_glob = 1024", "Nx2_glob = 1", "", "x0min = 0",
   "x0max = 4", "x1min = 0", "x1max = 2", "", "[Run]", "t_end = 6", "cfl = 0.4", "", "[Output]", "max_iter = 1000000",
   "time_frequency = 1", "prefix = kh", "", "[Hydro]", "reconstruction = Minmod", "riemann_solver = HLLC", "",
   "[Boundary Condition]", "BC = Periodic", "Priority = X0_right X0_left X1_left X1_right", "", "[Perfect Gas]", "gamma = 1.4",
   "", "[Initialisation]", "u0 = 1", "P0 = 10"]

/-- inputs/rayleigh_taylor.ini 1-49. -/
def iniRayleighTaylor : List String :=
  ["; SPDX-FileCopyrightText: 2025 The HERACLES++ development team, see COPYRIGHT.md file", ";",
   "; SPDX-License-Identifier: MIT", "", "[Grid]", "Nx0_glob = 100", "Nx1_glob = 200", "Nx2_glob = 1", "", "x0min = -0.5",
   "x0max = 0.5", "x1min = -1", "x1max = 1", "", "[Run]", "t_end = 10", "cfl = 0.4", "", "[Output]", "max_iter = 1000000000",
   "time_frequency = 0.5", "prefix = rt_2D", "", "[Hydro]", "reconstruction = Minmod", "riemann_solver = HLLC", "",
   "[Boundary Condition]", "BC_X0 = Periodic", "BC_X1 = Reflexive", "", "[Gravity]", "gx1 = -0.5", "", "[Perfect Gas]",
   "gamma = 1.4", "", "[Passive Scalar]", "nfx = 1", "", "[Initialisation]", "rho0 = 2", "fx0 = 1", "", "rho1 = 1", "fx1 = 0",
   "", "u = 0", "A = 0.01"]

/-- inputs/rayleigh_taylor3d.ini 1-47. -/
def iniRayleighTaylor3d : List String :=
  ["; SPDX-FileCopyrightText: 2025 The HERACLES++ development team, see COPYRIGHT.md file", ";",
   "; SPDX-License-Identifier: MIT", "", "[Problem]", "type = Rayleigh_Taylor_3D", "", "[Grid]", "Nx0_glob = 256",
   "Nx1_glob = 256", "Nx2_glob = 512", "", "x0min = -5", "x0max = 5", "x1min = -5", "x1max = 5", "x2min = -10", "x2max = 10", "",
   "[Run]", "t_end = 5.4", "cfl = 0.4", "", "[Output]", "max_iter = 1", "iter_frequency = 1000", "", "[Hydro]",
   "reconstruction = Minmod", "riemann_solver = HLL", "", "[Boundary Condition]", "BC_X0 = Periodic", "BC_X1 = Periodic",
   "BC_X2 = Reflexive ; to do: hydrostatic equilibrium", "", "[Gravity]", "type = Uniform", "gx2 = -2", "", "[Passive Scalar]",
   "nfx = 1", "", "[Initialisation]", "rho0 = 3", "rho1 = 1", "u0 = 0"]

/-- inputs/sedov1d.ini 1-37. -/
def iniSedov1d : List String :=
  ["; SPDX-FileCopyrightText: 2025 The HERACLES++ development team, see COPYRIGHT.md file", ";",
   "; SPDX-License-Identifier: MIT", "", "[Grid]", "Nx0_glob = 400", "Nx1_glob = 1", "Nx2_glob = 1", "", "x0min = 0",
   "x0max = 1", "", "[Run]", "t_end = 0.3", "cfl = 0.2", "", "[Output]", "max_iter = 1000000", "time_frequency = 0.1",
   "prefix = sedov_1D", "", "[Hydro]", "reconstruction = Minmod", "riemann_solver = HLLC", "", "[Perfect Gas]", "gamma = 1.4",
   "", "[Boundary Condition]", "BC_X0_left = Reflexive", "BC_X0_right = NullGradient", "", "[Initialisation]", "rho0 = 1",
   "u0 = 0", "E0 = 1E-12", "E1 = 1"]

/-- inputs/sedov2d.ini 1-35. -/
def iniSedov2d : List String :=
  ["; SPDX-FileCopyrightText: 2025 The HERACLES++ development team, see COPYRIGHT.md file", ";",
   "; SPDX-License-Identifier: MIT", "", "[Grid]", "Nx0_glob = 400", "Nx1_glob = 400", "Nx2_glob = 1", "", "x0min = -5",
   "x0max = 5", "x1min = -5", "x1max = 5", "", "[Run]", "t_end = 0.025", "cfl = 0.4", "", "[Output]", "max_iter = 1000000",
   "time_frequency = 0.01", "prefix = sedov_2D", "", "[Hydro]", "reconstruction = Minmod", "riemann_solver = HLLC", "",
   "[Boundary Condition]", "BC = NullGradient", "", "[Initialisation]", "rho0 = 1", "u0 = 0", "E0 = 1E-12", "E1 = 1E5"]

/-- inputs/sedov3d_sph.ini 1-43. -/
def iniSedov3dSph : List String :=
  ["; SPDX-FileCopyrightText: 2025 The HERACLES++ development team, see COPYRIGHT.md file", ";",
   "; SPDX-License-Identifier: MIT", "", "[Problem]", "type = Sedov_blast_wave_3D", "", "[Grid]",
   "Nx0_glob = 20 # global size in r", "Nx1_glob = 20 # global size in theta", "Nx2_glob = 100 # global size in phi", "", "; r",
   "x0min = 0.5", "x0max = 1.5", "; theta", "x1min = 0.7853981633974483 ; pi/4", "x1max = 2.356194490192345 ; 3pi/4", "; phi",
   "x2min = 0.7853981633974483 ; pi/4", "x2max = 2.356194490192345 ; 3pi/4", "", "[Run]", "t_end = 0.08", "cfl = 0.4", "",
   "[Output]", "max_iter = 100000", "iter_frequency = 100", "", "[Hydro]", "reconstruction = Minmod", "riemann_solver = HLLC",
   "", "[Boundary Condition]", "BC_X0 = NullGradient", "BC_X1 = NullGradient", "BC_X2 = NullGradient", "", "[Initialisation]",
   "rho0 = 1", "P0 = 0.01", "E1 = 1 ; (J) energy perturbation"]

/-- inputs/shock_tube.ini 1-39. -/
def iniShockTube : List String :=
  ["; SPDX-FileCopyrightText: 2025 The HERACLES++ development team, see COPYRIGHT.md file", ";",
   "; SPDX-License-Identifier: MIT", "", "[Grid]", "Nx0_glob = 100", "Nx1_glob = 1", "Nx2_glob = 1", "", "x0min = 0",
   "x0max = 1", "", "[Run]", "t_end = 0.2", "cfl = 0.4", "", "[Output]", "max_iter = 1000", "time_frequency = 0.1",
   "prefix = shock_tube", "", "[Hydro]", "reconstruction = Minmod", "riemann_solver = HLLC", "", "[Boundary Condition]",
   "BC_X0 = NullGradient", "", "[Perfect Gas]", "gamma = 1.4", "", "[Initialisation]", "rho0 = 1", "rho1 = 0.125", "u0 = 0",
   "u1 = 0", "P0 = 1", "P1 = 0.1", "inter = 0.5"]

/-- inputs/shock_tube1d_sph.ini 1-43. -/
def iniShockTube1dSph : List String :=
  ["; SPDX-FileCopyrightText: 2025 The HERACLES++ development team, see COPYRIGHT.md file", ";",
   "; SPDX-License-Identifier: MIT", "", "[Grid]", "Nx0_glob = 100", "Nx1_glob = 1", "Nx2_glob = 1", "", "; r", "x0min = 1",
   "x0max = 2", "", "[Perfect Gas]", "gamma = 1.4", "", "[Passive Scalar]", "nfx = 1", "", "[Run]", "timeout = 0.2", "cfl = 0.4",
   "", "[Output]", "max_iter = 1000", "time_frequency = 0.1", "prefix = shock_tube", "", "[Hydro]", "reconstruction = Minmod",
   "riemann_solver = HLLC", "", "[Boundary Condition]", "BC_X0 = NullGradient", "", "[Initialisation]", "rho0 = 1",
   "rho1 = 0.125", "u0 = 0", "u1 = 0", "P0 = 1", "P1 = 0.1", "inter = 1.5"]

/-- inputs/shock_tube3d_sph.ini 1-48. -/
def iniShockTube3dSph : List String :=
  ["; SPDX-FileCopyrightText: 2025 The HERACLES++ development team, see COPYRIGHT.md file", ";",
   "; SPDX-License-Identifier: MIT", "", "[Grid]", "Nx0_glob = 100", "Nx1_glob = 10", "Nx2_glob = 10", "", "; r", "x0min = 1",
   "x0max = 2", ";theta", "x1min = 0.7853981633974483 ; pi/4", "x1max = 1.5707963267948966 ; pi/2", "; phi",
   "x2min = 0.39269908169872414 ; pi/8", "x2max = 1.5707963267948966 ; pi/2", "", "[Perfect Gas]", "gamma = 1.4", "", "[Run]",
   "t_end = 0.2", "cfl = 0.4", "", "[Output]", "max_iter = 10000", "time_frequency = 0.1", "prefix = shock_tube", "", "[Hydro]",
   "reconstruction = Minmod", "riemann_solver = HLLC", "", "[Boundary Condition]", "BC_X0 = NullGradient", "BC_X1 = Reflexive",
   "BC_X2 = Reflexive", "", "[Initialisation]", "rho0 = 1", "rho1 = 0.125", "u0 = 0", "u1 = 0", "P0 = 1", "P1 = 0.1",
   "inter = 1.5"]

/-- inputs/shock_wall_pg.ini 1-33. -/
def iniShockWallPg : List String :=
  ["; SPDX-FileCopyrightText: 2025 The HERACLES++ development team, see COPYRIGHT.md file", ";",
   "; SPDX-License-Identifier: MIT", "", "[Grid]", "Nx0_glob = 1000", "Nx1_glob = 1", "Nx2_glob = 1", "", "x0min = 0",
   "x0max = 1", "", "[Run]", "t_end = 0.3", "cfl = 0.4", "", "[Output]", "max_iter = 1000000", "time_frequency = 0.1",
   "prefix = shock_pg", "", "[Hydro]", "reconstruction = Minmod", "riemann_solver = HLLC", "", "[Boundary Condition]",
   "BC_X0_left = Reflexive", "BC_X0_right = NullGradient", "", "[Initialisation]", "rho0 = 1", "u0 = -5", "P0 = 0.1"]

/-- inputs/shock_wall_rad.ini 1-33. -/
def iniShockWallRad : List String :=
  ["; SPDX-FileCopyrightText: 2025 The HERACLES++ development team, see COPYRIGHT.md file", ";",
   "; SPDX-License-Identifier: MIT", "", "[Grid]", "Nx0_glob = 1000", "Nx1_glob = 1", "Nx2_glob = 1", "", "x0min = 0",
   "x0max = 1", "", "[Run]", "t_end = 6.36e-5", "cfl = 0.4", "", "[Output]", "max_iter = 1000000", "time_frequency = 2e-5",
   "prefix = shock_rad", "", "[Hydro]", "reconstruction = Minmod", "riemann_solver = HLLC", "", "[Boundary Condition]",
   "BC_X0_left = Reflexive", "BC_X0_right = NullGradient", "", "[Initialisation]", "rho0 = 10E-10", "u0 = -5E4", "P0 = 0.1"]

/-- inputs/stratified_atm.ini 1-36. -/
def iniStratifiedAtm : List String :=
  ["; SPDX-FileCopyrightText: 2025 The HERACLES++ development team, see COPYRIGHT.md file", ";",
   "; SPDX-License-Identifier: MIT", "", "[Grid]", "Nx0_glob = 10000", "Nx1_glob = 1", "Nx2_glob = 1", "", "x0max = 1e6",
   "x0min = 0", "", "[Run]", "t_end = 400", "cfl = 0.4", "", "[Output]", "max_iter = 10000000", "time_frequency = 200",
   "prefix = strat_atm", "", "[Hydro]", "reconstruction = VanLeer", "riemann_solver = HLLC", "", "[Gravity]", "gx0 = -10", "",
   "[Boundary Condition]", "BC_X0_left = UserDefined", "BC_X0_right = UserDefined", "", "[Initialisation]", "rho0 = 10",
   "u0 = 0", "T0 = 100"]

/-- inputs/v1d_1d.ini 1-50. -/
def iniV1d1d : List String :=
  ["; SPDX-FileCopyrightText: 2025 The HERACLES++ development team, see COPYRIGHT.md file", ";",
   "; SPDX-License-Identifier: MIT", "", "[Problem]", "init_file = ../src/setups/v1d/v1d_1d_start.h5", "vmax_shift = 1E6",
   "cell_shift = 50", "", "[Grid]", "Nx0_glob = 999 # global size in x0", "Nx1_glob = 1 # global size in x1",
   "Nx2_glob = 1 # global size in x2", "", "type = UserDefined", "", "shift_grid = UserDefined", "", "[Run]", "t_ini = 502.1",
   "t_end = 1E5", "cfl = 0.4", "", "[Output]", "max_iter = 1000000", "iter_frequency = 10000", "", "[Hydro]",
   "reconstruction = Minmod", "riemann_solver = HLLC", "", "[Gravity]", "M = 2.7839E30 ; 1.4 Ms", "", "[Perfect Gas]",
   "mu = 0.62", "", "[Passive Scalar]", "nfx = 5", "", "[User step]", "user_step = Heat_nickel", "", "[Boundary Condition]",
   "BC_X0_left = Reflexive", "BC_X0_right = NullGradient", "", "[Pressure fix]", "pressure_fix = On", "eps_pf = 0.00001 ; 1e-6"]

/-- inputs/v1d_3d.ini 1-59. -/
def iniV1d3d : List String :=
  ["; SPDX-FileCopyrightText: 2025 The HERACLES++ development team, see COPYRIGHT.md file", ";",
   "; SPDX-License-Identifier: MIT", "", "[Problem]", "type = 1d_to_3d", "init_file = ../src/setups/v1d/v1d_1d_start.h5", "",
   "[Grid]", "Nx0_glob = 999 # global size in r", "Nx1_glob = 10 # global size in theta", "Nx2_glob = 10 # global size in phi",
   "", "type = UserDefined", "", "; r", "x0min = 294339061.1", "x0max = 663263168580.0", "; theta",
   "x1min = 0.7853981633974483 ; pi/4", "x1max = 2.356194490192345 ; 3pi/4", "; phi", "x2min = 0.7853981633974483 ; pi/4",
   "x2max = 2.356194490192345 ; 3pi/4", "", "[Run]", "t_ini = 502.1", "t_end = 1E5", "cfl = 0.4", "", "[Output]",
   "max_iter = 100000", "iter_frequency = 100", "", "[Hydro]", "reconstruction = Minmod", "riemann_solver = HLLC", "",
   "[Gravity]", "M = 2.7839E30 ; 1.4 Ms", "", "[Perfect Gas]", "mu = 0.62", "", "[Passive Scalar]", "nfx = 5", "", "[User step]",
   "user_step = Heat_nickel", "", "[Boundary Condition]", "BC_X0_left = Reflexive", "BC_X0_right = NullGradient",
   "BC_X1 = Reflexive", "BC_X2 = Reflexive", "", "[Pressure fix]", "pressure_fix = On", "eps_pf = 0.00001 ; 1e-6"]

end Heracles
