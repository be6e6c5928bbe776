import Verif.Lemmas.IniTable

/-!
# The entries of the input files
-/

namespace Heracles

/-- The entries of inputs/advection_gap.ini, the last one first. -/
def iniAdvectionGapTable : List (String × String) :=
  [("initialisation=p0", "0.1"), ("initialisation=u0", "1"), ("initialisation=rho1", "2"), ("initialisation=rho0", "1"),
   ("perfect gas=gamma", "1.4"), ("boundary condition=bc_x0", "Periodic"), ("hydro=riemann_solver", "HLLC"),
   ("hydro=reconstruction", "Minmod"), ("output=prefix", "adv_gap"), ("output=time_frequency", "1"),
   ("output=max_iter", "1000000"), ("run=cfl", "0.4"), ("run=t_end", "1"), ("grid=nx2_glob", "1"), ("grid=nx1_glob", "1"),
   ("grid=nx0_glob", "100")]

theorem iniAdvectionGap_table : iniReader (linesText iniAdvectionGap) = .ok fun k => (tableOf iniAdvectionGapTable).lookup k := reader_table (by decide +kernel)

/-- The entries of inputs/advection_sinus.ini, the last one first. -/
def iniAdvectionSinusTable : List (String × String) :=
  [("initialisation=p0", "0.1"), ("initialisation=u0", "1"), ("perfect gas=gamma", "1.4"),
   ("boundary condition=bc_x0", "Periodic"), ("hydro=riemann_solver", "HLLC"), ("hydro=reconstruction", "VanLeer"),
   ("output=prefix", "adv_sinus"), ("output=time_frequency", "1"), ("output=max_iter", "1000000"), ("run=cfl", "0.4"),
   ("run=t_end", "1"), ("grid=x0max", "1"), ("grid=x0min", "0"), ("grid=nx2_glob", "1"), ("grid=nx1_glob", "1"),
   ("grid=nx0_glob", "100")]

theorem iniAdvectionSinus_table : iniReader (linesText iniAdvectionSinus) = .ok fun k => (tableOf iniAdvectionSinusTable).lookup k := reader_table (by decide +kernel)

/-- The entries of inputs/eq_hydro_sphe.ini, the last one first. -/
def iniEqHydroSpheTable : List (String × String) :=
  [("initialisation=t0", "100"), ("initialisation=u0", "0"), ("initialisation=rho0", "10"),
   ("boundary condition=bc_x0_right", "UserDefined"), ("boundary condition=bc_x0_left", "UserDefined"), ("gravity=m", "2E19"),
   ("hydro=riemann_solver", "HLLC"), ("hydro=reconstruction", "VanLeer"), ("output=prefix", "eq_hydro"),
   ("output=time_frequency", "25"), ("output=max_iter", "1000000"), ("run=cfl", "0.4"), ("run=t_end", "50"),
   ("grid=x0min", "1000"), ("grid=x0max", "1E6"), ("grid=nx2_glob", "1"), ("grid=nx1_glob", "1"), ("grid=nx0_glob", "10000")]

theorem iniEqHydroSphe_table : iniReader (linesText iniEqHydroSphe) = .ok fun k => (tableOf iniEqHydroSpheTable).lookup k := reader_table (by decide +kernel)

/-- The entries of inputs/heat_nickel.ini, the last one first. -/
def iniHeatNickelTable : List (String × String) :=
  [("initialisation=fx0", "1"), ("initialisation=t0", "1E5"), ("initialisation=u0", "0"), ("initialisation=rho0", "1E-6"),
   ("boundary condition=bc_x0_right", "NullGradient"), ("boundary condition=bc_x0_left", "NullGradient"),
   ("user step=user_step", "Heat_nickel"), ("passive scalar=nfx", "1"), ("perfect gas=mu", "55.9421278"),
   ("hydro=riemann_solver", "HLL"), ("hydro=reconstruction", "VanLeer"), ("output=iter_frequency", "100000"),
   ("output=max_iter", "100000000"), ("run=cfl", "0.4"), ("run=t_end", "60480000"), ("grid=x0max", "1000000000"),
   ("grid=x0min", "0"), ("grid=nx2_glob", "1 # global size in x2"), ("grid=nx1_glob", "1 # global size in x1"),
   ("grid=nx0_glob", "10 # global size in x0"), ("problem=type", "heat_nickel")]

theorem iniHeatNickel_table : iniReader (linesText iniHeatNickel) = .ok fun k => (tableOf iniHeatNickelTable).lookup k := reader_table (by decide +kernel)

/-- The entries of inputs/implosion_test.ini, the last one first. -/
def iniImplosionTestTable : List (String × String) :=
  [("initialisation=p1", "0.14"), ("initialisation=p0", "1"), ("initialisation=u0", "0"), ("initialisation=rho1", "0.125"),
   ("initialisation=rho0", "1"), ("perfect gas=gamma", "1.4"), ("boundary condition=bc", "Reflexive"),
   ("hydro=riemann_solver", "HLLC"), ("hydro=reconstruction", "Minmod"), ("output=prefix", "implosion"),
   ("output=time_frequency", "0.5"), ("output=max_iter", "1000000"), ("run=cfl", "0.4"), ("run=t_end", "2.5"),
   ("grid=x1max", "0.3"), ("grid=x1min", "0"), ("grid=x0max", "0.3"), ("grid=x0min", "0"), ("grid=nx2_glob", "1"),
   ("grid=nx1_glob", "400"), ("grid=nx0_glob", "400")]

theorem iniImplosionTest_table : iniReader (linesText iniImplosionTest) = .ok fun k => (tableOf iniImplosionTestTable).lookup k := reader_table (by decide +kernel)

/-- The entries of inputs/rayleigh_taylor.ini, the last one first. -/
def iniRayleighTaylorTable : List (String × String) :=
  [("initialisation=a", "0.01"), ("initialisation=u", "0"), ("initialisation=fx1", "0"), ("initialisation=rho1", "1"),
   ("initialisation=fx0", "1"), ("initialisation=rho0", "2"), ("passive scalar=nfx", "1"), ("perfect gas=gamma", "1.4"),
   ("gravity=gx1", "-0.5"), ("boundary condition=bc_x1", "Reflexive"), ("boundary condition=bc_x0", "Periodic"),
   ("hydro=riemann_solver", "HLLC"), ("hydro=reconstruction", "Minmod"), ("output=prefix", "rt_2D"),
   ("output=time_frequency", "0.5"), ("output=max_iter", "1000000000"), ("run=cfl", "0.4"), ("run=t_end", "10"),
   ("grid=x1max", "1"), ("grid=x1min", "-1"), ("grid=x0max", "0.5"), ("grid=x0min", "-0.5"), ("grid=nx2_glob", "1"),
   ("grid=nx1_glob", "200"), ("grid=nx0_glob", "100")]

theorem iniRayleighTaylor_table : iniReader (linesText iniRayleighTaylor) = .ok fun k => (tableOf iniRayleighTaylorTable).lookup k := reader_table (by decide +kernel)

/-- The entries of inputs/rayleigh_taylor3d.ini, the last one first. -/
def iniRayleighTaylor3dTable : List (String × String) :=
  [("initialisation=u0", "0"), ("initialisation=rho1", "1"), ("initialisation=rho0", "3"), ("passive scalar=nfx", "1"),
   ("gravity=gx2", "-2"), ("gravity=type", "Uniform"), ("boundary condition=bc_x2", "Reflexive"),
   ("boundary condition=bc_x1", "Periodic"), ("boundary condition=bc_x0", "Periodic"), ("hydro=riemann_solver", "HLL"),
   ("hydro=reconstruction", "Minmod"), ("output=iter_frequency", "1000"), ("output=max_iter", "1"), ("run=cfl", "0.4"),
   ("run=t_end", "5.4"), ("grid=x2max", "10"), ("grid=x2min", "-10"), ("grid=x1max", "5"), ("grid=x1min", "-5"),
   ("grid=x0max", "5"), ("grid=x0min", "-5"), ("grid=nx2_glob", "512"), ("grid=nx1_glob", "256"), ("grid=nx0_glob", "256"),
   ("problem=type", "Rayleigh_Taylor_3D")]

theorem iniRayleighTaylor3d_table : iniReader (linesText iniRayleighTaylor3d) = .ok fun k => (tableOf iniRayleighTaylor3dTable).lookup k := reader_table (by decide +kernel)

/-- The entries of inputs/sedov1d.ini, the last one first. -/
def iniSedov1dTable : List (String × String) :=
  [("initialisation=e1", "1"), ("initialisation=e0", "1E-12"), ("initialisation=u0", "0"), ("initialisation=rho0", "1"),
   ("boundary condition=bc_x0_right", "NullGradient"), ("boundary condition=bc_x0_left", "Reflexive"),
   ("perfect gas=gamma", "1.4"), ("hydro=riemann_solver", "HLLC"), ("hydro=reconstruction", "Minmod"),
   ("output=prefix", "sedov_1D"), ("output=time_frequency", "0.1"), ("output=max_iter", "1000000"), ("run=cfl", "0.2"),
   ("run=t_end", "0.3"), ("grid=x0max", "1"), ("grid=x0min", "0"), ("grid=nx2_glob", "1"), ("grid=nx1_glob", "1"),
   ("grid=nx0_glob", "400")]

theorem iniSedov1d_table : iniReader (linesText iniSedov1d) = .ok fun k => (tableOf iniSedov1dTable).lookup k := reader_table (by decide +kernel)

/-- The entries of inputs/sedov2d.ini, the last one first. -/
def iniSedov2dTable : List (String × String) :=
  [("initialisation=e1", "1E5"), ("initialisation=e0", "1E-12"), ("initialisation=u0", "0"), ("initialisation=rho0", "1"),
   ("boundary condition=bc", "NullGradient"), ("hydro=riemann_solver", "HLLC"), ("hydro=reconstruction", "Minmod"),
   ("output=prefix", "sedov_2D"), ("output=time_frequency", "0.01"), ("output=max_iter", "1000000"), ("run=cfl", "0.4"),
   ("run=t_end", "0.025"), ("grid=x1max", "5"), ("grid=x1min", "-5"), ("grid=x0max", "5"), ("grid=x0min", "-5"),
   ("grid=nx2_glob", "1"), ("grid=nx1_glob", "400"), ("grid=nx0_glob", "400")]

theorem iniSedov2d_table : iniReader (linesText iniSedov2d) = .ok fun k => (tableOf iniSedov2dTable).lookup k := reader_table (by decide +kernel)

/-- The entries of inputs/sedov3d_sph.ini, the last one first. -/
def iniSedov3dSphTable : List (String × String) :=
  [("initialisation=e1", "1"), ("initialisation=p0", "0.01"), ("initialisation=rho0", "1"),
   ("boundary condition=bc_x2", "NullGradient"), ("boundary condition=bc_x1", "NullGradient"),
   ("boundary condition=bc_x0", "NullGradient"), ("hydro=riemann_solver", "HLLC"), ("hydro=reconstruction", "Minmod"),
   ("output=iter_frequency", "100"), ("output=max_iter", "100000"), ("run=cfl", "0.4"), ("run=t_end", "0.08"),
   ("grid=x2max", "2.356194490192345"), ("grid=x2min", "0.7853981633974483"), ("grid=x1max", "2.356194490192345"),
   ("grid=x1min", "0.7853981633974483"), ("grid=x0max", "1.5"), ("grid=x0min", "0.5"),
   ("grid=nx2_glob", "100 # global size in phi"), ("grid=nx1_glob", "20 # global size in theta"),
   ("grid=nx0_glob", "20 # global size in r"), ("problem=type", "Sedov_blast_wave_3D")]

theorem iniSedov3dSph_table : iniReader (linesText iniSedov3dSph) = .ok fun k => (tableOf iniSedov3dSphTable).lookup k := reader_table (by decide +kernel)

/-- The entries of inputs/shock_tube.ini, the last one first. -/
def iniShockTubeTable : List (String × String) :=
  [("initialisation=inter", "0.5"), ("initialisation=p1", "0.1"), ("initialisation=p0", "1"), ("initialisation=u1", "0"),
   ("initialisation=u0", "0"), ("initialisation=rho1", "0.125"), ("initialisation=rho0", "1"), ("perfect gas=gamma", "1.4"),
   ("boundary condition=bc_x0", "NullGradient"), ("hydro=riemann_solver", "HLLC"), ("hydro=reconstruction", "Minmod"),
   ("output=prefix", "shock_tube"), ("output=time_frequency", "0.1"), ("output=max_iter", "1000"), ("run=cfl", "0.4"),
   ("run=t_end", "0.2"), ("grid=x0max", "1"), ("grid=x0min", "0"), ("grid=nx2_glob", "1"), ("grid=nx1_glob", "1"),
   ("grid=nx0_glob", "100")]

theorem iniShockTube_table : iniReader (linesText iniShockTube) = .ok fun k => (tableOf iniShockTubeTable).lookup k := reader_table (by decide +kernel)

/-- The entries of inputs/shock_tube1d_sph.ini, the last one first. -/
def iniShockTube1dSphTable : List (String × String) :=
  [("initialisation=inter", "1.5"), ("initialisation=p1", "0.1"), ("initialisation=p0", "1"), ("initialisation=u1", "0"),
   ("initialisation=u0", "0"), ("initialisation=rho1", "0.125"), ("initialisation=rho0", "1"),
   ("boundary condition=bc_x0", "NullGradient"), ("hydro=riemann_solver", "HLLC"), ("hydro=reconstruction", "Minmod"),
   ("output=prefix", "shock_tube"), ("output=time_frequency", "0.1"), ("output=max_iter", "1000"), ("run=cfl", "0.4"),
   ("run=timeout", "0.2"), ("passive scalar=nfx", "1"), ("perfect gas=gamma", "1.4"), ("grid=x0max", "2"), ("grid=x0min", "1"),
   ("grid=nx2_glob", "1"), ("grid=nx1_glob", "1"), ("grid=nx0_glob", "100")]

theorem iniShockTube1dSph_table : iniReader (linesText iniShockTube1dSph) = .ok fun k => (tableOf iniShockTube1dSphTable).lookup k := reader_table (by decide +kernel)

/-- The entries of inputs/shock_tube3d_sph.ini, the last one first. -/
def iniShockTube3dSphTable : List (String × String) :=
  [("initialisation=inter", "1.5"), ("initialisation=p1", "0.1"), ("initialisation=p0", "1"), ("initialisation=u1", "0"),
   ("initialisation=u0", "0"), ("initialisation=rho1", "0.125"), ("initialisation=rho0", "1"),
   ("boundary condition=bc_x2", "Reflexive"), ("boundary condition=bc_x1", "Reflexive"),
   ("boundary condition=bc_x0", "NullGradient"), ("hydro=riemann_solver", "HLLC"), ("hydro=reconstruction", "Minmod"),
   ("output=prefix", "shock_tube"), ("output=time_frequency", "0.1"), ("output=max_iter", "10000"), ("run=cfl", "0.4"),
   ("run=t_end", "0.2"), ("perfect gas=gamma", "1.4"), ("grid=x2max", "1.5707963267948966"),
   ("grid=x2min", "0.39269908169872414"), ("grid=x1max", "1.5707963267948966"), ("grid=x1min", "0.7853981633974483"),
   ("grid=x0max", "2"), ("grid=x0min", "1"), ("grid=nx2_glob", "10"), ("grid=nx1_glob", "10"), ("grid=nx0_glob", "100")]

theorem iniShockTube3dSph_table : iniReader (linesText iniShockTube3dSph) = .ok fun k => (tableOf iniShockTube3dSphTable).lookup k := reader_table (by decide +kernel)

/-- The entries of inputs/shock_wall_pg.ini, the last one first. -/
def iniShockWallPgTable : List (String × String) :=
  [("initialisation=p0", "0.1"), ("initialisation=u0", "-5"), ("initialisation=rho0", "1"),
   ("boundary condition=bc_x0_right", "NullGradient"), ("boundary condition=bc_x0_left", "Reflexive"),
   ("hydro=riemann_solver", "HLLC"), ("hydro=reconstruction", "Minmod"), ("output=prefix", "shock_pg"),
   ("output=time_frequency", "0.1"), ("output=max_iter", "1000000"), ("run=cfl", "0.4"), ("run=t_end", "0.3"),
   ("grid=x0max", "1"), ("grid=x0min", "0"), ("grid=nx2_glob", "1"), ("grid=nx1_glob", "1"), ("grid=nx0_glob", "1000")]

theorem iniShockWallPg_table : iniReader (linesText iniShockWallPg) = .ok fun k => (tableOf iniShockWallPgTable).lookup k := reader_table (by decide +kernel)

/-- The entries of inputs/shock_wall_rad.ini, the last one first. -/
def iniShockWallRadTable : List (String × String) :=
  [("initialisation=p0", "0.1"), ("initialisation=u0", "-5E4"), ("initialisation=rho0", "10E-10"),
   ("boundary condition=bc_x0_right", "NullGradient"), ("boundary condition=bc_x0_left", "Reflexive"),
   ("hydro=riemann_solver", "HLLC"), ("hydro=reconstruction", "Minmod"), ("output=prefix", "shock_rad"),
   ("output=time_frequency", "2e-5"), ("output=max_iter", "1000000"), ("run=cfl", "0.4"), ("run=t_end", "6.36e-5"),
   ("grid=x0max", "1"), ("grid=x0min", "0"), ("grid=nx2_glob", "1"), ("grid=nx1_glob", "1"), ("grid=nx0_glob", "1000")]

theorem iniShockWallRad_table : iniReader (linesText iniShockWallRad) = .ok fun k => (tableOf iniShockWallRadTable).lookup k := reader_table (by decide +kernel)

/-- The entries of inputs/stratified_atm.ini, the last one first. -/
def iniStratifiedAtmTable : List (String × String) :=
  [("initialisation=t0", "100"), ("initialisation=u0", "0"), ("initialisation=rho0", "10"),
   ("boundary condition=bc_x0_right", "UserDefined"), ("boundary condition=bc_x0_left", "UserDefined"), ("gravity=gx0", "-10"),
   ("hydro=riemann_solver", "HLLC"), ("hydro=reconstruction", "VanLeer"), ("output=prefix", "strat_atm"),
   ("output=time_frequency", "200"), ("output=max_iter", "10000000"), ("run=cfl", "0.4"), ("run=t_end", "400"),
   ("grid=x0min", "0"), ("grid=x0max", "1e6"), ("grid=nx2_glob", "1"), ("grid=nx1_glob", "1"), ("grid=nx0_glob", "10000")]

theorem iniStratifiedAtm_table : iniReader (linesText iniStratifiedAtm) = .ok fun k => (tableOf iniStratifiedAtmTable).lookup k := reader_table (by decide +kernel)

/-- The entries of inputs/v1d_1d.ini, the last one first. -/
def iniV1d1dTable : List (String × String) :=
  [("pressure fix=eps_pf", "0.00001"), ("pressure fix=pressure_fix", "On"), ("boundary condition=bc_x0_right", "NullGradient"),
   ("boundary condition=bc_x0_left", "Reflexive"), ("user step=user_step", "Heat_nickel"), ("passive scalar=nfx", "5"),
   ("perfect gas=mu", "0.62"), ("gravity=m", "2.7839E30"), ("hydro=riemann_solver", "HLLC"), ("hydro=reconstruction", "Minmod"),
   ("output=iter_frequency", "10000"), ("output=max_iter", "1000000"), ("run=cfl", "0.4"), ("run=t_end", "1E5"),
   ("run=t_ini", "502.1"), ("grid=shift_grid", "UserDefined"), ("grid=type", "UserDefined"),
   ("grid=nx2_glob", "1 # global size in x2"), ("grid=nx1_glob", "1 # global size in x1"),
   ("grid=nx0_glob", "999 # global size in x0"), ("problem=cell_shift", "50"), ("problem=vmax_shift", "1E6"),
   ("problem=init_file", "../src/setups/v1d/v1d_1d_start.h5")]

theorem iniV1d1d_table : iniReader (linesText iniV1d1d) = .ok fun k => (tableOf iniV1d1dTable).lookup k := reader_table (by decide +kernel)

/-- The entries of inputs/v1d_3d.ini, the last one first. -/
def iniV1d3dTable : List (String × String) :=
  [("pressure fix=eps_pf", "0.00001"), ("pressure fix=pressure_fix", "On"), ("boundary condition=bc_x2", "Reflexive"),
   ("boundary condition=bc_x1", "Reflexive"), ("boundary condition=bc_x0_right", "NullGradient"),
   ("boundary condition=bc_x0_left", "Reflexive"), ("user step=user_step", "Heat_nickel"), ("passive scalar=nfx", "5"),
   ("perfect gas=mu", "0.62"), ("gravity=m", "2.7839E30"), ("hydro=riemann_solver", "HLLC"), ("hydro=reconstruction", "Minmod"),
   ("output=iter_frequency", "100"), ("output=max_iter", "100000"), ("run=cfl", "0.4"), ("run=t_end", "1E5"),
   ("run=t_ini", "502.1"), ("grid=x2max", "2.356194490192345"), ("grid=x2min", "0.7853981633974483"),
   ("grid=x1max", "2.356194490192345"), ("grid=x1min", "0.7853981633974483"), ("grid=x0max", "663263168580.0"),
   ("grid=x0min", "294339061.1"), ("grid=type", "UserDefined"), ("grid=nx2_glob", "10 # global size in phi"),
   ("grid=nx1_glob", "10 # global size in theta"), ("grid=nx0_glob", "999 # global size in r"),
   ("problem=init_file", "../src/setups/v1d/v1d_1d_start.h5"), ("problem=type", "1d_to_3d")]

theorem iniV1d3d_table : iniReader (linesText iniV1d3d) = .ok fun k => (tableOf iniV1d3dTable).lookup k := reader_table (by decide +kernel)

/-- The entries of inputs/gresho_vortex.ini, the last one first. -/
def iniGreshoVortexTable : List (String × String) :=
  [("initialisation=ma", "0.00001"), ("initialisation=u0", "0"), ("initialisation=rho0", "1"), ("perfect gas=gamma", "1.4"),
   ("boundary condition=priority", "X0_right X0_left X1_left X1_right"), ("boundary condition=bc", "NullGradient"),
   ("hydro=riemann_solver", "Low Mach"), ("hydro=reconstruction", "Constant"), ("output=iter_frequency", "1000"),
   ("output=max_iter", "100000"), ("run=cfl", "0.4"), ("run=t_end", "0.001"), ("grid=x1max", "1"), ("grid=x1min", "-1"),
   ("grid=x0max", "1"), ("grid=x0min", "-1"), ("grid=nx2_glob", "1"), ("grid=nx1_glob", "100"), ("grid=nx0_glob", "100")]

theorem iniGreshoVortex_table : iniReader (linesText iniGreshoVortex) = .ok fun k => (tableOf iniGreshoVortexTable).lookup k := reader_table (by decide +kernel)

/-- The entries of inputs/kelvin_helmholtz.ini, the last one first. -/
def iniKelvinHelmholtzTable : List (String × String) :=
  [("initialisation=p0", "10"), ("initialisation=u0", "1"), ("perfect gas=gamma", "1.4"),
   ("boundary condition=priority", "X0_right X0_left X1_left X1_right"), ("boundary condition=bc", "Periodic"),
   ("hydro=riemann_solver", "HLLC"), ("hydro=reconstruction", "Minmod"), ("output=prefix", "kh"), ("output=time_frequency", "1"),
   ("output=max_iter", "1000000"), ("run=cfl", "0.4"), ("run=t_end", "6"), ("grid=x1max", "2"), ("grid=x1min", "0"),
   ("grid=x0max", "4"), ("grid=x0min", "0"), ("grid=nx2_glob", "1"), ("grid=nx1_glob", "1024"), ("grid=nx0_glob", "2048")]

theorem iniKelvinHelmholtz_table : iniReader (linesText iniKelvinHelmholtz) = .ok fun k => (tableOf iniKelvinHelmholtzTable).lookup k := reader_table (by decide +kernel)

/-- The entries of inputs/example_init.ini, the last one first. -/
def iniExampleInitTable : List (String × String) :=
  [("initialisation=t", ""), ("initialisation=a", ""), ("initialisation=e1", ""), ("initialisation=e0", ""),
   ("initialisation=p1", ""), ("initialisation=p0", ""), ("initialisation=u1", ""), ("initialisation=u0", ""),
   ("initialisation=rho1", ""), ("initialisation=rho0", ""), ("boundary condition=priority", ""),
   ("boundary condition=bc_x2_right", ""), ("boundary condition=bc_x2_left", ""), ("boundary condition=bc_x1_right", ""),
   ("boundary condition=bc_x1_left", ""), ("boundary condition=bc_x0_right", ""), ("boundary condition=bc_x0_left", ""),
   ("boundary condition=bc", ""), ("perfect gas=mu", ""), ("perfect gas=gamma", ""), ("gravity=m", ""), ("gravity=gx2", ""),
   ("gravity=gx1", ""), ("gravity=gx0", ""), ("hydro=riemann_solver", ""), ("hydro=reconstruction", ""),
   ("output=iter_frequency", ""), ("output=max_iter", ""), ("run=cfl", ""), ("run=t_end", ""), ("run=t_ini", ""),
   ("parallelization=mpi_dims_cart_x2", ""), ("parallelization=mpi_dims_cart_x1", ""), ("parallelization=mpi_dims_cart_x0", ""),
   ("parallelization=mpi_device_aware", ""), ("grid=x2max", ""), ("grid=x2min", ""), ("grid=x1max", ""), ("grid=x1min", ""),
   ("grid=x0max", ""), ("grid=x0min", ""), ("grid=nghost", ""), ("grid=nx2_glob", "# global size in x2"),
   ("grid=nx1_glob", "# global size in x1"), ("grid=nx0_glob", "# global size in x0"), ("problem=restart_file", ""),
   ("problem=restart", "restart, 1d_file"), ("problem=type", "")]

theorem iniExampleInit_table : iniReader (linesText iniExampleInit) = .ok fun k => (tableOf iniExampleInitTable).lookup k := reader_table (by decide +kernel)

end Heracles
