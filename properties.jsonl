{"id": "C01", "title": "Domain decomposition is an exact balanced tiling", "statement": "Whatever the global cell count N and process count d along a direction, the per-rank cell intervals [start, start+local) reported by the grid are pairwise disjoint, consecutive in rank order, cover exactly [0,N), and their lengths differ by at most one cell.", "quantifier": "for every global size N >= 0, every positive number of ranks d in a direction and every rank coordinate, in every direction independently", "why_tests_cant": "A test runs a handful of (N,d) pairs; off-by-one errors in the remainder handling only show for particular residues.", "anchors": ["src/mesh/grid.cpp: Grid::mpi_decomposition", "src/mesh/grid.hpp: Grid::Nx_local_ng, Grid::range"]}
{"id": "C02", "title": "Border flags mark exactly the ranks that own the domain boundary", "statement": "A rank reports itself a left (right) border in a direction exactly when its cell interval starts at 0 (ends at N) in rank order, so that each physical boundary face of the domain is handled by exactly one layer of ranks.", "quantifier": "for every process grid shape and every rank coordinate", "why_tests_cant": "Tests run with few ranks; the claim is over all process grids.", "anchors": ["src/mesh/grid.cpp: Grid::mpi_decomposition (is_border)", "src/boundary_distribute.hpp: operator()"]}
{"id": "C03", "title": "Local node coordinates are the right slice of the global mesh", "statement": "After the grid is set, node l of a rank holds the global node coordinate start+l, ghosts included; neighbouring ranks agree on every node they share, and all accesses to the global coordinate array stay in bounds.", "quantifier": "for every decomposition, number of ghosts, rank, local node index and global mesh", "why_tests_cant": "Needs all decompositions and all offsets.", "anchors": ["src/mesh/grid.cpp: Grid::set_grid, Grid::mpi_decomposition"]}
{"id": "C04", "title": "Halo exchange reproduces the periodic global field", "statement": "After a halo exchange over all directions and faces, every cell of every rank, including edge and corner ghosts, holds the value of the periodic extension of the global interior field, independently of how the domain is split.", "quantifier": "for every process grid, every per-rank size at least the number of ghosts, every number of ghosts, every field", "why_tests_cant": "Corner ghosts depend on the order of the directional exchanges and on the decomposition; unit tests check one rank or one layout.", "anchors": ["src/boundary_distribute.cpp: DistributedBoundaryCondition::ghost_sync", "src/boundary_distribute.hpp: DistributedBoundaryCondition::operator()"]}
{"id": "C05", "title": "Halo exchange never touches interior cells and stays in bounds", "statement": "A halo exchange leaves every interior cell of every rank unchanged and only addresses cells inside the allocated arrays, provided each rank owns at least as many cells as ghosts in each direction; with fewer cells than ghosts, cells that are themselves ghosts are sent.", "quantifier": "for every array extents, ghost width, direction, face and rank layout", "why_tests_cant": "Out-of-range subviews depend on the extents; small local sizes are not tested.", "anchors": ["src/boundary_distribute.cpp: DistributedBoundaryCondition::ghost_sync"]}
{"id": "C06", "title": "Null-gradient boundary copies the nearest interior layer", "statement": "Executing the null-gradient condition on a face sets every ghost cell of that face (for density, momentum, energy and every scalar) to the value of the closest non-ghost layer in that direction and changes no other cell; the result does not depend on the order in which the parallel iterations run.", "quantifier": "for every array size with at least one cell beyond the ghosts, ghost width, direction, face, field and iteration order", "why_tests_cant": "Schedules and sizes cannot be enumerated.", "anchors": ["src/boundary.cpp: null_gradient_condition", "src/boundary.hpp: NullGradient"]}
{"id": "C07", "title": "Reflexive boundary is an exact mirror with reversed normal momentum", "statement": "Executing the reflexive condition on a face sets every ghost cell to its mirror image across the boundary face, with the momentum component normal to the face negated and every other field unchanged, and changes no other cell, in any iteration order; all reads are of interior cells when the local size is at least the ghost width.", "quantifier": "for every array size, ghost width, direction, face, field and iteration order", "why_tests_cant": "Schedules, sizes and ghost widths cannot be enumerated.", "anchors": ["src/boundary.cpp: reflexive_condition", "src/boundary.hpp: ReflexiveCondition"]}
{"id": "C08", "title": "Boundary priority string decides corner ownership", "statement": "The user-supplied priority lists faces from high to low priority; boundary conditions are run so that a higher priority face is executed after every lower priority one and therefore overwrites it on edges and corners.", "quantifier": "for every permutation of the face names in 1, 2 and 3 dimensions", "why_tests_cant": "720 orders in 3D; tests cover none or one.", "anchors": ["src/boundary_distribute.cpp: generate_order", "src/boundary_distribute.hpp: operator()", "inputs/example_init.ini: Priority"]}
{"id": "C09", "title": "Malformed priority strings are rejected", "statement": "A non-empty priority string that does not name every face of the run exactly once is rejected with an error; no boundary order slot is ever left uninitialised.", "quantifier": "for every list of words", "why_tests_cant": "Unbounded set of input strings.", "anchors": ["src/boundary_distribute.cpp: generate_order"]}
{"id": "C10", "title": "Boundary kind fallback is face, then direction, then global", "statement": "The boundary condition used on a face is the face-specific entry if present, otherwise the direction entry, otherwise the global entry; the run aborts exactly when the resolved choice for some face is empty or unknown.", "quantifier": "for every input file content and every face", "why_tests_cant": "Combinations of presence/absence of keys over six faces.", "anchors": ["src/main.cpp: main (lines 174-185, 268-277)", "src/boundary_factory.hpp: factory_boundary_construction"]}
{"id": "C11", "title": "Full boundary update acts only on ghosts and only where asked", "statement": "Running the distributed boundary update leaves all interior cells unchanged and applies the physical condition of a face only on ranks that border that face; on non-border faces the ghosts are those of the neighbouring rank.", "quantifier": "for every decomposition, boundary selection and field", "why_tests_cant": "Needs all decompositions and boundary combinations.", "anchors": ["src/boundary_distribute.hpp: DistributedBoundaryCondition::operator()"]}
{"id": "C12", "title": "Index ranges have the documented shape and reject bad input", "statement": "A Range with corners Cmin<=Cmax and Ng ghosts yields, in active dimensions, interior cells [Ng, Ng+n), one-ghost and two-ghost enlargements by 1 and 2 on both sides, faces one longer than cells, and no ghosts in inactive dimensions; negative or inverted corners and more effective ghosts than available are rejected.", "quantifier": "for every corner pair, ghost count and dimension count", "why_tests_cant": "Unbounded integers.", "anchors": ["src/mesh/range.cpp: Range::Range, Range::with_ghosts, cell_range"]}
{"id": "C13", "title": "Parallel loops visit each cell of a range exactly once", "statement": "The index box produced for a range with n effective ghosts contains precisely the interior cells plus n layers in active dimensions, lies inside the allocated local array whenever n <= Ng, and growing n gives nested boxes.", "quantifier": "for every corner pair, ghost count, effective ghost count", "why_tests_cant": "Unbounded integers.", "anchors": ["src/mesh/range.cpp: cell_range, cell_mdrange", "src/mesh/range.hpp"]}
{"id": "C14", "title": "Primitive/conservative conversion is a bijection on physical states", "statement": "Converting primitive to conservative variables and back (and conversely) returns the same state for positive density, for any perfect gas and any dimension.", "quantifier": "for every state with non-zero density and every admissible gas", "why_tests_cant": "Continuous domain.", "anchors": ["src/hydro/euler_equations.hpp: to_prim, to_cons, compute_ek, compute_evol", "src/hydro/array_conversion.hpp"]}
{"id": "C15", "title": "Array conversions write exactly the requested cells", "statement": "conv_prim_to_cons and conv_cons_to_prim change exactly the cells of the given range, every such cell receiving the pointwise conversion, independently of iteration order; composing them on a range restores velocities and pressure there.", "quantifier": "for every range, arrays and iteration order", "why_tests_cant": "Schedules and continuous data.", "anchors": ["src/hydro/array_conversion.hpp: conv_prim_to_cons, conv_cons_to_prim"]}
{"id": "C16", "title": "Physical flux computed from either representation agrees", "statement": "The Euler flux computed from the conservative variables and pressure equals the flux computed from the corresponding primitive variables.", "quantifier": "for every state with non-zero density, every direction", "why_tests_cant": "Continuous domain.", "anchors": ["src/hydro/euler_equations.hpp: compute_flux (both overloads)"]}
{"id": "C17", "title": "Perfect gas relations are mutually consistent", "statement": "Pressure, volumic internal energy and temperature conversions of the perfect gas are mutually inverse, monotone, and positive for positive inputs; the squared sound speed is gamma P / rho.", "quantifier": "for every density > 0, temperature/pressure/energy and every gas accepted by the constructor", "why_tests_cant": "Continuous domain.", "anchors": ["src/thermodynamics/perfect_gas.hpp"]}
{"id": "C18", "title": "Equation of state constructors reject unphysical parameters", "statement": "Constructing an equation of state succeeds exactly when gamma is finite and > 1 and the mean molecular weight is finite and > 0; otherwise it throws.", "quantifier": "for every floating-point pair including infinities and NaN", "why_tests_cant": "Unbounded domain with special values.", "anchors": ["src/thermodynamics/perfect_gas.cpp", "src/thermodynamics/rad_gas.cpp"]}
{"id": "C19", "title": "Radiative gas temperature inversion converges to the true temperature", "statement": "The temperature returned from a pressure or an internal energy is within the stated tolerance of the unique positive root of the radiative relation, or an error is raised when the iteration fails to converge.", "quantifier": "for every positive density and positive pressure or energy", "why_tests_cant": "Continuous domain and iteration limits.", "anchors": ["src/thermodynamics/rad_gas.hpp: compute_temp_from_pres, compute_temp_from_evol"]}
{"id": "C20", "title": "Slope limiters are symmetric, sign preserving and vanish at extrema", "statement": "Every limiter returns 0 when the one-sided differences have opposite signs or one is zero, a value with their common sign otherwise, is symmetric in its arguments, odd under sign change and homogeneous of degree one.", "quantifier": "for every pair of real one-sided differences and every limiter", "why_tests_cant": "Continuous domain.", "anchors": ["src/hydro/slope_limiters.hpp"]}
{"id": "C21", "title": "Slope limiters lie in the second-order TVD region", "statement": "Every non-constant limiter returns the common value on equal slopes (exact on linear data) and its absolute value never exceeds twice the smaller of the one-sided slopes; minmod never exceeds the smaller one.", "quantifier": "for every pair of one-sided differences", "why_tests_cant": "Continuous domain.", "anchors": ["src/hydro/slope_limiters.hpp: VanLeer, Minmod, VanAlbada"]}
{"id": "C22", "title": "Reconstruction creates no new extrema", "statement": "On each cell the two reconstructed face values average to the cell value and lie between the neighbouring cell values, hence positive cell averages give positive face values; linear data on a uniform grid is reconstructed exactly.", "quantifier": "for every three-cell stencil, every limiter, uniform grid spacing; for minmod any positive spacing", "why_tests_cant": "Continuous domain; non-uniform grids.", "anchors": ["src/hydro/limited_linear_reconstruction.hpp: LimitedLinearReconstruction::execute"]}
{"id": "C23", "title": "Reconstruction stencil stays inside the arrays", "statement": "With at least two ghost layers no kernel of a time step reads or writes outside the allocated arrays; with one ghost layer the reconstruction reads out of bounds and with zero layers the step is rejected.", "quantifier": "for every local size, ghost count and dimension count", "why_tests_cant": "Out-of-bounds reads are silent in release builds.", "anchors": ["src/hydro/limited_linear_reconstruction.hpp", "src/hydro/godunov_scheme.hpp", "src/main.cpp: main loop", "src/mesh/range.cpp: Range::with_ghosts"]}
{"id": "C24", "title": "Riemann solvers are consistent with the physical flux", "statement": "When left and right states coincide, every Riemann solver returns the physical Euler flux of that state.", "quantifier": "for every admissible state, every direction, every solver", "why_tests_cant": "Continuous domain.", "anchors": ["src/hydro/riemann_solver.hpp: HLL, HLLC, Splitting"]}
{"id": "C25", "title": "Supersonic flow is fully upwinded", "statement": "If all wave speed estimates are positive (negative) HLL and HLLC return the physical flux of the left (right) state.", "quantifier": "for every pair of states", "why_tests_cant": "Continuous domain.", "anchors": ["src/hydro/riemann_solver.hpp: HLL, HLLC"]}
{"id": "C26", "title": "Riemann solvers are mirror symmetric", "statement": "Exchanging left and right states and reversing the normal velocity negates the mass, transverse momentum and energy fluxes and leaves the normal momentum flux unchanged.", "quantifier": "for every pair of admissible states (away from the tie ustar = 0 for upwinded solvers unless the tie is harmless)", "why_tests_cant": "Continuous domain and branch ties.", "anchors": ["src/hydro/riemann_solver.hpp"]}
{"id": "C27", "title": "Contact-resolving solvers keep isolated contacts exact", "statement": "For equal pressures and equal zero normal velocities (stationary contact) HLLC and the low-Mach solver give zero mass and energy flux and normal momentum flux equal to the pressure; for a moving contact HLLC returns the upwind physical flux.", "quantifier": "for every density jump and pressure", "why_tests_cant": "Continuous domain.", "anchors": ["src/hydro/riemann_solver.hpp: HLLC, Splitting"]}
{"id": "C28", "title": "HLLC intermediate state is well defined and satisfies the jump relations", "statement": "For positive densities and pressures the denominators of HLLC do not vanish, the contact speed lies strictly between the wave speeds, intermediate densities are positive, and the two one-sided fluxes satisfy the Rankine-Hugoniot relations with equal pressure and normal velocity across the contact.", "quantifier": "for every pair of states with positive density and sound speed", "why_tests_cant": "Continuous domain; division by zero cannot be excluded by sampling.", "anchors": ["src/hydro/riemann_solver.hpp: HLLC"]}
{"id": "C29", "title": "Mirror wall emits no mass or energy", "statement": "When the right state is the mirror image of the left state (reflexive wall), every Riemann solver gives exactly zero mass flux and zero energy flux.", "quantifier": "for every admissible state and solver", "why_tests_cant": "Continuous domain.", "anchors": ["src/hydro/riemann_solver.hpp", "src/boundary.cpp: reflexive_condition"]}
{"id": "C30", "title": "Mass and energy are conserved under periodic boundaries", "statement": "One update without gravity on a periodic Cartesian box leaves the volume-weighted sums of density, momentum and total energy unchanged, for every Riemann solver and reconstruction; in any geometry and with any boundary values the total mass changes exactly by the mass that goes through the boundary faces.", "quantifier": "for every grid size, mesh spacing, state, time step and flux function", "why_tests_cant": "Sum over arbitrary size and data.", "anchors": ["src/hydro/godunov_scheme.hpp: execute"]}
{"id": "C31", "title": "Neighbouring cells see the same interface flux", "statement": "The flux leaving a cell through its right face is computed from the same pair of reconstructed states, and multiplied by the same face area, as the flux entering its right neighbour.", "quantifier": "for every cell pair, direction, solver and data", "why_tests_cant": "Continuous domain and all indices.", "anchors": ["src/hydro/godunov_scheme.hpp: execute"]}
{"id": "C32", "title": "Uniform flow is preserved exactly", "statement": "On a Cartesian grid without gravity a spatially uniform state (density, velocity, pressure, scalars in [0,1]) is a fixed point of one full step: reconstruction, half-step extrapolation and Godunov update.", "quantifier": "for every uniform admissible state, grid spacing, time step, solver and limiter", "why_tests_cant": "Continuous domain.", "anchors": ["src/hydro/hydro_reconstruction.hpp", "src/hydro/extrapolation_reconstruction.hpp", "src/hydro/godunov_scheme.hpp"]}
{"id": "C33", "title": "Rest state in spherical geometry is preserved", "statement": "In spherical geometry without gravity a uniform fluid at rest stays exactly at rest: geometric source terms balance the area-weighted pressure fluxes.", "quantifier": "for every radial/polar/azimuthal mesh, uniform density and pressure, solver", "why_tests_cant": "Continuous domain; mesh-dependent cancellation.", "anchors": ["src/hydro/godunov_scheme.hpp", "src/hydro/source_terms.hpp", "src/mesh/geometry.cpp: Spherical"]}
{"id": "C34", "title": "Passive scalar fractions stay within [0,1] and are conserved", "statement": "After every update each scalar fraction lies in [0,1]; when no clipping occurs the volume-weighted sum of rho times fraction is conserved on periodic domains; a uniform fraction in [0,1] stays uniform.", "quantifier": "for every data, solver and grid", "why_tests_cant": "Continuous domain.", "anchors": ["src/hydro/godunov_scheme.hpp: execute (scalar part)"]}
{"id": "C35", "title": "The update is independent of the domain decomposition", "statement": "One full step computed on a decomposed domain gives in every interior cell the same values as on a single rank.", "quantifier": "for every decomposition with local sizes at least the ghost width, periodic boundaries", "why_tests_cant": "Needs all decompositions; floating-point comparisons in tests are approximate.", "anchors": ["src/boundary_distribute.hpp", "src/hydro/godunov_scheme.hpp", "src/hydro/hydro_reconstruction.hpp"]}
{"id": "C36", "title": "Time step honours the CFL bound", "statement": "The returned time step is positive and, times the per-cell sum over directions of (|u|+c)/dx, never exceeds 1, with equality for some cell; it is the minimum over ranks.", "quantifier": "for every state, mesh and decomposition", "why_tests_cant": "Continuous domain.", "anchors": ["src/hydro/time_step.hpp: time_step"]}
{"id": "C37", "title": "Geometric measures are positive and exact", "statement": "Cell volumes and face areas are positive on increasing meshes and volumes add up to the exact volume of the domain; face areas equal the exact areas of the coordinate surfaces.", "quantifier": "for every increasing mesh in 1, 2, 3 dimensions in both geometries", "why_tests_cant": "Continuous domain; transcendental functions.", "anchors": ["src/mesh/geometry.cpp: Cartesian, Spherical"]}
{"id": "C38", "title": "Regular mesh spans the requested domain", "statement": "The regular mesh has constant spacing, the first interior node equals xmin, the node after the last interior cell equals xmax, and cell centres are strictly inside cells.", "quantifier": "for every bounds, cell and ghost count", "why_tests_cant": "Continuous domain.", "anchors": ["src/mesh/grid_type.cpp: compute_regular_mesh_1d, Regular::execute", "src/mesh/grid.cpp: compute_cell_size, compute_cell_center"]}
{"id": "C39", "title": "A run never overshoots the end time and always ends with an output", "statement": "Time never exceeds t_end, increases strictly at every iteration, and the final iteration of a completed run always writes an output; the loop performs at most max_iter iterations for a fresh run.", "quantifier": "for every parameter set, sequence of CFL steps and wall-clock events", "why_tests_cant": "Unbounded loops.", "anchors": ["src/main.cpp: main (354-561)"]}
{"id": "C40", "title": "Periodic outputs are emitted at the requested iterations", "statement": "With an iteration frequency f > 0 a fresh run writes an output after every multiple of f iterations (and the initial state), none missing, and none in between unless requested by another trigger.", "quantifier": "for every frequency, run length and CFL sequence", "why_tests_cant": "Unbounded loops.", "anchors": ["src/main.cpp: main (358-364, 533-560)"]}
{"id": "C41", "title": "Timed outputs are emitted at exactly the requested times", "statement": "With a time frequency F > 0 a run writes an output exactly at each time first+kF before the end time; the time step is shortened to hit it and never becomes non-positive silently.", "quantifier": "for every frequency, first output time and CFL sequence", "why_tests_cant": "Unbounded loops.", "anchors": ["src/main.cpp: main (365-375)"]}
{"id": "C42", "title": "Restart continues the interrupted run", "statement": "A run stopped after an output and restarted from that file goes through the same sequence of states, times, iteration numbers and output numbers as the uninterrupted run.", "quantifier": "for every interruption point, parameters unchanged except the stopping criterion", "why_tests_cant": "Unbounded loops.", "anchors": ["src/main.cpp: main", "src/io/io.cpp: write_pdi, read_pdi"]}
{"id": "C43", "title": "Saved fields read back identically under any decomposition", "statement": "Writing global fields with one process layout and reading them with another returns the same global interior fields; each dataset element is written by exactly one rank.", "quantifier": "for every pair of process grids and every field", "why_tests_cant": "Needs all pairs of decompositions.", "anchors": ["src/io/io.cpp: write_pdi, read_pdi", "src/io/config.yaml.cpp"]}
{"id": "C44", "title": "Output file names are unique and ordered", "statement": "Distinct non-negative output numbers give distinct file names with the same prefix, and lexicographic order equals numeric order for numbers of at most eight digits.", "quantifier": "for every pair of output numbers and prefix", "why_tests_cant": "Unbounded integers.", "anchors": ["src/io/io.cpp: get_output_filename"]}
{"id": "C45", "title": "The XDMF index is well formed and lists the written files", "statement": "The XML description is well nested, never overruns its indentation levels, and lists one entry per recorded output, with file numbers equal to those of the outputs written since the run started.", "quantifier": "for every number of outputs, scalars and grid", "why_tests_cant": "Unbounded number of outputs.", "anchors": ["src/io/io.cpp: XmlWriter, IndentFn"]}
{"id": "C46", "title": "Host/device mirror always returns the latest write", "statement": "In any sequence of host and device accesses through the dual view, a reading access on either side returns the value stored by the most recent writing access, whichever side made it.", "quantifier": "for every access sequence (within the range of the modification counters)", "why_tests_cant": "Unbounded histories.", "anchors": ["src/dual_view/dual_view.hpp: access, synchronize, mark_modified, need_synchronization"]}
{"id": "C47", "title": "Narrowing integer casts never change a value", "statement": "The checked integer cast returns the same mathematical integer or throws; it throws exactly when the value is not representable in the destination type.", "quantifier": "for every source value and every pair of integer widths and signedness", "why_tests_cant": "2^64 inputs.", "anchors": ["src/utils/int_cast.hpp: int_cast"]}
{"id": "C48", "title": "Neighbour index helpers are inverse shifts along one axis", "statement": "The left and right neighbour helpers change exactly the requested coordinate by one and are mutually inverse.", "quantifier": "for every index triple and direction", "why_tests_cant": "Unbounded integers.", "anchors": ["src/utils/kronecker.hpp: kron, lindex, rindex"]}
{"id": "C49", "title": "Gravity fields have the documented radial form", "statement": "Uniform gravity returns the configured component everywhere; point-mass gravity is purely radial, attractive and follows the inverse-square law; internal-mass gravity is radial, at least as strong as the central mass alone for non-negative density, rejects radial decomposition and reproduces the enclosed mass of a uniform sphere.", "quantifier": "for every grid, density field, central mass", "why_tests_cant": "Continuous domain, arbitrary number of shells.", "anchors": ["src/gravity/gravity.hpp", "src/gravity/gravity.cpp"]}
{"id": "C50", "title": "Grid shift translates the solution by one cell", "statement": "A grid shift moves every field by exactly one cell along the first direction so that each cell keeps the value it had at the same physical position, keeps node coordinates strictly increasing, and leaves the other directions unchanged.", "quantifier": "for every mesh, field, decomposition", "why_tests_cant": "Continuous domain, all sizes.", "anchors": ["src/moving_grid/moving_grid.cpp: shift_grid, shift_array"]}
{"id": "C51", "title": "Nickel heating only adds energy", "statement": "The nickel heating step changes only the energy, by a non-negative amount proportional to the nickel mass fraction, density, time step and the decay rate, and nothing when the fraction is zero; the Off step changes nothing.", "quantifier": "for every state, time and time step", "why_tests_cant": "Continuous domain.", "anchors": ["src/user_step/user_step.cpp"]}
{"id": "C52", "title": "Pressure fix keeps total energy consistent", "statement": "Where the pressure fix does not trigger the energy is untouched; where it triggers the new total energy equals the new kinetic energy plus a blended internal energy.", "quantifier": "for every state, threshold and mesh", "why_tests_cant": "Continuous domain.", "anchors": ["src/hydro/pressure_fix.hpp: pressure_fix"]}
{"id": "C53", "title": "Unknown choices are rejected", "statement": "Every string naming a limiter, Riemann solver, grid type, boundary type or user step that is not in the documented list raises an error, and each documented name selects the intended algorithm.", "quantifier": "for every string", "why_tests_cant": "Unbounded strings.", "anchors": ["src/hydro/face_reconstruction.cpp", "src/hydro/godunov_scheme.hpp: factory_godunov_scheme", "src/mesh/grid_factory.cpp", "src/boundary_factory.hpp", "src/user_step/user_step_factory.cpp"]}
{"id": "C54", "title": "Invalid internal energy is always detected before the step", "statement": "If any interior cell has a negative or not-a-number volumic internal energy at the beginning of an iteration, the run dumps its state and aborts; otherwise it does not abort.", "quantifier": "for every field and reduction order, including NaN values", "why_tests_cant": "NaN propagation depends on reduction order.", "anchors": ["src/analysis/internal_energy.cpp: minimum_internal_energy", "src/main.cpp: main (397-425)"]}
{"id": "C55", "title": "Integrated quantities are independent of the decomposition", "statement": "The integral of a field equals the sum of value times cell volume over all interior cells of the global grid, for any decomposition and any summation order in exact arithmetic.", "quantifier": "for every decomposition, field and order", "why_tests_cant": "All decompositions.", "anchors": ["src/analysis/integration.cpp: integrate"]}
{"id": "C56", "title": "Profile broadcast fills columns uniformly", "statement": "Broadcasting a 1D profile (or a scalar) onto a 3D range writes, in every cell of the range, the profile value of its interior first index and changes no other cell.", "quantifier": "for every range, profile and iteration order", "why_tests_cant": "Unbounded sizes.", "anchors": ["src/broadcast.cpp: broadcast"]}
{"id": "C57", "title": "Configuration parsing returns what the file says", "statement": "A key written once as name = value in a section of the input file is returned verbatim (trimmed, inline comment removed) by lookups that ignore letter case; absent or empty keys give the default for numbers; malformed lines are reported with the first bad line number.", "quantifier": "for every file of well-formed lines", "why_tests_cant": "Unbounded inputs.", "anchors": ["vendor/inih/src/ini.c: ini_parse_stream", "vendor/inih/src/INIReader.cpp"]}
{"id": "C58", "title": "Gravity work and force enter consistently", "statement": "In the update, gravity adds exactly dt*rho*g to each momentum component and dt*(rho u).g to the energy, and nothing to mass and scalars; with zero gravity the update is the pure flux update.", "quantifier": "for every state, gravity field, time step", "why_tests_cant": "Continuous domain.", "anchors": ["src/hydro/godunov_scheme.hpp: execute", "src/hydro/extrapolation_reconstruction.hpp"]}
{"id": "C59", "title": "Axis symmetry of the update", "statement": "The Cartesian update treats directions alike: permuting the axes of the data and mesh permutes the result; reflecting one axis of the data reflects the result.", "quantifier": "for every data, solver without ties", "why_tests_cant": "Continuous domain.", "anchors": ["src/hydro/godunov_scheme.hpp", "src/hydro/extrapolation_reconstruction.hpp"]}
{"id": "C60", "title": "Sound speed is the isentropic derivative", "statement": "For both equations of state the squared sound speed returned by the code equals dP/drho along a curve obeying the first law de = P/rho^2 drho (isentrope), and is positive.", "quantifier": "for every gas accepted by the constructor, density > 0, temperature > 0", "why_tests_cant": "Relates a closed formula to a derivative on a continuous domain.", "anchors": ["src/thermodynamics/rad_gas.hpp: compute_speed_of_sound", "src/thermodynamics/perfect_gas.hpp: compute_speed_of_sound"]}
{"id": "C61", "title": "Intermediate Riemann states are physical", "statement": "The averaged state behind the HLL flux and the two star states behind the HLLC flux have positive density and positive internal energy, and the HLL denominator never vanishes, for every pair of states of positive density and pressure - even for strong receding flows.", "quantifier": "for every pair of states with positive density and pressure, every perfect gas with gamma > 1", "why_tests_cant": "Continuous domain; failure cases are extreme states no test samples.", "anchors": ["src/hydro/riemann_solver.hpp: HLL, HLLC"]}
{"id": "C62", "title": "Curvature sources of spherical coordinates", "statement": "In spherical geometry the source terms added to the momentum of a cell are the time step times the cell mean of the exact curvature terms: (2P + rho u_theta^2 + rho u_phi^2)/r along r, (P + rho u_phi^2) cot(theta)/r - rho u_r u_theta/r along theta, -rho u_r u_phi/r - rho u_theta u_phi cot(theta)/r along phi (up to second order in the relative cell width for the terms in u_r), and with the fluxes they transport angular momentum.", "quantifier": "for every spherical mesh with 0 <= r, 0 <= theta <= pi, ndim 1-3, every state", "why_tests_cant": "Relates coded trigonometric formulas to volume integrals on a continuous domain.", "anchors": ["src/hydro/source_terms.hpp", "src/hydro/godunov_scheme.hpp: spherical sources", "src/hydro/extrapolation_reconstruction.hpp"]}
{"id": "C63", "title": "Transport by a uniform flow", "statement": "Data of uniform velocity and pressure stay of uniform velocity and pressure over a whole step, and density and mass fractions are carried with the flow: face values are taken on the limited linear profile at the point that reaches the face after half a step, and in one dimension the new content of a cell is the exact integral of the profile over the segment brought into the cell.", "quantifier": "for every density profile with positive face values, velocity of any direction and Mach number, pressure > 0, limiter, Cartesian mesh, time step; HLLC and perfect gas (density), any solver and equation of state (fractions)", "why_tests_cant": "Continuous domain; a test sees one profile and one tolerance.", "anchors": ["src/hydro/extrapolation_reconstruction.hpp", "src/hydro/godunov_scheme.hpp", "src/hydro/limited_linear_reconstruction.hpp", "src/hydro/riemann_solver.hpp: HLLC"]}
{"id": "C64", "title": "Hydrostatic equilibrium of the stratified setups", "statement": "The density and pressure written by the stratified setups are the values at the cell of profiles in hydrostatic equilibrium with the gravity of the same run: dP/dx = rho g for the isothermal atmosphere (perfect gas and gas with radiation), dP/dr = -rho G M / r^2 for the isothermal sphere, each layer of the Rayleigh-Taylor problems with equal pressures at the interface level.", "quantifier": "for every reference density, temperature, mass, gravity, mean molecular weight, grid and cell", "why_tests_cant": "The statement is about derivatives of the profiles at every point; a run only shows the slow drift of one atmosphere.", "anchors": ["src/setups/stratified_atm/setup.hpp", "src/setups/eq_hydro_sphe/setup.hpp", "src/setups/rayleigh_taylor/setup.hpp", "src/setups/rayleigh_taylor3d/setup.hpp", "src/thermodynamics/perfect_gas.hpp", "src/thermodynamics/rad_gas.hpp"]}
{"id": "C65", "title": "Balance of the Gresho vortex", "statement": "The Gresho setup writes a purely azimuthal velocity with continuous profile of maximum 1 and a pressure that balances the centrifugal force at every radius, the maximum Mach number (relative to the centre) being the parameter Ma.", "quantifier": "for every density, Mach number, adiabatic index, grid and cell", "why_tests_cant": "Derivative of a piecewise profile at every radius, including the joints.", "anchors": ["src/setups/gresho_vortex/setup.hpp"]}
{"id": "C66", "title": "Initial state independent of the decomposition", "statement": "Each setup fills the interiors of the ranks with the restrictions of one global state, whatever the number of processes, the process grid and the loop orders, so that a whole run (initialisation, conversion, boundaries, any number of iterations) does not depend on the decomposition.", "quantifier": "for every setup with analytic data, all its parameters, every geometry, mesh, ghost width, gravity field, process grid, schedule", "why_tests_cant": "Quantifies over all process grids and meshes; the differences appear only in spherical geometry or for particular cuts.", "anchors": ["src/setups/*/setup.hpp: InitializationSetup::execute", "src/main.cpp 255-305", "src/mesh/grid.cpp"]}
{"id": "C67", "title": "The boundary conditions of the stratified setups continue the initial state", "statement": "The user boundary conditions of the setups stratified_atm and eq_hydro_sphe fill exactly the ghost layers of their face, with the conservative variables of the state that the initialisation of the setup defines at the centres of those cells, so that an equilibrium at the start stays one at the boundary.", "quantifier": "For all parameters rho0, T0, u0, M, all extents, numbers of ghost layers, faces, grids, gravity fields, contents of the arrays and traversal orders.", "why_tests_cant": "The shipped inputs use u0 = 0, for which the condition holds; with a moving gas the ghost states have another momentum and energy and the run only degrades slowly.", "anchors": ["src/setups/stratified_atm/setup.hpp:100-161", "src/setups/eq_hydro_sphe/setup.hpp:93-151", "src/boundary.hpp:140-164"]}
{"id": "C68", "title": "Whole program: same files on every process grid, also after a restart", "statement": "From the initial arrays to the files written, a run of the program (set-up of the grid, conversion, boundary conditions, time step, reconstruction, Godunov update, pressure fix, user step, energy test, control of the loop, temperature, output) gives the same status, times, counters, fields and files on every process grid; a run interrupted and continued from one of its files on any other process grid gives what the uninterrupted run gives.", "quantifier": "For all process grids whose ranks own at least as many cells as there are ghost layers, loop orders, orders of writing, work arrays, initial data, boundary conditions other than those of setups, numbers of turns, wall clock answers", "why_tests_cant": "Every pair of process grids, number of steps and moment of interruption; tests compare a few runs within a tolerance.", "anchors": ["src/main.cpp 187-561", "src/io/io.cpp", "src/io/config.yaml.cpp", "src/hydro", "src/boundary_distribute.hpp"]}
{"id": "C69", "title": "Conserved totals, bounds and rest over whole runs", "statement": "In all files that a run of the whole program writes, on any process grid: on a periodic Cartesian box the total mass is that of the initial state, and so are the total momentum in directions without gravity and, without gravity, pressure fix and heating, the total energy; mass fractions that start in [0, 1] stay in [0, 1]; a uniform fluid at rest without gravity stays exactly that in every geometry, and its run neither fails nor exceeds the iteration limit.", "quantifier": "For all numbers of turns of the time loop, process grids, loop orders, meshes, limiters, Riemann solvers, equations of state, initial data, wall clock answers; fractions and rest for all geometries and boundary conditions other than user ones.", "why_tests_cant": "A statement about every file of every run, composed of initialisation, exchange, boundary conditions, step and output on all process grids; a test sees one run with a tolerance.", "anchors": ["src/main.cpp:200-560", "src/hydro/godunov_scheme.hpp", "src/hydro/hydro_reconstruction.hpp", "src/boundary.cpp", "src/io/io.cpp"]}
{"id": "C70", "title": "The tabulated setup starts from its file on every process grid", "statement": "The setup v1d fills each interior cell of each rank with the values of the tabulated profiles (density, radial velocity, pressure, passive scalars) at the index of the cell in the whole domain, velocity zero in the other directions, and touches no other cell; the nodes of the first direction are those of the file; a file is accepted if and only if its datasets have the sizes of the domain, and all ranks agree on this.", "quantifier": "For all files, domain sizes, numbers of directions, ghost layers and scalars, process grids, ranks, loop orders.", "why_tests_cant": "A wrong offset shows only on ranks other than the first along the first direction, or with several scalars; the setup has no test.", "anchors": ["src/setups/v1d/setup.hpp:58-174", "src/io/config.yaml.cpp", "src/io/io_hdf5.hpp:55-69", "src/broadcast.cpp"]}
{"id": "C71", "title": "The shift criterion looks at the last cells of the domain", "statement": "The grid is shifted if and only if the gas reaches the speed vmax_shift in one of the last cell_shift cells of the domain along the first direction, whatever the process grid.", "quantifier": "For all states, thresholds, window sizes, domain sizes, ghost layers, process grids and orders of reduction.", "why_tests_cant": "The default threshold 0 behaves differently on one and on two processes; a window that is too wide only shifts the grid earlier.", "anchors": ["src/setups/v1d/setup.hpp:176-220", "src/main.cpp:486-505"]}
{"id": "C72", "title": "A run with a moving grid is one run, on any process grid and across restarts", "statement": "With the grid shift switched on, status, time, counters, fields, nodes, boundary conditions and the state of the shift criterion after any number of iterations are the same on all process grids; each iteration is one of the program without shift, followed by nothing, by a move of every cell and node by one along the first direction, or, at rmax_shift, by freeing the outer boundary and dropping the criterion; the outer boundary never passes rmax_shift; a run stopped and restarted from its file continues as if it had not been stopped.", "quantifier": "For all initial states, fluids, schemes, geometries, boundary conditions without user code, criteria, process grids, numbers of iterations and loop orders.", "why_tests_cant": "A shift concerns every rank, its grid, its ghosts and the metric; tests run few iterations on one decomposition and never restart after the boundary was opened.", "anchors": ["src/main.cpp:340-561", "src/moving_grid/moving_grid.cpp", "src/mesh/grid.cpp:84-170", "src/setups/v1d/setup.hpp:176-220"]}
{"id": "C73", "title": "A uniform gas in uniform gravity falls freely", "statement": "A uniform flow in a uniform gravity field on a Cartesian grid keeps its density, scalars and pressure, and its velocity increases by exactly force * dt, in each step.", "quantifier": "For all uniform states, forces, time steps, limiters, Riemann solvers, equations of state, numbers of dimensions and scalars.", "why_tests_cant": "The error of the energy source is second order in the time step and shows only over long falls or in cold gas.", "anchors": ["src/hydro/godunov_scheme.hpp:258-300", "src/hydro/extrapolation_reconstruction.hpp", "src/gravity/gravity.hpp"]}
{"id": "C74", "title": "Physical states stay physical", "statement": "From an initial state of positive density and pressure, with a Courant number of at most 1/(2 d) (d dimensions; times the ratio of neighbouring cell lengths on an irregular grid), every cell of the arrays and of the files keeps a positive density, internal energy and pressure at every iteration, the face states handed to the Riemann solver are physical too, and the internal energy test never stops the run.", "quantifier": "For all reconstructions, HLL and HLLC, fast equations of state (the perfect gas is one), boundary conditions without user code, process grids and numbers of iterations.", "why_tests_cant": "Vacuum-like states and strong expansions that break positivity are rarely in test problems, and negative pressures first show as NaN far from their cause.", "anchors": ["src/hydro/extrapolation_reconstruction.hpp", "src/hydro/godunov_scheme.hpp:64-323", "src/hydro/riemann_solver.hpp:31-140", "src/hydro/time_step.hpp", "src/main.cpp:340-561"]}
{"id": "C75", "title": "A closed box keeps its mass and energy", "statement": "In a box whose directions are each either periodic or closed by reflexive walls at both ends, without external forces and sources, no mass and no energy goes through the walls: the total mass, the total energy and the total momentum along the periodic directions of every file of a run are those of the initial state, on any number of processes.", "quantifier": "for all mixtures of periodic and reflexive directions, grids, states, time steps, orders of the faces and process grids; with uniform gravity the total mass and energy plus work", "why_tests_cant": "A leak through a wall is a small error that accumulates slowly and depends on the state next to the wall; a test sees one state and a tolerance.", "anchors": ["src/boundary.hpp:140-260", "src/hydro/extrapolation_reconstruction.hpp:294-315", "src/hydro/godunov_scheme.hpp:64-323", "src/main.cpp:340-561", "inputs/rayleigh_taylor.ini:28-33"]}
{"id": "C76", "title": "The run is the one the configuration file asks for", "statement": "Every parameter of the run is what the configuration file gives for its key, or its documented default; the gas, grid, boundary conditions, reconstruction, Riemann solver, user step, moving grid and pressure fix are those it names; a name that is not known is refused instead of being replaced silently; and what is proved about runs then holds for the run of that file.", "quantifier": "for all well-formed configuration files, values of the keys (decimal numerals of any length, boolean spellings, texts), dimensions and complete priority lists; for all files that agree on the known keys", "why_tests_cant": "Each of the 44 keys and all fallbacks combine; a test checks a few files, and a wrong default or a silently ignored switch gives a run that looks right.", "anchors": ["src/utils/param.cpp:14-73", "src/main.cpp:138-302", "src/main.cpp:355-384", "src/main.cpp:459-465", "vendor/inih/src/INIReader.cpp:32-137", "inputs/shock_tube.ini:5-28"]}
{"id": "C77", "title": "An explosion starts with the energy of the file", "statement": "The initial state of a Sedov setup contains the energy E1 of the explosion exactly once (in one dimension, Cartesian, the half of it that belongs to the half domain), whatever the mesh, the number of ghosts and the process grid; the rest of the domain has the ambient energy.", "quantifier": "for all values of rho0, u0, E0, E1, P0, all perfect gases, all meshes, numbers of ghosts and process grids", "why_tests_cant": "The energy is put in cells selected by a fixed radius, an exact coordinate or a local index; the shipped inputs happen to select one cell, and no test compares the total energy over resolutions or process grids.", "anchors": ["src/setups/sedov1d/setup.hpp:60-112", "src/setups/sedov2d/setup.hpp:62-112", "src/setups/sedov3d/setup.hpp:60-98", "inputs/sedov1d.ini", "inputs/sedov2d.ini", "inputs/sedov3d_sph.ini"]}
{"id": "C78", "title": "Every setup starts in a physical state", "statement": "For parameters in the range of the input file, the initial state of every setup has a positive density, a positive pressure and mass fractions between 0 and 1 in every cell of the domain, on every mesh and process grid.", "quantifier": "for all setups but the tabulated one, all parameters with positive densities, pressures and temperatures, all meshes, gravity fields and process grids", "why_tests_cant": "The profiles are transcendental functions of position and parameters: a test looks at one input, and a negative mass fraction or pressure outside of the shipped domain gives no message.", "anchors": ["src/setups/rayleigh_taylor/setup.hpp:55-97", "src/setups/rayleigh_taylor3d/setup.hpp", "src/setups/kelvin_helmholtz/setup.hpp:66-90", "src/setups/gresho_vortex/setup.hpp", "src/setups/stratified_atm/setup.hpp", "src/setups/eq_hydro_sphe/setup.hpp"]}
{"id": "C79", "title": "Files, index and restarts fit together", "statement": "An output file holds the counters, the time, the nodes and each field, velocity component and passive scalar under its own name with the values of the state; each dataset that the XDMF index refers to is in the file with the announced sizes; a restart gives back what was written whatever the two process grids, and refuses a file of another configuration.", "quantifier": "All numbers of dimensions, cells, ghosts and passive scalars, all process grids of the writing and of the reading run, all orders of the ranks, all nodes and fields", "why_tests_cant": "Tests write and read a few files with few scalars on one process grid and one configuration; they do not combine more than ten scalars, or a restart with another number of ghosts, with a check of every dataset.", "anchors": ["src/io/io.cpp:185-431", "src/io/config.yaml.cpp:1-250", "src/io/io_hdf5.hpp:51-69"]}
{"id": "C80", "title": "The choice of units does not matter", "statement": "A problem given in other units of length, time and density is the same problem: the run makes the same turns, writes the same number of outputs and ends for the same reason, and all its numbers are those of the first run multiplied by the factor of their unit. In particular no dimensional constant is hidden in solvers, limiters, boundary conditions, pressure fix or time step.", "quantifier": "All positive factors of length, time and density, all initial states, nodes, forces and gases that are the same in both units, all solvers, limiters, boundary conditions and their orders, both geometries, all process grids of the two runs, all numbers of turns", "why_tests_cant": "A hidden dimensional constant (a floor, an epsilon) shows only for states far from the ones of the tests; comparing runs in floating point needs a tolerance that hides it.", "anchors": ["src/hydro/riemann_solver.hpp", "src/hydro/slope_limiters.hpp", "src/hydro/godunov_scheme.hpp", "src/hydro/extrapolation_reconstruction.hpp", "src/hydro/pressure_fix.hpp", "src/hydro/time_step.hpp", "src/main.cpp:300-520"]}
{"id": "C81", "title": "A symmetric problem stays symmetric through whole runs", "statement": "If a problem on a Cartesian grid is given with its axes permuted or one axis reversed (mesh, sizes, boundary conditions, force, initial state, scalars), the run makes the same turns with the same times, decisions and status, and every field of every cell on every rank and every dataset of every file is the original one with permuted or reversed axes and vector components, whatever the process grids and the order of the faces. In particular a problem that is symmetric initially stays exactly symmetric.", "quantifier": "for all problems, limiters, solvers, boundary conditions, process grids and numbers of turns", "why_tests_cant": "Tests compare a few runs on one grid with a tolerance, which hides direction-dependent code that only matters in rare branches (limiters, supersonic faces, the pressure fix).", "anchors": ["src/main.cpp:373-497", "src/hydro/godunov_scheme.hpp", "src/hydro/hydro_reconstruction.hpp", "src/hydro/extrapolation_reconstruction.hpp", "src/hydro/pressure_fix.hpp", "src/boundary.cpp", "src/hydro/time_step.hpp"]}
{"id": "C82", "title": "Runs on different numbers of processes agree bit by bit", "statement": "Run the same problem on two different process grids, with any loop orders and any previous contents of the work arrays. Whatever the kernels compute from the numbers they read (in particular with rounded operations), all time steps are identical and, after any number of iterations, every cell and ghost cell holds identical numbers in both runs, pressure fix included; no access is out of bounds. Gravity must be the same function of the global state (uniform or point mass).", "quantifier": "for all types of numbers with a linear order, all kernel functions, dimensions, domain sizes, process grids with enough cells per process, ghost widths of at least two, boundary conditions other than user-defined and orders of them, initial states and numbers of iterations", "why_tests_cant": "A test compares two runs on a few process grids of one machine; it cannot cover all grids, all loop orders, all states and all compilers, and a difference in the last bit is usually hidden by a tolerance.", "anchors": ["src/main.cpp:373-497", "src/hydro/time_step.hpp", "src/boundary_distribute.cpp", "src/boundary.cpp", "src/hydro/godunov_scheme.hpp", "src/hydro/hydro_reconstruction.hpp"]}
{"id": "C83", "title": "The formulas of the exact model are the operations of the code", "statement": "Write every kernel of a run as the sequence of operations it performs, over numbers without any law: a += adds to the variable, loops over directions proceed in order, source terms are added one after the other. If the operations are exact, the run, the grid arrays and the pressure fix are those of the exact model in which all other properties are proved, including when they fail.", "quantifier": "for all dimensions up to three, all fields, limiters, solvers, equations of state, geometries, schedules, gravity fields, initial states and numbers of iterations", "why_tests_cant": "It relates two descriptions of the program, not outputs of it.", "anchors": ["src/hydro/godunov_scheme.hpp", "src/hydro/hydro_reconstruction.hpp", "src/hydro/extrapolation_reconstruction.hpp", "src/hydro/riemann_solver.hpp", "src/hydro/source_terms.hpp", "src/hydro/pressure_fix.hpp", "src/hydro/time_step.hpp", "src/mesh/grid.cpp"]}
{"id": "C84", "title": "The time loop in double precision", "statement": "With operations rounded to the nearest double, a run that starts before its end time still never goes back in time, stays below t_end while it runs, ends at t_end up to (t_end - t_ini)/2^52 (exactly, if the last step starts at t_end/2 or later), writes a file at each requested time up to (t_end - t_ini)/2^51, never raises the negative time step error, and performs at most max_iter iterations; it makes progress in every iteration and writes no other files than requested.", "quantifier": "for all roundings to nearest, end times, frequencies, first output times, time steps of the fluid, wall clock answers and numbers of iterations", "why_tests_cant": "The cases where rounding matters are single pairs of doubles; a test with round numbers does not meet them, and a run that stands still is a hang.", "anchors": ["src/main.cpp:353-397", "src/main.cpp:530-531"]}
{"id": "C85", "title": "A uniform flow stays uniform bit by bit", "statement": "On a Cartesian grid without gravity and pressure fix, a state with the same density, momentum, energy and scalars in all cells, advanced with rounded operations in the order of the code, is the same state, bit by bit, in every cell and ghost cell after any number of iterations, on any process grid; boundaries are periodic, null gradient, or reflexive across directions without momentum.", "quantifier": "for all arithmetics in which x - x, x + 0, x * 0 and 0 / x are what they should be on finite numbers (doubles with any rounding to nearest among them), all dimensions, limiters, solvers, equations of state, cell sizes, process grids, states and numbers of iterations", "why_tests_cant": "A test with one state and one grid sees one set of roundings; whether differences cancel for all states, cell sizes and compilers is a statement about all of them.", "anchors": ["src/hydro/godunov_scheme.hpp", "src/hydro/extrapolation_reconstruction.hpp", "src/hydro/limited_linear_reconstruction.hpp", "src/hydro/slope_limiters.hpp", "src/hydro/riemann_solver.hpp", "src/boundary.cpp", "src/main.cpp:353-397"]}
{"id": "C86", "title": "A restart gives the numbers of the uninterrupted run", "statement": "A run that is stopped, written to a file and restarted from it holds, after the same number of iterations, bit by bit the same numbers as the run that was not interrupted; with the operations of the machine, which round to nearest.", "quantifier": "all states, process grids, solvers, limiters, equations of state, roundings to nearest; for the bound: all cells with positive density and computed internal energy not negative, perfect gas, d <= 3", "why_tests_cant": "Whether dividing by the density and multiplying by it again gives the same double depends on the numbers: tests with round values (density 1, velocity 0) agree bit by bit and others do not.", "anchors": ["src/main.cpp", "src/array_conversion.hpp", "src/io/io.cpp"]}
{"id": "C87", "title": "Sums over threads and processes do not depend on how the cells are distributed", "statement": "Integrals over the domain (mass, energy) and the internal mass that gives the gravity are the same numbers on every process grid, for every distribution of the cells over threads and every order in which partial sums are joined; with the operations of the machine, which round to nearest.", "quantifier": "all arrays, process grids, distributions of cells over workers, trees of joins (threads and MPI), splittings of the scan, roundings to nearest; for the bounds: values, densities and central mass not negative", "why_tests_cant": "Each run of a test sees one distribution and one order of joining; the order is chosen by Kokkos and MPI at run time, and sums of round numbers agree whatever the order.", "anchors": ["src/analysis/integration.cpp", "src/gravity/gravity.cpp"]}
{"id": "C88", "title": "The processes never wait for each other forever, and end with the results of the program in step", "statement": "In a run on several processes, each executes its own copy of main with its own variables and its own clock, and meets the others only in MPI calls. Whatever the speed of the processes and whatever the MPI library buffers, no execution comes to a point where processes that have not ended all wait; the number of calls is bounded; when all have ended, every process has the same status, time and counters, holds its part of the fields, and the files are those of the program in which all processes run in step. Executions on different process grids end with the same fields and files.", "quantifier": "all process grids, all interleavings of the processes, all buffering behaviours of MPI_Sendrecv_replace and of collective calls, all answers of the clocks of the processes, all numbers of iterations and outputs, with or without gravity of the fluid, fresh runs and restarts, runs that finish and runs that fail", "why_tests_cant": "a test runs under one scheduler and one MPI library; a deadlock that needs an unlucky interleaving or a library without buffering does not show", "anchors": ["src/main.cpp", "src/boundary_distribute.cpp", "src/boundary_distribute.hpp", "src/hydro/time_step.hpp", "src/analysis/internal_energy.cpp", "src/analysis/integration.cpp", "src/gravity/gravity.cpp"]}
{"id": "C89", "title": "The shipped input files and the parameters of the setups give the runs they describe", "statement": "Every input file that comes with the code is accepted and gives the run it describes: grid, times, outputs, slopes, solver, boundary conditions and their order, gas, heating, moving grid, and the parameters of its setup. For any file, every parameter of every setup is the number the file gives for its key, or its default; what the file writes takes effect.", "quantifier": "all configuration files; the 21 files in inputs/; all setups", "why_tests_cant": "A test runs one file and looks at its results; a key that is not read, a default that happens to fit or a file that no test runs stay unseen.", "anchors": ["inputs/*.ini", "src/setups/*/setup.hpp (ParamSetup)", "src/main.cpp 138-302", "src/boundary_distribute.cpp 33-71"]}
{"id": "C90", "title": "A run that has computed an invalid number stops with an error", "statement": "As soon as a cell holds an invalid number (NaN: from 0/0, from the root of a negative number, from an overflow) the run ends with an error, instead of going on and writing files; a time step is a positive number and the time advances.", "quantifier": "all IEEE double values (NaN, infinities, signed zeros, overflow, underflow), all decompositions and loop orders, limiters, solvers, geometries, equations of state, gravities, pressure fixes, time step policies, any number of iterations", "why_tests_cant": "NaN appears in runs that nobody has planned; a test that compares with NaN through a maximum or a minimum does not notice it, and the regression tests start from valid states.", "anchors": ["src/hydro/time_step.hpp", "src/analysis/internal_energy.cpp", "src/main.cpp 354-425", "src/riemann_solver", "src/godunov_scheme.hpp", "src/hydro_reconstruction.hpp"]}
{"id": "C91", "title": "A symmetric problem stays symmetric bit by bit", "statement": "A problem that is its own mirror image along one axis, or stays the same when two axes are exchanged (grid, boundary conditions, gravity, initial state), stays so in the double precision numbers of the machine, bit by bit, for any number of iterations and on any process grid. More generally the run of a mirrored problem is the mirrored run.", "quantifier": "all operations that treat signs symmetrically (in particular doubles rounded to nearest), all dimensions, equations of state, limiters, solvers, boundary conditions, mirror-symmetric grids and gravities, time step policies, process grids, any number of iterations", "why_tests_cant": "Symmetry is lost by one wrong digit in one cell, which a comparison with a tolerance does not see; in an unstable flow it grows until the pictures are no longer symmetric. Tests run one symmetric problem at most and compare norms.", "anchors": ["src/hydro/riemann_solver.hpp", "src/hydro/slope_limiters.hpp", "src/hydro/godunov_scheme.hpp 109-300", "src/hydro/extrapolation_reconstruction.hpp", "src/thermodynamics/perfect_gas.hpp"]}
{"id": "C92", "title": "Meshes and initial states in double precision are those of the exact formulas", "statement": "In double precision a regular mesh starts at the lower limit of the box, ends at its upper limit, has increasing nodes and centres inside the cells, and is the exact mesh up to rounding. The initial state of a shipped problem puts in every cell the state that the rule of the setup, applied to the exact coordinates of the cell, gives.", "quantifier": "mesh: all roundings to nearest, boxes, numbers of cells and ghosts; initial states: the shipped input files of the shock tube, the advected gap, the implosion and the explosion in two dimensions, all values of the states, process grids, orders of the loops", "why_tests_cant": "A comparison of a coordinate with a constant can go the other way by one unit of the last digit; the state is then wrong in a few cells, which a picture hides and a comparison with a reference made by the same program cannot see.", "anchors": ["src/mesh/grid_type.cpp 23-58", "src/mesh/grid.cpp 31-44", "src/setups/sedov2d/setup.hpp 74-102", "src/setups/implosion_test/setup.hpp 74-94", "src/setups/shock_tube/setup.hpp 77-91", "src/setups/advection_gap/setup.hpp 68-86", "inputs/sedov2d.ini", "inputs/implosion_test.ini"]}
{"id": "C93", "title": "A change spreads over at most two cells per iteration", "statement": "Two runs whose initial states are the same in all cells up to 2 i faces away from a cell hold the same numbers in this cell after i iterations, if they make the same time steps; one face per iteration suffices at first order. Ghost cells, process borders, boundary conditions and the pressure fix do not carry anything farther.", "quantifier": "all kernels and all arithmetic (rounding, NaN), dimensions, process grids of the two runs, loop orders, boundary conditions other than user-defined, gravity that does not depend on the state, number of iterations, cells", "why_tests_cant": "An exchange of ghosts or a boundary condition that reads a cell too far gives numbers that look right; two runs with different states cannot be compared number by number without knowing which cells must agree.", "anchors": ["src/hydro/limited_linear_reconstruction.hpp", "src/hydro/extrapolation_reconstruction.hpp", "src/hydro/godunov_scheme.hpp", "src/hydro/pressure_fix.hpp", "src/boundary.cpp 31-108", "src/boundary_distribute.cpp", "src/main.cpp 354-355, 427-484"]}
{"id": "C94", "title": "A linear density or mass fraction in a uniform wind is carried without error over whole runs", "statement": "With exact arithmetic on any Cartesian mesh, any limiter other than Constant, any solver, no gravity, a perfect gas and any decomposition, a state of uniform velocity and pressure with a density linear in the positions of the cell centres evolves, in the cells that the boundaries cannot have reached, into the same profile displaced by the wind times the elapsed time; the same for a mass fraction in a fluid of uniform density.", "quantifier": "all ordered fields, dimensions, increasing Cartesian meshes (also of unequal cells), winds, slopes, decompositions, boundary conditions, numbers of iterations and non-negative time steps", "why_tests_cant": "A test compares one run with a tolerance on a uniform mesh; here the absence of any error is asked for all meshes, directions and time steps, and a second order error of the size of a tolerance would be found.", "anchors": ["src/hydro/limited_linear_reconstruction.hpp:33-66", "src/hydro/extrapolation_reconstruction.hpp:94-325", "src/hydro/godunov_scheme.hpp:109-291", "src/main.cpp:427-484"]}
{"id": "C95", "title": "Units and physical constants have the value and the dimension of their name", "statement": "In units.hpp each unit and each constant is the number of the quantity it names, whatever the sizes chosen for the base units (kilogram, metre, second, kelvin): it has the right value in SI units and scales with the base units as its dimension says. The pressure of the perfect gas is the same physical pressure in all base units. The code violates this for all cgs quantities, the Hubble constant, the radiative constant and with it the radiative gas, and the value of the proton mass; with the base units of the code, all equal to 1, only the last one has an effect.", "quantifier": "For all positive sizes of the four base units, all gases, densities and temperatures.", "why_tests_cant": "The base units are compile-time constants equal to 1: no test can run with other ones without editing the source, and with 1 all wrong powers are invisible.", "anchors": ["src/units/units.hpp:16-94", "src/thermodynamics/perfect_gas.hpp:64-72", "src/thermodynamics/rad_gas.hpp:66-70"]}
{"id": "C96", "title": "Mass fractions do not act on the gas nor on each other", "statement": "Two runs that differ only in the number and the values of the mass fractions compute, bit by bit, the same density, momentum, energy and time steps, and the same values of the fractions they share, whatever the other fractions hold (NaN included): fractions can be added, left out, exchanged and doubled without any effect on the rest.", "quantifier": "all arithmetics (exact, rounded, IEEE with NaN), dimensions, numbers of fractions, choices of the shared ones, limiters, solvers, geometries, gas laws, meshes, initial states, boundary conditions (not user-defined), decompositions with the same reduction order and numbers of iterations", "why_tests_cant": "A test compares two runs with chosen fractions; an index taken from the wrong fraction or a fraction leaking into the flux shows only for some numbers of fractions and some values.", "anchors": ["src/hydro/hydro_reconstruction.hpp:85-131", "src/hydro/extrapolation_reconstruction.hpp:94-337", "src/hydro/godunov_scheme.hpp:77-302", "src/hydro/time_step.hpp:36-88", "src/main.cpp:354-484"]}
{"id": "C97", "title": "Mass fractions that add up to one keep doing so", "statement": "In exact arithmetic, if the mass fractions of some species add up to one in all cells at the start, they do after any number of iterations. This holds for two species with any limiter, and for any number with the constant reconstruction as long as nothing is clamped; the code violates it for three species with a limiter.", "quantifier": "all ordered fields, dimensions, limiters, solvers, gas laws, geometries, meshes, gravities, boundary conditions (not user-defined), decompositions, initial states and numbers of iterations without vacuum", "why_tests_cant": "The tests look at one or two fractions; with two the sum is kept for every limiter because limiters are odd, so that the loss with three is never seen.", "anchors": ["src/hydro/hydro_reconstruction.hpp:105-109", "src/hydro/limited_linear_reconstruction.hpp:33-66", "src/hydro/extrapolation_reconstruction.hpp:300-337", "src/hydro/godunov_scheme.hpp:260-302"]}
{"id": "C98", "title": "A flow that does not depend on the last coordinate is computed as in one dimension less", "statement": "In exact arithmetic on a Cartesian grid, a run in two (three) dimensions that starts from a state of a run in one (two) dimensions repeated along the new axis and at rest in it, with the same time steps, holds that run repeated along the new axis after any number of iterations, whatever the decompositions and the conditions on the new faces. The time steps of the code differ: each cell adds its speed of sound over its new size. With the pressure fix the code violates the claim on new axes with cells of two sizes.", "quantifier": "all ordered fields, limiters, solvers, gas laws, nodes, numbers of cells, gravities without a component along the new axis, boundary conditions (not user-defined), orders of faces, decompositions of both runs, initial states and numbers of iterations", "why_tests_cant": "The tests run each problem in one dimension; the same problem in two dimensions takes other time steps, so that its result cannot be compared number by number.", "anchors": ["src/hydro/godunov_scheme.hpp:90-302", "src/hydro/extrapolation_reconstruction.hpp:60-340", "src/hydro/limited_linear_reconstruction.hpp:33-66", "src/hydro/pressure_fix.hpp:57-168", "src/hydro/time_step.hpp:59-79", "src/boundary.cpp:37-108"]}
{"id": "C99", "title": "A velocity added along an axis nothing depends on is carried along and changes nothing else", "statement": "In exact arithmetic on a Cartesian grid without the pressure fix, let the flow be the same all along one axis. A run that starts from the same gas with a velocity added along that axis, takes the same time steps and meets no vacuum holds, after any number of iterations and in the ghosts too, the state of the first run with that velocity added: density, pressure, mass fractions and the other velocities are the same. The number and sizes of cells along the axis, its end conditions and the decomposition may differ. The time steps of the code do depend on the velocity: the inverse time step of a cell changes by the change of speed over the size of the cell.", "quantifier": "all ordered fields, dimensions, axes, added velocities, limiters, solvers, gas laws (lawful ones for HLLC), nodes, numbers of cells, gravities that do not vary along the axis, boundary conditions (not user-defined), orders of faces, decompositions of both runs, initial states and numbers of iterations without vacuum", "why_tests_cant": "A test compares two runs that take different time steps, in rounded arithmetic; and an error in the transport of the transverse momentum or of its kinetic energy is seen only in flows with shear.", "anchors": ["src/hydro/godunov_scheme.hpp:90-302", "src/hydro/extrapolation_reconstruction.hpp:60-340", "src/hydro/riemann_solver.hpp:22-183", "src/hydro/euler_equations.hpp:40-136", "src/hydro/time_step.hpp:59-79"]}
{"id": "C100", "title": "Mass fractions stay between the extremes of their initial values, without slopes", "statement": "With the reconstruction Constant every mass fraction of every cell, ghosts included, lies at all times between the least and the greatest initial value of that fraction, as long as no cell gives away more mass than it has in one iteration; in particular the clamp to [0, 1] never acts and any number of fractions that add up to one keep doing so. Whole runs of the program on smooth Cartesian meshes with HLL or HLLC and a Courant number up to 1/(2 d) over the roughness of the mesh meet the condition, and so do the files they write. With any other limiter the code violates the claim below its own time step limit: a fraction leaves the range of its initial values, and the clamp then creates mass of the species.", "quantifier": "all ordered fields, dimensions, solvers, gas laws, geometries, gravities, boundary conditions (not user-defined), decompositions, numbers of mass fractions, initial states and numbers of iterations; whole runs: real numbers, Cartesian meshes, no gravity, no heating", "why_tests_cant": "A test sees a fraction that stays between 0 and 1, which the clamp enforces whatever the scheme does; that the clamp is not needed, or that it hides an overshoot and creates mass, is not visible in the output.", "anchors": ["src/hydro/godunov_scheme.hpp:260-302", "src/hydro/hydro_reconstruction.hpp:85-125", "src/hydro/extrapolation_reconstruction.hpp:60-340", "src/hydro/riemann_solver.hpp:22-183", "src/hydro/time_step.hpp:59-79"]}
{"id": "C101", "title": "The ledger of a run: what the box holds is what it held plus what entered, plus weight and work of gravity, plus what the clamp added", "statement": "In exact arithmetic, after any number of iterations on any decomposition and with any boundary conditions, the mass of the domain is the initial mass plus, for each iteration, the time step times the mass flux of the solver through the faces of the boundary, times their areas. On Cartesian grids the same holds for each component of the momentum with the weight of the gas added, and, without the pressure fix, in all geometries for the energy with the work of gravity added. For the mass of a species the ledger has one more entry: in each cell and iteration, density times the change of the fraction by the clamp to [0, 1].", "quantifier": "all ordered fields, dimensions up to 3, limiters, solvers, gas laws, geometries, meshes with nonzero volumes, gravities, boundary conditions (not user-defined), decompositions, orders of faces, initial states, numbers of mass fractions and of iterations", "why_tests_cant": "The code prints the change of mass over the run, which is rounding plus what crossed open boundaries; no output contains the fluxes through the boundary, so that a leak between cells or between ranks cannot be told from outflow.", "anchors": ["src/hydro/godunov_scheme.hpp:90-302", "src/hydro/hydro_reconstruction.hpp:85-125", "src/boundary_distribute.hpp:50-79", "src/main.cpp:346-582"]}
{"id": "C102", "title": "What a uniform wind carries does not start to oscillate", "statement": "In one dimension on a periodic grid of equal cells, without gravity and pressure fix, in exact arithmetic: if velocity and pressure are uniform at the start, they stay so, the densities stay between the smallest and largest of the initial ones, and the sum of the jumps of density between neighbouring cells never increases, as long as the wind crosses at most one cell per step (HLLC). The same holds for a mass fraction in a fluid that is uniform, with every solver and limiter. In two and three dimensions the range is kept as well, as long as dt times the sum of |u_a| / dx_a is at most 1.", "quantifier": "For all numbers of cells and decompositions, all numbers of iterations, all limiters, all initial densities or fractions, all winds and all sequences of time steps under the condition.", "why_tests_cant": "A test checks one profile (usually a square or a sine) with one limiter; a limiter that lets one profile in many overshoot, or a half step with a wrong factor, passes.", "anchors": ["src/hydro/slope_limiters.hpp", "src/hydro/limited_linear_reconstruction.hpp:36-66", "src/hydro/extrapolation_reconstruction.hpp:94-337", "src/hydro/godunov_scheme.hpp:109-302", "src/hydro/riemann_solver.hpp"]}
{"id": "C103", "title": "The command line", "statement": "The second argument left by MPI and Kokkos is the configuration file; the last argument of the form --pdi-config=file after it names the file given to PDI, and the text compiled in the program is used when there is none; all other arguments have no effect; a command line without configuration file is answered by the usage message. The last point holds when MPI and Kokkos take nothing out of the command line; the code violates it for a command line of flags meant for Kokkos.", "quantifier": "all command lines, and all ways in which MPI and Kokkos may change them", "why_tests_cant": "The tests of the repository always pass the arguments in one order, and never leave out the configuration file.", "anchors": ["src/main.cpp:98-135", "src/mpi_scope_guard.cpp:16-19"]}
{"id": "C104", "title": "Resources are given back", "statement": "Whichever statement of the program throws an exception, no resource (MPI, Kokkos, the PDI tree, PDI, the two communicators of the grid, memory) is given back more often than it was taken, everything happens between MPI_Init and MPI_Finalize, and every resource taken has been given back when the program ends. The last point holds for MPI, Kokkos and memory always, for PDI, its tree and the Cartesian communicator when no exception is thrown; the code violates it for the others.", "quantifier": "all sets of statements that throw", "why_tests_cant": "Tests run the program to its end; a communicator or a library left open at exit is not visible in any output, and the paths taken by exceptions are not exercised.", "anchors": ["src/main.cpp:105-604", "src/mpi_scope_guard.cpp", "src/mesh/grid.cpp:47-132"]}
{"id": "C105", "title": "Without slopes the computed density and mass fractions tend to the exact solution, at first order in the size of the cells, for a profile carried by a uniform wind", "statement": "In a periodic box with equal cells, without gravity and without slope reconstruction, let velocity u and pressure be uniform at the start and let the density be that of a smooth positive periodic profile r at the centres of the cells (HLLC, a gas whose energy per volume depends on the pressure only), or let density, velocity and pressure be uniform and a mass fraction be that of a smooth profile r (any solver). The exact solution of the Euler equations is the profile moved with the wind, r(x - (t - t0) u). At every turn of the main loop, with the time steps the program chooses itself, and in every file, the computed value in the cell with centre x differs from the exact one by at most 2 M (t - t0) sum_a |u_a| h_a, with h_a the sizes of the cells and M the bound of the second order remainder of r: the error tends to 0 with the cells, whatever the number of steps.", "quantifier": "for all dimensions 1 to 3, all smooth periodic profiles, winds, pressures, box sizes, process grids, Courant numbers at most 1, input files (times of output, limits), numbers of turns; exact arithmetic", "why_tests_cant": "A test measures the error for some profiles on some meshes and fits a slope; it says nothing of other profiles, other meshes or later times. An error of consistency (a flux taken a cell too far, a time step used twice) that is small on the meshes tested can leave a limit that is not the exact solution.", "anchors": ["src/hydro/slope_limiters.hpp", "src/hydro/limited_linear_reconstruction.hpp:36-66", "src/hydro/extrapolation_reconstruction.hpp:94-337", "src/hydro/godunov_scheme.hpp:109-302", "src/hydro/riemann_solver.hpp", "src/main.cpp"]}
{"id": "C106", "title": "With every limiter the computed profile tends to the exact one in the mean, also across jumps", "statement": "In one dimension, periodic, equal cells of size h, no gravity, no pressure fix: let velocity u and pressure be uniform at the start and the densities arbitrary (HLLC; with VanLeer and VanAlbada the largest density is below twice the smallest), or let all be uniform but a mass fraction (any solver). The exact solution carries the profile along with the wind. At every turn of the main loop, with the time steps the program chooses itself, and in every file, the sum over the cells of |computed value - mean of the exact solution over the cell| times h is at most 4 T sqrt((t - t0) |u| h), where T is the sum of the jumps of the data at the start. For data taken from a profile with Lipschitz constant Lp at the centres of the cells of a box of length L, the error as measured by the convergence test of the project (sum of |exact value at the centre - density| times h) is at most 4 Lp L sqrt((t - t0) |u| h) + Lp L h / 2.", "quantifier": "for all limiters, winds, data with or without jumps, numbers of cells, process grids, Courant numbers at most 1, input files (times of output, limits), numbers of turns; exact arithmetic", "why_tests_cant": "The project's convergence test runs one sine wave on five meshes and fits the slope of the errors. It cannot tell that the limit is the exact solution for other data, for jumps, for other limiters or other times.", "anchors": ["test/convergence_advection_sinus/check_convergence_advection_sinus.py", "src/hydro/slope_limiters.hpp", "src/hydro/limited_linear_reconstruction.hpp:36-66", "src/hydro/extrapolation_reconstruction.hpp:94-337", "src/hydro/godunov_scheme.hpp:109-302", "src/hydro/riemann_solver.hpp", "src/main.cpp"]}
{"id": "C107", "title": "The shipped advections run as announced, from the text of the input file to the result files", "statement": "inputs/advection_sinus.ini and inputs/advection_gap.ini, read character by character, are accepted and give a run whose setup gets its parameters. From there, through the nodes of the regular grid, the initialisation on each rank, the conversion and the ghosts to any number of turns of the main loop, no array is accessed out of bounds, and every result file holds velocity 1 and pressure 0.1 in every cell exactly, densities in the range of the start, a variation that does not exceed that of the start, the mass of the start, and an error in the mean bounded by C106. For every setup whose data do not depend on the decomposition, the run started in this way gives the same files on every process grid.", "quantifier": "all process grids, orders of the loops (initialisation included), numbers of passive scalars, interruptions and numbers of turns; for the second part all setups of C66, boundary conditions, limiters and solvers, in 1 to 3 dimensions", "why_tests_cant": "A test runs one build on one number of ranks and compares within a tolerance; it cannot say that the velocity and pressure of every cell of every file are exact, nor that this holds for every decomposition.", "anchors": ["inputs/advection_sinus.ini:1-34", "inputs/advection_gap.ini:1-33", "src/setups/advection_sinus/setup.hpp:24-76", "src/setups/advection_gap/setup.hpp:27-88", "src/main.cpp:138-344", "src/main.cpp:354-561"]}
{"id": "C108", "title": "In a periodic box the result follows its start around the box; shear layers keep their period and their totals", "statement": "In a box periodic in all directions with a uniform Cartesian mesh and a gravity that is the same everywhere, start data displaced by any number of cells around the box give, after any number of turns, the same status, time, counters and outputs with all data and all result files displaced by the same number of cells, also on another process grid. Start data that repeat every so many cells give files that repeat so. inputs/kelvin_helmholtz.ini with its Priority line corrected (the line as shipped is refused, C89) is read and gives a run in which every result file repeats after half the length of the box and keeps the mass, the energy and the momentum along the layers of the start, with no momentum across them.", "quantifier": "all periodic boxes in 1 to 3 dimensions, displacements, process grids, orders of the loops, limiters, solvers, equations of state, with or without pressure fix and heating, interruptions, numbers of turns; for the shear layers the file as corrected on all process grids", "why_tests_cant": "A test compares one displaced run within a tolerance on one grid of processes; it cannot exclude a cell, a rank border or a turn at which the place in the box matters.", "anchors": ["src/main.cpp:354-561", "src/boundary_distribute.cpp: DistributedBoundaryCondition::ghost_sync", "src/setups/kelvin_helmholtz/setup.hpp:24-88", "inputs/kelvin_helmholtz.ini:1-37"]}
{"id": "C109", "title": "The square problems that come with the code stay symmetric about the diagonal, from the text of the input file to the result files", "statement": "inputs/implosion_test.ini and inputs/sedov2d.ini, read character by character, are accepted and give a run whose setup gets its parameters. From there through the nodes, the initialisation on each rank, the conversion and the ghosts to any number of turns of the main loop, no array is accessed out of bounds and every result file is exactly symmetric about the diagonal of the square: equal densities, pressures, energies, temperatures and scalars in cells (i, j) and (j, i), exchanged velocities.", "quantifier": "all process grids (also those that cut the axes differently), orders of the loops (initialisation included), numbers of passive scalars, interruptions and numbers of turns; for the Sedov problem all equations of state used by the setup", "why_tests_cant": "The symmetry of the implosion is the classical check of a two-dimensional code and is looked at on plots of one run; a plot does not show a small asymmetry, nor one on another decomposition.", "anchors": ["inputs/implosion_test.ini:1-39", "inputs/sedov2d.ini:1-35", "src/setups/implosion_test/setup.hpp:24-98", "src/setups/sedov2d/setup.hpp:24-106", "src/main.cpp:138-344", "src/main.cpp:354-561"]}
{"id": "C110", "title": "A uniform gas that nickel heats gains the energy of the decays, from the text of the input file to the result files", "statement": "A uniform perfect gas with the nickel heating on (no gravity, Cartesian grid, periodic or open boundaries) stays uniform in every result file, keeps density, velocity and mass fractions, and has gained at least the energy that the decay chain nickel - cobalt - iron has released since the start for its nickel fraction, and at most that plus the loss of power since the start times a time step; the run never stops for a negative energy. inputs/heat_nickel.ini, read character by character (with its remarks behind values), is accepted and gives such a run, with 8100 s for the time step.", "quantifier": "all meshes in 1 to 3 dimensions, process grids, orders of the loops, limiters, solvers, perfect gases, uniform states, mass fractions, interruptions and numbers of turns", "why_tests_cant": "The energy gained is compared with the integral of the power at the end of one run within a tolerance; a test cannot give a bound of the error at every output of every run.", "anchors": ["inputs/heat_nickel.ini:1-45", "src/setups/heat_nickel/setup.hpp:24-86", "src/user_step/user_step.cpp:42-70", "src/main.cpp:354-561"]}
{"id": "C111", "title": "What a quarter turn leaves as it is stays so; the Gresho vortex from the input file to the result files", "statement": "In a square with the same boundary condition on all sides and nodes placed alike on both axes and symmetric about the centre, with the HLL or the low-Mach solver and without gravity and pressure fix, an initial state that a quarter turn about the centre leaves as it is gives result files that a quarter turn leaves exactly as they are, after any number of turns of the main loop. In particular the text of inputs/gresho_vortex.ini, with the names of the faces that the program knows, is read and gives such a run.", "quantifier": "for all reconstructions, Courant numbers, initial states with the symmetry, process grids, orders of the loops and numbers of turns", "why_tests_cant": "A test of the vortex looks at the kinetic energy or at one profile after a few turns; a sign or an index that is wrong in one direction or one quarter only changes small numbers, and no test covers all decompositions.", "anchors": ["src/setups/gresho_vortex/setup.hpp:57-105", "inputs/gresho_vortex.ini", "src/hydro/riemann_solver.hpp", "src/hydro/godunov_scheme.hpp", "src/boundary.cpp", "src/main.cpp:373-497"]}
{"id": "C112", "title": "Along a periodic axis no place is special, whatever the walls of the other axes", "statement": "Let one axis be periodic with cells of one size, the other axes have any mesh and any built-in boundary condition at each face, and let gravity not depend on the position along the periodic axis. If the data of a second run are those of a first one displaced by some cells around the periodic axis, then after any number of turns of the main loop the second run has the same status, time and counters, its data are those of the first displaced by the same cells (ghosts at the walls included), and each of its files is the displaced file. In particular data that repeat along the axis at the start repeat for ever. For inputs/rayleigh_taylor.ini: every result file repeats exactly after half of the interface.", "quantifier": "all displacements, meshes and conditions of the other axes, limiters, solvers, with or without pressure fix and heating, process grids, loop orders, numbers of turns; for the shipped file: all process grids, loop orders and numbers of turns", "why_tests_cant": "tests compare a few runs with one decomposition; an index shifted by one at a wall, a ghost corner filled in another order or a gravity read at the wrong cell shows only for particular displacements and decompositions", "anchors": ["src/boundary.hpp", "src/boundary_distribute.cpp", "src/hydro/godunov_scheme.hpp", "src/gravity/gravity.hpp", "src/setups/rayleigh_taylor/setup.hpp", "inputs/rayleigh_taylor.ini", "src/main.cpp"]}
