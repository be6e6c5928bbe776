# Design of the HERACLES++ model

## 1. What is being verified

HERACLES++ (`/repo`) is a finite-volume Euler code (MUSCL-Hancock + HLL / HLLC / low-Mach
Riemann solver) parallelised with Kokkos and MPI.  The C++ is read as text; nothing is compiled
or run.  The Lean model in `lean/Verif` follows the code function by function.  Every definition
that models code carries a comment with the file and line numbers it was read from and the
simplifications made.

Layout:

* `Verif/Model/*.lean`  – the model (definitions only, cited line by line)
* `Verif/Spec/*.lean`   – independent specifications used in property statements
* `Verif/Lemmas/*.lean` – helper lemmas
* `Verif/Props/*.lean`  – one or more theorems per property, with `example`s showing the
  hypotheses can be met

## 2. Modelling conventions

* **Numbers.**  `double` is modelled by exact arithmetic: an arbitrary linearly ordered field `K`
  for purely algebraic kernels, `ℝ` where `sqrt`, `exp`, `cos`, `π` occur.  Rounding, overflow of
  `double`, signed zeros are not modelled.  NaN/Inf are modelled only where the property is about
  them (C18, C54) through an explicit extra type.
* **Integers.**  `int` is `ℤ`, except where the property is about wrap-around or width: modification
  flags of the dual view (C46) and checked casts (C47).
* **Memory.**  A Kokkos view is a domain plus a value function.  Reads and writes go through
  partial accessors that return `none` outside the domain, so undefined behaviour is a distinct
  outcome of every kernel model; theorems about results include "the outcome is not `none`".
  Views with the same extents that are asserted equal (`equal_extents`) may be packed in one view of
  structures.
* **Parallel loops.**  `Kokkos::parallel_for` over an index box is a left fold of the loop body over
  *some* list enumerating the box; theorems quantify over every permutation of it.  Interleavings
  inside one iteration are not modelled.
* **Reductions.**  `parallel_reduce` and `MPI_Allreduce` are folds over an arbitrary permutation /
  grouping of the contributions.
* **MPI.**  The Cartesian communicator is periodic in all directions (as created by the code); a
  distributed field is a function from rank coordinates to local views.  `MPI_Sendrecv_replace` is
  a simultaneous permutation of buffers along the ring.  Deadlock, message loss are not modelled.
* **Dimensions.** `ndim` is a parameter `d ≤ 3`; cells are always integer triples as in the code.
* **Exceptions** are `Except`-valued results.


## 3. Properties

112 properties: 64 proved, 48 partial; 445 theorems. After each theorem: the file in `Verif/Props` and the axioms it depends on (p = `propext`, c = `Classical.choice`, q = `Quot.sound`, – = none).

### C01 Domain decomposition is an exact balanced tiling — proved

Whatever the global cell count N and process count d along a direction, the per-rank cell intervals [start, start+local) reported by the grid are pairwise disjoint, consecutive in rank order, cover exactly [0,N), and their lengths differ by at most one cell.

* *Modelled*: Model/Mesh: `localSize`, `localStart`, `GridTopo.mk?` (grid.cpp).
* *Proof*: closed integer formulas for start and length of rank r; division lemmas and `omega`.
* `C01_consecutive_balanced` (Mesh.lean; pcq): intervals start at 0, end at `N`, follow each other in rank order, and their lengths are non-negative and differ by at most one.
* `C01_unique_owner` (Mesh.lean; pcq): construction succeeds on every rank, and every global cell lies in the corner box of exactly one rank.
* `C01_negative_size_rejected` (Mesh.lean; pcq): a negative global size is rejected on every rank.

### C02 Border flags mark exactly the ranks that own the domain boundary — proved

A rank reports itself a left (right) border in a direction exactly when its cell interval starts at 0 (ends at N) in rank order, so that each physical boundary face of the domain is handled by exactly one layer of ranks.

* *Modelled*: Model/Mesh: border flags of `GridTopo`.
* *Proof*: equivalence by integer arithmetic under `dims ≤ nx`; a 3-rank, 1-cell witness outside of it.
* *Result*: Holds when no direction has more ranks than cells; with more ranks than cells some ranks are empty and the equivalence fails for them.
* `C02_border_iff` (Mesh.lean; pcq): when every rank owns at least one cell (`dims ≤ nx`), the left (right) border flag is set exactly on the ranks whose cells start at the beginning (end at the end) of the domain.
* `C02_more_ranks_than_cells` (Mesh.lean; pcq): rank 1 of 3 on a 1-cell direction ends at the domain end but is not flagged as a border (its own cell range is empty).

### C03 Local node coordinates are the right slice of the global mesh — proved

After the grid is set, node l of a rank holds the global node coordinate start+l, ghosts included; neighbouring ranks agree on every node they share, and all accesses to the global coordinate array stay in bounds.

* *Modelled*: Model/Mesh: `copySlice`, `setNodes` with checked reads.
* *Proof*: slice computed index by index; agreement of neighbours from C01.
* `C03_nodes` (Mesh.lean; pcq): setting the nodes never reads outside the global array (of extent `nx + 2 ng + 1`), yields an array of `local + 2 ng + 1` nodes, and node `l` is global node `start + l`.
* `C03_neighbours_agree` (Mesh.lean; pcq): consecutive ranks along a direction agree on the `2 ng + 1` nodes they share (the ghosts of one are the interior nodes of the other).

### C04 Halo exchange reproduces the periodic global field — proved

After a halo exchange over all directions and faces, every cell of every rank, including edge and corner ghosts, holds the value of the periodic extension of the global interior field, independently of how the domain is split.

* *Modelled*: Model/Ghost: `DistView`, `ghostSync`, `ghostSyncAll` (pack, `MPI_Sendrecv_replace` along the ring, unpack).
* *Proof*: invariant over the directions already exchanged: ghosts along them equal the periodic image of the global field; edge and corner ghosts follow because later directions copy filled ghosts.
* `C04_halo_is_periodic_image` (Ghost.lean; pcq): after the halo exchange every cell of every rank (edge and corner ghosts included) holds the periodic extension of the global interior field `G`, whatever the decomposition, provided every rank owns at least `ng` cells in each active direction.
* `C04_decomposition_independent` (Ghost.lean; pcq): two runs with different process grids but the same global interior field agree, after the exchange, on every pair of local cells that image the same global cell.

### C05 Halo exchange never touches interior cells and stays in bounds — proved

A halo exchange leaves every interior cell of every rank unchanged and only addresses cells inside the allocated arrays, provided each rank owns at least as many cells as ghosts in each direction; with fewer cells than ghosts, cells that are themselves ghosts are sent.

* *Modelled*: Model/Ghost.
* *Proof*: pointwise characterisation of the exchange; a concrete run with one cell per rank and two ghosts shows stale ghosts.
* *Result*: Holds when every rank has at least as many cells as ghost layers; C05_thin_rank_counterexample shows the halo is wrong otherwise (the code does not check).
* `C05_interior_unchanged` (Ghost.lean; pcq): a halo exchange is always within bounds (any non-negative local sizes, even smaller than the ghost width), keeps the extents and leaves every interior cell of every rank unchanged.
* `C05_thin_rank_counterexample` (Ghost.lean; p): with 2 ghosts and 1 cell per rank (2 cells on 2 ranks) the exchange sends cells that are themselves ghosts, and rank 0 ends up with stale data (-1) in its outer right ghost instead of the periodic image.

### C06 Null-gradient boundary copies the nearest interior layer — proved

Executing the null-gradient condition on a face sets every ghost cell of that face (for density, momentum, energy and every scalar) to the value of the closest non-ghost layer in that direction and changes no other cell; the result does not depend on the order in which the parallel iterations run.

* *Modelled*: Model/Boundary: `nullGradient` as checked loop.
* *Proof*: loop characterised pointwise for every order (`parFor_update`), reads never meet writes.
* `C06_null_gradient` (Boundary.lean; pcq): the null-gradient condition sets every ghost cell of the face to the value (of all fields) of the non-ghost layer next to the face and changes nothing else, in any iteration order.
* `C06_order_independent` (Boundary.lean; pcq): the iteration order is irrelevant.
* `C06_no_interior_out_of_bounds` (Boundary.lean; pcq): C06, without any cell beyond the ghosts of the face the kernel reads out of bounds.

### C07 Reflexive boundary is an exact mirror with reversed normal momentum — proved

Executing the reflexive condition on a face sets every ghost cell to its mirror image across the boundary face, with the momentum component normal to the face negated and every other field unchanged, and changes no other cell, in any iteration order; all reads are of interior cells when the local size is at least the ghost width.

* *Modelled*: Model/Boundary: `reflexive`.
* *Proof*: same as C06, mirror index computed independently in Spec/Boundary.
* `C07_reflexive` (Boundary.lean; pcq): the reflexive condition sets the ghost cell at depth `m` behind the face to the interior cell at depth `m` in front of it, with the momentum normal to the face negated; every other cell is unchanged. Depth 1 is the layer that touches the face.
* `C07_reads_interior` (Boundary.lean; pcq): every cell read by the kernel is an interior cell as soon as the array holds at least `ng` cells between its two ghost layers.
* `C07_order_independent` (Boundary.lean; pcq): the iteration order is irrelevant.

### C08 Boundary priority string decides corner ownership — partial

The user-supplied priority lists faces from high to low priority; boundary conditions are run so that a higher priority face is executed after every lower priority one and therefore overwrites it on edges and corners.

* *Modelled*: Model/Boundary: `generateOrder` on lists of words.
* *Proof*: the array holds positions but is used as list of faces: equality with the documented order exactly when the priority is an involution; witnesses by evaluation; corner values by running the conditions.
* *Result*: Violated by the code: generate_order stores positions and uses them as face numbers; proved for involutive priorities and for built-in conditions, witnesses for the rest.
* `C08_code_uses_positions` (Order.lean; pcq): What the code computes for a complete priority list: slot `f` receives the *position* of face `f` in the list, and the result is reversed.
* `C08_documented_iff_involutive` (Order.lean; pcq): the documented order is used if and only if the priority list, read as a permutation of the faces, is its own inverse.
* `C08_involutive_partial` (Order.lean; pcq): Full statement: for *every* permutation `p` of the faces `generateOrder ndim (priorityText p) = .ok (documentedOrder p)`. It is false (next theorem); it holds for the priorities that only exchange disjoint pairs of faces.
* `C08_one_dimension` (Order.lean; pcq): In one dimension every priority list is honoured.
* `C08_violated` (Order.lean; pcq): with the priority "X_right Y_left X_left Y_right" the face of highest priority, X_right (face 1), is *not* executed last: Y_left (face 2) is.
* `C08_default_violated` (Order.lean; pcq): C08, the default (empty priority) is documented as X before Y before Z from high to low priority, but the X faces are executed first, so that Y and Z overwrite them: opposite of the documentation as soon as there are two dimensions.
* `C08_builtin_order_irrelevant` (Order.lean; pcq): with the built-in conditions only (null gradient, reflexive, periodic) on arrays with enough cells, *every* order of the faces gives the same arrays, so the priority has no effect at all; it matters only for user-defined conditions.
* `C08_violated_corner` (Order.lean; pcq): with the priority "X_right Y_left X_left Y_right" and user conditions on all faces, the corner shared by X_right (face 1, highest priority) and Y_left (face 2) ends up with the data of Y_left; the documented order would leave the data of X_right.

### C09 Malformed priority strings are rejected — partial

A non-empty priority string that does not name every face of the run exactly once is rejected with an error; no boundary order slot is ever left uninitialised.

* *Modelled*: Model/Boundary: `generateOrder`.
* *Proof*: exact characterisation of accepted strings; witnesses for duplicates and trailing words.
* *Result*: Violated by the code for duplicated faces and for extra words; the exact set of accepted inputs is proved.
* `C09_accepted_iff` (Order.lean; pq): a non-empty priority string is accepted if and only if each of its first `2 * ndim` words is the name of some face of the run.
* `C09_rejects_partial` (Order.lean; pq): Full statement: a non-empty string whose words are not exactly the faces of the run, each once, is rejected. It is false for repeated faces and for extra words (next theorems). What holds: a string with too few words, or with a word that is not a face of the run among the first `2 * ndim`, is rejected.
* `C09_complete_list_initialised` (Order.lean; pcq): A complete list of faces, each named once, is accepted and leaves no slot unassigned.
* `C09_violated_duplicate` (Order.lean; pcq): "X_left X_left" is accepted in one dimension, and slot 0 of the order is never assigned; using the order is then undefined behaviour.
* `C09_violated_extra_words` (Order.lean; p): everything after the first `2 * ndim` words is ignored.

### C10 Boundary kind fallback is face, then direction, then global — proved

The boundary condition used on a face is the face-specific entry if present, otherwise the direction entry, otherwise the global entry; the run aborts exactly when the resolved choice for some face is empty or unknown.

* *Modelled*: Model/Boundary: `bcChoice`, `bcSelect`.
* *Proof*: lookup chain over an arbitrary key-value map.
* `C10_fallback` (Boundary.lean; pcq): the choice of a face is the face entry, otherwise the direction entry, otherwise the global entry; an empty choice is an error.
* `C10_select` (Boundary.lean; pcq): the run goes on exactly when the resolved choice of every face names a known condition, and then the condition of face `f` of direction `a` (slot `2 a + f`) is the resolved one; otherwise it aborts.

### C11 Full boundary update acts only on ghosts and only where asked — proved

Running the distributed boundary update leaves all interior cells unchanged and applies the physical condition of a face only on ranks that border that face; on non-border faces the ghosts are those of the neighbouring rank.

* *Modelled*: Model/Boundary, Model/Ghost: `bcLoop`, `bcUpdate`.
* *Proof*: composition of C04–C07 on the distributed state; last executed face wins on overlaps.
* `C11_full_update` (Boundary.lean; pcq): `perm` is any order of the `2 * d` faces. After the full boundary update from a distributed field whose interior is the global field `G`: * interior cells are unchanged, * cells that are in no ghost layer of a border face hold the periodic image of `G` (values of the neighbouring ranks), * a cell in the ghost layers of exactly one border face gets the condition of that face, applied to the exchanged field.
* `C11_last_executed_face_wins` (Boundary.lean; pcq): among the border faces whose ghost layers contain a cell, the one executed last decides the value, computed from what the previous conditions left.

### C12 Index ranges have the documented shape and reject bad input — proved

A Range with corners Cmin<=Cmax and Ng ghosts yields, in active dimensions, interior cells [Ng, Ng+n), one-ghost and two-ghost enlargements by 1 and 2 on both sides, faces one longer than cells, and no ghosts in inactive dimensions; negative or inverted corners and more effective ghosts than available are rejected.

* *Modelled*: Model/Mesh: `Range` constructor and `withGhosts` (range.cpp).
* *Proof*: integer arithmetic; error branches explicit.
* `C12_accepts_iff` (Mesh.lean; pcq): a range is accepted exactly for non-negative ordered corners.
* `C12_layer_bounds` (Mesh.lean; pcq): all twelve layer bounds of an accepted range; faces are one longer than cells; no ghosts in inactive directions; the corners are kept and no effective ghosts are set.
* `C12_withGhosts` (Mesh.lean; pq): asking for more effective ghosts than available is rejected; otherwise only the effective ghost count changes. (A negative count is accepted.)

### C13 Parallel loops visit each cell of a range exactly once — proved

The index box produced for a range with n effective ghosts contains precisely the interior cells plus n layers in active dimensions, lies inside the allocated local array whenever n <= Ng, and growing n gives nested boxes.

* *Modelled*: Model/Mesh: `Range.cellBegin`, `Range.cellEnd`, Model/Kokkos: `boxList`.
* *Proof*: membership and `Nodup` of the index list.
* `C13_box` (Mesh.lean; pcq): the loop box of a rank's range with `n` effective ghosts contains precisely the cells at distance at most `n` layers from the interior cells `[ng, ng + local)` in active directions, and the interior cells in inactive directions.
* `C13_inside_and_nested` (Mesh.lean; pcq): the loop box lies inside the local array (extents `local + 2 ng` in active directions, `local` otherwise) whenever `n ≤ ng`, and boxes grow with `n`.
* `C13_each_once` (Mesh.lean; pcq): every iteration order of the loop executes each cell of the box exactly once; such orders exist.

### C14 Primitive/conservative conversion is a bijection on physical states — proved

Converting primitive to conservative variables and back (and conversely) returns the same state for positive density, for any perfect gas and any dimension.

* *Modelled*: Model/Euler: `toPrim`, `toCons`.
* *Proof*: field algebra; needs `EoS.Lawful`, discharged for every perfect gas.
* `C14_conversions_inverse` (Euler.lean; pcq): For positive density the two conversions are inverse of each other; `EoS.Lawful` holds for every perfect gas accepted by the constructor (`C14_perfect_gas`).
* `C14_perfect_gas` (Euler.lean; pcq): **C14** for the perfect gas, in physical terms: density is untouched, momentum is `rho u`, energy is `P / (gamma - 1) + rho |u|² / 2`, and converting back gives the same state.

### C15 Array conversions write exactly the requested cells — proved

conv_prim_to_cons and conv_cons_to_prim change exactly the cells of the given range, every such cell receiving the pointwise conversion, independently of iteration order; composing them on a range restores velocities and pressure there.

* *Modelled*: Model/Euler: array kernels.
* *Proof*: `parFor_update` for every order.
* `C15_prim_to_cons` (Euler.lean; pcq): `conv_prim_to_cons` over any execution order `l` of a box `[b, e)` inside the arrays: no access is out of bounds, exactly the cells of the box are written, each with the pointwise conversion.
* `C15_cons_to_prim` (Euler.lean; pcq): **C15** for the opposite conversion.
* `C15_round_trip` (Euler.lean; pcq): **C15**, round trip: converting to conservative variables and back over a box (in two possibly different orders) restores the velocities and the pressure wherever the density is positive.

### C16 Physical flux computed from either representation agrees — proved

The Euler flux computed from the conservative variables and pressure equals the flux computed from the corresponding primitive variables.

* *Modelled*: Model/Euler: `fluxCons`, `fluxPrim`.
* *Proof*: field algebra.
* `C16_flux_from_either_representation` (Euler.lean; pcq): Both overloads of `compute_flux` give the textbook flux, hence agree on corresponding states.

### C17 Perfect gas relations are mutually consistent — proved

Pressure, volumic internal energy and temperature conversions of the perfect gas are mutually inverse, monotone, and positive for positive inputs; the squared sound speed is gamma P / rho.

* *Modelled*: Model/Thermo: perfect gas over ℝ.
* *Proof*: real algebra, monotonicity, `Real.sqrt`.
* `C17_perfect_gas_law` (Thermo.lean; pcq): **C17**, the relations themselves: ideal gas law `P = rho kB T / (mmw mP)` and `P = (gamma - 1) evol`, stated directly on the outputs.
* `C17_mutually_inverse` (Thermo.lean; pcq): **C17**, mutual inverses: pressure ↔ energy, pressure ↔ temperature, energy ↔ temperature.
* `C17_monotone_positive` (Thermo.lean; pcq): **C17**, monotonicity and positivity of the six conversions.
* `C17_sound_speed` (Thermo.lean; pcq): **C17**, sound speed.

### C18 Equation of state constructors reject unphysical parameters — proved

Constructing an equation of state succeeds exactly when gamma is finite and > 1 and the mean molecular weight is finite and > 0; otherwise it throws.

* *Modelled*: Model/Thermo: constructor guards over a type with NaN and infinities.
* *Proof*: case analysis.
* `C18_constructor_ok_iff` (Thermo.lean; pcq): For every pair of `double` arguments (NaN and infinities included) the constructor returns a gas exactly when `gamma` is a real `> 1` and `mmw` a real `> 0`; the members are then these reals and `gamma - 1`. In every other case an exception is thrown.
* `C18_constructed_is_physical` (Thermo.lean; pcq): The invariant used by the other theorems is what the constructor establishes.

### C19 Radiative gas temperature inversion converges to the true temperature — partial

The temperature returned from a pressure or an internal energy is within the stated tolerance of the unique positive root of the radiative relation, or an error is raised when the iteration fails to converge.

* *Modelled*: Model/Thermo: Newton iteration with the two stopping tests of rad_gas.hpp.
* *Proof*: existence and uniqueness of the root; monotone convergence from above; bound on the number of iterations (101) under a factor 5·10⁸ between gas and radiation temperature; witness outside.
* *Result*: Accuracy proved when gas and radiation temperatures are within a factor 5e8; otherwise violated: the error branch is unreachable and a witness returns 80 times the true temperature silently.
* `C19_temperature_exists_unique` (Thermo.lean; pcq): **C19**, the exact relation has exactly one positive temperature.
* `C19_temp_from_pres_partial` (Thermo.lean; pcq): **C19** (partial). Full statement: for every positive density and pressure the returned temperature is within the tolerance of the true one *or an error is reported*. This is false, see `C19_violated`. Proved here: the returned temperature is within three times the Newton tolerance of the true temperature `T` whenever the pure-gas temperature `P mmw mP / (rho kB)` and the pure-radiation temperature `(3 P / aR)^(1/4)` differ by a factor of at most `5·10^8`. (`T ≤ 10^300` is the range of `double`.)
* `C19_temp_from_evol_partial` (Thermo.lean; pcq): **C19** (partial), same for the inversion of the internal energy. Full statement and gap as in `C19_temp_from_pres_partial`.
* `C19_one_sided` (Thermo.lean; pcq): **C19**, what holds without any restriction on the state: the returned temperature is never below the true one, and when the last Newton increment is below the tolerance the error is at most three times the tolerance.
* `C19_never_reports` (Thermo.lean; pcq): **C19**, the non-convergence branch is unreachable: the loop counter stops at `max_itr - 1` but the test compares it with `max_itr`.
* `C19_violated` (Thermo.lean; pcq): A hydrogen gas (`gamma = 5/3`, `mmw = 1`) at true temperature at most `10^9 K` and density `rho = aR/3 · 10^12 · mP/kB` (about `3·10^-8 kg/m³`): the inversion of its pressure stops after 100 iterations without any message and returns more than 80 times the true temperature.

### C20 Slope limiters are symmetric, sign preserving and vanish at extrema — proved

Every limiter returns 0 when the one-sided differences have opposite signs or one is zero, a value with their common sign otherwise, is symmetric in its arguments, odd under sign change and homogeneous of degree one.

* *Modelled*: Model/Limiter: `Limiter.slope`.
* *Proof*: ordered-field case analysis.
* `C20_limiter_symmetry_and_sign` (Limiter.lean; pcq): Every limiter is symmetric, homogeneous of degree one (for every factor; `-1` gives oddness), vanishes when the differences do not have the same strict sign, and otherwise (`Constant` excepted, which is identically zero) has their common sign.
* `C20_constant_is_zero` (Limiter.lean; pq): The `Constant` limiter is identically zero (first-order scheme).

### C21 Slope limiters lie in the second-order TVD region — proved

Every non-constant limiter returns the common value on equal slopes (exact on linear data) and its absolute value never exceeds twice the smaller of the one-sided slopes; minmod never exceeds the smaller one.

* *Modelled*: Model/Limiter.
* *Proof*: ordered-field inequalities.
* `C21_tvd_region` (Limiter.lean; pcq): Second-order TVD region: exact on equal slopes, never more than twice the smaller one-sided slope; minmod never more than the smaller one.

### C22 Reconstruction creates no new extrema — partial

On each cell the two reconstructed face values average to the cell value and lie between the neighbouring cell values, hence positive cell averages give positive face values; linear data on a uniform grid is reconstructed exactly.

* *Modelled*: Model/Limiter: `reconFace`, `faceReconstruct`.
* *Proof*: convexity from C21; witness mesh with ratio > 1 for van Leer / van Albada.
* *Result*: Proved for every limiter where the cell is not larger than its neighbours (so on uniform grids) and for minmod on every mesh; violated by van Leer and van Albada on stretched meshes (C22_nonuniform_overshoot).
* `C22_no_new_extrema` (Limiter.lean; pcq): **C22**, one cell and one direction. The two face values average to the cell value; the left (right) face value lies between the cell value and its left (right) neighbour's. Holds for every limiter if the cell is not larger than its neighbours (in particular on a uniform grid), for minmod on any mesh.
* `C22_exact_on_linear_data` (Limiter.lean; pcq): **C22**, linear data of slope `s` are reconstructed exactly, on every mesh (uniform or not) and by every limiter except `Constant`.
* `C22_nonuniform_overshoot` (Limiter.lean; pcq): The extra hypothesis of `C22_no_new_extrema` cannot be dropped: with a cell larger than its neighbours, van Leer and van Albada overshoot the neighbouring value (van Leer on the monotone data `-8, 1, 2`, middle cell three times larger, exceeds 2; van Albada on `-23, 2, 12`, middle cell nine times larger, exceeds 12). Finding: on stretched grids these limiters can create new extrema and negative face values.
* `C22_reconstruction_array` (Limiter.lean; pcq): **C22**, the array kernel, for every execution order of a box whose one-cell neighbourhood lies inside the arrays: no access is out of bounds, cells outside the box are unchanged, and in the box the faces average to the cell value, lie between the neighbouring cell values, and are positive where the three cell values are.

### C23 Reconstruction stencil stays inside the arrays — proved

With at least two ghost layers no kernel of a time step reads or writes outside the allocated arrays; with one ghost layer the reconstruction reads out of bounds and with zero layers the step is rejected.

* *Modelled*: Model/Scheme, Limiter, Euler, Gravity: every kernel of a step with checked accesses.
* *Proof*: totality of each kernel for ≥ 2 ghosts; explicit `none` for one ghost; exception for zero.
* `C23_in_bounds` (Stencil.lean; pcq): with at least two ghost layers the reconstruction (on `range.with_ghosts(1)`) and the Godunov update (on `range.no_ghosts()`) of any rank read and write inside the arrays, for every solver, limiter, geometry, data and execution order.
* `C23_one_ghost_reads_out_of_bounds` (Stencil.lean; pcq): with a single ghost layer, any rank that owns cells reads outside the arrays in the first kernel of the step, in every execution order.
* `C23_no_ghost_rejected` (Stencil.lean; pcq): without ghost cells the step is rejected when the range of the reconstruction is requested.
* `C23_gravity_in_bounds` (Stencil.lean; pq): the gravity functors read inside their arrays (3 components for a uniform field, one value per radial index including ghosts for the radial fields).

### C24 Riemann solvers are consistent with the physical flux — proved

When left and right states coincide, every Riemann solver returns the physical Euler flux of that state.

* *Modelled*: Model/Riemann: `hllFlux`, `hllcFlux`, `splittingFlux`.
* *Proof*: field algebra on equal states.
* `C24_consistency` (Riemann.lean; pcq): With equal left and right states every solver returns the physical flux.

### C25 Supersonic flow is fully upwinded — proved

If all wave speed estimates are positive (negative) HLL and HLLC return the physical flux of the left (right) state.

* *Modelled*: Model/Riemann.
* *Proof*: wave speed signs.
* `C25_supersonic_upwind` (Riemann.lean; pcq): If no wave moves to the left (right), HLL and HLLC return the physical flux of the left (right) state.

### C26 Riemann solvers are mirror symmetric — proved

Exchanging left and right states and reversing the normal velocity negates the mass, transverse momentum and energy fluxes and leaves the normal momentum flux unchanged.

* *Modelled*: Model/Riemann.
* *Proof*: mirror of wave speeds, star states; no exception for ties.
* `C26_mirror_symmetry` (Riemann.lean; pcq): Exchanging the two states and reversing the normal velocity gives the mirrored flux, for every solver and every pair of admissible states: the tie `ustar = 0` of the upwinded solvers is harmless.

### C27 Contact-resolving solvers keep isolated contacts exact — proved

For equal pressures and equal zero normal velocities (stationary contact) HLLC and the low-Mach solver give zero mass and energy flux and normal momentum flux equal to the pressure; for a moving contact HLLC returns the upwind physical flux.

* *Modelled*: Model/Riemann.
* *Proof*: algebra at a contact; HLL witness.
* `C27_contacts` (Riemann.lean; pcq): Across an isolated contact (equal pressures and normal velocities; densities and transverse velocities arbitrary) HLLC returns the physical flux of the upwind state. If the contact is at rest, HLLC and the low-Mach solver return no mass, energy or transverse momentum flux, and the pressure as normal momentum flux.
* `C27_hll_diffuses` (Riemann.lean; pcq): HLL, in contrast, diffuses a contact at rest: if the densities differ there is a mass flux.

### C28 HLLC intermediate state is well defined and satisfies the jump relations — proved

For positive densities and pressures the denominators of HLLC do not vanish, the contact speed lies strictly between the wave speeds, intermediate densities are positive, and the two one-sided fluxes satisfy the Rankine-Hugoniot relations with equal pressure and normal velocity across the contact.

* *Modelled*: Model/Riemann, Spec/Euler: `Jump`.
* *Proof*: positivity of denominators from `sound_sq`; jump relations by field_simp.
* `C28_hllc_fan` (Riemann.lean; pcq): HLLC is the flux at the origin of a fan of three waves: left wave `wL`, contact `us`, right wave `wR`. The denominator of the contact speed does not vanish, the contact lies strictly between the two waves, the intermediate densities are positive, the normal velocity is `us` and the pressure `ps` on both sides of the contact, and the jump relations hold across the three waves.

### C29 Mirror wall emits no mass or energy — proved

When the right state is the mirror image of the left state (reflexive wall), every Riemann solver gives exactly zero mass flux and zero energy flux.

* *Modelled*: Model/Riemann.
* *Proof*: from C26 applied to a state and its mirror.
* `C29_mirror_wall` (Riemann.lean; pcq): Through a face whose two sides are mirror images of each other (ghost cells of a reflexive wall, on the right or on the left) every solver gives zero mass, energy and transverse momentum flux.

### C30 Mass and energy are conserved under periodic boundaries — proved

One update without gravity on a periodic Cartesian box leaves the volume-weighted sums of density, momentum and total energy unchanged, for every Riemann solver and reconstruction; in any geometry and with any boundary values the total mass changes exactly by the mass that goes through the boundary faces.

* *Modelled*: Model/Scheme: `godunov`, `hydroStep`.
* *Proof*: cell balance, telescoping sums over the box, periodic closure.
* `C30_mass_balance` (Conservation.lean; pcq): the total mass of the interior cells changes exactly by the mass that the solver lets through the faces of the boundary of the domain during the step.
* `C30_periodic_box` (Conservation.lean; pcq): on a periodic Cartesian box one step conserves the total mass exactly; the total momentum changes by the total weight and the total energy by the work of gravity, that is, by nothing without gravity. For every solver, limiter, time step, equation of state, mesh with periodic cell sizes and data.
* `C30_conserved` (Conservation.lean; pcq): without gravity, on a periodic Cartesian box, mass, momentum and energy are conserved.

### C31 Neighbouring cells see the same interface flux — proved

The flux leaving a cell through its right face is computed from the same pair of reconstructed states, and multiplied by the same face area, as the flux entering its right neighbour.

* *Modelled*: Model/Scheme.
* *Proof*: fluxes of both cells are the same function of the same states and of the same stored area.
* `C31_single_interface_flux` (Conservation.lean; pcq): the step is in conservative form with one flux and one area per face. With `R` the face states produced by the reconstruction, and `F a c` the flux of the solver through the left face of cell `c`, computed from the right state of its left neighbour and its own left state, what a cell loses through its right face is what the right neighbour `c + e_a` gains through its left face: both are `F a (c + e_a)` times `ds (c + e_a) a`. The same holds for the scalars, with the fraction taken on the side the mass comes from. Gravity only adds the work and force of C58.

### C32 Uniform flow is preserved exactly — proved

On a Cartesian grid without gravity a spatially uniform state (density, velocity, pressure, scalars in [0,1]) is a fixed point of one full step: reconstruction, half-step extrapolation and Godunov update.

* *Modelled*: Model/Scheme: whole step.
* *Proof*: fixed point through reconstruction, Hancock, Riemann (C24), update.
* `C32_uniform_flow` (Uniform.lean; pcq): on a Cartesian grid without gravity a uniform state is a fixed point of a whole step (reconstruction, half-step extrapolation, Godunov update), for every mesh, time step, solver and limiter.

### C33 Rest state in spherical geometry is preserved — proved

In spherical geometry without gravity a uniform fluid at rest stays exactly at rest: geometric source terms balance the area-weighted pressure fluxes.

* *Modelled*: Model/Scheme: spherical sources.
* *Proof*: pressure terms cancel area differences identically.
* `C33_rest_state` (Uniform.lean; pcq): in every geometry (in particular spherical), without gravity, a uniform fluid at rest is a fixed point of a whole step, for every mesh and solver: the geometric source terms balance the area-weighted pressure fluxes exactly.

### C34 Passive scalar fractions stay within [0,1] and are conserved — proved

After every update each scalar fraction lies in [0,1]; when no clipping occurs the volume-weighted sum of rho times fraction is conserved on periodic domains; a uniform fraction in [0,1] stays uniform.

* *Modelled*: Model/Scheme: scalars, clamp.
* *Proof*: clamp bounds; telescoping; uniform fractions factor out of the mass update.
* `C34_fractions_bounded` (Conservation.lean; pcq): after a step every scalar fraction of every interior cell is in `[0, 1]`, whatever the data.
* `C34_scalars_conserved` (Conservation.lean; pcq): on a periodic Cartesian box the mass of every scalar is conserved before the fractions are clipped to `[0, 1]`; in particular it is conserved when nothing is clipped.
* `C34_uniform_stays_uniform` (Conservation.lean; pcq): a uniform fraction in `[0, 1]` stays uniform, in every geometry, with or without gravity, as long as no density that the fraction is divided by vanishes.

### C35 The update is independent of the domain decomposition — proved

One full step computed on a decomposed domain gives in every interior cell the same values as on a single rank.

* *Modelled*: Model/Distributed: `distIter`, `distRun` (main.cpp loop body on all ranks).
* *Proof*: invariant: after each iteration the arrays of every rank are the restriction of one global field that does not depend on the process grid; time steps agree by C36.
* `C35_decomposition_independent` (Distributed.lean; pcq): Two decompositions `dims`, `dims'` of the same domain (nodes `X`, gravity `Gr`, periodic, zero gradient or reflexive boundaries, in any order of the faces), each rank owning at least `ng ≥ 2` cells in each active direction, whatever the loop orders and the previous contents of the work arrays. Started from the same global field `G`, both runs go through any number `k` of iterations without an access out of bounds, obtain the same time steps, and hold the same values in any two cells (ghosts included) that represent the same cell of the domain. The single rank is `dims' = 1`.

### C36 Time step honours the CFL bound — proved

The returned time step is positive and, times the per-cell sum over directions of (|u|+c)/dx, never exceeds 1, with equality for some cell; it is the minimum over ranks.

* *Modelled*: Model/Reduce: `timeStep`.
* *Proof*: max-reduction over any order and grouping (`parReduce`, `IsPartition`, `allReduce`).
* `C36_cfl` (Reduce.lean; pcq): `time_step`, run by any number of ranks with any distribution of their loops, accesses no memory out of bounds and returns the inverse of the largest rate: it is positive, its product with the rate of no visited cell exceeds 1, and is 1 for some visited cell of some rank. Hypotheses: the loops stay inside the arrays, the identity of the maximum is not positive and some visited cell has a positive rate.
* `C36_rate_pos` (Reduce.lean; pcq): the hypothesis on the rates holds for a state with positive sound speed in a visited cell of positive lengths.
* `C36_decomposition` (Reduce.lean; pcq): two runs, on any ranks and with any distributions of the loops, whose visited cells present the same rates compute the same time step.

### C37 Geometric measures are positive and exact — partial

Cell volumes and face areas are positive on increasing meshes and volumes add up to the exact volume of the domain; face areas equal the exact areas of the coordinate surfaces.

* *Modelled*: Model/Geometry: `dsCell`, `dvCell`.
* *Proof*: iterated Mathlib integrals of the area/volume elements (Spec/Geometry) compared with the formulas of geometry.cpp.
* *Result*: Volumes and all face areas proved equal to the iterated integrals, except the 3-D spherical phi-face, whose area the code computes with the inner radius; C37_violated gives a concrete cell, C37_phi_face the exact deficit.
* `C37_exact_partial` (Geometry.lean; pcq): On every rank of every decomposition, with the loops in any order, `set_grid` succeeds; the volume it stores for a cell of the local arrays is the volume of the corresponding cell of the global mesh, and the face areas are the areas of its lower faces, for every active direction except φ (see `C37_phi_face`).
* `C37_phi_face` (Geometry.lean; pcq): In 3D spherical geometry the stored area of the face normal to φ is short of the exact area by `Δr² Δθ / 2`: the code uses the inner radius of the cell instead of the mean radius.
* `C37_violated` (Geometry.lean; pcq): The full statement of the exactness half of C37 is false: a 3D spherical mesh with one cell `1 ≤ r ≤ 2` has a φ face smaller than the exact one (its stored area is 2/3 of it).
* `C37_positive` (Geometry.lean; pcq): Volumes of interior cells are positive. Areas of their lower faces are positive, except on the axis: they vanish at `r = 0` (for the faces normal to `r`) and at `θ = 0` (for those normal to `θ`).
* `C37_total_volume` (Geometry.lean; pcq): On every decomposition, the volumes stored by the ranks for their interior cells add up to the exact volume of the domain.

### C38 Regular mesh spans the requested domain — proved

The regular mesh has constant spacing, the first interior node equals xmin, the node after the last interior cell equals xmax, and cell centres are strictly inside cells.

* *Modelled*: Model/Geometry: regular mesh, cell sizes, centres.
* *Proof*: field algebra.
* `C38_regular` (Mesh.lean; pcq): the regular mesh has constant spacing, node `ng` is `xmin`, node `ng + N` is `xmax`, and nodes are strictly increasing when `xmin < xmax`.
* `C38_cell_size_center` (Mesh.lean; pcq): on any increasing node array, every cell of the array gets a positive size equal to the distance of its nodes, and a centre strictly inside, at equal distance from both nodes; no access is out of bounds for the `n` cells of an array of `n + 1` nodes.

### C39 A run never overshoots the end time and always ends with an output — proved

Time never exceeds t_end, increases strictly at every iteration, and the final iteration of a completed run always writes an output; the loop performs at most max_iter iterations for a fresh run.

* *Modelled*: Model/Loop: `decideStep`, `iteration`, `runN` (main.cpp).
* *Proof*: step function over abstract hydro state; induction over iterations.
* *Result*: For runs that start before t_end; C39_late_start shows the zero or negative step taken otherwise.
* `C39_fresh_run` (Loop.lean; pcq): A fresh run that starts before its end time, whatever the CFL steps (positive), the parameters and the wall clock: at every moment the time lies between `t_ini` and `t_end`; a run that completed has written its last state; at most `max(1, max_iter)` iterations are performed, after which the loop has been left.
* `C39_strictly_increasing` (Loop.lean; pcq): every iteration of such a run that does not fail increases the time strictly and the iteration number by one; a run that goes on has not reached the end time; a run that completed stopped because of the end time, of the iteration limit or of the wall clock.
* `C39_late_start` (Loop.lean; pcq): restarted from the file of a completed run with the same `t_end`, the code performs one more iteration with a time step equal to zero; with a smaller `t_end`, with a negative one, so that the time decreases. Nothing is reported.

### C40 Periodic outputs are emitted at the requested iterations — proved

With an iteration frequency f > 0 a fresh run writes an output after every multiple of f iterations (and the initial state), none missing, and none in between unless requested by another trigger.

* *Modelled*: Model/Loop.
* *Proof*: same run; divisibility of the counter.
* `C40_no_multiple_missing` (Loop.lean; pcq): with an iteration frequency `f > 0`, a fresh run has written, when it reaches an iteration number, a file for every multiple of `f` up to it, the initial state included (whatever the other parameters, the CFL steps and the clock).
* `C40_only_requested` (Loop.lean; pcq): what one iteration of a fresh run writes. After iteration `n + 1` (not failed), a multiple of `f`, the state is appended to the files; something is appended only if `f` divides `n + 1`, or the time is that of the next timed output, or the run ends here. Nothing but the current state is ever appended.
* `C40_consecutive_numbers` (Loop.lean; pcq): the files of a fresh run that did not fail are numbered consecutively: their count is the last number plus one, and every file appended gets the next number.

### C41 Timed outputs are emitted at exactly the requested times — proved

With a time frequency F > 0 a run writes an output exactly at each time first+kF before the end time; the time step is shortened to hit it and never becomes non-positive silently.

* *Modelled*: Model/Loop.
* *Proof*: same run; induction on the number of timed outputs.
* `C41_exact_times` (Loop.lean; pcq): with a time frequency `F > 0` and a first output after the start, a fresh run has written, once it passed it, a file at exactly each time `first + k F` before the end time, for all CFL steps, other triggers and clocks; the exception of the time trigger is never raised (the only failure is an invalid internal energy).
* `C41_step_shortened` (Loop.lean; pcq): the time step is only ever shortened: an accepted iteration that starts before `t_end` advances by a positive step not larger than the CFL step.
* `C41_first_output_too_early` (Loop.lean; pcq): a first output requested at or before the current time (for instance `time_first_output = t_ini`) is not written: the run raises the exception "the time step is negative" in its first iteration.

### C42 Restart continues the interrupted run — partial

A run stopped after an output and restarted from that file goes through the same sequence of states, times, iteration numbers and output numbers as the uninterrupted run.

* *Modelled*: Model/Loop, Model/Restart: counters and time saved / read by io.cpp.
* *Proof*: simulation between the restarted and the uninterrupted run; witnesses for t_end and crash dumps.
* *Result*: Proved for restarts from any file with the same parameters and for stops by iteration limit or wall clock (output numbers shift by one when the last file was forced), given that reading restores the fluid. Violated when the stopping criterion is t_end (C42_violated: a timed output is skipped) and for crash dumps (C42_crash_dump_counters).
* `C42_restart_from_file` (Loop.lean; pq): let a run, fresh or itself a restart, with any parameters and clock, have just written a file (its last file is its current state) and be going on. A run restarted from that file with the same parameters goes through the same states, times, iteration numbers, counters and output numbers as the uninterrupted run, and writes the same files, for all later turns. `resume` (reading the fluid, recomputing, boundary conditions) has to restore the fluid of the file.
* `C42_stopped_and_restarted` (Loop.lean; pcq): C42 for a run stopped by the iteration limit or by the wall clock before its end time: restarted from its last file with a later limit `M`, it goes through the same fluids, times, iteration numbers and trigger counters, and has the same status, as the run that was given the limit `M` from the beginning. The output numbers agree if the uninterrupted run writes a file at that iteration too; otherwise they are one larger for ever, because the forced last file took a number.
* `C42_violated` (Loop.lean; pcq): a run until `t = 1/2`, restarted until `t = 3`, never writes the output due at `t = 1` that the uninterrupted run writes, because the counter of timed outputs is incremented although the step is then cut at the end time.
* `C42_crash_dump_counters` (Loop.lean; pcq): The same counter problem for the file dumped before the exception on an invalid internal energy: the counters it holds are those of the step that was not made, so that a run restarted from it skips a timed output.

### C43 Saved fields read back identically under any decomposition — proved

Writing global fields with one process layout and reading them with another returns the same global interior fields; each dataset element is written by exactly one rank.

* *Modelled*: Model/Restart: hyperslabs, row-major addressing.
* *Proof*: each dataset element belongs to one rank; read∘write through any two decompositions.
* `C43_exactly_one_rank` (Restart.lean; pcq): Each element of a dataset is written by exactly one rank.
* `C43_written` (Restart.lean; pcq): Ranks whose interiors hold the global field `G` produce the dataset `G`, whatever the process grid and the order in which the ranks write.
* `C43_round_trip` (Restart.lean; pcq): Fields written with the layout `Y` and read with the layout `Y'` come back: every interior cell of every rank of `Y'` holds the value that its global cell had when it was written. Ghost cells and other components of the array keep their values.
* `C43_axes` (Restart.lean; pq): The mesh coordinates come back, and a file whose mesh has another number of cells is refused (the ghost width being the same).

### C44 Output file names are unique and ordered — proved

Distinct non-negative output numbers give distinct file names with the same prefix, and lexicographic order equals numeric order for numbers of at most eight digits.

* *Modelled*: Model/Output: file name formatting.
* *Proof*: decimal strings on character lists.
* `C44_distinct` (FileNames.lean; pcq): Names are unique: with one prefix, distinct numbers (of any size) give distinct names.
* `C44_written_distinct` (FileNames.lean; pcq): The names of `write_pdi`: distinct non-negative output numbers of type `int` give distinct names; the conversion to `std::size_t` does not merge them.
* `C44_ordered` (FileNames.lean; pcq): Below `10^8`, dictionary order of the names is the order of the numbers.
* `C44_prefix` (FileNames.lean; pcq): Below `10^8` the name also determines the prefix: runs with different prefixes never overwrite each other's files.
* `C44_nine_digits` (FileNames.lean; pcq): The bound is sharp: with nine digits dictionary order is lost.

### C45 The XDMF index is well formed and lists the written files — proved

The XML description is well nested, never overruns its indentation levels, and lists one entry per recorded output, with file numbers equal to those of the outputs written since the run started.

* *Modelled*: Model/Output: XDMF writer; Spec/Xml: independent grammar.
* *Proof*: the produced text parses as the document of the spec.
* *Result*: The prefix is written unescaped, so the theorem asks it (and the printed times) to contain no markup characters; the file is rewritten from the first output of each run.
* `C45_document` (Xdmf.lean; pcq): Whatever the outputs, the scalars and the grid, the writer never leaves its indentation levels (it does not throw) and the text is a well-formed document; its entries are those of the recorded times, in order, with consecutive file numbers that end at `output_id`. The prefix and the printed times must not contain XML markup.
* `C45_lists_written_files` (Xdmf.lean; pcq): In a run of the time loop, started afresh or from a restart file, the index lists exactly the files written since the start of the run: entry by entry, the name under which the file was written and its time. (Until the run is aborted: the dump that precedes the exception of an invalid energy is not recorded, and the index is not written again.)
* `C45_variables` (Xdmf.lean; pcq): Each entry shows density, pressure, energy and temperature, every passive scalar and every velocity component, and nothing else. These are the names of the datasets of the file (src/io/config.yaml.cpp 83-89, 154-163).

### C46 Host/device mirror always returns the latest write — proved

In any sequence of host and device accesses through the dual view, a reading access on either side returns the value stored by the most recent writing access, whichever side made it.

* *Modelled*: Model/DualView: state machine with 32-bit flags.
* *Proof*: refinement to one memory cell over arbitrary access sequences.
* *Result*: Under the condition that fewer than 2^32 modifications of one side happen without a synchronisation; C46_counter_wraps shows the condition is needed.
* `C46_latest_write` (DualView.lean; pcq): on a new dual view, for every sequence of fewer than 2^32 accesses on either side, every access that reads returns what a single memory would: the value left by the most recent write, whichever side made it.
* `C46_copy_resets` (DualView.lean; –): the bound is on accesses since the last copy: reading the other side of a dual view in any consistent state leaves both flags at zero if a copy was made, so that the count starts again.
* `C46_counter_wraps` (DualView.lean; pcq): after 2^32 writes on the device (one per iteration of the time loop) without any access from the host, the flag has wrapped around and the host reads the value of before all of them.

### C47 Narrowing integer casts never change a value — proved

The checked integer cast returns the same mathematical integer or throws; it throws exactly when the value is not representable in the destination type.

* *Modelled*: Model/Casts: `int_cast`.
* *Proof*: two's complement ranges.
* `C47_value_preserved` (Casts.lean; pcq): for every value and every destination type the cast either returns the same mathematical integer or throws, and it throws exactly when the value is not representable in the destination type.

### C48 Neighbour index helpers are inverse shifts along one axis — proved

The left and right neighbour helpers change exactly the requested coordinate by one and are mutually inverse.

* *Modelled*: Model/Mesh: `lindex`, `rindex`, Kronecker symbols.
* *Proof*: integer arithmetic.
* `C48_neighbours` (Mesh.lean; pcq): for an axis `a`, the helpers change exactly coordinate `a` by one and are mutually inverse.

### C49 Gravity fields have the documented radial form — proved

Uniform gravity returns the configured component everywhere; point-mass gravity is purely radial, attractive and follows the inverse-square law; internal-mass gravity is radial, at least as strong as the central mass alone for non-negative density, rejects radial decomposition and reproduces the enclosed mass of a uniform sphere.

* *Modelled*: Model/Gravity: uniform, point mass, internal mass (prefix sums per rank, Allreduce).
* *Proof*: algebra; sums over shells; trig integrals for the uniform sphere.
* `C49_uniform` (Gravity.lean; pcq): uniform gravity has the configured component in every cell.
* `C49_point_mass` (Gravity.lean; pcq): point-mass gravity follows the inverse-square law along the first direction, in every cell including ghosts and in any loop order, and vanishes along the others.
* `C49_internal_mass` (Gravity.lean; pcq): internal-mass gravity, on any decomposition of the directions 1 and 2, reads and writes in bounds and is radial, with the strength of the mass enclosed by the centre of the cell (shells of uniform mean density), and of the central mass in the inner ghosts.
* `C49_rejects_radial_decomposition` (Gravity.lean; pq): a decomposition of the radial direction is rejected.
* `C49_shell_mean` (Gravity.lean; pcq): for a density that depends on the shell only, the mean is that density.
* `C49_uniform_sphere` (Gravity.lean; pcq): a sphere of uniform density `r` on a grid that starts at the radius `x 0`: the mass inside the centre of cell `i` is the central mass plus density times the volume between the radii `x 0` and `c i`; with `x 0 = 0` that of the full ball.
* `C49_point_mass_attractive` (Gravity.lean; pcq): point-mass gravity of a positive mass points inwards and weakens with the square of the radius.
* `C49_at_least_central` (Gravity.lean; pcq): for non-negative shell densities on non-negative increasing radii the enclosed mass is at least the central mass and does not decrease outwards: internal-mass gravity is at least as strong as that of the central mass alone.

### C50 Grid shift translates the solution by one cell — proved

A grid shift moves every field by exactly one cell along the first direction so that each cell keeps the value it had at the same physical position, keeps node coordinates strictly increasing, and leaves the other directions unchanged.

* *Modelled*: Model/Moving: shift of arrays and nodes.
* *Proof*: pointwise characterisation, on a decomposed domain too.
* `C50_fields` (Moving.lean; pcq): whatever the order of the copy, it stays in bounds and puts in each cell but those of the last plane the value of the next cell along the first direction; the last plane is not touched.
* `C50_decomposed` (Moving.lean; pcq): if before the shift every rank holds, ghosts included, the values of one global field `G`, then after the shift every rank holds the values of `G` displaced by one cell, in all its cells but those of the last plane, which is made of ghosts and filled by the boundary conditions next.
* `C50_nodes` (Moving.lean; pcq): the shift stays in bounds (four nodes at least); each node takes the coordinate of the next one; the nodes stay strictly increasing.
* `C50_ratio_kept` (Moving.lean; pcq): a uniform or geometric mesh (each interval `q` times the one before) stays so.
* `C50_shift` (Moving.lean; pcq): the whole shift on a rank. It stays in bounds; every cell of the rank but those of the last plane has, after the shift, the value, the bounds, the centre, the size, the face areas and the volume that the next cell along the first direction had before: the value sits at the same physical position. In the other directions the coordinates are unchanged.

### C51 Nickel heating only adds energy — proved

The nickel heating step changes only the energy, by a non-negative amount proportional to the nickel mass fraction, density, time step and the decay rate, and nothing when the fraction is zero; the Off step changes nothing.

* *Modelled*: Model/Setup: heat_nickel user step, decay constants of units.hpp.
* *Proof*: algebra and `Real.exp`.
* `C51_decay_chain` (Setup.lean; pcq): The numbers of nuclei of the specification solve the decay equations, starting with nickel only.
* `C51_decay_rate` (Setup.lean; pcq): the heating rate of the code is the power released by the decay chain per unit mass of initial nickel.
* `C51_rate_pos` (Setup.lean; pcq): the heating rate is positive at every time.
* `C51_heating` (Setup.lean; pcq): the nickel step leaves every cell outside its range unchanged; in the range only the energy changes, by time step × density × mass fraction × heating rate, in any order.
* `C51_only_adds` (Setup.lean; pcq): with non-negative density, mass fraction and time step the energy does not decrease; it is unchanged where the fraction is zero and strictly increases where density, fraction and time step are positive.
* `C51_off` (Setup.lean; pcq): the step named Off changes nothing.
* `C51_without_scalars` (Setup.lean; pcq): The nickel step without passive scalar (accepted by the program) reads out of bounds.

### C52 Pressure fix keeps total energy consistent — partial

Where the pressure fix does not trigger the energy is untouched; where it triggers the new total energy equals the new kinetic energy plus a blended internal energy.

* *Modelled*: Model/PressureFix.
* *Proof*: pointwise characterisation; concrete witnesses over ℚ.
* *Result*: Violated by the code: where the fix triggers it adds the kinetic energy of the state before the update, not of the new state (C52_violated: negative internal energy in a uniform cold flow with gravity), and in 2D/3D its divergence adds the transverse velocities (C52_shear_is_not_divergence_free). Proved: untouched elsewhere, only the energy changes, the blend and its weight; the full claim when the kinetic energy is unchanged in 1D.
* `C52_untouched` (PressureFix.lean; pcq): where the internal energy is at least `eps` times the kinetic energy, and outside the range, nothing changes; the fix changes only the energy.
* `C52_triggered_partial` (PressureFix.lean; pcq): where the fix triggers, the new energy is the kinetic energy of the state before the update plus a blend, with a weight in [0, 1), of the internal energy of the Godunov update and that of the internal energy scheme of the fix. The weight of the Godunov energy is 0 for internal energies below `eps/10` times the kinetic energy, else the square of the ratio to `eps` times the kinetic energy. In a cell whose kinetic energy is not changed by the update this is the claim; in general it is not (`C52_violated`), nor is the internal energy scheme consistent in several dimensions (`C52_shear_is_not_divergence_free`).
* `C52_one_dimension_partial` (PressureFix.lean; pcq): where the fix triggers, the blend is with the internal energy of the finite volume scheme for the internal energy equation: old internal energy minus `dt` times (pressure times divergence of the velocity plus divergence of the upwinded internal energy flux), with face velocities the mean of the two reconstructed ones.
* `C52_violated` (PressureFix.lean; pcq): In a uniform cold flow accelerated by gravity (all cells and faces alike, unit cells) the Godunov update gives a positive internal energy; the fix triggers and replaces the energy by one whose internal part is negative, equal to no blend of the two internal energies, which are both positive.
* `C52_shear_is_not_divergence_free` (PressureFix.lean; pcq): In two dimensions the "divergence" also adds the transverse velocity on every face (the loop over `ipos`): a shear flow with velocity `(0, v(x))`, whose divergence is zero, steady under the Euler equations, loses internal energy. Velocities 2 in the cell, 1 before and 3 after along the first direction, linear reconstruction, unit cells.

### C53 Unknown choices are rejected — proved

Every string naming a limiter, Riemann solver, grid type, boundary type or user step that is not in the documented list raises an error, and each documented name selects the intended algorithm.

* *Modelled*: Model/Limiter, Riemann, Boundary, Mesh, Setup: factories on strings.
* *Proof*: case analysis; formulas behind each limiter name.
* `C53_limiters` (Setup.lean; p): limiters (exact names, case included).
* `C53_solvers` (Setup.lean; p): Riemann solvers.
* `C53_boundaries` (Setup.lean; p): boundary conditions.
* `C53_grids` (Setup.lean; p): grid types.
* `C53_user_steps` (Setup.lean; p): user steps.
* `C53_limiter_formulas` (Setup.lean; pcq): the names of the limiters select the textbook formulas on two one-sided slopes `r`, `l` of the same sign: zero, harmonic mean, smaller of the two, and van Albada's average.

### C54 Invalid internal energy is always detected before the step — partial

If any interior cell has a negative or not-a-number volumic internal energy at the beginning of an iteration, the run dumps its state and aborts; otherwise it does not abort.

* *Modelled*: Model/Reduce: minimum over values with NaN.
* *Proof*: reductions over every order; Kokkos `Min` and `MPI_MIN` drop NaN.
* *Result*: Negative energies are detected for every distribution of the loops (C54_detects_negative_partial; full claim on finite data: C54_finite_data). The NaN half of the claim is false for the code: the minimum drops NaN, so the isnan test is dead (C54_violated, C54_isnan_is_dead).
* `C54_detects_negative_partial` (Reduce.lean; pcq): for every number of ranks and distribution of the loops, the run aborts exactly when the internal energy `E - ek` of some visited cell is below zero (as IEEE numbers, minus infinity included). Full statement: ... or is not a number; see `C54_violated`.
* `C54_finite_data` (Reduce.lean; pcq): C54, on data with finite values and positive densities the claim holds in full: the run aborts exactly when some visited cell has a negative volumic internal energy.
* `C54_violated` (Reduce.lean; pcq): on one rank with one interior cell whose density is zero and momentum zero (`0/0`), the internal energy is NaN, and the minimum (the identity of the reduction) passes the test: the run does not abort. The same happens with a NaN energy. `isnan` of the minimum never holds (`C54_isnan_is_dead`).
* `C54_isnan_is_dead` (Reduce.lean; pcq): whatever the data, the minimum is never NaN, so that the `isnan` test of src/main.cpp can not be met.

### C55 Integrated quantities are independent of the decomposition — proved

The integral of a field equals the sum of value times cell volume over all interior cells of the global grid, for any decomposition and any summation order in exact arithmetic.

* *Modelled*: Model/Reduce: `integrate`.
* *Proof*: sum over ranks and cells reindexed by C01.
* `C55_integrate` (Reduce.lean; pcq): On every Cartesian decomposition, with the ranks combined in any order, every rank running its loop over its interior cells with any distribution over workers, `integrate` returns the sum over all cells of the global grid of value times volume. Hypotheses on the arrays: an interior cell of a rank holds the value (and volume) of its global cell.

### C56 Profile broadcast fills columns uniformly — proved

Broadcasting a 1D profile (or a scalar) onto a 3D range writes, in every cell of the range, the profile value of its interior first index and changes no other cell.

* *Modelled*: Model/Setup: broadcast kernels.
* *Proof*: `parFor_update`; out-of-bounds witness with ghosts.
* `C56_scalar` (Setup.lean; pcq): broadcasting a scalar on the interior of a rank fills every interior cell with it and changes no other cell, in any order.
* `C56_profile` (Setup.lean; pcq): broadcasting a profile on the interior of a rank gives every interior cell the value of the profile at its first index counted from the first interior cell, whatever the other indices, and changes no other cell, in any order.
* `C56_components` (Setup.lean; pcq): the four-dimensional versions treat every component of the last index in the same way and independently.
* `C56_ghosts_out_of_bounds` (Setup.lean; pcq): With ghosts in the range, which only an assertion absent from release builds excludes, the profile is read out of bounds.

### C57 Configuration parsing returns what the file says — proved

A key written once as name = value in a section of the input file is returned verbatim (trimmed, inline comment removed) by lookups that ignore letter case; absent or empty keys give the default for numbers; malformed lines are reported with the first bad line number.

* *Modelled*: Model/Ini: `ini_parse_stream`, `INIReader` (vendored inih).
* *Proof*: line grammar (Spec/Config) independent of the parser; simulation line by line; character lists.
* `C57_entries` (Config.lean; pcq): a well-formed file is accepted, and every lookup returns what the file says: the default for a key that is not written, the value, trimmed and without its comment, for a key that is written once, the values separated by ends of line for a key that is written several times.
* `C57_written_once` (Config.lean; pcq): a key written once is returned verbatim.
* `C57_case_insensitive` (Config.lean; p): lookups ignore letter case.
* `C57_first_error` (Config.lean; pcq): the first malformed line is the one that is reported, whatever follows it.
* `C57_last_line` (Config.lean; pcq): the last line need not be ended.
* `C57_defaults` (Config.lean; pcq): for numbers and booleans, a key that is absent or has no value gives the default.
* `C57_integer` (Config.lean; pcq): a decimal numeral is read as the integer it denotes when that is representable, and refused otherwise. What follows the digits is silently ignored.
* `C57_boolean` (Config.lean; pcq): the accepted spellings of booleans; everything else is an error.
* `C57_integer_spellings` (Config.lean; pcq): an integer written in scientific notation is read as its leading digits, a hexadecimal one as zero, although the comments of the source announce that "0x4D2" is accepted.
* `C57_hash_kept` (Config.lean; pcq): `#` does not start a comment after a value, while `;` does when it follows white space.
* `C57_duplicates` (Config.lean; pcq): a key written twice has both values, one per line; read as an integer, it is the first.
* `C57_indented` (Config.lean; pcq): an indented line after an entry is added to its value, comment included, even when it looks like another entry or a header.
* `C57_long_line` (Config.lean; pcq): a line of more than 199 characters is cut; the remainder is parsed as a line of its own.
* `C57_long_name` (Config.lean; pcq): an indented line after a name of more than 49 characters goes to another key, the first 49 characters of the name.

### C58 Gravity work and force enter consistently — proved

In the update, gravity adds exactly dt*rho*g to each momentum component and dt*(rho u).g to the energy, and nothing to mass and scalars; with zero gravity the update is the pure flux update.

* *Modelled*: Model/Scheme: Hancock and Godunov with and without gravity.
* *Proof*: difference of the two runs.
* `C58_gravity_in_update` (Conservation.lean; pcq): on the same face states, gravity adds `dt ρ g` to the momentum and `dt (ρ u)·g` to the energy of the old state, and changes neither the density nor the scalars.
* `C58_gravity_in_predictor` (Conservation.lean; pcq): gravity adds the same terms, with the reconstructed state of each face, and nothing to the density and the scalars.

### C59 Axis symmetry of the update — proved

The Cartesian update treats directions alike: permuting the axes of the data and mesh permutes the result; reflecting one axis of the data reflects the result.

* *Modelled*: Model/Scheme: `hydroStep`.
* *Proof*: equivariance lemma for every stage (limiter, extrapolation, Hancock, Riemann solver, update) under permutations of axes and under reversal of one axis.
* `C59_permutation` (Symmetry.lean; pcq): Two runs of a Cartesian step, on any two orders of the loops: the mesh of the second is the mesh of the first with its axes permuted (each possibly translated), its gravity, densities, momenta, energies, scalars, velocities and pressures are those of the first with axes and components permuted. Neither run accesses an array out of bounds, and the results are those of the first with axes and components permuted, in every interior cell, for every solver, limiter and equation of state.
* `C59_reflection` (Symmetry.lean; pcq): Two runs of a Cartesian step, on any two orders of the loops: the second is the first with axis `b` reversed, that is mesh and data are mirrored along `b` and the component along `b` of momentum, velocity and gravity changes sign. With HLL and the low-Mach solver always, with HLLC if the states extrapolated to the faces normal to `b` have positive density and pressure, neither run accesses an array out of bounds, and the results are those of the first mirrored, in every interior cell, for every limiter and lawful equation of state. Ties (a face at rest, equal wave speeds) need no exception.

### C60 Sound speed is the isentropic derivative — proved

For both equations of state the squared sound speed returned by the code equals dP/drho along a curve obeying the first law de = P/rho^2 drho (isentrope), and is positive.

* *Modelled*: Model/Thermo.
* *Proof*: `HasDerivAt` along any curve obeying the first law.
* `C60_perfect_gas` (Thermo.lean; pcq): **C60**, perfect gas: along an isentrope `dP/drho` is the square of the code's sound speed.
* `C60_radiative_gas` (Thermo.lean; pcq): **C60**, radiative gas: along an isentrope of gas plus radiation, `dP/drho` is the quantity under the square root of the code's sound speed evaluated at the true temperature.

### C61 Intermediate Riemann states are physical — proved

The averaged state behind the HLL flux and the two star states behind the HLLC flux have positive density and positive internal energy, and the HLL denominator never vanishes, for every pair of states of positive density and pressure - even for strong receding flows.

* *Modelled*: Model/Riemann, Spec/Euler: `EoS.Fast`.
* *Proof*: convexity of kinetic energy; discharged for perfect gases with γ > 1.
* `C61_hllc_positive` (Riemann.lean; pcq): **C61**, HLLC: both intermediate states have positive density and positive internal energy.
* `C61_hll_positive` (Riemann.lean; pcq): **C61**, HLL: the flux is the one at the origin of a fan of two waves separated by one intermediate state, whose density and internal energy are positive; in particular the solver never divides by zero.

### C62 Curvature sources of spherical coordinates — partial

In spherical geometry the source terms added to the momentum of a cell are the time step times the cell mean of the exact curvature terms: (2P + rho u_theta^2 + rho u_phi^2)/r along r, (P + rho u_phi^2) cot(theta)/r - rho u_r u_theta/r along theta, -rho u_r u_phi/r - rho u_theta u_phi cot(theta)/r along phi (up to second order in the relative cell width for the terms in u_r), and with the fluxes they transport angular momentum.

* *Modelled*: Model/Scheme: spherical sources.
* *Proof*: comparison with exact cell means of the curvature terms.
* *Result*: Radial component and pressure terms exact; u_r terms exact up to the square of the relative half width; the u_phi^2 term of the theta component is multiplied by cot(theta_m)/2 by the code although the face areas already contain the cotangent (source_terms.hpp 52-57): negation proved in C62_violated.
* `C62_sources_partial` (Curvature.lean; pcq): On the mesh computed by the code, for a state that is the same on all faces of a cell, the sum over the directions of the source terms added to momentum component `i` is `dt` times the mean over the cell of the exact curvature terms, up to the defect `curvatureDefect`: none for the radial component, of second order in the relative width for the terms in `u_r u_θ` and `u_r u_φ`, and of order zero for the term in `u_φ²` of the `θ` component (3D). The full statement is the same without the terms of order zero: `C62_violated`.
* `C62_angular_momentum` (Curvature.lean; pcq): With the physical fluxes of its face states (as in the half step), direction `r` changes the momentum along `θ` or `φ` by the angular momentum that crosses the two faces divided by the mean radius: `r u_θ` and `r u_φ` are what is transported.
* `C62_axial_momentum` (Curvature.lean; pcq): Likewise direction `θ` transports `sin θ u_φ`: the momentum along `φ` changes by the angular momentum about the axis that crosses the two faces, divided by the mean of the sines.
* `C62_violated` (Curvature.lean; pcq): For a fluid that turns about the axis, in the cell `1 ≤ r ≤ 2`, `π/6 ≤ θ ≤ π/3`, the centrifugal source along `θ` is half of the exact one, `ρ u_φ² cot θ / r` averaged over the cell: the areas of the `θ` faces already contain the cotangent, and the code multiplies once more by `cot θ_m / 2` (src/hydro/source_terms.hpp 52-57).

### C63 Transport by a uniform flow — proved

Data of uniform velocity and pressure stay of uniform velocity and pressure over a whole step, and density and mass fractions are carried with the flow: face values are taken on the limited linear profile at the point that reaches the face after half a step, and in one dimension the new content of a cell is the exact integral of the profile over the segment brought into the cell.

* *Modelled*: Model/Scheme.
* *Proof*: face states of the predictor evaluated on the limited profile; integral over the swept segment.
* `C63_carried` (Transport.lean; pcq): On a Cartesian mesh without gravity, with the HLLC solver and a gas whose energy per volume depends on pressure only (perfect gas), data of uniform velocity and pressure are carried: after a whole step velocity and pressure are the same, and the density has changed by the transport at speed `w` of the values found upstream of each face, on the linear profile, at the distance travelled in half a step.
* `C63_scalars_carried` (Transport.lean; pcq): In a uniform flow the mass fractions are carried in the same way, for every solver and equation of state (the result is clamped to `[0, 1]`).
* `C63_exact_1d` (Transport.lean; pcq): The new content of a cell is the exact integral of the piecewise linear profile over the segment that the flow brings into the cell: what was in the upstream cell within a distance `|w| dt` of the common face, and what was in the cell itself and does not leave.

### C64 Hydrostatic equilibrium of the stratified setups — partial

The density and pressure written by the stratified setups are the values at the cell of profiles in hydrostatic equilibrium with the gravity of the same run: dP/dx = rho g for the isothermal atmosphere (perfect gas and gas with radiation), dP/dr = -rho G M / r^2 for the isothermal sphere, each layer of the Rayleigh-Taylor problems with equal pressures at the interface level.

* *Modelled*: Model/Problems: `stratifiedInit`, `eqHydroInit`, `rayleighTaylorInit`, `rt3dInit`.
* *Proof*: `HasDerivAt` of the profiles (Spec/Problems: `Hydrostatic`); the kernels are shown to sample them on any grid.
* *Result*: Proved for the isothermal atmosphere with downward gravity, the isothermal sphere and both layers of the 3-D Rayleigh-Taylor problem. Refuted for upward gravity (the scale height uses fabs(gx)) and for the 2-D Rayleigh-Taylor problem, whose pressure uses the density of the upper fluid below the interface; the 2-D part that holds (equal densities) is C64_rt2d_partial.
* `C64_stratified_partial` (Equilibria.lean; pcq): Stratified atmosphere with a gravity directed towards decreasing `x0`: there are a density and a pressure profile, in hydrostatic equilibrium with that gravity everywhere, with the density `rho0` at `x0 = 0`, such that every cell receives the values of the profiles at its centre, whatever the grid and the previous contents of the arrays. The full statement is the same for a gravity of any sign; it is false, see `C64_stratified_upward`.
* `C64_stratified_upward` (Equilibria.lean; pcq): The scale height is computed with the absolute value of the gravity: when the gravity is directed towards increasing `x0`, no profile that describes the initial state is in equilibrium, at any point.
* `C64_sphere` (Equilibria.lean; pcq): Isothermal sphere around a point mass: the profiles are in equilibrium with the acceleration `-G M / r²` at every radius.
* `C64_rt3d` (Equilibria.lean; pcq): Three-dimensional Rayleigh-Taylor problem, gravity downwards: above and below the interface the cells receive, at their lower nodes, the values of two profiles of density `rho0` and `rho1` at height 0, each in hydrostatic equilibrium wherever the polytropic atmosphere has not ended; both layers have the same pressure at height 0.
* `C64_rt2d_unbalanced` (Equilibria.lean; pcq): Two-dimensional Rayleigh-Taylor problem: below the interface the pressure gradient is that of the upper fluid. On any vertical line, no pair of profiles that describes the initial state is in equilibrium at any height, and below the interface the missing weight is at least half the difference of the densities times the gravity.
* `C64_rt2d_partial` (Equilibria.lean; pcq): When the two fluids have the same density and the gravity is downwards the initial state of the two-dimensional Rayleigh-Taylor problem is in hydrostatic equilibrium along every vertical line. The full statement is the same with `rho0 ≠ rho1` in each layer; it is false, see `C64_rt2d_unbalanced`.

### C65 Balance of the Gresho vortex — partial

The Gresho setup writes a purely azimuthal velocity with continuous profile of maximum 1 and a pressure that balances the centrifugal force at every radius, the maximum Mach number (relative to the centre) being the parameter Ma.

* *Modelled*: Model/Problems: `greshoInit`, `atan2`.
* *Proof*: glued derivatives at the joints; polar form of the velocity from `Complex.arg`.
* *Result*: Balance proved for rho0 = 1 and u0 = 0; for any other rho0 the pressure, which does not contain rho0, is nowhere balanced inside the vortex (C65_density_ignored).
* `C65_gresho_partial` (Gresho.lean; pcq): With `rho0 = 1` and `u0 = 0` there are a continuous speed profile, with maximum 1 and zero from the radius 0.4 on, and a pressure profile that balances the centrifugal force at every radius, such that every cell receives at its centre density 1, that pressure and a velocity of that speed perpendicular to the radius, in the positive sense. The sound speed of a perfect gas at the centre of the vortex is `1 / Ma`: the largest speed is `Ma` times that sound speed. The full statement is the same for every `rho0`, with `Centrifugal (fun _ => rho0)`; it is false, see `C65_density_ignored`.
* `C65_density_ignored` (Gresho.lean; pcq): The pressure does not depend on the parameter `rho0`: with any other density the vortex is nowhere balanced.

### C66 Initial state independent of the decomposition — partial

Each setup fills the interiors of the ranks with the restrictions of one global state, whatever the number of processes, the process grid and the loop orders, so that a whole run (initialisation, conversion, boundaries, any number of iterations) does not depend on the decomposition.

* *Modelled*: Model/Problems: all `*Init` kernels, `initLoop`, `initFields`; Spec/Initial: `SameInitial`.
* *Proof*: each kernel is shown to depend only on the data of its cell, which `setGrid_spec` identifies with those of the global cell; the run theorem composes with C35.
* *Result*: Proved for thirteen setups, and for the complete run started from them. Refuted for sedov1d in spherical geometry (C66_sedov1d_violated: each rank uses the volume of its own third cell) and for sedov3d (C66_sedov3d_violated: local indices compared with global sizes); the parts that hold are C66_sedov1d_partial (regular Cartesian mesh, two ghosts) and C66_sedov3d_partial (process grids that cut the first direction only). The tabulated setup v1d is not covered.
* `C66_independent_1d` (Initial.lean; pcq): The problems whose data depend on `x0`: shock tube, shock wall, advections, stratified atmosphere, isothermal sphere, nickel heating. For all parameters, equations of state, grids (any geometry, spacing, ghost width) and gravity fields, the interiors of the ranks are filled with the restrictions of one global state.
* `C66_independent_2d` (Initial.lean; pcq): The two- and three-dimensional problems: implosion, Gresho vortex, Kelvin-Helmholtz, both Rayleigh-Taylor problems (the random numbers of the second are drawn once and broadcast), two-dimensional Sedov explosion.
* `C66_run` (Initial.lean; pcq): From the configuration to the end of the run: with an initialisation of the two theorems above, the initialisation never accesses an array out of bounds, and two runs on different process grids take the same time steps and hold the same values in cells that represent the same cell of the domain after any number of iterations (C35 with the initial state produced by the code).
* `C66_sedov1d_violated` (Initial.lean; pcq): One-dimensional Sedov explosion in spherical geometry: the ambient pressure is computed with the volume of the third cell of each rank. On a mesh of 4 cells `X i = i` with two ghosts, the pressure on two processes is not that on one.
* `C66_sedov1d_partial` (Initial.lean; pcq): **C66, the part that holds for the one-dimensional Sedov explosion.** In Cartesian geometry on a regular mesh with two ghosts, the initial state is the same on all process grids. The full statement is the same in every geometry, on every mesh and for every number of ghosts; it is false, see `C66_sedov1d_violated`.
* `C66_sedov3d_violated` (Initial.lean; pcq): Three-dimensional Sedov explosion: the cell that receives the energy is chosen by comparing indices of the local arrays, ghosts included, with the middle of the global domain. On a domain of 4 x 4 x 4 cells the cell (0, 2, 0) keeps the ambient pressure on one process and receives the energy when the second direction is cut in two.
* `C66_sedov3d_partial` (Initial.lean; pcq): **C66, the part that holds for the three-dimensional Sedov explosion.** The initial state is the same on all process grids that cut the first direction only. The full statement is the same for all process grids; it is false, see `C66_sedov3d_violated`.

### C67 The boundary conditions of the stratified setups continue the initial state — partial

The user boundary conditions of the setups stratified_atm and eq_hydro_sphe fill exactly the ghost layers of their face, with the conservative variables of the state that the initialisation of the setup defines at the centres of those cells, so that an equilibrium at the start stays one at the boundary.

* *Modelled*: Model/Problems: `stratifiedBc`, `eqHydroBc`.
* *Proof*: pointwise characterisation of the loop (`parFor_update`), compared with `fieldsOf` of the initial kernel through the gas law of C17.
* *Result*: Proved for u0 = 0 and perfect gases (C67_stratified_partial, C67_equilibrium_partial). Refuted for every u0 ≠ 0 (C67_*_moving): the momentum is rho0·u0 instead of rho·u0 and the energy lacks the kinetic part, in every ghost cell.
* `C67_stratified_partial` (UserBoundary.lean; pcq): Started at rest, a perfect gas: the user boundary condition of any face fills its ghost layers with the conservative variables of the state that the initialisation would write there, and changes no other cell.
* `C67_stratified_moving` (UserBoundary.lean; pcq): When the gas moves, the ghost cells get the momentum of the density `rho0` instead of the local one, and an energy that lacks the kinetic energy of all components: they differ from the initial state in every ghost cell.
* `C67_equilibrium_partial` (UserBoundary.lean; pcq): Started at rest, a perfect gas: the user boundary condition of any face fills its ghost layers with the conservative variables of the state that the initialisation would write there, and changes no other cell.
* `C67_equilibrium_moving` (UserBoundary.lean; pcq): When the gas moves, the ghost cells get the momentum of the density `rho0` instead of the local one, and an energy that lacks the kinetic energy of all components: they differ from the initial state in every ghost cell.

### C68 Whole program: same files on every process grid, also after a restart — proved

From the initial arrays to the files written, a run of the program (set-up of the grid, conversion, boundary conditions, time step, reconstruction, Godunov update, pressure fix, user step, energy test, control of the loop, temperature, output) gives the same status, times, counters, fields and files on every process grid; a run interrupted and continued from one of its files on any other process grid gives what the uninterrupted run gives.

* *Modelled*: Model/Program: `progFresh`, `progRestart`, `progStep`, `progRun`, `writeFluid`, `readFluid`, `progOutput`, composed from the kernels of the other model files.
* *Proof*: simulation: the state of every process grid represents the state of one run of the loop of C39-C42 over a global array (`Follows`, preserved by every turn); files are read back by C43, primitive variables converted back by C14, boundary conditions leave the interior.
* *Result*: Exact arithmetic, so that sums in another order give the same result. The gravity of a rank is assumed to be its part of a field of the global array (C50/C35). The grid shift (off by default) and the XDMF file (C44) are not in the composition. C68_restart is for runs that are still running when the file is written, C68_stopped_and_restarted for runs stopped by the clock or the iteration limit.
* `C68_decomposition` (Program.lean; pcq): Two process grids `A`, `B` for the same domain (nodes `X`, gravity field `Gr W` of the global array; periodic, zero gradient or reflexive boundaries; the pressure fix on or off; any user step), each rank owning at least `ng ≥ 2` cells in each active direction, whatever the loop orders, the order in which the ranks write and the previous contents of the work arrays, and initial arrays that represent the same primitive variables `S`, `Fx` of the domain. After any number `k` of turns of the main loop, with the same answers of the clock, neither run has accessed an array out of bounds; both have the same status (running, finished, failed), time and counters, hold the same values in corresponding cells, and have written the same files: every dataset has the same extents and contents, the axes and counters are the same.
* `C68_restart` (Program.lean; pcq): **C68**, restart. A run on the process grid `A` has gone through `N` turns and is still running; its last file `f` is of the present iteration, the densities are positive and the equation of state is lawful. The same file (`f'`, written by any process grid) read by the process grid `B`: after any number `m` of turns the restarted run is in the state that the run on `A` reaches after `N + m` turns, and has written the files which that run writes after `f`.
* `C68_stopped_and_restarted` (Program.lean; pcq): **C68**, stop and restart. A run on the process grid `A` was stopped, by the clock or by the limit on the number of iterations, in its `N + 1`st turn, before the end time; `f` is the file it left, `f'` the same file. The process grid `B` restarts from `f'` with a larger limit `M`. After `m` turns it is where the run on `A` with that limit, never stopped by the clock, is after `N + 1 + m` turns: same status, time, iteration, output counters and fields. Only the number of the last file may be larger, by one, namely when the file left at the stop would not have been written otherwise.

### C69 Conserved totals, bounds and rest over whole runs — proved

In all files that a run of the whole program writes, on any process grid: on a periodic Cartesian box the total mass is that of the initial state, and so are the total momentum in directions without gravity and, without gravity, pressure fix and heating, the total energy; mass fractions that start in [0, 1] stay in [0, 1]; a uniform fluid at rest without gravity stays exactly that in every geometry, and its run neither fails nor exceeds the iteration limit.

* *Modelled*: the program of C68.
* *Proof*: invariants of the run over the global array that C68 shows every process grid to follow; one turn preserves them by C30, C34 and C33 applied to the whole domain as one array.
* *Result*: Exact arithmetic. The program is that of C68 (no grid shift). Momentum is density times velocity as written in the file, hence for files without a zero density. C69_rest_finishes assumes no outputs at given times, since these can throw (C41).
* `C69_mass` (Runs.lean; pcq): **C69**, mass. Periodic Cartesian box with a periodic mesh, any process grid and loop orders, any limiter, Riemann solver, equation of state, gravity that is periodic for a periodic fluid, with or without pressure fix and heating: the total mass in every file the run has written after `k` turns, a crash dump included, is that of the initial state.
* `C69_momentum` (Runs.lean; pcq): **C69**, momentum. As `C69_mass`, with no gravity along direction `i`: the total of density times velocity in every file with no zero density is that of the initial state.
* `C69_energy` (Runs.lean; pcq): **C69**, energy. As `C69_mass`, with no gravity, no pressure fix and no heating: the total energy in every file is that of the initial state, the internal energy given by the equation of state plus the kinetic energy.
* `C69_fractions` (Runs.lean; pcq): **C69**, fractions. Any geometry, mesh, boundary conditions other than user ones, gravity, pressure fix, heating, process grid: if the initial fractions are in `[0, 1]`, so are the fractions in every file.
* `C69_rest` (Runs.lean; pcq): **C69**, rest. Any geometry, mesh, boundary conditions other than user ones, process grid, pressure fix; no gravity, no heating. From a uniform fluid at rest every file holds that uniform fluid at rest, and so do the arrays, ghosts included.
* `C69_rest_finishes` (Runs.lean; pcq): **C69**, rest, the end of the run. As `C69_rest`, without outputs at given times (then the exception of line 370 is not thrown): no turn fails, and the run has finished after as many turns as the limit on the number of iterations.

### C70 The tabulated setup starts from its file on every process grid — proved

The setup v1d fills each interior cell of each rank with the values of the tabulated profiles (density, radial velocity, pressure, passive scalars) at the index of the cell in the whole domain, velocity zero in the other directions, and touches no other cell; the nodes of the first direction are those of the file; a file is accepted if and only if its datasets have the sizes of the domain, and all ranks agree on this.

* *Modelled*: Model/Tabulated: `tabInit`, `tabGrid`, `readProfile`, `readScalars`, `checkExtent`; Model/Setup: broadcasts.
* *Proof*: transfers as scatters over a list of positions; each broadcast characterised pointwise and located in the whole domain by C01.
* *Result*: HDF5 and PDI as for C43: a read copies the selected elements in order. Finding: without passive scalars a file that lacks the dataset /fx_1d is refused (C70_needs_scalars).
* `C70_profile` (Tabulated.lean; pcq): Every rank of every process grid finds in each interior cell the values of the profiles at the index of the cell in the whole domain; no other cell is changed; nothing is read or written out of bounds. Any number of directions and of passive scalars, any ghost width, any order of the loops.
* `C70_accepts` (Tabulated.lean; pcq): The setup accepts a file if and only if it holds the four datasets with the sizes of the global domain. The answer does not depend on the rank, so that all ranks stop together.
* `C70_needs_scalars` (Tabulated.lean; pcq): A run without passive scalars still needs a dataset `/fx_1d`, with no row: the profile of the gas alone is refused.
* `C70_grid` (Tabulated.lean; pcq): The nodes of the first direction are those of the file, ghosts included, and a file with another number of them is refused; the domain reaches from `xmin` to `xmax` in the other directions.

### C71 The shift criterion looks at the last cells of the domain — partial

The grid is shifted if and only if the gas reaches the speed vmax_shift in one of the last cell_shift cells of the domain along the first direction, whatever the process grid.

* *Modelled*: Model/Tabulated: `shiftWindow`, `shiftSpeed`, `tabShift`.
* *Proof*: maximum over ranks and cells reindexed to the whole domain; witnesses on one and two processes.
* *Result*: For a positive threshold the answer is the same on all process grids that are accepted and is yes exactly if the speed is reached in one of the last cell_shift + nghost columns (C71_reached_partial). Violated: the window begins nghost columns too early (C71_window_violated); with two or more process columns and the default threshold 0 the answer is always yes (C71_always_shifts, C71_depends_on_processes); the refusal depends on the number of processes (C71_refused_iff).
* `C71_refused_iff` (ShiftCriterion.lean; pcq): The criterion stops the run if and only if the last process along the first direction has fewer than `cell_shift` cells: it depends on the number of processes.
* `C71_reached_partial` (ShiftCriterion.lean; pcq): A positive threshold, on any process grid that the criterion accepts: the answer is the same on all of them. It is yes if and only if the speed is reached in one of the last `cell_shift + nghost` columns. The intended set is that of the last `cell_shift` columns, see `C71_window_violated`.
* `C71_one_column_partial` (ShiftCriterion.lean; pcq): One process along the first direction: the same holds for every threshold.
* `C71_always_shifts` (ShiftCriterion.lean; pcq): With two or more processes along the first direction and a threshold that is zero (its default) or negative, the answer is yes whatever the gas does: the ranks that do not hold the last cells contribute the speed 0.
* `C71_depends_on_processes` (ShiftCriterion.lean; pcq): The default parameters of the setup, a gas that recedes everywhere: no shift on one process, a shift on two.
* `C71_window_violated` (ShiftCriterion.lean; pcq): A threshold of any positive value, ghosts, a window of `cell_shift` cells that leaves `nghost` cells of the domain: a gas that moves only in the column before the window, and rests in all of the last `cell_shift` columns, causes a shift on every process grid that is accepted.

### C72 A run with a moving grid is one run, on any process grid and across restarts — partial

With the grid shift switched on, status, time, counters, fields, nodes, boundary conditions and the state of the shift criterion after any number of iterations are the same on all process grids; each iteration is one of the program without shift, followed by nothing, by a move of every cell and node by one along the first direction, or, at rmax_shift, by freeing the outer boundary and dropping the criterion; the outer boundary never passes rmax_shift; a run stopped and restarted from its file continues as if it had not been stopped.

* *Modelled*: Model/MovingProgram: `movStart`, `movStep`, `movRun` (the program of C68 with the shift of Model/Moving).
* *Proof*: simulation as in C68, the global state extended by nodes, boundary conditions and the state of the criterion (`MovFollows`); the restart theorem composes with C43 and the idempotence of the boundary conditions; the witness is a falling gas between two walls.
* *Result*: Independence of the process grid, the meaning of a turn and the bound on the outer boundary are proved in full. Restarts are proved for runs whose criterion is still as at the start (C72_restart_partial). Violated otherwise: the file keeps neither the opened outer boundary nor the dropped criterion, so that the restarted run has the closed boundary again (C72_restart_forgets, witness C72_restart_violated). User boundary conditions and the heating step are covered as in C68.
* `C72_decomposition` (MovingProgram.lean; pcq): Two process grids as in `C68_decomposition`, for a run whose grid shifts; the gravity and the criterion are properties of the nodes and the fields of the domain. After any number of turns neither run has accessed an array out of bounds; status, time, counters, fields, nodes, boundary conditions and the state of the criterion are the same, and so are the files. The grid of every rank (centres, widths, areas, volumes) is that of its present nodes.
* `C72_turn` (MovingProgram.lean; pcq): **C72**, what a turn does. A run is in the state `z` after `k` turns; `y` is the state after a turn of the program without a shift (C68) from there, and this turn does not fail; `z'` is the state after the next turn of the run. Then status, time and counters are those of `y`; the criterion, applied to the fields of `y`, gives an answer `b`, and: - if the criterion is not in force or says no, everything is as without the shift, also the file written if any; - if it says yes and the node beyond the outer boundary is at `rmax` or more, the cells of the domain and the nodes are as without the shift, the outer boundary becomes free, the criterion is no longer in force; - if it says yes and that node is below `rmax`, every cell of the domain takes the values of the next one, every node the position of the next one, the boundaries and the criterion stay as they are.
* `C72_outer` (MovingProgram.lean; pcq): **C72**, how far the grid goes. If the outer boundary is below `rmax` at the start, it is below `rmax` after any number of turns.
* `C72_restart_partial` (MovingProgram.lean; pcq): **C72**, restart, partial: as `C68_restart`, for a run in which the criterion is still as at the start (in force, or none from the start). The full statement, for any run, is false: `C72_restart_violated`.
* `C72_restart_forgets` (MovingProgram.lean; pcq): One dimension, a closed outer boundary, a criterion. Once the program has opened the boundary and switched the criterion off, its files do not say so: a restart has the criterion in force and the outer boundary closed again. The cells of the domain are the same, but next to the outer boundary the momentum of the first ghost is that of the last cell in the uninterrupted run, its opposite after the restart.
* `C72_restart_violated` (MovingProgram.lean; pcq): **C72, violated**, the witness. A gas at rest between two walls, pulled towards the outer one, on two ranks; the grid has reached `rmax`, and the criterion always says yes. After one iteration the run has opened the outer boundary and there is a file; the run restarted from it has the wall again, and with it another momentum in the ghost next to the last cell.

### C73 A uniform gas in uniform gravity falls freely — partial

A uniform flow in a uniform gravity field on a Cartesian grid keeps its density, scalars and pressure, and its velocity increases by exactly force * dt, in each step.

* *Modelled*: Model/Scheme: `hydroReconstruct`, `hancock`, `godunov` with their gravity terms.
* *Proof*: slopes and flux differences of a uniform state vanish (C33); the source remains and is computed; the internal energy follows by algebra. Over runs: all cells hold the same state, pushed at each iteration (`fall_iter`); the time step of the program is at least C/(A + B t), and then the sum of its squares is unbounded (Cauchy-Schwarz and the harmonic series, `squares_grow`).
* *Result*: Density, scalars and velocity are as claimed, in one step (C73_velocity_partial), after any number of iterations on any decomposition (C73_run_partial) and in all files of whole runs of the program, where the velocity is that of the start plus gravity times the elapsed time (C73_program_partial). The pressure is not: the gravitational work uses the momentum before the step, so that the internal energy falls by exactly rho*|force|^2*dt^2/2 per step (C73_internal_loss), and the pressure can become negative in one step (C73_pressure_violated). With a constant time step, and also with the time step the program computes, a falling gas always ends with a negative internal energy (C73_run_violated, C73_program_violated).
* `C73_velocity_partial` (FreeFall.lean; pcq): Cartesian grid, uniform gravity, uniform flow, any mesh, time step, solver, limiter: after a whole step (reconstruction, half-step extrapolation, Godunov update) the density and the fractions are as before and the velocity has grown by exactly `dt` times the gravity. The full property adds that the pressure is as before, see `C73_pressure_violated`.
* `C73_internal_loss` (FreeFall.lean; pcq): **C73**, the internal energy. In the same situation the internal energy (total minus kinetic) of every cell of the domain falls by exactly `rho |force|^2 dt^2 / 2`: the energy receives the work of the momentum before the step, the momentum itself the whole force.
* `C73_pressure_violated` (FreeFall.lean; pcq): A perfect gas at rest, `rho = 1`, `P = 1/2`, sound speed 1, on cells of width 1, and the force -3. One step of half the largest time step allowed by the sound speed leaves every cell of the domain with a negative pressure.
* `C73_program_violated` (FreeFallEnd.lean; pcq): Take a gas law with a sound speed of at most `c` at density `w.rho` and internal energies up to that of the start, gravity `force` not zero, a uniform gas of positive internal energy, positive sound speed and a velocity not against gravity, a Courant number `cfl > 0` and a smallest cell size `h > 0`. There are a time `T` and a number of iterations `N` such that for every run of the program with these (any number of cells, any mesh with cells of at least `h`, any process grid, limiter and solver, boundaries periodic or open, no pressure fix, no heating, no timed outputs) that is asked to go on for a time `T` or more and for more than `N` iterations, the internal energy is negative in every cell after some turn: the run then stops with the error of src/main.cpp 424, or has just ended in such a state. The time step gets shorter as the gas gets faster, but the sum of the squares of the time steps diverges all the same.
* `C73_program_partial` (FreeFallProgram.lean; pcq): Exact arithmetic, the whole program with its own time steps and outputs, Cartesian grid (any mesh), uniform gravity, no pressure fix, no heating, every boundary periodic or open, any limiter, solver, gas law, process grid, any time step policy of the input file. If density, velocity, pressure and mass fractions are uniform at the start then at every turn and in every file the density and the mass fractions are those of the start and the velocity is `u + (t - tIni) * gravity` with `t` the time of the loop (the time written in the file): free fall, exactly. Partial: the internal energy, constant in the full property, is only known not to grow (`C73_run_partial` gives what is lost, `C73_program_violated` what becomes of it).
* `C73_run_partial` (FreeFallRun.lean; pcq): Exact arithmetic over any ordered field, Cartesian grid, uniform gravity, every boundary periodic or open, any mesh, limiter, solver, gas law, decomposition, any rule for the time step. A gas that is uniform at the start is uniform after any number of iterations, ghosts included; with `dt j` the time step of iteration `j`: density and mass fractions are those of the start, the velocity is that of the start plus gravity times the elapsed time `∑ dt j` (free fall, exactly), and the internal energy is that of the start less `rho |g|² / 2 * ∑ (dt j)²`. Partial: the full property has the internal energy of the start.
* `C73_run_violated` (FreeFallRun.lean; pcq): In the situation of `C73_run_partial` let the field not be zero and the time step be the same number `dt ≠ 0` at each iteration. However hot the gas is at the start, it has a negative internal energy in all cells after some number of iterations.

### C74 Physical states stay physical — partial

From an initial state of positive density and pressure, with a Courant number of at most 1/(2 d) (d dimensions; times the ratio of neighbouring cell lengths on an irregular grid), every cell of the arrays and of the files keeps a positive density, internal energy and pressure at every iteration, the face states handed to the Riemann solver are physical too, and the internal energy test never stops the run.

* *Modelled*: Model/Scheme, Model/Riemann, Model/Loop, Model/Program as in C68.
* *Proof*: the physical states are the states on which a family of linear functionals is positive; HLL and HLLC are fans of physical states (C28); a step is an average of such fans under the Courant condition; invariance over the loop with the time step it chooses. Violations: exact witnesses on five cells for all limiters with slopes at once.
* *Result*: Proved for the constant reconstruction on Cartesian grids without gravity, pressure fix and heating, for one step (C74_step_partial) and for whole runs on any process grid (C74_run_partial). Violated for VanLeer, Minmod and VanAlbada: the predictor can make face pressures negative for data within the Courant condition (C74_predictor_violated), and with HLL the step can make the internal energy of a cell negative (C74_second_order_violated).
* `C74_step_partial` (Positivity.lean; pcq): Constant reconstruction, HLL or HLLC, Cartesian grid, no gravity, an equation of state whose signals are fast enough (`EoS.Fast`; the perfect gas is). If in every cell read by the update density and pressure are positive, and no wave of a cell or of a direct neighbour crosses more than `1 / (2 d)` of the cell, the step accesses no memory out of bounds and gives every interior cell a positive density, a positive internal energy and, if the equation of state is `Positive`, a positive pressure.
* `C74_run_partial` (Positivity.lean; pcq): Constant reconstruction, HLL or HLLC, Cartesian grid, no gravity, no pressure fix and no heating, any boundary conditions other than user ones, any process grid. Let `κ` bound the ratio of the lengths of neighbouring cells (1 on a regular grid) and let the Courant number be at most `1 / (2 d κ)`. From an initial state of positive density and pressure, at every turn every cell of the arrays, ghosts included, and of every file has a positive density, pressure and internal energy. Without outputs at given times no turn fails (in particular the test of the internal energy never stops the run), and the run ends.
* `C74_predictor_violated` (PositivityFails.lean; pcq): With each reconstruction that has slopes there are physical data satisfying the Courant condition of `C74_step_partial` (density 1, pressure 1/2 and velocities -4, 0, 4, with γ = 2) for which the predictor, before any Riemann solver, gives the left and the right face of the interior cell a state of positive density and negative pressure. The solvers take the square root of that pressure.
* `C74_second_order_violated` (PositivityFails.lean; pcq): With each reconstruction that has slopes and the HLL solver there are physical data satisfying the Courant condition of `C74_step_partial` for which the step gives the interior cell a positive density and a negative internal energy.

### C75 A closed box keeps its mass and energy — partial

In a box whose directions are each either periodic or closed by reflexive walls at both ends, without external forces and sources, no mass and no energy goes through the walls: the total mass, the total energy and the total momentum along the periodic directions of every file of a run are those of the initial state, on any number of processes.

* *Modelled*: Model/Boundary, Model/Scheme, Model/Riemann, Model/Program as in C68.
* *Proof*: next to a wall the global array is its own mirror image (boundary conditions are idempotent and commute), so by C59 the face states on the two sides of the wall are mirror images and the flux of two mirror states has no mass and no energy; fluxes inside cancel as in C30. Violation: exact witness on two cells for every limiter and solver, by C24.
* *Result*: Step (C75_step_partial): any limiter and solver, when cell lengths and gravity are mirrored at the walls and the predicted states there are physical. Whole runs (C75_run_partial): constant reconstruction, HLL or HLLC, no gravity, any process grid. Violated under a uniform gravity across a wall, as in inputs/rayleigh_taylor.ini: the predictor pushes the ghost cell the same way as the cell it mirrors and the wall leaks (C75_gravity_violated, every limiter and solver). Missing: whole runs with slopes, where predicted states need not be physical (C74).
* `C75_step_partial` (ClosedBox.lean; pcq): C75, one step, any limiter, Riemann solver and lawful equation of state, Cartesian grid. Each direction of the arrays is periodic or ends with walls on both sides: ghost cells that mirror the cells inside, with cell lengths and gravity mirrored too (so no uniform gravity across a wall). If the states predicted at the walls are physical, the total mass does not change, the total energy changes by the work of gravity and the total momentum along a periodic direction by the weight. `closed_totals` below applies it to every physical state without slopes.
* `C75_run_partial` (ClosedBox.lean; pcq): Constant reconstruction, HLL or HLLC, Cartesian grid, no gravity, no pressure fix and no heating, each direction periodic or with a reflexive wall at both ends, any order of the faces, any process grid. Let `κ` bound the ratio of the lengths of neighbouring cells and let the Courant number be at most `1 / (2 d κ)`. From an initial state of positive density and pressure, every file has the total mass, the total energy and, along the periodic directions, the total momentum of the initial state.
* `C75_gravity_violated` (ClosedBoxFails.lean; pcq): C75 fails under gravity, for every limiter and every Riemann solver: a gas with `γ = 2` at rest, in two cells of unit length between two reflexive walls, densities 2 and 1, pressure 1, gravity `-1`, time step `1/10`. The ghost cells mirror the cells inside, with reversed momentum, but gravity is the same on both sides of a wall. The step takes a mass of 1/200 out of the box.

### C76 The run is the one the configuration file asks for — partial

Every parameter of the run is what the configuration file gives for its key, or its documented default; the gas, grid, boundary conditions, reconstruction, Riemann solver, user step, moving grid and pressure fix are those it names; a name that is not known is refused instead of being replaced silently; and what is proved about runs then holds for the run of that file.

* *Modelled*: Model/Param: `paramOf`, `configure`, `gridChoice`, `stodDecimal`; Model/Configured: `RunConfig.prog`; Model/Ini, Model/Boundary.
* *Proof*: the getters are evaluated on what C57 says the reader stores; the numerals by induction on their digits; the choices by C10, C53, C08 and C09; the run by C69. The lines of inputs/shock_tube.ini and their result are written out as an example.
* *Result*: Proved for all files: parameters (C76_param, C76_real), choices (C76_config), texts and names of accepted files (C76_texts, C76_only_known), refused integers (C76_no_integer), other keys ignored (C76_other_keys_ignored), the parameters of the run itself (C76_prog), end to end with the mass of C69 (C76_periodic_mass). Violated: unknown names of pressure_fix and shift_grid are not refused but mean off (C76_switches_violated); no check of the number of cells, of heating without scalar, of t_ini beyond t_end (C76_unchecked, C76_backwards). The parameters of the setups are in C89. Missing: rounding, infinities and hexadecimal numerals of std::stod.
* `C76_real` (Param.lean; pcq): the reading of real numbers understands every decimal numeral.
* `C76_real_cast` (Param.lean; pcq): the same over the reals, or any field that contains the rationals.
* `C76_param` (Param.lean; pcq): every parameter of the run is what the file gives for its key, or its default.
* `C76_config` (Param.lean; pcq): if the file gives the parameters and the choices of `c`, then the run is `c`; a complete priority list, or none, gives an order in which every face occurs once (which one: C08).
* `C76_texts` (Param.lean; pcq): texts are never altered.
* `C76_only_known` (Param.lean; pcq): whatever the reading of real numbers, a configuration that is accepted has only known names, and its choices are those of the file.
* `C76_other_keys_ignored` (Param.lean; pcq): the run depends only on the known keys: two files that give them the same values give the same run, or the same error. Other keys, misspelt ones included, are ignored.
* `C76_no_integer` (Param.lean; pcq): a key read as an integer whose text does not start with a number is refused.
* `C76_switches_violated` (ParamRuns.lean; pcq): unlike all other names, a name that is not known is not refused. "on" leaves the pressure fix off, "Yes" leaves the grid at rest.
* `C76_unchecked` (ParamRuns.lean; pcq): what no check refuses: a grid without cells (the default of the numbers of cells is 0; the misspelt key is ignored), the nickel heating without a passive scalar, which reads outside of the arrays (`C51_without_scalars`), an initial time beyond the final time.
* `C76_backwards` (ParamRuns.lean; pcq): with an initial time beyond the final time and no timed outputs, the run makes one step of negative length, without error.
* `C76_prog` (ParamRuns.lean; pcq): if the file says the configuration `c`, the time loop gets the final time, the CFL number, the dates and periods of the outputs and the number of iterations that the file gives, the run starts at its initial time, and the pressure fix is applied, with the threshold of the file, when the file says "On".
* `C76_periodic_mass` (ParamRuns.lean; pcq): if the file asks for periodic conditions on all faces (and heats only with a passive scalar), the program is configured and, on every process grid, every result file of the run has the mass of the initial state.

### C77 An explosion starts with the energy of the file — partial

The initial state of a Sedov setup contains the energy E1 of the explosion exactly once (in one dimension, Cartesian, the half of it that belongs to the half domain), whatever the mesh, the number of ghosts and the process grid; the rest of the domain has the ambient energy.

* *Modelled*: Model/Problems: `sedov1dInit`, `sedov2dInit`, `sedov3dInit`; Spec/Explosion: `domainEnergy`, `StartsWith`.
* *Proof*: the initial state of the decomposed run is identified with one state of the whole domain (`InitialState`, C66); the selected cells are counted; volumes by C37.
* *Result*: General formulas: sedov2d gives E1 once per cell whose lower left node is closer than 0.025 to the origin (C77_sedov2d), sedov3d once per cell selected by the exact radius 1 and the local indices (C77_sedov3d). Holds on the shipped inputs (C77_sedov2d_partial, C77_sedov1d_partial, C77_sedov3d_partial on one process; spherical sedov1d on one process C77_sedov1d_spherical). Violated: 2-D, no explosion with 201^2 cells, 4 E1 with 401^2, 9 E1 with 800^2; 1-D, none with 3 ghosts; 3-D, twice E1 on 1x2x1 processes, none on 1x4x1, none with 21 radial cells. In double precision the shipped 2-D file puts E1 in three cells instead of one, see C92. Missing: the test `x == 1` of the 3-D problem in floating point.
* `C77_sedov2d` (Explosion.lean; pcq): On every process grid, for every mesh, number of ghosts and value of the parameters, the domain contains the energy `E1` once for every cell whose lower left node is closer to the origin than 0.025, and `E0` for every other cell.
* `C77_sedov2d_partial` (Explosion.lean; pcq): On the mesh of inputs/sedov2d.ini, 400 x 400 cells over the square of side 10, one cell receives the energy `E1` of the file. The full statement is the same on every mesh; it is false, see `C77_sedov2d_resolution` and `C77_sedov2d_violated`.
* `C77_sedov2d_resolution` (Explosion.lean; pcq): The energy of the explosion depends on the resolution: on the same square, 201 x 201 cells receive none, 401 x 401 cells receive four times the energy of the file, and 800 x 800 cells nine times.
* `C77_sedov2d_violated` (Explosion.lean; pcq): It is not true that the explosion has the energy of the file on every regular mesh of the domain of inputs/sedov2d.ini.
* `C77_sedov1d_partial` (Explosion.lean; pcq): In Cartesian geometry, on a regular mesh of any size with two ghosts, on every process grid, the first cell receives half of the energy `E1` (the explosion is symmetric about the origin and the domain is one half of it) and every other cell `E0`. The full statement is the same for every number of ghosts; it is false, see `C77_sedov1d_violated`.
* `C77_sedov1d_violated` (Explosion.lean; pcq): With three ghosts the cell of index 2, which is to receive the energy, is a ghost cell: there is no explosion, whatever `E1`.
* `C77_sedov1d_spherical` (Explosion.lean; pcq): On one process with two ghosts, on every mesh, the first cell receives the energy `E1`, and the rest of the domain the density of energy `E0 / V`, where `V` is the volume of the first cell.
* `C77_sedov3d` (Explosion.lean; pcq): On the process grid `dims`, for every mesh and value of the parameters: the energy `E1` goes to every cell whose inner radius is exactly 1 and whose indices of the second and third directions, in the arrays of its process, are half the size of the domain. The other cells have the ambient pressure.
* `C77_sedov3d_partial` (Explosion.lean; pcq): On the mesh of inputs/sedov3d_sph.ini on one process, one cell, (10, 8, 48), receives the energy of the file. The full statement is the same on every mesh and every process grid; it is false, see `C77_sedov3d_violated`.
* `C77_sedov3d_violated` (Explosion.lean; pcq): With the same input and the second direction cut in two, two cells receive the energy of the file; cut in four, none; and with 21 cells in the radial direction, none on any process grid.

### C78 Every setup starts in a physical state — partial

For parameters in the range of the input file, the initial state of every setup has a positive density, a positive pressure and mass fractions between 0 and 1 in every cell of the domain, on every mesh and process grid.

* *Modelled*: Model/Problems: all `*Init` kernels but the tabulated one; Spec/Physical: `PhysicalCell`, `StartsPhysical`.
* *Proof*: pointwise bounds of the profiles (exp, tanh, log, arctangent); the state of every process grid is the one of the whole domain (C66).
* *Result*: Proved for shock tube, shock wall, both advections, stratified atmosphere, spherical equilibrium, nickel (C78_physical_1d), implosion, Gresho, Kelvin-Helmholtz, sedov2d (C78_physical_2d), Rayleigh-Taylor 3-D (C78_rt3d), sedov1d and sedov3d (C78_sedov); Rayleigh-Taylor 2-D under conditions (C78_rt_partial). Violated in Rayleigh-Taylor 2-D (C78_rt_violated): the mass fraction lacks the offset fx1 of its profile, so that fx0 = fx1 gives 0 everywhere and fx0 < fx1 a negative one, and the pressure is not positive where rho0 |g| y >= 10/7 + 1/4. Missing: the tabulated setup, whose state is the content of its file (C70).
* `C78_physical_1d` (Physical.lean; pcq): With positive densities, pressures, temperatures and a mass fraction between 0 and 1 in the file, on every mesh, in both geometries, on every process grid: shock tube, shock wall, advections, stratified atmosphere, isothermal sphere, nickel heating.
* `C78_physical_2d` (Physical.lean; pcq): With positive densities, pressures, energies and a positive Mach number in the file, on every mesh of increasing nodes and on every process grid: implosion, Gresho vortex, Kelvin-Helmholtz, two-dimensional Sedov explosion.
* `C78_rt_partial` (Physical.lean; pcq): If the fraction of the lower fluid is 0, that of the upper one between 0 and 1 and the pressure at the reference height exceeds the weight of the column above (`rho0 |g| y < 10 / 7 + 1 / 4` in every cell), the initial state is physical on every mesh and process grid. The full statement is the same for all fractions `fx0`, `fx1` between 0 and 1 and every column; it is false, see `C78_rt_violated`.
* `C78_rt_violated` (Physical.lean; pcq): The profile of the mass fraction lacks the fraction `fx1` of the lower fluid. On every mesh, process grid and for every cell: if both fluids have the same fraction, the initial fraction is 0; if the lower fluid has the larger fraction, the initial fraction is negative. The pressure is not positive where `rho0 |g| y ≥ 10 / 7 + 1 / 4`.
* `C78_rt3d` (Physical.lean; pcq): With positive densities, on a mesh whose nodes of the third direction lie below 150, with gravity that does not vanish, whatever the random numbers, the initial state is physical on every process grid.
* `C78_sedov` (Physical.lean; pcq): With positive density, pressure and energies: in one dimension on a regular Cartesian mesh with two ghosts on every process grid; in three dimensions on every spherical mesh and every process grid.

### C79 Files, index and restarts fit together — partial

An output file holds the counters, the time, the nodes and each field, velocity component and passive scalar under its own name with the values of the state; each dataset that the XDMF index refers to is in the file with the announced sizes; a restart gives back what was written whatever the two process grids, and refuses a file of another configuration.

* *Modelled*: Model/Files: `writeFile`, `readFile` with the dataset lists of config.yaml.cpp; Model/Restart, Model/Output; Spec/Files: `Holds`, `Refers`.
* *Proof*: the writes of the tree are folded over pairwise different names, each transfer by C43; the reads keep what other reads did because offsets are injective; names of scalars differ because decimal digits determine the number. Violations: the eleventh name is not declared; the check compares only cells plus ghosts; `readFile` is unchanged by another gas coefficient.
* *Result*: Proved: content of the file for up to ten scalars (C79_content_partial), the index refers only to datasets that exist with the announced sizes (C79_index), reading (C79_restart), round trip between any two process grids (C79_roundtrip_partial), refusal of other extents, missing scalars and missing dimensions (C79_refused_partial). Violated: with more than ten scalars every output fails (C79_scalars_violated); a file with another number of ghosts but the same extents is accepted and each cell gets the values of a cell with other bounds (C79_ghosts_violated); the gas coefficient of the file is not compared (C79_gas_violated). Missing: attributes with the version of the code, and PDI and HDF5 themselves, whose conventions are assumed.
* `C79_content_partial` (Files.lean; pcq): For every number of dimensions, up to ten passive scalars, every process grid and order of the ranks: the file holds the counters, the time, the nodes and every field, component and scalar under its own name, with the values of the state, and no dataset of a further scalar or component. Missing: more than ten scalars (`C79_scalars_violated`).
* `C79_index` (Files.lean; pcq): Every dataset that an entry of the index refers to is in the file, with the sizes that the entry announces.
* `C79_scalars_violated` (Files.lean; pcq): With more than ten passive scalars no output can be written, whatever the state: the specification tree declares the datasets of ten. The index would list the eleventh.
* `C79_restart` (Files.lean; pcq): A rank of a run configured with `n'` cells, `ng'` ghosts and `nfx'` scalars reads a file with at least as many cells and scalars, and the same extents with ghosts: whatever its process grid, it ends with the counters, the time and the nodes of the file, and inside its part of the domain with the density, the pressure, the velocity and the scalars that the file has for the cells of the same index. The halos keep what they held.
* `C79_roundtrip_partial` (Files.lean; pcq): What a run writes, a run of the same configuration reads back: whatever the two process grids and the order of the writes, each reading rank gets the counters, the time, all nodes, and its part of the density, pressure, velocity and scalars. Missing: more than ten scalars (`C79_scalars_violated`).
* `C79_refused_partial` (Files.lean; pcq): A file is refused when the extent with ghosts differs in some direction, when the run has more scalars than the file, and when it has more dimensions. Missing: another number of ghosts, another gas (`C79_ghosts_violated`, `C79_gas_violated`).
* `C79_ghosts_violated` (Files.lean; pcq): A restart does not notice another number of ghosts: with one more on each side and two cells fewer, a file is accepted, and every cell takes the values that the file has for a cell of other bounds (the left bound of cell `c` is node `c + ng'`, that of the cell of the file with these values is node `c + ng`).
* `C79_gas_violated` (Files.lean; pcq): The coefficient of the gas in the file is not looked at: a restart with another gas is accepted, whatever the file says.

### C80 The choice of units does not matter — proved

A problem given in other units of length, time and density is the same problem: the run makes the same turns, writes the same number of outputs and ends for the same reason, and all its numbers are those of the first run multiplied by the factor of their unit. In particular no dimensional constant is hidden in solvers, limiters, boundary conditions, pressure fix or time step.

* *Modelled*: Spec/Units: factors of the units and how each quantity scales; the whole program of C69 (Model/Program).
* *Proof*: each formula of a turn is homogeneous (Lemmas/Units, Lemmas/UnitsRun: reconstruction, half step, solvers, update, sources, pressure fix, boundary conditions, rates); Lemmas/Simulation: if one turn respects a relation between two states, so do runs of any length with the same decisions, outputs and status; the decomposed programs follow these runs (C69).
* *Result*: For fresh runs. The heating by nickel is excluded because its constants have units, and the radiation gas because its constants fix the unit of energy density. The assumption RateOk (some cell has non-negative lengths, speeds of sound are not negative, the starting value of the reduction is not positive) excludes that the reduction returns its starting value, which is not rescaled.
* `C80_units` (Units.lean; pcq): **C80**. Two runs of the whole program, on any process grids: the second is given the initial densities, velocities and pressures, the nodes, the force and the times of the first in other units (factors `k`), and a gas that is the same gas in these units. Without the heating by nickel, whose constants have units, and if some cell has non-negative lengths (so that the largest rate is that of a cell), both runs make the same turns: after any number of turns they have the same status and the same counters, the time and every field is multiplied by the factor of its unit in all cells (ghosts included), and they have written the same files, every dataset multiplied by the factor of its unit. This holds for all solvers, limiters, boundary conditions (in any order), both geometries and with or without the pressure fix.

### C81 A symmetric problem stays symmetric through whole runs — partial

If a problem on a Cartesian grid is given with its axes permuted or one axis reversed (mesh, sizes, boundary conditions, force, initial state, scalars), the run makes the same turns with the same times, decisions and status, and every field of every cell on every rank and every dataset of every file is the original one with permuted or reversed axes and vector components, whatever the process grids and the order of the faces. In particular a problem that is symmetric initially stays exactly symmetric.

* *Modelled*: Spec/SymmetryRuns: parameters with permuted or reversed axes, how a file and a state are seen (`SeenFile`, `SeenState`); the whole program of C69.
* *Proof*: boundary conditions of the global array commute with a relabelling of cells and faces and do not depend on the order of the faces (`bcGlob_relabel`, `bcGlob_order`); one step commutes by C59 and Lemmas/Reflection (HLL and low-Mach solver: for any two states, `solver_mirror`); the rate of the time step, the pressure fix and the heating commute with permutations (Lemmas/SymmetryRun); Lemmas/Simulation carries this through runs of any length; the decomposed programs follow these runs (C69). Violation: the pressure fix sums all velocity components on every face, a term odd in each of them.
* *Result*: Full statement for permutations (C81_exchange, C81_symmetric). For a reversed axis: without the pressure fix; with HLL and the low-Mach solver for every run (C81_mirror_any_partial); with HLLC if in every turn the states extrapolated to the faces normal to that axis have positive density and pressure (C81_mirror_partial); with the constant reconstruction without gravity no such assumption is needed (C81_mirror_first_order_partial, C81_mirror_symmetric_partial). Missing: reversed axes with HLLC where extrapolated states are not admissible. With the pressure fix a reversed axis gives other energies (C81_fix_mirror_violated).
* `C81_exchange` (SymmetryRuns.lean; pcq): **C81**, permutations. Two runs of the whole program, on any process grids: the second is the first with permuted axes (`σ` on directions, `τ` on the axes of the arrays): mesh (each axis possibly translated), sizes, boundary conditions, force, initial densities, velocities, pressures and scalars; everything else is the same. Boundary conditions may be applied in any order of the faces, not the same in both runs. Both runs make the same turns: after any number of turns they have the same status, time and counters, and every field of every cell (ghosts included) and every dataset of every file of the second is that of the first with permuted axes and components. This holds on Cartesian grids for all solvers, limiters, boundary conditions, with or without the pressure fix and the heating.
* `C81_symmetric` (SymmetryRuns.lean; pcq): **C81**, symmetric problems. If mesh, boundary conditions, force and initial state of a run are unchanged by a permutation of the axes, then so are all its later states and all its files: cells that are images of each other hold the same densities, energies and scalars, and momenta with permuted components, on all ranks and in the ghosts.
* `C81_mirror_partial` (SymmetryRuns.lean; pcq): **C81**, mirrors. Two runs of the whole program without pressure fix, on any process grids: the second is the first with axis `b` reversed: mesh, boundary conditions, force, initial densities, velocities, pressures and scalars; everything else is the same. With HLL and the low-Mach solver always, with HLLC if in every turn of the first run the states extrapolated to the faces normal to `b` have positive density and pressure, both runs make the same turns: after any number of turns they have the same status, time and counters, and every field of every cell (ghosts included) and every dataset of every file of the second is that of the first seen in the mirror.
* `C81_mirror_any_partial` (SymmetryRuns.lean; pcq): **C81**, mirrors, HLL and low-Mach solver. As `C81_mirror_partial`, with no assumption about the states of the run: every reconstruction, every Courant number, gravity and heating, states of any sign.
* `C81_mirror_first_order_partial` (SymmetryRuns.lean; pcq): **C81**, mirrors, first order. With the constant reconstruction, HLL or HLLC, without gravity, pressure fix and heating, and a Courant number at most `1 / (2 d κ)` (`κ` bounds the ratio of the lengths of neighbouring cells), the run seen in a mirror is the run of the mirrored problem, from any initial state of positive density and pressure, with no assumption about later states.
* `C81_mirror_symmetric_partial` (SymmetryRuns.lean; pcq): **C81**, symmetric problems, first order. Under the conditions of `C81_mirror_first_order_partial`, if mesh, boundary conditions and initial state are those of their mirror image along `b`, then so are all later states and all files: in two cells that are mirror images of each other densities, energies and scalars are the same, and so are the momenta but for the component along `b`, which is opposite.
* `C81_fix_mirror_violated` (SymmetryRuns.lean; pcq): On an array of 5 x 5 unit cells with a shear flow, velocity `(0, x)`, density 1, internal energy 1/100, equal reconstructed states, the fix triggers in the middle cell. Applied to the flow seen in a mirror across direction 1 (and to the mirrored result of the Godunov update), it gives this cell, its own mirror image, another energy.

### C82 Runs on different numbers of processes agree bit by bit — proved

Run the same problem on two different process grids, with any loop orders and any previous contents of the work arrays. Whatever the kernels compute from the numbers they read (in particular with rounded operations), all time steps are identical and, after any number of iterations, every cell and ghost cell holds identical numbers in both runs, pressure fix included; no access is out of bounds. Gravity must be the same function of the global state (uniform or point mass).

* *Modelled*: Model/KernelRun: `Kernels` (what each kernel computes from the numbers it reads, arbitrary), `kSetGrid`, `kStep`, `kTimeStep`, `kIter`, `kRun` (loops, arrays, exchange, reduction as in Model/Distributed).
* *Proof*: an array that agrees with a global function on a box (`On`) stays so through every loop, whatever the kernel; the maximum over processes is the maximum over the domain in any linear order (`IsKRate`); boundary conditions by C05 and C06, which need only a negation. The example runs the operations of the code with an arbitrary rounding on 2x3 processes and on one.
* *Result*: For kernels that are arbitrary functions the numbers are those of a linear order; with IEEE doubles, NaN, infinities and signed zeros included, for the kernels of the code (C82_ieee_decomposition_independent). Gravity is a common function of the global state (uniform, point mass); the sums of the internal mass gravity are not covered. The kernels are functions of the numbers they read, that is, all processes run the same code.
* `C82_bitwise_decomposition_independent` (KernelRun.lean; pcq): The numbers are of any linearly ordered type `F` (the finite `double`s, for instance) and what the kernels compute from the numbers they read, `p.k`, is arbitrary: no law of arithmetic is assumed, so that rounding, contraction of operations, even a wrong formula are covered, as long as all ranks run the same code. Two decompositions `dims`, `dims'` of the same domain, with any loop orders, any partitions of the reductions and any previous contents of the work arrays, started from the same global field `G`, go through any number `i` of iterations without an access out of bounds, obtain the same time steps, and hold the same numbers in any two cells (ghosts included) that represent the same cell of the domain: the two runs agree bit by bit. The pressure fix may be on. Gravity is asked to be the same function of the global array for both decompositions, as it is for a uniform or point mass gravity; the internal mass gravity adds up the masses of cells rank by rank and does not meet this with rounded sums.
* `C82_ieee_decomposition_independent` (NanRun.lean; pcq): Bit by bit independence of the decomposition with the `double`s of the machine: NaN, infinities, signed zeros, overflow and underflow included. The kernels are those of the code, operation by operation, with any limiter, solver, geometry, equation of state, library functions and with or without pressure fix; the largest rate is the same on all decompositions because the comparison leaves out NaN in every order and a rate is never `-0`.

### C83 The formulas of the exact model are the operations of the code — proved

Write every kernel of a run as the sequence of operations it performs, over numbers without any law: a += adds to the variable, loops over directions proceed in order, source terms are added one after the other. If the operations are exact, the run, the grid arrays and the pressure fix are those of the exact model in which all other properties are proved, including when they fail.

* *Modelled*: Model/Ordered: `Arith` (operations without laws), `orderedKernels` (every kernel operation by operation); Model/KernelRun.
* *Proof*: kernel by kernel, unfolding loops over at most three directions and regrouping sums (Lemmas/Ordered); then the loops bottom-up.
* *Result*: Run without heating, output and grid shift (the iteration of Model/Distributed); grid arrays and pressure fix in separate theorems. The order of operations is the one written in the source.
* `C83_exact_operations` (Ordered.lean; pcq): The exact model, whose sums are over sets of directions and whose source terms are gathered, is what the code computes when each of its operations is performed in its place and is exact: the run of `Model/Distributed.lean` equals, for every number of iterations, the run of the kernels written operation by operation (`orderedKernels`: a `+=` adds to the variable, a loop over the directions folds in order, spherical source terms are added one after the other), failures included.
* `C83_exact_grid` (Ordered.lean; pcq): The same for the grid arrays.
* `C83_exact_pressure_fix` (Ordered.lean; pcq): The same for a step with the pressure fix.

### C84 The time loop in double precision — partial

With operations rounded to the nearest double, a run that starts before its end time still never goes back in time, stays below t_end while it runs, ends at t_end up to (t_end - t_ini)/2^52 (exactly, if the last step starts at t_end/2 or later), writes a file at each requested time up to (t_end - t_ini)/2^51, never raises the negative time step error, and performs at most max_iter iterations; it makes progress in every iteration and writes no other files than requested.

* *Modelled*: Model/Doubles: `IsDouble`, `Nearest`, `roundDouble` (53 digits, unbounded exponent); Model/RoundedLoop: `rDecideStep`, `rRunN` (Model/Loop with every operation rounded, `rRunN_id`).
* *Proof*: facts about roundings to nearest (monotone, relative error, differences of close numbers are exact, existence: `roundDouble_nearest`); invariants of the loop as in C39 and C41 with error bounds; witnesses evaluated for every rounding to nearest, or with ties to even.
* *Result*: Proved for every rounding to nearest: time and end of the run (C84_time, C84_end_exact), timed files when the frequency is at least t_end/2^47 (C84_outputs_partial, C84_separated). Violated: first output 0.7, frequency 0.1 and end 0.8 give a file too many and a step of 2^-53, because 0.7 + 0.1 is below 0.8 (C84_extra_file); the last step can end one digit beside t_end (C84_end_missed); steps below half a digit of t leave the time unchanged and only max_iter ends the run (C84_stagnation). Missing: overflow, underflow, NaN.
* `C84_time` (RoundedLoop.lean; pcq): The loop in double precision, with any rounding to nearest (C39 for rounded operations). A fresh run that starts before its end time, whatever the CFL steps (positive), the parameters and the wall clock: the time is a `double`, never decreases from `t_ini` on, is below `t_end` while the run goes on, and when the run was ended by `t_end` differs from it by at most `(t_end - t_ini) / 2^52`; a run that completed has written its last state; at most `max(1, max_iter)` iterations are performed.
* `C84_end_exact` (RoundedLoop.lean; pcq): An iteration that ends the run because of `t_end` and starts at `t_end / 2` or later ends at `t_end` exactly.
* `C84_outputs_partial` (RoundedLoop.lean; pcq): With a time frequency `F > 0` and a first output after the start, in double precision: once the run passed the output time `k`, as the code computes it (`first + k F`, rounded twice), it has written a file at this time up to `(t_end - t_ini) / 2^51`; the exception of the time trigger is never raised. The output times are asked to be further apart than this (see `C84_separated`).
* `C84_separated` (RoundedLoop.lean; pcq): The output times are far enough apart if the frequency is not below `t_end / 2^47`.
* `C84_extra_file` (RoundedLoop.lean; pcq): A file too many, with every rounding to nearest: `first_output = 0.7`, `time_output_frequency = 0.1`, `t_end = 0.8`. In exact arithmetic the files are at 0, 0.7 and 0.8. In double precision 0.7 + 0.1 is the number below 0.8, so that the run writes a file there, makes one more step of `2^-53` and writes another file at 0.8.
* `C84_end_missed` (RoundedLoop.lean; pcq): The last iteration can end beside `t_end`: with the default rounding, from `t = 1/4 + 2^-53` a run to `t_end = 3/2 + 2^-52` ends at `3/2`.
* `C84_stagnation` (RoundedLoop.lean; pcq): Time can stand still: from `t = 1` to `t_end = 2` with steps of `2^-54` (positive, so that C39 asks for progress) every iteration leaves `t = 1`, and only `max_iter` ends the run. With every rounding to nearest.

### C85 A uniform flow stays uniform bit by bit — partial

On a Cartesian grid without gravity and pressure fix, a state with the same density, momentum, energy and scalars in all cells, advanced with rounded operations in the order of the code, is the same state, bit by bit, in every cell and ghost cell after any number of iterations, on any process grid; boundaries are periodic, null gradient, or reflexive across directions without momentum.

* *Modelled*: Model/Ordered, Model/KernelRun as in C82 and C83; Model/DoubleArith: `FinDbl`, `dblArith` (operations on finite doubles, rounded); Lemmas/CalmFlow: `ZeroLaws`.
* *Proof*: differences of equal numbers are 0, so slopes and flux differences vanish whatever the fluxes are (opposite faces of a Cartesian cell have the same area, computed by the same operations); boundary conditions keep a constant array; iterations by `kIter_holds` of C82. Rounding to nearest has the laws (`dblArith_zeroLaws`). Violation: 0.11 * 5 / 5 is the next double, in a run on two processes.
* *Result*: Proved for every arithmetic with the laws of 0 that rounding has, and for doubles with any rounding to nearest: density, momentum and energy stay bit by bit over whole runs on any process grid; scalars follow x*rho/rho, clamped; scalars 0 and 1 stay. Violated for other scalars: 0.11 in density 5 changes in the first iteration (C85_scalar_violated). Missing: overflow to infinities, spherical geometry, gravity, pressure fix.
* `C85_uniform_flow_partial` (CalmFlow.lean; pcq): A uniform flow: all cells hold the same density, momentum, energy and scalars, on a Cartesian grid (of any cell sizes) without gravity and without pressure fix, any limiter, any of the three solvers, any equation of state, boundary conditions periodic, null gradient or reflexive (the latter across directions without momentum, `-(rhou) = rhou`). The operations are performed in the order of the code and need only satisfy `ZeroLaws` - `x - x = 0`, `x + 0 = x`, `x * 0 = 0` and the like for finite numbers - which rounded operations do; nothing is assumed of sums and products of other numbers. The numbers of the flow are finite (`FiniteGrid`, `FiniteState`, `FiniteStep`). Then a run on any process grid holds, after any number `i` of iterations, in every cell, ghosts included, bit by bit the same density, momentum and energy as at the beginning, and the scalars follow `x * rho / rho`, clamped to [0, 1], once per iteration. The full statement is that the scalars stay as well; it fails (`C85_scalar_violated`).
* `C85_uniform_flow_double_partial` (CalmFlow.lean; pcq): The same when the numbers are the finite `double`s and every operation rounds its result to nearest, with any rule for ties, on a grid with increasing nodes. (The type has no infinities and NaN: a division by 0, as for density 0, is a number here, and the statement says nothing about such a run of the machine. What has to be finite is spelled out in `C85_uniform_flow_partial`.)
* `C85_pure_scalars` (CalmFlow.lean; pcq): In double precision the scalars 0 and 1 stay as they are: with them the whole uniform state is kept bit by bit.
* `C85_scalar_violated` (CalmFlow.lean; pcq): violated.** The statement that a uniform flow stays as it is bit by bit fails for the scalars, whichever way the machine breaks ties of its rounding to nearest: a periodic tube of 8 cells on two ranks, density 5, a mass fraction 0.11, any velocity, pressure, solver, limiter and equation of state. The density, momentum and energy stay, and the mass fraction is another `double` in every cell after the first iteration, although nothing moves relative to anything.

### C86 A restart gives the numbers of the uninterrupted run — partial

A run that is stopped, written to a file and restarted from it holds, after the same number of iterations, bit by bit the same numbers as the run that was not interrupted; with the operations of the machine, which round to nearest.

* *Modelled*: Model/KernelRestart: `kReload`, `kRestart` (conversion to primitive variables on the whole array, file, conversion back without ghosts); Model/Ordered, Model/DoubleArith, Model/KernelRun.
* *Proof*: relative errors are counted as numbers of roundings (`Near`, Lemmas/Relative): two for a momentum, twenty for the energy, where no cancellation enters because the internal and the kinetic energy are both positive. Violation: 29 / 7 * 7 in doubles, in a uniform flow that by C85 keeps its numbers otherwise.
* *Result*: violated: C86_restart_violated (a run that stops and restarts has another momentum in every cell than the uninterrupted one, for every rounding to nearest). Proved: density and scalars are kept bit by bit, momentum to 3/2^53 and energy to 21/2^53 of itself per restart (perfect gas). How such a difference grows in the iterations after the restart is not bounded.
* `C86_restart_close_partial` (RestartBits.lean; pcq): In double precision, for a perfect gas with positive constants: a state that goes through a file and a restart keeps its density and scalars bit by bit; every component of the momentum changes by at most 3 / 2^53 of itself and the energy by at most 21 / 2^53 of itself, in all cells where the density is positive and the internal energy that the code computes is not negative, whichever way ties are rounded and on any process grid. The full statement is that nothing changes; it fails (`C86_restart_violated`).
* `C86_restart_violated` (RestartBits.lean; pcq): In double precision, whichever way the machine breaks ties of its rounding to nearest: a periodic tube of 8 cells on two ranks with density 7 and momentum 29 everywhere, any energy, solver, limiter, equation of state and time steps. The uninterrupted run has momentum 29 in all cells after any number of iterations. The run that stops after `i` of them, writes its file, restarts from it and goes on for `j` more has momentum 8162774324609025 / 2^48 = 29.000000000000004 in all cells.

### C87 Sums over threads and processes do not depend on how the cells are distributed — partial

Integrals over the domain (mass, energy) and the internal mass that gives the gravity are the same numbers on every process grid, for every distribution of the cells over threads and every order in which partial sums are joined; with the operations of the machine, which round to nearest.

* *Modelled*: Model/RoundedGravity: `JoinTree` (any tree of joins), `oIntegrate`, `oShellSums`, `oShellTotals`, `oScanBlock`, `oMassProfile`, `oGravityFromMass`, `oInternalMass` over any arithmetic; Model/DoubleArith.
* *Proof*: every reduction is a tree of joins over sequential sums of workers, chosen freely; relative errors are counted as numbers of roundings (`Near`): a term that goes through q additions carries at most q of them, because all terms are positive. Violations: the doubles 0.4, 0.6, 0.1, 0.1 summed from left to right and by pairs; the difference survives the mean, the shell volume, G and the division by the square of the radius.
* *Result*: violated: C87_integral_violated (1.2000000000000002 on one process, 1.2 on two), C87_gravity_violated (the gravity of one shell differs in the last digit, with the constants of the code). Proved: integrals of quantities that are not negative are within (q+2)/2^53 of the exact one, gravities on two distributions within (4q+2s+13)/2^53 of each other, where a cell goes through at most q additions and a shell through at most s. Quantities of either sign, where sums cancel, have no such bound.
* `C87_integral_partial` (RoundedGravity.lean; pcq): In double precision, on any process grid, with any distribution of the cells over workers and any order of joining, the integral of a quantity that is not negative differs from the exact one by at most `q + 2` units of 2^-53 of it, where every cell goes through at most `q` additions. The full statement is that the number does not depend on the distribution at all; it fails (`C87_integral_violated`).
* `C87_integral_violated` (RoundedGravity.lean; pcq): The integral of the densities 0.4, 0.6, 0.1, 0.1 is 1.2000000000000002 on one process and 1.2 on two, for every rounding to nearest.
* `C87_gravity_partial` (RoundedGravity.lean; pcq): In double precision, for densities and central mass that are not negative: two runs on different process grids, with different distributions over workers and different orders of joining, compute gravities that differ by at most `4 q + 2 s + 13` units of 2^-53 of themselves; where every cell goes through at most `q` additions and every shell through at most `s`. In the inner ghosts they are equal. The full statement is that they are equal everywhere; it fails (`C87_gravity_violated`).
* `C87_gravity_violated` (RoundedGravity.lean; pcq): One shell of four cells with densities 0.4, 0.6, 0.1, 0.1 and volumes 1, the constants `G` and pi of the code, no central mass, radius 1: the gravity is -6489262052280249 / 2^86 on one process and -6489262052280248 / 2^86 on two processes along direction 1, for every rounding to nearest.

### C88 The processes never wait for each other forever, and end with the results of the program in step — proved

In a run on several processes, each executes its own copy of main with its own variables and its own clock, and meets the others only in MPI calls. Whatever the speed of the processes and whatever the MPI library buffers, no execution comes to a point where processes that have not ended all wait; the number of calls is bounded; when all have ended, every process has the same status, time and counters, holds its part of the fields, and the files are those of the program in which all processes run in step. Executions on different process grids end with the same fields and files.

* *Modelled*: Model/Messages: `Act`, `Net`, `NetStep` (one rank does one thing: posts, receives, leaves an exchange, enters or leaves a collective call; with or without buffering); Model/RankProgram: `RankEnv.next` (main.cpp 305-568 as one rank executes it, cut at its calls of MPI), `startFresh`, `startRestart`; Spec/Lockstep, Spec/RankFiles.
* *Proof*: for any network: if the ranks in step come to an end, every execution follows them (the state and the contributions of each rank are determined by the number of calls it has made, the messages under way are those between the positions of sender and receiver), a rank with the fewest calls can always go on, and each call takes three steps (Lemmas/Messages); then the ranks in step are the program on all ranks, call by call: exchange of each face, reductions, broadcast, outputs (Lemmas/RankProgram); `max_iter` and C68 make it unconditional. `C88_own_clock`: the same loop without the broadcast of the clock does deadlock.
* *Result*: Proved for main.cpp 305-568 with the modelled kernels: any interleaving, any buffering, any clocks. MPI itself is a model (messages of one pair and tag do not overtake each other, a collective call ends when the needed contributions are there). The grid shift and the MPI calls before line 305 are not part of it; exact arithmetic.
* `C88_fresh` (Messages.lean; pcq): A run for which the program in step is defined and comes to an end in the state `z` (finished, or failed with an exception). Let the processes run on their own, with any interleaving of what they do, any buffering of messages, any previous contents of their memory, and each with its own clock: every execution is bounded, some process can always go on until all have ended, and then each process has the loop variables and the fields of `z`, what they have written are the files of `z`, and no message is left.
* `C88_restart` (Messages.lean; pcq): **C88**, restart from the file `f`.
* `C88_every_execution` (Messages.lean; pcq): **C88**, with C68. On every process grid on which each rank owns at least `ng ≥ 2` cells in each active direction, from initial arrays that represent the primitive variables `S`, `Fx` of the domain, the executions do come to an end, without undefined behaviour. The executions on two process grids, with the same answers of the clock of their first ranks, end with the same status, time, counters, fields and files.
* `C88_own_clock` (Messages.lean; p): Why the answer of the clock is broadcast: with the clock of one process ahead by a turn, the other process waits forever.

### C89 The shipped input files and the parameters of the setups give the runs they describe — partial

Every input file that comes with the code is accepted and gives the run it describes: grid, times, outputs, slopes, solver, boundary conditions and their order, gas, heating, moving grid, and the parameters of its setup. For any file, every parameter of every setup is the number the file gives for its key, or its default; what the file writes takes effect.

* *Modelled*: Model/Inputs: the 21 files of inputs/, line by line; Model/SetupParam: `ParamSetup` of the 16 setups; Model/SetupInit: the initialisations with these parameters; Model/Ini, Model/Param as in C57 and C76; Spec/Inputs: the described runs.
* *Proof*: the reader of inih applied to each file is computed by the kernel with an equal table parser (`reader_table`, Lemmas/IniTable); the configuration is then evaluated with exact decimal numbers. For arbitrary files by C57 and C76. Violations by evaluation of the shipped texts.
* *Result*: Proved: 18 of the 21 files in inputs/ are accepted and give the run they describe (one theorem per file, from the text of the file); for any file the parameters of every setup are the numbers of the file or the defaults (C89_setup_params); what is written under an unknown key has no effect (C89_unknown_key); the initial state of a shock tube from the file (C89_shock_tube_start). Violated: gresho_vortex.ini and kelvin_helmholtz.ini are refused because the order of the faces is written with names that are not known (C89_gresho_vortex_violated, C89_kelvin_helmholtz_violated; accepted with the known names, C89_with_known_names), example_init.ini is refused (C89_example_init_violated); three files write keys that are not read (C89_shipped_keys_ignored_violated); four parameters are read and have no effect on the initial state (C89_no_effect_violated). Missing: the tables of user-defined grids and of v1d, rounding of the numerals.
* `C89_setup_params` (Inputs.lean; pcq): every parameter of every setup is the number that the file gives for its key, or the default (1; 100 for the temperature of `eq_hydro_sphe`; 0 for the velocity and the index of `v1d`) when the file does not write it.
* `C89_gresho_vortex_violated` (Inputs.lean; pcq): inputs/gresho_vortex.ini is refused. It writes the order of the faces with the names of its other keys (`X0_left`), while the order is read with the names `X_left`, `Y_left`, … Its parameters are readable.
* `C89_kelvin_helmholtz_violated` (Inputs.lean; pcq): inputs/kelvin_helmholtz.ini is refused for the same reason.
* `C89_with_known_names` (Inputs.lean; pcq): with the names that the order is read with, the two files would be accepted: the conditions are applied from the last written to the first.
* `C89_example_init_violated` (Inputs.lean; pcq): inputs/example_init.ini, the file that lists the keys, is refused: the value of `restart` it shows is no boolean.
* `C89_unknown_key` (Inputs.lean; pcq): what a file writes under a key that is not known to the code has no effect, neither on the run nor on the parameters of any setup.
* `C89_shipped_keys_ignored_violated` (Inputs.lean; pcq): three shipped files write keys that the code does not know: `timeout` in shock_tube1d_sph.ini (the end of the run is `t_end`, by default also 0.2), `u0` in kelvin_helmholtz.ini, the `type` of gravity in rayleigh_taylor3d.ini. Whatever is written there changes nothing.
* `C89_no_effect_violated` (Inputs.lean; pcq): four parameters are read from the file and have no effect on the initial state: the amplitude `A` of the 2-D Rayleigh-Taylor setup (the perturbation has the fixed amplitude 0.01), the pressures `P0` of the 3-D one and of `sedov2d`, the gravity `gx` of `stratified_atm`.
* `C89_shock_tube_start` (Inputs.lean; pcq): the initial state of a shock tube is the one that the file gives: `rho0`, `u0`, `P0` where the centre of the cell is at most `inter`, and `rho1`, `u1`, `P1` elsewhere.
* `C89_advection_gap` (Inputs.lean; pcq): inputs/advection_gap.ini is accepted and gives the run it describes.
* `C89_advection_sinus` (Inputs.lean; pcq): inputs/advection_sinus.ini is accepted and gives the run it describes.
* `C89_eq_hydro_sphe` (Inputs.lean; pcq): inputs/eq_hydro_sphe.ini is accepted and gives the run it describes.
* `C89_heat_nickel` (Inputs.lean; pcq): inputs/heat_nickel.ini is accepted and gives the run it describes.
* `C89_implosion_test` (Inputs.lean; pcq): inputs/implosion_test.ini is accepted and gives the run it describes.
* `C89_rayleigh_taylor` (Inputs.lean; pcq): inputs/rayleigh_taylor.ini is accepted and gives the run it describes.
* `C89_rayleigh_taylor3d` (Inputs.lean; pcq): inputs/rayleigh_taylor3d.ini is accepted and gives the run it describes.
* `C89_sedov1d` (Inputs.lean; pcq): inputs/sedov1d.ini is accepted and gives the run it describes.
* `C89_sedov2d` (Inputs.lean; pcq): inputs/sedov2d.ini is accepted and gives the run it describes.
* `C89_sedov3d_sph` (Inputs.lean; pcq): inputs/sedov3d_sph.ini is accepted and gives the run it describes.
* `C89_shock_tube` (Inputs.lean; pcq): inputs/shock_tube.ini is accepted and gives the run it describes.
* `C89_shock_tube1d_sph` (Inputs.lean; pcq): inputs/shock_tube1d_sph.ini is accepted and gives the run it describes.
* `C89_shock_tube3d_sph` (Inputs.lean; pcq): inputs/shock_tube3d_sph.ini is accepted and gives the run it describes.
* `C89_shock_wall_pg` (Inputs.lean; pcq): inputs/shock_wall_pg.ini is accepted and gives the run it describes.
* `C89_shock_wall_rad` (Inputs.lean; pcq): inputs/shock_wall_rad.ini is accepted and gives the run it describes.
* `C89_stratified_atm` (Inputs.lean; pcq): inputs/stratified_atm.ini is accepted and gives the run it describes.
* `C89_v1d_1d` (Inputs.lean; pcq): inputs/v1d_1d.ini is accepted and gives the run it describes.
* `C89_v1d_3d` (Inputs.lean; pcq): inputs/v1d_3d.ini is accepted and gives the run it describes.

### C90 A run that has computed an invalid number stops with an error — partial

As soon as a cell holds an invalid number (NaN: from 0/0, from the root of a negative number, from an overflow) the run ends with an error, instead of going on and writing files; a time step is a positive number and the time advances.

* *Modelled*: Model/Ieee: `Ieee` (binary64 with NaN, infinities, signed zeros, subnormal numbers), its operations, `ieeeArith`, `ieeeOps`; Model/Ordered and Model/KernelRun (kernels operation by operation, whole runs on a decomposition); Model/Reduce: `minInternalEnergy`; Spec/NanRun: `NanReach`, `stopsOn`.
* *Proof*: a NaN velocity or pressure makes the reconstructed and predicted states of its cell NaN, these the fluxes through its faces, these the densities of its neighbours (Lemmas/NanSpread, from the laws NaN op x = NaN and the branches of the solvers); induction over the iterations with C82's description of a decomposed run as a run of the global array. Maxima and minima of numbers with NaN are handled with an order key (Lemmas/NumKey). Violation: a tube of four cells with two empty ones.
* *Result*: Violated: a tube with a vacuum in the middle runs for any number of iterations, passes the check of the internal energy each time, holds NaN in all cells from the first iteration on and computes the time step -2^-1024 from the fourth on (C90_stops_violated). In general, for any initial state with a NaN velocity or pressure in one cell: the run goes on and NaN spreads by one face per iteration (C90_nan_spreads), to the whole domain with HLL and the low Mach solver, after which every time step is -2^-1024 (C90_nan_everywhere) and the time stands still (C90_clock_stands); an infinite rate gives the time step 0 (C90_infinite_rate). What holds: the check stops the run exactly when a cell whose internal energy is a number has a negative one (C90_energy_check_partial). Missing: with HLLC the spread towards larger indices, which depends on the speeds.
* `C90_nan_spreads` (NanRun.lean; pcq): Let a velocity or the pressure of a cell `g0` of the initial state be NaN (a density 0 with momentum 0, say). With IEEE `double`s, any limiter, equation of state, geometry, gravity, pressure fix, time step policy and decomposition, the run goes on for any number `i` of iterations, and from the first on the density is NaN in all cells up to `i` faces away from `g0`: in all directions with HLL and the low Mach solver; with HLLC, towards the smaller indices.
* `C90_nan_everywhere` (NanRun.lean; pcq): With HLL or the low Mach solver a single cell is enough: after as many iterations as the longest path through faces in the domain has steps, every density, ghosts included, is NaN. The run does not stop: it goes on for any number of iterations, and the time step of each of them is `1 / (-DBL_MAX) = -2^-1024`, because the largest rate leaves out NaN and starts from the lowest number.
* `C90_clock_stands` (NanRun.lean; pcq): With a time step `cfl * (-2^-1024)`, `cfl` up to 1, the time of main.cpp 530 stays what it was (if it is at least `2^-900`), and the tests of lines 367 and 377, `t + dt >= t_end`, give what they gave before: the run does not reach its end either. Only the number of iterations and the clock of the machine end it.
* `C90_infinite_rate` (NanRun.lean; pcq): As soon as the rate of one cell overflows or comes from a division by zero, that is if it is `+inf`, the time step of the iteration is zero, on every decomposition, and the run goes on.
* `C90_energy_check_partial` (NanRun.lean; pcq): The check of main.cpp 397-424 with IEEE `double`s, on any decomposition and partition of the loops (`parts`): it never meets a NaN (the test `isnan(min)` is never true), and it stops the run exactly when a cell whose internal energy is a number has a negative one. Cells with NaN count for nothing.
* `C90_stops_violated` (NanRun.lean; pcq): violated.** The statement that a run which has computed an invalid number ends with an error is false: a periodic tube of 4 cells on two ranks, at rest, density 1 and energy 1 in the outer cells, nothing in the two inner cells; HLL, any limiter, equation of state and time step policy. The check of the internal energy is passed before each of arbitrarily many iterations; from the first on, all densities are NaN; from the fourth on every time step is the negative number `-2^-1024`.

### C91 A symmetric problem stays symmetric bit by bit — partial

A problem that is its own mirror image along one axis, or stays the same when two axes are exchanged (grid, boundary conditions, gravity, initial state), stays so in the double precision numbers of the machine, bit by bit, for any number of iterations and on any process grid. More generally the run of a mirrored problem is the mirrored run.

* *Modelled*: Model/Ordered, Model/KernelRun as in C82; Model/DoubleArith (finite doubles) for the positive part; Model/Ieee with `Ieee.sqrt` (correctly rounded) and the perfect gas on IEEE doubles for the violations; Spec/MirrorBits: `SignLaws`, `KernelParams.Mirrored`.
* *Proof*: kernel by kernel (Lemmas/MirrorBits): each operation applied to mirrored operands gives the mirrored result, sums of two commute, and the first order scheme never adds three terms that change places; boundary conditions by the relabelling of C81, iterations by C82. Violations: the first iteration of a run on any decomposition is `firstStep` (C82), which the kernel evaluates in IEEE doubles at two cells.
* *Result*: Proved for whole runs on any two process grids: first order (constant reconstruction), HLL and low Mach solver, Cartesian grids, every dimension, equation of state, boundary condition but the user-defined one, mirrored gravity; for any arithmetic that treats signs symmetrically (C91_mirror_partial) and for finite doubles rounded to nearest (C91_symmetry_double_partial). Violated, each by a run in IEEE doubles of the perfect gas evaluated by the kernel, on every decomposition: with any of the three limiters with slopes (C91_limiter_violated), with HLLC (C91_hllc_violated), under exchange of axes (C91_axes_violated). Missing: infinities, NaN and the sign of zeros in the positive part; spherical geometry.
* `C91_mirror_partial` (MirrorBits.lean; pcq): Two runs of the code on a Cartesian grid, the second of which is the first one seen in a mirror that reverses direction `b`: the cell sizes, the gravity, the boundary conditions and the initial state are those of the first in the mirror. The operations are performed in the order of the code; they need only treat signs symmetrically (`SignLaws`), as operations that round to nearest do, and nothing is assumed about associativity or exactness. The scheme is of first order (constant reconstruction) with the HLL or the low Mach solver, without pressure fix, in any dimension, with any equation of state and any number of scalars. Then, on any two process grids, after any number of iterations, both runs have gone through the same time steps, and a cell of the second run, ghosts included, holds bit by bit what the mirrored cell of the first run holds, with the momentum along `b` reversed. The full statement has the other limiters, the HLLC solver and exchanged axes as well; it is false for them (`C91_limiter_violated`, `C91_hllc_violated`, `C91_axes_violated`), and with the pressure fix even in exact arithmetic (`C81_fix_mirror_violated`).
* `C91_symmetry_double_partial` (MirrorBits.lean; pcq): A symmetric problem in finite `double`s, with operations that round to nearest, symmetrically in the sign (the default rounding does, `roundDouble_neg`): cell sizes, boundary conditions and initial state are their own mirror images along `b`, and there is no gravity. First order, HLL or low Mach solver. After any number of iterations, on any decomposition, the state is its own mirror image, bit by bit. (As in `C85_uniform_flow_double_partial`, a division by 0 is a number here.)
* `C91_limiter_violated` (MirrorLost.lean; pcq): violated by the limiters.** The tube `symTube` (6 cells of size 1, periodic) is its own mirror image (`symTube_mirror`), and so is everything else. With any limiter except the constant reconstruction, HLL, a perfect gas with `gamma = 1.4` and the `double`s of the machine, it is no longer its own mirror image after one iteration with time step 1/8, on every decomposition: the densities of the first and the last cell are different. The limiters divide the slope on the right by the slope on the left (src/hydro/slope_limiters.hpp 40, 60, 81), and the mirror image divides the other way.
* `C91_hllc_violated` (MirrorLost.lean; pcq): violated by HLLC.** The same tube with the constant reconstruction and the HLLC solver: the numerator of the speed of the contact, `pR.P - pL.P + rcL * uL - rcR * uR` (src/hydro/riemann_solver.hpp 91), is added up from left to right, and the mirror image adds the same numbers in another order.
* `C91_axes_violated` (MirrorLost.lean; pcq): violated by exchanged axes.** The square `symSquare` (2 x 2 cells of size 1, periodic) stays the same when the two axes are exchanged (`symSquare_swap`). With the constant reconstruction and any solver it does not after one iteration with time step 1/8, on every decomposition: the densities of the cells (0, 1) and (1, 0) are different. The update adds the fluxes of the first direction before those of the second (src/hydro/godunov_scheme.hpp 125, 159).

### C92 Meshes and initial states in double precision are those of the exact formulas — partial

In double precision a regular mesh starts at the lower limit of the box, ends at its upper limit, has increasing nodes and centres inside the cells, and is the exact mesh up to rounding. The initial state of a shipped problem puts in every cell the state that the rule of the setup, applied to the exact coordinates of the cell, gives.

* *Modelled*: `compute_regular_mesh_1d`, `Regular::execute` (with the conversion of `int` to `double`), cell sizes and centres of `set_grid`, the initialisation loops of shock_tube, advection_gap, implosion_test and sedov2d, every operation in IEEE doubles (Model/InitBits.lean); the topology and `set_grid` of each rank as in C82..
* *Proof*: Mesh: relative errors of four roundings and monotonicity of roundings to nearest. Initial states: the values of the centres or nodes of the shipped files are computed by the kernel of Lean (`decide +kernel` over the 400 indices, which is the whole domain of the file); cells away from the line or the disc follow by monotonicity of rounded sums and square roots, cells on it are computed one by one; `startsAs_of` carries this to all process grids and orders of the loop.
* *Result*: Mesh, for all roundings to nearest: first node exact, nodes nondecreasing, error bound (C92_nodes), increasing nodes, positive sizes and centres inside the cells when the cells are larger than the rounding errors (C92_cells). Violated: the last node of 49 cells over [0, 1] is below 1 (C92_last_node_violated); cells of different sizes, nodes of a symmetric box not symmetric (C92_sizes_violated). Initial states in IEEE doubles, on every process grid: as in exact arithmetic for shock_tube.ini and advection_gap.ini (C92_shock_tube, C92_advection_gap). Violated: sedov2d.ini puts the energy E1 in three cells instead of one (C92_sedov2d, C92_sedov2d_violated), implosion_test.ini puts 86 of the 200 cells whose centres lie on the line x + y = 0.15 on the other side of the others (C92_implosion, C92_implosion_violated). Missing: the other setups, which call library functions (sin, exp, atan2) or generate irregular grids.
* `C92_implosion` (InitBits.lean; pcq): What the code writes for inputs/implosion_test.ini, on every process grid and for all values of the other parameters: cell `(i, j)` is outside when `i + j ≥ 200`, inside when `i + j ≤ 198`, and on the diagonal `i + j = 199`, whose centres lie on the line `x + y = 0.15`, 86 cells of 200 are outside.
* `C92_implosion_violated` (InitBits.lean; pcq): With the values of inputs/implosion_test.ini the state is not the one of the rule of the setup.
* `C92_sedov2d` (InitBits.lean; pcq): What the code writes for inputs/sedov2d.ini, on every process grid and for all values of the other parameters and every equation of state: the energy `E1` is put in three cells, `(199, 200)`, `(200, 199)` and `(200, 200)`, and `E0` in the others.
* `C92_sedov2d_violated` (InitBits.lean; pcq): With the values of inputs/sedov2d.ini the state is not the one of the rule of the setup: the energy `E1` goes to three cells instead of one.
* `C92_shock_tube` (InitBits.lean; pcq): For inputs/shock_tube.ini the state in double precision is the one of the rule of the setup in exact arithmetic, `x ≤ 0.5` at the centre `x` of the cell, on every process grid.
* `C92_advection_gap` (InitBits.lean; pcq): For inputs/advection_gap.ini the state in double precision is the one of the rule of the setup in exact arithmetic, `x ≤ 0.3` or `x ≥ 0.7` at the centre `x` of the cell, on every process grid.
* `C92_nodes` (MeshBits.lean; pcq): For every rounding to nearest, every box and every number of cells and ghosts that an `int` can hold, without overflow and underflow: the first node of the domain is exactly the lower limit of the box, the nodes never decrease, and every node is the exact one up to 6 units of the last digit of its distance to the lower limit, and one of the lower limit.
* `C92_cells` (MeshBits.lean; pcq): For every rounding to nearest, when the cells are larger than the rounding errors of the nodes: the nodes of cell `i` (of the domain and of the ghosts) are different, its size is positive, and its centre lies between its nodes.
* `C92_last_node_violated` (MeshBits.lean; pcq): The last node of the domain is not always the upper limit of the box: 49 cells from 0 to 1, in IEEE `double`s.
* `C92_sizes_violated` (MeshBits.lean; pcq): The cells of a regular mesh do not all have the same size in the arrays of the grid: 10 cells from 0 to 1. The mesh of inputs/sedov2d.ini, symmetric about the origin, is not symmetric in the arrays of the grid.

### C93 A change spreads over at most two cells per iteration — partial

Two runs whose initial states are the same in all cells up to 2 i faces away from a cell hold the same numbers in this cell after i iterations, if they make the same time steps; one face per iteration suffices at first order. Ghost cells, process borders, boundary conditions and the pressure fix do not carry anything farther.

* *Modelled*: `kRun` (Model/KernelRun.lean): the whole run of all ranks with opaque kernels. The distance (Spec/Locality.lean) counts faces, around periodic directions either way..
* *Proof*: Each kernel call is followed to the cells it reads (`kRecVal_reads`, `kStepVal_reads`); the source of a ghost filled by a condition is not farther from a cell of the domain than the ghost itself, by induction over the faces in the order in which they are filled (`bcGlob_near`); then induction over the iterations of the global array. The runs of the two other theorems are computed by the kernel of Lean in IEEE doubles.
* *Result*: Proved for all kernels and any arithmetic, two decompositions, built-in conditions, any number of iterations, two cells per iteration or one at first order, given equal time steps (C93_domain_of_dependence). The two cells are reached: a run in IEEE doubles with minmod and HLL (C93_two_cells_reached). Without the hypothesis on the time steps the statement is false: the energy of a cell four faces away changes the first time step and with it the result everywhere (C93_time_step_violated). Missing: the internal mass gravity, which depends on the state of all cells; user-defined conditions; the shift of the moving grid and the user step.
* `C93_domain_of_dependence` (Locality.lean; pcq): The numbers are of any type and what the kernels compute is arbitrary (rounding, NaN, any limiter, solver, equation of state, geometry, with or without pressure fix). Take two runs on any two decompositions, with the same parameters, a gravity that does not depend on the state, boundary conditions periodic on both or none of the faces of a direction and conditions applied on all other faces, that made the same time steps (`hist`). If the initial states are the same in all cells up to `2 i` faces away from `g`, then `i` iterations later the two runs hold the same numbers in `g`, on whichever rank: a change spreads over at most two cells per iteration, around periodic directions too, not through boundaries. With a first order reconstruction (`e = 1`) it spreads over one.
* `C93_two_cells_reached` (LocalityBits.lean; pcq): IEEE `double`s, minmod and HLL, a periodic tube of 8 cells at rest with a hot cell 4, Courant number 1/2, on any decomposition: two states that differ only in cell 2 make the same first time step and differ after it in cell 0, two faces away.
* `C93_time_step_violated` (LocalityBits.lean; pcq): The same tube: the energy of the hot cell 4, four faces away from cell 0 on either side, changes the first time step of the whole tube and with it what the first iteration leaves in cell 0. What happens in one cell acts at once on all others, through the common time step.

### C94 A linear density or mass fraction in a uniform wind is carried without error over whole runs — proved

With exact arithmetic on any Cartesian mesh, any limiter other than Constant, any solver, no gravity, a perfect gas and any decomposition, a state of uniform velocity and pressure with a density linear in the positions of the cell centres evolves, in the cells that the boundaries cannot have reached, into the same profile displaced by the wind times the elapsed time; the same for a mass fraction in a fluid of uniform density.

* *Modelled*: `kRun` (Model/KernelRun.lean) with the kernels of exact arithmetic (`exactKernels`): the whole run of all ranks, Cartesian geometry, no pressure fix. Spec/Ramp.lean: `linearProfile`, `cellCentre`, `runTime`, `Deep`..
* *Proof*: The run is a sequence of iterations of the global array (`kRun_global`, C93). Limiters return the common slope (C22), the predictor moves the profile by half a step (C63), so that the two states of a face are the same and every solver returns the physical flux (C24); the flux difference then moves the profile by the whole step (`linear_step`). Induction over the iterations, on the cells that lose two layers per iteration.
* *Result*: Density: C94_linear_density_carried (energy per volume a function of pressure only, as for the perfect gas). Mass fractions with uniform density, any equation of state: C94_linear_fraction_carried. Cells closer than two per iteration to the faces of the domain are left out, because the built-in boundary conditions do not continue a slope. That the limiter Constant is excluded is necessary: C94_first_order_violated.
* `C94_linear_density_carried` (Ramp.lean; pcq): Exact arithmetic over any ordered field, any Cartesian mesh (uniform or not), any limiter with slopes, any of the three solvers, no gravity, a gas whose energy per volume depends on pressure only (perfect gas), any decomposition, boundary conditions and time step policy. The initial state has the uniform velocity and pressure `w` and a linear density. Then any number `i` of iterations completes, and in all cells at least `2 i` cells away from the faces of the domain the run holds, without any error, the exact solution: the same velocity and pressure, and the density moved by the wind for the time reached, whatever the time steps, even larger than those the stability condition allows. Asked of the data: time steps are not negative, and the exact density is positive in the domain up to the time reached.
* `C94_linear_fraction_carried` (Ramp.lean; pcq): The same with a uniform density, any equation of state and a mass fraction `f` that is linear and, in the middle of the cells of the domain, in `[0, 1]` at all times reached: it is carried exactly, and density, velocity and pressure stay.
* `C94_first_order_violated` (Ramp.lean; pcq): All the same with the limiter `Constant` and HLLC: one step of the tube leaves the first of the longer cells with the density `90.5 + 1/15` instead of `90.5 + 1/10`.

### C95 Units and physical constants have the value and the dimension of their name — partial

In units.hpp each unit and each constant is the number of the quantity it names, whatever the sizes chosen for the base units (kilogram, metre, second, kelvin): it has the right value in SI units and scales with the base units as its dimension says. The pressure of the perfect gas is the same physical pressure in all base units. The code violates this for all cgs quantities, the Hubble constant, the radiative constant and with it the radiative gas, and the value of the proton mass; with the base units of the code, all equal to 1, only the last one has an effect.

* *Modelled*: Model/Constants: units.hpp line by line as functions of the four base units; the pressures of perfect_gas.hpp and rad_gas.hpp with these constants. Spec/Constants: `Dim`, `IsQuantity`..
* *Proof*: Field arithmetic for each constant; bounds of π for the radiative constant; witnesses with other base units, where a quantity with a dimension would be in another ratio to its shipped value (`not_isQuantity`).
* *Result*: Proved for the mechanical units, the constants but the radiative one, the units of time and astronomy (C95_si, C95_astronomy), the perfect gas (C95_perfect_gas); cgs quantities, Hubble and radiative constant in the base units of the code only (C95_cgs_shipped, C95_radiative_shipped). Violated in other base units: C95_cgs_violated, C95_hubble_violated, C95_radiative_violated, C95_radiative_gas_violated; violated as shipped: the proton mass (C95_proton_mass_violated).
* `C95_si` (Constants.lean; pcq): the units of mechanics and the constants of physics and astronomy of the SI are the numbers of the quantities they name in any base units: each has the value and the dimension of its name. The Boltzmann and Planck constants, the speed of light and the electronvolt are the exact values of the SI of 2019.
* `C95_astronomy` (Constants.lean; pcq): the units of time and of astronomy: a day has 86400 seconds, a year 365.25 days, the multiples of the year and of the parsec are what their prefixes say.
* `C95_cgs_shipped` (Constants.lean; pcq): the quantities of the cgs system and the Hubble constant are right in the base units of the code, kilogram, metre and second.
* `C95_cgs_violated` (Constants.lean; pcq): lines 44-45 divide the gram and the centimetre by the size of the kilogram and of the metre instead of multiplying by it. In other base units none of the quantities of the cgs system has the dimension of its name.
* `C95_hubble_violated` (Constants.lean; pcq): line 94 has no time in the Hubble constant, which has the dimension 1 / time.
* `C95_radiative_shipped` (Constants.lean; pcq): the radiative constant of the code is the one of physics, `7.5657e-16 J / (m³ K⁴)`, in the base units of the code.
* `C95_radiative_violated` (Constants.lean; pcq): the Boltzmann and Planck constants and the speed of light carry their units already, so that the factor `Joule / (m3 * K4)` of line 75 counts those of the radiative constant twice.
* `C95_perfect_gas` (Constants.lean; pcq): the pressure of the perfect gas is the same pressure in all base units.
* `C95_radiative_gas_violated` (Constants.lean; pcq): the pressure of the radiative gas is not, for any positive temperature, since its radiative constant is not.
* `C95_proton_mass_violated` (Constants.lean; pcq): the proton mass of line 61 is not the one of CODATA 2018, `1.67262192369e-27 kg` (nor of any set of constants since 1986): it is too large by 16 millionths, where the atomic mass unit of line 67 is given to eleven digits. Temperatures of both gases carry this factor.
* `C95_shipped` (Constants.lean; pcq): The constants used by the other models are those of the code in its own base units.

### C96 Mass fractions do not act on the gas nor on each other — proved

Two runs that differ only in the number and the values of the mass fractions compute, bit by bit, the same density, momentum, energy and time steps, and the same values of the fractions they share, whatever the other fractions hold (NaN included): fractions can be added, left out, exchanged and doubled without any effect on the rest.

* *Modelled*: `kRun` (Model/KernelRun.lean) with the kernels of the code operation by operation (Model/Ordered.lean) on any type of numbers; the number of mass fractions is a parameter. Spec/Passive.lean: `SameFlow`, `Fields.pick`..
* *Proof*: Each kernel commutes with the choice of some of the fractions (`orderedKernels_picks`), so does an iteration of the global array (`kStepVal_pick`, `bcGlob_pick`); the time step is a fold of the same numbers in the same order (`kTimeStep_value`).
* *Result*: C96_fractions_apart: any arithmetic. The two runs share the process grid and the order of the reductions; user-defined boundary conditions and user steps that read the mass fractions (heating with composition) are left out, gravity must not look at the fractions.
* `C96_fractions_apart` (Passive.lean; pcq): The kernels of the code, operation by operation, with any operations on numbers (exact, rounded, IEEE with NaN and infinities). Take two runs with `n` and `n'` mass fractions, the same other choices, on the same process grid with the same orders of reduction (the orders of the other loops and of the messages may differ), and a gravity that does not look at the mass fractions. If the two start from the same density, momentum and energy, and the fraction `σ i` of the first from the same values as the fraction `σ' i` of the second, for each `i < m`, then any number of iterations completes in both, with the same time steps, and all ranks hold bit by bit the same density, momentum, energy, and fractions `σ i` and `σ' i`. So mass fractions, their number and their values (NaN included) do not act on the gas (`m = 0`), they do not act on each other, and they can be added, left out, exchanged and doubled.

### C97 Mass fractions that add up to one keep doing so — partial

In exact arithmetic, if the mass fractions of some species add up to one in all cells at the start, they do after any number of iterations. This holds for two species with any limiter, and for any number with the constant reconstruction as long as nothing is clamped; the code violates it for three species with a limiter.

* *Modelled*: `kRun` with the kernels of exact arithmetic for the proofs, with the kernels operation by operation on IEEE doubles for the counterexample. Spec/Fractions.lean: `Fields.Whole`..
* *Proof*: The sum of the partial masses satisfies the equation of the density where the fractions on the faces add up to one; a limiter is odd, so the faces of `1 - x` are those of `x` (`reconFace_one_sub`), and the clamp of `1 - x` is one minus that of `x`. Induction over the iterations. Counterexample by evaluation in the kernel of Lean.
* *Result*: Proved in exact arithmetic for two fractions (C97_two_fractions_partial) and for any number with the reconstruction Constant when nothing is clamped (C97_first_order_partial), as long as no density comes out as zero. Violated for three fractions with a limiter (C97_three_violated): the sum exceeds 1.01 after one iteration.
* `C97_two_fractions_partial` (Fractions.lean; pcq): Exact arithmetic over any ordered field, any limiter, solver, equation of state, geometry, mesh, gravity, boundary conditions and decomposition, with or without pressure fix. Two mass fractions that add up to one in all cells at the start still do in all cells, ghosts included, after any number of iterations, as long as no density came out as zero.
* `C97_first_order_partial` (Fractions.lean; pcq): With the reconstruction `Constant`, any number of mass fractions that add up to one still do after any number of iterations, as long as no density came out as zero and no fraction had to be brought back between 0 and 1.
* `C97_three_violated` (FractionsLost.lean; pcq): violated with three mass fractions and slopes.** Six cells of size 1, periodic, density, speed and pressure 1, three mass fractions that add up to exactly one in each cell (`threeSpecies_sum`). With any limiter except the constant reconstruction, any solver and the `double`s of the machine, after one iteration with time step 1/4 the three fractions of cell 2 add up to more than 1.01, on every decomposition. Each fraction is limited alone (src/hydro/hydro_reconstruction.hpp 105-109): where the limiter takes the slope of one of them from the left and that of another from the right, the fractions on the face do not add up to one, and the update divides by the density alone (src/hydro/godunov_scheme.hpp 294-301).

### C98 A flow that does not depend on the last coordinate is computed as in one dimension less — partial

In exact arithmetic on a Cartesian grid, a run in two (three) dimensions that starts from a state of a run in one (two) dimensions repeated along the new axis and at rest in it, with the same time steps, holds that run repeated along the new axis after any number of iterations, whatever the decompositions and the conditions on the new faces. The time steps of the code differ: each cell adds its speed of sound over its new size. With the pressure fix the code violates the claim on new axes with cells of two sizes.

* *Modelled*: `kRun` with the kernels of exact arithmetic, once in `d` and once in `d + 1` dimensions. Spec/Slab.lean: `Fields.lift` (same gas, no momentum along the new axis), `Over` (same indices but the new one)..
* *Proof*: Each kernel takes lifted states to lifted states (`toPrim_lift`, `Solver.flux_lift`, `hancock_slab`, `godunov_slab`, `fix_slab`); the two faces along the new axis carry the same flux, and the ratio of areas to volumes along the old axes does not see the new size (`slabGeo`, `area_ratio_slab`). Boundary conditions on the new faces change nothing (`bcGlob_slab`). Both runs follow global arrays (`kRun_global`), and an induction compares these. Counterexample by evaluation in the kernel of Lean.
* *Result*: Proved in exact arithmetic on Cartesian grids for runs that take the same time steps, any decompositions (C98_slab). The time steps of the code are not the same (C98_rate). With the pressure fix and cells of two sizes along the new axis it is false: a uniform stream loses energy (C98_fix_violated). Rounding, spherical grids, user-defined conditions left out.
* `C98_slab_partial` (Slab.lean; pcq): Take a run in `d` dimensions (1 or 2) and a run in `d + 1` dimensions on a Cartesian grid, exact arithmetic, the same other choices (any limiter, solver and equation of state, with or without the pressure fix), the same nodes along the old axes and any nodes along the new one (equal cells if the fix is on), any built-in conditions at the two new faces, in any place of the order of faces, and any decompositions, which may have nothing to do with each other. The second run starts from the state of the first repeated along the new axis, at rest in it, and its gravity does the same. Then both runs complete, and if they take the same time steps all ranks of the second hold the state of the first repeated along the new axis, at rest in it, ghost cells included. Full claim: the same for the runs as they are. What is missing: the time steps, which are not the same (`C98_rate`); the pressure fix on a new axis with cells of different sizes, for which it is false (`C98_fix_violated`); rounding.
* `C98_rate` (Slab.lean; pcq): Under the same conditions the inverse time step of a cell is larger in `d + 1` dimensions, by the speed of sound over the size of the cell along the new axis: the time step of the second run is smaller, though nothing moves along the new axis.
* `C98_fix_violated` (SlabLost.lean; pcq): violated on a grid with cells of two sizes.** A grid of 4 by 4 cells, regular along the first axis, with cells of size 1 and then 2 along the second, periodic; a cold monatomic gas (density 1, internal energy 1/1000) that moves with speed 1 along the first axis, the same in all cells. In exact arithmetic, with any limiter and any solver, the step with time step 1/4 loses 1/2400 of energy, that is more than a third of the internal energy, in the cells before the change of size, on every decomposition; in one dimension the same stream does not change. The sums of the fix multiply the velocity along one axis with the face areas at the next cell along another (src/hydro/pressure_fix.hpp 139-156).

### C99 A velocity added along an axis nothing depends on is carried along and changes nothing else — partial

In exact arithmetic on a Cartesian grid without the pressure fix, let the flow be the same all along one axis. A run that starts from the same gas with a velocity added along that axis, takes the same time steps and meets no vacuum holds, after any number of iterations and in the ghosts too, the state of the first run with that velocity added: density, pressure, mass fractions and the other velocities are the same. The number and sizes of cells along the axis, its end conditions and the decomposition may differ. The time steps of the code do depend on the velocity: the inverse time step of a cell changes by the change of speed over the size of the cell.

* *Modelled*: Two runs of `kRun` with the kernels of exact arithmetic. Spec/Boost.lean: `Fields.boost` (the same gas with the velocity `w` added along `b`), `SameLine` (two cells on one line along `b`)..
* *Proof*: Conversion, fluxes and solvers commute with the boost across the axis (`toPrim_boost`, `fluxPrim_boost`, `hllcStar_boost`, `Solver.flux_boost`: the flux of momentum along `b` gains `w` times that of mass, the flux of energy `w` times that of momentum along `b` and `w²/2` times that of mass); along the axis both faces carry the same flux (`faceFields_level`). Predictor and update are linear in the fluxes (`hancock_add`, `godunov_add`), hence commute too, gravity included (`hancock_boost`, `godunov_boost`). Boundary conditions: `bcGlob_line`. Both runs follow global arrays (`kRun_global`), and an induction compares these (`LineRel`).
* *Result*: Proved in exact arithmetic on Cartesian grids for runs that take the same time steps, any decompositions (C99_boost_partial). The time steps of the code depend on the added velocity (C99_rate). With the pressure fix it is false (C98_fix_violated: a gas at rest stays as it is, the same gas in motion does not). Rounding, spherical grids, user-defined conditions left out.
* `C99_boost_partial` (Boost.lean; pcq): Take two runs on Cartesian grids in the same number of dimensions, exact arithmetic, any limiter, solver and equation of state (a lawful one for HLLC), without the pressure fix. Along an axis `b` the flow does not vary; the two runs may differ in the number and the sizes of the cells along `b`, in the conditions at the two ends of `b` (periodic or null gradient) and in the decomposition, and have everything else in common, gravity included, which does not vary along `b` but may point along it. The second run starts from the state of the first with the velocity `w` added along `b`. Both runs complete, and if they take the same time steps, and the first meets no vacuum, all ranks of the second hold the state of the first with `w` added along `b`, ghosts included: density, pressure, mass fractions and the other velocities know nothing of `w`. Full claim: the same for the runs as they are. What is missing: the time steps, which depend on `w` (`C99_rate`); the pressure fix, with which it is false (`C98_fix_violated`: a uniform gas, at rest unchanged by the fix, loses energy when it moves); rounding.
* `C99_rate` (Boost.lean; pcq): The inverse time step of a cell with the velocity `w` added along `b` differs by the change of the speed along `b` over the size of the cell.

### C100 Mass fractions stay between the extremes of their initial values, without slopes — partial

With the reconstruction Constant every mass fraction of every cell, ghosts included, lies at all times between the least and the greatest initial value of that fraction, as long as no cell gives away more mass than it has in one iteration; in particular the clamp to [0, 1] never acts and any number of fractions that add up to one keep doing so. Whole runs of the program on smooth Cartesian meshes with HLL or HLLC and a Courant number up to 1/(2 d) over the roughness of the mesh meet the condition, and so do the files they write. With any other limiter the code violates the claim below its own time step limit: a fraction leaves the range of its initial values, and the clamp then creates mass of the species.

* *Modelled*: `kRun` with the kernels of exact arithmetic, `progRun` for whole runs, and the kernels on IEEE `double`s for the violations. `KeepsMass`: the mass that leaves a cell in an iteration is at most the mass it holds..
* *Proof*: The new partial density of a cell is the sum of what stays and of what comes in, each with the fraction of its origin (`update_fx`, upwind choice by the sign of the mass flux); with weights that are not negative it lies between the extremes times the new density (`mix_lower`, `mix_upper`, `mix_mass`, `stepVal_within`), so that the clamp is the identity (`clamp_within`). The half step leaves the fractions alone when there are no slopes (`recVal_fx`). Boundary conditions copy fractions (`bcGlob_all`). Whole runs: the mass flux of HLL and HLLC is at most density times signal speed (`massFlux_bounds`), the invariant of C74 gives positive densities and pressures, and the time step of the loop bounds what leaves (`stepVal_fx_cfl`). Violations: one iteration on six cells computed by the kernel of Lean.
* *Result*: Proved without slopes: runs in which no cell gives away more mass than it has (C100_bounds_partial, C100_sum_partial), and whole runs of the program under a Courant condition (C100_run_partial). False with every other limiter, in doubles and below the time step of the code (C100_slopes_violated); the clamp then creates mass of the species (C100_mass_violated, Minmod and HLL). Rounding is left out of the positive part.
* `C100_bounds_partial` (MaxPrinciple.lean; pcq): Exact arithmetic over any ordered field, reconstruction `Constant`, any solver, equation of state, geometry, mesh, gravity, boundary conditions and decomposition, with or without pressure fix. A mass fraction that lies between `m` and `M` in all cells at the start, with `0 ≤ m` and `M ≤ 1`, does so in all cells, ghosts included, after any number of iterations, as long as no density came out as zero and no cell gave away more mass than it had. Full claim: with any limiter and without the last condition. That is false (`C100_slopes_violated`); `C100_run_partial` derives the last condition from the Courant number.
* `C100_sum_partial` (MaxPrinciple.lean; pcq): In the same setting any number of mass fractions, each between 0 and 1, that add up to one at the start still do after any number of iterations: the clamp never acts (compare `C97_first_order_partial`, which assumes that).
* `C100_slopes_violated` (MaxPrincipleLost.lean; pcq): violated with slopes.** Six cells of size 1, periodic; a gas of density 1 flows at speed 1 into one of density 32, all at the same low pressure. The mass fraction lies between 1/4 and 3/4 in each cell (`sharpMix_range`). With any limiter except the constant reconstruction, any solver and the `double`s of the machine, after one iteration with time step 3/4, below the limit of the code (`sharpMix_rate`), the fraction of cell 2 is below 0.23, on every decomposition. Density and fraction are limited separately (src/hydro/hydro_reconstruction.hpp 95-109): the right face of the cell carries the high density and the high fraction together, and what leaves holds more of the species than the average of the cell (src/hydro/godunov_scheme.hpp 260-302).
* `C100_mass_violated` (MaxPrincipleLost.lean; pcq): the clamp creates mass of a species.** The same gas with a species that is absent from the light gas (fraction 0) and alone in the heavy one (fraction 1), limiter `Minmod`, solver HLL. Cell 2 would lose more of it than it holds, the fraction comes out negative and is set to 0 (src/hydro/godunov_scheme.hpp 297-301): after one iteration the periodic box of size 6 holds over 0.1 more of the species than before.
* `C100_run_partial` (MaxPrincipleRun.lean; pcq): Constant reconstruction, HLL or HLLC, Cartesian grid, no gravity, no pressure fix and no heating, any boundary conditions other than user ones, any process grid. Let `κ` bound the ratio of the lengths of neighbouring cells and let the Courant number be at most `1 / (2 d κ)`. From an initial state of positive density and pressure whose mass fractions `s` lie between `lo s` and `hi s` in all cells, with `0 ≤ lo s` and `hi s ≤ 1`, at every turn so do those of all cells of the arrays, ghosts included, and of all files.

### C101 The ledger of a run: what the box holds is what it held plus what entered, plus weight and work of gravity, plus what the clamp added — proved

In exact arithmetic, after any number of iterations on any decomposition and with any boundary conditions, the mass of the domain is the initial mass plus, for each iteration, the time step times the mass flux of the solver through the faces of the boundary, times their areas. On Cartesian grids the same holds for each component of the momentum with the weight of the gas added, and, without the pressure fix, in all geometries for the energy with the work of gravity added. For the mass of a species the ledger has one more entry: in each cell and iteration, density times the change of the fraction by the clamp to [0, 1].

* *Modelled*: `kRun` with the kernels of exact arithmetic. Spec/Ledger.lean: `boxTotal`, `boxInflow`. `crossing`: area times flux of the solver between the extrapolated states at a face..
* *Proof*: The update of a cell is in conservative form with one flux per face (`cell_ledger`, from the definition of the kernel), the sums over the box telescope (`box_telescope`, `boxTotal_step`), an induction over the iterations (`boxTotal_run`); `kRun_global` connects the arrays of the ranks with one global array.
* *Result*: C101_ledger, for kRun with the kernels of exact arithmetic. Rounding is not treated; momentum in spherical geometry has source terms (C62) and is left out.
* `C101_ledger` (Ledger.lean; pcq): Exact arithmetic over any ordered field, any limiter, solver, equation of state, geometry, mesh with cells of volumes that are not zero, gravity, boundary conditions and decomposition. After any number of iterations the ranks hold in the cells of the domain one state `T`, and * the mass of the box is the initial one plus what entered through its boundary in each iteration, with or without the pressure fix; * on Cartesian grids the momentum is the initial one plus what entered plus the time step times the weight of the gas, at the beginning of each iteration; * without the pressure fix the energy is the initial one plus what entered plus the time step times the work of gravity on the momentum at the beginning of each iteration; * the mass of a species is the initial one plus what entered plus what the clamp to [0, 1] has added: density times the difference of the fraction after and before the clamp, as long as no density came out as zero.

### C102 What a uniform wind carries does not start to oscillate — partial

In one dimension on a periodic grid of equal cells, without gravity and pressure fix, in exact arithmetic: if velocity and pressure are uniform at the start, they stay so, the densities stay between the smallest and largest of the initial ones, and the sum of the jumps of density between neighbouring cells never increases, as long as the wind crosses at most one cell per step (HLLC). The same holds for a mass fraction in a fluid that is uniform, with every solver and limiter. In two and three dimensions the range is kept as well, as long as dt times the sum of |u_a| / dx_a is at most 1.

* *Modelled*: `kRun` with the kernels of exact arithmetic. Spec: `circleVar` (Verif/Spec/TotalVariation.lean), the sum of the jumps between neighbours on a circle..
* *Proof*: A step on such a state is `rowStep`, one number per cell (`wind_step`, `wind_fx_step`, from the prediction of C63 `carried_rec` and the exactness of the solvers on equal velocities and pressures). The new value lies between the value of the cell and that of the neighbour the wind comes from (`rowStep_between`), because the slopes of all limiters are at most twice each one-sided difference (`rowSlope_limited`). Hence the range (`rowStep_bounds`) and, jump by jump, the sum of the jumps (`circleVar_step`). Iterations: the global array is periodic (`bcGlob_wrap`), induction over `kRun_global`. Several dimensions: a step is a weighted mean of the profile of the cell at the foot of its centre and of what comes in through its windward faces (`wind_mean`); with MinMod the profile stays in the range of the data up to the centres of the neighbours, in the sum over axes (`profile_range`, `footPoint_near`). Whole runs: an iteration of the program is one of the kernels (`advance_plain`), and its time step times the sum of the velocities over the cell sizes is at most the Courant number (`glob_dt_sum`). Violations: evaluation over the rationals by the kernel of Lean.
* *Result*: Proved in one dimension on cells of equal size, range and sum of jumps: contact wave with HLLC (C102_contact_partial; for VanLeer and VanAlbada under hi < 2 lo, without it C102_lee_violated), mass fraction in a uniform stream with every solver and limiter (C102_fraction_partial). In one to three dimensions, periodic or open boundaries, the range is kept without slopes and with MinMod (C102_minmod_partial, C102_minmod_fraction_partial); with VanLeer and VanAlbada it is not (C102_diagonal_violated). Rounding is left out; the time step is a hypothesis weaker than the condition of the code. Whole runs of the program with its own time step and Courant number up to 1: C102_contact_run_partial, C102_fraction_run_partial, C102_minmod_run_partial, C102_minmod_fraction_run_partial.
* `C102_contact_partial` (TotalVariation.lean; pcq): A contact wave. Exact arithmetic over any ordered field, one dimension, periodic, cells of equal size `h`, solver HLLC, any limiter, no gravity, no pressure fix, a gas whose energy per volume depends on pressure only (perfect gas), any decomposition and any number of iterations. The initial state has a uniform velocity and pressure and the densities `r`, between `lo > 0` and `hi`. As long as the wind crosses at most one cell per step: velocity and pressure stay exactly uniform, all densities stay between `lo` and `hi`, and the sum of the jumps between neighbours does not increase. Partial: with VanLeer and VanAlbada it is asked that `hi < 2 lo`; otherwise the density extrapolated to the lee side of a cell can be negative (`C102_lee_violated`), and its speed of sound is not a number; the time step is a hypothesis (it is weaker than the condition of the code, which has the speed of sound added to the wind); in two dimensions the range is left (`C102_diagonal_violated`).
* `C102_fraction_partial` (TotalVariation.lean; pcq): A mass fraction in a uniform stream. Exact arithmetic over any ordered field, one dimension, periodic, cells of equal size `h`, any solver, any limiter, no gravity, no pressure fix, any equation of state that inverts, any decomposition and any number of iterations. The fluid has the same density, velocity and pressure in all cells and the mass fraction `f` has the values `r`, between `lo ≥ 0` and `hi ≤ 1`. As long as the wind crosses at most one cell per step: the fluid does not change at all, the fraction stays between `lo` and `hi`, and the sum of its jumps between neighbours does not increase. Partial: the time step is a hypothesis (weaker than the condition of the code); in two dimensions the range is left (`C102_diagonal_violated`).
* `C102_diagonal_violated` (TotalVariationLost.lean; pcq): violated.** A periodic grid of 4 by 4 cells of size 1, a fluid in uniform motion with velocity (1/16, 1) and pressure 1/1000, a mass fraction (or the density, `dense`) between 3/5 and 3/4. In exact arithmetic, with the limiters VanLeer and VanAlbada and the solver HLLC, one iteration with a time step that respects the condition of the code puts the cell (2, 1) above 3/4, on every decomposition. The limiter bounds the slope along each axis, while the prediction over half a time step (src/hydro/extrapolation_reconstruction.hpp 94-325) adds the slopes along all axes.
* `C102_lee_violated` (TotalVariationLost.lean; pcq): With the limiter VanLeer the density predicted at the side of a cell that lies away from the wind is negative: densities 100, 10, 1, a wind of velocity -1, cells of size 1, half a time step of 9/20. (In the code the speed of sound of that state is not a number.)
* `C102_minmod_partial` (WindRange.lean; pcq): In one, two and three dimensions, without slopes or with MinMod. Exact arithmetic over any ordered field, equal cells of sizes `h`, every boundary periodic or open (null gradient), solver HLLC, no gravity, no pressure fix, a gas whose energy per volume depends on pressure only (perfect gas), any decomposition and any number of iterations. If velocity and pressure are uniform at the start they stay exactly so, and the densities stay between `lo > 0` and `hi`, as long as `dt * ∑ |u_a| / h_a ≤ 1` (weaker than the condition of the code, in which the speed of sound is added to each velocity). Partial: the time step is a hypothesis; with VanLeer and VanAlbada the statement is false in two dimensions (`C102_diagonal_violated`).
* `C102_minmod_fraction_partial` (WindRange.lean; pcq): The same for a mass fraction in a fluid that is uniform at the start, with every solver.
* `C102_minmod_run_partial` (WindRun.lean; pcq): **C102, whole runs in one, two and three dimensions without slopes or with MinMod.** The program with HLLC on equal cells, Courant number at most 1, every boundary periodic or open, no gravity, no pressure fix, no heating, a gas whose energy per volume depends on pressure only, any process grid. If velocity and pressure are uniform at the start and the densities lie between `lo > 0` and `hi`, then at every turn this is so in all cells of the arrays, ghosts included, and in all files.
* `C102_minmod_fraction_run_partial` (WindRun.lean; pcq): a mass fraction in one, two and three dimensions without slopes or with MinMod.** As `C102_minmod_run_partial`, with any solver and any equation of state that inverts, for a mass fraction in a fluid of uniform density, velocity and pressure.
* `C102_contact_run_partial` (WindRun.lean; pcq): The program in one dimension with HLLC and any limiter, periodic, equal cells, Courant number at most 1, no gravity, no pressure fix, no heating, a gas whose energy per volume depends on pressure only, any process grid. If velocity and pressure are uniform at the start and the densities `r` lie between `lo > 0` and `hi` (with VanLeer and VanAlbada: `hi < 2 lo`), then at every turn and in all files velocity and pressure are exactly what they were, the densities lie between `lo` and `hi`, and the sum of their jumps is at most that of the start.
* `C102_fraction_run_partial` (WindRun.lean; pcq): The program in one dimension with any solver and any limiter, periodic, equal cells, Courant number at most 1, no gravity, no pressure fix, no heating, any equation of state that inverts, any process grid. If density, velocity and pressure are uniform at the start and the mass fractions `r` lie between `lo ≥ 0` and `hi ≤ 1`, then at every turn and in all files the fluid is exactly what it was, the fractions lie between `lo` and `hi`, and the sum of their jumps is at most that of the start.

### C103 The command line — partial

The second argument left by MPI and Kokkos is the configuration file; the last argument of the form --pdi-config=file after it names the file given to PDI, and the text compiled in the program is used when there is none; all other arguments have no effect; a command line without configuration file is answered by the usage message. The last point holds when MPI and Kokkos take nothing out of the command line; the code violates it for a command line of flags meant for Kokkos.

* *Modelled*: `launch` (Verif/Model/Launch.lean), the command line as a list of strings; what MPI_Init and Kokkos take out of it is a parameter. Spec: `LastOption`..
* *Proof*: The loop over the arguments is a left fold; induction from the end of the list. Null pointers made into strings are an outcome of their own.
* *Result*: Which files are read is proved for every command line (C103_options, C103_unknown_ignored). A missing configuration file is answered by the usage message when MPI and Kokkos take nothing out (C103_usage_partial); otherwise a null pointer is read (C103_flags_violated). An option before the configuration file is taken for it (C103_option_first_violated).
* `C103_options` (Launch.lean; pcq): Whatever MPI and Kokkos leave of the command line, when at least two arguments are left the second one is the configuration file; the file given to PDI is the one named by the last argument of the form `--pdi-config=file` after it; and the text compiled in the program is used exactly when there is no such argument or the last one names no file.
* `C103_unknown_ignored` (Launch.lean; pcq): Arguments that do not start with `--pdi-config=` may be added or removed anywhere after the configuration file without any effect: unknown options are never reported.
* `C103_usage_partial` (Launch.lean; pcq): no configuration file, no run.** The full claim, that a command line in which no configuration file is left is answered by the usage message, holds when MPI and Kokkos take nothing out of the command line: then the program starts exactly when there are two arguments or more, and a command line of one word is answered by the usage message. What is missing is `C103_flags_violated`.
* `C103_flags_violated` (Launch.lean; pcq): flags meant for Kokkos count as a configuration file.** The number of arguments is looked at before MPI and Kokkos take out their own: `heracles --kokkos-num-threads=4` passes the test, no configuration file is left, and the program makes a string of a null pointer instead of printing the usage message. The same holds for any number of flags meant for Kokkos.
* `C103_option_first_violated` (Launch.lean; pcq): the option before the configuration file.** Options are looked for from the third argument on only: `heracles --pdi-config=io.yml setup.ini` reads its configuration from a file called `--pdi-config=io.yml`, and PDI gets the text compiled in the program.

### C104 Resources are given back — partial

Whichever statement of the program throws an exception, no resource (MPI, Kokkos, the PDI tree, PDI, the two communicators of the grid, memory) is given back more often than it was taken, everything happens between MPI_Init and MPI_Finalize, and every resource taken has been given back when the program ends. The last point holds for MPI, Kokkos and memory always, for PDI, its tree and the Cartesian communicator when no exception is thrown; the code violates it for the others.

* *Modelled*: `mainStmts`, `runStmts`, `programRun` (Verif/Model/Launch.lean): the statements of `hclpp::main` reduced to the resources they take, own and give back; `throws` says which of them throw. Spec: `NeverTooMany`, `GivenBack`, `InsideMpi`..
* *Proof*: Only the first statement that throws matters (`runStmts_first`, by induction over the list of statements), so that a run with any `throws` is one of the 21 runs in which one statement or none throws; these are evaluated.
* *Result*: For every choice of throwing statements: nothing given back twice, MPI, Kokkos and memory always given back, all inside the life of MPI, and everything but the horizontal communicator on a run that ends normally (C104_resources_partial, C104_returned). False for PDI and its tree after an exception, for the horizontal communicator always, for the Cartesian communicator when the constructor of the grid throws (three _violated theorems).
* `C104_resources_partial` (Launch.lean; pcq): resources.** The full claim is that every resource taken is given back on every way out of the program. Whichever statements throw: nothing is ever given back that is not held; MPI, Kokkos and the memory are given back; nothing is taken or given back before MPI_Init or after MPI_Finalize; and the program returns 0 or 1. When it returns 0, PDI, the PDI tree and the Cartesian communicator have been given back as well. What is missing is in the three theorems that follow.
* `C104_returned` (Launch.lean; pcq): It returns 0 exactly when nothing throws.
* `C104_exception_violated` (Launch.lean; pcq): an exception leaves PDI open.** PDI and the tree are given back by plain calls at the end of the function: whenever an exception is thrown, whatever was taken of the two stays taken. With a parameter missing in the configuration file, both do, while MPI is finalized.
* `C104_horizontal_violated` (Launch.lean; pcq): the horizontal communicator is never freed.** On no way out of the program is the communicator made by MPI_Cart_sub given back; a run without exceptions takes it.
* `C104_grid_violated` (Launch.lean; pq): a grid that cannot be allocated.** When the constructor of the grid throws after the Cartesian communicator was made (statements 10 to 12: no memory for the views of the grid), its destructor does not run and the communicator is not freed.

### C105 Without slopes the computed density and mass fractions tend to the exact solution, at first order in the size of the cells, for a profile carried by a uniform wind — partial

In a periodic box with equal cells, without gravity and without slope reconstruction, let velocity u and pressure be uniform at the start and let the density be that of a smooth positive periodic profile r at the centres of the cells (HLLC, a gas whose energy per volume depends on the pressure only), or let density, velocity and pressure be uniform and a mass fraction be that of a smooth profile r (any solver). The exact solution of the Euler equations is the profile moved with the wind, r(x - (t - t0) u). At every turn of the main loop, with the time steps the program chooses itself, and in every file, the computed value in the cell with centre x differs from the exact one by at most 2 M (t - t0) sum_a |u_a| h_a, with h_a the sizes of the cells and M the bound of the second order remainder of r: the error tends to 0 with the cells, whatever the number of steps.

* *Modelled*: The whole program (`progRun`) with constant reconstruction. Spec: the moved profile at `cellCentre`, given by its gradient and the bound of its remainder; nothing of the scheme enters..
* *Proof*: On what a wind carries an iteration is an average of the cell and its upwind neighbours (`upwind_mean`, from the means of C102). The error of such an average on the exact solution is `2 M dt sum |u_a| h_a` (`upwind_error`), and averages do not enlarge errors; induction over the turns with the bounds of the time step (`runN_inv_dt`). Ghost cells are images of cells of the box, where the periodic profile has the same value. The example is a sine wave.
* *Result*: First order error bound against the exact solution for the whole program, uniform in the number of steps: density (HLLC) and mass fractions (any solver) carried by a uniform wind without slopes (C105_density_partial, C105_fraction_partial). Missing: limited slopes (second order), flows that are not a wind.
* `C105_density_partial` (Convergence.lean; pcq): Exact arithmetic, one, two or three dimensions, the whole program with its own time steps and outputs, HLLC without slopes, equal cells of sizes `h`, all boundaries periodic, Courant number at most 1, no gravity, no pressure fix, no heating, a gas whose energy per volume depends on pressure only, any process grid. The density at the start is that of a smooth periodic profile `r > 0` at the centres of the cells (`r` has a gradient, with second order remainder at most `M` times the squared distance); velocity `u` and pressure are uniform. The exact solution is `r (x - (t - tIni) u)`. At every turn, in every cell of every process (ghosts included) and in every file the density differs from it by at most `2 M (t - tIni) Σ_a |u_a| h_a`: an error that tends to 0 with the size of the cells, at first order, uniformly in the number of steps. Partial: with slopes, other flows, second order.
* `C105_fraction_partial` (Convergence.lean; pcq): As `C105_density_partial` for a mass fraction in a fluid of uniform density, velocity and pressure, with any solver and any equation of state that inverts.

### C106 With every limiter the computed profile tends to the exact one in the mean, also across jumps — partial

In one dimension, periodic, equal cells of size h, no gravity, no pressure fix: let velocity u and pressure be uniform at the start and the densities arbitrary (HLLC; with VanLeer and VanAlbada the largest density is below twice the smallest), or let all be uniform but a mass fraction (any solver). The exact solution carries the profile along with the wind. At every turn of the main loop, with the time steps the program chooses itself, and in every file, the sum over the cells of |computed value - mean of the exact solution over the cell| times h is at most 4 T sqrt((t - t0) |u| h), where T is the sum of the jumps of the data at the start. For data taken from a profile with Lipschitz constant Lp at the centres of the cells of a box of length L, the error as measured by the convergence test of the project (sum of |exact value at the centre - density| times h) is at most 4 Lp L sqrt((t - t0) |u| h) + Lp L h / 2.

* *Modelled*: The whole program (`progRun`) with any limiter. Spec: `movedMean` (Verif/Spec/WindError.lean), the mean over a cell of the piecewise constant data moved by a number of cells, and `circleVar`..
* *Proof*: Sums over the cells up to a face (primitives) are compared instead of the values: a step changes their error by at most the number of cells crossed times the sums of the jumps (`row_error_step`, which uses only that the value at a face is that of the cell upstream up to a jump), and the sum of jumps does not grow (C102). A row with a small primitive and a bounded sum of jumps is small (`row_interpolate`: compare each value with the mean over `k` cells, then choose `k`). The example is the project's own convergence test for any number of cells.
* *Result*: Proved for whole runs of the program in one dimension and any limiter: density with HLLC (C106_contact_partial, C106_profile_partial; VanLeer and VanAlbada under hi < 2 lo, which the shipped advection_sinus.ini meets), mass fractions with any solver (C106_fraction_partial). Missing: the second order the test expects of smooth profiles, more dimensions, flows that are not a wind, rounding.
* `C106_contact_partial` (WindError.lean; pcq): Exact arithmetic, the whole program in one dimension with its own time steps and outputs, HLLC, any limiter, equal cells, periodic, Courant number at most 1, no gravity, no pressure fix, no heating, a gas whose energy per volume depends on pressure only, any process grid, any densities `r` at the start between `lo > 0` and `hi` (with VanLeer and VanAlbada `hi < 2 lo`), smooth or not. The exact solution moves them with the wind; `movedMean` is its mean over a cell. At every turn (first part: `q` is the row of densities held by the processes) and in every file the sum over the cells of the error times the size of the cell is at most `4 T √((t - tIni) |u| h)` with `T` the sum of the jumps at the start. For a given profile `T` is bounded and the error tends to 0 with the size `h` of the cells. Partial: one dimension, wind only; the order 1/2 holds for all data, jumps included, the order 2 the test of the project looks for on a sine is not proved.
* `C106_fraction_partial` (WindError.lean; pcq): **C106, a mass fraction in a uniform stream, any limiter, any solver.** As `C106_contact_partial` for a mass fraction in a fluid of uniform density, velocity and pressure, for any equation of state that inverts; no condition on the limiter.
* `C106_profile_partial` (WindError.lean; pcq): As `C106_contact_partial` for densities that are those of a profile `rho` at the centres of the cells, with `|rho x - rho y| ≤ Lp |x - y|`, periodic over the box of length `N h`; the exact solution is `rho (x - (t - tIni) u)`. In every file the error as measured in check_convergence_advection_sinus.py is at most `4 Lp N h √((t - tIni) |u| h) + Lp h N h / 2`.

### C107 The shipped advections run as announced, from the text of the input file to the result files — partial

inputs/advection_sinus.ini and inputs/advection_gap.ini, read character by character, are accepted and give a run whose setup gets its parameters. From there, through the nodes of the regular grid, the initialisation on each rank, the conversion and the ghosts to any number of turns of the main loop, no array is accessed out of bounds, and every result file holds velocity 1 and pressure 0.1 in every cell exactly, densities in the range of the start, a variation that does not exceed that of the start, the mass of the start, and an error in the mean bounded by C106. For every setup whose data do not depend on the decomposition, the run started in this way gives the same files on every process grid.

* *Modelled*: `progSetup` (Verif/Model/Start.lean): grids, gravity of the empty arrays, initialisation, then `progFresh`; `regularNodes`, `perfectGasOf`; before it `iniReader` and `configure` on the texts of Verif/Model/Inputs.lean. Spec: `WindFile` (Verif/Spec/Start.lean)..
* *Proof*: The initialisation of each rank is the restriction of a global state (C66, `progSetup_eq`), so that the statements about runs from given arrays (C68, C69, C102, C106) apply. The texts are split into lines and values by the kernel; C76 and C89 give the configuration and the parameters.
* *Result*: The decomposition part is proved in full (C107_decomposition). The two shipped files are followed from their text to every result file (C107_advection_sinus_partial, C107_advection_gap_partial) in exact arithmetic: rounding, std::stod on doubles and the sine of the machine are missing, and the order of convergence is that of C106.
* `C107_decomposition` (Start.lean; pcq): From the nodes of the mesh and the setup to the result files, for every setup of C66 whose data do not depend on the decomposition (`C66_independent_1d`, `C66_independent_2d`): the grids of the ranks, the gravity of the empty arrays, the initialisation, the conversion, the ghosts and any number `k` of turns of the main loop. On two process grids `A`, `B`, whatever the orders of the loops, neither run accesses an array out of bounds; both have the same status, time and counters, hold the same values in corresponding cells and have written the same files.
* `C107_advection_sinus_partial` (StartFiles.lean; pcq): ini.** The text of the file, character by character, is read, accepted and gives a run; the setup gets its parameters. On every process grid, whatever the order of the loops, after any number of turns of the main loop no array was accessed out of bounds, and every result file says: the velocity is 1 and the pressure 1/10 in every cell, without any error; every density is in [9/10, 11/10]; the variation of the densities is at most that of the sine sampled at the centres of the 100 cells; their sum is that of the samples (no mass is lost); the mean error against the transported samples obeys C106. Partial: the full statement would be on doubles; here the arithmetic is exact (the program's constants, `std::stod` and the sine included), as in C102.
* `C107_advection_gap_partial` (StartFiles.lean; pcq): ini.** As for the sine: the file is read and accepted, and every result file says velocity 1 and pressure 1/10 in every cell, densities in [1, 2], no mass lost, and a variation of at most 2: the two jumps of the start (cells 30 to 69 hold 2, the others 1) may be smeared but nothing oscillates. Partial: exact arithmetic, as in C102.

### C108 In a periodic box the result follows its start around the box; shear layers keep their period and their totals — partial

In a box periodic in all directions with a uniform Cartesian mesh and a gravity that is the same everywhere, start data displaced by any number of cells around the box give, after any number of turns, the same status, time, counters and outputs with all data and all result files displaced by the same number of cells, also on another process grid. Start data that repeat every so many cells give files that repeat so. inputs/kelvin_helmholtz.ini with its Priority line corrected (the line as shipped is refused, C89) is read and gives a run in which every result file repeats after half the length of the box and keeps the mass, the energy and the momentum along the layers of the start, with no momentum across them.

* *Modelled*: The whole program of C68 and C107 (`progRun`, `progFresh`, `progSetup`), `kelvinHelmholtzInit`, the corrected text `iniKelvinHelmholtzCorrected`. Spec: `ShiftedFile`, `ShiftedState` (Verif/Spec/Translate.lean), `ShearFile` (Verif/Spec/KelvinHelmholtz.lean)..
* *Proof*: The run on any ranks follows the run of one array over the whole box (C68), in which ghosts repeat the inside; on a uniform mesh the update of a cell uses differences of nodes only, so it commutes with displacements, which is carried through `runN_related` as a relation between two runs. The shear layers: C89 for the parameters, C69 for the totals, opposite values half a box apart for the momentum across.
* *Result*: The two statements about runs are proved in full in exact arithmetic (C108_translation, C108_period). C108_kelvin_helmholtz_partial follows the text of the input file, with the Priority line corrected (C89_kelvin_helmholtz_violated: the shipped line is refused), to every result file; rounding, std::stod on doubles and the sine, exponential and tanh of the machine are missing, and the sums of the momentum assume that no density in the file is zero.
* `C108_kelvin_helmholtz_partial` (KelvinHelmholtz.lean; pcq): ini** (with the names of the faces that the program knows). The text is read, accepted and gives a run; the setup gets its parameter. On every process grid, whatever the order of the loops, after any number of turns of the main loop no array was accessed out of bounds, and every result file says: the flow repeats exactly every 1024 cells along the layers (half the box: two copies of one billow); the total mass, energy and momentum along the layers are those of the start and the total momentum across the layers is zero (the momenta as density times velocity, if no density in the file is zero). Partial: exact arithmetic, as in C107.
* `C108_translation` (Translate.lean; pcq): A box that is periodic in all directions, with a uniform Cartesian mesh (cells of size `h a` along axis `a`) and a gravity that does not know places (`hG`; no gravity or a uniform one), any limiter, any solver, with or without pressure fix and heating. Two runs on any process grids, with any orders of the loops; the second starts with the first one's data displaced by `s` cells around the box. Then after any number of turns of the main loop both have the same status, time and counters, the second holds the data of the first displaced by `s`, ghosts included, and every file of the second is the file of the first displaced by `s`.
* `C108_period` (Translate.lean; pcq): **C108**, short periods. In such a box, data that repeat every `s` cells at the start repeat every `s` cells in all later states and in all files, on every process grid, though the ranks need not be cut along the periods.

### C109 The square problems that come with the code stay symmetric about the diagonal, from the text of the input file to the result files — partial

inputs/implosion_test.ini and inputs/sedov2d.ini, read character by character, are accepted and give a run whose setup gets its parameters. From there through the nodes, the initialisation on each rank, the conversion and the ghosts to any number of turns of the main loop, no array is accessed out of bounds and every result file is exactly symmetric about the diagonal of the square: equal densities, pressures, energies, temperatures and scalars in cells (i, j) and (j, i), exchanged velocities.

* *Modelled*: The whole program of C107 from the texts `iniImplosionTest` and `iniSedov2d` (Verif/Model/Inputs.lean), `implosionInit`, `sedov2dKernel`. Spec: `DiagonalFile` (Verif/Spec/SquareFiles.lean)..
* *Proof*: The initialisation is a function of centres, nodes and volumes that is unchanged when the axes are exchanged; `C81_symmetric` for the exchange of the axes of a square then gives the files. C76 and C89 give the configuration and the parameters.
* *Result*: C109_implosion_partial and C109_sedov_partial follow the shipped files from their text to every result file in exact arithmetic: rounding and std::stod on doubles are missing (with rounding the sums over the faces of the two axes are taken in a fixed order, which is not symmetric).
* `C109_implosion_partial` (SquareFiles.lean; pcq): ini.** The text of the file is read, accepted and gives a run; the setup gets its parameters. On every process grid, whatever the order of the loops, after any number of turns of the main loop no array was accessed out of bounds, and every result file is exactly symmetric about the diagonal of the square, however far the jet along the diagonal has gone. Partial: exact arithmetic, as in C107.
* `C109_sedov_partial` (SquareFiles.lean; pcq): ini.** As for the implosion: the file is read and accepted, the setup (in Cartesian coordinates, with the functions `eos` of any equation of state) accepts it, and every result file is exactly symmetric about the diagonal of the square. (It is not centred, nor need it be symmetric about the axes: C77, C92.) Partial: exact arithmetic.

### C110 A uniform gas that nickel heats gains the energy of the decays, from the text of the input file to the result files — partial

A uniform perfect gas with the nickel heating on (no gravity, Cartesian grid, periodic or open boundaries) stays uniform in every result file, keeps density, velocity and mass fractions, and has gained at least the energy that the decay chain nickel - cobalt - iron has released since the start for its nickel fraction, and at most that plus the loss of power since the start times a time step; the run never stops for a negative energy. inputs/heat_nickel.ini, read character by character (with its remarks behind values), is accepted and gives such a run, with 8100 s for the time step.

* *Modelled*: The whole program of C68 and C107 with `heatNickel` as user step (`heatVal`), `heatNickelInit`, the text `iniHeatNickel`. Spec: `Nickel.released` (nuclei gone times the energies of their decays), `HeatedFile` (Verif/Spec/Heated.lean)..
* *Proof*: A uniform state is unchanged by the scheme (C99) and the heating adds the same energy to all cells, so the run is a recursion on one energy, carried through `runN_inv_dt`. The power is the derivative of the energy released (C51) and decreases, so the mean value theorem puts each turn's gain between the energy released and that plus the loss of power times the step; the step is bounded by that of the start since heating raises the sound speed. The file as in C107; a lemma for lines with a remark.
* *Result*: C110_released and C110_heated (any uniform perfect gas, any decomposition) are proved in full in exact arithmetic. C110_heat_nickel_partial follows inputs/heat_nickel.ini from its text to every result file; rounding, std::stod on doubles and the exponential of the machine are missing.
* `C110_released` (Heated.lean; pcq): **C110, the energy released** (specification): zero at the start, its rate is the power of C51, it never decreases, and it never exceeds the energy of the decay of all the nickel to iron.
* `C110_heated` (Heated.lean; pcq): A uniform gas with the heating by nickel on: perfect gas, Cartesian grid (any mesh), no gravity, no pressure fix, every boundary periodic or open, any limiter and solver, on any process grid. Then at every turn and in every file density, velocity and mass fractions are those of the start, the energy is the same in all cells, and what was added to the internal energy is at least what the decay chain nickel - cobalt - iron has released since the start, for the nickel that the first mass fraction says, and at most that plus the loss of power since the start times `tau`, the time step of the start. The run never fails for a negative energy.
* `C110_heat_nickel_partial` (HeatedFile.lean; pcq): ini.** The text of the file is read, accepted and gives a run; the setup gets its parameters. On every process grid, whatever the order of the loops, after any number of turns of the main loop no array was accessed out of bounds, the run has not failed, and every result file says: density 10^-6, velocity 0 and nickel fraction 1 in every cell, the same energy in all cells, pressure 2/3 of it, and an energy between that of the start (3/2 of the pressure of a perfect gas of nickel at 10^5 K) plus what the decay chain has released by the time of the file, and that plus the loss of power times 8100 s (a bound of the first time step). Partial: the full statement would be on doubles; here the arithmetic is exact (the program's constants, `std::stod` and the exponential included).

### C111 What a quarter turn leaves as it is stays so; the Gresho vortex from the input file to the result files — partial

In a square with the same boundary condition on all sides and nodes placed alike on both axes and symmetric about the centre, with the HLL or the low-Mach solver and without gravity and pressure fix, an initial state that a quarter turn about the centre leaves as it is gives result files that a quarter turn leaves exactly as they are, after any number of turns of the main loop. In particular the text of inputs/gresho_vortex.ini, with the names of the faces that the program knows, is read and gives such a run.

* *Modelled*: The whole program of C68 and C107, `greshoInit`, the text `iniGreshoVortex` with one line corrected. Spec: `TurnedFile` (Verif/Spec/Vortex.lean)..
* *Proof*: A quarter turn is a reversal of the first axis followed by an exchange of the axes. The mirrored problem has the mirrored run (`C81_mirror_any_partial`), the exchanged one the exchanged run (`C81_exchange`), and if the initial state is unchanged by both together the last run is the first. HLL and the low-Mach solver are mirror symmetric for any two states (`solver_mirror`), so nothing is assumed about the run. The setup: sine and cosine of `atan2` are the ratios of the coordinates to the radius.
* *Result*: C111_quarter_turn_partial: HLL and low-Mach solver, any reconstruction, exact arithmetic. C111_gresho_partial: the shipped file with the names of the faces corrected (the file as shipped is refused, C89_gresho_vortex_violated), from its text to every result file. Missing: rounding, HLLC with states that may be inadmissible, a central force, the pressure fix (with it the claim fails for mirrors, C81_fix_mirror_violated).
* `C111_quarter_turn_partial` (Vortex.lean; pcq): A run in a square with the same boundary condition on all sides, nodes placed alike on both axes and symmetric about the centre, with HLL or the low-Mach solver, any reconstruction, no gravity and no pressure fix, on any process grid: if a quarter turn about the centre leaves the initial state as it is, then it leaves every result file as it is, after any number of turns of the main loop. Partial: exact arithmetic; HLLC and gravity towards the centre are not covered.
* `C111_gresho_partial` (Vortex.lean; pcq): ini** (with the names of the faces that the program knows). The text is read, accepted and gives a run; the setup gets its parameters. On every process grid, whatever the order of the loops, with the functions `eos` of any equation of state in the setup, after any number of turns of the main loop no array was accessed out of bounds, and a quarter turn about the centre leaves every result file exactly as it is: whatever the low-Mach solver does to the vortex, it does alike in the four quarters. Partial: exact arithmetic.

### C112 Along a periodic axis no place is special, whatever the walls of the other axes — partial

Let one axis be periodic with cells of one size, the other axes have any mesh and any built-in boundary condition at each face, and let gravity not depend on the position along the periodic axis. If the data of a second run are those of a first one displaced by some cells around the periodic axis, then after any number of turns of the main loop the second run has the same status, time and counters, its data are those of the first displaced by the same cells (ghosts at the walls included), and each of its files is the displaced file. In particular data that repeat along the axis at the start repeat for ever. For inputs/rayleigh_taylor.ini: every result file repeats exactly after half of the interface.

* *Modelled*: The whole program of C68 and C107, `rayleighTaylorInit`, the text `iniRayleighTaylor`. Spec: `Slid`, `SlidFile`, `SlidState` (Verif/Spec/Slide.lean)..
* *Proof*: The two runs of the global array are related by `SlidData`: cells of the arrays, ghosts included, that differ by the displacement around the axis hold the same. Filling the ghosts of the other axes keeps the relation (`bcGlob_slid`, by induction over the faces), the advance of a cell reads only cells within two of it (`progVal_slid`), the time step is a maximum over displaced cells (`globHydro_slid`). The relation is carried through the main loop by `runN_related` and read off in the files. The setup: the interface is a cosine of half the box.
* *Result*: C112_slide and C112_period in full, in exact arithmetic, Cartesian geometry. C112_rayleigh_taylor_partial: the shipped file from its text to every result file. Missing: rounding; the total mass of that run is not conserved exactly, since gravity across a reflexive wall lets mass through (C75).
* `C112_rayleigh_taylor_partial` (RayleighTaylor.lean; pcq): ini.** The text is read, accepted and gives a run; the setup gets its parameters. With the gravity of the file, on every process grid, whatever the order of the loops, after any number of turns of the main loop no array was accessed out of bounds, and every result file repeats exactly every 50 cells along the interface: the two bubbles and the two spikes of the box are copies of each other at all times, though the walls are reflexive and the number of ranks along the interface need not be even. Partial: exact arithmetic, as in C107.
* `C112_slide` (Slide.lean; pcq): Axis `b` is periodic and has cells of one size `h`; the other axes have any mesh and at each face any of the built-in conditions; Cartesian, any limiter, any solver, with or without pressure fix and heating; a gravity that depends on the cell only by its position across axis `b` (`hG`; a uniform one in any direction, or one that grows with height). Two runs on any process grids, with any orders of the loops; the second starts with the first one's data displaced by `s` cells around axis `b`. Then after any number of turns of the main loop both have the same status, time and counters, the second holds the data of the first displaced by `s`, ghosts at the walls included, and every file of the second is the file of the first displaced by `s`.
* `C112_period` (Slide.lean; pcq): **C112**, short periods. Data that repeat every `s` cells along the periodic axis at the start repeat every `s` cells along it in all later states and in all files.

## 4. Disagreements between the code and the properties

Each is proved on the model with a concrete witness; the theorem named gives it.

| property | finding | theorem | code |
|---|---|---|---|
| C05 | a rank with fewer cells than ghost layers sends ghosts, the halo is stale; nothing checks it | `C05_thin_rank_counterexample` | boundary_distribute.cpp |
| C02 | with more ranks than cells, empty ranks are not flagged although their interval ends at the domain end | `C02_more_ranks_than_cells` | grid.cpp |
| C08 | `generate_order` stores the position of each face but the loop uses it as a list of faces: the order executed is the inverse permutation of the documented one, also for the default priority | `C08_violated`, `C08_default_violated`, `C08_violated_corner` | boundary_distribute.cpp |
| C09 | duplicated faces leave slots uninitialised; extra words are ignored | `C09_violated_duplicate`, `C09_violated_extra_words` | boundary_distribute.cpp |
| C19 | the error branch of the Newton iteration cannot be reached; a wrong temperature (80 times the true one) is returned silently | `C19_never_reports`, `C19_violated` | rad_gas.hpp |
| C22 | van Leer and van Albada overshoot on stretched meshes | `C22_nonuniform_overshoot` | limited_linear_reconstruction.hpp |
| C23 | one ghost layer passes the checks and reads out of bounds | `C23_one_ghost_reads_out_of_bounds` | hydro_reconstruction.hpp |
| C37 | area of the 3-D spherical φ-face uses the inner radius only | `C37_violated`, `C37_phi_face` | geometry.cpp |
| C39 | a run started at or after t_end takes a zero or negative step | `C39_late_start` | main.cpp |
| C41 | a first timed output before the start time throws | `C41_first_output_too_early` | main.cpp |
| C42 | a restart after t_end was reached skips a timed output; crash dumps carry counters of the next iteration | `C42_violated`, `C42_crash_dump_counters` | main.cpp, io.cpp |
| C44 | file names stop being ordered with nine digits | `C44_nine_digits` | io.cpp |
| C46 | 2³² modifications without synchronisation are forgotten | `C46_counter_wraps` | dual_view.hpp |
| C51 | heating without scalars reads a missing array | `C51_without_scalars` | user_step.cpp |
| C52 | the pressure fix adds the kinetic energy before the update; its divergence adds transverse velocities | `C52_violated`, `C52_shear_is_not_divergence_free` | pressure_fix.hpp |
| C54 | the NaN test is dead: the minimum drops NaN | `C54_violated`, `C54_isnan_is_dead` | internal_energy.cpp, main.cpp |
| C56 | broadcasting on a range with ghosts reads out of bounds | `C56_ghosts_out_of_bounds` | broadcast.cpp |
| C57 | scientific or hexadecimal integers misread; `#` is no inline comment; duplicates concatenated; indented lines swallowed; long lines cut; names longer than 49 characters lose continuation lines | `C57_integer_spellings`, `C57_hash_kept`, `C57_duplicates`, `C57_indented`, `C57_long_line`, `C57_long_name` | vendor/inih |
| C62 | the u_φ² term of the θ-source is multiplied by cot(θ)/2 although the areas already contain the cotangent | `C62_violated` | source_terms.hpp |
| C64 | the scale height of the stratified atmosphere uses the absolute value of the gravity; the 2-D Rayleigh-Taylor pressure uses the upper density below the interface | `C64_stratified_upward`, `C64_rt2d_unbalanced` | setups/stratified_atm, setups/rayleigh_taylor |
| C65 | the pressure of the Gresho vortex ignores the density parameter | `C65_density_ignored` | setups/gresho_vortex |
| C66 | sedov1d uses the volume of the third cell of each rank, sedov3d compares local indices with global sizes: the initial state depends on the process grid | `C66_sedov1d_violated`, `C66_sedov3d_violated` | setups/sedov1d, setups/sedov3d |
| C67 | user boundary conditions of stratified_atm and eq_hydro_sphe write the momentum rho0·u0 and no kinetic energy: wrong as soon as u0 ≠ 0 | `C67_stratified_moving`, `C67_equilibrium_moving` | setups/stratified_atm, setups/eq_hydro_sphe |
| C70 | without passive scalars, a file that lacks `/fx_1d` is refused | `C70_needs_scalars` | setups/v1d |
| C71 | the window of the shift criterion begins `Nghost` columns too early; ranks without the last cells contribute the speed 0, so that with two or more of them and the default threshold the grid always shifts; the refusal depends on the number of processes | `C71_window_violated`, `C71_always_shifts`, `C71_depends_on_processes`, `C71_refused_iff` | setups/v1d |
| C72 | the opened outer boundary and the dropped shift criterion are not saved: a restart closes the boundary again, the ghost next to the last cell gets the opposite momentum | `C72_restart_forgets`, `C72_restart_violated` | main.cpp 486-524 |
| C73 | the gravitational work uses the momentum before the step: a uniform falling gas loses rho g²dt²/2 of internal energy per step, its pressure can become negative, and does in every long enough run, although the time step gets shorter | `C73_internal_loss`, `C73_pressure_violated`, `C73_run_violated`, `C73_program_violated` | gravity source in godunov_scheme.hpp |
| C74 | with slopes, the predictor can give faces a negative pressure (density 1, pressure 1/2, velocities -4, 0, 4 at Courant number 1/2), and with HLL a step can give a cell a negative internal energy; nothing limits the slopes or the predicted states | `C74_predictor_violated`, `C74_second_order_violated` | extrapolation_reconstruction.hpp, limited_linear_reconstruction.hpp |
| C75 | a uniform gravity across a reflexive wall makes the wall leak: the Hancock predictor adds `g dt/2` to the velocity of the ghost cell as to the cell it mirrors, so both sides move into the wall and the mass flux there is `rho g dt/2` instead of 0; `inputs/rayleigh_taylor.ini` combines the two | `C75_gravity_violated` | hydro/extrapolation_reconstruction.hpp 294-315, boundary.hpp 140-260 |
| C76 | the switches `pressure_fix` and `shift_grid` are compared with one name only: "on", "ON", "Yes", "true" silently mean off, whereas an unknown name of any other choice stops the program | `C76_switches_violated` | main.cpp 298-302, 459-465 |
| C76 | accepted without a message: zero cells (default of `Nx*_glob`), `Heat_nickel` without a passive scalar (reads outside of the array), misspelt keys, `t_ini` beyond `t_end`, for which the loop makes one step of negative length | `C76_unchecked`, `C76_backwards`, `C76_other_keys_ignored`, `C51_without_scalars` | utils/param.cpp 14-73, main.cpp 354-382 |
| C77 | sedov2d heats every cell whose lower left node is closer to the origin than the constant 0.025 (the cell size of the shipped input): the energy of the explosion is 0, E1, 4 E1, 9 E1 with 201, 400, 401, 800 cells per side | `C77_sedov2d`, `C77_sedov2d_resolution`, `C77_sedov2d_violated` | sedov2d/setup.hpp 82-103 |
| C77 | sedov1d heats the cell of local index 2 on the process at the origin: with 3 ghosts this is a ghost cell and there is no explosion | `C77_sedov1d_violated` | sedov1d/setup.hpp 83-104 |
| C77 | sedov3d compares the radius of a node with 1 exactly and local indices with half of the global sizes: on 1x2x1 processes the explosion has twice its energy, on 1x4x1 processes or with 21 radial cells there is none | `C77_sedov3d`, `C77_sedov3d_violated` | sedov3d/setup.hpp 77-95 |
| C78 | the mass fraction of the 2-D Rayleigh-Taylor setup lacks the offset `fx1` that its density profile has: `fx0 = fx1 = 1/2` gives 0 everywhere, `fx0 < fx1` negative mass fractions; the pressure is not positive where rho0 abs(g) y >= 10/7 + 1/4 | `C78_rt_violated` | rayleigh_taylor/setup.hpp 69-93 |
| C79 | with more than ten passive scalars every output is refused, because the specification tree declares only `fx0` … `fx9`, while the index would list `fx10` | `C79_scalars_violated` | config.yaml.cpp
| C79 | a restart compares only the extents of the nodes with ghosts: a file written with another `Nghost` and the same total is accepted, and each cell takes the values of a cell with other bounds | `C79_ghosts_violated` | io.cpp, io_hdf5.hpp
| C79 | the gas coefficient stored in the file is not compared on restart; scalars beyond those of the new run are dropped silently (`C79_restart` with fewer scalars) | `C79_gas_violated` | io.cpp
| C81 | the pressure fix breaks mirror symmetry: it adds the transverse velocity on every face, so a shear flow gains energy where its mirror image loses as much | `C81_fix_mirror_violated` | pressure_fix.hpp |
| C84 | in double precision an output time that should coincide with `t_end` can lie just below it: 0.7 + 0.1 < 0.8 gives two files and a step of 2^-53; the last step can miss `t_end` by one digit; a time step below half a digit of `t` never advances the time and the loop goes on until `max_iter` | `C84_extra_file`, `C84_end_missed`, `C84_stagnation` | main.cpp |
| C85 | in double precision a passive scalar is not kept even in a uniform flow: it is multiplied by the density and divided by it in every step; 0.11 in density 5 becomes the next double after one iteration | `C85_scalar_violated` | godunov_scheme.hpp 120-122, 299 |
| C86 | in double precision a restart does not continue with the numbers of the stopped run: the file holds velocity and pressure, so momentum and energy are divided and multiplied again; momentum 29 in density 7 becomes 29.000000000000004 | `C86_restart_violated` | main.cpp 223-247, 305, 526 |
| C87 | integrals and gravity depend in the last digits on the number of processes and threads: the integral of 0.4, 0.6, 0.1, 0.1 is 1.2000000000000002 on one process and 1.2 on two; the gravity of a shell of these densities differs too, so runs with gravity from the mass are not bit by bit reproducible across process grids (C82 covers runs without it) | `C87_integral_violated`, `C87_gravity_violated` | integration.cpp 22-37, gravity.cpp 60-130 |
| C89 | inputs/gresho_vortex.ini and inputs/kelvin_helmholtz.ini are refused ("boundary priority not fully defined !"): they write `Priority = X0_right …`, only `X_right`, `Y_left`, … are known | `C89_gresho_vortex_violated`, `C89_kelvin_helmholtz_violated`, `C89_with_known_names` | inputs, boundary_distribute.cpp 33-71 |
| C89 | inputs/example_init.ini, the file that documents the keys, is refused: `restart = restart, 1d_file` is no boolean | `C89_example_init_violated` | inputs/example_init.ini |
| C89 | shipped files write keys that are not read: `timeout` (shock_tube1d_sph.ini), `u0` (kelvin_helmholtz.ini), gravity `type` (rayleigh_taylor3d.ini) | `C89_shipped_keys_ignored_violated` | inputs |
| C89 | parameters read without effect on the initial state: `A` of rayleigh_taylor (the amplitude is 0.01), `P0` of rayleigh_taylor3d and sedov2d, `gx` of stratified_atm; parameters that a file leaves out or misspells are silently 1 | `C89_no_effect_violated`, `C89_setup_params`, `C89_unknown_key` | setups |
| C90 | a run that has computed NaN goes on: the maximum of the rates and the minimum of the internal energies leave out NaN, so that the check does not stop it; NaN spreads one cell per iteration; when all cells are NaN the time step is `1 / (-DBL_MAX)`, negative and without effect on the time, so that only `max_iter` or the wall clock ends the run | `C90_stops_violated`, `C90_nan_spreads`, `C90_nan_everywhere`, `C90_clock_stands`, `C90_energy_check_partial` | time_step.hpp, internal_energy.cpp, main.cpp 354-425 |
| C90 | an infinite rate gives the time step 0 | `C90_infinite_rate` | time_step.hpp |
| C91 | in double precision a mirror-symmetric tube loses its symmetry in the first iteration with every limiter that has slopes (the limiters divide the right slope by the left one) and with HLLC (the numerator of the contact speed is summed from left to right) | `C91_limiter_violated`, `C91_hllc_violated` | slope_limiters.hpp 40, 60, 81; riemann_solver.hpp 91 |
| C91 | in double precision a square that is symmetric in its two axes loses this symmetry in the first iteration, with every solver: the update adds the fluxes direction by direction | `C91_axes_violated` | godunov_scheme.hpp 125, 159 |
| C92 | in double precision inputs/sedov2d.ini starts with the energy of three explosions, in an L of three cells: the nodes at -0.025 are rounded towards the origin (-0.024999999999999467) and pass the test `r < 0.025` | `C92_sedov2d`, `C92_sedov2d_violated` | sedov2d/setup.hpp 80, 94; grid_type.cpp 28 |
| C92 | in double precision the interface of inputs/implosion_test.ini is jagged: of the 200 cells whose centres lie on the line `x + y = 0.15`, 86 are outside and 114 inside | `C92_implosion`, `C92_implosion_violated` | implosion_test/setup.hpp 83 |
| C92 | the last node of a regular mesh is not always the upper limit of the box (49 cells over [0, 1]), the cells do not all have the same size, the mesh of a symmetric box is not symmetric | `C92_last_node_violated`, `C92_sizes_violated` | grid_type.cpp 28 |
| C93 | what happens in one cell changes the time step and with it, at once, the numbers in all cells; two runs that differ far away agree in a cell only as long as their time steps are the same | `C93_time_step_violated` | time_step.hpp 36-88; main.cpp 355 |
| C94 | with the limiter `Constant` a linear density is not carried exactly where the cells change size (cells of 1 then 3: 2/3 of the change) | `C94_first_order_violated` | limited_linear_reconstruction.hpp 53-62 |
| C95 | the gram and the centimetre are divided by the size of the base units instead of multiplied, so that no cgs quantity scales as it should; the radiative constant counts its units twice; the Hubble constant has no time in it (all without effect as long as the base units are 1) | `C95_cgs_violated`, `C95_radiative_violated`, `C95_radiative_gas_violated`, `C95_hubble_violated` | units.hpp 44-45, 75, 94 |
| C95 | the proton mass is 16 millionths larger than that of CODATA 2018, and with it all temperatures | `C95_proton_mass_violated` | units.hpp 61 |
| C97 | three mass fractions that add up to one do not after one iteration with any limiter but `Constant`: each is limited alone and nothing brings the sum back to one (1.01 and more from states between 0 and 1) | `C97_three_violated` | hydro_reconstruction.hpp 105-109, godunov_scheme.hpp 294-301 |
| C98 | with the pressure fix a uniform cold stream along one axis gains or loses internal energy (over a third in one step of the witness) where the cell size changes along another axis | `C98_fix_violated` | pressure_fix.hpp 139-156 |
| C100 | with any limiter but `Constant` a mass fraction leaves the range of its initial values below the time step of the code (0.23 from values between 0.25 and 0.75): density and fraction are limited separately; where the fraction would become negative the clamp creates mass of the species | `C100_slopes_violated`, `C100_mass_violated` | hydro_reconstruction.hpp 100-109, godunov_scheme.hpp 260-302 |
| C102 | in two dimensions with `VanLeer` and `VanAlbada` a density or mass fraction carried by a uniform wind leaves the range of its initial values below the time step of the code: slopes are limited axis by axis, the half step adds them; with density contrasts of 2 and more the predicted density on the lee side of a cell can be negative | `C102_diagonal_violated`, `C102_lee_violated` | limited_linear_reconstruction.hpp 36-66, extrapolation_reconstruction.hpp 94-325 |
| C103 | the number of arguments is tested before MPI and Kokkos take out their own: with flags of Kokkos only, `argv[1]` is null and made into a string; `--pdi-config=` before the configuration file is taken for the configuration file; unknown options are not reported | `C103_flags_violated`, `C103_option_first_violated` | main.cpp 107-128 |
| C104 | after an exception PDI and its tree stay open while MPI is finalized; the communicator of `MPI_Cart_sub` is never freed; a constructor of `Grid` that throws leaves `comm_cart` | `C104_exception_violated`, `C104_horizontal_violated`, `C104_grid_violated` | main.cpp 136, 586-587, grid.cpp 62-83, 101, 131 |

Seen while reading, not (yet) carried by a theorem: the grid type is
not compared on restart; negative effective ghosts are not rejected by `Range`.

## 5. Trusted base

* The Lean 4 kernel and the parts of Mathlib imported. No axiom besides `propext`, `Classical.choice`, `Quot.sound`; per
  theorem in section 3 (from `#print axioms`). No `native_decide`, no compiled evaluation.
* The reading of the C++ into `Verif/Model`, each definition citing file and lines, and the conventions of section 2.
* External behaviour taken as given and visible in the definitions: `Kokkos::parallel_for` runs the body once per index in some
  order; `parallel_reduce`/`MPI_Allreduce` combine all contributions once in some order and grouping (with NaN dropped by
  minimum, Model/Reduce); `MPI_Sendrecv_replace` on a periodic Cartesian communicator delivers each buffer to the neighbour
  (in C88: in the order sent for each pair and tag, at any later time);
  PDI/HDF5 write and read the hyperslabs they are given; `std::` string and stream functions on characters of the "C" locale;
  `sqrt`, `exp`, `cos` are the real functions (`Trig K` with its laws where only those matter).

### Modelled

| Lean module | code |
|---|---|
| Model/Kokkos | views, `parallel_for`, index boxes (kokkos_shortcut.hpp, range.cpp) |
| Model/Mesh | grid.cpp (decomposition, borders, `set_grid`), range.cpp, grid_type.cpp, kronecker.hpp |
| Model/Ghost, Boundary | boundary_distribute.*, boundary.*, boundary_factory.hpp and the lookups of main.cpp |
| Model/Geometry | geometry.cpp, geometry_factory.cpp, cell sizes and centres of grid.cpp |
| Model/Euler, Thermo | euler_equations.hpp, array_conversion.hpp, perfect_gas.*, rad_gas.* |
| Model/Limiter, Riemann, Scheme | slope_limiters.hpp, limited_linear_reconstruction.hpp, face_reconstruction.cpp, riemann_solver.hpp, extrapolation_reconstruction.hpp, hydro_reconstruction.hpp, godunov_scheme.hpp, source_terms.hpp, gravity.hpp |
| Model/PressureFix, Gravity, Moving | pressure_fix.hpp, gravity.cpp, moving_grid.cpp |
| Model/KernelRestart | main.cpp 526, 225-238, 305 with rounded operations |
| Model/RoundedGravity | integration.cpp 22-37, gravity.cpp 60-130 with rounded operations |
| Model/Reduce | time_step.hpp, analysis/*.cpp |
| Model/KernelRun, Ordered | the iteration of main.cpp with opaque kernels over any numbers, and its kernels operation by operation |
| Model/Doubles, RoundedLoop | binary64 numbers and roundings; main.cpp 353–561 with rounded operations |
| Model/Ieee | binary64 with NaN, infinities, signed zeros, overflow, underflow; `+ - * /`, comparison, `abs`, `fmin`, `fmax`, the identities of `Kokkos::Max` and `Kokkos::Min`. One NaN (no sign, no payload); of two zeros `fmin`/`fmax` return the second (C99 leaves it open); `sqrt` correctly rounded (`sqrtMag_side`; in C90 the equation of state is a parameter) |
| Model/IeeeGas, Model/InitBits | the kernels and the perfect gas on IEEE doubles; `compute_regular_mesh_1d`, `Regular::execute`, the initialisation loops of four setups on IEEE doubles |
| Model/Loop, Distributed, Program, Start, MovingProgram | main.cpp 187–561 (start, restart, control, iteration body, grid shift and files on all ranks) |
| Model/Messages, RankProgram | processes and MPI calls on their own; main.cpp 305–568 as one process executes it |
| Model/Output, Restart, Files | io.cpp, io_hdf5.hpp, the datasets and events of config.yaml.cpp |
| Model/DualView, Casts | dual_view.hpp, int_cast.hpp |
| Model/Constants | units.hpp |
| Model/Setup | user_step.*, broadcast.cpp, heat_nickel |
| Model/Problems, Tabulated | src/setups/*/setup.hpp |
| Model/Inputs, SetupParam, SetupInit | inputs/*.ini; `ParamSetup` of src/setups/*/setup.hpp |
| Model/Param, Configured | param.hpp and the choices of main.cpp from the configuration |
| Model/Launch | main.cpp 98–135 (command line); main.cpp 105–604, mpi_scope_guard.cpp, grid.cpp 47–132 reduced to the resources taken and given back |
| Model/Ini | vendor/inih ini.c, INIReader.cpp |

### Not modelled

* Floating-point rounding, except in C84 (the time loop; no overflow, underflow, NaN), C85 (uniform flows), C86 (stop and restart), C87 (integrals, gravity), C91 (mirror images), C92 (regular meshes, four initial states), C90 and C82 (IEEE doubles with NaN, infinities, signed zeros; round to nearest, no contraction of operations; operations of one kernel are the same on all
  processes) and the open arithmetic of Model/Ordered; device memory, streams and execution spaces; interleavings inside one loop iteration.
* The PDI specification tree (config.yaml.cpp) beyond the datasets, names
  and selections of C43, C70 and C79 (the tree is transcribed, not parsed); what MPI and Kokkos do with the command line, signal handling, most of the printing, MPI start-up and error codes.
* Performance, memory exhaustion. Deadlock is treated in C88, except for the calls of MPI before line 305 of main.cpp, the grid shift, and inside PDI and HDF5 (a collective write is one call).

## 6. Seeded bugs

`seeded/LOG.jsonl` records each attempt: a realistic bug is put in a scratch copy of the model (and in the pure duplicates of its
formulas used by lemmas, so that the failure is not a mere mismatch), the project is rebuilt, and the theorems that fail are
listed. Theorems that survived although their claim was false were tightened; the entry names them.
