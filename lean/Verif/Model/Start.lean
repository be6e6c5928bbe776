import Verif.Model.Program
import Verif.Model.Problems
import Verif.Model.Mesh
import Verif.Model.Thermo

/-!
# The start of a run: grid, gravity, initialisation
-/

namespace Heracles

variable {d n : ℕ}

/-- src/main.cpp 187-192: the arrays of the fluid when they are allocated; Kokkos sets them to zero. -/
def zeroFluid (A : Machine d n) : DistView (Fields d n ℝ) := ⟨fun r => (A.topo r).nxLocalWg, fun _ _ => ⟨0, 0, 0, 0⟩⟩

/-- src/main.cpp 187-344, not a restart, the grid type `Regular` (src/mesh/grid_type.cpp 48-58) or another one having filled the nodes `x`: the grid of each rank (258), the
gravity of the empty arrays (259), the initialisation of the setup over the cells without ghosts, in the order `initL r` on the rank `r` (263-264), and `progFresh` from the conversion to the conserved
variables on. `rankOf r` is `grid.mpi_rank`. -/
noncomputable def progSetup (p : ProgParams d n) (nx nghost : Cell) (isBorder : Cell → Fin 3 → Fin 2 → Bool) (A : Machine d n) (rankOf : Cell → ℤ) (initL : Cell → List Cell)
    (x : Fin 3 → ℤ → ℝ) (S : Setup d n) : Option (ProgState d n) := do
  let grid ← progGrids p A fun a => View.line (nx a + 2 * nghost a + 1) (x a)
  let v ← allRanks A.dims (fun r => initLoop (initL r) (S (rankOf r) (A.topo r) (grid r) (A.grav (zeroFluid A) r))
    ⟨inExt (A.topo r).nxLocalWg, fun _ => ⟨0, 0, 0, 0⟩⟩) fun r => ⟨inExt (A.topo r).nxLocalWg, fun _ => ⟨0, 0, 0, 0⟩⟩
  progFresh p nx nghost isBorder A x (fun r => (v r).comp fun s => ⟨s.rho, 0, 0, s.fx⟩) fun r => (v r).comp fun s => ⟨s.u, s.P⟩

/-- src/main.cpp 257: the nodes of the grid type `Regular` in all directions. -/
noncomputable def regularNodes (nghost nx : Cell) (xmin xmax : Fin 3 → ℝ) : Fin 3 → ℤ → ℝ := fun a => (regularExecute (nghost a) (nx a) (xmin a) (xmax a)).val

/-- src/main.cpp 170: the equation of state built from the two numbers of the file, for a build with the perfect gas (src/thermodynamics/perfect_gas.cpp 13-22). -/
noncomputable def perfectGasOf (gamma mu : ℝ) : Except String (EoS ℝ) := (Gas.mk? (.fin gamma) (.fin mu)).map PerfectGas.toEoS

end Heracles
