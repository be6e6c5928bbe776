import Verif.Model.IeeeGas
import Verif.Model.KernelRun

/-!
# The regular mesh and initial states in double precision

The nodes of a regular mesh, operation by operation, and the loops that fill the arrays at the start of a run for four problems, on IEEE
`double`s. The grid of a rank is made by `kSetGrid`.
-/

namespace Heracles

section
variable {F : Type} [Arith F]
open Arith

/-- The conversion of an `int` to a `double`, implicit in src/mesh/grid_type.cpp 28, 54-56. -/
def ofInt (z : ℤ) : F := if z < 0 then -lit z.natAbs else lit z.natAbs

/-- src/mesh/grid_type.cpp 28: one node, `xmin + ((i - ng) * dx)`. -/
def oNode (ng : ℤ) (xmin dx : F) (i : ℤ) : F := xmin + ofInt (i - ng) * dx

/-- src/mesh/grid_type.cpp 54-56: the length of the cells, `(m_max - m_min) / Nx_glob_ng`. -/
def oLength (nGlob : ℤ) (xmin xmax : F) : F := (xmax - xmin) / ofInt nGlob

/-- src/mesh/grid_type.cpp 23-30, 48-58 with the array extents of src/main.cpp 217-219: the global node coordinates along one direction. -/
def oRegularExecute (ng nGlob : ℤ) (xmin xmax : F) : View ℤ F :=
  View.line (nGlob + 2 * ng + 1) (oNode ng xmin (oLength nGlob xmin xmax))

end

/-- `x <= y`: false when one of them is NaN. -/
def Ieee.leb (x y : Ieee) : Bool := !x.isNaN && !y.isNaN && !y.ltb x

variable {d : ℕ}

/-- The body of the parallel loop of an initialisation: what it writes in the cell. An access outside an array is `none`. The scalars
`fx` are not written by the problems of this file. -/
abbrev BitsKernel (d : ℕ) := GridData Ieee → Cell → Option (Prim d Ieee)

/-- The parallel loop of `InitializationSetup::execute`, over `cell_mdrange(range)` in the order `l`. -/
def bitsLoop (l : List Cell) (k : Cell → Option (Prim d Ieee)) (v : View Cell (Prim d Ieee)) : Option (View Cell (Prim d Ieee)) :=
  parFor l (fun c v => do
    let s ← k c
    v.wr c s) v

/-- src/setups/shock_tube/setup.hpp 77-91. -/
def shockTubeBits (rho0 rho1 u0 u1 P0 P1 inter : Ieee) : BitsKernel d := fun g c => do
  let x ← (g.xc 0).rd (c 0)
  if x.leb inter then return ⟨rho0, fun _ => u0, P0⟩ else return ⟨rho1, fun _ => u1, P1⟩

/-- src/setups/advection_gap/setup.hpp 68-86. -/
def advectionGapBits (rho0 rho1 u0 P0 : Ieee) : BitsKernel d := fun g c => do
  let x ← (g.xc 0).rd (c 0)
  return ⟨if x.leb (.lit (3 / 10)) || (Ieee.lit (7 / 10)).leb x then rho0 else rho1, fun _ => u0, P0⟩

/-- src/setups/implosion_test/setup.hpp 74-94. -/
def implosionBits (rho0 rho1 u0 P0 P1 : Ieee) : BitsKernel d := fun g c => do
  let x ← (g.xc 0).rd (c 0)
  let y ← (g.xc 1).rd (c 1)
  if (Ieee.lit (15 / 100)).ltb (x.add y) then return ⟨rho0, fun _ => u0, P0⟩ else return ⟨rho1, fun _ => u0, P1⟩

/-- src/setups/sedov2d/setup.hpp 74-102. -/
def sedov2dBits (eos : EoS Ieee) (rho0 u0 E0 E1 : Ieee) : BitsKernel d := fun g c => do
  let x ← (g.x 0).rd (c 0)
  let y ← (g.x 1).rd (c 1)
  let r := ((x.mul x).add (y.mul y)).sqrt
  let dv ← g.dv.rd c
  let evol := if r.ltb (.lit (25 / 1000)) then E1.div dv else E0.div dv
  return ⟨rho0, fun _ => u0, eos.presFromEvol rho0 evol⟩

end Heracles
