import Verif.Model.Limiter

/-!
# Cell geometry: face areas, volumes, and the arrays of a grid

Models of `src/mesh/geometry.cpp` and of `Grid::set_grid` (`src/mesh/grid.cpp`).
-/

namespace Heracles

variable {K : Type}

/-- The compile-time geometry `geom` (src/mesh/geometry.hpp, `Geometry::Geom_cartesian` and
`Geometry::Geom_spherical`, selected in src/mesh/geometry_factory.cpp). -/
inductive Geom
  | cartesian | spherical
  deriving DecidableEq, Repr

/-- `Kokkos::sin`, `Kokkos::cos` and `Kokkos::numbers::pi`, as parameters: the theorems that need more than their
existence instantiate them with the real functions. -/
structure Trig (K : Type) where
  sin : K → K
  cos : K → K
  pi : K

section
variable [Field K]

/-- src/mesh/geometry.cpp 47-54 (Cartesian), 77 (spherical, 1D), 93-95 (2D) and 112-115 (3D): what a kernel writes in
`ds(i, j, k, 0 .. 2)`. `old` is the previous content, kept for the entries the code does not write. In the spherical
branches all coordinates used by one of the entries are read. -/
def dsCell (tr : Trig K) (geom : Geom) (d : ℕ) (x dx : Fin 3 → View ℤ K) (old : Fin 3 → K) (c : Cell) :
    Option (Fin 3 → K) :=
  match geom with
  | .cartesian => do
    let d0 ← (dx 0).rd (c 0)
    let d1 ← (dx 1).rd (c 1)
    let d2 ← (dx 2).rd (c 2)
    return fun idim => (if idim = 0 then 1 else d0) * (if idim = 1 then 1 else d1) * (if idim = 2 then 1 else d2)
  | .spherical =>
    if d = 1 then do
      let r ← (x 0).rd (c 0)
      return ![4 * tr.pi * r * r, old 1, old 2]
    else if d = 2 then do
      let r ← (x 0).rd (c 0)
      let rp ← (x 0).rd (c 0 + 1)
      let t ← (x 1).rd (c 1)
      let tp ← (x 1).rd (c 1 + 1)
      let dcos := tr.cos t - tr.cos tp
      return ![2 * tr.pi * r * r * dcos, 2 * tr.pi / 2 * (rp * rp - r * r) * tr.sin t, old 2]
    else if d = 3 then do
      let r ← (x 0).rd (c 0)
      let rp ← (x 0).rd (c 0 + 1)
      let t ← (x 1).rd (c 1)
      let tp ← (x 1).rd (c 1 + 1)
      let d0 ← (dx 0).rd (c 0)
      let d1 ← (dx 1).rd (c 1)
      let d2 ← (dx 2).rd (c 2)
      let dcos := tr.cos t - tr.cos tp
      return ![r * r * dcos * d2, 1 / 2 * (rp * rp - r * r) * tr.sin t * d2, r * d0 * d1]
    else some old

/-- src/mesh/geometry.cpp 57 (Cartesian), 83 (spherical, 1D), 102-103 (2D) and 122-123 (3D): `dv(i, j, k)`. -/
def dvCell (tr : Trig K) (geom : Geom) (d : ℕ) (x dx : Fin 3 → View ℤ K) (old : K) (c : Cell) : Option K :=
  match geom with
  | .cartesian => do
    let d0 ← (dx 0).rd (c 0)
    let d1 ← (dx 1).rd (c 1)
    let d2 ← (dx 2).rd (c 2)
    return d0 * d1 * d2
  | .spherical =>
    if d = 1 then do
      let r ← (x 0).rd (c 0)
      let rp ← (x 0).rd (c 0 + 1)
      return 4 * tr.pi * (rp * rp * rp - r * r * r) / 3
    else if d = 2 then do
      let r ← (x 0).rd (c 0)
      let rp ← (x 0).rd (c 0 + 1)
      let t ← (x 1).rd (c 1)
      let tp ← (x 1).rd (c 1 + 1)
      return 2 * tr.pi / 3 * (rp * rp * rp - r * r * r) * (tr.cos t - tr.cos tp)
    else if d = 3 then do
      let r ← (x 0).rd (c 0)
      let rp ← (x 0).rd (c 0 + 1)
      let t ← (x 1).rd (c 1)
      let tp ← (x 1).rd (c 1 + 1)
      let d2 ← (dx 2).rd (c 2)
      return 1 / 3 * (rp * rp * rp - r * r * r) * (tr.cos t - tr.cos tp) * d2
    else some old

/-- src/mesh/geometry.cpp 43-55, 74-77, 89-96, 109-116: the kernel filling `ds`, in the order `l`. -/
def fillDs (tr : Trig K) (geom : Geom) (d : ℕ) (x dx : Fin 3 → View ℤ K) (l : List Cell) (ds : View Cell (Fin 3 → K)) :
    Option (View Cell (Fin 3 → K)) :=
  parFor l (fun c ds => do
    let old ← ds.rd c
    let s ← dsCell tr geom d x dx old c
    ds.wr c s) ds

/-- src/mesh/geometry.cpp 57, 79-84, 98-104, 118-124: the kernel filling `dv`, in the order `l`. -/
def fillDv (tr : Trig K) (geom : Geom) (d : ℕ) (x dx : Fin 3 → View ℤ K) (l : List Cell) (dv : View Cell K) :
    Option (View Cell K) :=
  parFor l (fun c dv => do
    let old ← dv.rd c
    let s ← dvCell tr geom d x dx old c
    dv.wr c s) dv

/-- The coordinate arrays of a grid (src/mesh/grid.hpp, members `x0 .. dv`): nodes, centres, sizes, face areas (the
fourth index, of extent 3, is packed in the value) and volumes. -/
structure GridData (K : Type) where
  x : Fin 3 → View ℤ K
  xc : Fin 3 → View ℤ K
  dx : Fin 3 → View ℤ K
  ds : View Cell (Fin 3 → K)
  dv : View Cell K

/-- src/mesh/grid.cpp 31-35: `compute_cell_size`; the loop over `[0, n)` runs in the order `l`. -/
def computeCellSize (l : List ℤ) (x dx : View ℤ K) : Option (View ℤ K) :=
  parFor l (fun i dx => do
    let s ← cellSize x i
    dx.wr i s) dx

/-- src/mesh/grid.cpp 37-44: `compute_cell_center`. -/
def computeCellCenter (l : List ℤ) (x xc : View ℤ K) : Option (View ℤ K) :=
  parFor l (fun i xc => do
    let s ← cellCenter x i
    xc.wr i s) xc

/-- Constructor of `Grid`, array part (src/mesh/grid.cpp 62-75): extents and Kokkos' zero initialisation. -/
def GridData.alloc (ext : Cell) : GridData K :=
  { x := fun a => View.line (ext a + 1) 0, xc := fun a => View.line (ext a) 0, dx := fun a => View.line (ext a) 0
    ds := ⟨inExt ext, 0⟩, dv := ⟨inExt ext, 0⟩ }

/-- src/mesh/grid.cpp 134-155: `Grid::set_grid`. `l1 a` is the order of the loops over `[0, extent of dx a)`, `l` and
`l'` the orders of the loops over `range.all_ghosts()`. -/
def setGrid (tr : Trig K) (geom : Geom) (d : ℕ) (topo : GridTopo) (l1 : Fin 3 → List ℤ) (l l' : List Cell)
    (xGlob : Fin 3 → View ℤ K) (g : GridData K) : Option (GridData K) := do
  let x ← seqFin fun a => topo.setNodes a (xGlob a)
  let dx ← seqFin fun a => computeCellSize (l1 a) (x a) (g.dx a)
  let xc ← seqFin fun a => computeCellCenter (l1 a) (x a) (g.xc a)
  let ds ← fillDs tr geom d x dx l g.ds
  let dv ← fillDv tr geom d x dx l' g.dv
  return { x := x, xc := xc, dx := dx, ds := ds, dv := dv }

end

end Heracles
