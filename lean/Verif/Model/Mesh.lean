import Verif.Model.Kokkos
import Mathlib.Algebra.Field.Basic
import Mathlib.Data.Int.Cast.Basic

/-!
# Index helpers, ranges, domain decomposition and mesh

Models of `src/utils/kronecker.hpp`, `src/mesh/range.cpp`, the decomposition part of
`src/mesh/grid.cpp` and `src/mesh/grid_type.cpp`.
`ndim` (compile-time 1, 2 or 3) is an explicit parameter. `int` is `ℤ`.
-/

namespace Heracles

/-- src/utils/kronecker.hpp 15-23. -/
def kron (a b : ℤ) : ℤ := if a = b then 1 else 0

/-- src/utils/kronecker.hpp 25-29: left neighbour index. -/
def lindex (a : ℤ) (c : Cell) : Cell := ![c 0 - kron a 0, c 1 - kron a 1, c 2 - kron a 2]

/-- src/utils/kronecker.hpp 31-35: right neighbour index. -/
def rindex (a : ℤ) (c : Cell) : Cell := ![c 0 + kron a 0, c 1 + kron a 1, c 2 + kron a 2]

/-- src/mesh/range.hpp 19-36: the members of `Range`. -/
structure Range where
  cornerMin : Cell
  cornerMax : Cell
  ng : ℤ
  ngEff : ℤ
  nghost : Cell
  ncMin2g : Cell
  ncMax2g : Cell
  nfMin2g : Cell
  nfMax2g : Cell
  ncMin1g : Cell
  ncMax1g : Cell
  nfMin1g : Cell
  nfMax1g : Cell
  ncMin0g : Cell
  ncMax0g : Cell
  nfMin0g : Cell
  nfMax0g : Cell

/-- src/mesh/range.cpp 34-42: the argument checks of the constructor, in loop order. -/
def Range.check (cmin cmax : Cell) : Except String Unit :=
  (List.finRange 3).forM fun idim =>
    if cmin idim < 0 ∨ cmax idim < 0 then .error "Cmin < 0 || Cmax < 0"
    else if cmin idim > cmax idim then .error "Cmin > Cmax"
    else .ok ()

/-- src/mesh/range.cpp 23-82: the constructor of `Range`. -/
def Range.mk? (ndim : ℕ) (cmin cmax : Cell) (ng : ℤ) : Except String Range := do
  Range.check cmin cmax
  -- 30-32
  let nghost : Cell := fun a => if a.val < ndim then ng else 0
  -- 50-53 and 67-70
  let ncMin0 : Cell := fun a => nghost a
  let ncMax0 : Cell := fun a => nghost a + cmax a - cmin a
  let nfMin0 : Cell := fun a => ncMin0 a
  let nfMax0 : Cell := fun a => ncMax0 a + 1
  -- 55-58 and 72-75
  let ncMin1 : Cell := fun a => if a.val < ndim then ncMin0 a - 1 else ncMin0 a
  let ncMax1 : Cell := fun a => if a.val < ndim then ncMax0 a + 1 else ncMax0 a
  let nfMin1 : Cell := fun a => if a.val < ndim then ncMin1 a else nfMin0 a
  let nfMax1 : Cell := fun a => if a.val < ndim then ncMax1 a + 1 else nfMax0 a
  -- 60-63 and 77-80
  let ncMin2 : Cell := fun a => if a.val < ndim then ncMin0 a - 2 else ncMin0 a
  let ncMax2 : Cell := fun a => if a.val < ndim then ncMax0 a + 2 else ncMax0 a
  let nfMin2 : Cell := fun a => if a.val < ndim then ncMin2 a else nfMin0 a
  let nfMax2 : Cell := fun a => if a.val < ndim then ncMax2 a + 1 else nfMax0 a
  return { cornerMin := cmin, cornerMax := cmax, ng := ng, ngEff := 0, nghost := nghost
           ncMin2g := ncMin2, ncMax2g := ncMax2, nfMin2g := nfMin2, nfMax2g := nfMax2
           ncMin1g := ncMin1, ncMax1g := ncMax1, nfMin1g := nfMin1, nfMax1g := nfMax1
           ncMin0g := ncMin0, ncMax0g := ncMax0, nfMin0g := nfMin0, nfMax0g := nfMax0 }

/-- src/mesh/range.cpp 99-107: `Range::with_ghosts`. -/
def Range.withGhosts (r : Range) (ngEff : ℤ) : Except String Range :=
  if ngEff > r.ng then .error "NgEff > Ng" else .ok { r with ngEff := ngEff }

/-- src/mesh/range.cpp 89-92: `Range::no_ghosts`. -/
def Range.noGhosts (r : Range) : Except String Range := r.withGhosts 0

/-- src/mesh/range.cpp 94-97: `Range::all_ghosts`. -/
def Range.allGhosts (r : Range) : Except String Range := r.withGhosts r.ng

/-- src/mesh/range.cpp 120-135: begin corner returned by `cell_range`. -/
def Range.cellBegin (ndim : ℕ) (r : Range) : Cell := fun a =>
  if a.val < ndim then r.nghost a - r.ngEff else r.nghost a

/-- src/mesh/range.cpp 120-135: end corner returned by `cell_range`. -/
def Range.cellEnd (ndim : ℕ) (r : Range) : Cell := fun a =>
  if a.val < ndim then r.nghost a + r.cornerMax a - r.cornerMin a + r.ngEff
  else r.nghost a + r.cornerMax a - r.cornerMin a

/-- What a rank knows about the decomposition after the constructor (src/mesh/grid.hpp 26-40). -/
structure GridTopo where
  ng : ℤ
  nghost : Cell
  nxGlob : Cell
  nxLocal : Cell
  nxLocalWg : Cell
  rankCart : Cell
  dimsCart : Cell
  range : Range
  isBorder : Fin 3 → Fin 2 → Bool

/-- src/mesh/grid.cpp 109-113: local number of cells along one direction. C++ integer division and
remainder truncate towards zero. -/
def localSize (N d r : ℤ) : ℤ :=
  let n := N.tdiv d
  if r < N.tmod d then n + 1 else n

/-- src/mesh/grid.cpp 110-117: first global cell of the rank along one direction. -/
def localStart (N d r : ℤ) : ℤ :=
  let c := N.tdiv d * r
  if r < N.tmod d then c + r else c + N.tmod d

/-- src/mesh/grid.cpp 48-60 and 90-128: constructor and `mpi_decomposition` for one rank of the
Cartesian communicator. `dims` is the result of `MPI_Dims_create` completed with ones (95-98) and
`rank` the Cartesian coordinates of the process (104); both come from MPI and are parameters. -/
def GridTopo.mk? (ndim : ℕ) (nxGlob dims rank : Cell) (ng : ℤ) : Except String GridTopo := do
  let nghost : Cell := fun a => if a.val < ndim then ng else 0
  let nxLocal : Cell := fun a => localSize (nxGlob a) (dims a) (rank a)
  let cmin : Cell := fun a => localStart (nxGlob a) (dims a) (rank a)
  let nxLocalWg : Cell := fun a => nxLocal a + 2 * nghost a
  let cmax : Cell := fun a => cmin a + nxLocal a
  let range ← Range.mk? ndim cmin cmax ng
  return { ng := ng, nghost := nghost, nxGlob := nxGlob, nxLocal := nxLocal, nxLocalWg := nxLocalWg
           rankCart := rank, dimsCart := dims, range := range
           isBorder := fun a f =>
             if f = 0 then decide (rank a = 0) else decide (rank a = dims a - 1) }

section Coordinates
variable {K : Type}

/-- A 1-dimensional view of extent `n`. -/
def View.line (n : ℤ) (x : ℤ → K) : View ℤ K := { dom := fun i => decide (0 ≤ i ∧ i < n), val := x }

/-- `Kokkos::deep_copy(x, Kokkos::subview(xGlob, pair(b, b + n)))` for a destination of extent `n`
(src/mesh/grid.cpp 137-139): element `l` of the destination receives element `b + l` of the source.
A subview that is not inside its parent is undefined behaviour. An empty or negative extent copies
nothing. -/
def copySlice (xGlob : View ℤ K) (b n : ℤ) : Option (View ℤ K) :=
  if ∀ l ∈ intRange 0 n, xGlob.dom (b + l) = true then
    some (View.line n fun l => xGlob.val (b + l))
  else none

/-- src/mesh/grid.cpp 134-139: the node coordinates of a rank along direction `a`. -/
def GridTopo.setNodes (g : GridTopo) (a : Fin 3) (xGlob : View ℤ K) : Option (View ℤ K) :=
  copySlice xGlob (g.range.cornerMin a) (g.nxLocalWg a + 1)

variable [Field K]

/-- src/mesh/grid.cpp 31-35: `dx(i) = x(i+1) - x(i)`, one iteration. -/
def cellSize (x : View ℤ K) (i : ℤ) : Option K := do
  let xr ← x.rd (i + 1)
  let xl ← x.rd i
  return xr - xl

/-- src/mesh/grid.cpp 37-44: `x_center(i) = (x(i) + x(i+1)) / 2`, one iteration. -/
def cellCenter (x : View ℤ K) (i : ℤ) : Option K := do
  let xl ← x.rd i
  let xr ← x.rd (i + 1)
  return (xl + xr) / 2

/-- src/mesh/grid_type.cpp 23-30: `compute_regular_mesh_1d` on an array of extent `n`. -/
def regularMesh (n ng : ℤ) (xmin dx : K) : View ℤ K :=
  View.line n fun i => xmin + ((i - ng : ℤ) : K) * dx

/-- src/mesh/grid_type.cpp 48-58 with the array extents of src/main.cpp 217-219: the global node
coordinates along one direction. -/
def regularExecute (ng nGlob : ℤ) (xmin xmax : K) : View ℤ K :=
  regularMesh (nGlob + 2 * ng + 1) ng xmin ((xmax - xmin) / (nGlob : K))

end Coordinates

end Heracles
