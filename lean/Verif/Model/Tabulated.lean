import Verif.Model.Problems
import Verif.Model.Restart
import Verif.Model.Distributed

/-!
# The setup `v1d`

Model of `src/setups/v1d/setup.hpp`: initial state and grid read from a file, criterion for the shift of the grid. HDF5 and PDI as in the
model of the saved fields. Opening a file that does not exist is a parameter that is `none`.
-/

namespace Heracles

variable {d n : ℕ}

/-- A dataset of an HDF5 file. -/
structure H5Dataset where
  sizes : List ℤ
  val : List ℤ → ℝ

/-- Its elements, refused outside of its sizes. -/
def H5Dataset.view (s : H5Dataset) : View (List ℤ) ℝ := ⟨datasetDom s.sizes, s.val⟩

/-- The datasets of the initial file that the setup looks for; `none` when there is no dataset of this name. -/
structure TabFile where
  x0 : Option H5Dataset
  rho : Option H5Dataset
  u : Option H5Dataset
  P : Option H5Dataset
  fx : Option H5Dataset

/-- src/io/io_hdf5.hpp 25-30: the wrapper of HDF5 identifiers refuses an invalid one. -/
def h5Open {α : Type} : Option α → Except String α
  | some x => .ok x
  | none => .error "HERACLES++ error: creating h5 id failed"

/-- src/io/io_hdf5.hpp 55-69: `check_extent_dset`. -/
def checkExtent (s : Option H5Dataset) (sizes : List ℤ) : Except String H5Dataset := do
  let s ← h5Open s
  if s.sizes.length ≠ sizes.length then .error "HERACLES++ error: Expecting a 1d dataset"
  else if s.sizes ≠ sizes then .error "HERACLES++ error: Extents do not match"
  else .ok s

/-- The arrays filled by an initialisation. -/
structure InitArrays (d n : ℕ) where
  rho : View Cell ℝ
  u : Fin d → View Cell ℝ
  P : View Cell ℝ
  fx : Fin n → View Cell ℝ

/-- The orders of the loops of the broadcasts. -/
structure TabScheds (d n : ℕ) where
  rho : List Cell
  u : Fin d → List Cell
  P : List Cell
  fx : Fin n → List Cell

/-- src/io/config.yaml.cpp 45-47, 242-253: one profile, read in the local array of extent `Nx_local_ng[0]`. No memory selection: the whole
array. -/
def readProfile (t : GridTopo) (s : H5Dataset) : Option (View ℤ ℝ) :=
  h5Read [t.nxLocal 0] ⟨[0], [t.nxLocal 0]⟩ ⟨[t.range.cornerMin 0], [t.nxLocal 0]⟩ s.view (View.line (t.nxLocal 0) fun _ => 0)

/-- src/io/config.yaml.cpp 48, 254-258: the profiles of the passive scalars, read in the `LayoutLeft` array `fx_1d` of extents
`(Nx_local_ng[0], nfx)`; nothing is read without scalars. -/
def readScalars (n : ℕ) (t : GridTopo) (s : H5Dataset) : Option (View ℤ ℝ) :=
  if 0 < n then
    h5Read [(n : ℤ), t.nxLocal 0] ⟨[0, 0], [(n : ℤ), t.nxLocal 0]⟩ ⟨[0, t.range.cornerMin 0], [(n : ℤ), t.nxLocal 0]⟩ s.view
      (View.line ((n : ℤ) * t.nxLocal 0) fun _ => 0)
  else some (View.line ((n : ℤ) * t.nxLocal 0) fun _ => 0)

/-- `Kokkos::subview(fx_1d, ALL, ifx)` of a `LayoutLeft` array with `m` rows. -/
def column (m : ℤ) (v : View ℤ ℝ) (l : ℤ) : View ℤ ℝ := ⟨fun i => decide (0 ≤ i ∧ i < m) && v.dom (i + m * l), fun i => v.val (i + m * l)⟩

/-- src/setups/v1d/setup.hpp 94-128, after the checks: reading and broadcasts on one rank. `ghostX` is `range.Nghost[0]`. -/
def tabFill (t : GridTopo) (l : TabScheds d n) (rho u P fx : H5Dataset) (out : InitArrays d n) : Option (InitArrays d n) := do
  let rho1 ← readProfile t rho
  let u1 ← readProfile t u
  let P1 ← readProfile t P
  let fx1 ← readScalars n t fx
  -- 120
  let orho ← broadcastLine (t.range.nghost 0) l.rho rho1 out.rho
  -- 121-124
  let ou ← seqFin fun i : Fin d =>
    if i.val = 0 then broadcastLine (t.range.nghost 0) (l.u i) u1 (out.u i) else broadcastScalar (l.u i) 0 (out.u i)
  -- 125
  let oP ← broadcastLine (t.range.nghost 0) l.P P1 out.P
  -- 126-128
  let ofx ← seqFin fun i : Fin n => broadcastLine (t.range.nghost 0) (l.fx i) (column (t.nxLocal 0) fx1 i.val) (out.fx i)
  return { rho := orho, u := ou, P := oP, fx := ofx }

/-- src/setups/v1d/setup.hpp 67-129: `InitializationSetup::execute` on one rank. -/
def tabInit (file : Option TabFile) (t : GridTopo) (l : TabScheds d n) (out : InitArrays d n) : Except String (Option (InitArrays d n)) := do
  -- 80-84
  let f ← h5Open file
  let rho ← checkExtent f.rho [t.nxGlob 0]
  let u ← checkExtent f.u [t.nxGlob 0]
  let P ← checkExtent f.P [t.nxGlob 0]
  let fx ← checkExtent f.fx [(n : ℤ), t.nxGlob 0]
  return tabFill t l rho u P fx out

/-- src/setups/v1d/setup.hpp 140-173: `GridSetup::execute`: nodes of the first direction from the file (src/io/config.yaml.cpp 39, 259-264:
all of the dataset), regular nodes in the others. The arrays have the extents of src/main.cpp 217-219. -/
noncomputable def tabGrid (file : Option TabFile) (nghost nx : Cell) (xmin xmax : Fin 3 → ℝ) : Except String (Fin 3 → View ℤ ℝ) := do
  let f ← h5Open file
  let n0 := nx 0 + 2 * nghost 0 + 1
  let x0 ← checkExtent f.x0 [n0]
  return ![View.line n0 fun i => x0.val [i], regularExecute (nghost 1) (nx 1) (xmin 1) (xmax 1), regularExecute (nghost 2) (nx 2) (xmin 2) (xmax 2)]

/-- The first cell and the cell past the end of the loop of src/setups/v1d/setup.hpp 207-214. -/
def shiftWindow (cellShift : ℤ) (t : GridTopo) : Cell × Cell :=
  (![t.nxLocal 0 - cellShift, t.nghost 1, t.nghost 2],
   ![t.nghost 0 + t.nxLocal 0, t.nghost 1 + t.nxLocal 1, t.nghost 2 + t.nxLocal 2])

/-- src/setups/v1d/setup.hpp 205-216 on one rank: its contribution to `vmax`. `lo` is the identity of `Kokkos::Max`, `parts` how the loop is
distributed. -/
noncomputable def shiftSpeed (lo : ℝ) (t : GridTopo) (parts : List (List Cell)) (U : View Cell (Fields (d + 1) n ℝ)) : Option ℝ :=
  if t.rankCart 0 = t.dimsCart 0 - 1 then
    parReduce lo kmax parts fun c v => do
      let s ← U.rd c
      return kmax (s.rhou 0 / s.rho) v
  else some 0

/-- src/setups/v1d/setup.hpp 184-219: `UserShiftCriterion::execute`, by all ranks together. The test of line 195 is made by the process of
coordinates `(dims[0] - 1, 0, 0)` and broadcast. -/
noncomputable def tabShift (vmaxShift : ℝ) (cellShift : ℤ) (lo : ℝ) (dims : Cell) (topo : Cell → GridTopo) (parts : Cell → List (List Cell))
    (D : DistView (Fields (d + 1) n ℝ)) : Except String (Option Bool) :=
  if (topo ![dims 0 - 1, 0, 0]).nxLocal 0 < cellShift then .error "The shift criterion is greater than the size of the last MPI process"
  else .ok do
    let v ← (boxList 0 dims).mapM fun r => shiftSpeed lo (topo r) (parts r) (D.local r)
    let vmax ← allReduce kmax v
    return decide (vmax ≥ vmaxShift)

end Heracles
