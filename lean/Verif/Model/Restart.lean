import Verif.Model.Mesh

/-!
# Saved fields

Model of the distributed part of `write_pdi` and `read_pdi` (src/io/io.cpp) with the selections of src/io/config.yaml.cpp. PDI and HDF5 are
external; their semantics here: an array exposed with sizes `[s, ..., s']` is a contiguous block in row-major order, a selection is a box of
indices in row-major order, and a transfer moves the elements of the memory selection to those of the dataset selection one by one in that
order. A selection that leaves the array or the dataset, or two selections with different numbers of elements, is an error (`none`).
-/

namespace Heracles

variable {V : Type}

/-- Offset of an element in a `Kokkos::LayoutLeft` array (src/utils/kokkos_shortcut.hpp 22-33) of extents `ext`; `l` is the fourth index,
0 for a 3-dimensional array. -/
def offsetLeft (ext c : Cell) (l : ℤ) : ℤ := c 0 + ext 0 * (c 1 + ext 1 * (c 2 + ext 2 * l))

/-- Offset of an element in a row-major array. -/
def rowMajor : List ℤ → List ℤ → ℤ
  | _ :: ns, i :: is => i * ns.foldr (· * ·) 1 + rowMajor ns is
  | _, _ => 0

/-- A box of indices: `start` and `size` of a `memory_selection` or `dataset_selection`. -/
structure Hyperslab where
  start : List ℤ
  size : List ℤ

/-- The indices of a selection in row-major order. -/
def indices : List ℤ → List ℤ → List (List ℤ)
  | b :: bs, n :: ns => (intRange b (b + n)).flatMap fun i => (indices bs ns).map fun is => i :: is
  | _, _ => [[]]

/-- A dataset of the given sizes: indices outside are refused. -/
def datasetDom : List ℤ → List ℤ → Bool
  | n :: ns, i :: is => decide (0 ≤ i ∧ i < n) && datasetDom ns is
  | [], [] => true
  | _, _ => false

/-- Transfer from memory to a dataset. -/
def h5Write (memSizes : List ℤ) (ms ds : Hyperslab) (mem : View ℤ V) (dset : View (List ℤ) V) : Option (View (List ℤ) V) :=
  let im := indices ms.start ms.size
  let id := indices ds.start ds.size
  if im.length = id.length then
    parFor (im.zip id) (fun p dset => do
      let v ← mem.rd (rowMajor memSizes p.1)
      dset.wr p.2 v) dset
  else none

/-- Transfer from a dataset to memory. -/
def h5Read (memSizes : List ℤ) (ms ds : Hyperslab) (dset : View (List ℤ) V) (mem : View ℤ V) : Option (View ℤ V) :=
  let im := indices ms.start ms.size
  let id := indices ds.start ds.size
  if im.length = id.length then
    parFor (im.zip id) (fun p mem => do
      let v ← dset.rd p.2
      mem.wr (rowMajor memSizes p.1) v) mem
  else none

/-- src/io/config.yaml.cpp 36-44: the sizes under which an array is exposed. `lead` is `[ndim]` for `u`, `[nfx]` for `fx`, empty for the
other fields; `nx_local_wg` is exposed by `write_pdi_init` (src/io/io.cpp 161-169). -/
def memSizes (lead : List ℤ) (t : GridTopo) : List ℤ := lead ++ [t.nxLocalWg 2, t.nxLocalWg 1, t.nxLocalWg 0]

/-- src/io/config.yaml.cpp 98-150, 166-174 and 185-222, 229-237: the `memory_selection`s. `comp` is `[l]` for component `l` of `u` or `fx`
(with size 1), empty for the other fields. -/
def memSelection (comp : List ℤ) (t : GridTopo) : Hyperslab :=
  { start := comp ++ [t.nghost 2, t.nghost 1, t.nghost 0]
    size := comp.map (fun _ => 1) ++ [t.nxLocal 2, t.nxLocal 1, t.nxLocal 0] }

/-- The `dataset_selection`s of the same lines; `start` is `Corner_min` (src/io/io.cpp 170-171). -/
def dataSelection (t : GridTopo) : Hyperslab :=
  { start := [t.range.cornerMin 2, t.range.cornerMin 1, t.range.cornerMin 0]
    size := [t.nxLocal 2, t.nxLocal 1, t.nxLocal 0] }

/-- src/io/config.yaml.cpp 90-97 and 155-165: a new dataset. -/
def newDataset (nxGlob : Cell) (zero : V) : View (List ℤ) V :=
  { dom := datasetDom [nxGlob 2, nxGlob 1, nxGlob 0], val := fun _ => zero }

/-- src/io/io.cpp 250-315: one field (or component) written by the ranks, one after the other in the order `ranks`; `mem r` is the memory of
rank `r`. -/
def writeField (lead comp : List ℤ) (topo : Cell → GridTopo) (ranks : List Cell) (mem : Cell → View ℤ V) (dset : View (List ℤ) V) :
    Option (View (List ℤ) V) :=
  parFor ranks (fun r dset => h5Write (memSizes lead (topo r)) (memSelection comp (topo r)) (dataSelection (topo r)) (mem r) dset) dset

/-- src/io/io.cpp 365-431: one field (or component) read by one rank. -/
def readField (lead comp : List ℤ) (t : GridTopo) (dset : View (List ℤ) V) (mem : View ℤ V) : Option (View ℤ V) :=
  h5Read (memSizes lead t) (memSelection comp t) (dataSelection t) dset mem

/-- src/io/io.cpp 359-361, 396-401 with src/io/io_hdf5.hpp 55-69: an axis. The file holds an array of extent `nFile`, the program expects
`n`; all ranks read all of it. -/
def readAxis (nFile n : ℤ) (file : ℤ → V) : Except String (View ℤ V) :=
  if nFile = n then .ok (View.line n file) else .error "HERACLES++ error: Extents do not match"

end Heracles
