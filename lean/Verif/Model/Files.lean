import Verif.Model.Output
import Verif.Model.Restart

/-!
# The content of an output file

Model of `write_pdi` and `read_pdi` (src/io/io.cpp 185-431) at the level of the datasets of the file: their names, sizes and values, as the
specification tree src/io/config.yaml.cpp declares them. PDI and HDF5 are external; on top of the conventions of Model/Restart: a dataset
that is neither declared nor of the shape of its data (a write with a `dataset_selection` to an undeclared name) is refused, reading a dataset that is
not in the file is refused, an event runs its writes and reads in the order of the tree. The attributes with the version of the code (io.cpp
317-323) are not modelled.
-/

namespace Heracles.Files
open Output

variable {K : Type}

/-- A dataset of reals: its sizes and its elements. -/
structure Dset (K : Type) where
  sizes : List ℤ
  val : List ℤ → K

/-- The elements that can be accessed. -/
def Dset.view (D : Dset K) : View (List ℤ) K := { dom := datasetDom D.sizes, val := D.val }

/-- An HDF5 file: the datasets with one integer, and the datasets of reals. -/
structure H5 (K : Type) where
  int : List Char → Option ℤ
  arr : List Char → Option (Dset K)

/-- Create or replace a dataset. -/
def H5.put (f : H5 K) (name : List Char) (D : Dset K) : H5 K := { f with arr := fun s => if s = name then some D else f.arr s }

/-- The exposed arrays of cells (src/io/config.yaml.cpp 36-44). -/
inductive Source
  | rho | u | P | E | T | fx
  deriving DecidableEq

/-- src/io/config.yaml.cpp 36-44: the leading size under which an array is exposed; `ndim` and `nfx` are exposed by `write_pdi_init` (src/io/io.cpp
143-158). -/
def leading (ndim nfx : ℕ) : Source → List ℤ
  | .u => [(ndim : ℤ)]
  | .fx => [(nfx : ℤ)]
  | _ => []

/-- What `write_pdi` gets: the counters, the time, the coefficient of the gas, the nodes (the same on all ranks), and the memory of the arrays of each rank. -/
structure Exposed (K : Type) where
  outputId : ℤ
  iterOutputId : ℤ
  timeOutputId : ℤ
  iter : ℤ
  t : K
  gamma : K
  axis : Fin 3 → View ℤ K
  mem : Source → Cell → View ℤ K

/-- The result of a transfer, as a dataset of the given sizes. -/
def ofTransfer (sizes : List ℤ) : Option (View (List ℤ) K) → Except String (Dset K)
  | some w => .ok { sizes := sizes, val := w.val }
  | none => .error "selection outside of an array"

/-- The names `x0`, `x1`, `x2`. -/
def nodesName (a : Fin 3) : List Char := if a = 0 then "x0".toList else if a = 1 then "x1".toList else "x2".toList

/-- src/io/config.yaml.cpp 40-42, 57-60, 68-85: the two datasets of one axis. `n` is `nx_glob_ng`, `g` is `n_ghost`. -/
def writeNodes (zero : K) (n g : Cell) (x : Fin 3 → View ℤ K) (f : H5 K) (a : Fin 3) : Except String (H5 K) := do
  let size := n a + 2 * g a + 1
  let all ← ofTransfer [size]
    (h5Write [size] ⟨[0], [size]⟩ ⟨[0], [size]⟩ (x a) { dom := datasetDom [size], val := fun _ => zero })
  let inner ← ofTransfer [n a + 1]
    (h5Write [size] ⟨[g a], [n a + 1]⟩ ⟨[0], [n a + 1]⟩ (x a) { dom := datasetDom [n a + 1], val := fun _ => zero })
  return (f.put (nodesName a) all).put (axisLabel a) inner

/-- src/io/config.yaml.cpp 61-67: a new file with the scalars of `write_replicated_data`. -/
def newFile (e : Exposed K) : H5 K :=
  { int := fun s => if s = "output_id".toList then some e.outputId else if s = "iter_output_id".toList then some e.iterOutputId
      else if s = "time_output_id".toList then some e.timeOutputId else if s = "iter".toList then some e.iter else none
    arr := fun s => if s = "current_time".toList then some ⟨[], fun _ => e.t⟩ else if s = "gamma".toList then some ⟨[], fun _ => e.gamma⟩ else none }

/-- src/io/io.cpp 209-249, src/io/config.yaml.cpp 53-85: the event `write_replicated_data`, executed by rank 0; `collision_policy: replace` starts a new
file. -/
def writeReplicated (zero : K) (n g : Cell) (e : Exposed K) : Except String (H5 K) :=
  (List.finRange 3).foldlM (writeNodes zero n g e.axis) (newFile e)

/-- One entry of a `write` or `read` section: the array, the component (empty or one index) and the name of the dataset. -/
structure FieldOp where
  source : Source
  comp : List ℤ
  dataset : List Char

/-- src/io/config.yaml.cpp 99-123 and 192-216: the components of the velocity, with their `when` clauses. -/
def velocityOps (ndim : ℕ) : List FieldOp :=
  [⟨.u, [0], "ux0".toList⟩] ++ (if 1 < ndim then [⟨.u, [1], "ux1".toList⟩] else []) ++ if 2 < ndim then [⟨.u, [2], "ux2".toList⟩] else []

/-- src/io/config.yaml.cpp 98-150: the `write` section of `write_distributed_data`. -/
def distributedOps (ndim : ℕ) : List FieldOp :=
  velocityOps ndim ++ [⟨.rho, [], "rho".toList⟩, ⟨.P, [], "P".toList⟩, ⟨.E, [], "E".toList⟩, ⟨.T, [], "T".toList⟩]

/-- src/io/config.yaml.cpp 90-97: its declared datasets. -/
def distributedSets : List (List Char) := ["ux0".toList, "ux1".toList, "ux2".toList, "rho".toList, "P".toList, "E".toList, "T".toList]

/-- src/io/config.yaml.cpp 166-174 and 229-237 with src/io/io.cpp 290-315 and 410-430: one event per passive scalar; `fx${ifx}` is the name with the
decimal digits of `ifx`. -/
def scalarOps (nfx : ℕ) : List FieldOp := (List.range nfx).map fun (i : ℕ) => ⟨.fx, [(i : ℤ)], "fx".toList ++ decimal i⟩

/-- src/io/config.yaml.cpp 155-165: the declared datasets of `write_fx`. -/
def scalarSets : List (List Char) :=
  ["fx0".toList, "fx1".toList, "fx2".toList, "fx3".toList, "fx4".toList, "fx5".toList, "fx6".toList, "fx7".toList, "fx8".toList, "fx9".toList]

/-- One write of an array of cells by all ranks. -/
def writeOp (zero : K) (ndim nfx : ℕ) (n : Cell) (topo : Cell → GridTopo) (ranks : List Cell) (mem : Source → Cell → View ℤ K)
    (declared : List (List Char)) (f : H5 K) (op : FieldOp) : Except String (H5 K) :=
  if op.dataset ∈ declared then do
    let D ← ofTransfer [n 2, n 1, n 0]
      (writeField (leading ndim nfx op.source) op.comp topo ranks (mem op.source) (newDataset n zero))
    return f.put op.dataset D
  else .error "Dataset selection is invalid in implicit dataset"

/-- src/io/io.cpp 185-315: `write_pdi`. -/
def writeFile (zero : K) (ndim nfx : ℕ) (n g : Cell) (topo : Cell → GridTopo) (ranks : List Cell) (e : Exposed K) : Except String (H5 K) := do
  let f ← writeReplicated zero n g e
  let f ← (distributedOps ndim).foldlM (writeOp zero ndim nfx n topo ranks e.mem distributedSets) f
  (scalarOps nfx).foldlM (writeOp zero ndim nfx n topo ranks e.mem scalarSets) f

/-- What one rank has after `read_pdi`. -/
structure Loaded (K : Type) where
  outputId : ℤ
  iterOutputId : ℤ
  timeOutputId : ℤ
  iter : ℤ
  t : K
  axis : Fin 3 → View ℤ K
  mem : Source → View ℤ K

/-- A dataset that must be in the file. -/
def require {α : Type} : Option α → Except String α
  | some x => .ok x
  | none => .error "dataset not found"

/-- src/io/io.cpp 359-361 with src/io/io_hdf5.hpp 51-69: `check_extent_dset` for a 1-dimensional array of extent `n`. -/
def checkAxis (f : H5 K) (name : List Char) (n : ℤ) : Except String Unit := do
  let D ← require (f.arr name)
  if D.sizes.length ≠ 1 then throw "HERACLES++ error: Expecting a 1d dataset"
  if D.sizes ≠ [n] then throw "HERACLES++ error: Extents do not match"

/-- One read of an array of cells by the rank with the decomposition `t`. -/
def readOp (ndim nfx : ℕ) (t : GridTopo) (f : H5 K) (mem : Source → View ℤ K) (op : FieldOp) : Except String (Source → View ℤ K) := do
  let D ← require (f.arr op.dataset)
  match readField (leading ndim nfx op.source) op.comp t D.view (mem op.source) with
  | some m => return fun s => if s = op.source then m else mem s
  | none => throw "selection outside of an array"

/-- src/io/config.yaml.cpp 223-225: an axis is read without selection, over the size of its exposure. -/
def readNodes (f : H5 K) (n g : Cell) (a : Fin 3) : Except String (View ℤ K) := do
  let D ← require (f.arr (nodesName a))
  return View.line (n a + 2 * g a + 1) fun i => D.val [i]

/-- src/io/config.yaml.cpp 185-222: the arrays of cells of `read_file`. -/
def readOps (ndim : ℕ) : List FieldOp := [⟨.rho, [], "rho".toList⟩] ++ velocityOps ndim ++ [⟨.P, [], "P".toList⟩]

/-- src/io/io.cpp 326-431: `read_pdi` on the rank with the decomposition `t`; `mem` is the memory of its arrays before. -/
def readFile (ndim nfx : ℕ) (n g : Cell) (t : GridTopo) (f : H5 K) (mem : Source → View ℤ K) : Except String (Loaded K) := do
  (List.finRange 3).forM fun a => checkAxis f (nodesName a) (n a + 2 * g a + 1)
  let outputId ← require (f.int "output_id".toList)
  let iterOutputId ← require (f.int "iter_output_id".toList)
  let timeOutputId ← require (f.int "time_output_id".toList)
  let iter ← require (f.int "iter".toList)
  let time ← require (f.arr "current_time".toList)
  let mem ← (readOps ndim).foldlM (readOp ndim nfx t f) mem
  let x0 ← readNodes f n g 0
  let x1 ← readNodes f n g 1
  let x2 ← readNodes f n g 2
  let mem ← (scalarOps nfx).foldlM (readOp ndim nfx t f) mem
  return { outputId := outputId, iterOutputId := iterOutputId, timeOutputId := timeOutputId, iter := iter, t := time.val [], axis := ![x0, x1, x2], mem := mem }

end Heracles.Files
