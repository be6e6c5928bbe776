import Verif.Model.Mesh

/-!
# Halo exchange between MPI processes

Model of `DistributedBoundaryCondition::ghost_sync` (src/boundary_distribute.cpp 75-120) and of the
synchronisation loop of `operator()` (src/boundary_distribute.hpp 63-67).

All ranks are modelled together: a distributed array is a function of the Cartesian coordinates of
the rank. `V` is the tuple of the values of all the synchronised views at one cell (density, momentum
components, energy, scalars: src/boundary_distribute.hpp 52-61); the code copies view `i` to and from
slice `i` of the buffer, i.e. handles the tuple componentwise. `mpi_device_aware` and the host/device
mirrors of the buffer are not modelled here (see `DualView`).
-/

namespace Heracles

/-- A distributed 3-dimensional array: extents and contents on each rank. -/
structure DistView (V : Type) where
  ext : Cell → Cell
  val : Cell → Cell → V

/-- `MPI_Cart_shift` on the fully periodic communicator (src/mesh/grid.cpp 99-101): the rank whose
data are received, for displacement `disp` along direction `a`. -/
def cartSource (dims rank : Cell) (a : Fin 3) (disp : ℤ) : Cell :=
  Function.update rank a ((rank a - disp) % dims a)

/-- src/boundary_distribute.cpp 86: first index of the slab that is sent. -/
def sendFirst (ng ext : ℤ) (face : Fin 2) : ℤ := if face = 0 then ng else ext - 2 * ng

/-- src/boundary_distribute.cpp 111: first index of the slab that is filled. -/
def recvFirst (ng ext : ℤ) (face : Fin 2) : ℤ := if face = 0 then ext - ng else 0

/-- src/boundary_distribute.cpp 106: displacement of the shift. -/
def shiftDisp (face : Fin 2) : ℤ := if face = 0 then -1 else 1

/-- Both subviews of rank `rank` are inside its array (otherwise undefined behaviour) and its buffer
has the same extents as the buffer of the rank it receives from, in the directions other than `a`
(otherwise the element count of `MPI_Sendrecv_replace`, line 108, does not match). -/
def syncSafe {V : Type} (nghost dims : Cell) (a : Fin 3) (face : Fin 2) (D : DistView V) (rank : Cell) :
    Prop :=
  let e := D.ext rank a
  (0 ≤ nghost a ∧ 0 ≤ sendFirst (nghost a) e face ∧ sendFirst (nghost a) e face + nghost a ≤ e ∧
   0 ≤ recvFirst (nghost a) e face ∧ recvFirst (nghost a) e face + nghost a ≤ e) ∧
  ∀ b, b ≠ a → D.ext (cartSource dims rank a (shiftDisp face)) b = D.ext rank b

instance {V : Type} (nghost dims : Cell) (a : Fin 3) (face : Fin 2) (D : DistView V) (rank : Cell) :
    Decidable (syncSafe nghost dims a face D rank) := by unfold syncSafe; infer_instance

/-- src/boundary_distribute.cpp 81-94: contents of the send buffer of a rank. -/
def sendBuf {V : Type} (nghost : Cell) (a : Fin 3) (face : Fin 2) (D : DistView V) (rank b : Cell) : V :=
  D.val rank (Function.update b a (b a + sendFirst (nghost a) (D.ext rank a) face))

/-- src/boundary_distribute.cpp 75-120: one call of `ghost_sync`, executed by all ranks of the process
grid `dims`. -/
def ghostSync {V : Type} (nghost dims : Cell) (a : Fin 3) (face : Fin 2) (D : DistView V) :
    Option (DistView V) :=
  if ∀ rank ∈ boxList 0 dims, syncSafe nghost dims a face D rank then
    some { D with
      val := fun rank c =>
        let first := recvFirst (nghost a) (D.ext rank a) face
        if first ≤ c a ∧ c a < first + nghost a then
          -- 106-108: the buffer now holds what the source rank packed
          sendBuf nghost a face D (cartSource dims rank a (shiftDisp face))
            (Function.update c a (c a - first))
        else D.val rank c }
  else none

/-- src/boundary_distribute.hpp 63-67: synchronisation in all directions and on both faces, in code
order. -/
def ghostSyncAll {V : Type} (ndim : ℕ) (nghost dims : Cell) (D : DistView V) : Option (DistView V) :=
  ((List.finRange 3).filter (fun a => a.val < ndim)).foldlM (fun D a => do
    let D ← ghostSync nghost dims a 0 D
    ghostSync nghost dims a 1 D) D

end Heracles
