import Verif.Model.Mesh

/-!
# Specification vocabulary for distributed fields

`localStart`/`localSize` are the corners and sizes reported by the grid of a rank (their meaning is
fixed by C01).
-/

namespace Heracles

/-- Global cell (before periodic wrapping) seen by local cell `c` of a rank. -/
def globalOf (nx dims nghost rank c : Cell) : Cell :=
  fun a => localStart (nx a) (dims a) (rank a) + c a - nghost a

/-- Periodic wrapping of a global index. -/
def wrap (nx c : Cell) : Cell := fun a => c a % nx a

/-- Extents of the local arrays. -/
def localExt (nx dims nghost rank : Cell) : Cell :=
  fun a => localSize (nx a) (dims a) (rank a) + 2 * nghost a

/-- Ghost widths per direction (`Grid::Nghost`): `ng` in active directions, 0 otherwise. -/
def nghostOf (ndim : ℕ) (ng : ℤ) : Cell := fun a => if a.val < ndim then ng else 0

end Heracles
