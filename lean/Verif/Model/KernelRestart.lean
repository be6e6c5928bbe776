import Verif.Model.KernelRun

/-!
# Stop and restart with open arithmetic

The file of a state holds the density, the velocity, the pressure and the scalars (src/io/io.cpp; what is in it and what a restart
reads back is C79), so a restart goes through the primitive variables.
-/

namespace Heracles

variable {d n : ℕ} {F : Type}

/-- src/main.cpp 526, then, in the restarted run, 225-238 and 305: the last turn before the file computes `u` and `P` on the whole
array (order `conv`), the restart reads `rho`, `u`, `P`, `fx` into the cells without ghosts and computes `rhou` and `E` there (order
`l`). The halos, that the boundary conditions of line 307 fill afterwards, are kept here. `up`, `me`: previous contents of `u`, `P`
and of `rhou`, `E`. -/
def kReload (k : Kernels d n F) (conv l : List Cell) (U : View Cell (Fields d n F)) (up : View Cell (VelPres d F))
    (me : View Cell (MomEn d F)) : Option (View Cell (Fields d n F)) := do
  let up' ← kConsToPrim k conv (U.comp Fields.rho) (U.comp fun s => { rhou := s.rhou, E := s.E }) up
  let me' ← kPrimToCons k l (U.comp Fields.rho) up' me
  return ⟨U.dom, fun c => { U.val c with rhou := (me'.val c).rhou, E := (me'.val c).E }⟩

/-- All ranks (same process grid before and after). -/
def kRestart (k : Kernels d n F) (dims : Cell) (conv l : Cell → List Cell) (up : Cell → View Cell (VelPres d F))
    (me : Cell → View Cell (MomEn d F)) (D : DistView (Fields d n F)) : Option (DistView (Fields d n F)) := do
  let v ← allRanks dims (fun r => kReload k (conv r) (l r) (D.local r) (up r) (me r)) fun r => D.local r
  return ⟨D.ext, fun r => (v r).val⟩

end Heracles
