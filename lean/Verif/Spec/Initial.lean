import Verif.Model.Problems
import Verif.Lemmas.Geometry
import Verif.Spec.Ghost

/-!
# Specification: an initial state that does not depend on the decomposition
-/

namespace Heracles

variable {d n : ℕ}

/-- Number of a process of a Cartesian communicator (row-major order, as prescribed by the MPI standard). -/
def cartRank (dims rank : Cell) : ℤ := (rank 0 * dims 1 + rank 1) * dims 2 + rank 2

/-- The grid and the gravity of a rank of the domain with global nodes `X` (ghosts included) and acceleration `Gr` in each global
cell: the topology is that of the rank, the arrays are what `set_grid` computes. -/
structure RankGrid (tr : Trig ℝ) (geom : Geom) (nx dims : Cell) (ng : ℤ) (X : Fin 3 → ℤ → ℝ) (Gr : Cell → Fin d → ℝ) (rank : Cell)
    (topo : GridTopo) (g : GridData ℝ) (grav : GravField d ℝ) : Prop where
  ok : GridTopo.mk? d nx dims rank ng = .ok topo
  grid : ∃ l1 r l l', (∀ a, IsLineSchedule (l1 a) (topo.nxLocalWg a)) ∧ topo.range.allGhosts = .ok r ∧
    IsSchedule l (r.cellBegin d) (r.cellEnd d) ∧ IsSchedule l' (r.cellBegin d) (r.cellEnd d) ∧
    setGrid tr geom d topo l1 l l' (fun a => View.line (nx a + 2 * topo.nghost a + 1) (X a)) (GridData.alloc topo.nxLocalWg) = some g
  grav : ∀ c, inExt (localExt nx dims (nghostOf d ng) rank) c = true → ∀ a,
    grav c a = some (Gr (globalOf nx dims (nghostOf d ng) rank c) a)

/-- The initialisation `S` leaves the state `W` of the global domain on the interior of all ranks, the arrays being zero before, for all
process grids that satisfy `D` and all orders of the loop. -/
def InitialState (D : Cell → Prop) (S : Setup d n) (tr : Trig ℝ) (geom : Geom) (nx : Cell) (ng : ℤ) (X : Fin 3 → ℤ → ℝ)
    (Gr : Cell → Fin d → ℝ) (W : Cell → InitCell d n) : Prop :=
  ∀ dims rank topo g grav r l, D dims → (∀ a, 0 < dims a) → inBox 0 dims rank →
    RankGrid tr geom nx dims ng X Gr rank topo g grav → topo.range.noGhosts = .ok r → IsSchedule l (r.cellBegin d) (r.cellEnd d) →
    ∃ v, initLoop l (S (cartRank dims rank) topo g grav) ⟨inExt topo.nxLocalWg, fun _ => ⟨0, 0, 0, 0⟩⟩ = some v ∧
      v.dom = inExt topo.nxLocalWg ∧ ∀ c, inBox (r.cellBegin d) (r.cellEnd d) c →
        v.val c = W (globalOf nx dims (nghostOf d ng) rank c)

/-- The state left by the initialisation on the interior of all ranks is one state of the global domain, for all process grids that satisfy
`D` and all orders of the loop. -/
def SameInitialOn (D : Cell → Prop) (S : Setup d n) (tr : Trig ℝ) (geom : Geom) (nx : Cell) (ng : ℤ) (X : Fin 3 → ℤ → ℝ)
    (Gr : Cell → Fin d → ℝ) : Prop :=
  ∃ W : Cell → InitCell d n, InitialState D S tr geom nx ng X Gr W

/-- The initial state is the same on all process grids. -/
def SameInitial (S : Setup d n) (tr : Trig ℝ) (geom : Geom) (nx : Cell) (ng : ℤ) (X : Fin 3 → ℤ → ℝ) (Gr : Cell → Fin d → ℝ) : Prop :=
  SameInitialOn (fun _ => True) S tr geom nx ng X Gr

/-- An initialisation whose result on every domain does not depend on the decomposition. -/
def DecompositionFree (S : Setup d n) : Prop := ∀ tr geom (nx : Cell) (ng : ℤ) X Gr, (∀ a, 0 ≤ nx a) → 0 ≤ ng →
  SameInitial S tr geom nx ng X Gr

end Heracles
