import Verif.Model.InitBits
import Verif.Spec.Ghost
import Verif.Lemmas.KernelRun

/-!
# Specification: the state at the start of a run in double precision
-/

namespace Heracles

variable {d : ℕ}

/-- The grid of a rank for the regular Cartesian mesh of the box from `xmin` to `xmax`: the topology is that of the rank, the arrays are what
`set_grid` computes, with the operations `k`, from the global nodes. -/
structure BitsGrid (k : Kernels d 0 Ieee) (nx dims : Cell) (ng : ℤ) (xmin xmax : Fin 3 → Ieee) (rank : Cell) (topo : GridTopo)
    (g : GridData Ieee) : Prop where
  ok : GridTopo.mk? d nx dims rank ng = .ok topo
  grid : letI := ieeeArith noTrig
    ∃ l1 r l l', (∀ a, IsLineSchedule (l1 a) (topo.nxLocalWg a)) ∧ topo.range.allGhosts = .ok r ∧
    IsSchedule l (r.cellBegin d) (r.cellEnd d) ∧ IsSchedule l' (r.cellBegin d) (r.cellEnd d) ∧
    kSetGrid k .cartesian topo l1 l l' (fun a => oRegularExecute (topo.nghost a) (nx a) (xmin a) (xmax a)) (kAlloc topo.nxLocalWg) = some g

/-- On every process grid, whatever the order of the loops, the initialisation `S` runs without access outside the arrays and leaves the
state `W` of the global domain in the interior of all ranks. -/
def StartsAs (k : Kernels d 0 Ieee) (S : BitsKernel d) (nx : Cell) (ng : ℤ) (xmin xmax : Fin 3 → Ieee) (W : Cell → Prim d Ieee) : Prop :=
  ∀ dims rank topo g r l v0, (∀ a, 0 < dims a) → inBox 0 dims rank → BitsGrid k nx dims ng xmin xmax rank topo g →
    topo.range.noGhosts = .ok r → IsSchedule l (r.cellBegin d) (r.cellEnd d) → v0.dom = inExt topo.nxLocalWg →
    ∃ v, bitsLoop l (S g) v0 = some v ∧ v.dom = v0.dom ∧ ∀ c, inBox (r.cellBegin d) (r.cellEnd d) c →
      v.val c = W (globalOf nx dims (nghostOf d ng) rank c)

/-- The lower node of cell `i` of the domain. -/
def bNode (n : ℤ) (xmin xmax : Ieee) (i : ℤ) : Ieee :=
  letI := ieeeArith noTrig
  oNode 0 xmin (oLength n xmin xmax) i

/-- The size of cell `i` of the domain. -/
def bSize (n : ℤ) (xmin xmax : Ieee) (i : ℤ) : Ieee := (bNode n xmin xmax (i + 1)).sub (bNode n xmin xmax i)

/-- The centre of cell `i` of the domain. -/
def bCenter (n : ℤ) (xmin xmax : Ieee) (i : ℤ) : Ieee := ((bNode n xmin xmax i).add (bNode n xmin xmax (i + 1))).div (.lit 2)

end Heracles
