import Verif.Model.Reduce
import Verif.Model.Geometry
import Verif.Model.Boundary

/-!
# Several iterations on a decomposed domain

The part of the main loop of `src/main.cpp` that acts on the fluid, executed by all ranks of a Cartesian process grid. The
kernels are those of the other model files; this file only composes them. Not part of this composition: the test on the internal
energy (397-425), the pressure fix (459-475, off unless asked for), the user step (477, off by default) and the grid shift
(486-524, off by default).
-/

namespace Heracles

variable {d n : ℕ} {K : Type}

/-- What a rank owns besides the conserved fields: its grid, the arrays `u`, `P` (src/main.cpp 192-193), the face arrays (195-198),
the members `m_u_rec`, `m_P_rec` of the reconstruction, the arrays `rho_new`, ... (200-203), and the orders in which its kernels
run. The previous contents of the arrays and the orders are arbitrary, and may differ from one iteration to the next. -/
structure RankMem (d n : ℕ) (K : Type) where
  grid : GridData K
  conv : List Cell
  parts : List (List Cell)
  sc : RecScheds d n
  l : List Cell
  l' : List Cell
  up : View Cell (VelPres d K)
  upRec : FaceArr d (VelPres d K)
  faces : FaceArr d (Fields d n K)
  new : View Cell (Fields d n K)

/-- All ranks of the process grid execute `f`; the whole fails as soon as one of them does. Outside the process grid there is no
rank, `dflt` only completes the function. -/
def allRanks {V : Type} (dims : Cell) (f : Cell → Option V) (dflt : Cell → V) : Option (Cell → V) :=
  if ∀ r ∈ boxList 0 dims, (f r).isSome = true then some fun r => (f r).getD (dflt r) else none

/-- The conserved fields of a rank. -/
def DistView.local {V : Type} (D : DistView V) (rank : Cell) : View Cell V := ⟨inExt (D.ext rank), D.val rank⟩

/-- src/main.cpp 307 and 479-484: the boundary conditions of all ranks. -/
def distBcs [Neg K] (user : UserBc d n K) (sched : Cell → Cell → List Cell) (bcs : Fin d → Fin 2 → BcKind)
    (isBorder : Cell → Fin 3 → Fin 2 → Bool) (nghost dims : Cell) (order : List (Option ℕ)) (D : DistView (Fields d n K)) :
    Option (DistView (Fields d n K)) := do
  let v ← allRanks dims (bcUpdate user sched bcs isBorder nghost dims order D) D.local
  return ⟨D.ext, fun r => (v r).val⟩

section
variable [Field K] [LinearOrder K]

/-- src/main.cpp 311 and 526: `u` and `P` of all ranks, ghosts included. -/
def distPrims (eos : EoS K) (dims : Cell) (M : Cell → RankMem d n K) (D : DistView (Fields d n K)) :
    Option (Cell → View Cell (VelPres d K)) :=
  allRanks dims (fun r => convConsToPrim eos (M r).conv ((D.local r).comp Fields.rho)
    ((D.local r).comp fun s => { rhou := s.rhou, E := s.E }) (M r).up) fun r => (M r).up

/-- The choices of a run that do not depend on the decomposition. `policy` is how lines 355-395 of src/main.cpp turn the values
returned by `time_step` so far, the last one first, into the time step of the iteration. -/
structure DistParams (d n : ℕ) (K : Type) where
  lim : Limiter
  sol : Solver
  eos : EoS K
  tr : Trig K
  geom : Geom
  lo : K
  policy : List K → K
  user : UserBc d n K
  bcs : Fin d → Fin 2 → BcKind
  order : List (Option ℕ)

/-- src/main.cpp 354-355, 427-457, 479-484 and 526 (the latter executed at the start of the next iteration, nothing happens to the
fluid in between): one iteration. `grav D r` is the gravity of rank `r` computed from the density (src/main.cpp 309, 528). -/
def distIter (p : DistParams d n K) (sched : Cell → Cell → List Cell) (isBorder : Cell → Fin 3 → Fin 2 → Bool) (nghost dims : Cell)
    (grav : DistView (Fields d n K) → Cell → GravField d K) (M : Cell → RankMem d n K) (s : DistView (Fields d n K) × List K) :
    Option (DistView (Fields d n K) × List K) := do
  let D := s.1
  let up ← distPrims p.eos dims M D
  let dt0 ← timeStep p.lo p.eos p.tr p.geom (boxList 0 dims) (fun r => (M r).parts) (fun r => (M r).grid)
    (fun r => (D.local r).comp Fields.rho) up
  let dt := p.policy (dt0 :: s.2)
  let new ← allRanks dims (fun r => hydroStep p.lim p.sol p.eos p.tr p.geom (M r).grid (grav D r) dt (M r).sc (M r).l (M r).l'
    (D.local r) (up r) (M r).upRec (M r).faces (M r).new) fun r => (M r).new
  let D' ← distBcs p.user sched p.bcs isBorder nghost dims p.order ⟨D.ext, fun r => (new r).val⟩
  return (D', dt0 :: s.2)

/-- src/main.cpp 307, then `k` iterations. `M i` is the memory of the ranks in iteration `i`. -/
def distRun (p : DistParams d n K) (sched : Cell → Cell → List Cell) (isBorder : Cell → Fin 3 → Fin 2 → Bool) (nghost dims : Cell)
    (grav : DistView (Fields d n K) → Cell → GravField d K) (M : ℕ → Cell → RankMem d n K) (D : DistView (Fields d n K)) :
    ℕ → Option (DistView (Fields d n K) × List K)
  | 0 => do
    let D' ← distBcs p.user sched p.bcs isBorder nghost dims p.order D
    return (D', [])
  | k + 1 => do
    let s ← distRun p sched isBorder nghost dims grav M D k
    distIter p sched isBorder nghost dims grav (M k) s

end

end Heracles
