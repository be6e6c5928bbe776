import Verif.Model.Distributed
import Verif.Model.PressureFix
import Verif.Model.Loop
import Verif.Model.Restart
import Verif.Model.Setup

/-!
# The program on all ranks

`main` of src/main.cpp from the arrays of the ranks to the files, with the kernels of the other model files: start or restart (187-344), main
loop (353-561), output and reading of files (src/io/io.cpp). Not part of this composition: the grid shift (src/main.cpp 486-524, off unless
asked for), the XDMF file (C44), the messages. Exact arithmetic: the test on NaN of line 400 is never true (C54 treats it).
-/

namespace Heracles

variable {d n : ℕ}

/-- Real arithmetic. -/
noncomputable def realOps : NumOps ℝ where
  add := (· + ·)
  sub := (· - ·)
  mul := (· * ·)
  div := (· / ·)
  zero := 0
  two := 2

/-- The choices of a run that do not depend on the decomposition (`hydro.policy` is not used, the time step follows `loop`). `temp` is
`eos.compute_temp_from_pres`; `top` the identity of `Kokkos::Min`; `fix` is `eps_pf` when `pressure_fix == "On"`. -/
structure ProgParams (d n : ℕ) where
  hydro : DistParams d n ℝ
  loop : LoopParams ℝ
  tIni : ℝ
  temp : ℝ → ℝ → ℝ
  top : ℝ
  fix : Option ℝ
  step : UserStepKind

/-- Memory of a rank and orders of its kernels, see `RankMem` (whose `grid` is replaced by the grid of the run); in addition the orders of
`pressure_fix`, of the user step, of the minimum of the internal energy, of `temperature`, and the array `T`. -/
structure ProgMem (d n : ℕ) extends RankMem d n ℝ where
  fixL : List Cell
  stepL : List Cell
  eparts : List (List Cell)
  tempL : List Cell
  T : View Cell ℝ

/-- What depends on the process grid: its extents, the `Grid` objects of its ranks, the orders of the boundary kernels, of `set_grid`, of
`conv_prim_to_cons` at the start and of the ranks when they write, the gravity computed from the density, the memory of the ranks in each
iteration. -/
structure Machine (d n : ℕ) where
  dims : Cell
  topo : Cell → GridTopo
  sched : Cell → Cell → List Cell
  gridL1 : Cell → Fin 3 → List ℤ
  gridL : Cell → List Cell
  gridL' : Cell → List Cell
  consL : Cell → List Cell
  writers : List Cell
  grav : DistView (Fields d n ℝ) → Cell → GravField d ℝ
  mem : ℕ → Cell → ProgMem d n

/-- The contents of a `Kokkos::LayoutLeft` array of extents `ext` and `L` components as a block of memory: the element at offset
`offsetLeft ext c l` is `f c l`. -/
def flat (ext : Cell) (L : ℤ) (f : Cell → ℤ → ℝ) : View ℤ ℝ :=
  View.line (ext 0 * (ext 1 * (ext 2 * L))) fun o =>
    f ![o % ext 0, o / ext 0 % ext 1, o / ext 0 / ext 1 % ext 2] (o / ext 0 / ext 1 / ext 2)

/-- Component `l` of a vector stored with its components as fourth index. -/
noncomputable def comp {m : ℕ} (v : Fin m → ℝ) (l : ℤ) : ℝ := if h : l.toNat < m then v ⟨l.toNat, h⟩ else 0

/-- The datasets of a file (src/io/config.yaml.cpp 83-170); `x` are the axes with their extents. -/
structure FluidFile (d n : ℕ) where
  rho : View (List ℤ) ℝ
  u : Fin d → View (List ℤ) ℝ
  P : View (List ℤ) ℝ
  E : View (List ℤ) ℝ
  T : View (List ℤ) ℝ
  fx : Fin n → View (List ℤ) ℝ
  nAxis : Fin 3 → ℤ
  x : Fin 3 → ℤ → ℝ

/-- src/io/io.cpp 196-318: `write_pdi`, executed by all ranks. -/
noncomputable def writeFluid (A : Machine d n) (nx : Cell) (nAxis : Fin 3 → ℤ) (x : Fin 3 → ℤ → ℝ) (D : DistView (Fields d n ℝ))
    (up : Cell → View Cell (VelPres d ℝ)) (T : Cell → View Cell ℝ) : Option (FluidFile d n) := do
  let field := fun (f : Cell → Cell → ℝ) => writeField [] [] A.topo A.writers (fun r => flat (D.ext r) 1 fun c _ => f r c) (newDataset nx 0)
  let rho ← field fun r c => (D.val r c).rho
  let u ← seqFin fun l : Fin d => writeField [(d : ℤ)] [(l.val : ℤ)] A.topo A.writers
    (fun r => flat (D.ext r) d fun c => comp ((up r).val c).u) (newDataset nx 0)
  let P ← field fun r c => ((up r).val c).P
  let E ← field fun r c => (D.val r c).E
  let T' ← field fun r c => (T r).val c
  let fx ← seqFin fun l : Fin n => writeField [(n : ℤ)] [(l.val : ℤ)] A.topo A.writers
    (fun r => flat (D.ext r) n fun c => comp (D.val r c).fx) (newDataset nx 0)
  return { rho := rho, u := u, P := P, E := E, T := T', fx := fx, nAxis := nAxis, x := x }

/-- src/io/io.cpp 366-430: the fields read by one rank into its arrays, zero so far; the velocity, the pressure and the density are read in
one transaction, the components one after the other (src/io/config.yaml.cpp 180-237). -/
noncomputable def readFluid (t : GridTopo) (f : FluidFile d n) : Option (View Cell (Fields d n ℝ) × View Cell (VelPres d ℝ)) := do
  let ext := t.nxLocalWg
  let rho ← readField [] [] t f.rho (flat ext 1 fun _ _ => 0)
  let u ← parFor (List.finRange d) (fun l mem => readField [(d : ℤ)] [(l.val : ℤ)] t (f.u l) mem) (flat ext d fun _ _ => 0)
  let P ← readField [] [] t f.P (flat ext 1 fun _ _ => 0)
  let fx ← parFor (List.finRange n) (fun l mem => readField [(n : ℤ)] [(l.val : ℤ)] t (f.fx l) mem) (flat ext n fun _ _ => 0)
  return (⟨inExt ext, fun c => { rho := rho.val (offsetLeft ext c 0), rhou := 0, E := 0
                                 fx := fun l => fx.val (offsetLeft ext c l.val) }⟩,
    ⟨inExt ext, fun c => { u := fun l => u.val (offsetLeft ext c l.val), P := P.val (offsetLeft ext c 0) }⟩)

/-- The state of a run: grids, loop variables with the conserved fields, files written so far, status. -/
structure ProgState (d n : ℕ) where
  grid : Cell → GridData ℝ
  nAxis : Fin 3 → ℤ
  x : Fin 3 → ℤ → ℝ
  s : LoopState (DistView (Fields d n ℝ)) ℝ
  files : List (LoopState (FluidFile d n) ℝ)
  status : Status

/-- Loop variables of a file. -/
def LoopState.withFluid {H H' K : Type} (s : LoopState H K) (h : H') : LoopState H' K :=
  { h := h, t := s.t, iter := s.iter, outputId := s.outputId, iterId := s.iterId, timeId := s.timeId }

/-- src/main.cpp 319-340, 401-420, 534-557: `temperature` and `write_pdi`; `up` are the arrays `u`, `P`. -/
noncomputable def progOutput (p : ProgParams d n) (nx : Cell) (A : Machine d n) (mem : Cell → ProgMem d n) (nAxis : Fin 3 → ℤ)
    (x : Fin 3 → ℤ → ℝ) (up : Cell → View Cell (VelPres d ℝ)) (s : LoopState (DistView (Fields d n ℝ)) ℝ) :
    Option (LoopState (FluidFile d n) ℝ) := do
  let T ← allRanks A.dims (fun r => temperature p.temp (mem r).tempL ((s.h.local r).comp Fields.rho) ((up r).comp VelPres.P) (mem r).T)
    fun r => (mem r).T
  let f ← writeFluid A nx nAxis x s.h up T
  return s.withFluid f

/-- src/main.cpp 459-475. -/
noncomputable def fixIfOn (p : ProgParams d n) (grid : GridData ℝ) (m : ProgMem d n) (dt : ℝ) (U : View Cell (Fields d n ℝ))
    (rec' : FaceArr d (Fields d n ℝ)) (new : View Cell (Fields d n ℝ)) : Option (View Cell (Fields d n ℝ)) :=
  match p.fix with
  | some eps => pressureFix p.hydro.eos grid dt eps m.fixL U rec' new
  | none => some new

/-- src/main.cpp 427-477: reconstruction, Godunov update, pressure fix if on, user step. -/
noncomputable def rankAdvance (p : ProgParams d n) (grid : GridData ℝ) (m : ProgMem d n) (grav : GravField d ℝ) (t dt : ℝ)
    (U : View Cell (Fields d n ℝ)) (up : View Cell (VelPres d ℝ)) : Option (View Cell (Fields d n ℝ)) := do
  let rec' ← hydroReconstruct p.hydro.lim p.hydro.eos p.hydro.tr p.hydro.geom grid grav (dt / 2) m.sc U up m.upRec m.faces
  let new ← godunov p.hydro.sol p.hydro.eos p.hydro.tr p.hydro.geom grid grav dt m.l m.l' U rec' m.new
  let new ← fixIfOn p grid m dt U rec' new
  userStepExecute some p.step t dt m.stepL new

/-- The arrays `u`, `P` of all ranks (src/main.cpp 311, 526). -/
noncomputable def progPrims (p : ProgParams d n) (A : Machine d n) (mem : Cell → ProgMem d n) (D : DistView (Fields d n ℝ)) :
    Option (Cell → View Cell (VelPres d ℝ)) :=
  distPrims p.hydro.eos A.dims (fun r => (mem r).toRankMem) D

/-- src/main.cpp 354-561: one turn of the loop, all ranks together. `clock` is the broadcast answer of line 388. The arrays `u`, `P` are
computed from the conserved fields at the end of the previous turn (526) or at the start (311); here this is done where they are used. -/
noncomputable def progStep (p : ProgParams d n) (nx : Cell) (nghost : Cell) (isBorder : Cell → Fin 3 → Fin 2 → Bool) (A : Machine d n)
    (mem : Cell → ProgMem d n) (clock : Bool) (z : ProgState d n) : Option (ProgState d n) :=
  match z.status with
  | .running => do
    let D := z.s.h
    let up ← progPrims p A mem D
    let dt0 ← timeStep p.hydro.lo p.hydro.eos p.hydro.tr p.hydro.geom (boxList 0 A.dims) (fun r => (mem r).parts) z.grid
      (fun r => (D.local r).comp Fields.rho) up
    match decideStep p.loop dt0 clock z.s with
    | .error _ => return { z with status := .failed }
    | .ok c => do
      let e ← minInternalEnergy realOps p.top (boxList 0 A.dims) (fun r => (mem r).eparts)
        (fun r => (D.local r).comp fun s => (s.rho, s.rhou, s.E))
      if e < 0 then do
        let f ← progOutput p nx A mem z.nAxis z.x up { z.s with outputId := z.s.outputId + 1, iterId := c.iterId, timeId := c.timeId }
        return { z with files := z.files ++ [f], status := .failed }
      else do
        let new ← allRanks A.dims (fun r => rankAdvance p (z.grid r) (mem r) (A.grav D r) z.s.t c.dt (D.local r) (up r)) fun r => (mem r).new
        let D' ← distBcs p.hydro.user A.sched p.hydro.bcs isBorder nghost A.dims p.hydro.order ⟨D.ext, fun r => (new r).val⟩
        let s' : LoopState (DistView (Fields d n ℝ)) ℝ :=
          { h := D', t := z.s.t + c.dt, iter := z.s.iter + 1, outputId := if c.makeOutput then z.s.outputId + 1 else z.s.outputId
            iterId := c.iterId, timeId := c.timeId }
        let status := if c.exit then .finished else .running
        if c.makeOutput then do
          let up' ← progPrims p A mem D'
          let f ← progOutput p nx A mem z.nAxis z.x up' s'
          return { z with s := s', files := z.files ++ [f], status := status }
        else return { z with s := s', status := status }
  | _ => return z

/-- src/main.cpp 236, 254: `set_grid` on all ranks, from the global nodes. -/
noncomputable def progGrids (p : ProgParams d n) (A : Machine d n) (x : Fin 3 → View ℤ ℝ) : Option (Cell → GridData ℝ) :=
  allRanks A.dims (fun r => setGrid p.hydro.tr p.hydro.geom d (A.topo r) (A.gridL1 r) (A.gridL r) (A.gridL' r) x
    (GridData.alloc (A.topo r).nxLocalWg)) fun r => GridData.alloc (A.topo r).nxLocalWg

/-- src/main.cpp 305-311 on arrays `rho`, `fx` (`U`, momentum and energy unset) and `u`, `P` (`up`). -/
noncomputable def progConserved (p : ProgParams d n) (nghost : Cell) (isBorder : Cell → Fin 3 → Fin 2 → Bool) (A : Machine d n)
    (U : Cell → View Cell (Fields d n ℝ)) (up : Cell → View Cell (VelPres d ℝ)) : Option (DistView (Fields d n ℝ)) := do
  let me ← allRanks A.dims (fun r => convPrimToCons p.hydro.eos (A.consL r) ((U r).comp Fields.rho) (up r)
    ((U r).comp fun s => { rhou := s.rhou, E := s.E })) fun r => (U r).comp fun s => { rhou := s.rhou, E := s.E }
  distBcs p.hydro.user A.sched p.hydro.bcs isBorder nghost A.dims p.hydro.order
    ⟨fun r => (A.topo r).nxLocalWg, fun r c => { (U r).val c with rhou := ((me r).val c).rhou, E := ((me r).val c).E }⟩

/-- src/main.cpp 187-344, not a restart: `x` are the nodes made by the grid type, `U` and `up` the arrays left by the initialisation. -/
noncomputable def progFresh (p : ProgParams d n) (nx nghost : Cell) (isBorder : Cell → Fin 3 → Fin 2 → Bool) (A : Machine d n)
    (x : Fin 3 → ℤ → ℝ) (U : Cell → View Cell (Fields d n ℝ)) (up : Cell → View Cell (VelPres d ℝ)) : Option (ProgState d n) := do
  let nAxis : Fin 3 → ℤ := fun a => nx a + 2 * nghost a + 1
  let grid ← progGrids p A fun a => View.line (nAxis a) (x a)
  let D ← progConserved p nghost isBorder A U up
  if 0 < p.loop.iterFreq ∨ 0 < p.loop.timeFreq then do
    let s : LoopState (DistView (Fields d n ℝ)) ℝ := { h := D, t := p.tIni, iter := 0, outputId := 0, iterId := 0, timeId := -1 }
    let up' ← progPrims p A (A.mem 0) D
    let f ← progOutput p nx A (A.mem 0) nAxis x up' s
    return { grid := grid, nAxis := nAxis, x := x, s := s, files := [f], status := .running }
  else
    return { grid := grid, nAxis := nAxis, x := x
             s := { h := D, t := p.tIni, iter := 0, outputId := -1, iterId := -1, timeId := -1 }, files := [], status := .running }

/-- src/main.cpp 187-241, 305-315: restart from a file. `none` also stands for the exception of `check_extent_dset`
(src/io/io_hdf5.hpp 55-69) on the axes. -/
noncomputable def progRestart (p : ProgParams d n) (nx nghost : Cell) (isBorder : Cell → Fin 3 → Fin 2 → Bool) (A : Machine d n)
    (f : LoopState (FluidFile d n) ℝ) : Option (ProgState d n) := do
  let nAxis : Fin 3 → ℤ := fun a => nx a + 2 * nghost a + 1
  let x ← seqFin fun a : Fin 3 => (readAxis (f.h.nAxis a) (nAxis a) (f.h.x a)).toOption
  let read ← allRanks A.dims (fun r => readFluid (A.topo r) f.h) fun _ => (⟨fun _ => false, fun _ => ⟨0, 0, 0, 0⟩⟩, ⟨fun _ => false, fun _ => ⟨0, 0⟩⟩)
  let grid ← progGrids p A x
  let D ← progConserved p nghost isBorder A (fun r => (read r).1) fun r => (read r).2
  return { grid := grid, nAxis := nAxis, x := fun a => (x a).val, s := f.withFluid D, files := [], status := .running }

/-- The run after `k` turns. -/
noncomputable def progRun (p : ProgParams d n) (nx nghost : Cell) (isBorder : Cell → Fin 3 → Fin 2 → Bool) (A : Machine d n)
    (clock : ℕ → Bool) (z : Option (ProgState d n)) : ℕ → Option (ProgState d n)
  | 0 => z
  | k + 1 => do
    let z' ← progRun p nx nghost isBorder A clock z k
    progStep p nx nghost isBorder A (A.mem k) (clock k) z'

end Heracles
