import Verif.Model.Program
import Verif.Model.Moving

/-!
# The program with a shifting grid

`main` of src/main.cpp with the shift of the grid (486-524), which Model/Program leaves out.
-/

namespace Heracles

variable {d n : ℕ}

/-- What the shift adds to a process grid: `make_gravity`, from the grids and the fields of the ranks (528; replaces the member `grav`); the
criterion of the setup, by all ranks together (487; `none` also stands for an exception); the orders of the copies of `shift_grid`. -/
structure MovMachine (d n : ℕ) extends Machine d n where
  gravOf : (Cell → GridData ℝ) → DistView (Fields d n ℝ) → Cell → GravField d ℝ
  crit : (Cell → GridData ℝ) → DistView (Fields d n ℝ) → Option Bool
  shiftL : Cell → List Cell

/-- The process grid while the ranks have the grids `grid`. -/
def MovMachine.at (M : MovMachine d n) (grid : Cell → GridData ℝ) : Machine d n := { M.toMachine with grav := M.gravOf grid }

/-- The state of a run: in addition the boundary conditions `bcs_array` and whether the criterion is that of the setup (`false`:
`NoShiftGrid`). -/
structure MovState (d n : ℕ) extends ProgState d n where
  bcs : Fin d → Fin 2 → BcKind
  active : Bool

/-- The choices of a run with the boundary conditions `b`. -/
def ProgParams.withBcs (p : ProgParams d n) (b : Fin d → Fin 2 → BcKind) : ProgParams d n := { p with hydro := { p.hydro with bcs := b } }

/-- src/main.cpp 493: `bcs_array[(0 * 2) + 1] = NullGradient`. -/
def openOuter (bcs : Fin d → Fin 2 → BcKind) : Fin d → Fin 2 → BcKind := fun a f => if a.val = 0 ∧ f = 1 then .nullGradient else bcs a f

/-- src/main.cpp 487: the criterion in force. -/
def movCriterion (M : MovMachine d n) (z : MovState d n) : Option Bool := if z.active then M.crit z.grid z.s.h else some false

/-- src/main.cpp 486-524, where `z.s.h` are the fields after line 484; old and new fields are equal then (481-484). Every rank shifts its own
copy of the nodes; all copies are equal, that of rank 0 is kept here. -/
noncomputable def movShift (p : ProgParams d n) (rmax : ℝ) (nx nghost : Cell) (isBorder : Cell → Fin 3 → Fin 2 → Bool) (M : MovMachine d n)
    (z : MovState d n) : Option (MovState d n) := do
  let D := z.s.h
  let shift ← movCriterion M z
  if shift then do
    -- 490
    let xout ← (View.line (z.nAxis 0) (z.x 0)).rd (nx 0 + nghost 0 + 1)
    if xout ≥ rmax then do
      let D' ← distBcs p.hydro.user M.sched (openOuter z.bcs) isBorder nghost M.dims p.hydro.order D
      return { z with s := { z.s with h := D' }, bcs := openOuter z.bcs, active := false }
    else do
      let res ← allRanks M.dims (fun r => shiftGrid p.hydro.tr p.hydro.geom d (M.topo r) (M.shiftL r) (M.gridL1 r) (M.gridL r) (M.gridL' r)
        (D.local r) (D.local r) (z.nAxis 0) (fun a => View.line (z.nAxis a) (z.x a)) (z.grid r))
        fun r => (D.local r, fun a => View.line (z.nAxis a) (z.x a), z.grid r)
      let D' ← distBcs p.hydro.user M.sched z.bcs isBorder nghost M.dims p.hydro.order ⟨D.ext, fun r => (res r).1.val⟩
      return { z with grid := fun r => (res r).2.2, x := fun a => ((res 0).2.1 a).val, s := { z.s with h := D' } }
  else return z

/-- src/main.cpp 354-561: one turn of the loop, all ranks together; `progStep` with the shift. -/
noncomputable def movStep (p0 : ProgParams d n) (rmax : ℝ) (nx nghost : Cell) (isBorder : Cell → Fin 3 → Fin 2 → Bool) (M : MovMachine d n)
    (mem : Cell → ProgMem d n) (clock : Bool) (z : MovState d n) : Option (MovState d n) :=
  match z.status with
  | .running => do
    let p := p0.withBcs z.bcs
    let D := z.s.h
    let up ← progPrims p (M.at z.grid) mem D
    let dt0 ← timeStep p.hydro.lo p.hydro.eos p.hydro.tr p.hydro.geom (boxList 0 M.dims) (fun r => (mem r).parts) z.grid
      (fun r => (D.local r).comp Fields.rho) up
    match decideStep p.loop dt0 clock z.s with
    | .error _ => return { z with status := .failed }
    | .ok c => do
      let e ← minInternalEnergy realOps p.top (boxList 0 M.dims) (fun r => (mem r).eparts)
        (fun r => (D.local r).comp fun s => (s.rho, s.rhou, s.E))
      if e < 0 then do
        let f ← progOutput p nx (M.at z.grid) mem z.nAxis z.x up
          { z.s with outputId := z.s.outputId + 1, iterId := c.iterId, timeId := c.timeId }
        return { z with files := z.files ++ [f], status := .failed }
      else do
        let new ← allRanks M.dims (fun r => rankAdvance p (z.grid r) (mem r) (M.gravOf z.grid D r) z.s.t c.dt (D.local r) (up r))
          fun r => (mem r).new
        let D' ← distBcs p.hydro.user M.sched p.hydro.bcs isBorder nghost M.dims p.hydro.order ⟨D.ext, fun r => (new r).val⟩
        let z1 ← movShift p rmax nx nghost isBorder M { z with s := { z.s with h := D' } }
        let s' : LoopState (DistView (Fields d n ℝ)) ℝ :=
          { h := z1.s.h, t := z.s.t + c.dt, iter := z.s.iter + 1, outputId := if c.makeOutput then z.s.outputId + 1 else z.s.outputId
            iterId := c.iterId, timeId := c.timeId }
        let status := if c.exit then .finished else .running
        if c.makeOutput then do
          let up' ← progPrims p (M.at z1.grid) mem z1.s.h
          let f ← progOutput p nx (M.at z1.grid) mem z1.nAxis z1.x up' s'
          return { z1 with s := s', files := z1.files ++ [f], status := status }
        else return { z1 with s := s', status := status }
  | _ => return z

/-- src/main.cpp 187-344: start or restart (`z`); `on` is `shift_grid == "UserDefined"` (298-303), the boundary conditions are those of the
parameter file (268-277). -/
def movStart (p : ProgParams d n) (on : Bool) (z : Option (ProgState d n)) : Option (MovState d n) :=
  z.map fun z => { z with bcs := p.hydro.bcs, active := on }

/-- The run after `k` turns. -/
noncomputable def movRun (p : ProgParams d n) (rmax : ℝ) (nx nghost : Cell) (isBorder : Cell → Fin 3 → Fin 2 → Bool) (M : MovMachine d n)
    (clock : ℕ → Bool) (z : Option (MovState d n)) : ℕ → Option (MovState d n)
  | 0 => z
  | k + 1 => do
    let z' ← movRun p rmax nx nghost isBorder M clock z k
    movStep p rmax nx nghost isBorder M (M.mem k) (clock k) z'

end Heracles
