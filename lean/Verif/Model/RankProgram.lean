import Verif.Model.Program
import Verif.Model.Messages

/-!
# The program of one rank

`main` of src/main.cpp from line 305 to line 568 as one process executes it, cut at its calls of MPI (Model/Messages): each rank has
its own arrays and its own copies of the loop variables, and takes its own decisions from them. Model/Program is the same with all
ranks in step.

Simplifications: the two `MPI_Allreduce` of src/gravity/gravity.cpp 92-93 are one call, whose result is any function of the arrays of
all ranks; the calls of MPI before line 305 are left out (the communicators, the reading of a file, the first gravity); the mass of lines 346 and 568 is only printed, so the calls are there but not the sums; a write is one collective call
(PDI, HDF5), and the rank keeps what it has written.
-/

namespace Heracles

variable {d n : ℕ}

/-- The ranks of a process grid. -/
abbrev Rank (dims : Cell) : Type := { r : Cell // r ∈ boxList 0 dims }

/-- `MPI_Cart_shift` (src/boundary_distribute.cpp 106): the rank at distance `disp` along direction `a`, periodically. -/
def neighbour {dims : Cell} (r : Rank dims) (a : Fin 3) (disp : ℤ) : Rank dims :=
  let q := Function.update r.1 a ((r.1 a + disp) % dims a)
  if h : q ∈ boxList 0 dims then ⟨q, h⟩ else r

/-- What a rank contributes to a file: its arrays `rho`, `rhou`, `E`, `fx`, its arrays `u`, `P` and its array `T`. -/
structure RankFile (d n : ℕ) where
  U : View Cell (Fields d n ℝ)
  up : View Cell (VelPres d ℝ)
  T : View Cell ℝ

/-- The variables of a rank: its grid, its fields and loop variables, its gravity, what it has written, the number of turns, whether
the loop goes on. -/
structure RankVars (d n : ℕ) where
  grid : GridData ℝ
  s : LoopState (View Cell (Fields d n ℝ)) ℝ
  grav : GravField d ℝ
  written : List (LoopState (RankFile d n) ℝ)
  turn : ℕ
  status : Status

/-- The calls in front of which a rank stands. `after` is `none` in line 307 and the decisions of the turn in line 479. -/
inductive Phase (d n : ℕ)
  /-- src/boundary_distribute.cpp 108; the first of the remaining faces -/
  | sync (todo : List (Fin 3 × Fin 2)) (after : Option (Decision ℝ))
  /-- src/gravity/gravity.cpp 92-93 -/
  | mass (after : Option (Decision ℝ))
  /-- `write_pdi`, src/main.cpp 322, 403, 537; with `crash` the exception of line 424 follows -/
  | write (crash first : Bool) (f : LoopState (RankFile d n) ℝ)
  /-- `integrate`, src/main.cpp 346, 568 -/
  | total (last : Bool)
  /-- src/main.cpp 349, 564 -/
  | barrier (last : Bool)
  /-- `time_step`, src/main.cpp 355; the rate of the rank -/
  | rate (up : View Cell (VelPres d ℝ)) (x : ℝ)
  /-- src/main.cpp 390 -/
  | clock (up : View Cell (VelPres d ℝ)) (dt0 : ℝ)
  /-- `minimum_internal_energy`, src/main.cpp 398; the minimum of the rank -/
  | energy (up : View Cell (VelPres d ℝ)) (c : Decision ℝ) (e : ℝ)
  | ended

/-- What ranks contribute to collective operations. -/
inductive Share (d n : ℕ)
  | nothing
  | num (x : ℝ)
  | flag (b : Bool)
  | arr (U : View Cell (Fields d n ℝ))
  | file (f : LoopState (RankFile d n) ℝ)

/-- The state of a rank; `none` after undefined behaviour. -/
abbrev RankState (d n : ℕ) : Type := Option (Phase d n × RankVars d n)

/-- Everything a rank is given: parameters, sizes, the machine; how the gravity of a rank follows from the arrays of the ranks, or of
its own only if `massGrav` is false (src/gravity/gravity.hpp); the answers of the clock of each rank (src/main.cpp 389); whether the run
is a restart. -/
structure RankEnv (d n : ℕ) where
  p : ProgParams d n
  nghost : Cell
  isBorder : Cell → Fin 3 → Fin 2 → Bool
  A : Machine d n
  massGrav : Bool
  gravOf : Rank A.dims → (Rank A.dims → View Cell (Fields d n ℝ)) → GravField d ℝ
  clock : ℕ → Rank A.dims → Bool
  root : Rank A.dims
  restart : Bool

namespace RankEnv
variable (e : RankEnv d n)

/-- src/boundary_distribute.hpp 63-67. -/
def faces (d : ℕ) : List (Fin 3 × Fin 2) := ((List.finRange 3).filter (fun a => a.val < d)).flatMap fun a => [(a, 0), (a, 1)]

/-- Numbers contributed by all ranks, combined (`MPI_Allreduce`). -/
noncomputable def reduceNum (op : ℝ → ℝ → ℝ) (f : Rank e.A.dims → Share d n) : Option ℝ := do
  let v ← (boxList 0 e.A.dims).attach.mapM fun r => match f r with | .num x => some x | _ => none
  allReduce op v

/-- src/main.cpp 526 (or 311), 354-355 up to `MPI_Allreduce`. -/
noncomputable def turnTop (r : Rank e.A.dims) (v : RankVars d n) : RankState d n := do
  let m := e.A.mem v.turn r
  let up ← convConsToPrim e.p.hydro.eos m.conv (v.s.h.comp Fields.rho) (v.s.h.comp fun s => { rhou := s.rhou, E := s.E }) m.up
  let x ← parReduce e.p.hydro.lo kmax m.parts fun c s => do
    let x ← cellInverseDt e.p.hydro.eos e.p.hydro.tr e.p.hydro.geom v.grid (v.s.h.comp Fields.rho) up c
    return kmax s x
  return (.rate up x, v)

/-- src/main.cpp 344-353, 558-564: the end of an output or of a turn without one. -/
noncomputable def afterWrite (r : Rank e.A.dims) (first : Bool) (v : RankVars d n) : RankState d n :=
  if first then some (.total false, v)
  else match v.status with
    | .running => e.turnTop r v
    | .finished => some (.barrier true, v)
    | .failed => some (.ended, v)

/-- src/main.cpp 319-340, 534-557: an output of the state `v`; the memory used is the one of turn `k`. -/
noncomputable def output (r : Rank e.A.dims) (k : ℕ) (crash first : Bool) (f : LoopState (View Cell (Fields d n ℝ)) ℝ)
    (v : RankVars d n) : RankState d n := do
  let m := e.A.mem k r
  let up ← convConsToPrim e.p.hydro.eos m.conv (f.h.comp Fields.rho) (f.h.comp fun s => { rhou := s.rhou, E := s.E }) m.up
  let T ← temperature e.p.temp m.tempL (f.h.comp Fields.rho) (up.comp VelPres.P) m.T
  return (.write crash first (f.withFluid { U := f.h, up := up, T := T }), v)

/-- src/main.cpp 311-344 and 526-560: after the gravity. -/
noncomputable def afterGrav (r : Rank e.A.dims) (after : Option (Decision ℝ)) (v : RankVars d n) : RankState d n :=
  match after with
  | none =>
    if e.restart = false ∧ (0 < e.p.loop.iterFreq ∨ 0 < e.p.loop.timeFreq) then
      let s' := { v.s with outputId := v.s.outputId + 1, iterId := v.s.iterId + 1 }
      e.output r 0 false true s' { v with s := s' }
    else e.afterWrite r true v
  | some c =>
    let s' : LoopState (View Cell (Fields d n ℝ)) ℝ :=
      { h := v.s.h, t := v.s.t + c.dt, iter := v.s.iter + 1, outputId := if c.makeOutput then v.s.outputId + 1 else v.s.outputId
        iterId := c.iterId, timeId := c.timeId }
    let v' : RankVars d n := { v with s := s', turn := v.turn + 1, status := if c.exit then .finished else .running }
    if c.makeOutput then e.output r v.turn false false s' v' else e.afterWrite r false v'

/-- src/boundary_distribute.hpp 69-75, then src/main.cpp 309 or 528. -/
noncomputable def afterSync (r : Rank e.A.dims) (after : Option (Decision ℝ)) (v : RankVars d n) : RankState d n := do
  let U ← bcLoop e.p.hydro.user e.A.sched e.p.hydro.bcs (e.isBorder r) (e.A.topo r).nxLocalWg e.nghost e.p.hydro.order v.s.h
  let v' : RankVars d n := { v with s := { v.s with h := ⟨v.s.h.dom, U.val⟩ } }
  if e.massGrav then return (.mass after, v')
  else e.afterGrav r after { v' with grav := e.gravOf r fun _ => v'.s.h }

/-- The next face, or the end of the exchange. -/
noncomputable def enterSync (r : Rank e.A.dims) (todo : List (Fin 3 × Fin 2)) (after : Option (Decision ℝ)) (v : RankVars d n) :
    RankState d n :=
  match todo with
  | [] => e.afterSync r after v
  | _ => some (.sync todo after, v)

/-- src/main.cpp 254 and 305-307: the grid and the conserved fields of the rank, from the nodes `x` and the arrays of the initialisation
or of the file; `s` are the loop variables. -/
noncomputable def start (x : Fin 3 → View ℤ ℝ) (U : Cell → View Cell (Fields d n ℝ)) (up : Cell → View Cell (VelPres d ℝ))
    (s : LoopState Unit ℝ) (r : Rank e.A.dims) : RankState d n := do
  let grid ← setGrid e.p.hydro.tr e.p.hydro.geom d (e.A.topo r) (e.A.gridL1 r) (e.A.gridL r) (e.A.gridL' r) x
    (GridData.alloc (e.A.topo r).nxLocalWg)
  let me ← convPrimToCons e.p.hydro.eos (e.A.consL r) ((U r).comp Fields.rho) (up r) ((U r).comp fun s => { rhou := s.rhou, E := s.E })
  let h : View Cell (Fields d n ℝ) := ⟨inExt (e.A.topo r).nxLocalWg, fun c => { (U r).val c with rhou := (me.val c).rhou, E := (me.val c).E }⟩
  e.enterSync r (faces d) none
    { grid := grid, s := s.withFluid h, grav := fun _ _ => none, written := [], turn := 0, status := .running }

/-- src/main.cpp 207-215, 236-254: the loop variables of a run that is not a restart; `x` are the nodes made by the grid type. -/
noncomputable def startFresh (nx : Cell) (x : Fin 3 → ℤ → ℝ) (U : Cell → View Cell (Fields d n ℝ)) (up : Cell → View Cell (VelPres d ℝ))
    (r : Rank e.A.dims) : RankState d n :=
  e.start (fun a => View.line (nx a + 2 * e.nghost a + 1) (x a)) U up
    { h := (), t := e.p.tIni, iter := 0, outputId := -1, iterId := -1, timeId := -1 } r

/-- src/main.cpp 221-236: each rank reads the axes and its part of the fields of the file `f`. -/
noncomputable def startRestart (nx : Cell) (f : LoopState (FluidFile d n) ℝ) (r : Rank e.A.dims) : RankState d n := do
  let x ← seqFin fun a : Fin 3 => (readAxis (f.h.nAxis a) (nx a + 2 * e.nghost a + 1) (f.h.x a)).toOption
  let q ← readFluid (e.A.topo r) f.h
  e.start x (fun _ => q.1) (fun _ => q.2) (f.withFluid ()) r

/-- The subviews of `ghost_sync` are inside the array (first part of `syncSafe`). -/
def slabsInside (nghost ext : Cell) (a : Fin 3) (face : Fin 2) : Prop :=
  0 ≤ nghost a ∧ 0 ≤ sendFirst (nghost a) (ext a) face ∧ sendFirst (nghost a) (ext a) face + nghost a ≤ ext a ∧
    0 ≤ recvFirst (nghost a) (ext a) face ∧ recvFirst (nghost a) (ext a) face + nghost a ≤ ext a

instance (nghost ext : Cell) (a : Fin 3) (face : Fin 2) : Decidable (slabsInside nghost ext a face) := by
  unfold slabsInside; infer_instance

/-- src/boundary_distribute.cpp 110-119: the buffer is copied into the ghosts. -/
def unpack (nghost ext : Cell) (a : Fin 3) (face : Fin 2) (buf : Cell → Fields d n ℝ) (U : View Cell (Fields d n ℝ)) :
    View Cell (Fields d n ℝ) :=
  let first := recvFirst (nghost a) (ext a) face
  ⟨U.dom, fun c => if first ≤ c a ∧ c a < first + nghost a then buf (Function.update c a (c a - first)) else U.val c⟩

/-- The next call of a rank and how it goes on. A message carries the extents of its array along the other directions (the size of
the buffer) besides its contents. -/
noncomputable def next (r : Rank e.A.dims) : RankState d n → Act (Rank e.A.dims) (Cell × (Cell → Fields d n ℝ)) (Share d n) (RankState d n)
  | none => .fail
  | some (.sync [] _, _) => .fail
  | some (.sync ((a, face) :: todo) after, v) =>
    let ext := (e.A.topo r).nxLocalWg
    if slabsInside e.nghost ext a face then
      .exch (neighbour r a (shiftDisp face)) (neighbour r a (-shiftDisp face)) a.val
        (ext, fun b => v.s.h.val (Function.update b a (b a + sendFirst (e.nghost a) (ext a) face)))
        fun m => if ∀ b, b ≠ a → m.1 b = ext b then
            e.enterSync r todo after { v with s := { v.s with h := unpack e.nghost ext a face m.2 v.s.h } }
          else none
    else .fail
  | some (.mass after, v) => .coll 0 (.arr v.s.h) (fun _ => true) fun f =>
      e.afterGrav r after { v with grav := e.gravOf r fun q => match f q with | .arr U => U | _ => v.s.h }
  | some (.write crash first f, v) => .coll 1 (.file f) (fun _ => true) fun _ =>
      let v' : RankVars d n := { v with written := v.written ++ [f] }
      if crash then some (.ended, { v' with status := .failed }) else e.afterWrite r first v'
  | some (.total last, v) => .coll 2 .nothing (fun _ => true) fun _ => if last then some (.ended, v) else some (.barrier false, v)
  | some (.barrier last, v) => .coll 3 .nothing (fun _ => true) fun _ => if last then some (.total true, v) else e.turnTop r v
  | some (.rate up x, v) => .coll 4 (.num x) (fun _ => true) fun f => do
      let m ← e.reduceNum kmax f
      match decideStep e.p.loop (1 / m) false v.s with
      | .error _ => some (.ended, { v with status := .failed })
      | .ok _ => some (.clock up (1 / m), v)
  | some (.clock up dt0, v) => .coll 5 (.flag (e.clock v.turn r)) (fun q => q = e.root) fun f =>
      match f e.root with
      | .flag b =>
        match decideStep e.p.loop dt0 b v.s with
        | .error _ => none
        | .ok c => do
          let x ← parReduce e.p.top kmin (e.A.mem v.turn r).eparts fun c s => do
            let q ← (v.s.h.comp fun s => (s.rho, s.rhou, s.E)).rd c
            return kmin s (evolOps realOps q.1 q.2.1 q.2.2)
          return (.energy up c x, v)
      | _ => none
  | some (.energy up c x, v) => .coll 6 (.num x) (fun _ => true) fun f => do
      let m ← e.reduceNum kmin f
      if m < 0 then
        e.output r v.turn true false { v.s with outputId := v.s.outputId + 1, iterId := c.iterId, timeId := c.timeId } v
      else do
        let new ← rankAdvance e.p v.grid (e.A.mem v.turn r) v.grav v.s.t c.dt v.s.h up
        e.enterSync r (faces d) (some c) { v with s := { v.s with h := ⟨v.s.h.dom, new.val⟩ } }
  | some (.ended, _) => .stop

end RankEnv

end Heracles
