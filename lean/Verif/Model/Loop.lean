import Mathlib.Algebra.Order.Field.Basic

/-!
# The main time loop

Model of the control flow of `main` in src/main.cpp: the choice of the time step, of the outputs and of the end of the run. The
fluid (fields, grid, gravity, shift criterion) is abstract here: `Hydro` gives what the loop asks of it.
-/

namespace Heracles

variable {H K : Type}

/-- The members of `Param` used by the loop (src/utils/param.cpp 37-45). -/
structure LoopParams (K : Type) where
  cfl : K
  tEnd : K
  timeFreq : K
  timeFirst : K
  iterFreq : ℤ
  maxIter : ℤ

/-- src/main.cpp 207-215: the variables of the loop; `h` is the fluid. A file written by `write_pdi` (src/main.cpp 398-416,
537-555) holds exactly these: the fluid and `output_id`, `iter_output_id`, `time_output_id`, `iter`, `t`. -/
structure LoopState (H K : Type) where
  h : H
  t : K
  iter : ℤ
  outputId : ℤ
  iterId : ℤ
  timeId : ℤ
  deriving DecidableEq

/-- What the loop asks of the fluid: `time_step` (src/main.cpp 355), the energy test (397-400) and the advance over `dt`
(427-528: reconstruction to gravity, everything that happens to the fields). -/
structure Hydro (H K : Type) where
  timeStep : H → K
  bad : H → Bool
  advance : H → K → K → H

/-- The local variables `dt`, `make_output`, `should_exit` and the counters after lines 355-395 of src/main.cpp. -/
structure Decision (K : Type) where
  dt : K
  makeOutput : Bool
  exit : Bool
  iterId : ℤ
  timeId : ℤ

section
variable [Field K] [LinearOrder K]

/-- src/main.cpp 357-364: the iteration trigger (`iter_ini` is 0). -/
def iterTrigger (p : LoopParams K) (s : LoopState H K) : Bool :=
  decide (0 < p.iterFreq) && decide (s.iter + 1 ≥ (s.iterId + 1) * p.iterFreq)

/-- src/main.cpp 366: time of the next timed output. -/
def nextTimed (p : LoopParams K) (s : LoopState H K) : K := p.timeFirst + ((s.timeId : K) + 1) * p.timeFreq

/-- src/main.cpp 365-367: the time trigger. -/
def timeTrigger (p : LoopParams K) (s : LoopState H K) (dt : K) : Bool :=
  decide (0 < p.timeFreq) && decide (s.t + dt ≥ nextTimed p s)

/-- src/main.cpp 355-395. `clock` is the broadcast answer of the wall clock test of line 389. -/
def decideStep (p : LoopParams K) (dt0 : K) (clock : Bool) (s : LoopState H K) : Except String (Decision K) := do
  let dt := p.cfl * dt0
  let i := iterTrigger p s
  let tt := timeTrigger p s dt
  let dt' := if tt then nextTimed p s - s.t else dt
  if tt ∧ dt' ≤ 0 then throw "Error: the time step is negative"
  let atEnd := decide (s.t + dt' ≥ p.tEnd)
  let dt'' := if atEnd then p.tEnd - s.t else dt'
  let atMax := decide (s.iter + 1 ≥ p.maxIter)
  return { dt := dt'', makeOutput := i || tt || atEnd || atMax || clock, exit := atEnd || atMax || clock
           iterId := if i then s.iterId + 1 else s.iterId, timeId := if tt then s.timeId + 1 else s.timeId }

/-- How one iteration ends. `ok s out exit`: the loop variables after the iteration, the file written if any, whether the loop
is left. `crash f`: the file dumped before the exception of line 424. `throw`: the exception of line 370. -/
inductive Outcome (H K : Type)
  | ok (s : LoopState H K) (out : Bool) (exit : Bool)
  | crash (dump : LoopState H K)
  | throw (msg : String)
  deriving DecidableEq

/-- src/main.cpp 354-561: one iteration of the loop. -/
def iteration (p : LoopParams K) (hy : Hydro H K) (clock : Bool) (s : LoopState H K) : Outcome H K :=
  match decideStep p (hy.timeStep s.h) clock s with
  | .error m => .throw m
  | .ok D =>
    if hy.bad s.h then .crash { s with outputId := s.outputId + 1, iterId := D.iterId, timeId := D.timeId }
    else .ok { h := hy.advance s.h s.t D.dt, t := s.t + D.dt, iter := s.iter + 1
               outputId := if D.makeOutput then s.outputId + 1 else s.outputId, iterId := D.iterId, timeId := D.timeId }
      D.makeOutput D.exit

/-- Progress of a run. -/
inductive Status
  | running
  | finished
  | failed
  deriving DecidableEq

/-- A run: the loop variables, the files written so far (oldest first), its status. -/
structure RunState (H K : Type) where
  s : LoopState H K
  outs : List (LoopState H K)
  status : Status

/-- One turn of `while (!should_exit)`. -/
def runStep (p : LoopParams K) (hy : Hydro H K) (clock : Bool) (r : RunState H K) : RunState H K :=
  match r.status with
  | .running =>
    match iteration p hy clock r.s with
    | .ok s out exit => { s := s, outs := if out then r.outs ++ [s] else r.outs, status := if exit then .finished else .running }
    | .crash f => { r with outs := r.outs ++ [f], status := .failed }
    | .throw _ => { r with status := .failed }
  | _ => r

/-- The run after `n` turns; `clock i` is the answer of the wall clock test in turn `i`. -/
def runN (p : LoopParams K) (hy : Hydro H K) (clock : ℕ → Bool) (r : RunState H K) : ℕ → RunState H K
  | 0 => r
  | n + 1 => runStep p hy (clock n) (runN p hy clock r n)

/-- src/main.cpp 207-214, 315-344: start of a run that is not a restart; `h` is the initial fluid after lines 305-311. -/
def freshRun (p : LoopParams K) (tIni : K) (h : H) : RunState H K :=
  if 0 < p.iterFreq ∨ 0 < p.timeFreq then
    let s : LoopState H K := { h := h, t := tIni, iter := 0, outputId := 0, iterId := 0, timeId := -1 }
    { s := s, outs := [s], status := .running }
  else { s := { h := h, t := tIni, iter := 0, outputId := -1, iterId := -1, timeId := -1 }, outs := [], status := .running }

/-- src/main.cpp 223-241, 305-311, 315: start of a run from the file `f`; `resume` is what reading a fluid, recomputing its
conservative variables and applying the boundary conditions makes of the saved fluid. No output is written. -/
def restartRun (resume : H → H) (f : LoopState H K) : RunState H K :=
  { s := { f with h := resume f.h }, outs := [], status := .running }

end

end Heracles
