import Verif.Model.Loop

/-!
# The time loop with rounded operations

The control flow of Model/Loop (src/main.cpp 353-561) with every sum, difference and product of `double`s rounded by `rnd`. The
conversion of counters to `double` is exact (they are `int`). With `rnd = id` this is Model/Loop, see `rRunN_id`.
-/

namespace Heracles

variable {H K : Type} [Field K] [LinearOrder K]

/-- src/main.cpp 366: time of the output number `k`. -/
def rTimed (rnd : K → K) (p : LoopParams K) (k : ℤ) : K := rnd (p.timeFirst + rnd ((k : K) * p.timeFreq))

/-- src/main.cpp 365-367. -/
def rTimeTrigger (rnd : K → K) (p : LoopParams K) (s : LoopState H K) (dt : K) : Bool :=
  decide (0 < p.timeFreq) && decide (rnd (s.t + dt) ≥ rTimed rnd p (s.timeId + 1))

/-- src/main.cpp 355-395, as `decideStep`. -/
def rDecideStep (rnd : K → K) (p : LoopParams K) (dt0 : K) (clock : Bool) (s : LoopState H K) : Except String (Decision K) := do
  let dt := rnd (p.cfl * dt0)
  let i := iterTrigger p s
  let tt := rTimeTrigger rnd p s dt
  let dt' := if tt then rnd (rTimed rnd p (s.timeId + 1) - s.t) else dt
  if tt ∧ dt' ≤ 0 then throw "Error: the time step is negative"
  let atEnd := decide (rnd (s.t + dt') ≥ p.tEnd)
  let dt'' := if atEnd then rnd (p.tEnd - s.t) else dt'
  let atMax := decide (s.iter + 1 ≥ p.maxIter)
  return { dt := dt'', makeOutput := i || tt || atEnd || atMax || clock, exit := atEnd || atMax || clock
           iterId := if i then s.iterId + 1 else s.iterId, timeId := if tt then s.timeId + 1 else s.timeId }

/-- src/main.cpp 354-561, as `iteration`; `t += dt` (530) is rounded. -/
def rIteration (rnd : K → K) (p : LoopParams K) (hy : Hydro H K) (clock : Bool) (s : LoopState H K) : Outcome H K :=
  match rDecideStep rnd p (hy.timeStep s.h) clock s with
  | .error m => .throw m
  | .ok D =>
    if hy.bad s.h then .crash { s with outputId := s.outputId + 1, iterId := D.iterId, timeId := D.timeId }
    else .ok { h := hy.advance s.h s.t D.dt, t := rnd (s.t + D.dt), iter := s.iter + 1
               outputId := if D.makeOutput then s.outputId + 1 else s.outputId, iterId := D.iterId, timeId := D.timeId }
      D.makeOutput D.exit

/-- One turn of `while (!should_exit)`, as `runStep`. -/
def rRunStep (rnd : K → K) (p : LoopParams K) (hy : Hydro H K) (clock : Bool) (r : RunState H K) : RunState H K :=
  match r.status with
  | .running =>
    match rIteration rnd p hy clock r.s with
    | .ok s out exit => { s := s, outs := if out then r.outs ++ [s] else r.outs, status := if exit then .finished else .running }
    | .crash f => { r with outs := r.outs ++ [f], status := .failed }
    | .throw _ => { r with status := .failed }
  | _ => r

/-- The run after `n` turns, as `runN`. -/
def rRunN (rnd : K → K) (p : LoopParams K) (hy : Hydro H K) (clock : ℕ → Bool) (r : RunState H K) : ℕ → RunState H K
  | 0 => r
  | n + 1 => rRunStep rnd p hy (clock n) (rRunN rnd p hy clock r n)

end Heracles
