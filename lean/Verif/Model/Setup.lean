import Verif.Model.Boundary
import Mathlib.Analysis.SpecialFunctions.Exp

/-!
# Broadcasts, user steps and named choices

Models of `src/broadcast.cpp`, `src/user_step/user_step.cpp`, `src/user_step/user_step_factory.cpp`, `src/mesh/grid_factory.cpp` and of the
places of `src/main.cpp` that select them. The factories of limiters, Riemann solvers and boundary conditions are `limiterFactory`,
`solverFactory` and `bcFactory`.
-/

namespace Heracles

variable {d n m : ℕ} {K : Type}

/-- src/broadcast.cpp 17-21: a scalar onto a range; `l` is the order of the loop over `cell_mdrange(range)`. The assertion
`NgEff == 0` is absent from release builds and not modelled. -/
def broadcastScalar (l : List Cell) (v : K) (out : View Cell K) : Option (View Cell K) := parFor l (fun c o => o.wr c v) out

/-- src/broadcast.cpp 30-41: a one-dimensional profile without ghosts onto a range; `ghostX` is `range.Nghost[0]`. The assertion on the
extents (33) is not modelled. -/
def broadcastLine (ghostX : ℤ) (l : List Cell) (v : View ℤ K) (out : View Cell K) : Option (View Cell K) :=
  parFor l (fun c o => do
    let y ← v.rd (c 0 - ghostX)
    o.wr c y) out

/-- src/broadcast.cpp 23-28 and 43-48: the loop over the last index of a 4-dimensional array; component `i` of the array is
the view `out i`, and its loop runs in the order `l i`. -/
def broadcastAll (one : List Cell → View Cell K → Option (View Cell K)) (l : Fin m → List Cell) (out : Fin m → View Cell K) :
    Option (Fin m → View Cell K) :=
  (List.finRange m).foldlM (fun o i => do
    let v ← one (l i) (o i)
    return Function.update o i v) out

/-- src/units/units.hpp: `day`, in seconds. -/
noncomputable def unitDay : ℝ := 24 * (60 * 60)

/-- src/units/units.hpp: `MeV`, in joules. -/
noncomputable def unitMeV : ℝ := 1.602176634e-19 * 1e6

/-- src/units/units.hpp: `atomic_mass_unit`, in kilograms. -/
noncomputable def unitAmu : ℝ := 1.66053906660e-27

/-- src/user_step/user_step.cpp 50-62: the heating rate `epsilon` (59-62) at time `t`. -/
noncomputable def nickelEpsilon (t : ℝ) : ℝ :=
  let tauNi := 8.8 * unitDay
  let tauCo := 111.3 * unitDay
  let mNi := 55.9421278 * unitAmu
  let qNi := 1.75 * unitMeV
  let qCo := 3.73 * unitMeV
  let fac := 1 / (mNi * (tauCo - tauNi))
  ((qNi * (tauCo / tauNi - 1) - qCo) * Real.exp (-t / tauNi) + qCo * Real.exp (-t / tauCo)) * fac

/-- The classes derived from `IUserStep` (src/user_step/user_step.hpp and the `UserStep` class of the setup). -/
inductive UserStepKind
  | off | heatNickel | userDefined
  deriving DecidableEq, Repr

/-- src/user_step/user_step.cpp 42-70: `HeatNickelStep::execute`, in the order `l`. Reading `fx(i,j,k,0)` of an array without scalars is
out of bounds. -/
noncomputable def heatNickel (t dt : ℝ) (l : List Cell) (v : View Cell (Fields d n ℝ)) : Option (View Cell (Fields d n ℝ)) :=
  parFor l (fun c v => do
    let s ← v.rd c
    let x ← if h : 0 < n then some (s.fx ⟨0, h⟩) else none
    let edep := x * s.rho * nickelEpsilon t
    v.wr c { s with E := s.E + edep * dt }) v

/-- `IUserStep::execute` (src/user_step/user_step.cpp 32-70); a step of the setup is an arbitrary action. -/
noncomputable def userStepExecute (user : View Cell (Fields d n ℝ) → Option (View Cell (Fields d n ℝ))) (kind : UserStepKind) (t dt : ℝ)
    (l : List Cell) (v : View Cell (Fields d n ℝ)) : Option (View Cell (Fields d n ℝ)) :=
  match kind with
  | .off => some v
  | .heatNickel => heatNickel t dt l v
  | .userDefined => user v

/-- src/user_step/user_step_factory.cpp 18-29. -/
def userStepFactory (s : String) : Except String UserStepKind :=
  if s = "Off" then .ok .off
  else if s = "Heat_nickel" then .ok .heatNickel
  else .error s!"Unknown user step: {s}."

/-- src/main.cpp 291-296. -/
def userStepConstruct (s : String) : Except String UserStepKind :=
  if s = "UserDefined" then .ok .userDefined else userStepFactory s

/-- The classes derived from `IGridType` (src/mesh/grid_type.hpp and the `GridSetup` class of the setup). -/
inductive GridKind
  | regular | userDefined
  deriving DecidableEq, Repr

/-- src/mesh/grid_factory.cpp 20-27. -/
def gridFactory (s : String) : Except String GridKind :=
  if s = "Regular" then .ok .regular else .error s!"Unknown grid type : {s}."

/-- src/main.cpp 251-256; only executed when the run is not a restart. -/
def gridConstruct (s : String) : Except String GridKind :=
  if s = "UserDefined" then .ok .userDefined else gridFactory s

end Heracles
