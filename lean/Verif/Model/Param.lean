import Verif.Model.Ini
import Verif.Model.Boundary
import Verif.Model.Limiter
import Verif.Model.Riemann
import Verif.Model.Setup
import Verif.Model.Loop

/-!
# From the configuration file to the parameters of a run

`Param` (src/utils/param.cpp) and the part of `main` (src/main.cpp 138-302) that turns it into the objects of the run. Real numbers are
read by `stod`, a parameter (`std::stod`); numerals that denote an infinity or no number are not covered. Messages, the setup parameters
(`ParamSetup`) and the grid object (C02, C12) are not part of this file.
-/

namespace Heracles

/-- src/utils/param.hpp 17-60, in the order of the constructor. -/
@[ext] structure Param (K : Type) where
  problem : Str
  restart : Bool
  restartFile : Str
  rmaxShift : K
  nx : Fin 3 → ℤ
  gridType : Str
  ng : ℤ
  xmin : Fin 3 → K
  xmax : Fin 3 → K
  shiftGrid : Str
  deviceAware : Bool
  dims : Fin 3 → ℤ
  tIni : K
  tEnd : K
  cfl : K
  maxIter : ℤ
  iterFreq : ℤ
  timeFreq : K
  timeFirst : K
  directory : Str
  pfx : Str
  timeJob : ℤ
  reconstruction : Str
  riemann : Str
  gx : Fin 3 → K
  mass : K
  gamma : K
  mu : K
  bc : Str
  priority : Str
  nfx : ℤ
  userStep : Str
  pressureFix : Str
  epsPf : K

section
variable {K : Type} [Field K]

/-- src/utils/param.cpp 14-73: the constructor; the first failing conversion throws. -/
def paramOf (stod : Str → Except String K) (values : Str → Option Str) : Except String (Param K) := do
  let str := fun (sec name dflt : String) => iniLookup values sec.toList name.toList dflt.toList
  let int := fun (sec name : String) (dflt : ℤ) => iniGetInteger values sec.toList name.toList dflt
  let bool := fun (sec name : String) (dflt : Bool) => iniGetBoolean values sec.toList name.toList dflt
  let real := fun (sec name : String) (dflt : K) => iniGetReal stod values sec.toList name.toList dflt
  let restart ← bool "Problem" "restart" false
  let rmaxShift ← real "Problem" "rmax_shift" (10 ^ 20)
  let nx0 ← int "Grid" "Nx0_glob" 0
  let nx1 ← int "Grid" "Nx1_glob" 0
  let nx2 ← int "Grid" "Nx2_glob" 0
  let ng ← int "Grid" "Nghost" 2
  let x0min ← real "Grid" "x0min" 0
  let x0max ← real "Grid" "x0max" 1
  let x1min ← real "Grid" "x1min" 0
  let x1max ← real "Grid" "x1max" 1
  let x2min ← real "Grid" "x2min" 0
  let x2max ← real "Grid" "x2max" 1
  let deviceAware ← bool "Parallelization" "mpi_device_aware" false
  let dims0 ← int "Parallelization" "mpi_dims_cart_x0" 0
  let dims1 ← int "Parallelization" "mpi_dims_cart_x1" 0
  let dims2 ← int "Parallelization" "mpi_dims_cart_x2" 0
  let tIni ← real "Run" "t_ini" 0
  let tEnd ← real "Run" "t_end" (1 / 5)
  let cfl ← real "Run" "cfl" (2 / 5)
  let maxIter ← int "Output" "max_iter" 10000
  let iterFreq ← int "Output" "iter_frequency" 0
  let timeFreq ← real "Output" "time_frequency" 0
  let timeFirst ← real "Output" "time_first_output" (tIni + timeFreq)
  let timeJob ← int "Output" "time_job" 20
  let gx0 ← real "Gravity" "gx0" 0
  let gx1 ← real "Gravity" "gx1" 0
  let gx2 ← real "Gravity" "gx2" 0
  let mass ← real "Gravity" "M" 1
  let gamma ← real "Perfect Gas" "gamma" (5 / 3)
  let mu ← real "Perfect Gas" "mu" 1
  let nfx ← int "Passive Scalar" "nfx" 0
  let epsPf ← real "Pressure fix" "eps_pf" (1 / 1000000)
  return { problem := str "Problem" "type" "ShockTube", restart := restart, restartFile := str "Problem" "restart_file" "None"
           rmaxShift := rmaxShift, nx := ![nx0, nx1, nx2], gridType := str "Grid" "type" "Regular", ng := ng
           xmin := ![x0min, x1min, x2min], xmax := ![x0max, x1max, x2max], shiftGrid := str "Grid" "shift_grid" "Off"
           deviceAware := deviceAware, dims := ![dims0, dims1, dims2], tIni := tIni, tEnd := tEnd, cfl := cfl, maxIter := maxIter
           iterFreq := iterFreq, timeFreq := timeFreq, timeFirst := timeFirst, directory := str "Output" "directory" "."
           pfx := str "Output" "prefix" "result", timeJob := timeJob, reconstruction := str "Hydro" "reconstruction" "VanLeer"
           riemann := str "Hydro" "riemann_solver" "HLL", gx := ![gx0, gx1, gx2], mass := mass, gamma := gamma, mu := mu
           bc := str "Boundary Condition" "BC" "", priority := str "Boundary Condition" "priority" "", nfx := nfx
           userStep := str "User step" "user_step" "Off", pressureFix := str "Pressure fix" "pressure_fix" "Off", epsPf := epsPf }

/-- The objects of the run that the configuration chooses. `grid` is absent for a restart, which takes its grid from the file. -/
structure RunConfig (d : ℕ) (G K : Type) where
  param : Param K
  gas : G
  grid : Option GridKind
  bcs : Fin d → Fin 2 → BcKind
  order : List (Option ℕ)
  lim : Limiter
  sol : Solver
  step : UserStepKind
  shift : Bool

/-- `INIReader::Get` of the section "Boundary Condition" (src/main.cpp 177-181). -/
def bcEntry (values : Str → Option Str) (name : String) : Option String :=
  (values (makeKey "Boundary Condition".toList name.toList)).map String.ofList

/-- The faces in the order of the loops of src/main.cpp 176-185 and 268-277. -/
def faceList (d : ℕ) : List (Fin 3 × Fin 2) :=
  ((List.finRange 3).filter fun a => a.val < d).flatMap fun a => [(a, 0), (a, 1)]

/-- src/main.cpp 226-257: a restart takes its grid from the file; otherwise the grid type is built. -/
def gridChoice (p : Param K) : Except String (Option GridKind) :=
  if p.restart then .ok none else (gridConstruct (String.ofList p.gridType)).map some

/-- src/main.cpp 138 to 302, what can throw, in this order: parameters, equation of state (`gas` is its constructor, C18), resolution of the boundary
conditions, grid type when the run is no restart, construction of the boundary conditions and of their order, reconstruction, Riemann
solver, user step. The shift criterion (298-302) cannot throw. -/
def configure (d : ℕ) {G : Type} (stod : Str → Except String K) (gas : K → K → Except String G) (values : Str → Option Str) :
    Except String (RunConfig d G K) := do
  let p ← paramOf stod values
  let eos ← gas p.gamma p.mu
  let choices ← (faceList d).mapM fun af => bcChoice (bcEntry values) af.1 af.2
  let grid ← gridChoice p
  let bcs ← choices.mapM bcConstruct
  let order ← generateOrder d p.priority
  let lim ← limiterFactory (String.ofList p.reconstruction)
  let sol ← solverFactory (String.ofList p.riemann)
  let step ← userStepConstruct (String.ofList p.userStep)
  return { param := p, gas := eos, grid := grid, bcs := fun a f => bcs.getD (2 * a.val + f.val) .nullGradient, order := order, lim := lim, sol := sol
           step := step, shift := decide (p.shiftGrid = "UserDefined".toList) }

/-- src/main.cpp 208-215, 355-384: the parameters of the time loop. -/
def RunConfig.loop {d : ℕ} {G : Type} (c : RunConfig d G K) : LoopParams K :=
  { cfl := c.param.cfl, tEnd := c.param.tEnd, timeFreq := c.param.timeFreq, timeFirst := c.param.timeFirst, iterFreq := c.param.iterFreq
    maxIter := c.param.maxIter }

/-- src/main.cpp 459-465: `eps_pf` if the pressure fix is on. -/
def RunConfig.fix {d : ℕ} {G : Type} (c : RunConfig d G K) : Option K := if c.param.pressureFix = "On".toList then some c.param.epsPf else none

end

/-- The exponent at the start of a string, 0 if there is none; an `e` without digits is not an exponent. -/
def stodExponent (r : Str) : ℤ :=
  if r.head? = some 'e' ∨ r.head? = some 'E' then
    let w := r.tail
    let w' := if w.head? = some '-' ∨ w.head? = some '+' then w.tail else w
    let k := digitsPrefix w' 0
    if w.head? = some '-' then -(k.1 : ℤ) else k.1
  else 0

/-- The numeral without sign at the start of a string. -/
def stodMagnitude (u : Str) : Except String ℚ :=
  let i := digitsPrefix u 0
  let r := u.drop i.2
  let point := r.head? = some '.'
  let f := if point then digitsPrefix r.tail i.1 else (i.1, 0)
  let r' := if point then r.tail.drop f.2 else r
  if i.2 + f.2 = 0 then .error "stod: invalid_argument" else .ok (f.1 * 10 ^ (stodExponent r' - f.2))

/-- `std::stod(str)` for decimal numerals (C++ standard, through `strtod`), without rounding: leading white space, optional sign, digits with
an optional point, optional exponent; what follows is ignored. Hexadecimal numerals, infinities and "nan", which `strtod` also reads, and
numbers that are out of range are not modelled. -/
def stodDecimal (s : Str) : Except String ℚ :=
  let t := lskip s
  let u := if t.head? = some '-' ∨ t.head? = some '+' then t.tail else t
  (stodMagnitude u).map fun m => if t.head? = some '-' then -m else m

end Heracles
