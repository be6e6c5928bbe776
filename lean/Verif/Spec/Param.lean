import Verif.Spec.Config
import Verif.Model.Param
import Mathlib.Data.Rat.Cast.Defs

/-!
# Specification: the parameters that a configuration file gives

Numerals, the values that a file gives to the parameters of a run with the defaults of the program, and the names of the choices. Refers to the
model only for the types of the parameters.
-/

namespace Heracles

/-- The digit with that value. -/
def digitText (d : ℕ) : Char := Char.ofNat (48 + d)

/-- The number written with these decimal digits, most significant first. -/
def decimalValue : List ℕ → ℕ
  | [] => 0
  | d :: ds => d * 10 ^ ds.length + decimalValue ds

/-- Signs of a numeral. -/
inductive Sign
  | none | plus | minus

def Sign.text : Sign → Str
  | .none => []
  | .plus => ['+']
  | .minus => ['-']

def Sign.apply : Sign → ℕ → ℤ
  | .minus, n => - (n : ℤ)
  | _, n => n

/-- A decimal numeral: digits with an optional point, an optional exponent `e` or `E`. -/
structure Decimal where
  sg : Sign
  int : List ℕ
  frac : Option (List ℕ)
  exp : Option (Bool × Sign × List ℕ)

/-- The digits after the point. -/
def Decimal.fracDigits (x : Decimal) : List ℕ := x.frac.getD []

/-- The text of a numeral. -/
def Decimal.text (x : Decimal) : Str :=
  x.sg.text ++ x.int.map digitText ++ (match x.frac with | none => [] | some f => '.' :: f.map digitText) ++
    match x.exp with
    | none => []
    | some (upper, sg, ds) => (if upper then 'E' else 'e') :: (sg.text ++ ds.map digitText)

/-- The power of ten of a numeral. -/
def Decimal.power (x : Decimal) : ℤ :=
  match x.exp with
  | none => 0
  | some (_, sg, ds) => sg.apply (decimalValue ds)

/-- The number denoted by a numeral. -/
def Decimal.value (x : Decimal) : ℚ :=
  (x.sg.apply (decimalValue (x.int ++ x.fracDigits)) : ℚ) * 10 ^ (x.power - x.fracDigits.length)

/-- At least one digit, and at least one in the exponent if there is one. -/
def Decimal.WF (x : Decimal) : Prop :=
  (∀ k ∈ x.int ++ x.fracDigits, k < 10) ∧ x.int ++ x.fracDigits ≠ [] ∧
  ∀ e, x.exp = some e → e.2.2 ≠ [] ∧ ∀ k ∈ e.2.2, k < 10

/-- Nothing, or text that starts with white space. -/
def Apart (s : Str) : Prop := ∀ c, s.head? = some c → iniSpace c = true

/-- A reader of real numbers that understands decimal numerals (up to rounding, which the model ignores). -/
def ReadsDecimals {K : Type} [Field K] (stod : Str → Except String K) : Prop :=
  ∀ x : Decimal, x.WF → ∀ rest, Apart rest → stod (x.text ++ rest) = .ok (x.value : K)

variable {K : Type} [Field K]

/-- What the file writes for a key; nothing if the key is absent. -/
def written (items : List IniItem) (sec name : String) : Str := joined (valuesOf sec.toList name.toList [] none items)

/-- The file gives the text `v`; `dflt` if the key is absent. -/
def SaysText (items : List IniItem) (sec name dflt : String) (v : Str) : Prop :=
  v = if valuesOf sec.toList name.toList [] none items = [] then dflt.toList else written items sec name

/-- The file gives the integer `v`; `dflt` if nothing is written. -/
def SaysInt (items : List IniItem) (sec name : String) (dflt v : ℤ) : Prop :=
  written items sec name = [] ∧ v = dflt ∨
  ∃ (sg : Sign) (ds : List ℕ) (rest : Str), ds ≠ [] ∧ (∀ k ∈ ds, k < 10) ∧ Apart rest ∧
    written items sec name = sg.text ++ ds.map digitText ++ rest ∧ v = sg.apply (decimalValue ds) ∧ -2 ^ 31 ≤ v ∧ v < 2 ^ 31

/-- The file gives the number `v`; `dflt` if nothing is written. -/
def SaysReal (items : List IniItem) (sec name : String) (dflt v : K) : Prop :=
  written items sec name = [] ∧ v = dflt ∨
  ∃ (x : Decimal) (rest : Str), x.WF ∧ Apart rest ∧ written items sec name = x.text ++ rest ∧ v = (x.value : K)

/-- The file gives the truth value `v`; `dflt` if nothing is written. -/
def SaysBool (items : List IniItem) (sec name : String) (dflt v : Bool) : Prop :=
  written items sec name = [] ∧ v = dflt ∨
  lower (written items sec name) ∈
    (if v then ["true".toList, "yes".toList, "on".toList, "1".toList] else ["false".toList, "no".toList, "off".toList, "0".toList])

/-- The texts among the parameters are what the file gives. -/
structure TextsSay (items : List IniItem) (p : Param K) : Prop where
  problem : SaysText items "Problem" "type" "ShockTube" p.problem
  restartFile : SaysText items "Problem" "restart_file" "None" p.restartFile
  gridType : SaysText items "Grid" "type" "Regular" p.gridType
  shiftGrid : SaysText items "Grid" "shift_grid" "Off" p.shiftGrid
  directory : SaysText items "Output" "directory" "." p.directory
  pfx : SaysText items "Output" "prefix" "result" p.pfx
  reconstruction : SaysText items "Hydro" "reconstruction" "VanLeer" p.reconstruction
  riemann : SaysText items "Hydro" "riemann_solver" "HLL" p.riemann
  bc : SaysText items "Boundary Condition" "BC" "" p.bc
  priority : SaysText items "Boundary Condition" "priority" "" p.priority
  userStep : SaysText items "User step" "user_step" "Off" p.userStep
  pressureFix : SaysText items "Pressure fix" "pressure_fix" "Off" p.pressureFix

/-- Every parameter is what the file gives for its key, or its default. -/
structure ParamSays (items : List IniItem) (p : Param K) : Prop extends TextsSay items p where
  restart : SaysBool items "Problem" "restart" false p.restart
  rmaxShift : SaysReal items "Problem" "rmax_shift" (10 ^ 20) p.rmaxShift
  nx : ∀ a, SaysInt items "Grid" (["Nx0_glob", "Nx1_glob", "Nx2_glob"].getD a.val "") 0 (p.nx a)
  ng : SaysInt items "Grid" "Nghost" 2 p.ng
  xmin : ∀ a, SaysReal items "Grid" (["x0min", "x1min", "x2min"].getD a.val "") 0 (p.xmin a)
  xmax : ∀ a, SaysReal items "Grid" (["x0max", "x1max", "x2max"].getD a.val "") 1 (p.xmax a)
  deviceAware : SaysBool items "Parallelization" "mpi_device_aware" false p.deviceAware
  dims : ∀ a, SaysInt items "Parallelization" (["mpi_dims_cart_x0", "mpi_dims_cart_x1", "mpi_dims_cart_x2"].getD a.val "") 0 (p.dims a)
  tIni : SaysReal items "Run" "t_ini" 0 p.tIni
  tEnd : SaysReal items "Run" "t_end" (1 / 5) p.tEnd
  cfl : SaysReal items "Run" "cfl" (2 / 5) p.cfl
  maxIter : SaysInt items "Output" "max_iter" 10000 p.maxIter
  iterFreq : SaysInt items "Output" "iter_frequency" 0 p.iterFreq
  timeFreq : SaysReal items "Output" "time_frequency" 0 p.timeFreq
  timeFirst : SaysReal items "Output" "time_first_output" (p.tIni + p.timeFreq) p.timeFirst
  timeJob : SaysInt items "Output" "time_job" 20 p.timeJob
  gx : ∀ a, SaysReal items "Gravity" (["gx0", "gx1", "gx2"].getD a.val "") 0 (p.gx a)
  mass : SaysReal items "Gravity" "M" 1 p.mass
  gamma : SaysReal items "Perfect Gas" "gamma" (5 / 3) p.gamma
  mu : SaysReal items "Perfect Gas" "mu" 1 p.mu
  nfx : SaysInt items "Passive Scalar" "nfx" 0 p.nfx
  epsPf : SaysReal items "Pressure fix" "eps_pf" (1 / 1000000) p.epsPf

/-- The condition of a face: the entry of the face, otherwise that of the direction, otherwise the global one. -/
def saysFace (items : List IniItem) (a : Fin 3) (f : Fin 2) : Str :=
  let dir := ["BC_X0", "BC_X1", "BC_X2"].getD a.val ""
  let face := dir ++ ["_left", "_right"].getD f.val ""
  let vals := fun name : String => valuesOf "Boundary Condition".toList name.toList [] none items
  if vals face ≠ [] then joined (vals face) else if vals dir ≠ [] then joined (vals dir) else joined (vals "BC")

/-- The choices of the run are those that the file names; `G` is the equation of state and `gas` its constructor. -/
structure ChoicesSay {d : ℕ} {G : Type} (gas : K → K → Except String G) (items : List IniItem) (c : RunConfig d G K) : Prop where
  gas : gas c.param.gamma c.param.mu = .ok c.gas
  grid : if c.param.restart then c.grid = none else
    c.param.gridType = "Regular".toList ∧ c.grid = some .regular ∨ c.param.gridType = "UserDefined".toList ∧ c.grid = some .userDefined
  bcs : ∀ (a : Fin d) (a' : Fin 3) f, a'.val = a.val → (saysFace items a' f, c.bcs a f) ∈ [("NullGradient".toList, BcKind.nullGradient),
    ("Periodic".toList, .periodic), ("Reflexive".toList, .reflexive), ("UserDefined".toList, .userDefined)]
  lim : (c.param.reconstruction, c.lim) ∈ [("Constant".toList, Limiter.constant), ("VanLeer".toList, .vanLeer), ("Minmod".toList, .minmod),
    ("VanAlbada".toList, .vanAlbada)]
  sol : (c.param.riemann, c.sol) ∈ [("HLL".toList, Solver.hll), ("HLLC".toList, .hllc), ("Low Mach".toList, .splitting)]
  step : (c.param.userStep, c.step) ∈ [("Off".toList, UserStepKind.off), ("Heat_nickel".toList, .heatNickel), ("UserDefined".toList, .userDefined)]
  shift : c.shift = true ↔ c.param.shiftGrid = "UserDefined".toList

/-- The keys that the program reads (`ParamSetup`, which each setup defines, reads further ones). -/
def knownKeys : List (String × String) :=
  [("Problem", "type"), ("Problem", "restart"), ("Problem", "restart_file"), ("Problem", "rmax_shift"),
   ("Grid", "Nx0_glob"), ("Grid", "Nx1_glob"), ("Grid", "Nx2_glob"), ("Grid", "type"), ("Grid", "Nghost"), ("Grid", "x0min"), ("Grid", "x0max"), ("Grid", "x1min"), ("Grid", "x1max"), ("Grid", "x2min"), ("Grid", "x2max"), ("Grid", "shift_grid"),
   ("Parallelization", "mpi_device_aware"), ("Parallelization", "mpi_dims_cart_x0"), ("Parallelization", "mpi_dims_cart_x1"), ("Parallelization", "mpi_dims_cart_x2"),
   ("Run", "t_ini"), ("Run", "t_end"), ("Run", "cfl"),
   ("Output", "max_iter"), ("Output", "iter_frequency"), ("Output", "time_frequency"), ("Output", "time_first_output"), ("Output", "directory"), ("Output", "prefix"), ("Output", "time_job"),
   ("Hydro", "reconstruction"), ("Hydro", "riemann_solver"),
   ("Gravity", "gx0"), ("Gravity", "gx1"), ("Gravity", "gx2"), ("Gravity", "M"),
   ("Perfect Gas", "gamma"), ("Perfect Gas", "mu"),
   ("Boundary Condition", "BC"), ("Boundary Condition", "priority"), ("Boundary Condition", "BC_X0"), ("Boundary Condition", "BC_X0_left"), ("Boundary Condition", "BC_X0_right"), ("Boundary Condition", "BC_X1"), ("Boundary Condition", "BC_X1_left"), ("Boundary Condition", "BC_X1_right"), ("Boundary Condition", "BC_X2"), ("Boundary Condition", "BC_X2_left"), ("Boundary Condition", "BC_X2_right"),
   ("Passive Scalar", "nfx"),
   ("User step", "user_step"),
   ("Pressure fix", "pressure_fix"), ("Pressure fix", "eps_pf")]

/-- The keys read as integers. -/
def integerKeys : List (String × String) :=
  [("Grid", "Nx0_glob"), ("Grid", "Nx1_glob"), ("Grid", "Nx2_glob"), ("Grid", "Nghost"), ("Parallelization", "mpi_dims_cart_x0"),
   ("Parallelization", "mpi_dims_cart_x1"), ("Parallelization", "mpi_dims_cart_x2"), ("Output", "max_iter"), ("Output", "iter_frequency"),
   ("Output", "time_job"), ("Passive Scalar", "nfx")]

end Heracles
