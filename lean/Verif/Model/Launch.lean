import Verif.Model.Ini
import Mathlib.Data.Nat.Notation
import Mathlib.Data.Int.Notation

/-!
Starting the program and leaving it: the command line (main.cpp 98-131), and the resources taken
and given back by `hclpp::main` (main.cpp 105-588, mpi_scope_guard.cpp, grid.cpp 47-83, 89-132).

What MPI_Init and Kokkos do with the command line (they are given `argc` and `argv` by reference
and may take out the arguments meant for them) is not in the repository: it is a parameter.
-/

namespace Heracles

/-- main.cpp 121: the option looked for. -/
def pdiOption : Str := "--pdi-config=".toList

/-- main.cpp 101: `executable.filename()`, what follows the last `/`. -/
def fileNameOf (p : Str) : Str := (p.reverse.takeWhile (· ≠ '/')).reverse

/-- main.cpp 101: a `std::filesystem::path` sent to a stream is written as `std::quoted` writes it:
between double quotes, double quotes and backslashes being preceded by a backslash. -/
def quotedPath (s : Str) : Str :=
  '"' :: s.flatMap (fun c => if c = '"' ∨ c = '\\' then ['\\', c] else [c]) ++ ['"']

/-- main.cpp 98-103, `display_help_message`. -/
def helpMessage (exe : Str) : Str :=
  "usage: ".toList ++ quotedPath (fileNameOf exe) ++ " <path to the ini file> [options]".toList

/-- What comes of a command line. -/
inductive Launched where
  /-- an exception with this text (main.cpp 108-110) -/
  | usage (message : Str)
  /-- a null pointer is made into a string: undefined behaviour (main.cpp 109 when `argc` is 0,
  main.cpp 116 when `argv[1]` is the null pointer that ends `argv`) -/
  | nullArgument
  /-- the configuration file read by INIReader (main.cpp 116), and the file given to PDI, `none`
  being the text compiled in the program (main.cpp 130-135) -/
  | started (ini : Str) (pdi : Option Str)
  deriving DecidableEq

/-- main.cpp 118-127: the loop over the arguments from the third one on. `pdi_config_path` starts
empty and each argument that starts with the option replaces it. -/
def pdiPath (args : List Str) : Str :=
  args.foldl (fun path arg => if pdiOption.isPrefixOf arg then arg.drop pdiOption.length else path) []

/-- main.cpp 105-135. `mpiInit` and `kokkosInit` give the arguments left by MPI_Init
(mpi_scope_guard.cpp 18) and by `Kokkos::ScopeGuard` (main.cpp 114). -/
def launch (mpiInit kokkosInit : List Str → List Str) (argv : List Str) : Launched :=
  match argv with
  | [] => .nullArgument
  | [exe] => .usage (helpMessage exe)
  | argv =>
    match kokkosInit (mpiInit argv) with
    | _ :: ini :: rest => .started ini (if pdiPath rest = [] then none else some (pdiPath rest))
    | _ => .nullArgument

/-! ### Resources -/

/-- What `hclpp::main` takes and has to give back. `memory` stands for the views, the gravity and
the operators, all owned by local variables. -/
inductive Resource where
  | mpi | kokkos | tree | pdi | cart | horizontal | memory
  deriving DecidableEq

/-- What is seen of the program from the libraries it calls. -/
inductive ResAct where
  | take (r : Resource)
  | give (r : Resource)
  deriving DecidableEq

/-- A statement of `hclpp::main`, as far as resources are concerned. -/
inductive Stmt where
  /-- takes a resource -/
  | take (r : Resource)
  /-- from here on the destructor of a local variable gives the resource back -/
  | own (r : Resource)
  /-- gives a resource back by a plain call -/
  | give (r : Resource)
  /-- does something else -/
  | work
  deriving DecidableEq

/-- main.cpp 105-588 in the order of the text. The constructor of `Grid` (grid.cpp 47-76) takes
`comm_cart` (grid.cpp 101) and `comm_cart_horizontal` (grid.cpp 131), then allocates its views
(grid.cpp 62-75); its destructor (grid.cpp 78-83), which exists once the constructor is through,
frees `comm_cart` only. -/
def mainStmts : List Stmt :=
  [ .work,                                  -- 108-110 the number of arguments
    .take .mpi, .own .mpi,                  -- 112
    .take .kokkos, .own .kokkos,            -- 114
    .work,                                  -- 116-128 the configuration file, the options
    .take .tree,                            -- 130-135
    .take .pdi,                             -- 136
    .work,                                  -- 138-139 the parameters
    .take .cart,                            -- 140, grid.cpp 89-101
    .work,                                  -- grid.cpp 102-129, the range
    .take .horizontal,                      -- grid.cpp 131
    .work,                                  -- grid.cpp 62-75, the views of the grid
    .own .cart,                             -- the grid is there
    .work,                                  -- 142-185 print, write_pdi_init, boundary conditions
    .take .memory, .own .memory,            -- 187-301 views, initial state or restart, operators
    .work,                                  -- 305-584 the time loop and the last output
    .give .pdi,                             -- 586
    .give .tree ]                           -- 587

/-- May the statement throw? Anything but the calls of main.cpp 586-587, which are C functions, and
`own`, where nothing is executed. (For the calls of MPI and PDI this is more than can happen.) -/
def Stmt.mayThrow : Stmt → Bool
  | .take _ => true
  | .work => true
  | _ => false

/-- Runs statements: `throws k` says whether statement `k` throws, if it may, before it has taken
anything. `owned` are the resources with a destructor to call, last one first: they are given back
in that order when the function is left, by an exception or by its end. Also tells whether the end
was reached. -/
def runStmts (throws : ℕ → Bool) : ℕ → List Stmt → List Resource → List ResAct × Bool
  | _, [], owned => (owned.map .give, true)
  | k, s :: rest, owned =>
    if s.mayThrow && throws k then (owned.map .give, false)
    else
      match s with
      | .take r => let q := runStmts throws (k + 1) rest owned; (.take r :: q.1, q.2)
      | .own r => runStmts throws (k + 1) rest (r :: owned)
      | .give r => let q := runStmts throws (k + 1) rest owned; (.give r :: q.1, q.2)
      | .work => runStmts throws (k + 1) rest owned

/-- The acts of the whole program, and what it returns (main.cpp 594-604): 0 when `hclpp::main`
came to its end, 1 (EXIT_FAILURE) when an exception was caught. Only exceptions derived from
`std::exception` are considered, the only ones thrown by the code. -/
def programRun (throws : ℕ → Bool) : List ResAct × ℤ :=
  let q := runStmts throws 0 mainStmts []
  (q.1, if q.2 then 0 else 1)

end Heracles
